import Verif.Spec.DeepList
/-
Specification: a list field `p/q[ps]` whose parent path `p` selects several elements.  The field shows the items of all parents, one parent after the other.
-/
namespace Spec
open Xml

/-- Item `k` of all items, counted over the parents, becomes `v`. -/
def setIn {α} : List (List α) → Nat → α → List (List α)
  | [], _, _ => []
  | g :: gs, k, v => if k < g.length then g.set k v :: gs else g :: setIn gs (k - g.length) v

/-- Item `k` of all items, counted over the parents, is taken out. -/
def eraseIn {α} : List (List α) → Nat → List (List α)
  | [], _ => []
  | g :: gs, k => if k < g.length then g.eraseIdx k :: gs else g :: eraseIn gs (k - g.length)

/-- New items are put at the end of the first parent. -/
def addFirst {α} (vs : List α) : List (List α) → List (List α)
  | [] => []
  | g :: gs => (g ++ vs) :: gs

/-- What an operation does with the items of the parents.  Operations that only look, and those that set or take out an item, are those of the list of all items; new items
go to the end of the first parent. -/
def groupOp {α} [DecidableEq α] (gs : List (List α)) : ListOp α → Except PyErr (ListRes α) × List (List α)
  | .set i v =>
    if i = gs.flatten.length then (.ok .unit, addFirst [v] gs)
    else match pos gs.flatten.length i with
    | some k => (.ok .unit, setIn gs k v)
    | none => (.error .indexError, gs)
  | .del i => match pos gs.flatten.length i with
    | some k => (.ok .unit, eraseIn gs k)
    | none => (.error .indexError, gs)
  | .pop i => match pos gs.flatten.length (i.getD (gs.flatten.length - 1)) with
    | some k => match gs.flatten[k]? with
      | some v => (.ok (.val v), eraseIn gs k)
      | none => (.error .indexError, gs)
    | none => (.error .indexError, gs)
  | .remove v => if v ∈ gs.flatten then (.ok .unit, eraseIn gs (gs.flatten.idxOf v)) else (.error .valueError, gs)
  | .append v => (.ok .unit, addFirst [v] gs)
  | .extend vs => (.ok .unit, addFirst vs gs)
  | .insert i v => if i = gs.flatten.length then (.ok .unit, addFirst [v] gs) else (.error .indexError, gs)
  | op => ((pyList gs.flatten op).1, gs)

/-- A sequence of operations; an exception does not end it. -/
def groupOps {α} [DecidableEq α] (gs : List (List α)) : List (ListOp α) → List (Except PyErr (ListRes α)) × List (List α)
  | [] => ([], gs)
  | op :: ops => ((groupOp gs op).1 :: (groupOps (groupOp gs op).2 ops).1, (groupOps (groupOp gs op).2 ops).2)

/-- No operation of the sequence inserts in front of the end. -/
def groupEnds {α} [DecidableEq α] : List (List α) → List (ListOp α) → Prop
  | _, [] => True
  | gs, op :: ops => op.atEnd gs.flatten ∧ groupEnds (groupOp gs op).2 ops

/-- Does the operation put no new item in a list with `len` items? -/
def ListOp.addsNone {α} (len : Nat) : ListOp α → Prop
  | .append _ | .extend _ | .insert _ _ => False
  | .set i _ => i ≠ len
  | _ => True

/-- No operation of the sequence puts a new item in the list. -/
def addNone {α} [DecidableEq α] : List α → List (ListOp α) → Prop
  | _, [] => True
  | l, op :: ops => op.addsNone l.length ∧ addNone (pyList l op).2 ops

/-- The element changed only in the members of elements that the path `p` selects: it is the same, or one of these elements changed in its members, and so on. -/
inductive OnlyMembers (p : List Step) (q : QName) (ps : List Pred) : Node → Node → Prop
  | same (n : Node) : OnlyMembers p q ps n n
  | change {n m m' n' : Node} {b : Node.Addr} : .elem b ∈ Step.matches p n → n.get b = some m → SameButMembers q ps m m' →
      OnlyMembers p q ps (n.modify b (fun _ => m')) n' → OnlyMembers p q ps n n'

end Spec
