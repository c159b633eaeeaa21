import Verif.Basic
/-
Specification: a Python list as an abstract data type, and sequences of operations on it.

Deviations of the documented interface of `NodeList` from `list` are marked: assigning at index `len` appends
(fields.py:743-744), and inserting behind the end raises (fields.py:824-826).
-/
namespace Spec

/-- The operations of a list; indices are any integers. -/
inductive ListOp (α : Type) where
  | len
  | get (i : Int)
  | set (i : Int) (v : α)
  | del (i : Int)
  | append (v : α)
  | extend (vs : List α)
  | insert (i : Int) (v : α)
  | pop (i : Option Int)
  | remove (v : α)
  | index (v : α)
  | count (v : α)
  | contains (v : α)
  | eq (l : List α)

/-- What an operation returns. -/
inductive ListRes (α : Type) where
  | unit
  | nat (n : Nat)
  | val (v : α)
  | bool (b : Bool)
  deriving DecidableEq

/-- The position an index denotes: from the front, or from the back if negative. -/
def pos (len : Nat) (i : Int) : Option Nat :=
  if 0 ≤ i ∧ i < len then some i.toNat
  else if i < 0 ∧ -(len : Int) ≤ i then some (len + i).toNat
  else none

/-- The result of an operation and the list after it. -/
def pyList {α} [DecidableEq α] (l : List α) : ListOp α → Except PyErr (ListRes α) × List α
  | .len => (.ok (.nat l.length), l)
  | .get i => match pos l.length i with
    | some k => match l[k]? with
      | some v => (.ok (.val v), l)
      | none => (.error .indexError, l)
    | none => (.error .indexError, l)
  | .set i v =>
    if i = l.length then (.ok .unit, l ++ [v])  -- deviation
    else match pos l.length i with
    | some k => (.ok .unit, l.set k v)
    | none => (.error .indexError, l)
  | .del i => match pos l.length i with
    | some k => (.ok .unit, l.eraseIdx k)
    | none => (.error .indexError, l)
  | .append v => (.ok .unit, l ++ [v])
  | .extend vs => (.ok .unit, l ++ vs)
  | .insert i v =>
    if 0 ≤ i ∧ i ≤ l.length then (.ok .unit, l.take i.toNat ++ v :: l.drop i.toNat)
    else (.error .indexError, l)  -- deviation
  | .pop i => match pos l.length (i.getD (l.length - 1)) with
    | some k => match l[k]? with
      | some v => (.ok (.val v), l.eraseIdx k)
      | none => (.error .indexError, l)
    | none => (.error .indexError, l)
  | .remove v => if v ∈ l then (.ok .unit, l.erase v) else (.error .valueError, l)
  | .index v => if v ∈ l then (.ok (.nat (l.idxOf v)), l) else (.error .valueError, l)
  | .count v => (.ok (.nat (l.count v)), l)
  | .contains v => (.ok (.bool (decide (v ∈ l))), l)
  | .eq l' => (.ok (.bool (decide (l = l'))), l)

/-- A sequence of operations; an exception does not end it. -/
def pyListAll {α} [DecidableEq α] (l : List α) : List (ListOp α) → List (Except PyErr (ListRes α)) × List α
  | [] => ([], l)
  | op :: ops => ((pyList l op).1 :: (pyListAll (pyList l op).2 ops).1, (pyListAll (pyList l op).2 ops).2)

/-- Operations for which `NodeList` is claimed to be a list: no insertion at a negative index. -/
def ListOp.supported {α} : ListOp α → Bool
  | .insert i _ => decide (0 ≤ i)
  | _ => true

/-- The values an operation stores. -/
def ListOp.values {α} : ListOp α → List α
  | .set _ v | .append v | .insert _ v => [v]
  | .extend vs => vs
  | _ => []

end Spec
