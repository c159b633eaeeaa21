import Verif.Spec.PyList
/-
Specification of a list of things that can be at one place only, like books on a shelf: putting a thing somewhere takes it away from where it was.
-/
namespace Spec

/-- Operations with the things `k : Nat`. -/
inductive ShelfOp where
  | get (i : Int)
  | set (i : Int) (k : Nat)
  | append (k : Nat)
  | extend (ks : List Nat)
  | insert (i : Nat) (k : Nat)
  | del (i : Int)
  | pop (i : Option Int)

/-- The things without `k`. -/
def takenOff (k : Nat) (l : List Nat) : List Nat := l.filter (fun j => decide (j ≠ k))

/-- The result of an operation (`get` and `pop` return a thing) and the things on the shelf afterwards. -/
def shelf (l : List Nat) : ShelfOp → Except PyErr (Option Nat) × List Nat
  | .get i => match pos l.length i with
    | some t => (.ok l[t]?, l)
    | none => (.error .indexError, l)
  | .set i k => if i = l.length then (.ok none, takenOff k l ++ [k])
    else match pos l.length i with
    | some t => (.ok none, takenOff k (l.take t) ++ k :: takenOff k (l.drop (t + 1)))
    | none => (.error .indexError, l)
  | .append k => (.ok none, takenOff k l ++ [k])
  | .extend ks => (.ok none, ks.foldl (fun l k => takenOff k l ++ [k]) l)
  | .insert i k => if i ≤ l.length then (.ok none, takenOff k (l.take i) ++ k :: takenOff k (l.drop i))
    else (.error .indexError, l)
  | .del i => match pos l.length i with
    | some t => (.ok none, l.eraseIdx t)
    | none => (.error .indexError, l)
  | .pop i => match pos l.length (i.getD (l.length - 1)) with
    | some t => (.ok l[t]?, l.eraseIdx t)
    | none => (.error .indexError, l)

/-- A sequence of operations; an exception does not end it. -/
def shelfAll (l : List Nat) : List ShelfOp → List (Except PyErr (Option Nat)) × List Nat
  | [] => ([], l)
  | op :: ops => ((shelf l op).1 :: (shelfAll (shelf l op).2 ops).1, (shelfAll (shelf l op).2 ops).2)

/-- The things an operation puts on the shelf. -/
def ShelfOp.things : ShelfOp → List Nat
  | .set _ k | .append k | .insert _ k => [k]
  | .extend ks => ks
  | _ => []

end Spec
