import Verif.Spec.ManyList
/-
Specification: what `insert` in front of the end does to a list field whose XPath has several steps.
-/
namespace Spec

/-- Inserting in front of the end: a blank item appears at the end of the first parent; then the value replaces the item that the index denotes in the list that is one
longer (a negative index counts from its end, so -1 denotes the last item of it).  An index in front of the first item is an `IndexError`.  All other operations: `groupOp`. -/
def overOp {α} [DecidableEq α] (blank : α) (gs : List (List α)) : ListOp α → Except PyErr (ListRes α) × List (List α)
  | .insert i v =>
    if (gs.flatten.length : Int) ≤ i then groupOp gs (.insert i v)
    else if i < -(gs.flatten.length : Int) then (.error .indexError, gs)
    else (.ok .unit, setIn (addFirst [blank] gs) (if 0 ≤ i then i else gs.flatten.length + 1 + i).toNat v)
  | op => groupOp gs op

/-- A sequence of operations; an exception does not end it. -/
def overOps {α} [DecidableEq α] (blank : α) (gs : List (List α)) : List (ListOp α) → List (Except PyErr (ListRes α)) × List (List α)
  | [] => ([], gs)
  | op :: ops => ((overOp blank gs op).1 :: (overOps blank (overOp blank gs op).2 ops).1, (overOps blank (overOp blank gs op).2 ops).2)

end Spec
