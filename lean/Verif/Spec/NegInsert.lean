import Verif.Spec.PyList
/-
Specification: the list that a list field is when items are also inserted at negative indices.
-/
namespace Spec

/-- Inserting at a negative index is no insertion of the value: at the position the index denotes there is a blank item afterwards, and the item that was at the position, now behind the
blank one, is replaced by the value.  A position that does not exist is an `IndexError` (Python's `list` would insert at the front).  All other operations are those of a list. -/
def blankingList {α} [DecidableEq α] (blank : α) (l : List α) : ListOp α → Except PyErr (ListRes α) × List α
  | .insert i v =>
    if 0 ≤ i then pyList l (.insert i v)
    else match pos l.length i with
    | some k => (.ok .unit, l.take k ++ blank :: v :: l.drop (k + 1))
    | none => (.error .indexError, l)
  | op => pyList l op

/-- A sequence of operations; an exception does not end it. -/
def blankingListAll {α} [DecidableEq α] (blank : α) (l : List α) : List (ListOp α) → List (Except PyErr (ListRes α)) × List α
  | [] => ([], l)
  | op :: ops => ((blankingList blank l op).1 :: (blankingListAll blank (blankingList blank l op).2 ops).1, (blankingListAll blank (blankingList blank l op).2 ops).2)

end Spec
