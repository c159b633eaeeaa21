import Verif.Spec.Delete
/-
Specification: fields of one object that do not interfere, and what it means that an object behaves like a record.
-/
namespace Spec
open Xml

/-- No element is reached by both child steps: their names differ, or no element satisfies both sets of predicates. -/
def Apart (q : QName) (ps : List Pred) (q' : QName) (ps' : List Pred) : Prop :=
  ∀ m : Node, m.isElem q = true → satAll ps m = true → m.isElem q' = true → satAll ps' m = true → False

/-- Two paths part: they have some (perhaps no) leading steps in common, the same with the same predicates, and then both go on, differently:
to elements that cannot be the same, to different attributes, or one to an element and one to an attribute.  In particular no path is a prefix of the
other. -/
def Part : List Step → List Step → Prop
  | .child q ps :: r, .child q' ps' :: r' => Apart q ps q' ps' ∨ (q = q' ∧ ps = ps' ∧ Part r r')
  | .attr q :: _, .attr q' :: _ => q ≠ q'
  | .child _ _ :: _, .attr _ :: _ => True
  | .attr _ :: _, .child _ _ :: _ => True
  | _, _ => False

/-- Each step of the path selects at most one node. -/
def Single (p : List Step) (n : Node) : Prop := ∀ i, (Step.matches (p.take i) n).length ≤ 1

end Spec
