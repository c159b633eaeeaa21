import Verif.Spec.ListField
import Verif.Spec.Create
/-
Specification: a list field whose XPath has several child steps, `p/q[ps]`, where the parent path `p` selects at most one element.
-/
namespace Spec
open Xml

/-- The elements that a path selects, in document order. -/
def selected (path : List Step) (n : Node) : List Node := (Step.matches path n).filterMap (fun r => n.get r.addr)

/-- The element with its parent path: what is missing of it is created, at the end of the first match of the longest prefix that is there. -/
def ensure (p : List Step) (n : Node) : Node :=
  match Step.matches p n with
  | [] => n.modify (missing p n).1 (buildPath (missing p n).2 id)
  | _ => n

/-- The document changed at most in the members of the list: it is the same; or the parent (which was created if it was missing) is the same
except for its members. -/
def DeepSame (p : List Step) (q : QName) (ps : List Pred) (n n' : Node) : Prop :=
  n' = n ∨ ∃ b m m', Step.matches p (ensure p n) = [.elem b] ∧ (ensure p n).get b = some m ∧ SameButMembers q ps m m' ∧
    n' = (ensure p n).modify b (fun _ => m')

/-- Operations for which a list field with several steps is claimed to be a list `l`: no insertion in front of the end. -/
def ListOp.atEnd {α} (l : List α) : ListOp α → Prop
  | .insert i _ => (l.length : Int) ≤ i
  | _ => True

/-- A sequence of such operations, beginning with the list `l`. -/
def atEnds {α} [DecidableEq α] : List α → List (ListOp α) → Prop
  | _, [] => True
  | l, op :: ops => op.atEnd l ∧ atEnds (pyList l op).2 ops

end Spec
