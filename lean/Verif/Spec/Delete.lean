import Verif.Spec.Create
/-
Specification: what deleting a field with a simple path removes.
-/
namespace Spec
open Xml

/-- The attributes that predicates require with a value. -/
def eqAttrs (ps : List Pred) : List QName := ps.filterMap (fun p => match p with
  | .attr q (some _) => some q
  | _ => none)

/-- The predicates of a step. -/
def Step.preds : Step → List Pred
  | .child _ ps => ps
  | _ => []

/-- All predicates on the path are attribute predicates. -/
def attrPreds (p : List Step) : Bool := p.all (fun st => attrOnly st.preds)

/-- No children (not even comments), and no attributes except those required with a value by the predicates. The text does not
count. -/
def emptyBut (ps : List Pred) (m : Node) : Bool := m.children.isEmpty && m.attrs.all (fun a => decide (a.1 ∈ eqAttrs ps))

/-- Remove the element at an address, with its tail. -/
def removeAt (b : Node.Addr) (n : Node) : Node := n.modify b.dropLast (Node.removeChild (b.getLast?.getD 0))

/-- Going up from the element at `b`, which the steps (given last step first) reach: remove it if it is empty except for
the predicates of its step and its parent is the first match of the steps before, and go on with the parent. -/
def cleanupR : List Step → Node.Addr → Node → Node
  | [], _, n => n
  | st :: rp, b, n =>
    if (n.get b).any (emptyBut st.preds) = true ∧ (Step.matches rp.reverse n).head? = some (.elem b.dropLast) then
      cleanupR rp b.dropLast (removeAt b n)
    else n

/-- Clean up the ancestors on the path `pre`, whose first match is the element at `b`. -/
def cleanup (pre : List Step) (b : Node.Addr) (n : Node) : Node := cleanupR pre.reverse b n

/-- Remove a match from the element it belongs to: an element from its parent, an attribute, and text is emptied. -/
def removeRef : Ref → Node → Node
  | .elem b, n => removeAt b n
  | .attr b q, n => n.modify b (Node.delAttr q)
  | .text b, n => n.modify b (Node.setText (some []))
  | .tail _, n => n

/-- The element a match is found in: the parent of an element, the element of an attribute or a leading text. -/
def Ref.holder : Ref → Node.Addr
  | .elem b => b.dropLast
  | .attr b _ => b
  | .text b => b
  | .tail b => b.dropLast

/-- What deleting the field does to the element, if the first match `x` of the path is in the first match of the path
without its last step: remove it, then clean up. -/
def delete (path : List Step) (n : Node) : Node :=
  match (Step.matches path n).head? with
  | some x => cleanup path.dropLast (Ref.holder x) (removeRef x n)
  | none => n

/-- The first match is in the first match of the path without its last step. -/
def Aligned (path : List Step) (n : Node) : Prop :=
  ∀ x, (Step.matches path n).head? = some x → (Step.matches path.dropLast n).head? = some (.elem (Ref.holder x))

/-- All predicates on the path compare an attribute with a value. -/
def eqPreds (p : List Step) : Bool := p.all (fun st => st.preds.all (fun q => match q with
  | .attr _ (some _) => true
  | _ => false))

/-- The elements on the path that are there already (first matches of prefixes) have some child or some attribute besides those
required by the predicates. -/
def NotEmpty (p : List Step) (n : Node) : Prop := ∀ i st b m, p[i]? = some st →
  (Step.matches (p.take (i + 1)) n).head? = some (.elem b) → n.get b = some m → emptyBut st.preds m = false

end Spec
