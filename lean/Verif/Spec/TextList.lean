import Verif.Spec.Field
import Verif.Spec.AttrList
/-
Specification of C118: list fields whose XPath ends in `text()`.
-/
namespace Spec
open Xml XPath

/-- The texts of the elements that the child steps select, in document order. -/
def textsAt : List Step → Node → List Str
  | [], n => n.text.toList
  | .child q ps :: r, n => n.children.flatMap (fun c => if c.isElem q && satAll ps c then textsAt r c else [])
  | _, _ => []

/-- The document without these texts: all are replaced by the empty string. -/
def blanked : List Step → Node → Node
  | [], n => if n.text.isSome then n.setText (some []) else n
  | .child q ps :: r, n => n.withChildren (n.children.map (fun c => if c.isElem q && satAll ps c then blanked r c else c))
  | _, n => n

/-- The elements that the child steps select have no text but the one in front of their first child (for instance because they have no children). -/
def oneText : List Step → Node → Prop
  | [], n => ∀ c ∈ n.children, c.tail = none
  | .child q ps :: r, n => ∀ c ∈ n.children, (c.isElem q && satAll ps c) = true → oneText r c
  | _, _ => True

/-- All predicates are about attributes. -/
def attrSteps (pp : List Step) : Bool := pp.all (fun st => match st with
  | .child _ ps => attrOnly ps
  | _ => false)

end Spec
