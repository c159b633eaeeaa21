import Verif.Spec.Field
import Verif.Spec.PyList
/-
Specification: the members of a list field whose XPath is a single child step `q[ps]`, and what must stay the same.
-/
namespace Spec
open Xml

/-- Is the child a member of the list? -/
def isMember (q : QName) (ps : List Pred) (c : Node) : Bool := c.isElem q && satAll ps c

/-- The members, in document order. -/
def members (q : QName) (ps : List Pred) (n : Node) : List Node := n.children.filter (isMember q ps)

/-- The children that are not members, in document order. -/
def others (q : QName) (ps : List Pred) (n : Node) : List Node := n.children.filter (fun c => !isMember q ps c)

/-- The element is the same except for the members of the list: same tag, attributes, text, tail, and the same other children in
the same order. -/
def SameButMembers (q : QName) (ps : List Pred) (n n' : Node) : Prop :=
  n'.tag = n.tag ∧ n'.attrs = n.attrs ∧ n'.text = n.text ∧ n'.tail = n.tail ∧ others q ps n' = others q ps n

/-- `c` was inserted at the end of the list: directly behind the last member, or as last child if there is no member. -/
def InsertedLast (q : QName) (ps : List Pred) (c : Node) (n n' : Node) : Prop :=
  ∃ A B, n.children = A ++ B ∧ n' = n.withChildren (A ++ c :: B) ∧ (∀ m ∈ B, isMember q ps m = false) ∧
    (A.getLast?.any (isMember q ps) = true ∨ (B = [] ∧ members q ps n = []))

end Spec
