import Verif.Xml.NodeLemmas
import Verif.Xml.Engine
/-
Specification: what it means that nothing but one node changes.  Existing elements are identified by their addresses, so
"the same element is at the same address" includes the order of children.
-/
namespace Spec
open Xml

/-- Every element of `s` is in `s'` at the same place, with the same tag and tail and at least the same number of
children; text and attributes are the same except at the element `c0` (if any). -/
def Extends (c0 : Option Node.Addr) (s s' : Node) : Prop := ∀ c m, s.get c = some m → ∃ m', s'.get c = some m' ∧
  m'.tag = m.tag ∧ m'.tail = m.tail ∧ m.children.length ≤ m'.children.length ∧
  (c0 ≠ some c → m'.text = m.text ∧ m'.attrs = m.attrs)

/-- `s'` is `s` except for the text or attribute `x`, and except for at most one new last child of the element
`grown`. -/
def Kept (x : Ref) (grown : Option Node.Addr) (s s' : Node) : Prop := ∀ c m, s.get c = some m → ∃ m', s'.get c = some m' ∧
  m'.tag = m.tag ∧ m'.tail = m.tail ∧
  m'.children.length = m.children.length + (if grown = some c then 1 else 0) ∧
  (x ≠ .elem c → x ≠ .text c → m'.text = m.text) ∧
  ((∀ q, x ≠ .attr c q) → m'.attrs = m.attrs) ∧
  (∀ q, x ≠ .attr c q → m'.attr? q = m.attr? q) ∧
  m.attrs.map Prod.fst <+: m'.attrs.map Prod.fst

end Spec
