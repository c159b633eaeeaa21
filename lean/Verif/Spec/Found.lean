import Verif.Spec.SimplePath
/-
Specification of C120: what an assignment does to the node that a field has found.
-/
namespace Spec
open Xml XPath

/-- The last step of a path, whatever comes in front of it: `b/@c` ends in `@c`, and so do `.//b/@c`, `../b[1]/@c` and `f(x)[2]//@c`. -/
inductive EndsIn : Expr → Option Str → NodeTest → Prop
  | step (ax : Option Str) (t : NodeTest) (ps : List Expr) : EndsIn (.step ax t ps) ax t
  | slash (l : Expr) {r : Expr} {ax : Option Str} {t : NodeTest} : EndsIn r ax t → EndsIn (.binary l .slash r) ax t
  | dslash (l : Expr) {r : Expr} {ax : Option Str} {t : NodeTest} : EndsIn r ax t → EndsIn (.binary l .dslash r) ax t

/-- What is known of the engine: a path that ends in a name test selects elements, and attributes of this name; one that ends in `text()` selects texts. -/
structure FitsStep (ctx : Ctx) (e : Expr) (r : Ref) : Prop where
  name : ∀ ax pfx nm, EndsIn e ax (.name pfx nm) → (∃ b, r = .elem b) ∨ ∃ b q, r = .attr b q ∧ (nm ≠ c%"*" → resName ctx pfx nm = some q)
  text : ∀ ax lit, EndsIn e ax (.type c%"text" lit) → (∃ b, r = .text b) ∨ ∃ b, r = .tail b

/-- Assigning the text `t` to a field with the XPath `e` that has found the node `r` makes `s'` of the document `s`: the text of an element without children, or an attribute, or the text in front of
the first child of an element, is replaced; attributes and texts only if the last step of the XPath names them. -/
inductive Assigned (ctx : Ctx) (e : Expr) (t : Str) (s : Node) : Ref → Node → Prop
  | elem (b : Node.Addr) (m : Node) : s.get b = some m → m.children = [] → Assigned ctx e t s (.elem b) (s.modify b (Node.setText (some t)))
  | attr (b : Node.Addr) (q : QName) (ax pfx : Option Str) (nm : Str) : EndsIn e ax (.name pfx nm) → resName ctx pfx nm = some q → Assigned ctx e t s (.attr b q) (s.modify b (Node.setAttr q t))
  | text (b : Node.Addr) (ax lit : Option Str) : EndsIn e ax (.type c%"text" lit) → Assigned ctx e t s (.text b) (s.modify b (Node.setText (some t)))

/-- Two cases in which the code goes wrong are left out: texts behind a child, and attributes that are called `text`. -/
def Sane : Ref → Prop
  | .tail _ => False
  | .attr _ q => q.loc ≠ c%"text"
  | _ => True

end Spec
