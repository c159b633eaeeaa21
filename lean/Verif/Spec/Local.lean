import Verif.Xml.Engine
import Verif.XmlMap.Fields
/-
Specification: what it means that an XPath looks downwards only, and that a program for an object acts on the object's element only.
-/
namespace Xml

/-- A result for an element, seen from the whole document in which the element is at `a`. -/
def XVal.under (a : Node.Addr) : XVal → XVal
  | .nodes l => .nodes (l.map (Ref.under a))
  | v => v

end Xml

namespace Fields
open Xml

/-- The same for a match. -/
def Found.under (a : Node.Addr) : Found → Found
  | .ref r => .ref (r.under a)
  | f => f

end Fields

namespace Spec
open Xml XPath Fields

/-- The XPath looks downwards only: from the element `n` of a document it selects what it selects in a document that consists of `n`, and this exists in `n`. -/
def Downward (eng : Engine) (ctx : Ctx) (x : Str) : Prop := ∀ (s n : Node) (a : Node.Addr), s.get a = some n →
  eng.xpath x s a ctx = (eng.xpath x n [] ctx).map (XVal.under a) ∧
  ∀ l, eng.xpath x n [] ctx = .ok (.nodes l) → ∀ r ∈ l, (n.get r.addr).isSome

/-- The XPath selects what is inside of the element only, never the element itself. -/
def Inside (eng : Engine) (ctx : Ctx) (x : Str) : Prop := ∀ (n : Node) (l : List Ref), eng.xpath x n [] ctx = .ok (.nodes l) → Ref.elem [] ∉ l

/-- The path ends in a node test such as `text()`. -/
def textEnd : Expr → Bool
  | .step _ (.type _ _) _ => true
  | .binary _ .slash r => textEnd r
  | _ => false

/-- A program for an object: given the address of the object's element, it runs on the document.  It is local if it does to the object's element just what it does to a document that consists of it, and nothing else;
what it returns is the same (with addresses `re` translated). -/
def LocalProg {α : Type} (re : Node.Addr → α → α) (m : Node.Addr → M α) : Prop := ∀ (s n : Node) (a : Node.Addr), s.get a = some n →
  m a s = ((m [] n).1.map (re a), s.modify a (fun _ => (m [] n).2))

/-- The XPaths that assigning to, creating or deleting a field looks up besides its own: the parts of the path up to each slash, and the steps. -/
def lookups [PyUnicode] : Expr → List Str
  | .step ax t ps => [Expr.ser (.step ax t ps)]
  | .binary l .slash r => l.ser :: (lookups l ++ lookups r)
  | _ => []

/-- Two expressions joined by a slash. -/
def isSlash : Expr → Bool
  | .binary _ .slash _ => true
  | _ => false

/-- A path that has no path in parentheses behind a slash (XPath 1.0 has none). -/
def flat : Expr → Bool
  | .binary l .slash r => flat l && !isSlash r
  | _ => true

end Spec
