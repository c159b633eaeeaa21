import Verif.Xml.Node
/-
What eulxml sees of lxml's XPath engine.

Not part of /repo.  The engine is a parameter of the model: theorems state which behaviour of it they use
(`Spec.EngineOk` in Verif/Spec/SimplePath.lean).
-/
namespace Xml

/-- A node in an XPath result: an element; an attribute ("smart string" whose `getparent()` is the element); the
text node before the first child of an element (`getparent()` is the element); a text node after an element
(`is_tail`; `getparent()` is the element in front of it).  Addresses are relative to the `XmlObject`'s node. -/
inductive Ref where
  | elem (a : Node.Addr)
  | attr (a : Node.Addr) (q : QName)
  | text (a : Node.Addr)
  | tail (a : Node.Addr)
  deriving DecidableEq, Repr

/-- The element address in a reference: the element itself, or `getparent()` of a smart string. -/
def Ref.addr : Ref → Node.Addr
  | .elem a | .attr a _ | .text a | .tail a => a

/-- The same reference seen from an ancestor at distance `p`. -/
def Ref.under (p : Node.Addr) : Ref → Ref
  | .elem a => .elem (p ++ a)
  | .attr a q => .attr (p ++ a) q
  | .text a => .text (p ++ a)
  | .tail a => .tail (p ++ a)

/-- An XPath number: NaN, infinities, or a decimal `(-1)^neg * mant / 10^scale`.
Simplification: exact decimals instead of binary64. -/
inductive XNum where
  | nan
  | inf (neg : Bool)
  | dec (neg : Bool) (mant scale : Nat)
  deriving DecidableEq, Repr

/-- Result of `node.xpath(...)`: node set, string, number, boolean. -/
inductive XVal where
  | nodes (l : List Ref)
  | str (s : Str)
  | num (x : XNum)
  | bool (b : Bool)
  deriving DecidableEq, Repr

/-- Value of an XPath variable passed in the context. Simplification: strings and non-negative integers. -/
inductive Lit where
  | str (s : Str)
  | num (n : Nat)
  deriving DecidableEq, Repr

/-- The `context` dictionary: `namespaces` (if the key is present) and XPath variables. -/
structure Ctx where
  namespaces : Option (List (Str × Str))
  vars : List (Str × Lit)
  deriving Repr

/-- `node.xpath(string, **context)` on the element at an address of the document. -/
structure Engine where
  xpath : Str → Node → Node.Addr → Ctx → Except PyErr XVal

/-- A character that lxml accepts in text and attribute values (`_utf8`): no NUL, no control characters except
tab, newline and carriage return, no U+FFFE / U+FFFF. -/
def xmlChar (c : Char) : Bool :=
  (32 ≤ c.toNat && c.toNat ≠ 0xFFFE && c.toNat ≠ 0xFFFF) || c == '\t' || c == '\n' || c == '\r'

/-- A string that lxml accepts. -/
def xmlOk (s : Str) : Bool := s.all xmlChar

end Xml
