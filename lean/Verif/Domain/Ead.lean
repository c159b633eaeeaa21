import Verif.Domain.Reads
/-
Model of `UnitTitle.short`, `Component.hasSubseries`, `SubordinateComponents.hasSeries` (eulxml/xmlmap/eadmap.py:159-312).
-/
namespace Ead
open Xml XPath Fields

/-- eadmap.py:27 -/
def ns : Str := c%"urn:isbn:1-931666-22-9"
/-- eadmap.py:35-39: the prefixes that are always declared. -/
def ctx : Ctx := ⟨some [(c%"e", ns), (c%"xlink", c%"http://www.w3.org/1999/xlink"), (c%"exist", c%"http://exist.sourceforge.net/NS/exist")], []⟩
/-- An element name. -/
def q (tag : Str) : QName := ⟨some ns, tag⟩
/-- eadmap.py:270: the XPath of `Component.c`. -/
def componentXPath : Str := c%"e:c02|e:c03|e:c04|e:c05|e:c06|e:c07|e:c08|e:c09|e:c10|e:c11|e:c12"
/-- eadmap.py:298: the XPath of `SubordinateComponents.c`. -/
def topXPath : Str := c%"e:c01"

section
variable [PyUnicode] (eng : Engine)

/-- `self.c[0].c and self.c[0].c[0]` (eadmap.py:283, 309) as a truth value, with `b` the element of `self.c[0]`.  A NodeList is true if it is not empty (`__len__`), an XmlObject
is always true (it has neither `__len__` nor `__bool__`). -/
def hasComponents (b : Node.Addr) : M Bool := do
  let cs ← Domain.getNodes eng ctx componentXPath b
  if cs.length = 0 then pure false
  else do
    let _ ← ofExcept (pyGet cs 0)
    pure true

/-- eadmap.py:274-286 `Component.hasSubseries`. -/
def hasSubseries (a : Node.Addr) : M Bool := do
  let cs ← Domain.getNodes eng ctx componentXPath a
  if cs.length = 0 then pure false
  else do
    let c0 ← ofExcept (pyGet cs 0)
    let level ← Domain.getStr eng ctx c%"@level" c0
    if level = some c%"series" ∨ level = some c%"subseries" then pure true
    else hasComponents eng c0

/-- eadmap.py:301-312 `SubordinateComponents.hasSeries`. -/
def hasSeries (a : Node.Addr) : M Bool := do
  let cs ← Domain.getNodes eng ctx topXPath a
  if cs.length = 0 then pure false
  else do
    let c0 ← ofExcept (pyGet cs 0)
    let level ← Domain.getStr eng ctx c%"@level" c0
    if level = some c%"series" then pure true
    else hasComponents eng c0

/-- What `UnitTitle.short` returns: the object itself, or a new object that wraps the root of another tree. -/
inductive Short where
  | self
  | copy (n : Node)
  deriving DecidableEq, Repr

/-- `deepcopy(node)`: a new tree with the same content.  What lxml does with the text after the copied element is left open (`keepTail`). -/
def deepcopy (keepTail : Bool) (n : Node) : Node := if keepTail then n else n.setTail none

/-- eadmap.py:178-180 on the copy: `ut.node.remove(ut.unitdate.node)`.  `None` has no `node`; `remove` needs a child. -/
def removeUnitdate : M Unit := do
  match ← Domain.getNode eng ctx c%"e:unitdate" [] with
  | some [i] => edit [] (Node.removeChild i)
  | some _ => raise .valueError
  | none => raise .attributeError

/-- eadmap.py:167-181 `UnitTitle.short`.  The copy is a tree of its own: what happens to it is not seen in the document. -/
def short (keepTail : Bool) (a : Node.Addr) : M Short := do
  match ← Domain.getNode eng ctx c%"e:unitdate" a with
  | none => pure .self
  | some _ => do
    let n ← nodeAt a
    let r := removeUnitdate eng (deepcopy keepTail n)
    match r.1 with
    | .ok _ => pure (.copy r.2)
    | .error e => raise e
end
end Ead
