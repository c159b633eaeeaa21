import Verif.Domain.Reads
/-
Model of `TeiLine` (eulxml/xmlmap/teimap.py:33-43).
-/
namespace Tei
open Xml XPath Fields

/-- teimap.py:28-31: the prefixes that are always declared. -/
def ctx : Ctx := ⟨some [(c%"tei", c%"http://www.tei-c.org/ns/1.0"), (c%"xml", c%"http://www.w3.org/XML/1998/namespace")], []⟩

section
variable [PyUnicode] (eng : Engine)

/-- teimap.py:37-43 `TeiLine.indent`.  `None` has no method `startswith`. -/
def indent (a : Node.Addr) : M (Option Int) := do
  match ← Domain.getStr eng ctx c%"@rend" a with
  | none => raise .attributeError
  | some rend =>
    if (c%"indent").isPrefixOf rend then
      let indentation := rend.drop (c%"indent").length
      if indentation = [] then pure (some 0)
      else match pyInt indentation with
        | some n => pure (some n)
        | none => raise .valueError
    else pure none
end
end Tei
