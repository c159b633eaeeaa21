import Verif.XmlMap.Mappers
/-
`FloatMapper` (eulxml/xmlmap/fields.py:128-140).  Floats and the functions of Python and libxml2 on them are parameters.
-/
namespace Fields
open Xml

/-- Python floats: `float(s)` (`none`: ValueError), libxml2's `number()` of the string value of an element (always a float, NaN if the text is no number),
`str(x)`, and the floats that are determined by `==`: all but NaN and the negative zero. -/
structure FloatLib (F : Type) where
  ofStr : Str → Option F
  number : Str → F
  repr : F → Str
  plain : F → Prop

/-- fields.py:128-140 `FloatMapper.to_python`.  Unlike `IntegerMapper` it has no case for floats: numbers and booleans are no valid argument of
`etree.XPath.__call__` (TypeError, which is not caught). -/
def floatToPython {F : Type} (L : FloatLib F) : Option Item → Except PyErr (Option F)
  | none => .ok none
  | some (.str s) => .ok (L.ofStr s)
  | some (.elem n) => .ok (some (L.number n.strVal))
  | some _ => .error .typeError

/-- fields.py:91-97 `Mapper.to_xml` on floats: `str(x)`. -/
def floatToXml {F : Type} (L : FloatLib F) (v : Option F) : Except PyErr (Option Str) := .ok (v.map L.repr)

end Fields
