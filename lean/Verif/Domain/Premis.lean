import Verif.Domain.Reads
/-
Model of `XmlObject.__init__` (eulxml/xmlmap/core.py:311-348) as far as the element and the fields are concerned, and of `Premis.__init__` (eulxml/xmlmap/premis.py:146-151).
-/
namespace Premis
open Xml XPath Fields Domain

/-- premis.py:27 -/
def ns : Str := c%"info:lc/xmlns/premis-v2"
/-- premis.py:43-46: the prefixes that are always declared. -/
def ctx : Ctx := ⟨some [(c%"p", ns), (c%"xsi", c%"http://www.w3.org/2001/XMLSchema-instance")], []⟩

/-- A keyword argument: the name of the attribute, and the assignment `setattr(self, name, value)`. -/
abbrev Kwarg := Str × M Unit

/-- core.py:335-337: the assignments, in the order of the dictionary. -/
def assignAll : List Kwarg → M Unit
  | [] => pure ()
  | k :: ks => do
    k.2
    assignAll ks

/-- core.py:311-348: the element of the new object, which is given or made by `_build_root_element`; the result is the element with the fields assigned. -/
def initObject (rootNs : Option Str) (rootName : Str) (node : Option Node) (kwargs : List Kwarg) : Except PyErr Unit × Node :=
  assignAll kwargs (node.getD (Node.empty ⟨rootNs, rootName⟩))

section
variable [PyUnicode] (eng : Engine)

/-- premis.py:137: `self.version = v`. -/
def setVersion (v : Option Str) : M Unit := setStr eng ctx c%"@version" v []

/-- premis.py:146-151 `Premis.__init__`. -/
def premisInit (node : Option Node) (kwargs : List Kwarg) : Except PyErr Unit × Node :=
  initObject (some ns) c%"premis" node
    (if (kwargs.map (·.1)).contains c%"version" then kwargs else kwargs ++ [(c%"version", setVersion eng (some c%"2.1"))])

/-- core.py:595-616 `load_xmlobject_from_string(xml, Premis)`, with `root` the parsed document. -/
def loadPremis (root : Node) : Except PyErr Unit × Node := premisInit eng (some root) []
end
end Premis
