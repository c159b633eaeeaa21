import Verif.XmlMap.NodeList
/-
Reading fields of objects, as the domain modules (teimap, eadmap, mods, premis) do: the field managers of Verif/XmlMap with the mappers of Verif/XmlMap/Mappers.lean.
An object is the address of its element.
-/
namespace Domain
open Xml XPath Fields

/-- fields.py:68: the XPath is parsed when the field is declared. -/
def xast (s : Str) : Expr := match parse0 s with | .ok e => e | .error _ => .root

section
variable [PyUnicode] (eng : Engine) (ctx : Ctx)

/-- Reading a StringField (fields.py:613-625 with `StringMapper`). -/
def getStr (xp : Str) (a : Node.Addr) : M (Option Str) :=
  managerGet eng ctx false (fun doc m => strToPython false (m.bind (itemOf doc))) xp (xast xp) (.elem a)

/-- Assigning to a StringField (fields.py:627-645). -/
def setStr (xp : Str) (v : Option Str) (a : Node.Addr) : M Unit :=
  managerSet eng ctx (.ok (v.map .str)) xp (xast xp) (.elem a)

/-- Reading a NodeField (fields.py:613-625 with `NodeMapper`, 236-253): the element that the object wraps. -/
def getNode (xp : Str) (a : Node.Addr) : M (Option Node.Addr) := do
  match ← findNode eng ctx xp (.elem a) with
  | some (.ref (.elem b)) => pure (some b)
  | some _ => raise .typeError
  | none => pure none

/-- Reading a NodeListField (fields.py:690-706): the elements that the members wrap. -/
def getNodes (xp : Str) (a : Node.Addr) : M (List Node.Addr) := do
  let ms ← listMatches eng ctx xp (.elem a)
  pure (ms.map Ref.addr)
end

/-- `bool(s)` of a string or `None`. -/
def truthy : Option Str → Bool
  | some (_ :: _) => true
  | _ => false

end Domain
