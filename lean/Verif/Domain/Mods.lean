import Verif.Domain.Reads
import Verif.Core.Objects
/-
Model of the `is_empty` methods of eulxml/xmlmap/mods.py.
-/
namespace Mods
open Xml XPath Fields Domain

/-- mods.py:28 -/
def ns : Str := c%"http://www.loc.gov/mods/v3"
/-- mods.py:39: the prefix that is always declared. -/
def ctx : Ctx := ⟨some [(c%"mods", ns)], []⟩
/-- An element name. -/
def q (tag : Str) : QName := ⟨some ns, tag⟩

/-- mods.py:57-62 `Date.is_empty`. -/
def dateEmpty (a : Node.Addr) : M Bool := do
  let n ← nodeAt a
  pure (Core.noText n.text)

/-- mods.py:141-146 `TypedNote.is_empty`: `attrib.keys()` are expanded names. -/
def typedNoteEmpty (a : Node.Addr) : M Bool := do
  let n ← nodeAt a
  let nonType := n.attrs.filter (fun p => p.1 != ⟨none, c%"type"⟩)
  pure (n.children.length == 0 && nonType.length == 0 && Core.noText n.text && Core.noText n.tail)

/-- `all(f(x) for x in l)`: stops at the first that is false. -/
def allM {α} (f : α → M Bool) : List α → M Bool
  | [] => pure true
  | x :: xs => do
    if ← f x then allM f xs else pure false

/-- `any` of the fields is true: `self.a or self.b or ...`. -/
def anyStr [PyUnicode] (eng : Engine) (a : Node.Addr) : List Str → M Bool
  | [] => pure false
  | xp :: xps => do
    let v ← getStr eng ctx xp a
    if truthy v then pure true else anyStr eng a xps

section
variable [PyUnicode] (eng : Engine)

/-- fields.py:697-701 `NodeList.is_empty`, for members with the given `is_empty`. -/
def listEmpty (f : Node.Addr → M Bool) (xp : Str) (a : Node.Addr) : M Bool := do
  let cs ← getNodes eng ctx xp a
  allM f cs

/-- mods.py:116-121 `OriginInfo.is_empty`. -/
def originInfoEmpty (a : Node.Addr) : M Bool := do
  let b ← allM (fun xp => listEmpty eng dateEmpty xp a) [c%"mods:dateCreated", c%"mods:dateIssued"]
  if b then do
    let p ← getStr eng ctx c%"mods:publisher" a
    pure (!truthy p)
  else pure false

/-- mods.py:242-246 `TitleInfo.is_empty`. -/
def titleInfoEmpty (a : Node.Addr) : M Bool := do
  let b ← anyStr eng a [c%"mods:title", c%"mods:subTitle", c%"mods:partNumber", c%"mods:partName", c%"mods:nonSort", c%"@type"]
  pure (!b)

/-- mods.py:264-270 `PartDetail.is_empty`. -/
def partDetailEmpty (a : Node.Addr) : M Bool := do
  let v ← getStr eng ctx c%"mods:number" a
  pure (!truthy v)

/-- mods.py:279-285 `PartExtent.is_empty`. -/
def partExtentEmpty (a : Node.Addr) : M Bool := do
  let b ← anyStr eng a [c%"mods:start", c%"mods:end", c%"mods:total"]
  pure (!b)

/-- The NodeField `extent`: `None` is left out (mods.py:298-299). -/
def extentEmpty (a : Node.Addr) : M Bool := do
  match ← getNode eng ctx c%"mods:extent" a with
  | some b => partExtentEmpty eng b
  | none => pure true

/-- mods.py:294-300 `Part.is_empty`. -/
def partEmpty (a : Node.Addr) : M Bool := do
  let b ← listEmpty eng (partDetailEmpty eng) c%"mods:detail" a
  let b ← (if b then extentEmpty eng a else pure false)
  if b then do
    let t ← getStr eng ctx c%"@type" a
    pure (!truthy t)
  else pure false
end
end Mods
