import Verif.Domain.Cerp
import Verif.Domain.Mods
/-
Model of `str(obj)` and `repr(obj)`: eulxml/xmlmap/core.py:423-426, eadmap.py:73-74, 122-123, 142-143, 330-331, mods.py:64-65, cerp.py:49-53, 62-66, 99-103.
Python 3: `__unicode__` (mods.py:191-195) and `__string__` (core.py:428-431) are not used by anything.
-/
namespace Core
open Xml XPath Fields Domain

/-- What `str()` does with the result of `__str__`: everything but a string is a TypeError. -/
def strOf : Option Str → Except PyErr Str
  | some s => .ok s
  | none => .error .typeError

/-- `'%s' % x` of a string or `None`. -/
def fmtS : Option Str → Str
  | some s => s
  | none => c%"None"

section
variable [PyUnicode] (eng : Engine) (ctx : Ctx)

/-- core.py:423-426 `XmlObject.__str__`, for an object whose node is an element: `normalize-space(.)`, a string. -/
def objStr (a : Node.Addr) : M Str := do
  let n ← nodeAt a
  pure (normSpace n.strVal)

/-- A StringField (fields.py:100-111, 613-625), normalised or not. -/
def readString (normalize : Bool) (xp : Str) (a : Node.Addr) : M (Option Str) :=
  managerGet eng ctx false (fun doc m => strToPython normalize (m.bind (itemOf doc))) xp (xast xp) (.elem a)

/-- A class whose `__str__` returns a StringField: eadmap.py:73-74 (`Heading`, ".", normalised), 122-123 (`Container`, "."), 142-143 (`DateField`, "."), mods.py:64-65 (`Date`, "text()"),
cerp.py:99-100 (`Hash`, "xm:Value"). -/
def fieldStr (normalize : Bool) (xp : Str) (a : Node.Addr) : M Str := do
  let v ← readString eng ctx normalize xp a
  ofExcept (strOf v)

/-- eadmap.py:330-331 `Reference.__str__` returns the value of a NodeField: `None`, or an object, which is no string. -/
def referenceStr (a : Node.Addr) : M Str := do
  let _ ← getNode eng ctx c%"." a
  raise .typeError

/-- cerp.py:49-50 `Parameter.__str__`, 62-63 `Header.__str__`: `'%s=%s' % (self.name, self.value)`, `'%s: %s' % (...)`. -/
def pairStr (sep : Str) (a : Node.Addr) : M Str := do
  let x ← readString eng ctx false c%"xm:Name" a
  let y ← readString eng ctx false c%"xm:Value" a
  pure (fmtS x ++ sep ++ fmtS y)

/-- cerp.py:65-66 `Header.__repr__` (`name`), 102-103 `Hash.__repr__` (`function`), 169-170, 345-346: `'<%s %s>' % (self.__class__.__name__, self.field)`. -/
def fieldRepr (cls xp : Str) (a : Node.Addr) : M Str := do
  let x ← readString eng ctx false xp a
  pure (c%"<" ++ cls ++ c%" " ++ fmtS x ++ c%">")

/-- cerp.py:373-375 `Account.__repr__`: `self.global_id or self.email_address or '(no id)'`. -/
def accountRepr (a : Node.Addr) : M Str := do
  let x ← readString eng ctx false c%"xm:GlobalId" a
  let y ← (if truthy x then pure x else readString eng ctx false c%"xm:EmailAddress" a)
  pure (c%"<Account " ++ (if truthy y then fmtS y else c%"(no id)") ++ c%">")

end
end Core
