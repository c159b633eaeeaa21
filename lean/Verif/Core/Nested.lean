import Verif.Domain.Reads
import Verif.XmlMap.Manager
import Verif.Spec.SimplePath
/-
Objects in objects: attribute chains `obj.sub.part.title` that go through NodeFields (eulxml/xmlmap/fields.py:1103-1115, core.py:116-131, 207-235).
-/
namespace Core
open Xml XPath Fields

/-- A NodeField: its XPath, the AST, the path it denotes, and the XPath context (namespaces) of the objects of the class that declares it. -/
structure Hop where
  xp : Str
  e : Expr
  p : List Spec.Step
  ctx : Ctx

section
variable [PyUnicode] (eng : Engine)

/-- `obj.h1.h2` with the intention to use an attribute of it: each NodeField is read (core.py:125, fields.py:620-625 with `NodeMapper`, 242-249; without
`instantiate_on_get`), giving the object around the first matching element.  On `None`, the next attribute access raises AttributeError. -/
def walk : List Hop → Node.Addr → M Node.Addr
  | [], a => pure a
  | h :: hs, a => do
    match ← Domain.getNode eng h.ctx h.xp a with
    | some b => walk hs b
    | none => raise .attributeError

/-- `obj.create_h()` (core.py:231-235, fields.py:1114-1115). -/
def createObj (h : Hop) (a : Node.Addr) : M Unit := do
  let _ ← managerCreate eng h.ctx h.xp h.e (.elem a)
  pure ()

/-- `del obj.h` (core.py:130-131, fields.py:655-658). -/
def deleteObj (h : Hop) (a : Node.Addr) : M Unit := managerDelete eng h.ctx h.xp h.e (.elem a)

/-- Reading a NodeField with `instantiate_on_get` (fields.py:622-623). -/
def instantiate (h : Hop) (a : Node.Addr) : M (Option Node.Addr) :=
  managerGet eng h.ctx true (fun _ m => match m with
    | some (.ref (.elem b)) => .ok (some b)
    | some _ => .error .typeError
    | none => .ok none) h.xp h.e (.elem a)
end
end Core
