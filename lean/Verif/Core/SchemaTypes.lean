import Verif.Props.FieldSet
import Verif.XmlMap.NodeList
import Verif.Py.Dict
import Mathlib.Data.List.Sort
/-
Model of schema types (eulxml/xmlmap/core.py:646-679), of `SchemaField.get_field` (eulxml/xmlmap/fields.py:1187-1221), and of the numbering of
fields (eulxml/xmlmap/fields.py:51-72, 1216-1218).
-/
namespace Core
open Py Xml XPath Fields

/-! ### schema types -/

/-- The namespace of XML Schema documents (core.py:664). -/
def xsNs : Str := c%"http://www.w3.org/2001/XMLSchema"

/-- core.py:671: the XPath used for a name. -/
def typeXPath (name : Str) : Str := c%"//*[@name=\"" ++ name ++ c%"\"]"

section
variable [PyUnicode] (eng : Engine) (ctx : Ctx)

/-- core.py:667-679 `XsdSchema.get_type` on the schema object at element `node`: the element for the `XsdType`.  The XPath is evaluated without
context.  Simplification: an XPath with a scalar result (only possible if the caller passes one) is a `TypeError`. -/
def getType (name xpath : Option Str) (node : Ref) : M Ref :=
  match (match xpath, name with
    | some x, _ => Except.ok x
    | none, some n => Except.ok (typeXPath n)
    | none, none => Except.error PyErr.exception) with
  | .error e => raise e
  | .ok x => do
    let v ← evalXPath eng ⟨none, []⟩ x node
    match v with
    | .nodes [] => raise .exception
    | .nodes [r] => pure r
    | .nodes _ => raise .exception
    | _ => raise .typeError

/-- core.py:649 `XsdType.base`. -/
def xsdBase (node : Ref) : M (Option Str) := Props.readStr eng ctx c%"xs:restriction/@base" (Props.ast c%"xs:restriction/@base") node

/-- core.py:650 `XsdType.restricted_values`, as a list. -/
def xsdValues (node : Ref) : M (List (Option Str)) :=
  listData eng ctx (fun it => strToPython false (some it)) c%"xs:restriction/xs:enumeration/@value" node

/-- core.py:652-659 `XsdType.base_type`, given `self.base`: `':' in None` is a `TypeError`; a second colon makes the unpacking fail. -/
def baseType : Option Str → Except PyErr Str
  | none => .error .typeError
  | some b => if ':' ∈ b then
      match b.splitOn ':' with
      | [_, t] => .ok t
      | _ => .error .valueError
    else .ok b

/-- fields.py:1198-1209: the `choices` argument. -/
def schemaChoices (values : List (Option Str)) : Option (List (Option Str)) :=
  if values = [] then none
  else
    let choices := if some [] ∈ values then values.erase (some []) else values
    some (some [] :: choices)

/-- A `StringField` made by `SchemaField.get_field`: its xpath, `required`, choices (`None` if not given) and place in the order of fields. -/
structure NewField where
  xpath : Str
  required : Option Bool
  choices : Option (List (Option Str))
  counter : Nat
  deriving DecidableEq, Repr

/-- A `SchemaField` (fields.py:1177-1182). -/
structure SchemaFld where
  xpath : Str
  schemaType : Str
  required : Option Bool
  counter : Nat
  deriving DecidableEq, Repr

/-- fields.py:1187-1221 `SchemaField.get_field` on the schema at element `schema` with context `ctx`.  The evaluation in the log message comes
first, and can raise. -/
def getField (f : SchemaFld) (schema : Ref) : M NewField := do
  let t ← getType eng (some f.schemaType) none schema
  let b ← xsdBase eng ctx t
  let base ← ofExcept (baseType b)
  let values ← xsdValues eng ctx t
  if base = c%"string" then
    pure ⟨f.xpath, f.required, schemaChoices values, f.counter⟩
  else raise .exception
end

/-! ### numbering -/

/-- A field in a class body: its name; is it a `SchemaField`, and does its `get_field` succeed? -/
inductive DeclKind where
  | plain
  | schema (ok : Bool)
  deriving DecidableEq, Repr

abbrev Decl := Str × DeclKind

/-- fields.py:70-72 for each field of the class body, in order: `creation_counter` is taken from the class attribute, which is increased. -/
def runBody (ctr : Nat) : List Decl → List (Str × DeclKind × Nat) × Nat
  | [] => ([], ctr)
  | (x, k) :: ds =>
    let r := runBody (ctr + 1) ds
    ((x, k, ctr) :: r.1, r.2)

/-- core.py:171-190 for each field: a `SchemaField` is replaced by a new field (fields.py:1215, which increases the counter), to which its own
`creation_counter` is copied (fields.py:1218); if `get_field` raises, the class statement does. -/
def runMeta (ctr : Nat) : List (Str × DeclKind × Nat) → Except PyErr (Dict Str Nat) × Nat
  | [] => (.ok [], ctr)
  | (x, .plain, c) :: fs => match runMeta ctr fs with
    | (.ok d, ctr') => (.ok ((x, c) :: d), ctr')
    | (.error e, ctr') => (.error e, ctr')
  | (x, .schema ok, c) :: fs =>
    if ok then match runMeta (ctr + 1) fs with
      | (.ok d, ctr') => (.ok ((x, c) :: d), ctr')
      | (.error e, ctr') => (.error e, ctr')
    else (.error .exception, ctr)

/-- A class statement: body, then metaclass.  The result has the names with the `creation_counter` of the field used. -/
def runClass (ctr : Nat) (ds : List Decl) : Except PyErr (Dict Str Nat) × Nat :=
  let b := runBody ctr ds
  runMeta b.2 b.1

/-- A program: class statements, one after the other; those that raise are caught. -/
def runClasses (ctr : Nat) : List (List Decl) → List (Except PyErr (Dict Str Nat))
  | [] => []
  | ds :: rest =>
    let r := runClass ctr ds
    r.1 :: runClasses r.2 rest

/-- forms/xmlobject.py:287 for each field of the table, then 302-305: `field_order` maps counters to names; the names in the order of the sorted
counters.  `table` lists the fields with their counters, in the order of `_fields`. -/
def defaultOrder (table : Dict Str Nat) : List Str :=
  let fieldOrder : Dict Nat Str := table.foldl (fun d p => d.set p.2 p.1) []
  (fieldOrder.keys.insertionSort (· ≤ ·)).filterMap fieldOrder.get?

end Core
