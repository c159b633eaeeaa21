import Verif.Forms.FieldList
import Verif.Core.SchemaTypes
/-
Model of the generation of form classes (eulxml/forms/xmlobject.py:85-109, 113-314, 367-424, 751-794).

Labels, help texts, widgets, `max_num`, `extra`, `can_delete` and `can_order` are not modelled: they do not decide which fields a form has.
-/
namespace Forms
open Py

/-- The class of an xmlmap field, as far as xmlobject.py:197-278 distinguishes them.  Classes of sub-objects are numbered. -/
inductive FType where
  | string | integer | date | simpleBoolean
  | node (cls : Nat) | nodeList (cls : Nat)
  | stringList | integerList
  | other
  deriving DecidableEq, Repr

/-- An xmlmap field: its class, `choices` (`[]` for a missing, `None` or empty one), `required`, `creation_counter`. -/
structure MField where
  type : FType
  choices : List Str
  required : Option Bool
  counter : Nat
  deriving DecidableEq, Repr

/-- The table `_fields` of an XmlObject class. -/
abbrev Model := Dict Str MField

/-- A Django form field: its class, choices, and `required`. -/
inductive FKind where
  | choice | char | integer | date | boolean
  deriving DecidableEq, Repr

structure FormField where
  kind : FKind
  choices : List Str
  required : Bool
  deriving DecidableEq, Repr

/-- A form class: its fields, subforms and formsets in order (xmlobject.py:406-422), or one of the single-value forms (xmlobject.py:878-900). -/
inductive FormClass where
  | form (fields : List (Str × FormField)) (subforms : List (Str × FormClass)) (formsets : List (Str × FormClass))
  | listForm (integer : Bool)

namespace FormClass
/-- `base_fields`. -/
def fields : FormClass → Dict Str FormField | form f _ _ => f | listForm _ => []
/-- `subforms`. -/
def subforms : FormClass → Dict Str FormClass | form _ s _ => s | listForm _ => []
/-- `formsets` (with the class of their forms). -/
def formsets : FormClass → Dict Str FormClass | form _ _ s => s | listForm _ => []
end FormClass

/-- What is made for one xmlmap field. -/
inductive Part where
  | field (f : FormField)
  | subform (c : FormClass)
  | formset (c : FormClass)

/-- xmlobject.py:175-180: is the field left out? -/
def skip (fl ex : Option PFL) (name : Str) : Bool :=
  (match fl with | some l => decide (name ∉ l.fields) | none => false) ||
  (match ex with | some l => decide (name ∈ l.fields) | none => false)

/-- xmlobject.py:237-238: the lists for the subform `name`. -/
def subList (l : Option PFL) (name : Str) : Option PFL := match l with
  | some l => l.subfields.get? name
  | none => none

/-- xmlobject.py:190-191: `kwargs['required']`; Django's default is `True`. -/
def requiredOf (f : MField) : Bool := f.required.getD true

/-- xmlobject.py:197-206: the choices of a choice field. -/
def formChoices (f : MField) : List Str :=
  if f.required = some false ∧ [] ∉ f.choices then [] :: f.choices else f.choices

/-- xmlobject.py:186-284: what is made for one xmlmap field.  `gen` makes the form class for a class of sub-objects. -/
def partFor (gen : Nat → Option PFL → Option PFL → Except PyErr FormClass) (declared : Dict Str FormClass) (fl ex : Option PFL) (name : Str) (f : MField) :
    Except PyErr Part :=
  if f.choices ≠ [] then .ok (.field ⟨.choice, formChoices f, requiredOf f⟩)
  else match f.type with
    | .string => .ok (.field ⟨.char, [], requiredOf f⟩)
    | .integer => .ok (.field ⟨.integer, [], requiredOf f⟩)
    | .date => .ok (.field ⟨.date, [], requiredOf f⟩)
    | .simpleBoolean => .ok (.field ⟨.boolean, [], false⟩)
    | .node cls => match declared.get? name with
      | some c => .ok (.subform c)
      | none => (gen cls (subList fl name) (subList ex name)).map .subform
    | .nodeList cls => match declared.get? name with
      | some c => .ok (.formset c)
      | none => (gen cls (subList fl name) (subList ex name)).map .formset
    | .stringList => .ok (.formset (.listForm false))
    | .integerList => .ok (.formset (.listForm true))
    | .other => .error .exception

/-- xmlobject.py:174-287: the loop over the fields of the model: what was made for each that is not left out, with its `creation_counter`. -/
def collectParts (gen : Nat → Option PFL → Option PFL → Except PyErr FormClass) (declared : Dict Str FormClass) (fl ex : Option PFL) :
    List (Str × MField) → Except PyErr (List (Str × Nat × Part))
  | [] => .ok []
  | (name, f) :: rest =>
    if skip fl ex name then collectParts gen declared fl ex rest
    else match partFor gen declared fl ex name f with
      | .error e => .error e
      | .ok p => match collectParts gen declared fl ex rest with
        | .error e => .error e
        | .ok ps => .ok ((name, f.counter, p) :: ps)

/-- What was made, if it is a form field, a subform class, a formset. -/
def Part.asField : Part → Option FormField | .field f => some f | _ => none
def Part.asSubform : Part → Option FormClass | .subform c => some c | _ => none
def Part.asFormset : Part → Option FormClass | .formset c => some c | _ => none

/-- xmlobject.py:247, 251, 267, 284: the dictionaries `formfields`, `subforms`, `formsets`: the entries of one sort. -/
def pick {α : Type} (g : Part → Option α) (ps : List (Str × Nat × Part)) : Dict Str α := ps.filterMap (fun p => (g p.2.2).map (fun v => (p.1, v)))

/-- xmlobject.py:290-313: one of the three sorted dictionaries: the entries of `d` in the order of `names`. -/
def orderedDict {α : Type} (names : List Str) (d : Dict Str α) : Dict Str α :=
  Dict.update [] (names.filterMap (fun n => (d.get? n).map (fun v => (n, v))))

/-- xmlobject.py:290 and 302: the order of names, as listed or by `creation_counter`. -/
def orderOf (fl : Option PFL) (ps : List (Str × Nat × Part)) : List Str := match fl with
  | some l => l.fields
  | none => Core.defaultOrder (ps.map (fun p => (p.1, p.2.1)))

/-- xmlobject.py:113-314 `formfields_for_xmlobject`, given the parsed lists. -/
def formFields (gen : Nat → Option PFL → Option PFL → Except PyErr FormClass) (declared : Dict Str FormClass) (fl ex : Option PFL) (model : Model) :
    Except PyErr FormClass :=
  match collectParts gen declared fl ex model with
  | .error e => .error e
  | .ok ps =>
    let names := orderOf fl ps
    .ok (.form (orderedDict names (pick Part.asField ps)) (orderedDict names (pick Part.asSubform ps)) (orderedDict names (pick Part.asFormset ps)))

/-- xmlobject.py:751-794 `xmlobjectform_factory` with the metaclass (xmlobject.py:392-424): the form class for class number `cls`, without declared
fields.  The first argument bounds the nesting; at the bound the result is the `RecursionError` (a `RuntimeError`) of Python. -/
def formFactory (models : Nat → Model) : Nat → Nat → Option PFL → Option PFL → Except PyErr FormClass
  | 0, _, _, _ => .error .runtimeError
  | n + 1, cls, fl, ex => formFields (formFactory models n) [] fl ex (models cls)

/-- xmlobject.py:99-108: a field list in `Meta`, parsed. -/
def parsedFields (fields : Option (List Str)) : Option PFL := fields.map (fun l => parseFieldList l true)
def parsedExclude (exclude : Option (List Str)) : Option PFL := exclude.map (fun l => parseFieldList l false)

/-- A class statement `class F(XmlObjectForm)` with inner class `Meta` (model, fields, exclude), declared fields and declared subforms
(xmlobject.py:392-424). -/
def formStatement (models : Nat → Model) (n : Nat) (cls : Nat) (fields exclude : Option (List Str)) (declaredFields : Dict Str FormField)
    (declaredSubforms : Dict Str FormClass) : Except PyErr FormClass :=
  match formFields (formFactory models n) declaredSubforms (parsedFields fields) (parsedExclude exclude) (models cls) with
  | .error e => .error e
  | .ok c => .ok (.form (Dict.update c.fields declaredFields) c.subforms c.formsets)

/-- xmlobject.py:149-159: the lists used by `formfields_for_xmlobject` when it is called with its own arguments.  A parsed `fields` argument makes
the function forget `exclude` (line 156 tests `fields` again). -/
inductive ListArg where
  | none
  | names (l : List Str)
  | parsed (l : PFL)

def chosenFields (opts : Option PFL) : ListArg → Option PFL
  | .none => opts
  | .names l => some (parseFieldList l true)
  | .parsed l => some l

/-- As above, lines 155-159.  Iterating over a parsed `exclude` is a `TypeError`. -/
def chosenExclude (opts : Option PFL) (fields exclude : ListArg) : Except PyErr (Option PFL) := match fields, exclude with
  | .parsed _, _ => .ok opts
  | _, .none => .ok opts
  | _, .names l => .ok (some (parseFieldList l false))
  | _, .parsed _ => .error .typeError

end Forms
