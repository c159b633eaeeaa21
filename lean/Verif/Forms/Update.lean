import Verif.Forms.FieldList
/-
Model of `XmlObjectForm.update_instance` (own fields: eulxml/forms/xmlobject.py:550-590; sub-objects: 592-613) and of `XmlObjectForm.is_valid`
(615-651), with Django's `BaseForm.is_valid` and `BaseFormSet.is_valid`.
-/
namespace Forms
open Py

/-! ### own fields -/

/-- A field list in the inner class `Meta`: not there, a list of names, or a parsed list (as `xmlobjectform_factory` passes for subforms). -/
inductive MetaList where
  | missing
  | names (l : List Str)
  | parsed (l : PFL)

/-- Truth value of `opts.fields` / `opts.exclude`: `None` and `[]` are false. -/
def MetaList.truthy : MetaList → Bool
  | .missing => false
  | .names l => !l.isEmpty
  | .parsed _ => true

/-- xmlobject.py:99-108: `parsed_fields.fields` / `parsed_exclude.fields`. -/
def MetaList.parsedFields (inc : Bool) : MetaList → List Str
  | .missing => []
  | .names l => (parseFieldList l inc).fields
  | .parsed l => l.fields

/-- A value in `cleaned_data`. -/
inductive CVal (A : Type) where
  | null
  | str (s : Str)
  | other (a : A)
  deriving DecidableEq

/-- xmlobject.py:588: `== ''`. -/
def CVal.isEmpty {A : Type} : CVal A → Bool
  | .str [] => true
  | _ => false

/-- xmlobject.py:569-575: the order of assignments.  `modelNames` are the keys of `_fields`.  A `ParsedFieldList` cannot be iterated. -/
def fieldsInOrder (fields : MetaList) (modelNames : List Str) : Except PyErr (List Str) := match fields with
  | .missing => .ok modelNames
  | .names l => .ok (l ++ modelNames.filter (fun n => n ∈ l))
  | .parsed _ => .error .typeError

/-- xmlobject.py:580-583: is the name skipped? -/
def skipUpdate (fields exclude : MetaList) (name : Str) : Bool :=
  (fields.truthy && decide (name ∉ fields.parsedFields true)) || (exclude.truthy && decide (name ∈ exclude.parsedFields false))

/-- xmlobject.py:577-590: the loop.  `setattr` assigns to a field of the instance, and can raise.  `cleaned_data` itself is changed too. -/
def updateLoop {A D : Type} (fields exclude : MetaList) (setattr : Str → CVal A → D → Except PyErr Unit × D) :
    List Str → Dict Str (CVal A) → D → Except PyErr Unit × Dict Str (CVal A) × D
  | [], cleaned, d => (.ok (), cleaned, d)
  | name :: rest, cleaned, d =>
    if skipUpdate fields exclude name then updateLoop fields exclude setattr rest cleaned d
    else match cleaned.get? name with
      | none => updateLoop fields exclude setattr rest cleaned d
      | some v =>
        let cleaned' := if v.isEmpty then cleaned.set name .null else cleaned
        match setattr name (if v.isEmpty then .null else v) d with
        | (.error e, d') => (.error e, cleaned', d')
        | (.ok _, d') => updateLoop fields exclude setattr rest cleaned' d'

/-- xmlobject.py:558-590: the own fields of a form with `cleaned_data`. -/
def updateOwn {A D : Type} (fields exclude : MetaList) (modelNames : List Str) (setattr : Str → CVal A → D → Except PyErr Unit × D)
    (cleaned : Dict Str (CVal A)) (d : D) : Except PyErr Unit × Dict Str (CVal A) × D :=
  match fieldsInOrder fields modelNames with
  | .error e => (.error e, cleaned, d)
  | .ok names => updateLoop fields exclude setattr names cleaned d

/-! ### validity -/

/- A bound form with its subforms and formsets, in order.  Forms and formsets are numbered.  Of a formset, the member forms that are not to be deleted. -/
mutual
inductive Form where
  | mk (id : Nat) (subs : FormList) (sets : SetList)
inductive FormList where
  | nil
  | cons (f : Form) (rest : FormList)
inductive SetList where
  | nil
  | cons (id : Nat) (members : FormList) (rest : SetList)
end

/-- What happened to a form: its own fields were assigned; schema errors were added to its errors (that many messages). -/
inductive Event where
  | updated (id : Nat)
  | schemaErrors (id : Nat) (messages : Nat)
  deriving DecidableEq, Repr

/-- The behaviour of the forms on documents of type `D`. -/
structure World (D : Type) where
  /-- Django: the form is bound and its data validate (before any schema check). -/
  ownValid : Nat → Bool
  /-- Django: the formset is bound and has no errors of its own. -/
  setValid : Nat → Bool
  /-- Assignment of the own fields (`updateOwn`), for simplicity without exceptions. -/
  assign : Nat → D → D
  /-- `getattr(self.instance, name) is not None`, for the subform with this number. -/
  present : Nat → D → Bool
  /-- `new_subinstance.is_empty()`. -/
  isEmpty : Nat → D → Bool
  /-- `setattr(self.instance, name, new_subinstance)`. -/
  attach : Nat → D → D
  /-- `delattr(self.instance, name)`. -/
  detach : Nat → D → D
  /-- `formset.update_instance()`. -/
  setUpdate : Nat → D → D
  /-- `instance.validation_errors()`: their number; the instance is schema-valid if it is `none`. -/
  schemaErrors : Nat → D → Option Nat

/-- A document and what happened so far. -/
structure St (D : Type) where
  doc : D
  log : List Event

variable {D : Type}

/-- The number of a form. -/
def Form.id : Form → Nat | .mk i _ _ => i

/-- xmlobject.py:602-613 `_update_subinstance`, around the update of the subform itself. -/
def finishSub (w : World D) (id : Nat) (old : Bool) (s : St D) : St D :=
  let s := if old = false ∧ w.isEmpty id s.doc = false then { s with doc := w.attach id s.doc } else s
  if old = true ∧ w.isEmpty id s.doc = true then { s with doc := w.detach id s.doc } else s

/-- xmlobject.py:595-596. -/
def updateSets (w : World D) : SetList → St D → St D
  | .nil, s => s
  | .cons id _ rest, s => updateSets w rest { s with doc := w.setUpdate id s.doc }

mutual
/-- xmlobject.py:550-597 `update_instance`. -/
def updateForm (w : World D) (f : Form) (s : St D) : St D := match f with
  | .mk id subs sets => updateSets w sets (updateSubs w subs { doc := w.assign id s.doc, log := s.log ++ [.updated id] })
/-- xmlobject.py:593-594. -/
def updateSubs (w : World D) (l : FormList) (s : St D) : St D := match l with
  | .nil => s
  | .cons f rest => updateSubs w rest (finishSub w f.id (w.present f.id s.doc) (updateForm w f s))
end

/-- `self._errors` has schema errors from an earlier call. -/
def hasSchemaErrors (id : Nat) (log : List Event) : Bool := log.any (fun | .schemaErrors i _ => i == id | _ => false)

mutual
/-- xmlobject.py:615-651 `is_valid`. -/
def isValid (w : World D) (f : Form) (s : St D) : Bool × St D := match f with
  | .mk id subs sets =>
    if w.ownValid id && !hasSchemaErrors id s.log then
      match allValid w subs s with
      | (false, s) => (false, s)
      | (true, s) => match allSetsValid w sets s with
        | (false, s) => (false, s)
        | (true, s) =>
          let s := updateForm w (.mk id subs sets) s
          match w.schemaErrors id s.doc with
          | none => (true, s)
          | some n => (false, { s with log := s.log ++ [.schemaErrors id (n + 1)] })
    else (false, s)
/-- xmlobject.py:631: `all(...)` stops at the first subform that is not valid. -/
def allValid (w : World D) (l : FormList) (s : St D) : Bool × St D := match l with
  | .nil => (true, s)
  | .cons f rest => match isValid w f s with
    | (false, s) => (false, s)
    | (true, s) => allValid w rest s
/-- Django `BaseFormSet.is_valid`: every member is asked. -/
def membersValid (w : World D) (l : FormList) (s : St D) : Bool × St D := match l with
  | .nil => (true, s)
  | .cons f rest =>
    let r := isValid w f s
    let r' := membersValid w rest r.2
    (r.1 && r'.1, r'.2)
/-- xmlobject.py:632: `all(...)` stops at the first formset that is not valid. -/
def allSetsValid (w : World D) (l : SetList) (s : St D) : Bool × St D := match l with
  | .nil => (true, s)
  | .cons id members rest => match membersValid w members s with
    | (b, s) => if b && w.setValid id then allSetsValid w rest s else (false, s)
end

end Forms
