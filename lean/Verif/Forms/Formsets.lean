import Verif.XmlMap.NodeList
import Verif.Core.Objects
import Mathlib.Data.List.Sort
/-
Model of the formsets of a form and of its subforms' elements: `BaseXmlObjectListFieldFormSet.update_instance` (eulxml/forms/xmlobject.py:923-930),
`BaseXmlObjectFormSet.update_instance` (814-838) with Django's `deleted_forms`, `ordered_forms`, `initial_forms` and `extra_forms`, and
`XmlObjectForm._init_subforms` / `_update_subinstance` (505-533, 599-613).
-/
namespace Forms
open XPath Xml Fields

/-! ### formsets of list fields -/

section
variable [PyUnicode] (eng : Engine) (ctx : Ctx) {α : Type} [DecidableEq α] (mapper : Item → Except PyErr α) (store : Ref → α → M Unit)

/-- xmlobject.py:923-930 `update_instance`: `submitted` is `form.value` for all forms of the set, `truthy` Python's truth value of those. -/
def listFormsetUpdate (truthy : α → Bool) (xpath : Str) (xast : Expr) (node : Ref) (submitted : List α) : M Unit := do
  let n ← listLen eng ctx mapper xpath node
  listTrimAll eng ctx mapper xpath node 0 n
  listExtend eng ctx mapper store xpath xast node (submitted.filter truthy)

end

/-- Truth value of the value of a `ListFieldForm` (a string, or `None` if there is no data). -/
def strTruthy : Option Str → Bool
  | some s => !s.isEmpty
  | none => false

/-- Truth value of the value of an `IntegerListFieldForm`. -/
def intTruthy : Option Int → Bool
  | some n => n != 0
  | none => false

/-! ### the element of a subform -/

section
variable [PyUnicode] (eng : Engine) (ctx : Ctx)

/-- xmlobject.py:515-516: `create_<name>()`, then the field is read; the result is the instance of the subform. -/
def initSubform (xpath : Str) (xast : Expr) (node : Ref) : M (Option Found) := do
  let _ ← managerCreate eng ctx xpath xast node
  findNode eng ctx xpath node

/-- xmlobject.py:599-613 `_update_subinstance`.  `inst` is the element of the subform's instance: in the document, or on its own (when it has been removed);
`update` is what `subform.update_instance()` does to that element.  Simplification: the field is not `instantiate_on_get`. -/
def updateSubinstance (update : Node → Node) (inst : ElemVal) (xpath : Str) (xast : Expr) (node : Ref) : M Unit := do
  let old ← findNode eng ctx xpath node
  match inst with
  | .own b => do
    edit b update
    let new ← nodeAt b
    if old = none ∧ Core.isEmpty new = false then managerSet eng ctx (.ok (some (.elem (.own b)))) xpath xast node
    else if old ≠ none ∧ Core.isEmpty new = true then managerDelete eng ctx xpath xast node
    else pure ()
  | .foreign v =>
    if old = none ∧ Core.isEmpty (update v) = false then managerSet eng ctx (.ok (some (.elem (.foreign (update v))))) xpath xast node
    else if old ≠ none ∧ Core.isEmpty (update v) = true then managerDelete eng ctx xpath xast node
    else pure ()

end

/-! ### formsets of elements -/

/-- A bound form of a formset: the element of its instance (an identity), whether it is one of the initial forms, whether its data
changed, whether it is marked for deletion, and its order. -/
structure MForm (I : Type) where
  inst : I
  initial : Bool
  changed : Bool
  deleted : Bool
  order : Option Int

/-- The elements in the list, in document order, and the content (serialization) of each element, also of those that are not in the list. -/
structure Elems (I C : Type) where
  list : List I
  content : I → C

section
variable {I C : Type} [DecidableEq I] [DecidableEq C]

/-- `x in self.instances`: XmlObjects are equal if their elements are serialized alike (core.py:433-441). -/
def Elems.contains (s : Elems I C) (x : I) : Bool := s.list.any (fun y => s.content y == s.content x)

/-- `self.instances.remove(x)`: removes the first element that is equal. -/
def Elems.remove (s : Elems I C) (x : I) : Elems I C := { s with list := s.list.eraseP (fun y => s.content y == s.content x) }

/-- `self.instances.append(x)`: lxml moves an element that is in the document. -/
def Elems.append (s : Elems I C) (x : I) : Elems I C := { s with list := s.list.erase x ++ [x] }

/-- `form.update_instance()`. -/
def Elems.update (upd : I → C → C) (s : Elems I C) (x : I) : Elems I C := { s with content := fun y => if y = x then upd x (s.content x) else s.content y }

/-- Django `BaseFormSet.deleted_forms` of a valid formset: an extra form that has not changed is not considered. -/
def deletedForms (canDelete : Bool) (forms : List (MForm I)) : List (MForm I) :=
  if canDelete then forms.filter (fun f => (f.initial || f.changed) && f.deleted) else []

/-- Comparison of the order of two forms: a form without order comes last. -/
def orderLe (a b : MForm I) : Bool := match a.order, b.order with
  | _, none => true
  | none, some _ => false
  | some x, some y => decide (x ≤ y)

/-- Django `BaseFormSet.ordered_forms` of a valid formset (stable sort). -/
def orderedForms (canDelete : Bool) (forms : List (MForm I)) : List (MForm I) :=
  (forms.filter (fun f => (f.initial || f.changed) && !(canDelete && f.deleted))).insertionSort (fun a b => orderLe a b = true)

/-- xmlobject.py:815-819. -/
def removeDeleted (s : Elems I C) : List (MForm I) → Elems I C
  | [] => s
  | f :: fs => removeDeleted (if s.contains f.inst then s.remove f.inst else s) fs

/-- xmlobject.py:825-829. -/
def reorder (upd : I → C → C) (s : Elems I C) : List (MForm I) → Elems I C
  | [] => s
  | f :: fs => reorder upd (((if s.contains f.inst then s.remove f.inst else s).update upd f.inst).append f.inst) fs

/-- xmlobject.py:832-834. -/
def updateInitial (upd : I → C → C) (s : Elems I C) : List (MForm I) → Elems I C
  | [] => s
  | f :: fs => updateInitial upd (if f.changed then s.update upd f.inst else s) fs

/-- xmlobject.py:835-838. -/
def updateExtra (upd : I → C → C) (s : Elems I C) : List (MForm I) → Elems I C
  | [] => s
  | f :: fs => updateExtra upd (if f.changed then (s.update upd f.inst).append f.inst else s) fs

/-- Django `BaseFormSet.is_valid` of a bound formset whose forms are all valid: `is_valid` of each form that is not to be deleted, which updates the instance of the form
(xmlobject.py:630-637). -/
def validateForms (upd : I → C → C) (s : Elems I C) : List (MForm I) → Elems I C
  | [] => s
  | f :: fs => validateForms upd (s.update upd f.inst) fs

/-- The forms that are not to be deleted. -/
def remainingForms (canDelete : Bool) (forms : List (MForm I)) : List (MForm I) := forms.filter (fun f => !(canDelete && f.deleted))

/-- The part of `update_instance` (xmlobject.py:814-838) after the first validation, if no later one has an effect. -/
def formsetCore (upd : I → C → C) (canDelete canOrder : Bool) (forms : List (MForm I)) (s : Elems I C) : Elems I C :=
  let s := removeDeleted s (deletedForms canDelete forms)
  if canOrder then reorder upd s (orderedForms canDelete forms)
  else updateExtra upd (updateInitial upd s (forms.filter (fun f => f.initial))) (forms.filter (fun f => !f.initial))

/-- xmlobject.py:814-838 `update_instance` of a valid formset.  Django's `deleted_forms` and `ordered_forms` validate the formset, each time. -/
def formsetUpdate (upd : I → C → C) (canDelete canOrder : Bool) (forms : List (MForm I)) (s : Elems I C) : Elems I C :=
  let s := validateForms upd s (remainingForms canDelete forms)
  let s := removeDeleted s (deletedForms canDelete forms)
  if canOrder then reorder upd (validateForms upd s (remainingForms canDelete forms)) (orderedForms canDelete forms)
  else updateExtra upd (updateInitial upd s (forms.filter (fun f => f.initial))) (forms.filter (fun f => !f.initial))

end
end Forms
