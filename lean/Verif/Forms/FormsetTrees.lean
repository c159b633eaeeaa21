import Verif.Forms.FormsetDoc
import Verif.Forms.Tree
/-
Model of a formset whose forms are XmlObjectForms with subforms, at any depth: `BaseXmlObjectFormSet` (eulxml/forms/xmlobject.py:796-838) with the forms of Verif/Forms/Tree.lean.
Other than in Verif/Forms/FormsetForms.lean, the construction of a form changes its element (the elements of the subforms are created), and each form has a state of its own:
its `cleaned_data`, and the elements of subforms that it has removed from the document.

Simplification: a form sees of the document the element of its instance only (its XPaths are relative: C111).
-/
namespace Forms
open XPath Xml Fields

variable {A : Type} [PyUnicode] (eng : Engine) (ctx : Ctx) (xpath : Str) (xast : Expr) (node : Ref)

/-- The state: the document with the elements of the forms' XmlObjects, and the forms. -/
structure TSt (A : Type) where
  st : FSt Nat
  forms : Nat → FTree A

/-- The forms, with another one at `i`. -/
def TSt.put (ts : TSt A) (st : FSt Nat) (i : Nat) (t : FTree A) : TSt A := ⟨st, fun j => if j = i then t else ts.forms j⟩

/-- xmlobject.py:550-613: `update_instance` of form `i`. -/
def TSt.update (ts : TSt A) (i : Nat) : Except PyErr (TSt A) := match ts.st.elem eng ctx xpath node i with
  | .error e => .error e
  | .ok v => match updateTree eng (ts.forms i) [] v with
    | (.error e, _, _) => .error e
    | (.ok _, t', v') => match ts.st.update eng ctx xpath node (fun _ _ => v') i with
      | .error e => .error e
      | .ok st => .ok (ts.put st i t')

/-- xmlobject.py:615-651: `is_valid` of form `i`. -/
def TSt.validate (ts : TSt A) (i : Nat) : Except PyErr (Bool × TSt A) := match ts.st.elem eng ctx xpath node i with
  | .error e => .error e
  | .ok v => match validTree eng (ts.forms i) [] v with
    | (.error e, _, _) => .error e
    | (.ok r, t', v') => match ts.st.update eng ctx xpath node (fun _ _ => v') i with
      | .error e => .error e
      | .ok st => .ok (r, ts.put st i t')

/-- Django `BaseFormSet.is_valid` of a bound formset: `is_valid` of each form that is not to be deleted. -/
def treeValidate (ts : TSt A) : List (MForm Nat) → Except PyErr (Bool × TSt A)
  | [] => .ok (true, ts)
  | f :: fs => match ts.validate eng ctx xpath node f.inst with
    | .error e => .error e
    | .ok (r, ts) => match treeValidate ts fs with
      | .error e => .error e
      | .ok (rs, ts) => .ok (r && rs, ts)

/-- xmlobject.py:825-829. -/
def treeReorder (ts : TSt A) : List (MForm Nat) → Except PyErr (TSt A)
  | [] => .ok ts
  | f :: fs => match ts.st.removeIfThere eng ctx xpath node f.inst with
    | .error e => .error e
    | .ok st => match TSt.update eng ctx xpath node ⟨st, ts.forms⟩ f.inst with
      | .error e => .error e
      | .ok ts => match ts.st.append eng ctx xpath xast node f.inst with
        | .error e => .error e
        | .ok st => treeReorder ⟨st, ts.forms⟩ fs

/-- xmlobject.py:832-834. -/
def treeUpdateInitial (ts : TSt A) : List (MForm Nat) → Except PyErr (TSt A)
  | [] => .ok ts
  | f :: fs =>
    if f.changed then match ts.update eng ctx xpath node f.inst with
      | .error e => .error e
      | .ok ts => treeUpdateInitial ts fs
    else treeUpdateInitial ts fs

/-- xmlobject.py:835-838. -/
def treeUpdateExtra (ts : TSt A) : List (MForm Nat) → Except PyErr (TSt A)
  | [] => .ok ts
  | f :: fs =>
    if f.changed then match ts.update eng ctx xpath node f.inst with
      | .error e => .error e
      | .ok ts => match ts.st.append eng ctx xpath xast node f.inst with
        | .error e => .error e
        | .ok st => treeUpdateExtra ⟨st, ts.forms⟩ fs
    else treeUpdateExtra ts fs

/-- xmlobject.py:814-838 `update_instance`.  Django's `deleted_forms` and `ordered_forms` validate the formset, each time; if it is not valid the former is empty and the latter
raises `AttributeError`.  `changed` is Django's `has_changed`, which looks at the fields of the form and not at its subforms. -/
def treeFormsetUpdate (canDelete canOrder : Bool) (forms : List (MForm Nat)) (ts : TSt A) : Except PyErr (TSt A) :=
  match treeValidate eng ctx xpath node ts (remainingForms canDelete forms) with
  | .error e => .error e
  | .ok (valid, ts) => match docRemoveDeleted eng ctx xpath node ts.st (if valid then deletedForms canDelete forms else []) with
    | .error e => .error e
    | .ok st =>
      if canOrder then match treeValidate eng ctx xpath node ⟨st, ts.forms⟩ (remainingForms canDelete forms) with
        | .error e => .error e
        | .ok (valid, ts) => if valid then treeReorder eng ctx xpath xast node ts (orderedForms canDelete forms) else .error .attributeError
      else match treeUpdateInitial eng ctx xpath node ⟨st, ts.forms⟩ (forms.filter (fun f => f.initial)) with
        | .error e => .error e
        | .ok ts => treeUpdateExtra eng ctx xpath xast node ts (forms.filter (fun f => !f.initial))

/-- xmlobject.py:468-496: what the construction of a form makes of the element of its instance: the elements of the subforms are created. -/
def opened (t : FTree A) (v : Node) : Node := (initTree eng t [] v).2

/-- xmlobject.py:804-812 `_construct_form`: the instance of form `i` is the member `i` of the list, or a new object with the element `new` (473-479).  The new objects are taken as
they are after the construction of their forms. -/
def openHandle (new : Node) (forms : Nat → FTree A) (doc : Node) (i : Nat) : Handle :=
  match (listGet eng ctx nodeItem xpath node i doc).1 with
  | .ok _ => .member i
  | .error _ => .detached (opened eng (forms i) new)

/-- xmlobject.py:804-812, 468-496: the construction of the forms with these numbers, in order. -/
def openForms (new : Node) (ts : TSt A) : List Nat → Except PyErr (TSt A)
  | [] => .ok ts
  | i :: is => match ts.st.inst i with
    | .detached _ => match initTree eng (ts.forms i) [] new with
      | (.error e, _) => .error e
      | (.ok _, _) => openForms new ts is
    | .member _ => match ts.st.elem eng ctx xpath node i with
      | .error e => .error e
      | .ok v => match initTree eng (ts.forms i) [] v with
        | (.error e, _) => .error e
        | (.ok _, v') => match ts.st.update eng ctx xpath node (fun _ _ => v') i with
          | .error e => .error e
          | .ok st => openForms new ⟨st, ts.forms⟩ is

/-- A formset is made for the list of a document, with the forms of the `subs.length` submitted ones, and updates the list. -/
def saveTreeFormset (new : Node) (forms : Nat → FTree A) (canDelete canOrder : Bool) (initial : Nat) (subs : List Submitted) (doc : Node) : Except PyErr Node :=
  match openForms eng ctx xpath node new ⟨⟨doc, openHandle eng ctx xpath node new forms doc⟩, forms⟩ (List.range subs.length) with
  | .error e => .error e
  | .ok ts => match treeFormsetUpdate eng ctx xpath xast node canDelete canOrder (boundForms initial subs) ts with
    | .error e => .error e
    | .ok ts => .ok ts.st.doc

end Forms
