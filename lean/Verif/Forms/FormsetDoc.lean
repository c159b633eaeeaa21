import Verif.Forms.Formsets
/-
Model of the formset of a NodeListField, on the document: `BaseXmlObjectFormSet` (eulxml/forms/xmlobject.py:796-838).  `self.instances` is the `NodeList` of the field,
whose members are found anew for each operation; each form has an XmlObject, that is an element, which stays the same element while others are removed and added.
-/
namespace Forms
open XPath Xml Fields

/-- Where the element of a form's XmlObject is: it is the member of the list with this number, or on its own. -/
inductive Handle where
  | member (k : Nat)
  | detached (v : Node)

/-- The same element after the member `k`, the element `x`, has been removed. -/
def Handle.removed (k : Nat) (x : Node) : Handle → Handle
  | .member j => if j = k then .detached x else if k < j then .member (j - 1) else .member j
  | .detached v => .detached v

/-- The same element after the member `k` has been moved to the end of the list. -/
def Handle.moved (k : Nat) : Handle → Handle
  | .member j => if k < j then .member (j - 1) else .member j
  | .detached v => .detached v

/-- The document, and the elements of the forms' XmlObjects. -/
structure FSt (I : Type) where
  doc : Node
  inst : I → Handle

/-- `NodeMapper.to_python` (fields.py:246-249): an XmlObject is represented by its element. -/
def nodeItem : Item → Except PyErr Node
  | .elem m => .ok m
  | _ => .error .typeError

section
variable [PyUnicode] (eng : Engine) (ctx : Ctx) (xpath : Str) (xast : Expr) (node : Ref) {I : Type} [DecidableEq I]

/-- The element of a form's XmlObject. -/
def FSt.elem (st : FSt I) (i : I) : Except PyErr Node := match st.inst i with
  | .detached v => .ok v
  | .member k => (listGet eng ctx nodeItem xpath node k st.doc).1

/-- `form.instance in self.instances` (xmlobject.py:818, 826; fields.py:717-718): XmlObjects are equal if they are serialized alike (core.py:433-441). -/
def FSt.contains (st : FSt I) (i : I) : Except PyErr Bool := do
  let v ← st.elem eng ctx xpath node i
  (listContains eng ctx nodeItem xpath node v st.doc).1

/-- `self.instances.remove(form.instance)` (xmlobject.py:819, 827; fields.py:795-798).  Simplification: of a failed operation only the exception is kept. -/
def FSt.remove (st : FSt I) (i : I) : Except PyErr (FSt I) := do
  let v ← st.elem eng ctx xpath node i
  let k ← (listIndex eng ctx nodeItem xpath node v st.doc).1
  let x ← (listGet eng ctx nodeItem xpath node k st.doc).1
  match listDel eng ctx xpath node k st.doc with
  | (.error e, _) => .error e
  | (.ok _, doc) => .ok ⟨doc, fun j => (st.inst j).removed k x⟩

/-- xmlobject.py:818-819, 826-827. -/
def FSt.removeIfThere (st : FSt I) (i : I) : Except PyErr (FSt I) := do
  if ← st.contains eng ctx xpath node i then st.remove eng ctx xpath node i else pure st

/-- `form.update_instance()`: `upd i` is what it does to the element. -/
def FSt.update (upd : I → Node → Node) (st : FSt I) (i : I) : Except PyErr (FSt I) := match st.inst i with
  | .detached v => .ok { st with inst := fun j => if j = i then .detached (upd i v) else st.inst j }
  | .member k => do
    let ms ← (listMatches eng ctx xpath node st.doc).1
    match ← pyGet ms k with
    | .elem b => .ok { st with doc := (edit b (upd i) st.doc).2 }
    | _ => .error .attributeError

/-- `self.instances.append(form.instance)` (xmlobject.py:829, 838; fields.py:786-788, 741-767): an element that is a member already is moved. -/
def FSt.append (st : FSt I) (i : I) : Except PyErr (FSt I) := do
  let n ← (listLen eng ctx nodeItem xpath node st.doc).1
  match st.inst i with
  | .detached v => match listSet eng ctx storeNode xpath xast node n (.foreign v) st.doc with
    | (.error e, _) => .error e
    | (.ok _, doc) => .ok ⟨doc, fun j => if j = i then .member n else st.inst j⟩
  | .member k => do
    let ms ← (listMatches eng ctx xpath node st.doc).1
    match ← pyGet ms k with
    | .elem b => match listSet eng ctx storeNode xpath xast node n (.own b) st.doc with
      | (.error e, _) => .error e
      | (.ok _, doc) => .ok ⟨doc, fun j => if j = i then .member (n - 1) else (st.inst j).moved k⟩
    | _ => .error .attributeError

/-- xmlobject.py:815-819. -/
def docRemoveDeleted (st : FSt I) : List (MForm I) → Except PyErr (FSt I)
  | [] => .ok st
  | f :: fs => do
    let st ← st.removeIfThere eng ctx xpath node f.inst
    docRemoveDeleted st fs

/-- xmlobject.py:825-829. -/
def docReorder (upd : I → Node → Node) (st : FSt I) : List (MForm I) → Except PyErr (FSt I)
  | [] => .ok st
  | f :: fs => do
    let st ← st.removeIfThere eng ctx xpath node f.inst
    let st ← st.update eng ctx xpath node upd f.inst
    let st ← st.append eng ctx xpath xast node f.inst
    docReorder upd st fs

/-- xmlobject.py:832-834. -/
def docUpdateInitial (upd : I → Node → Node) (st : FSt I) : List (MForm I) → Except PyErr (FSt I)
  | [] => .ok st
  | f :: fs => do
    let st ← if f.changed then st.update eng ctx xpath node upd f.inst else pure st
    docUpdateInitial upd st fs

/-- xmlobject.py:835-838. -/
def docUpdateExtra (upd : I → Node → Node) (st : FSt I) : List (MForm I) → Except PyErr (FSt I)
  | [] => .ok st
  | f :: fs => do
    let st ← if f.changed then (do
        let st ← st.update eng ctx xpath node upd f.inst
        st.append eng ctx xpath xast node f.inst)
      else pure st
    docUpdateExtra upd st fs

/-- Django `BaseFormSet.is_valid` of a bound formset whose forms are all valid: `is_valid` of each form that is not to be deleted updates its instance (xmlobject.py:630-637). -/
def docValidate (upd : I → Node → Node) (st : FSt I) : List (MForm I) → Except PyErr (FSt I)
  | [] => .ok st
  | f :: fs => do
    let st ← st.update eng ctx xpath node upd f.inst
    docValidate upd st fs

/-- xmlobject.py:814-838 `update_instance` of a valid formset, on the document.  Django's `deleted_forms` and `ordered_forms` validate the formset, each time. -/
def docFormsetUpdate (upd : I → Node → Node) (canDelete canOrder : Bool) (forms : List (MForm I)) (st : FSt I) : Except PyErr (FSt I) := do
  let st ← docValidate eng ctx xpath node upd st (remainingForms canDelete forms)
  let st ← docRemoveDeleted eng ctx xpath node st (deletedForms canDelete forms)
  if canOrder then
    let st ← docValidate eng ctx xpath node upd st (remainingForms canDelete forms)
    docReorder eng ctx xpath xast node upd st (orderedForms canDelete forms)
  else
    let st ← docUpdateInitial eng ctx xpath node upd st (forms.filter (fun f => f.initial))
    docUpdateExtra eng ctx xpath xast node upd st (forms.filter (fun f => !f.initial))

end

/-- What was submitted for one form of the set: whether its data changed, whether it is marked for deletion, and its order. -/
structure Submitted where
  changed : Bool
  deleted : Bool
  order : Option Int

/-- The forms of a bound formset (Django `BaseFormSet.forms`, `initial_form_count`, `total_form_count`): their number is that of the submitted ones, and the first
`initial` ones (the submitted `INITIAL_FORMS`) are the initial forms. -/
def boundForms (initial : Nat) (subs : List Submitted) : List (MForm Nat) := subs.mapIdx (fun i d => ⟨i, decide (i < initial), d.changed, d.deleted, d.order⟩)

/-- xmlobject.py:804-812 `_construct_form`: the XmlObject of form `i` is the member `i` of the list, if there is one (a list is too short with IndexError, which is
caught), and otherwise a new one (473-479), with the element `new`. -/
def constructForm [PyUnicode] (eng : Engine) (ctx : Ctx) (xpath : Str) (node : Ref) (new : Node) (doc : Node) (i : Nat) : Handle :=
  match (listGet eng ctx nodeItem xpath node i doc).1 with
  | .ok _ => .member i
  | .error _ => .detached new

/-- A formset is made for the list of a document, gets what was submitted, and updates the list. -/
def saveFormset [PyUnicode] (eng : Engine) (ctx : Ctx) (xpath : Str) (xast : Expr) (node : Ref) (new : Node) (upd : Nat → Node → Node) (canDelete canOrder : Bool)
    (initial : Nat) (subs : List Submitted) (doc : Node) : Except PyErr Node := do
  let st ← docFormsetUpdate eng ctx xpath xast node upd canDelete canOrder (boundForms initial subs) ⟨doc, constructForm eng ctx xpath node new doc⟩
  pure st.doc

end Forms
