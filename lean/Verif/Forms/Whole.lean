import Verif.Forms.FormsetForms
import Verif.Props.Mixed
/-
Model of a form with subforms and formsets, on a document: eulxml/forms/xmlobject.py:468-651.  The formsets are those of the form itself; its subforms have none.
-/
namespace Forms
open XPath Xml Spec Fields Py Props

/-- The bound formset of a NodeListField (xmlobject.py:796-838): the list field, the class of the forms, `cleaned_data` of each, the element of a new object, the options,
the submitted INITIAL_FORMS, what was submitted, Django's opinion of each form, and of the set as such. -/
structure NodeSet (A : Type) where
  xp : Str
  e : Expr
  q : QName
  ps : List Pred
  o : Own A
  data : List (Dict Str (CVal A))
  new : Node
  canDelete : Bool
  canOrder : Bool
  initial : Nat
  subs : List Submitted
  formValid : Nat → Bool
  clean : Bool

/-- A bound formset: of a NodeListField, or of another list field (902-930), with the values of the forms and their truth values, and Django's opinion. -/
inductive FSet (A : Type) : Type 1 where
  | nodes (f : NodeSet A)
  | values (f : LField) (truthy : f.α → Bool) (vs : List f.α) (valid : Bool)

variable {A : Type}

/-- The tag of the members of the list of the formset, -/
def FSet.q : FSet A → QName
  | .nodes f => f.q
  | .values f _ _ _ => f.q
/-- and their predicates. -/
def FSet.ps : FSet A → List Pred
  | .nodes f => f.ps
  | .values f _ _ _ => f.ps
/-- The path of the list field. -/
def FSet.path (set : FSet A) : List Step := [.child set.q set.ps]

/-- A formset, and where the elements of its forms are. -/
structure RSet (A : Type) where
  set : FSet A
  inst : Nat → Handle

variable [PyUnicode] (eng : Engine) (ctx : Ctx) (a : Node.Addr)

/-- xmlobject.py:535-548, 796-812, 902-921: a formset is made for the list.  Simplification: Django makes the forms when they are first used. -/
def startSet (s : Node) (set : FSet A) : RSet A := match set with
  | .nodes f => ⟨set, constructForm eng ctx f.xp (.elem a) f.new s⟩
  | .values _ _ _ _ => ⟨set, fun i => .member i⟩

/-- xmlobject.py:595-596: a formset updates its list.  Simplification: elements of forms that are members of the list are the same members in it, whatever has happened to the
rest of the document. -/
def updateSet (r : RSet A) (s : Node) : Except PyErr ((Nat → Handle) × Node) := match r.set with
  | .nodes f => do
    let st ← docFormsetUpdate eng ctx f.xp f.e (.elem a) (formUpd eng f.o f.data) f.canDelete f.canOrder (boundForms f.initial f.subs) ⟨s, r.inst⟩
    .ok (st.inst, st.doc)
  | .values f truthy vs _ => match listFormsetUpdate eng ctx f.k.read f.k.store truthy f.xp f.e (.elem a) vs s with
    | (.ok _, s) => .ok (r.inst, s)
    | (.error e, _) => .error e

/-- xmlobject.py:595-596. -/
def updateFormsets : List (RSet A) → Node → Except PyErr (List (RSet A) × Node)
  | [], s => .ok ([], s)
  | r :: rs, s => match updateSet eng ctx a r s with
    | .error e => .error e
    | .ok (inst, s) => match updateFormsets rs s with
      | .error e => .error e
      | .ok (rs, s) => .ok (⟨r.set, inst⟩ :: rs, s)

/-- Django `BaseFormSet.is_valid`, the loop over the forms that are not to be deleted, to the end: each one that Django finds valid updates its instance, which is then compared
with the schema (xmlobject.py:630-651). -/
def validForms (f : NodeSet A) (st : FSt Nat) : List (MForm Nat) → Except PyErr (Bool × FSt Nat)
  | [] => .ok (true, st)
  | g :: fs =>
    if f.formValid g.inst then do
      let st ← st.update eng ctx f.xp (.elem a) (formUpd eng f.o f.data) g.inst
      let v ← st.elem eng ctx f.xp (.elem a) g.inst
      let (b, st) ← validForms f st fs
      .ok (f.o.schemaValid v && b, st)
    else do
      let (_, st) ← validForms f st fs
      .ok (false, st)

/-- `is_valid` of a formset. -/
def validSet (r : RSet A) (s : Node) : Except PyErr (Bool × (Nat → Handle) × Node) := match r.set with
  | .nodes f => do
    let (b, st) ← validForms eng ctx a f ⟨s, r.inst⟩ (remainingForms f.canDelete (boundForms f.initial f.subs))
    .ok (b && f.clean, st.inst, st.doc)
  | .values _ _ _ valid => .ok (valid, r.inst, s)

/-- xmlobject.py:632: until one is not valid. -/
def validFormsets : List (RSet A) → Node → Except PyErr (Bool × List (RSet A) × Node)
  | [], s => .ok (true, [], s)
  | r :: rs, s => match validSet eng ctx a r s with
    | .error e => .error e
    | .ok (false, inst, s) => .ok (false, ⟨r.set, inst⟩ :: rs, s)
    | .ok (true, inst, s) => match validFormsets rs s with
      | .error e => .error e
      | .ok (b, rs, s) => .ok (b, ⟨r.set, inst⟩ :: rs, s)

/-- A form with its subforms, and its formsets. -/
structure Whole (A : Type) where
  t : FTree A
  sets : List (RSet A)

/-- xmlobject.py:495-497: the form is made for the object with the element at `a`. -/
def initWhole (t : FTree A) (sets : List (FSet A)) (s : Node) : Except PyErr (Whole A × Node) := match t with
  | .mk o subs => match initTree eng (.mk o subs) a s with
    | (.error e, _) => .error e
    | (.ok _, s) => .ok (⟨.mk o subs, sets.map (startSet eng o.ctx a s)⟩, s)

/-- xmlobject.py:550-597 `update_instance`: own fields, subforms, formsets.  Simplification: of a failed operation only the exception is kept. -/
def updateWhole (w : Whole A) (s : Node) : Except PyErr (Whole A × Node) := match w.t with
  | .mk o subs => match o.cleaned with
    | none => .ok (w, s)
    | some _ => match updateTree eng (.mk o subs) a s with
      | (.error e, _, _) => .error e
      | (.ok _, t, s) => match updateFormsets eng o.ctx a w.sets s with
        | .error e => .error e
        | .ok (sets, s) => .ok (⟨t, sets⟩, s)

/-- xmlobject.py:615-651 `is_valid`: Django's checks, the subforms and the formsets until one is not valid, the update, the schema. -/
def validWhole (w : Whole A) (s : Node) : Except PyErr (Bool × Whole A × Node) := match w.t with
  | .mk o subs =>
    if o.valid = false then .ok (false, w, s)
    else match validTrees eng subs a s with
      | (.error e, _, _) => .error e
      | (.ok false, subs, s) => .ok (false, ⟨.mk o subs, w.sets⟩, s)
      | (.ok true, subs, s) => match validFormsets eng o.ctx a w.sets s with
        | .error e => .error e
        | .ok (false, sets, s) => .ok (false, ⟨.mk o subs, sets⟩, s)
        | .ok (true, sets, s) => match updateWhole eng a ⟨.mk o subs, sets⟩ s with
          | .error e => .error e
          | .ok (w, s) => .ok ((s.get a).all o.schemaValid, w, s)

end Forms
