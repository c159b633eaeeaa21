import Verif.Forms.ListSubmit
import Verif.Forms.FormsetForms
/-
Model of the formset of a NodeListField on its way through a browser: it is shown for the elements of the list, sent back, made again with the data, validated, and it updates the list
(eulxml/forms/xmlobject.py:536-548, 796-838; the formset class: 230-255).  The forms have no subforms and formsets.

About Django (1.9 to 3.2): the set has as many forms as there are elements, and `extra` more, but only up to `max_num`, unless there are more elements; with data there are `TOTAL_FORMS` forms, the
first `INITIAL_FORMS` of which are initial ones; the set is not valid if there are more than `absolute_max`.  With `can_order` each form has an input `ORDER`, with `can_delete` a box `DELETE`.
A form after the initial ones that has not changed has no cleaned data, and no errors.  Forms to be deleted need not be valid.
-/
namespace Forms
open XPath Xml Fields Core Py Props

/-- The formset class: the form class, with its form fields, and Django's options (`max_num` is 1000 if it is not given). -/
structure WSet : Type 1 where
  own : Own Plain2
  inputs : List (Str × FormField)
  canDelete : Bool
  canOrder : Bool
  extra : Nat
  maxNum : Nat

/-- Django `BaseFormSet.total_form_count`, without data, for `n` elements (xmlobject.py:800). -/
def WSet.count (w : WSet) (n : Nat) : Nat := if n > w.maxNum then n else min (n + w.extra) w.maxNum

/-- Django `BaseFormSet.add_fields`. -/
def orderField : FormField := ⟨.integer, [], false⟩
def deleteField : FormField := ⟨.boolean, [], false⟩

/-- The name of an input of the form with this number (Django `BaseFormSet.add_prefix`, `BaseForm.add_prefix`). -/
def formName (pfx : Str) (i : Nat) (x : Str) : Str := addPrefix (some (indexPrefix pfx i)) x

/-- Django `add_fields`: the initial value of `ORDER`. -/
def orderInitial (initial i : Nat) : CVal Plain2 := if i < initial then .other (.int (i + 1)) else .null

/-- Django `Field.to_python`, except for boxes; `none` is a ValidationError. -/
def toPython (dj : Django) (f : FormField) (raw : Option Str) : Option (CVal Plain2) := match f.kind with
  | .char => some (.str (dj.strip (raw.getD [])))
  | .integer => if raw.getD [] = [] then some .null else (dj.int (raw.getD [])).map (fun n => .other (.int n))
  | .date => if raw.getD [] = [] then some .null else (dj.date (raw.getD [])).map (fun d => .other (.date d))
  | .boolean => some (.other (.bool (boxValue raw)))
  | .choice => some (.str (raw.getD []))

/-- Django `Field.has_changed`: `None` is like the empty string. -/
def orEmpty : CVal Plain2 → CVal Plain2
  | .null => .str []
  | v => v

/-- Django `Field.has_changed`, `BooleanField.has_changed`. -/
def changedInput (dj : Django) (f : FormField) (initial : CVal Plain2) (raw : Option Str) : Bool := match f.kind with
  | .boolean => ticked initial != boxValue raw
  | _ => match toPython dj f raw with
    | none => true
    | some v => !decide (orEmpty initial = orEmpty v)

section
variable [PyUnicode] (eng : Engine) (dj : Django)

/-- xmlobject.py:804-812 `_construct_form`: the element for the form with this number, if there is one. -/
def memberAt (ctx : Ctx) (xpath : Str) (node : Ref) (doc : Node) (i : Nat) : Option Node := match (listGet eng ctx nodeItem xpath node i doc).1 with
  | .ok m => some m
  | .error _ => none

/-- xmlobject.py:473-485, 800, 351-352: the form fields with their initial values, which are those of the element; a form for a new object has none.  Simplifications: only the values of fields that are
shown are read; they are read on the element alone. -/
def formInits (o : Own Plain2) (m : Option Node) : List (Str × FormField) → Except PyErr (List (Str × FormField × CVal Plain2))
  | [] => .ok []
  | (x, f) :: rest => match (match m with | none => .ok .null | some m => (initialValue eng o [] x m).1 : Except PyErr (CVal Plain2)) with
    | .error e => .error e
    | .ok v => match formInits o m rest with
      | .error e => .error e
      | .ok l => .ok ((x, f, v) :: l)

/-- The inputs of one form, with what they send if nobody touches them. -/
def formPage (w : WSet) (pfx : Str) (initial i : Nat) (inits : List (Str × FormField × CVal Plain2)) : List (Str × Option Str) :=
  inits.map (fun p => (formName pfx i p.1, sends p.2.1 p.2.2)) ++
  (if w.canOrder then [(formName pfx i c%"ORDER", sends orderField (orderInitial initial i))] else []) ++
  (if w.canDelete then [(formName pfx i c%"DELETE", sends deleteField .null)] else [])

/-- The inputs of the forms with these numbers. -/
def formPages (w : WSet) (ctx : Ctx) (pfx xpath : Str) (node : Ref) (doc : Node) (initial : Nat) : List Nat → Except PyErr (List (Str × Option Str))
  | [] => .ok []
  | i :: is => match formInits eng w.own (memberAt eng ctx xpath node doc i) w.inputs with
    | .error e => .error e
    | .ok inits => match formPages w ctx pfx xpath node doc initial is with
      | .error e => .error e
      | .ok l => .ok (formPage w pfx initial i inits ++ l)

/-- xmlobject.py:536-548, 797-812: the formset is made without data; its inputs. -/
def showSet (w : WSet) (ctx : Ctx) (pfx xpath : Str) (node : Ref) (doc : Node) : Except PyErr (List (Str × Option Str)) :=
  match (listLen eng ctx nodeItem xpath node doc).1 with
  | .error e => .error e
  | .ok n => match formPages eng w ctx pfx xpath node doc n (List.range (w.count n)) with
    | .error e => .error e
    | .ok l => .ok ((countName pfx c%"TOTAL_FORMS", some (natStr (w.count n))) :: (countName pfx c%"INITIAL_FORMS", some (natStr n)) ::
        (countName pfx c%"MIN_NUM_FORMS", some (natStr 0)) :: (countName pfx c%"MAX_NUM_FORMS", some (natStr w.maxNum)) :: l)

/-- What Django makes of the data for one form: whether it has changed, is to be deleted, its order; the cleaned data; whether it is valid. -/
structure SForm where
  sub : Submitted
  data : Dict Str (CVal Plain2)
  valid : Bool

/-- The order in the data; `none` also if there is none. -/
def sentOrder (raw : Option Str) : Option Int := match cleans dj orderField raw with
  | some (.other (.int k)) => some k
  | _ => none

/-- Django `BaseForm.has_changed`. -/
def formChanged (w : WSet) (post : Dict Str Str) (pfx : Str) (initial i : Nat) (inits : List (Str × FormField × CVal Plain2)) : Bool :=
  inits.any (fun p => changedInput dj p.2.1 p.2.2 (post.get? (formName pfx i p.1))) ||
  (w.canOrder && changedInput dj orderField (orderInitial initial i) (post.get? (formName pfx i c%"ORDER"))) ||
  (w.canDelete && changedInput dj deleteField .null (post.get? (formName pfx i c%"DELETE")))

/-- Django `BaseForm.full_clean`, `BaseFormSet._should_delete_form`, for the form with number `i` of a set with `initial` initial forms. -/
def readForm (w : WSet) (post : Dict Str Str) (pfx : Str) (initial i : Nat) (inits : List (Str × FormField × CVal Plain2)) : SForm :=
  if decide (initial ≤ i) && !formChanged dj w post pfx initial i inits then ⟨⟨false, false, none⟩, [], true⟩
  else ⟨⟨formChanged dj w post pfx initial i inits, w.canDelete && boxValue (post.get? (formName pfx i c%"DELETE")),
      if w.canOrder then sentOrder dj (post.get? (formName pfx i c%"ORDER")) else none⟩,
    cleanOwn dj (some (indexPrefix pfx i)) post w.inputs,
    validOwn dj (some (indexPrefix pfx i)) post w.inputs && (!w.canOrder || (cleans dj orderField (post.get? (formName pfx i c%"ORDER"))).isSome)⟩

/-- The forms with these numbers. -/
def readForms (w : WSet) (ctx : Ctx) (post : Dict Str Str) (pfx xpath : Str) (node : Ref) (doc : Node) (initial : Nat) : List Nat → Except PyErr (List SForm)
  | [] => .ok []
  | i :: is => match formInits eng w.own (memberAt eng ctx xpath node doc i) w.inputs with
    | .error e => .error e
    | .ok inits => match readForms w ctx post pfx xpath node doc initial is with
      | .error e => .error e
      | .ok l => .ok (readForm dj w post pfx initial i inits :: l)

/-- Django `ManagementForm`: `TOTAL_FORMS` and `INITIAL_FORMS`; see `formCount`. -/
def formCounts (post : Dict Str Str) (pfx : Str) : Option (Int × Int) :=
  match formCount dj post pfx, cleans dj ⟨.integer, [], true⟩ (post.get? (countName pfx c%"INITIAL_FORMS")) with
  | some t, some (.other (.int k)) => some (t, k)
  | _, _ => none

/-- Django `BaseFormSet.is_valid`, with xmlobject.py:630-651 for each form that is not to be deleted: the data are valid, and the updated instance is, by its schema. -/
def setValid (w : WSet) (elem : Nat → Node) (forms : List SForm) : Bool :=
  forms.zipIdx.all (fun p => p.1.sub.deleted || (p.1.valid && w.own.schemaValid (formUpd eng w.own (forms.map SForm.data) p.2 (elem p.2))))

/-- xmlobject.py:536-548, 632, 595-596, 814-838: the formset is made with the data that have been sent, and, if it is valid, updates the list.  The result: the document, if the set is
valid.  Simplifications: a negative `INITIAL_FORMS` is taken as not valid; what the validation of a set that is not valid does to the document is left out. -/
def saveSet (w : WSet) (ctx : Ctx) (absMax : Nat) (new : Node) (post : Dict Str Str) (pfx xpath : Str) (xast : Expr) (node : Ref) (doc : Node) : Except PyErr (Option Node) :=
  match formCounts dj post pfx with
  | none => .ok none
  | some (t, k) =>
    if t > (absMax : Int) ∨ k < 0 then .ok none
    else match readForms eng dj w ctx post pfx xpath node doc k.toNat (List.range t.toNat) with
      | .error e => .error e
      | .ok forms =>
        if setValid eng w (fun i => (memberAt eng ctx xpath node doc i).getD new) forms then
          (saveFormset eng ctx xpath xast node new (formUpd eng w.own (forms.map SForm.data)) w.canDelete w.canOrder k.toNat (forms.map SForm.sub) doc).map some
        else .ok none

end
end Forms
