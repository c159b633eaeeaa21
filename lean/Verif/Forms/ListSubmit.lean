import Verif.Forms.Submit
import Verif.Forms.Formsets
/-
Model of the formset of a list field (string or integer) on its way through a browser: it is shown for the list of an instance, sent back, made again with the data, validated, and it
updates the list (eulxml/forms/xmlobject.py:536-548, 878-930; the formset class: 257-270).

About Django (1.6 to 3.2): the set has as many forms as the list has items, and one more (`extra`), but only up to `max_num`, which is 1000 (`DEFAULT_MAX_NUM`), unless the list is longer; with data
there are as many forms as the data say (`TOTAL_FORMS`), and the set is not valid if they are more than `absolute_max`.  A form after the initial ones may be left empty
(`empty_permitted`): if it has not changed, its cleaned data have no value.
-/
namespace Forms
open XPath Xml Fields Core Py Props

/-- The form of one item, with its only field `val`: the initial value of the field for an item, the item for a cleaned value, and its truth value. -/
structure ListInput (α : Type) where
  field : FormField
  shown : α → CVal Plain2
  value : CVal Plain2 → α
  truthy : α → Bool

/-- xmlobject.py:878-896 `ListFieldForm`: `None` is no initial value. -/
def strInput : ListInput (Option Str) :=
  ⟨⟨.char, [], false⟩, fun v => match v with | none => .null | some s => .str s, fun v => match v with | .str s => some s | _ => none, strTruthy⟩

/-- xmlobject.py:898-900 `IntegerListFieldForm`. -/
def intInput : ListInput (Option Int) :=
  ⟨⟨.integer, [], false⟩, fun v => match v with | none => .null | some n => .other (.int n), fun v => match v with | .other (.int n) => some n | _ => none, intTruthy⟩

/-- The name of an input of the `ManagementForm` (Django; the prefix is that of the set, xmlobject.py:543-548). -/
def countName (pfx : Str) (x : Str) : Str := addPrefix (some pfx) x

/-- The name of the input of an item (Django `BaseFormSet.add_prefix`, `BaseForm.add_prefix`; xmlobject.py:880). -/
def itemName (pfx : Str) (i : Nat) : Str := addPrefix (some (indexPrefix pfx i)) c%"val"

/-- Django's `DEFAULT_MAX_NUM`; `formset_factory` is called without `max_num` (xmlobject.py:267). -/
def maxNum : Nat := 1000

/-- Django `BaseFormSet.total_form_count`, without data; xmlobject.py:909-911 `initial_form_count` is the number of items. -/
def shownCount (n : Nat) : Nat := if n > maxNum then n else min (n + 1) maxNum

/-- Django `has_changed`, for a form without initial value: is there a value? -/
def isBlank : CVal Plain2 → Bool
  | .null => true
  | .str s => s.isEmpty
  | .other _ => false

section
variable [PyUnicode] (eng : Engine) (ctx : Ctx) {α : Type} [DecidableEq α] (mapper : Item → Except PyErr α) (store : Ref → α → M Unit) (inp : ListInput α) (dj : Django)

/-- xmlobject.py:913-921 `_construct_form`, 884-888: the initial value of the form with this number; whatever reading the item raises, there is none then. -/
def initialItem (xpath : Str) (node : Ref) (i : Nat) : M (CVal Plain2) := fun s => match listGet eng ctx mapper xpath node i s with
  | (.ok v, s) => (.ok (inp.shown v), s)
  | (.error _, s) => (.ok .null, s)

/-- The inputs of the items with these numbers, and what they send if nobody touches them. -/
def showItems (pfx xpath : Str) (node : Ref) : List Nat → M (List (Str × Option Str))
  | [] => pure []
  | i :: is => do
    let v ← initialItem eng ctx mapper inp xpath node i
    let r ← showItems pfx xpath node is
    pure ((itemName pfx i, sends inp.field v) :: r)

/-- xmlobject.py:536-548, 904-921: the formset is made without data; its inputs, with what they send if nobody touches them. -/
def showListSet (pfx xpath : Str) (node : Ref) : M (List (Str × Option Str)) := do
  let n ← listLen eng ctx mapper xpath node
  let r ← showItems eng ctx mapper inp pfx xpath node (List.range (shownCount n))
  pure ((countName pfx c%"TOTAL_FORMS", some (natStr (shownCount n))) :: (countName pfx c%"INITIAL_FORMS", some (natStr n)) ::
    (countName pfx c%"MIN_NUM_FORMS", some (natStr 0)) :: (countName pfx c%"MAX_NUM_FORMS", some (natStr maxNum)) :: r)

/-- Django `ManagementForm`: two numbers are required, two are not.  The result is `TOTAL_FORMS`; `none` if the form is not valid (then the set is not valid, or Django raises an
exception, depending on its version). -/
def formCount (post : Dict Str Str) (pfx : Str) : Option Int :=
  match cleans dj ⟨.integer, [], true⟩ (post.get? (countName pfx c%"TOTAL_FORMS")), cleans dj ⟨.integer, [], true⟩ (post.get? (countName pfx c%"INITIAL_FORMS")),
    cleans dj ⟨.integer, [], false⟩ (post.get? (countName pfx c%"MIN_NUM_FORMS")), cleans dj ⟨.integer, [], false⟩ (post.get? (countName pfx c%"MAX_NUM_FORMS")) with
  | some (.other (.int t)), some _, some _, some _ => some t
  | _, _, _, _ => none

/-- Django `BaseForm.full_clean` and xmlobject.py:890-896 `value`: of the form with number `i`, when the list has `n` items; `none` if the form is not valid. -/
def itemValue (n : Nat) (post : Dict Str Str) (pfx : Str) (i : Nat) : Option α :=
  match cleans dj inp.field (post.get? (itemName pfx i)) with
  | none => none
  | some v => some (inp.value (if n ≤ i ∧ isBlank v = true then .null else v))

/-- The values of the forms with these numbers, if they are all valid. -/
def itemValues (n : Nat) (post : Dict Str Str) (pfx : Str) : List Nat → Option (List α)
  | [] => some []
  | i :: is => match itemValue inp dj n post pfx i, itemValues n post pfx is with
    | some v, some vs => some (v :: vs)
    | _, _ => none

/-- Django `BaseFormSet.is_valid`: the values of the forms if the set is valid, when the list has `n` items. -/
def boundValues (absMax : Nat) (n : Nat) (post : Dict Str Str) (pfx : Str) : Option (List α) := match formCount dj post pfx with
  | none => none
  | some t => if t > (absMax : Int) then none else itemValues inp dj n post pfx (List.range t.toNat)

/-- xmlobject.py:536-548, 632, 595-596, 923-930: the formset is made with the data that have been sent, and, if it is valid, updates the list.  The result: is it valid? -/
def saveListSet (absMax : Nat) (post : Dict Str Str) (pfx xpath : Str) (xast : Expr) (node : Ref) : M Bool := do
  let n ← listLen eng ctx mapper xpath node
  match boundValues inp dj absMax n post pfx with
  | none => pure false
  | some vs => do
    listFormsetUpdate eng ctx mapper store inp.truthy xpath xast node vs
    pure true

end
end Forms
