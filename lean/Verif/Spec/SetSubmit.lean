import Verif.Forms.SetSubmit
import Verif.Spec.ListSubmit
import Verif.Spec.Submit
/-
Specification of C102: the formset of a NodeListField is shown, edited, and sent back.
-/
namespace Props
open XPath Xml Spec Fields Forms Core Py

/-- What the inputs show: `value i x` is what the field `x` of the member `i` reads; forms without member show nothing. -/
def ShowsSet (w : WSet) (ms : List Node) (value : Nat → Str → CVal Plain2) : Prop :=
  (∀ i m, ms[i]? = some m → ∀ x f, (x, f) ∈ w.inputs → ∃ j, w.own.m.name j = x ∧ (fieldVal (w.own.m.fs j) m).map (w.own.m.show_ j) = .ok (value i x)) ∧
  (∀ i, ms.length ≤ i → ∀ x, value i x = .null)

/-- The inputs of the form with number `i`, for a list with `n` members: one for each form field; the number of the member, counted from 1, if the forms can be ordered; a box that is
not ticked, if they can be deleted. -/
def formRow (w : WSet) (pfx : Str) (n : Nat) (value : Nat → Str → CVal Plain2) (i : Nat) : List (Str × Option Str) :=
  w.inputs.map (fun p => (formName pfx i p.1, sends p.2 (value i p.1))) ++
  (if w.canOrder then [(formName pfx i c%"ORDER", some (if i < n then natStr (i + 1) else []))] else []) ++
  (if w.canDelete then [(formName pfx i c%"DELETE", none)] else [])

/-- The four inputs of the set that are not for forms. -/
def setCounts (pfx : Str) (k n max : Nat) : List (Str × Option Str) :=
  [(countName pfx c%"TOTAL_FORMS", some (natStr k)), (countName pfx c%"INITIAL_FORMS", some (natStr n)), (countName pfx c%"MIN_NUM_FORMS", some (natStr 0)),
   (countName pfx c%"MAX_NUM_FORMS", some (natStr max))]

/-- The page for a list with `n` members. -/
def setPage (w : WSet) (pfx : Str) (n : Nat) (value : Nat → Str → CVal Plain2) : List (Str × Option Str) :=
  setCounts pfx (w.count n) n w.maxNum ++ (List.range (w.count n)).flatMap (formRow w pfx n value)

section
variable (dj : Django) (w : WSet) (post : Dict Str Str) (pfx : Str) (n : Nat) (value : Nat → Str → CVal Plain2)

/-- What has been sent for an input of the form with number `i`. -/
def sentFor (i : Nat) (x : Str) : Option Str := post.get? (formName pfx i x)

/-- What has been sent for the input of the field means the value `v` that the input showed: a text, stripped, or a choice, which are `v`, or empty if `v` is nothing; a number or a date that can be
read, and is `v`, or nothing, if `v` is nothing or the empty string; a box that is as it was. -/
def SendsSame (f : FormField) (v : CVal Plain2) (raw : Option Str) : Prop := match f.kind, v with
  | .char, .null => dj.strip (raw.getD []) = []
  | .char, .str s => dj.strip (raw.getD []) = s
  | .integer, .null => raw.getD [] = []
  | .integer, .str s => s = [] ∧ raw.getD [] = []
  | .integer, .other (.int k) => raw.getD [] ≠ [] ∧ dj.int (raw.getD []) = some k
  | .date, .null => raw.getD [] = []
  | .date, .str s => s = [] ∧ raw.getD [] = []
  | .date, .other (.date d) => raw.getD [] ≠ [] ∧ dj.date (raw.getD []) = some d
  | .boolean, v => ticked v = boxValue raw
  | .choice, .null => raw.getD [] = []
  | .choice, .str s => raw.getD [] = s
  | _, _ => False

/-- The number `k` has been sent for the place of the form. -/
def OrderIs (i : Nat) (k : Int) : Prop := (sentFor post pfx i c%"ORDER").getD [] ≠ [] ∧ dj.int ((sentFor post pfx i c%"ORDER").getD []) = some k

/-- No number has been sent for the place of the form. -/
def OrderEmpty (i : Nat) : Prop := (sentFor post pfx i c%"ORDER").getD [] = []

/-- The form with number `i` has been changed: one of its inputs does not give what it showed; its place is not the one it had (none, for a new member); its box has been ticked. -/
def ChangedForm (i : Nat) : Prop :=
  (∃ x f, (x, f) ∈ w.inputs ∧ ¬ SendsSame dj f (value i x) (sentFor post pfx i x)) ∨
  (w.canOrder = true ∧ (i < n → ¬ OrderIs dj post pfx i (i + 1)) ∧ (n ≤ i → ¬ OrderEmpty post pfx i)) ∨
  (w.canDelete = true ∧ boxValue (sentFor post pfx i c%"DELETE") = true)

/-- The form is one for a new member, and has been left as it was. -/
def BlankForm (i : Nat) : Prop := n ≤ i ∧ ¬ ChangedForm dj w post pfx n value i

/-- The box of the form has been ticked. -/
def DeletedForm (i : Nat) : Prop := w.canDelete = true ∧ boxValue (sentFor post pfx i c%"DELETE") = true

/-- What the data say about the `t` forms: which have been changed, which are to be deleted, and in which order they come. -/
def SubmittedAs (t : Nat) (subs : List Submitted) : Prop := subs.length = t ∧ ∀ i d, subs[i]? = some d →
  (d.changed = true ↔ ChangedForm dj w post pfx n value i) ∧ (d.deleted = true ↔ DeletedForm w post pfx i) ∧
  (∀ k, d.order = some k ↔ w.canOrder = true ∧ ¬ BlankForm dj w post pfx n value i ∧ OrderIs dj post pfx i k)

/-- All data of the form are valid. -/
def ValidForm (i : Nat) : Prop :=
  (∀ x f, (x, f) ∈ w.inputs → ∃ c, cleans dj f (sentFor post pfx i x) = some c) ∧ (w.canOrder = true → OrderEmpty post pfx i ∨ ∃ k, OrderIs dj post pfx i k)

/-- The set is valid: each form that is not to be deleted is valid, unless it is one for a new member that has been left as it was, and its element, as it is saved, is valid by the schema. -/
def SetValid (t : Nat) (saved : Nat → Node) : Prop :=
  ∀ i < t, ¬ DeletedForm w post pfx i → (¬ BlankForm dj w post pfx n value i → ValidForm dj w post pfx i) ∧ w.own.schemaValid (saved i) = true

/-- The form has been saved: of the element `m` it has made `m'`.  Each field with a valid input reads the value that has been sent (nothing, for the empty string); each other field of the class, and
whatever else there is, what it read before. -/
def FormAfter [PyUnicode] (i : Nat) (m m' : Node) : Prop :=
  (∀ x f j c, (x, f) ∈ w.inputs → w.own.m.name j = x → cleans dj f (sentFor post pfx i x) = some c → (fieldVal (w.own.m.fs j) m').map (w.own.m.show_ j) = .ok (stored c)) ∧
  (∀ j, (∀ f, (w.own.m.name j, f) ∈ w.inputs → cleans dj f (sentFor post pfx i (w.own.m.name j)) = none) → fieldVal (w.own.m.fs j) m' = fieldVal (w.own.m.fs j) m) ∧
  (∀ (g : Props.RField) ctx, g.Ok ctx → Single g.p m → (∀ j, Part (w.own.m.fs j).p g.p) → fieldVal g m' = fieldVal g m)

/-- The form class fits the list field `[.child q ps]`, its members and the new element: the fields of the class are as in C69, C85; the attributes that the predicates of the list field
compare are not among them; the members, and the new element, which has to be one that the list field finds, have at most one value for each field; the form fields are for fields of the class
that the form assigns to. -/
structure SetFit [PyUnicode] (q : QName) (ps : List Pred) (ms : List Node) (new : Node) : Prop where
  field : ∀ i, (w.own.m.fs i).Ok w.own.ctx
  part : ∀ i j, i ≠ j → Part (w.own.m.fs i).p (w.own.m.fs j).p
  names : ∀ x ∈ w.own.modelNames, '.' ∉ x
  preds : attrPreds [.child q ps] = true
  under : ∀ i, pathOk (.child q ps :: (w.own.m.fs i).p) = true
  tidy : ∀ m ∈ ms, Tidy w.own.m.fs m
  tidyNew : Tidy w.own.m.fs new
  member : isMember q ps new = true
  distinct : (w.inputs.map (·.1)).Nodup
  inputs : ∀ x f, (x, f) ∈ w.inputs → (∃ i, w.own.m.name i = x) ∧ Assigns w.own.fields w.own.exclude w.own.modelNames x

/-- Each value that has been sent is one that its field keeps (as in C69, C70). -/
def SentKept (t : Nat) : Prop := ∀ i < t, ¬ BlankForm dj w post pfx n value i → ∀ x f j c, (x, f) ∈ w.inputs → w.own.m.name j = x → cleans dj f (sentFor post pfx i x) = some c → w.own.m.Keeps j (stored c)

/-- Nothing is lost by showing the members: each form field gives back what its field reads (see `GivesBack`), and the field keeps it; a drop-down list has an empty choice (or none at all), for the
forms of new members. -/
def SetGiven (ms : List Node) : Prop :=
  (∀ i < ms.length, ∀ x f j, (x, f) ∈ w.inputs → w.own.m.name j = x → GivesBack dj f (value i x) ∧ w.own.m.Keeps j (stored (value i x))) ∧
  (∀ x f, (x, f) ∈ w.inputs → f.kind = .choice → [] ∈ f.choices ∨ f.choices = [])

/-- The element `m'` reads as `m`: each field of the class (with nothing instead of empty strings), and whatever else there is. -/
def ReadsAlike [PyUnicode] (m m' : Node) : Prop :=
  (∀ j, (fieldVal (w.own.m.fs j) m').map (fun v => stored (w.own.m.show_ j v)) = (fieldVal (w.own.m.fs j) m).map (fun v => stored (w.own.m.show_ j v))) ∧
  (∀ (g : Props.RField) ctx, g.Ok ctx → Single g.p m → (∀ j, Part (w.own.m.fs j).p g.p) → fieldVal g m' = fieldVal g m)

end
end Props
