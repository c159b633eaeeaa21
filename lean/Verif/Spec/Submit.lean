import Verif.Forms.Submit
import Verif.Forms.TreeProofs
import Verif.Props.Page
/-
Specification of C94: a form is shown, some inputs are edited, and it is sent back.
-/
namespace Props
open XPath Xml Spec Fields Core Forms Py

/- The form without data. -/
mutual
def WForm.bare (w : WForm) : FTree Plain2 := match w with
  | .mk o _ subs => .mk { o with cleaned := some [], valid := true } (WSubs.bare subs)
def WSubs.bare (l : WSubs) : FSubs Plain2 := match l with
  | .nil => .nil
  | .cons _ h f rest => .cons h none (WForm.bare f) (WSubs.bare rest)
end

/- The form on the page (C86). -/
mutual
def WForm.toPage (w : WForm) : PForm := match w with
  | .mk _ inputs subs => .mk (inputs.map (·.1)) (WSubs.toPage subs) .nil
def WSubs.toPage (l : WSubs) : PSubs := match l with
  | .nil => .nil
  | .cons name _ f rest => .cons name none (WForm.toPage f) (WSubs.toPage rest)
end

/- The form fields of each form are for fields of its class that it assigns to. -/
mutual
def WForm.ForFields (w : WForm) : Prop := match w with
  | .mk o inputs subs => (∀ x f, (x, f) ∈ inputs → (∃ i, o.m.name i = x) ∧ Assigns o.fields o.exclude o.modelNames x) ∧ WSubs.ForFields subs
def WSubs.ForFields (l : WSubs) : Prop := match l with
  | .nil => True
  | .cons _ _ f rest => WForm.ForFields f ∧ WSubs.ForFields rest
end

/- `P` holds for each input of the form and its subforms: given the form, the element of its object, the name of the input, the form field, and the field of the class.
The object of a subform is the one that the NodeField reads, or a new one. -/
mutual
def WForm.All (P : (o : Forms.Own Plain2) → Node → Str → FormField → o.m.ι → Prop) (w : WForm) (pfx : Option Str) (n : Node) : Prop := match w with
  | .mk o inputs subs => (∀ x f i, (x, f) ∈ inputs → o.m.name i = x → P o n (addPrefix pfx x) f i) ∧ WSubs.All P subs pfx n
def WSubs.All (P : (o : Forms.Own Plain2) → Node → Str → FormField → o.m.ι → Prop) (l : WSubs) (pfx : Option Str) (n : Node) : Prop := match l with
  | .nil => True
  | .cons name h f rest => WForm.All P f (some (addPrefix pfx name)) ((subElem h.p n).getD (newAt h.p)) ∧ WSubs.All P rest pfx n
end

/-- Every field that is shown can be read. -/
def Readable (o : Forms.Own Plain2) (n : Node) (_ : Str) (_ : FormField) (i : o.m.ι) : Prop := ∃ v, fieldVal (o.m.fs i) n = .ok v

/-- What is received for an input that sends `t` by itself. -/
def received (edits : Str → Option (Option Str)) (x : Str) (t : Option Str) : Option Str := (edits x).getD t

/-- `c` is the cleaned value of the input, whose field reads `v` in the shown document. -/
def Cleaned (dj : Django) (edits : Str → Option (Option Str)) (o : Forms.Own Plain2) (n : Node) (x : Str) (f : FormField) (i : o.m.ι) (c : CVal Plain2) : Prop :=
  ∃ v, fieldVal (o.m.fs i) n = .ok v ∧ cleans dj f (received edits x (sends f (o.m.show_ i v))) = some c

/-- Every cleaned value is one that the field of the class keeps (as in C69, C70). -/
def Acceptable (dj : Django) (edits : Str → Option (Option Str)) (o : Forms.Own Plain2) (n : Node) (x : Str) (f : FormField) (i : o.m.ι) : Prop :=
  ∀ c, Cleaned dj edits o n x f i c → o.m.Keeps i (stored c)

/-- The input is valid. -/
def ValidInput (dj : Django) (edits : Str → Option (Option Str)) (o : Forms.Own Plain2) (n : Node) (x : Str) (f : FormField) (i : o.m.ι) : Prop :=
  ∃ c, Cleaned dj edits o n x f i c

/-- Nothing has been entered: the cleaned value is one that means for the field that there is no node. -/
def NothingEntered (dj : Django) (edits : Str → Option (Option Str)) (o : Forms.Own Plain2) (n : Node) (x : Str) (f : FormField) (i : o.m.ι) : Prop :=
  ∀ c, Cleaned dj edits o n x f i c → ∀ w, o.m.take i (stored c) = some w → (o.m.fs i).toXml w = .ok none

section
variable [PyUnicode] (dj : Django) (edits : Str → Option (Option Str))

mutual
/-- The form has been sent and saved: of the element `n` it has made `n'`.  Each field with an input reads the cleaned value of what the input has sent (nothing, for the
empty string), each other field of the class, and whatever else there is, what it read before.  The same for subforms; an object that is empty then is not there.  An object that was not there, and for
which nothing has been entered, is still not there (if the NodeFields have one step, without predicates). -/
def WForm.After (w : WForm) (pfx : Option Str) (n n' : Node) : Prop := match w with
  | .mk o inputs subs =>
    (∀ x f i, (x, f) ∈ inputs → o.m.name i = x → ∃ c, Cleaned dj edits o n (addPrefix pfx x) f i c ∧ (fieldVal (o.m.fs i) n').map (o.m.show_ i) = .ok (stored c)) ∧
    (∀ i, o.m.name i ∉ inputs.map (·.1) → fieldVal (o.m.fs i) n' = fieldVal (o.m.fs i) n) ∧
    (∀ g ctx, g.Ok ctx → Single g.p n → (∀ i, Part (o.m.fs i).p g.p) → (∀ q, FSubs.Has q (WSubs.bare subs) → Part q g.p) → fieldVal g n' = fieldVal g n) ∧
    WSubs.After subs pfx n n'
def WSubs.After (l : WSubs) (pfx : Option Str) (n n' : Node) : Prop := match l with
  | .nil => True
  | .cons name h f rest =>
    (∃ m', WForm.After f (some (addPrefix pfx name)) ((subElem h.p n).getD (newAt h.p)) m' ∧ subElem h.p n' = if isEmpty m' then none else some m') ∧
    (subElem h.p n = none → (∃ q, h.p = [.child q []]) → FTree.Plain (WForm.bare f) → WForm.All (NothingEntered dj edits) f (some (addPrefix pfx name)) (newAt h.p) →
      subElem h.p n' = none) ∧
    WSubs.After rest pfx n n'
end

end

/-- The form field gives back a value of this sort that it shows: values that are not there, except for boxes and lists without an empty choice, and then only if they are not required; single-line
texts that need no stripping; numbers; dates from the year 1000 on; ticks; choices. -/
def GivesBack (dj : Django) (f : FormField) (v : CVal Plain2) : Prop := match f.kind, v with
  | .char, .null => f.required = false
  | .char, .str s => oneLine s = s ∧ dj.strip s = s ∧ (s = [] → f.required = false)
  | .integer, .null => f.required = false
  | .integer, .other (.int _) => True
  | .date, .null => f.required = false
  | .date, .other (.date d) => RealDateTime d ∧ d.isDate = true ∧ 1000 ≤ d.year
  | .boolean, .other (.bool b) => f.required = false ∨ b = true
  | .choice, .null => f.required = false ∧ [] ∈ f.choices
  | .choice, .str s => s ∈ f.choices ∧ (s = [] → f.required = false)
  | _, _ => False

/-- What Django must do: stripping leaves the empty string, numbers and dates are read as they are shown. -/
structure DjangoOk (dj : Django) : Prop where
  strip : dj.strip [] = []
  int : ∀ n : Int, dj.int (intStr n) = some n
  date : ∀ d : DateTime, RealDateTime d → d.isDate = true → 1000 ≤ d.year → dj.date (strftimeDate d) = some d

/-- No input has been touched. -/
def untouched : Str → Option (Option Str) := fun _ => none

/-- The field can be read, and its form field gives back what it shows. -/
def Given (dj : Django) (o : Forms.Own Plain2) (n : Node) (_ : Str) (f : FormField) (i : o.m.ι) : Prop :=
  ∃ v, fieldVal (o.m.fs i) n = .ok v ∧ GivesBack dj f (o.m.show_ i v) ∧ o.m.Keeps i (stored (o.m.show_ i v))

mutual
/-- Objects that are not there are for NodeFields with one step, without predicates, and the fields of new ones mean, as they are read, that there is no node. -/
def WForm.Blanks (dj : Django) (w : WForm) (pfx : Option Str) (n : Node) : Prop := match w with
  | .mk _ _ subs => WSubs.Blanks dj subs pfx n
def WSubs.Blanks (dj : Django) (l : WSubs) (pfx : Option Str) (n : Node) : Prop := match l with
  | .nil => True
  | .cons name h f rest => (match subElem h.p n with
      | none => (∃ q, h.p = [.child q []]) ∧ FTree.Plain (WForm.bare f) ∧ WForm.All (NothingEntered dj untouched) f (some (addPrefix pfx name)) (newAt h.p)
      | some m => WForm.Blanks dj f (some (addPrefix pfx name)) m) ∧ WSubs.Blanks dj rest pfx n
end

mutual
/-- The objects read the same, with nothing instead of empty strings; an object that is empty then is not there any more; one that was not there is still not there. -/
def WForm.Same (w : WForm) (n n' : Node) : Prop := match w with
  | .mk o _ subs => (∀ i, (fieldVal (o.m.fs i) n').map (fun v => stored (o.m.show_ i v)) = (fieldVal (o.m.fs i) n).map (fun v => stored (o.m.show_ i v))) ∧ WSubs.Same subs n n'
def WSubs.Same (l : WSubs) (n n' : Node) : Prop := match l with
  | .nil => True
  | .cons _ h f rest => (match subElem h.p n with
      | none => subElem h.p n' = none
      | some m => ∃ m', WForm.Same f m m' ∧ subElem h.p n' = if isEmpty m' then none else some m') ∧ WSubs.Same rest n n'
end

end Props
