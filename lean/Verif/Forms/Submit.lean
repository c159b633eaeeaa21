import Verif.Forms.Tree
import Verif.Forms.FormClass
import Verif.Forms.Page
/-
Model of a form on its way through a browser: it is made for an instance and shown (`XmlObjectForm.__init__`, eulxml/forms/xmlobject.py:468-533, with the initial values of
`xmlobject_to_dict`, 351-352, and Django's widgets), sent back, and made again with the data (`data=…`, 468, 527; Django's `full_clean`).  The form fields are those that
`formfields_for_xmlobject` makes (197-218), with their default widgets.  Formsets are not part of these forms.

About Django (1.5 to 3.2): `TextInput`, `NumberInput` and `DateInput` show nothing for `None` and the empty string, and the text of other values; `CheckboxInput` is ticked for values
other than `False`, `None`, `''` and sends nothing if it is not ticked; `Select` has the option selected whose text is that of the value (of `''` for `None`).
About browsers: an input that nobody touches sends its text without line breaks; a drop-down list without selected option sends its first option.
-/
namespace Forms
open XPath Xml Fields Core Py Props

/-- What depends on the version and the settings of Django: what `CharField` strips (nothing before 1.9, white space from then on), how `IntegerField` and
`DateField` read texts that are not empty; `none` is a ValidationError. -/
structure Django where
  strip : Str → Str
  int : Str → Option Int
  date : Str → Option DateTime

/-- The text of a value in an input: nothing for `None`. -/
def dispText : CVal Plain2 → Str
  | .null => []
  | .str s => s
  | .other (.int n) => intStr n
  | .other (.bool true) => c%"True"
  | .other (.bool false) => c%"False"
  | .other (.date d) => strftimeDate d

/-- Browsers: an `<input>` has no line breaks. -/
def oneLine (s : Str) : Str := s.filter (fun c => c ≠ '\n' && c ≠ '\r')

/-- Django `boolean_check`: `not (v is False or v is None or v == '')`. -/
def ticked : CVal Plain2 → Bool
  | .null => false
  | .str s => !s.isEmpty
  | .other (.bool b) => b
  | .other _ => true

/-- The value of a ticked box: `on`, unless the value is another one than `True`. -/
def tickText : CVal Plain2 → Str
  | .other (.bool _) => c%"on"
  | v => dispText v

/-- What is sent for an input with this initial value that nobody touches; `none` if nothing is sent. -/
def sends (f : FormField) (v : CVal Plain2) : Option Str := match f.kind with
  | .char | .integer | .date => some (oneLine (dispText v))
  | .boolean => if ticked v then some (tickText v) else none
  | .choice => if dispText v ∈ f.choices then some (dispText v) else f.choices.head?

/-- Django `CheckboxInput.value_from_datadict` (and `BooleanField.to_python`). -/
def boxValue : Option Str → Bool
  | none => false
  | some t => !(t.isEmpty || t.map Char.toLower == c%"false")

/-- Django `Field.clean`: the value for what has been sent; `none` is a ValidationError. -/
def cleans (dj : Django) (f : FormField) (raw : Option Str) : Option (CVal Plain2) := match f.kind with
  | .char =>
    let s := dj.strip (raw.getD [])
    if f.required ∧ s = [] then none else some (.str s)
  | .integer =>
    if raw.getD [] = [] then (if f.required then none else some .null)
    else (dj.int (raw.getD [])).map (fun n => .other (.int n))
  | .date =>
    if raw.getD [] = [] then (if f.required then none else some .null)
    else (dj.date (raw.getD [])).map (fun d => .other (.date d))
  | .boolean => if f.required ∧ boxValue raw = false then none else some (.other (.bool (boxValue raw)))
  | .choice =>
    if raw.getD [] = [] then (if f.required then none else some (.str []))
    else if raw.getD [] ∈ f.choices then some (.str (raw.getD [])) else none

/- A form class as in Verif/Forms/Tree.lean (without data), with the form fields by name, in order, and the subforms by the names of their NodeFields. -/
mutual
inductive WForm : Type 1 where
  | mk (own : Own Plain2) (inputs : List (Str × FormField)) (subs : WSubs)
inductive WSubs : Type 1 where
  | nil
  | cons (name : Str) (h : Hop) (f : WForm) (rest : WSubs)
end

section
variable [PyUnicode] (eng : Engine) (dj : Django)

/-- xmlobject.py:351-352 and Django `BoundField.value`: the initial value of the form field `name`; `None` if the instance has no such field. -/
def initialValue (o : Own Plain2) (a : Node.Addr) (name : Str) : M (CVal Plain2) := match o.m.look name with
  | none => pure .null
  | some i => do
    let v ← readAs (o.m.fs i).toPython eng o.ctx (o.m.fs i).xp (o.m.fs i).e (.elem a)
    pure (o.m.show_ i v)

/-- xmlobject.py:485: the inputs of the own fields, with what they send if nobody touches them.  Simplification: only the values of fields that are shown are read. -/
def showOwn (o : Own Plain2) (pfx : Option Str) (a : Node.Addr) : List (Str × FormField) → M (List (Str × Option Str))
  | [] => pure []
  | (x, f) :: rest => do
    let v ← initialValue eng o a x
    let r ← showOwn o pfx a rest
    pure ((addPrefix pfx x, sends f v) :: r)

/- xmlobject.py:468-533: the form is made for the object at `a`; its inputs, with what they send if nobody touches them. -/
mutual
def showForm (w : WForm) (pfx : Option Str) (a : Node.Addr) : M (List (Str × Option Str)) := match w with
  | .mk o inputs subs => do
    let l ← showOwn eng o pfx a inputs
    let r ← showSubs subs pfx a
    pure (l ++ r)
def showSubs (l : WSubs) (pfx : Option Str) (a : Node.Addr) : M (List (Str × Option Str)) := match l with
  | .nil => pure []
  | .cons name h f rest => do
    createObj eng h a
    let l ← (match ← Domain.getNode eng h.ctx h.xp a with
      | some b => showForm f (some (addPrefix pfx name)) b
      | none => pure [])
    let r ← showSubs rest pfx a
    pure (l ++ r)
end

/-- What the browser sends: for each input what the user has made it send, if anything (`edits`), and else what it sends by itself. -/
def submission (edits : Str → Option (Option Str)) (page : List (Str × Option Str)) : Dict Str Str :=
  page.filterMap (fun p => ((edits p.1).getD p.2).map (fun t => (p.1, t)))

/-- Django `BaseForm.full_clean`: the cleaned data. -/
def cleanOwn (pfx : Option Str) (post : Dict Str Str) (inputs : List (Str × FormField)) : Dict Str (CVal Plain2) :=
  inputs.filterMap (fun p => (cleans dj p.2 (post.get? (addPrefix pfx p.1))).map (fun v => (p.1, v)))

/-- Django `BaseForm.is_valid`: no form field has raised a ValidationError. -/
def validOwn (pfx : Option Str) (post : Dict Str Str) (inputs : List (Str × FormField)) : Bool :=
  inputs.all (fun p => (cleans dj p.2 (post.get? (addPrefix pfx p.1))).isSome)

/- xmlobject.py:468, 520-527: the form and its subforms with the data that have been sent. -/
mutual
def bindForm (post : Dict Str Str) (w : WForm) (pfx : Option Str) : FTree Plain2 := match w with
  | .mk o inputs subs => .mk { o with cleaned := some (cleanOwn dj pfx post inputs), valid := validOwn dj pfx post inputs } (bindSubs post subs pfx)
def bindSubs (post : Dict Str Str) (l : WSubs) (pfx : Option Str) : FSubs Plain2 := match l with
  | .nil => .nil
  | .cons name h f rest => .cons h none (bindForm post f (some (addPrefix pfx name))) (bindSubs post rest pfx)
end

end
end Forms
