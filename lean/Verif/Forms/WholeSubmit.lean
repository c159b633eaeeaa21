import Verif.Forms.SetSubmit
import Verif.Forms.Whole
/-
Model of a whole form on its way through a browser: its own fields, its subforms at any depth, and its formsets (of NodeListFields, and of list fields of strings or integers) are shown, sent
back, made again with the data, and validated (eulxml/forms/xmlobject.py:468-651).  The formsets are those of the form itself; its subforms have none.

About Django: see Verif/Forms/Submit.lean, ListSubmit.lean and SetSubmit.lean.
-/
namespace Forms
open XPath Xml Spec Fields Core Py Props

/-- A formset of the form, by the name of its list field (xmlobject.py:230-270): of a NodeListField, with the formset class and a new element, of a StringListField, or of an IntegerListField. -/
inductive WebSet : Type 1 where
  | nodes (name xp : Str) (e : Expr) (q : QName) (ps : List Pred) (new : Node) (w : WSet)
  | strings (name xp : Str) (e : Expr) (q : QName) (ps : List Pred)
  | integers (name xp : Str) (e : Expr) (q : QName) (ps : List Pred)

/-- The name of the list field, -/
def WebSet.name : WebSet → Str
  | .nodes name _ _ _ _ _ _ => name
  | .strings name _ _ _ _ => name
  | .integers name _ _ _ _ => name

/-- its XPath, -/
def WebSet.xp : WebSet → Str
  | .nodes _ xp _ _ _ _ _ => xp
  | .strings _ xp _ _ _ => xp
  | .integers _ xp _ _ _ => xp

/-- parsed, -/
def WebSet.e : WebSet → Expr
  | .nodes _ _ e _ _ _ _ => e
  | .strings _ _ e _ _ => e
  | .integers _ _ e _ _ => e

/-- the tag of the members of the list, -/
def WebSet.q : WebSet → QName
  | .nodes _ _ _ q _ _ _ => q
  | .strings _ _ _ q _ => q
  | .integers _ _ _ q _ => q

/-- and their predicates. -/
def WebSet.ps : WebSet → List Pred
  | .nodes _ _ _ _ ps _ _ => ps
  | .strings _ _ _ _ ps => ps
  | .integers _ _ _ _ ps => ps

/-- The list field of a formset of strings, -/
def strList (ctx : Ctx) (xp : Str) (e : Expr) (q : QName) (ps : List Pred) : LField := ⟨Option Str, inferInstance, xp, e, q, ps, strKind ctx e, strView⟩

/-- and of integers. -/
def intList (number : Str → XNum) (ctx : Ctx) (xp : Str) (e : Expr) (q : QName) (ps : List Pred) : LField :=
  ⟨Option Int, inferInstance, xp, e, q, ps, intKind number ctx e, intView number⟩

/-- The namespaces of the class of the form. -/
def formCtx : WForm → Ctx
  | .mk o _ _ => o.ctx

/-- The formset of a NodeListField, with what Django makes of the data for its forms. -/
def sentNodes (xp : Str) (e : Expr) (q : QName) (ps : List Pred) (new : Node) (w : WSet) (initial : Nat) (forms : List SForm) : NodeSet Plain2 where
  xp := xp
  e := e
  q := q
  ps := ps
  o := w.own
  data := forms.map SForm.data
  new := new
  canDelete := w.canDelete
  canOrder := w.canOrder
  initial := initial
  subs := forms.map SForm.sub
  formValid := fun i => forms[i]?.all SForm.valid
  clean := true

section
variable [PyUnicode] (eng : Engine) (number : Str → XNum) (dj : Django) (ctx : Ctx) (a : Node.Addr)

/-- xmlobject.py:535-548: the formset is made for the instance; its inputs. -/
def showWebSet (pfx : Option Str) (s : Node) (set : WebSet) : Except PyErr (List (Str × Option Str)) := match set with
  | .nodes name xp _ _ _ _ w => showSet eng w ctx (setPrefix pfx name) xp (.elem a) s
  | .strings name xp e _ _ => (showListSet eng ctx (strKind ctx e).read strInput (setPrefix pfx name) xp (.elem a) s).1
  | .integers name xp e _ _ => (showListSet eng ctx (intKind number ctx e).read intInput (setPrefix pfx name) xp (.elem a) s).1

/-- The inputs of all formsets. -/
def showWebSets (pfx : Option Str) (s : Node) : List WebSet → Except PyErr (List (Str × Option Str))
  | [] => .ok []
  | set :: sets => match showWebSet eng number ctx a pfx s set with
    | .error e => .error e
    | .ok l => match showWebSets pfx s sets with
      | .error e => .error e
      | .ok r => .ok (l ++ r)

/-- xmlobject.py:468-497: the form is made for the object at `a`, with its subforms and formsets; its inputs, with what they send if nobody touches them. -/
def showWhole (w : WForm) (sets : List WebSet) (pfx : Option Str) (s : Node) : Except PyErr (List (Str × Option Str)) := match showForm eng w pfx a s with
  | (.error e, _) => .error e
  | (.ok page, s) => match showWebSets eng number (formCtx w) a pfx s sets with
    | .error e => .error e
    | .ok l => .ok (page ++ l)

/-- xmlobject.py:535-548 with data: the formset, with what Django makes of the data; `none` if the data do not say how many forms there are, or there are too many (then the form is not valid, or Django
raises an exception, depending on its version). -/
def bindWebSet (absMax : Nat) (post : Dict Str Str) (pfx : Option Str) (s : Node) (set : WebSet) : Except PyErr (Option (FSet Plain2)) := match set with
  | .nodes name xp e q ps new w => match formCounts dj post (setPrefix pfx name) with
    | none => .ok none
    | some (t, k) =>
      if t > (absMax : Int) ∨ k < 0 then .ok none
      else match readForms eng dj w ctx post (setPrefix pfx name) xp (.elem a) s k.toNat (List.range t.toNat) with
        | .error err => .error err
        | .ok forms => .ok (some (.nodes (sentNodes xp e q ps new w k.toNat forms)))
  | .strings name xp e q ps => match (listLen eng ctx (strKind ctx e).read xp (.elem a) s).1, formCount dj post (setPrefix pfx name) with
    | .error err, _ => .error err
    | .ok _, none => .ok none
    | .ok n, some t =>
      if t > (absMax : Int) then .ok none
      else match itemValues strInput dj n post (setPrefix pfx name) (List.range t.toNat) with
        | none => .ok (some (.values (strList ctx xp e q ps) strInput.truthy [] false))
        | some vs => .ok (some (.values (strList ctx xp e q ps) strInput.truthy vs true))
  | .integers name xp e q ps => match (listLen eng ctx (intKind number ctx e).read xp (.elem a) s).1, formCount dj post (setPrefix pfx name) with
    | .error err, _ => .error err
    | .ok _, none => .ok none
    | .ok n, some t =>
      if t > (absMax : Int) then .ok none
      else match itemValues intInput dj n post (setPrefix pfx name) (List.range t.toNat) with
        | none => .ok (some (.values (intList number ctx xp e q ps) intInput.truthy [] false))
        | some vs => .ok (some (.values (intList number ctx xp e q ps) intInput.truthy vs true))

/-- All formsets. -/
def bindWebSets (absMax : Nat) (post : Dict Str Str) (pfx : Option Str) (s : Node) : List WebSet → Except PyErr (Option (List (FSet Plain2)))
  | [] => .ok (some [])
  | set :: sets => match bindWebSet eng number dj ctx a absMax post pfx s set with
    | .error e => .error e
    | .ok none => .ok none
    | .ok (some f) => match bindWebSets absMax post pfx s sets with
      | .error e => .error e
      | .ok none => .ok none
      | .ok (some fs) => .ok (some (f :: fs))

/-- xmlobject.py:468-497 with data: the form is made for the object at `a`, with its subforms and formsets. -/
def bindWhole (absMax : Nat) (post : Dict Str Str) (w : WForm) (sets : List WebSet) (pfx : Option Str) (s : Node) : Except PyErr (Option (Whole Plain2 × Node)) :=
  match initTree eng (bindForm dj post w pfx) a s with
  | (.error e, _) => .error e
  | (.ok _, s) => match bindWebSets eng number dj (formCtx w) a absMax post pfx s sets with
    | .error e => .error e
    | .ok none => .ok none
    | .ok (some fs) => .ok (some (⟨bindForm dj post w pfx, fs.map (startSet eng (formCtx w) a s)⟩, s))

/-- xmlobject.py:615-651: the form that has been sent is validated, which saves it if it is valid.  The result: is it valid, and the document; `false` also without counts. -/
def submitWhole (absMax : Nat) (post : Dict Str Str) (w : WForm) (sets : List WebSet) (pfx : Option Str) (s : Node) : Except PyErr (Bool × Node) :=
  match bindWhole eng number dj a absMax post w sets pfx s with
  | .error e => .error e
  | .ok none => .ok (false, s)
  | .ok (some (wh, s0)) => match validWhole eng a wh s0 with
    | .error e => .error e
    | .ok (b, _, s) => .ok (b, s)

end
end Forms
