import Verif.Core.Nested
import Verif.Core.Objects
import Verif.Props.FormDocument
/-
Model of forms with subforms, at any depth, on documents: `XmlObjectForm.__init__` (eulxml/forms/xmlobject.py:468-533), `update_instance` and `_update_subinstance` (550-613)
and `is_valid` (615-651), with the assignments of Verif/XmlMap/Manager.lean and the objects of Verif/Core/Nested.lean.  Formsets are not part of these forms.
-/
namespace Forms
open XPath Xml Fields Core Py Props

/-- What a form knows for itself: the class of its instance with the namespaces, `Meta.fields` and `Meta.exclude`, the names of the fields of the class, Django's `is_valid`,
the outcome of the validation of an element against a schema (`instance.is_valid()`), and `cleaned_data`, if there are any. -/
structure Own (A : Type) where
  m : FormModel A
  ctx : Ctx
  fields : Option (List Str)
  exclude : Option (List Str)
  modelNames : List Str
  valid : Bool
  schemaValid : Node → Bool
  cleaned : Option (Dict Str (CVal A))

/- A form with its subforms, in order.  For each subform: the NodeField; `none` if the element of its instance is in the document, and the element if it has been removed
from there. -/
mutual
inductive FTree (A : Type) : Type 1 where
  | mk (own : Own A) (subs : FSubs A)
inductive FSubs (A : Type) : Type 1 where
  | nil
  | cons (h : Hop) (out : Option Node) (f : FTree A) (rest : FSubs A)
end

variable {A : Type} [PyUnicode] (eng : Engine)

/- xmlobject.py:505-533 `_init_subforms`: for each NodeField the element is created, and the subform is initialized with it.  (After `create_…` the field is not `None`: C21.)
Reading the initial data (485) does not change the document. -/
mutual
def initTree (t : FTree A) (a : Node.Addr) : M Unit := match t with
  | .mk _ subs => initSubs subs a
def initSubs (l : FSubs A) (a : Node.Addr) : M Unit := match l with
  | .nil => pure ()
  | .cons h _ f rest => do
    createObj eng h a
    match ← Domain.getNode eng h.ctx h.xp a with
    | some b => initTree f b
    | none => pure ()
    initSubs rest a
end

/-- xmlobject.py:605-613, for a subform whose element is in the document, at `b`, after the update of the subform. -/
def dropEmpty (h : Hop) (a b : Node.Addr) (s : Node) : Except PyErr Unit × Option Node × Node :=
  match nodeAt b s with
  | (.error e, s) => (.error e, none, s)
  | (.ok n, s) =>
    if isEmpty n then match deleteObj eng h a s with
      | (r, s') => (r, some n, s')
    else (.ok (), none, s)

/-- xmlobject.py:605-613, for a subform whose element `v` is not in the document; `old` is what the NodeField reads there.  Assigning moves the children of `v` into a new
element (C22). -/
def attachFull (h : Hop) (a : Node.Addr) (old : Option Node.Addr) (v : Node) (s : Node) : Except PyErr Unit × Option Node × Node :=
  if old = none ∧ isEmpty v = false then match managerSet eng h.ctx (.ok (some (.elem (.foreign v)))) h.xp h.e (.elem a) s with
    | (r, s') => (r, some (v.withChildren []), s')
  else if old ≠ none ∧ isEmpty v = true then match deleteObj eng h a s with
    | (r, s') => (r, some v, s')
  else (.ok (), some v, s)

/- xmlobject.py:550-613 `update_instance`, `_update_subinstance`.  The result has the forms with the changed `cleaned_data`.  Simplification: the element of a subform whose element has
not been removed is the one that its NodeField reads; if there is none, somebody else has removed it, and the model gives up. -/
mutual
def updateTree (t : FTree A) (a : Node.Addr) (s : Node) : Except PyErr Unit × FTree A × Node := match t with
  | .mk o subs => match o.cleaned with
    | none => (.ok (), .mk o subs, s)
    | some c => match updateOwn (metaList o.fields) (metaList o.exclude) o.modelNames (setattrDoc o.m eng o.ctx a) c s with
      | (.error e, c', s') => (.error e, .mk { o with cleaned := some c' } subs, s')
      | (.ok _, c', s') => match updateTrees subs a s' with
        | (r, subs', s'') => (r, .mk { o with cleaned := some c' } subs', s'')
def updateTrees (l : FSubs A) (a : Node.Addr) (s : Node) : Except PyErr Unit × FSubs A × Node := match l with
  | .nil => (.ok (), .nil, s)
  | .cons h out f rest => match Domain.getNode eng h.ctx h.xp a s with
    | (.error e, s) => (.error e, .cons h out f rest, s)
    | (.ok old, s) => match out, old with
      | none, none => (.error .exception, .cons h none f rest, s)
      | none, some b => match updateTree f b s with
        | (.error e, f', s) => (.error e, .cons h none f' rest, s)
        | (.ok _, f', s) => match dropEmpty eng h a b s with
          | (.error e, out', s) => (.error e, .cons h out' f' rest, s)
          | (.ok _, out', s) => match updateTrees rest a s with
            | (r, rest', s) => (r, .cons h out' f' rest', s)
      | some v, old => match updateTree f [] v with
        | (.error e, f', v) => (.error e, .cons h (some v) f' rest, s)
        | (.ok _, f', v) => match attachFull eng h a old v s with
          | (.error e, out', s) => (.error e, .cons h out' f' rest, s)
          | (.ok _, out', s) => match updateTrees rest a s with
            | (r, rest', s) => (r, .cons h out' f' rest', s)
end

/- xmlobject.py:615-651 `is_valid`: Django's checks, the subforms until one is not valid, the update, the schema.  The messages are left out (C53). -/
mutual
def validTree (t : FTree A) (a : Node.Addr) (s : Node) : Except PyErr Bool × FTree A × Node := match t with
  | .mk o subs =>
    if o.valid = false then (.ok false, .mk o subs, s)
    else match validTrees subs a s with
      | (.error e, subs', s) => (.error e, .mk o subs', s)
      | (.ok false, subs', s) => (.ok false, .mk o subs', s)
      | (.ok true, subs', s) => match updateTree eng (.mk o subs') a s with
        | (.error e, t, s) => (.error e, t, s)
        | (.ok _, t, s) => (.ok ((s.get a).all o.schemaValid), t, s)
def validTrees (l : FSubs A) (a : Node.Addr) (s : Node) : Except PyErr Bool × FSubs A × Node := match l with
  | .nil => (.ok true, .nil, s)
  | .cons h out f rest => match Domain.getNode eng h.ctx h.xp a s with
    | (.error e, s) => (.error e, .cons h out f rest, s)
    | (.ok old, s) => match out, old with
      | none, none => (.error .exception, .cons h none f rest, s)
      | none, some b => match validTree f b s with
        | (.error e, f', s) => (.error e, .cons h none f' rest, s)
        | (.ok false, f', s) => (.ok false, .cons h none f' rest, s)
        | (.ok true, f', s) => match validTrees rest a s with
          | (r, rest', s) => (r, .cons h none f' rest', s)
      | some v, _ => match validTree f [] v with
        | (.error e, f', v) => (.error e, .cons h (some v) f' rest, s)
        | (.ok false, f', v) => (.ok false, .cons h (some v) f' rest, s)
        | (.ok true, f', v) => match validTrees rest a s with
          | (r, rest', s) => (r, .cons h (some v) f' rest', s)
end

end Forms
