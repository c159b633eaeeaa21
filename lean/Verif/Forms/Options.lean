import Verif.Forms.FormClass
/-
Model of form classes with all their options (eulxml/forms/xmlobject.py:37-41, 85-109, 113-314, 356-424, 528-531, 676-685, 751-794, 845-875): labels, help texts, widgets, the options of
formsets, the inner class `Meta` and its inheritance, declared fields and subforms.  Which fields a form has is also modelled, more briefly, in Verif/Forms/FormClass.lean.
-/
namespace Forms
open Py

/-- An xmlmap field with its `verbose_name` and `help_text` (eulxml/xmlmap/fields.py:42-52). -/
structure DField where
  base : MField
  verbose : Option Str
  help : Option Str

/-- The table `_fields` of an XmlObject class. -/
abbrev DModel := Dict Str DField

/-- Python `str.isspace` of an ASCII character. -/
def pySpace (c : Char) : Bool := c == ' ' || c == '\t' || c == '\n' || c == '\x0b' || c == '\x0c' || c == '\r' || c == '\x1c' || c == '\x1d' || c == '\x1e' || c == '\x1f'

/-- Python `str.split()`: `cur` is the word being read, backwards.  Simplification: ASCII white space. -/
def pySplit : Str → Str → List Str
  | cur, [] => if cur = [] then [] else [cur.reverse]
  | cur, c :: s => if pySpace c then (if cur = [] then pySplit [] s else cur.reverse :: pySplit [] s) else pySplit (c :: cur) s

/-- Python `str.capitalize`.  Simplification: letters other than the ASCII ones are left as they are. -/
def capitalize : Str → Str
  | [] => []
  | c :: s => c.toUpper :: s.map Char.toLower

/-- `' '.join(words)`. -/
def joinBlank : List Str → Str
  | [] => []
  | [w] => w
  | w :: v :: ws => w ++ ' ' :: joinBlank (v :: ws)

/-- xmlobject.py:37-41 `fieldname_to_label`: `capwords(name.replace('_', ' '))`. -/
def fieldLabel (name : Str) : Str := joinBlank ((pySplit [] (name.map (fun c => if c = '_' then ' ' else c))).map capitalize)

/-- An entry of a dictionary `widgets`: a widget, or the dictionary for a subform. -/
inductive WArg where
  | widget (w : Nat)
  | dict (l : List (Str × WArg))

/-- A Django form field with its label, help text and widget. -/
structure RField where
  base : FormField
  label : Str
  help : Option Str
  widget : Option WArg

/-- The attributes of a class `Meta`, found on it or its bases: `none` if there is none of this name. -/
structure MetaAttrs where
  model : Option Nat
  fields : Option ListArg
  exclude : Option ListArg
  widgets : Option (Option WArg)
  maxNum : Option (Option Nat)
  canDelete : Option Bool
  extra : Option Nat
  canOrder : Option Bool

/-- The options of a formset class (Django `formset_factory`), and the label given to it (xmlobject.py:255, 270). -/
structure SetOpts where
  maxNum : Option Nat
  canDelete : Bool
  extra : Nat
  canOrder : Bool
  label : Str
  deriving DecidableEq

/-- A form class: `Meta` (with what is inherited), `form_label` (`none`: only that of XmlObjectForm, which is None), `declared_fields`, `base_fields`, `subforms`, `formsets`,
`subform_labels`; or one of the single-value forms (878-900), which are Django forms. -/
inductive RForm where
  | form (opts : Option MetaAttrs) (label : Option (Option Str)) (declared : List (Str × RField)) (fields : List (Str × RField)) (subforms : List (Str × RForm))
      (formsets : List (Str × SetOpts × RForm)) (subformLabels : List (Str × Str))
  | listForm (integer : Bool)

namespace RForm
/-- `Meta`. -/
def meta? : RForm → Option MetaAttrs | form m _ _ _ _ _ _ => m | listForm _ => none
/-- `form_label`, where it was set. -/
def labelAttr : RForm → Option (Option Str) | form _ l _ _ _ _ _ => l | listForm _ => none
/-- `form_label`; none also if the class has no such attribute. -/
def label (c : RForm) : Option Str := c.labelAttr.join
/-- `declared_fields`.  Simplification: those of single-value forms are left out (they are not used as base classes of XmlObjectForms). -/
def declared : RForm → Dict Str RField | form _ _ d _ _ _ _ => d | listForm _ => []
/-- `base_fields`. -/
def fields : RForm → Dict Str RField | form _ _ _ f _ _ _ => f | listForm _ => []
/-- `subforms`. -/
def subforms : RForm → Dict Str RForm | form _ _ _ _ s _ _ => s | listForm _ => []
/-- `formsets`, with the class of their forms. -/
def formsets : RForm → Dict Str (SetOpts × RForm) | form _ _ _ _ _ s _ => s | listForm _ => []
/-- `subform_labels`. -/
def subformLabels : RForm → Dict Str Str | form _ _ _ _ _ _ l => l | listForm _ => []
end RForm

/-- The class XmlObjectForm itself (427-466). -/
def rootForm : RForm := .form none none [] [] [] [] []

/-- xmlobject.py:85-109 `SubformAwareModelFormOptions`, with Django's `ModelFormOptions`. -/
structure Opts where
  model : Option Nat
  fields : Option PFL
  exclude : Option PFL
  widgets : Option WArg
  maxNum : Option Nat
  canDelete : Bool
  canOrder : Bool
  extra : Nat

/-- xmlobject.py:99-109. -/
def parsedOf (includeParents : Bool) : Option ListArg → Option PFL
  | none => none
  | some .none => none
  | some (.names l) => some (parseFieldList l includeParents)
  | some (.parsed l) => some l

/-- xmlobject.py:90-109; `none`: there is no class `Meta`. -/
def optsOf : Option MetaAttrs → Opts
  | none => ⟨none, none, none, none, none, true, false, 1⟩
  | some m => ⟨m.model, parsedOf true m.fields, parsedOf false m.exclude, m.widgets.join, m.maxNum.join, m.canDelete.getD true, m.canOrder.getD false, m.extra.getD 1⟩

/-- `_meta` of a form class. -/
def RForm.opts (c : RForm) : Opts := optsOf c.meta?

/-- xmlobject.py:181-185 and 239: what `widgets` has for a name; `name in widgets` is a TypeError for a widget. -/
def widgetFor (w : Option WArg) (name : Str) : Except PyErr (Option WArg) := match w with
  | none => .ok none
  | some (.dict l) => .ok (Dict.get? l name)
  | some (.widget _) => .error .typeError

/-- xmlobject.py:192-193, 225, 259, 282-283. -/
def labelOf (name : Str) (f : DField) : Str := f.verbose.getD (fieldLabel name)

/-- What is made for one xmlmap field. -/
inductive RPart where
  | field (f : RField)
  | subform (c : RForm)
  | formset (o : SetOpts) (c : RForm)

/-- What was made, if it is a form field, a subform class, a formset. -/
def RPart.asField : RPart → Option RField | .field f => some f | _ => none
def RPart.asSubform : RPart → Option RForm | .subform c => some c | _ => none
def RPart.asFormset : RPart → Option (SetOpts × RForm) | .formset o c => some (o, c) | _ => none

/-- xmlobject.py:249-255: the formset class for a form class; a Django form has no `_meta`. -/
def formsetOf (label : Str) (c : RForm) : Except PyErr RPart := match c with
  | .listForm _ => .error .attributeError
  | c => .ok (.formset ⟨c.opts.maxNum, c.opts.canDelete, c.opts.extra, c.opts.canOrder, label⟩ c)

/-- Django's defaults in `formset_factory` (267). -/
def listSetOpts (label : Str) : SetOpts := ⟨none, false, 1, false, label⟩

/-- How `formfields_for_xmlobject` makes a form class for a class of sub-objects: with its number, the lists, the widgets and the label. -/
abbrev Gen := Nat → Option PFL → Option PFL → Option WArg → Str → Except PyErr RForm

/-- xmlobject.py:181-284: what is made for one xmlmap field that is not skipped. -/
def richPart (gen : Gen) (declared : Dict Str RForm) (fl ex : Option PFL) (w : Option WArg) (name : Str) (f : DField) : Except PyErr RPart :=
  match widgetFor w name with
  | .error e => .error e
  | .ok wd =>
    let plain (k : FKind) (choices : List Str) (required : Bool) : RPart := .field ⟨⟨k, choices, required⟩, labelOf name f, f.help, wd⟩
    if f.base.choices ≠ [] then .ok (plain .choice (formChoices f.base) (requiredOf f.base))
    else match f.base.type with
      | .string => .ok (plain .char [] (requiredOf f.base))
      | .integer => .ok (plain .integer [] (requiredOf f.base))
      | .date => .ok (plain .date [] (requiredOf f.base))
      | .simpleBoolean => .ok (plain .boolean [] false)
      | .node cls => match declared.get? name with
        | some c => .ok (.subform c)
        | none => (gen cls (subList fl name) (subList ex name) wd (labelOf name f)).map .subform
      | .nodeList cls => match declared.get? name with
        | some c => formsetOf (labelOf name f) c
        | none => match gen cls (subList fl name) (subList ex name) wd (labelOf name f) with
          | .error e => .error e
          | .ok c => formsetOf (labelOf name f) c
      | .stringList => .ok (.formset (listSetOpts (labelOf name f)) (.listForm false))
      | .integerList => .ok (.formset (listSetOpts (labelOf name f)) (.listForm true))
      | .other => .error .exception

/-- xmlobject.py:174-287: the loop over the fields of the model. -/
def richParts (gen : Gen) (declared : Dict Str RForm) (fl ex : Option PFL) (w : Option WArg) : List (Str × DField) → Except PyErr (List (Str × Nat × RPart))
  | [] => .ok []
  | (name, f) :: rest =>
    if skip fl ex name then richParts gen declared fl ex w rest
    else match richPart gen declared fl ex w name f with
      | .error e => .error e
      | .ok p => match richParts gen declared fl ex w rest with
        | .error e => .error e
        | .ok ps => .ok ((name, f.base.counter, p) :: ps)

/-- xmlobject.py:223-227: is it a NodeField or NodeListField for which a subform is made? -/
def isNodeField (f : DField) : Bool := f.base.choices.isEmpty && match f.base.type with
  | .node _ => true
  | .nodeList _ => true
  | _ => false

/-- xmlobject.py:172, 227: `subform_labels`. -/
def nodeLabels (fl ex : Option PFL) (model : DModel) : Dict Str Str :=
  model.filterMap (fun p => if !skip fl ex p.1 && isNodeField p.2 then some (p.1, labelOf p.1 p.2) else none)

/-- xmlobject.py:247, 251, 267, 284: the entries of one sort. -/
def richPick {α : Type} (g : RPart → Option α) (ps : List (Str × Nat × RPart)) : Dict Str α := ps.filterMap (fun p => (g p.2.2).map (fun v => (p.1, v)))

/-- xmlobject.py:290 and 302. -/
def richOrder (fl : Option PFL) (ps : List (Str × Nat × RPart)) : List Str := match fl with
  | some l => l.fields
  | none => Core.defaultOrder (ps.map (fun p => (p.1, p.2.1)))

/-- What `formfields_for_xmlobject` returns. -/
structure Generated where
  fields : Dict Str RField
  subforms : Dict Str RForm
  formsets : Dict Str (SetOpts × RForm)
  labels : Dict Str Str

/-- xmlobject.py:113-314 `formfields_for_xmlobject`, as called at 398. -/
def richFields (gen : Gen) (declared : Dict Str RForm) (fl ex : Option PFL) (w : Option WArg) (model : DModel) : Except PyErr Generated :=
  match richParts gen declared fl ex w model with
  | .error e => .error e
  | .ok ps =>
    let names := richOrder fl ps
    .ok ⟨orderedDict names (richPick RPart.asField ps), orderedDict names (richPick RPart.asSubform ps), orderedDict names (richPick RPart.asFormset ps), nodeLabels fl ex model⟩

/-- A declaration in the body of a form class: a form field, or `SubformField(formclass, label, can_delete, can_order)` (845-875). -/
inductive Decl where
  | field (f : RField)
  | subform (formclass : Option RForm) (label : Option Str) (canDelete canOrder : Bool)

/-- The body of a class statement: declarations, an inner class `Meta` (with what it inherits), `form_label`. -/
structure ClassBody where
  own : Dict Str Decl
  opts : Option MetaAttrs
  label : Option (Option Str)

/-- xmlobject.py:378-390: the declarations, sorted into fields, subforms and labels of subforms.  A SubformField without `formclass` has no such attribute. -/
def sortDecls : List (Str × Decl) → Except PyErr (Dict Str RField × Dict Str RForm × Dict Str Str)
  | [] => .ok ([], [], [])
  | (name, .field f) :: rest => match sortDecls rest with
    | .error e => .error e
    | .ok (fs, ss, ls) => .ok ((name, f) :: fs, ss, ls)
  | (_, .subform none _ _ _) :: _ => .error .attributeError
  | (name, .subform (some c) label _ _) :: rest => match sortDecls rest with
    | .error e => .error e
    | .ok (fs, ss, ls) => .ok (fs, (name, c) :: ss, match label.or c.label with | some l => (name, l) :: ls | none => ls)

/-- xmlobject.py:369-373: the declarations, those of the bases first. -/
def allDecls (bases : List RForm) (own : Dict Str Decl) : Dict Str Decl :=
  Dict.update [] ((bases.flatMap (fun b => b.declared.map (fun p => (p.1, Decl.field p.2)))) ++ own)

/-- Attribute lookup on the bases, in order.  Simplification: this is the method resolution order, unless a class is inherited on several ways. -/
def inherited {α : Type} (g : RForm → Option α) : List RForm → Option α
  | [] => none
  | b :: bs => (g b).or (inherited g bs)

/-- xmlobject.py:367-424: the class statement `class F(*bases)`, by the metaclass. -/
def classStatement (gen : Gen) (models : Nat → DModel) (bases : List RForm) (body : ClassBody) : Except PyErr RForm :=
  match sortDecls (allDecls bases body.own) with
  | .error e => .error e
  | .ok (fs, ss, ls) =>
    let m := body.opts.or (inherited RForm.meta? bases)
    let label := body.label.or (inherited RForm.labelAttr bases)
    match (optsOf m).model with
    | none => .ok (.form m label fs fs [] [] [])
    | some cls => match richFields gen ss (optsOf m).fields (optsOf m).exclude (optsOf m).widgets (models cls) with
      | .error e => .error e
      | .ok g => .ok (.form m label fs (Dict.update g.fields fs) g.subforms g.formsets (Dict.update g.labels ls))

/-- The arguments of `xmlobjectform_factory` other than `model` and `form`; `none` for None. -/
structure FactoryArgs where
  fields : ListArg := .none
  exclude : ListArg := .none
  widgets : Option WArg := none
  maxNum : Option Nat := none
  label : Option Str := none
  canDelete : Option Bool := some true
  extra : Option Nat := none
  canOrder : Option Bool := some false

/-- xmlobject.py:761-764: the attribute is set if the argument is not None. -/
def givenList : ListArg → Option ListArg
  | .none => Option.none
  | l => some l

/-- Attributes of a class, or else of its base. -/
def MetaAttrs.over (m : MetaAttrs) : Option MetaAttrs → MetaAttrs
  | none => m
  | some b => ⟨m.model.or b.model, m.fields.or b.fields, m.exclude.or b.exclude, m.widgets.or b.widgets, m.maxNum.or b.maxNum, m.canDelete.or b.canDelete, m.extra.or b.extra,
      m.canOrder.or b.canOrder⟩

/-- xmlobject.py:751-794 `xmlobjectform_factory`. -/
def factory (gen : Gen) (models : Nat → DModel) (cls : Nat) (form : RForm) (args : FactoryArgs) : Except PyErr RForm :=
  let attrs : MetaAttrs := ⟨some cls, givenList args.fields, givenList args.exclude, args.widgets.map some, args.maxNum.map some, args.canDelete, args.extra, args.canOrder⟩
  classStatement gen models [form] ⟨[], some (attrs.over form.meta?), some args.label⟩

/-- xmlobject.py:237-238: a parsed list, or None, as argument. -/
def listArg : Option PFL → ListArg
  | some l => .parsed l
  | none => .none

/-- xmlobject.py:236-244: the form class for a class of sub-objects.  The first argument bounds the nesting; at the bound the result is the `RecursionError` (a `RuntimeError`) of Python. -/
def subFactory (models : Nat → DModel) : Nat → Gen
  | 0, _, _, _, _, _ => .error .runtimeError
  | n + 1, cls, fl, ex, w, label =>
    factory (subFactory models n) models cls rootForm { fields := listArg fl, exclude := listArg ex, widgets := w, label := some label }

/-- xmlobject.py:527-531: `form_label` of a subform, after `_init_subforms`. -/
def subformLabel (c : RForm) (name : Str) (sub : RForm) : Option Str := sub.label.or (c.subformLabels.get? name)

/-- xmlobject.py:680-685: the label of a formset that has forms, when it is shown. -/
def formsetLabel (o : SetOpts) (form : RForm) : Str := form.label.getD o.label

end Forms
