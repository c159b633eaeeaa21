import Verif.Basic
import Verif.XPath.Serialize
/-
Model of what a form with subforms and formsets is on a page: the names of its inputs (`XmlObjectForm._init_subforms`, `_init_formsets`, eulxml/forms/xmlobject.py:505-548, and
Django's `add_prefix`) and its HTML (`_html_output`, `_html_subform_output`, 656-712; `as_table`, `as_p`, `as_ul`, 715-748).
-/
namespace Forms
open XPath

/- A form object: the names of its own fields in order (in a formset with Django's `ORDER` and `DELETE`, if any), its subforms by name, and its formsets by name.
A subform comes with its `form_label` after `_init_subforms` (528-531); a formset with the `form_label` of its forms (`none` if the forms have none, as those of
list fields) and its own (255, 270), and with its forms. -/
mutual
inductive PForm where
  | mk (fields : List Str) (subs : PSubs) (sets : PSets)
inductive PSubs where
  | nil
  | cons (name : Str) (label : Option Str) (f : PForm) (rest : PSubs)
inductive PSets where
  | nil
  | cons (name : Str) (formLabel : Option Str) (label : Str) (forms : PForms) (rest : PSets)
inductive PForms where
  | nil
  | cons (f : PForm) (rest : PForms)
end

/-- Django `BaseForm.add_prefix`: `'%s-%s' % (self.prefix, field_name) if self.prefix else field_name`; and xmlobject.py:520-523. -/
def addPrefix (pfx : Option Str) (name : Str) : Str := match pfx with
  | none => name
  | some [] => name
  | some p => p ++ '-' :: name

/-- xmlobject.py:543-546: other than for subforms, an empty prefix counts. -/
def setPrefix (pfx : Option Str) (name : Str) : Str := match pfx with
  | none => name
  | some p => p ++ '-' :: name

/-- Django `BaseFormSet.add_prefix`: the prefix of the form with this number. -/
def indexPrefix (pfx : Str) (i : Nat) : Str := pfx ++ '-' :: natStr i

/-- The inputs of Django's `ManagementForm`. -/
def managementFields : List Str := [c%"TOTAL_FORMS", c%"INITIAL_FORMS", c%"MIN_NUM_FORMS", c%"MAX_NUM_FORMS"]

/- The names of the inputs: those of the form, of the subforms (xmlobject.py:527), and of the formsets (548), whose forms have numbers. -/
mutual
def PForm.inputs (pfx : Option Str) (f : PForm) : List Str := match f with
  | .mk fields subs sets => fields.map (addPrefix pfx) ++ PSubs.inputs pfx subs ++ PSets.inputs pfx sets
def PSubs.inputs (pfx : Option Str) (l : PSubs) : List Str := match l with
  | .nil => []
  | .cons name _ f rest => PForm.inputs (some (addPrefix pfx name)) f ++ PSubs.inputs pfx rest
def PSets.inputs (pfx : Option Str) (l : PSets) : List Str := match l with
  | .nil => []
  | .cons name _ _ forms rest =>
    managementFields.map (addPrefix (some (setPrefix pfx name))) ++ PForms.inputs (setPrefix pfx name) 0 forms ++ PSets.inputs pfx rest
def PForms.inputs (pfx : Str) (i : Nat) (l : PForms) : List Str := match l with
  | .nil => []
  | .cons f rest => PForm.inputs (some (indexPrefix pfx i)) f ++ PForms.inputs pfx (i + 1) rest
end

/-- `_html_section` (xmlobject.py:724, 736, 747): the text in front of the label, between label and content, and after the content. -/
structure Section where
  before : Str
  between : Str
  after : Str

/-- `self._html_section % {'label': …, 'content': …}`. -/
def Section.wrap (s : Section) (label content : Str) : Str := s.before ++ label ++ s.between ++ content ++ s.after

/-- xmlobject.py:724 `as_table`. -/
def tableSection : Section := ⟨c%"<tbody><tr><th colspan=\"2\" class=\"section\">", c%"</th></tr><tr><td colspan=\"2\"><table class=\"subform\">\n", c%"</table></td></tr></tbody>"⟩
/-- xmlobject.py:736 `as_p`. -/
def paragraphSection : Section := ⟨c%"<div class=\"subform\"><p class=\"label\">", c%"</p>", c%"</div>"⟩
/-- xmlobject.py:747 `as_ul`. -/
def listSection : Section := ⟨c%"<li class=\"subform\"><p class=\"label\">", c%"</p><ul>", c%"</ul></li>"⟩

/-- What Django makes of the fields of a form, and of the management form of a formset, given the names of the inputs (and all else that is the same for the
form); and `fieldname_to_label` (37-41). -/
structure Html where
  own : List Str → Str
  management : List Str → Str
  toLabel : Str → Str

/-- `u'\n'.join(parts)`. -/
def joinLines : List Str → Str
  | [] => []
  | [x] => x
  | x :: y :: l => x ++ '\n' :: joinLines (y :: l)

/-- xmlobject.py:707-712: in a section, if there are sections. -/
def inSection (h : Html) (sec : Option Section) (label : Option Str) (content : Str) : Except PyErr Str := match sec with
  | none => .ok content
  | some s => match label with
    | none => .error .attributeError
    | some l => .ok (s.wrap (h.toLabel l) content)

/-- xmlobject.py:680-685: the label of a formset; `formset.forms[0]` raises IndexError if there is no form. -/
def setLabel (formLabel : Option Str) (label : Str) (forms : PForms) : Except PyErr Str := match forms with
  | .nil => .error .indexError
  | .cons _ _ => .ok (formLabel.getD label)

/- xmlobject.py:656-696 `_html_output` and 698-712 `_html_subform_output`. -/
mutual
def PForm.html (h : Html) (sec : Option Section) (pfx : Option Str) (f : PForm) : Except PyErr Str := match f with
  | .mk fields subs sets => do
    let a ← PSubs.html h sec pfx subs
    let b ← PSets.html h sec pfx sets
    pure (joinLines (h.own (fields.map (addPrefix pfx)) :: (a ++ b)))
def PSubs.html (h : Html) (sec : Option Section) (pfx : Option Str) (l : PSubs) : Except PyErr (List Str) := match l with
  | .nil => pure []
  | .cons name label f rest => do
    let x ← PForm.html h sec (some (addPrefix pfx name)) f
    let y ← inSection h sec label x
    let r ← PSubs.html h sec pfx rest
    pure (y :: r)
def PSets.html (h : Html) (sec : Option Section) (pfx : Option Str) (l : PSets) : Except PyErr (List Str) := match l with
  | .nil => pure []
  | .cons name formLabel label forms rest => do
    let name' ← setLabel formLabel label forms
    let x ← PForms.html h sec (setPrefix pfx name) 0 forms
    let y ← inSection h sec (some name') (joinLines x)
    let r ← PSets.html h sec pfx rest
    pure (h.management (managementFields.map (addPrefix (some (setPrefix pfx name)))) :: y :: r)
def PForms.html (h : Html) (sec : Option Section) (pfx : Str) (i : Nat) (l : PForms) : Except PyErr (List Str) := match l with
  | .nil => pure []
  | .cons f rest => do
    let x ← PForm.html h sec (some (indexPrefix pfx i)) f
    let r ← PForms.html h sec pfx (i + 1) rest
    pure (x :: r)
end

end Forms
