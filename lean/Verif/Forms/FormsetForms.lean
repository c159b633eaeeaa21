import Verif.Forms.FormsetDoc
import Verif.Forms.Tree
/-
Model of a formset whose forms are XmlObjectForms (eulxml/forms/xmlobject.py:796-838), all of one class (`formset_factory(form, …)`, 902-921): the formset of Verif/Forms/FormsetDoc.lean
with the updates of Verif/Forms/Tree.lean.
-/
namespace Forms
open XPath Xml Fields Py

variable {A : Type}

/-- A form of the formset: those of a formset have one class, and differ by `cleaned_data`.  Simplification: the forms of formsets have no subforms. -/
def formOf (o : Own A) (d : Dict Str (CVal A)) : FTree A := .mk { o with cleaned := some d } .nil

/-- xmlobject.py:550-587: `update_instance` of form `i`, as a function on the element of its XmlObject; `data` are the `cleaned_data` of the forms.  Simplification: in repeated updates the
data are the same again (the first update replaces empty strings by None in them, for which the second one assigns the same). -/
def formUpd [PyUnicode] (eng : Engine) (o : Own A) (data : List (Dict Str (CVal A))) (i : Nat) (c : Node) : Node := match data[i]? with
  | none => c
  | some d => (updateTree eng (formOf o d) [] c).2.2

end Forms
