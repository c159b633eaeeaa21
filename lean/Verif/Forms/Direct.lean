import Verif.Forms.Options
/-
Model of `formfields_for_xmlobject` when it is called directly (eulxml/forms/xmlobject.py:113-314), not by the metaclass.
-/
namespace Forms
open Core Py

/-- xmlobject.py:113-314 `formfields_for_xmlobject(model, fields, exclude, widgets, options, declared_subforms, max_num, extra)`; `none` for None.

Without `declared_subforms` the test `name in declared_subforms` (230) is a `TypeError`; it is made for each NodeField and NodeListField, where otherwise a class would be looked up or made, so this is
the case of no declared classes and a factory that raises the `TypeError`.  `max_num` and `extra` are not used (164-165 set a variable which is not read). -/
def formfields (gen : Gen) (model : DModel) (fields exclude : ListArg) (widgets : Option WArg) (options : Option Opts) (declared : Option (Dict Str RForm)) (_maxNum _extra : Option Nat) :
    Except PyErr Generated :=
  match chosenExclude (options.bind Opts.exclude) fields exclude with
  | .error e => .error e
  | .ok ex => match declared with
    | some d => richFields gen d (chosenFields (options.bind Opts.fields) fields) ex (widgets.or (options.bind Opts.widgets)) model
    | none => richFields (fun _ _ _ _ _ => .error .typeError) [] (chosenFields (options.bind Opts.fields) fields) ex (widgets.or (options.bind Opts.widgets)) model

end Forms
