import Verif.Spec.Programs
/-
Specification: which exceptions a statement that gives a value can raise, and for which reasons.
-/
namespace Spec
open Xml XPath

/-- The class has no namespace for this prefix. -/
def NoNamespace (ctx : Ctx) (p : Str) : Prop := p ≠ [] ∧ (ctx.namespaces.getD []).lookup p = none

/-- Somewhere in the XPath there is a step with a prefix that the class has no namespace for. -/
def UnknownPrefix (ctx : Ctx) (e : Expr) : Prop := ∃ ax p nm ps, Expr.step ax (.name (some p) nm) ps ∈ subExprs e ∧ NoNamespace ctx p
/-- Somewhere in the XPath there is a variable that the class has no value for. -/
def UnknownVariable (ctx : Ctx) (e : Expr) : Prop := ∃ p nm, Expr.var p nm ∈ subExprs e ∧ ctx.vars.lookup nm = none
/-- Somewhere in the XPath there is a step with a star. -/
def HasStar (e : Expr) : Prop := ∃ ax p ps, Expr.step ax (.name p c%"*") ps ∈ subExprs e
/-- Somewhere in the XPath there is a step along another axis than child and attribute. -/
def HasOtherAxis (e : Expr) : Prop := ∃ ax t ps, Expr.step (some ax) t ps ∈ subExprs e ∧ ax ≠ c%"child" ∧ ax ≠ c%"@" ∧ ax ≠ c%"attribute"

/-- What creating nodes for an XPath can raise: `Exception` (creation is not supported for this XPath, or the element has children), `AttributeError` (there is no element to create in), and the following for
these reasons only. -/
def CreateError (ctx : Ctx) (e : Expr) : PyErr → Prop
  | .exception => True
  | .attributeError => True
  | .nameError => HasOtherAxis e
  | .keyError => UnknownPrefix ctx e ∨ UnknownVariable ctx e
  | .typeError => UnknownPrefix ctx e
  | .valueError => HasStar e ∨ ∃ v, Quotes ctx e v ∧ xmlOk v = false
  | _ => False

/-- The XPath engine raises this for some XPath, document and element. -/
def EngineError (eng : Engine) (ctx : Ctx) (er : PyErr) : Prop := ∃ xp s a, eng.xpath xp s a ctx = .error er

/-- Nothing in the XPath gives a reason for another exception than `Exception` and `AttributeError`. -/
structure Blameless (ctx : Ctx) (e : Expr) : Prop where
  prefixes : ¬ UnknownPrefix ctx e
  variables : ¬ UnknownVariable ctx e
  stars : ¬ HasStar e
  axes : ¬ HasOtherAxis e
  values : ∀ v, Quotes ctx e v → xmlOk v = true

end Spec
