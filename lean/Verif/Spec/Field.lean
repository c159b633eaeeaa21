import Verif.Spec.Delete
import Verif.XPath.Canon
/-
Specification: a field whose XPath is a simple path.
-/
namespace Spec
open Xml XPath
variable [PyUnicode]

/-- The field's XPath string `xp` parses to `e`, an AST in the form in which the parser builds it (`canonical`), which denotes the simple path
`p` in the namespaces and variables of `ctx`; no predicate of the path speaks about the step after it (`pathOk`). -/
structure SimpleField (ctx : Ctx) (xp : Str) (e : Expr) (p : List Step) : Prop where
  parse : parse0 xp = .ok e
  path : res ctx e = some (p, none)
  canonical : e.canonical = true
  ok : pathOk p = true

/-- Does the path consist of child steps only? -/
def childSteps (p : List Step) : Bool := p.all (fun st => match st with | .child _ _ => true | _ => false)

/-! ### steps that cannot be created -/

/-- A value: literal, integer or variable. -/
def isLiteral : Expr → Bool
  | .lit _ | .int _ | .var _ _ => true
  | _ => false

mutual
/-- A predicate that eulxml refuses to build: it has a step along another axis than child or attribute, or a step that tests the node type, or a
comparison by `=` with something that is not a value. -/
def refusedPred : Expr → Bool
  | .step ax t ps => (ax != none && ax != some c%"child" && ax != some c%"@" && ax != some c%"attribute")
      || (match t with | .type _ _ => true | .name _ _ => refusedPreds ps)
  | .binary l .slash r => refusedPred l || refusedPred r
  | .binary l .eq r => refusedPred l || !isLiteral r
  | _ => false
def refusedPreds : List Expr → Bool
  | [] => false
  | p :: ps => refusedPred p || refusedPreds ps
end

/-- A step that eulxml refuses to create: it tests the node type (except `text()`), has a refused predicate, goes along another axis
than child or attribute, or is a wildcard. -/
def refusedStep (ax : Option Str) : NodeTest → List Expr → Bool
  | .type nm _, _ => nm != c%"text"
  | .name _ nm, ps => refusedPreds ps || (ax != none && ax != some c%"child" && ax != some c%"@" && ax != some c%"attribute") || nm == c%"*"

/-- The step at which creation starts is refused, or what is to be created is no step at all.  `find x r` is the result of the look-up of the
XPath `x` from the element `r` in the document. -/
inductive Refused (find : Str → Ref → Option Ref) : Expr → Ref → Prop
  | step {ax t ps node} : refusedStep ax t ps = true → Refused find (.step ax t ps) node
  | there {l r node left} : find l.ser node = some left → Refused find r left → Refused find (.binary l .slash r) node
  | missing {l r node} : find l.ser node = none → Refused find l node → Refused find (.binary l .slash r) node
  | other {e node} : (∀ ax t ps, e ≠ .step ax t ps) → (∀ l r, e ≠ .binary l .slash r) → Refused find e node

end Spec
