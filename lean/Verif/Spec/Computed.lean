import Verif.Xml.Engine
import Verif.XmlMap.Fields
/-
Specification of fields whose XPath computes a value instead of selecting nodes.
-/
namespace Spec
open Xml XPath

/-- Neither a step nor steps joined by `/`: a function call, an operator, a literal, a variable, ... -/
def computed : Expr → Bool
  | .step _ _ _ => false
  | .binary _ .slash _ => false
  | _ => true

/-- Python takes these results as false: an empty string, zero (also -0.0), false, no nodes. -/
inductive Falsy : XVal → Prop
  | str : Falsy (.str [])
  | zero (neg : Bool) (k : Nat) : Falsy (.num (.dec neg 0 k))
  | bool : Falsy (.bool false)
  | none : Falsy (.nodes [])

/-- Numbers that are not zero (NaN and the infinities are among them), and true. -/
inductive TrueValue : XVal → Prop
  | dec (neg : Bool) (m k : Nat) (h : m ≠ 0) : TrueValue (.num (.dec neg m k))
  | nan : TrueValue (.num .nan)
  | inf (neg : Bool) : TrueValue (.num (.inf neg))
  | bool : TrueValue (.bool true)

end Spec
