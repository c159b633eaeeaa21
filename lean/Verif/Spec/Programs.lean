import Verif.Spec.Grown
import Verif.Spec.Shrunk
import Verif.Xml.Engine
import Verif.XPath.Serialize
/-
Specification: what a program that only uses fields and lists can never make.
-/
namespace Spec
open Xml XPath

/-- Neither made by a field or list: a comment, a processing instruction, or an element with a text behind it. -/
def foreign : Tag × Option Str → Bool
  | (.elem _, none) => false
  | _ => true

/-- The comments, processing instructions and elements with a text behind them, in document order, each with its tail. -/
def foreigners (n : Node) : List (Tag × Option Str) := (allTags n).filter foreign

mutual
/-- An expression and all the expressions in it. -/
def subExprs : Expr → List Expr
  | .neg e => .neg e :: subExprs e
  | .binary l op r => .binary l op r :: (subExprs l ++ subExprs r)
  | .pred b ps => .pred b ps :: (subExprs b ++ subExprsList ps)
  | .abs d e => .abs d e :: subExprs e
  | .step ax t ps => .step ax t ps :: subExprsList ps
  | .call p nm args => .call p nm args :: subExprsList args
  | e => [e]
/-- The same for lists. -/
def subExprsList : List Expr → List Expr
  | [] => []
  | e :: es => subExprs e ++ subExprsList es
end

/-- The name that a prefix and a local name stand for: without a prefix (or if the class has no namespaces) a name in no namespace, otherwise the namespace the class gives for the prefix; for a prefix
that the class does not know the namespace is called `None`. -/
def Means (ctx : Ctx) (pfx : Option Str) (nm : Str) (q : QName) : Prop :=
  q.loc = nm ∧ ((q.ns = none ∧ (pfx = none ∨ pfx = some [] ∨ ctx.namespaces = none)) ∨
    ∃ p, pfx = some p ∧ ((∃ nss, ctx.namespaces = some nss ∧ nss.lookup p ≠ none ∧ q.ns = nss.lookup p) ∨ ((ctx.namespaces.getD []).lookup p = none ∧ q.ns = some c%"None")))

/-- An element step somewhere in the XPath has this name. -/
def NamesElem (ctx : Ctx) (e : Expr) (q : QName) : Prop := ∃ ax pfx nm ps, Expr.step ax (.name pfx nm) ps ∈ subExprs e ∧ (ax = none ∨ ax = some c%"child") ∧ Means ctx pfx nm q
/-- A step somewhere in the XPath has this name. -/
def NamesStep (ctx : Ctx) (e : Expr) (q : QName) : Prop := ∃ ax pfx nm ps, Expr.step ax (.name pfx nm) ps ∈ subExprs e ∧ Means ctx pfx nm q
/-- A text, a number or (the value of) a variable somewhere in the XPath. -/
def Quotes (ctx : Ctx) (e : Expr) (v : Str) : Prop :=
  .lit v ∈ subExprs e ∨ (∃ n, .int n ∈ subExprs e ∧ v = natStr n) ∨
  ∃ p nm, .var p nm ∈ subExprs e ∧ (ctx.vars.lookup nm = some (.str v) ∨ ∃ n, ctx.vars.lookup nm = some (.num n) ∧ v = natStr n)

/-- There is an element of this name (or a comment, or a processing instruction of this name) in the document. -/
def HasTag (s : Node) (t : Tag) : Prop := ∃ a m, s.get a = some m ∧ m.tag = t
/-- The same for attributes. -/
def HasAttr (s : Node) (q : QName) : Prop := ∃ a m v, s.get a = some m ∧ (q, v) ∈ m.attrs
/-- The same for texts and values of attributes. -/
def HasValue (s : Node) (v : Str) : Prop := ∃ a m, s.get a = some m ∧ (m.text = some v ∨ ∃ q, (q, v) ∈ m.attrs)
/-- There is a text behind something in the document. -/
def HasTail (s : Node) (v : Str) : Prop := ∃ a m, s.get a = some m ∧ m.tail = some v

end Spec
