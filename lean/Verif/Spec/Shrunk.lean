import Verif.Xml.Node
import Verif.XPath.Ast
/-
Specification: a document from which something was taken away, and nothing else was done to it.
-/
namespace Spec
open Xml XPath

/-- What may be taken away: whole elements (with their tails), attributes, texts (which become empty). -/
structure Takes where
  elems : Bool
  attrs : Bool
  texts : Bool
  deriving DecidableEq

mutual
/-- The second element is the first one, from which things of these kinds were taken away at any depth: the tag and the tail are the same, the attributes are some of the attributes in the same order with
the same values, the text is the same or empty, the children are some of the children in the same order (from which things were taken away). -/
inductive Shrunk (t : Takes) : Node → Node → Prop
  | mk {tag attrs attrs' text text' cs cs' tail} : attrs'.Sublist attrs → (t.attrs = false → attrs' = attrs) → (text' = text ∨ (t.texts = true ∧ text' = some [])) → ShrunkAll t cs cs' →
      Shrunk t (.mk tag attrs text cs tail) (.mk tag attrs' text' cs' tail)
/-- The same for lists of children. -/
inductive ShrunkAll (t : Takes) : List Node → List Node → Prop
  | nil : ShrunkAll t [] []
  | drop {c cs cs'} : t.elems = true → ShrunkAll t cs cs' → ShrunkAll t (c :: cs) cs'
  | keep {c c' cs cs'} : Shrunk t c c' → ShrunkAll t cs cs' → ShrunkAll t (c :: cs) (c' :: cs')
end

/-- The steps of an XPath that is a path: the expressions between the slashes. -/
def pathSteps : Expr → List Expr
  | .binary l .slash r => pathSteps l ++ pathSteps r
  | e => [e]

/-- An element step: a name on the child axis. -/
def elemStep : Expr → Bool
  | .step ax (.name _ _) _ => ax = none || ax = some c%"child"
  | _ => false
/-- An attribute step. -/
def attrStep : Expr → Bool
  | .step ax (.name _ _) _ => ax = some c%"@" || ax = some c%"attribute"
  | _ => false
/-- `text()`. -/
def textStep : Expr → Bool
  | .step _ (.type nm _) _ => nm = c%"text"
  | _ => false

/-- The kinds of steps of an XPath. -/
def kindsOf (e : Expr) : Takes := ⟨(pathSteps e).any elemStep, (pathSteps e).any attrStep, (pathSteps e).any textStep⟩

end Spec
