import Verif.Xml.Node
/-
Specification: documents to which something was added.
-/
namespace Spec
open Xml

mutual
/-- The tags (with kinds and tails) of an element and of everything in it, in document order. -/
def allTags : Node → List (Tag × Option Str)
  | .mk tag _ _ cs tail => (tag, tail) :: allTagsList cs
/-- The same for lists. -/
def allTagsList : List Node → List (Tag × Option Str)
  | [] => []
  | c :: cs => allTags c ++ allTagsList cs
end

/-- Something the library made: elements without tails (no comment, no processing instruction, no text behind an element). -/
def AllNew (c : Node) : Prop := ∀ x ∈ allTags c, (∃ q, x.1 = .elem q) ∧ x.2 = none

mutual
/-- The second element is the first one to which elements (without tails) were added, at any depth: everything that was there is still there, in the same order. -/
inductive Grown : Node → Node → Prop
  | mk {tag attrs text cs cs' tail} : GrownAll cs cs' → Grown (.mk tag attrs text cs tail) (.mk tag attrs text cs' tail)
/-- The same for lists of children. -/
inductive GrownAll : List Node → List Node → Prop
  | nil : GrownAll [] []
  | new {c cs cs'} : AllNew c → GrownAll cs cs' → GrownAll cs (c :: cs')
  | keep {c c' cs cs'} : Grown c c' → GrownAll cs cs' → GrownAll (c :: cs) (c' :: cs')
end

/-- The second element is the first one with another text, or another value of one attribute, or both: `v` is the value that was assigned; an attribute can also be left empty. -/
structure Touched (v : Option Str) (m m' : Node) : Prop where
  tag : m'.tag = m.tag
  tail : m'.tail = m.tail
  children : m'.children = m.children
  text : m'.text = m.text ∨ m'.text = v
  attrs : ∃ q, (∀ q', q' ≠ q → m'.attr? q' = m.attr? q') ∧ (m'.attr? q = m.attr? q ∨ m'.attr? q = some [] ∨ (m'.attr? q = v ∧ v ≠ none))

/-- The second document is the first one to which elements were added, and then one element (an old one or a new one) was touched. -/
def Written (v : Option Str) (s s' : Node) : Prop := ∃ s1 a m m', Grown s s1 ∧ s1.get a = some m ∧ Touched v m m' ∧ s' = s1.modify a (fun _ => m')

mutual
/-- All of the first element is in the second one: every element, comment and processing instruction, with its tail, in the same order, every attribute.  Texts and values of attributes can
be different; there can be more elements (without tails) and more attributes, but nothing else. -/
inductive Survives : Node → Node → Prop
  | mk {tag attrs attrs' text text' cs cs' tail} : (∀ q, attrs.lookup q ≠ none → attrs'.lookup q ≠ none) → SurviveAll cs cs' → Survives (.mk tag attrs text cs tail) (.mk tag attrs' text' cs' tail)
/-- The same for lists of children. -/
inductive SurviveAll : List Node → List Node → Prop
  | nil : SurviveAll [] []
  | new {c cs cs'} : AllNew c → SurviveAll cs cs' → SurviveAll cs (c :: cs')
  | keep {c c' cs cs'} : Survives c c' → SurviveAll cs cs' → SurviveAll (c :: cs) (c' :: cs')
end

end Spec
