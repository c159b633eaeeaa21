/-
Specification for C96: what is left and what arrives if elements are taken out of a list by their index, while the list shrinks.
-/
namespace Spec

/-- The items with an even index: 0, 2, 4, ... -/
def evens {α : Type} : List α → List α
  | [] => []
  | [x] => [x]
  | x :: _ :: l => x :: evens l

/-- The items with an odd index: 1, 3, 5, ... -/
def odds {α : Type} : List α → List α
  | [] => []
  | [_] => []
  | _ :: y :: l => y :: odds l

end Spec
