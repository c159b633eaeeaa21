import Verif.Forms.ListSubmit
/-
Specification of C101: the formset of a list field is shown, edited, and sent back.
-/
namespace Props
open XPath Xml Fields Forms Py

/-- The input has been sent with a text that is the number `k`. -/
def NumberSent (dj : Django) (post : Dict Str Str) (x : Str) (k : Int) : Prop := ∃ t, post.get? x = some t ∧ t ≠ [] ∧ dj.int t = some k

/-- The data say that there are `t` forms: the two counts are there, and the other two are numbers, empty, or missing. -/
def Counts (dj : Django) (post : Dict Str Str) (pfx : Str) (t : Int) : Prop :=
  NumberSent dj post (countName pfx c%"TOTAL_FORMS") t ∧ (∃ k, NumberSent dj post (countName pfx c%"INITIAL_FORMS") k) ∧
  ∀ x ∈ [c%"MIN_NUM_FORMS", c%"MAX_NUM_FORMS"], (post.get? (countName pfx x)).getD [] = [] ∨ ∃ k, NumberSent dj post (countName pfx x) k

/-- The text sent for the item with this number; an input that has not been sent is empty. -/
def sentText (post : Dict Str Str) (pfx : Str) (i : Nat) : Str := (post.get? (itemName pfx i)).getD []

/-- The four inputs of the set that are not for items, for `k` forms and `n` items. -/
def countInputs (pfx : Str) (k n : Nat) : List (Str × Option Str) :=
  [(countName pfx c%"TOTAL_FORMS", some (natStr k)), (countName pfx c%"INITIAL_FORMS", some (natStr n)), (countName pfx c%"MIN_NUM_FORMS", some (natStr 0)),
   (countName pfx c%"MAX_NUM_FORMS", some (natStr 1000))]

/-- The page for a list with these texts: an input for each of the texts, without line breaks, and an empty one, unless there are 1000 or more. -/
def listPage (pfx : Str) (l : List Str) : List (Str × Option Str) :=
  countInputs pfx (shownCount l.length) l.length ++ (List.range (shownCount l.length)).map (fun i => (itemName pfx i, some (oneLine (l[i]?.getD []))))

/-- The user does not edit the counts. -/
def KeepsCounts (pfx : Str) (edits : Str → Option (Option Str)) : Prop := ∀ x ∈ managementFields, edits (countName pfx x) = none

/-- The text received for the item with this number, from the page for `l`. -/
def receivedText (edits : Str → Option (Option Str)) (pfx : Str) (l : List Str) (i : Nat) : Str := ((edits (itemName pfx i)).getD (some (oneLine (l[i]?.getD [])))).getD []

/-- The text in the input for an item of a list of strings, -/
def strText (v : Option Str) : Str := v.getD []

/-- and of a list of integers. -/
def intText (v : Option Int) : Str := match v with
  | none => []
  | some n => intStr n

end Props
