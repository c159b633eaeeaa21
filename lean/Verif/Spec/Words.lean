import Verif.Basic
/-
Specification: the words of a text.
-/
namespace Spec

/-- XML white space: blank, tab, line feed, carriage return. -/
def xmlBlank (c : Char) : Bool := c == ' ' || c == '\t' || c == '\n' || c == '\r'

/-- The words of a text: its maximal parts without white space. -/
def words (s : Str) : List Str := (s.splitOnP xmlBlank).filter (fun w => w ≠ [])

/-- Words written with one blank between them. -/
def unwords (ws : List Str) : Str := [' '].intercalate ws

end Spec
