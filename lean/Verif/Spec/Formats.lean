import Verif.XmlMap.Formats
/-
Specification: what a date format shows of a point in time, and the formats on which the time zone heuristics of `DateTimeField` does no harm.
-/
namespace Spec
open Fields

/-- The format names the year, with four or two digits. -/
def showsYear (fmt : List FTok) : Prop := .dir .Y ∈ fmt ∨ .year2 ∈ fmt

instance (fmt : List FTok) : Decidable (showsYear fmt) := by unfold showsYear; infer_instance

/-- What remains of `d` in a text of this format: the parts the format names, and those of `base` for the others. -/
def shownOn (base : DateTime) (fmt : List FTok) (d : DateTime) : DateTime where
  year := if showsYear fmt then d.year else base.year
  month := if .dir .m ∈ fmt then d.month else base.month
  day := if .dir .d ∈ fmt then d.day else base.day
  hour := if .dir .H ∈ fmt then d.hour else base.hour
  minute := if .dir .M ∈ fmt then d.minute else base.minute
  second := if .dir .S ∈ fmt then d.second else base.second
  micro := if .dir .f ∈ fmt then d.micro else base.micro

/-- Parts that are not named are those of 1 January 1900, midnight. -/
def shown (fmt : List FTok) (d : DateTime) : DateTime := shownOn ⟨1900, 1, 1, 0, 0, 0, 0⟩ fmt d

/-- Years that can be printed and read back: four digits for `%Y`, 1969 to 2068 for `%y`. -/
def yearOk (fmt : List FTok) (y : Nat) : Prop := (.dir .Y ∈ fmt → 1000 ≤ y) ∧ (.year2 ∈ fmt → 1969 ≤ y ∧ y ≤ 2068)

/-- The places of a printed piece: `none` is a digit. -/
def places : FTok → List (Option Char)
  | .dir .Y => [none, none, none, none]
  | .dir .f => [none, none, none, none, none, none]
  | .dir (.ch c) => [some c]
  | .space run => run.map some
  | _ => [none, none]

/-- The places of a text of the format (with a four-digit year). -/
def layout (fmt : List FTok) : List (Option Char) := fmt.flatMap places

/-- Texts of the format have at least six characters, do not end in `Z`, and the sixth character from the end is no sign. -/
def zoneSafe (fmt : List FTok) : Prop := 6 ≤ (layout fmt).length ∧ (layout fmt).getLast? ≠ some (some 'Z') ∧
  (layout fmt)[(layout fmt).length - 6]? ≠ some (some '+') ∧ (layout fmt)[(layout fmt).length - 6]? ≠ some (some '-')

instance (fmt : List FTok) : Decidable (zoneSafe fmt) := by unfold zoneSafe; infer_instance

/-- White space in the format is single blanks, and not at the ends (so that normalising does not change it). -/
def tidy : List FTok → Bool
  | [] => true
  | .space _ :: _ => false
  | _ :: ts => tidyTail ts
where
  /-- Behind a piece that is not white space. -/
  tidyTail : List FTok → Bool
  | [] => true
  | [.space _] => false
  | .space run :: _ :: ts => run == [' '] && tidyTail ts
  | _ :: ts => tidyTail ts

end Spec
