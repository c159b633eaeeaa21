import Verif.XmlMap.Mappers
/-
Specification: the dates and times that exist (proleptic Gregorian calendar, years 1 to 9999, no leap seconds).
-/
namespace Spec
open Fields

/-- Leap years. -/
def Leap (y : Nat) : Prop := 400 ∣ y ∨ (4 ∣ y ∧ ¬ 100 ∣ y)

/-- The lengths of January to December. -/
def monthLengths (feb : Nat) : List Nat := [31, feb, 31, 30, 31, 30, 31, 31, 30, 31, 30, 31]

/-- The day `d` of month `m` of year `y` exists. -/
def RealDate (y m d : Nat) : Prop := 1 ≤ y ∧ y ≤ 9999 ∧ 1 ≤ m ∧ 1 ≤ d ∧
  ((Leap y ∧ ∃ len ∈ (monthLengths 29)[m - 1]?, d ≤ len) ∨ (¬ Leap y ∧ ∃ len ∈ (monthLengths 28)[m - 1]?, d ≤ len))

/-- The time of day exists. -/
def RealTime (hour minute second micro : Nat) : Prop := hour ≤ 23 ∧ minute ≤ 59 ∧ second ≤ 59 ∧ micro ≤ 999999

/-- The point in time exists. -/
def RealDateTime (d : DateTime) : Prop := RealDate d.year d.month d.day ∧ RealTime d.hour d.minute d.second d.micro

theorem leap_iff (y : Nat) : Leap y ↔ (y % 4 = 0 ∧ (y % 100 ≠ 0 ∨ y % 400 = 0)) := by
  unfold Leap
  omega

theorem valid_iff (d : DateTime) : d.valid = true ↔ RealDateTime d := by
  obtain ⟨y, m, dd, h, mi, s, u⟩ := d
  simp only [DateTime.valid, RealDateTime, RealDate, RealTime, Bool.and_eq_true, decide_eq_true_eq, daysInMonth]
  have hl := leap_iff y
  by_cases hly : Leap y
  · have hy := hl.mp hly
    match m with
    | 0 => simp
    | 1 => simp [hly, monthLengths]; omega
    | 2 => simp [hly, monthLengths, hy]; omega
    | 3 => simp [hly, monthLengths]; omega
    | 4 => simp [hly, monthLengths]; omega
    | 5 => simp [hly, monthLengths]; omega
    | 6 => simp [hly, monthLengths]; omega
    | 7 => simp [hly, monthLengths]; omega
    | 8 => simp [hly, monthLengths]; omega
    | 9 => simp [hly, monthLengths]; omega
    | 10 => simp [hly, monthLengths]; omega
    | 11 => simp [hly, monthLengths]; omega
    | 12 => simp [hly, monthLengths]; omega
    | m + 13 => simp [monthLengths]
  · have hy := fun h => hly (hl.mpr h)
    match m with
    | 0 => simp
    | 1 => simp [hly, monthLengths]; omega
    | 2 => rw [if_pos rfl, if_neg hy]; simp [hly, monthLengths]; omega
    | 3 => simp [hly, monthLengths]; omega
    | 4 => simp [hly, monthLengths]; omega
    | 5 => simp [hly, monthLengths]; omega
    | 6 => simp [hly, monthLengths]; omega
    | 7 => simp [hly, monthLengths]; omega
    | 8 => simp [hly, monthLengths]; omega
    | 9 => simp [hly, monthLengths]; omega
    | 10 => simp [hly, monthLengths]; omega
    | 11 => simp [hly, monthLengths]; omega
    | 12 => simp [hly, monthLengths]; omega
    | m + 13 => simp [monthLengths]

end Spec
