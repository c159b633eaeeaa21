import Verif.Spec.Create
import Verif.XmlMap.Mappers
/-
Specification: the texts that typed fields write.
-/
namespace Spec
open Xml Fields

/-- The last decimal digit of a number, as a character. -/
def digit (n : Nat) : Char := Char.ofNat (48 + n % 10)
def digits2 (n : Nat) : Str := [digit (n / 10), digit n]
def digits4 (n : Nat) : Str := [digit (n / 1000), digit (n / 100), digit (n / 10), digit n]
def digits6 (n : Nat) : Str := [digit (n / 100000), digit (n / 10000), digit (n / 1000), digit (n / 100), digit (n / 10), digit n]

/-- The value of a sequence of digits. -/
def decimalValue (ds : Str) : Nat := ds.foldl (fun a c => 10 * a + (c.toNat - 48)) 0

/-- The usual decimal notation: a minus sign for negative numbers only, no superfluous zeros. -/
def DecimalText (n : Int) (t : Str) : Prop :=
  ∃ ds, t = (if n < 0 then '-' :: ds else ds) ∧ ds ≠ [] ∧ (∀ c ∈ ds, '0'.toNat ≤ c.toNat ∧ c.toNat ≤ '9'.toNat) ∧ decimalValue ds = n.natAbs ∧ (ds.head? = some '0' → ds = ['0'])

/-- ISO 8601, `YYYY-MM-DD`. -/
def isoDateText (d : DateTime) : Str := digits4 d.year ++ ['-'] ++ digits2 d.month ++ ['-'] ++ digits2 d.day
/-- ISO 8601, `YYYY-MM-DDThh:mm:ss`, with six digits of the second if they are not zero. -/
def isoText (d : DateTime) : Str :=
  isoDateText d ++ ['T'] ++ digits2 d.hour ++ [':'] ++ digits2 d.minute ++ [':'] ++ digits2 d.second ++ (if d.micro = 0 then [] else ['.'] ++ digits6 d.micro)

/-- What a format prints (years of four digits). -/
inductive Prints (d : DateTime) : Str → Str → Prop
  | nil : Prints d [] []
  | Y {f t} : Prints d f t → Prints d ('%' :: 'Y' :: f) (digits4 d.year ++ t)
  | y {f t} : Prints d f t → Prints d ('%' :: 'y' :: f) (digits2 d.year ++ t)
  | m {f t} : Prints d f t → Prints d ('%' :: 'm' :: f) (digits2 d.month ++ t)
  | d {f t} : Prints d f t → Prints d ('%' :: 'd' :: f) (digits2 d.day ++ t)
  | H {f t} : Prints d f t → Prints d ('%' :: 'H' :: f) (digits2 d.hour ++ t)
  | M {f t} : Prints d f t → Prints d ('%' :: 'M' :: f) (digits2 d.minute ++ t)
  | S {f t} : Prints d f t → Prints d ('%' :: 'S' :: f) (digits2 d.second ++ t)
  | f {f t} : Prints d f t → Prints d ('%' :: 'f' :: f) (digits6 d.micro ++ t)
  | percent {f t} : Prints d f t → Prints d ('%' :: '%' :: f) ('%' :: t)
  | ch {c f t} : c ≠ '%' → Prints d f t → Prints d (c :: f) (c :: t)

/-- The first match of the path, at the element with address `a`, holds the text. -/
def HoldsText (p : List Step) (a : Node.Addr) (s : Node) (t : Str) : Prop :=
  ∃ n x, s.get a = some n ∧ (Step.matches p n).head? = some x ∧ refText n x = some t

end Spec
