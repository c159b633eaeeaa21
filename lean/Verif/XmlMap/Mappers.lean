import Verif.XmlMap.Fields
/-
Model of the data mappers of eulxml/xmlmap/fields.py (lines 91-253), for Python 3.

`FloatMapper` (128-140) and custom date formats are not modelled.
-/
namespace Fields
open Xml XPath

/-- What `mapper.to_python` receives if not `None`: an element, a string (attribute, text node, or string result), a
number or a boolean. -/
inductive Item where
  | elem (n : Node)
  | str (s : Str)
  | num (x : XNum)
  | bool (b : Bool)
  deriving DecidableEq, Repr

/-- The object behind a found node in the current document (found nodes exist). -/
def itemOf (doc : Node) : Found → Option Item
  | .ref (.elem a) => (doc.get a).map .elem
  | .ref (.attr a q) => ((doc.get a).bind (Node.attr? q)).map .str
  | .ref (.text a) => ((doc.get a).bind Node.text).map .str
  | .ref (.tail a) => ((doc.get a).bind Node.tail).map .str
  | .str s => some (.str s)
  | .num x => some (.num x)
  | .bool b => some (.bool b)

/-- fields.py:91-97 `Mapper.to_xml` on strings. -/
def strToXml (v : Option Str) : Except PyErr (Option Str) := .ok v

/-- XML white space. -/
def isXmlSpace (c : Char) : Bool := c == ' ' || c == '\t' || c == '\n' || c == '\r'

/-- libxml2 `normalize-space`: strip, and write one blank for each inner run of white space.  `pending` says that a blank
is due before the next character. -/
def normSpaceGo : Bool → Str → Str
  | _, [] => []
  | pending, c :: s =>
    if isXmlSpace c then normSpaceGo pending s
    else if pending then ' ' :: c :: normSpaceTail s
    else c :: normSpaceTail s
where
  /-- Behind a non-blank character. -/
  normSpaceTail : Str → Str
  | [] => []
  | c :: s => if isXmlSpace c then normSpaceGo true s else c :: normSpaceTail s

/-- `normalize-space(s)`. -/
def normSpace (s : Str) : Str := normSpaceGo false s

/-- fields.py:100-111 `StringMapper`: string nodes are returned as they are; elements by `string()`, with
`normalize-space` if asked for; numbers and booleans are no valid argument of `etree.XPath.__call__`. -/
def strToPython (normalize : Bool) : Option Item → Except PyErr (Option Str)
  | none => .ok none
  | some (.str s) => .ok (some s)
  | some (.elem n) => .ok (some (if normalize then normSpace n.strVal else n.strVal))
  | some _ => .error .typeError

/-! ### integers -/

/-- `str(n)` of a Python int. -/
def intStr (n : Int) : Str := if n < 0 then '-' :: natStr n.natAbs else natStr n.natAbs

/-- White space removed by `int(s)`. Simplification: ASCII only. -/
def isPySpace (c : Char) : Bool := isXmlSpace c || c.toNat == 11 || c.toNat == 12 || (28 ≤ c.toNat && c.toNat ≤ 31)

/-- `s.strip()`. -/
def pyStrip (s : Str) : Str := ((s.dropWhile isPySpace).reverse.dropWhile isPySpace).reverse

/-- Digits with single underscores between them, as `int` accepts. Simplification: ASCII digits only. -/
def pyDigits : Str → Option Str
  | [] => none
  | [c] => if isDigit c then some [c] else none
  | c :: d :: s =>
    if isDigit c then
      if d = '_' then (pyDigits s).map (c :: ·) else (pyDigits (d :: s)).map (c :: ·)
    else none

/-- Python `int(s)`; `none` is `ValueError`. -/
def pyInt (s : Str) : Option Int := match pyStrip s with
  | [] => none
  | c :: r =>
    if c = '-' then (pyDigits r).map (fun d => -(digitsVal d : Int))
    else if c = '+' then (pyDigits r).map (fun d => (digitsVal d : Int))
    else (pyDigits (c :: r)).map (fun d => (digitsVal d : Int))

/-- Python `int(x)` of a float: truncation; `ValueError` for NaN, `OverflowError` for infinities. -/
def intOfNum : XNum → Except PyErr Int
  | .nan => .error .valueError
  | .inf _ => .error .overflowError
  | .dec neg m k => .ok (if neg then -((m / 10 ^ k : Nat) : Int) else ((m / 10 ^ k : Nat) : Int))

/-- `except ValueError: return None` (fields.py:124-126). -/
def orNone {α} : Except PyErr α → Except PyErr (Option α)
  | .ok x => .ok (some x)
  | .error .valueError => .ok none
  | .error e => .error e

/-- fields.py:113-126 `IntegerMapper.to_python`, with libxml2's `number()` of a string as a parameter.  A boolean is no valid
argument of `etree.XPath.__call__`. -/
def intToPython (number : Str → XNum) : Option Item → Except PyErr (Option Int)
  | none => .ok none
  | some (.str s) => orNone (match pyInt s with | some n => .ok n | none => .error .valueError)
  | some (.num x) => orNone (intOfNum x)
  | some (.elem n) => orNone (intOfNum (number n.strVal))
  | some (.bool _) => .error .typeError

/-- `Mapper.to_xml` on integers: `str(n)`. -/
def intToXml (v : Option Int) : Except PyErr (Option Str) := .ok (v.map intStr)

/-! ### booleans -/

/-- fields.py:142-168 `SimpleBooleanMapper.to_python`; `t`, `f` are `str(self.true)` and `str(self.false)`. -/
def boolToPython (t : Str) (f : Option Str) (x : Option Item) : Except PyErr (Option Bool) :=
  let decide (value : Str) : Except PyErr (Option Bool) :=
    if value = t then .ok (some true)
    else if some value = f then .ok (some false)
    else .error .exception
  match x with
  | none => if f = none then .ok (some false) else .ok none
  | some (.str s) => decide s
  | some (.elem n) => decide n.strVal
  | some _ => .error .typeError

/-- fields.py:170-176 `SimpleBooleanMapper.to_xml`; `None` is falsy. -/
def boolToXml (t : Str) (f : Option Str) : Option Bool → Except PyErr (Option Str)
  | some true => .ok (some t)
  | _ => .ok f

/-! ### dates -/

/-- A naive `datetime.datetime`. -/
structure DateTime where
  year : Nat
  month : Nat
  day : Nat
  hour : Nat
  minute : Nat
  second : Nat
  micro : Nat
  deriving DecidableEq, Repr

/-- Days in a month (proleptic Gregorian calendar, CPython `_days_in_month`). -/
def daysInMonth (y m : Nat) : Nat :=
  if m = 2 then (if y % 4 = 0 ∧ (y % 100 ≠ 0 ∨ y % 400 = 0) then 29 else 28)
  else if m = 4 ∨ m = 6 ∨ m = 9 ∨ m = 11 then 30 else 31

/-- The values the `datetime` constructor accepts. -/
def DateTime.valid (d : DateTime) : Bool :=
  1 ≤ d.year && d.year ≤ 9999 && 1 ≤ d.month && d.month ≤ 12 && 1 ≤ d.day && d.day ≤ daysInMonth d.year d.month
    && d.hour < 24 && d.minute < 60 && d.second < 60 && d.micro < 1000000

/-- `'%0wd' % n`. -/
def pad (w n : Nat) : Str := zeroPad w (natStr n)

/-- `datetime.isoformat()`. -/
def isoformat (d : DateTime) : Str :=
  pad 4 d.year ++ '-' :: pad 2 d.month ++ '-' :: pad 2 d.day ++ 'T' :: pad 2 d.hour ++ ':' :: pad 2 d.minute
    ++ ':' :: pad 2 d.second ++ (if d.micro = 0 then [] else '.' :: pad 6 d.micro)

/-- `d.strftime('%Y-%m-%d')` with glibc: the year is not padded. -/
def strftimeDate (d : DateTime) : Str := natStr d.year ++ '-' :: pad 2 d.month ++ '-' :: pad 2 d.day

/-- Directives of the formats in use. -/
inductive Directive where
  | Y | m | d | H | M | S | f
  | ch (c : Char)
  deriving DecidableEq, Repr

/-- A single digit between two bounds. -/
def digitIn (lo hi : Nat) (c : Char) : Bool := isDigit c && decide (lo ≤ c.toNat - 48) && decide (c.toNat - 48 ≤ hi)

/-- Two characters matching digit ranges. -/
def two (p q : Char → Bool) : Str → List (Str × Str)
  | a :: b :: r => if p a && q b then [([a, b], r)] else []
  | _ => []
/-- One character matching a range. -/
def one (p : Char → Bool) : Str → List (Str × Str)
  | a :: r => if p a then [([a], r)] else []
  | _ => []

/-- A letter ignoring case (the pattern is compiled with IGNORECASE). Simplification: ASCII. -/
def lowerAscii (c : Char) : Char := if 65 ≤ c.toNat && c.toNat ≤ 90 then Char.ofNat (c.toNat + 32) else c

/-- `[0-9]{1,k}`: longest first. -/
def upTo : Nat → Str → List (Str × Str)
  | 0, _ => []
  | k + 1, c :: r => if isDigit c then (upTo k r).map (fun p => (c :: p.1, p.2)) ++ [([c], r)] else []
  | _, [] => []

/-- The alternatives of the regular expression of a directive in CPython `_strptime.TimeRE`, in the order in which they
are tried: matched text and rest. Simplification: ASCII digits only. -/
def Directive.alts : Directive → Str → List (Str × Str)
  | .Y, s => match s with
    | a :: b :: c :: e :: r => if isDigit a && isDigit b && isDigit c && isDigit e then [([a, b, c, e], r)] else []
    | _ => []
  | .m, s => two (digitIn 1 1) (digitIn 0 2) s ++ (two (digitIn 0 0) (digitIn 1 9) s ++ one (digitIn 1 9) s)
  | .d, s => two (digitIn 3 3) (digitIn 0 1) s ++ (two (digitIn 1 2) isDigit s ++ (two (digitIn 0 0) (digitIn 1 9) s
      ++ (one (digitIn 1 9) s ++ two (fun c => c == ' ') (digitIn 1 9) s)))
  | .H, s => two (digitIn 2 2) (digitIn 0 3) s ++ (two (digitIn 0 1) isDigit s ++ one isDigit s)
  | .M, s => two (digitIn 0 5) isDigit s ++ one isDigit s
  | .S, s => two (digitIn 6 6) (digitIn 0 1) s ++ (two (digitIn 0 5) isDigit s ++ one isDigit s)
  | .f, s => upTo 6 s
  | .ch c, s => match s with
    | a :: r => if lowerAscii a = lowerAscii c then [([], r)] else []
    | [] => []

/-- The value of the matched text; `%f` is padded on the right. -/
def Directive.store (x : Directive) (t : Str) (d : DateTime) : DateTime :=
  let v := digitsVal (t.filter isDigit)
  match x with
  | .Y => { d with year := v } | .m => { d with month := v } | .d => { d with day := v }
  | .H => { d with hour := v } | .M => { d with minute := v } | .S => { d with second := v }
  | .f => { d with micro := digitsVal (t ++ List.replicate (6 - t.length) '0') }
  | .ch _ => d

/-- All ways to match a format, in the order of the backtracking matcher. -/
def matchFormat : List Directive → Str → DateTime → List (DateTime × Str)
  | [], s, d => [(d, s)]
  | x :: xs, s, d => (x.alts s).flatMap (fun p => matchFormat xs p.2 (x.store p.1 d))

/-- `datetime.strptime(s, format)`: `ValueError` if there is no match, data remain, or the values are out of range. -/
def strptime (fmt : List Directive) (s : Str) : Except PyErr DateTime :=
  match matchFormat fmt s ⟨1900, 1, 1, 0, 0, 0, 0⟩ with
  | (d, []) :: _ => if d.valid then .ok d else .error .valueError
  | _ => .error .valueError

/-- `'%Y-%m-%d'` -/
def fmtDate : List Directive := [.Y, .ch '-', .m, .ch '-', .d]
/-- `'%Y-%m-%dT%H:%M:%S'` -/
def fmtDateTime : List Directive := fmtDate ++ [.ch 'T', .H, .ch ':', .M, .ch ':', .S]
/-- `'%Y-%m-%dT%H:%M:%S.%f'` -/
def fmtMicro : List Directive := fmtDateTime ++ [.ch '.', .f]

/-- fields.py:194-195: strip `Z`. -/
def stripZ (rep : Str) : Str := if rep.getLast? = some 'Z' then rep.dropLast else rep

/-- fields.py:196-197: `if rep[-6] in '+-': rep = rep[:-6]`, with `IndexError` for short strings. -/
def stripTz (rep : Str) : Except PyErr Str :=
  if rep.length < 6 then .error .indexError
  else match rep[rep.length - 6]? with
    | some c => .ok (if c = '+' ∨ c = '-' then rep.take (rep.length - 6) else rep)
    | none => .error .indexError

/-- fields.py:187-207 `DateTimeMapper.to_python` without format. -/
def dateTimeParse (rep : Str) : Except PyErr DateTime :=
  match stripTz (stripZ rep) with
  | .error e => .error e
  | .ok rep => match strptime fmtDateTime rep with
    | .ok d => .ok d
    | .error .valueError => strptime fmtMicro rep
    | .error e => .error e

/-- fields.py:187-207 `DateTimeMapper.to_python` without format. -/
def dateTimeToPython (normalize : Bool) : Option Item → Except PyErr (Option DateTime)
  | none => .ok none
  | some (.str s) => (dateTimeParse s).map some
  | some (.elem n) => (dateTimeParse (if normalize then normSpace n.strVal else n.strVal)).map some
  | some _ => .error .typeError

/-- fields.py:209-215 `DateTimeMapper.to_xml` without format: `None` has no `isoformat`. -/
def dateTimeToXml : Option DateTime → Except PyErr (Option Str)
  | none => .error .attributeError
  | some d => .ok (some (isoformat d))

/-- fields.py:225-234 `DateMapper.to_python` in the default format: of an element, `node.text`; the time fields of the
result are 0.  `rep` is unbound for numbers and booleans. -/
def dateToPython : Option Item → Except PyErr (Option DateTime)
  | none => .ok none
  | some (.str s) => (strptime fmtDate s).map some
  | some (.elem n) => match n.text with
    | some s => (strptime fmtDate s).map some
    | none => .error .typeError
  | some _ => .error .nameError

/-- fields.py:209-215 with format `%Y-%m-%d`: `None` has no `strftime`. -/
def dateToXml : Option DateTime → Except PyErr (Option Str)
  | none => .error .attributeError
  | some d => .ok (some (strftimeDate d))

end Fields
