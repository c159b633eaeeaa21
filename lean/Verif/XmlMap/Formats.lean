import Verif.XmlMap.Mappers
/-
Date and datetime mappers with a format given by the user (eulxml/xmlmap/fields.py:179-234), on top of models of CPython's
`datetime.strptime` and `strftime` for numeric formats.

Simplifications: the directives `%Y %y %m %d %H %M %S %f %%`, white space and other characters; names of months and days, `%p`, `%I`,
`%j`, week numbers and time zones are not modelled.  `strftime` as with glibc: `%Y` is not padded.
-/
namespace Fields
open Xml XPath

/-- A piece of a format: a directive or a character other than white space (`dir`), the two-digit year, or a run of white space. -/
inductive FTok where
  | dir (x : Directive)
  | year2
  | space (run : Str)
  deriving DecidableEq, Repr

/-- The directive of a letter after `%`. -/
def directiveOf (c : Char) : Option FTok :=
  if c = 'Y' then some (.dir .Y) else if c = 'm' then some (.dir .m) else if c = 'd' then some (.dir .d)
  else if c = 'H' then some (.dir .H) else if c = 'M' then some (.dir .M) else if c = 'S' then some (.dir .S)
  else if c = 'f' then some (.dir .f) else if c = 'y' then some .year2 else if c = '%' then some (.dir (.ch '%'))
  else none

/-- Add a white space character in front. -/
def consSpace (c : Char) : List FTok → List FTok
  | .space run :: ts => .space (c :: run) :: ts
  | ts => .space [c] :: ts

/-- CPython `_strptime.TimeRE.pattern`: the pieces of a format; `none` for formats that are not modelled or not valid. -/
def parseFormat : Str → Option (List FTok)
  | [] => some []
  | c :: s =>
    if c = '%' then match s with
      | [] => none
      | x :: s' => match directiveOf x, parseFormat s' with
        | some t, some ts => some (t :: ts)
        | _, _ => none
    else match parseFormat s with
      | some ts => some (if isPySpace c then consSpace c ts else .dir (.ch c) :: ts)
      | none => none

/-- `\s+`: the rests after one or more white space characters, longest match first. -/
def spaces : Str → List Str
  | [] => []
  | c :: s => if isPySpace c then spaces s ++ [s] else []

/-- The ways to match a piece: what is stored, and the rest. -/
def FTok.alts : FTok → Str → List ((DateTime → DateTime) × Str)
  | .dir x, s => (x.alts s).map (fun p => (x.store p.1, p.2))
  | .year2, s => (two isDigit isDigit s).map (fun p => (fun d => { d with year := if digitsVal p.1 ≤ 68 then 2000 + digitsVal p.1 else 1900 + digitsVal p.1 }, p.2))
  | .space _, s => (spaces s).map (fun r => (id, r))

/-- All ways to match a format, in the order of the backtracking matcher. -/
def matchPieces : List FTok → Str → DateTime → List (DateTime × Str)
  | [], s, d => [(d, s)]
  | t :: ts, s, d => (t.alts s).flatMap (fun p => matchPieces ts p.2 (p.1 d))

/-- The pieces that become named groups of the regular expression. -/
def FTok.named : FTok → Bool
  | .dir (.ch _) => false
  | .dir _ => true
  | .year2 => true
  | .space _ => false

/-- `datetime.strptime(s, format)`.  A directive that occurs twice makes the regular expression invalid (`re.error`). -/
def strptimeAny (fmt : List FTok) (s : Str) : Except PyErr DateTime :=
  if ¬ (fmt.filter FTok.named).Nodup then .error .exception
  else match matchPieces fmt s ⟨1900, 1, 1, 0, 0, 0, 0⟩ with
  | (d, []) :: _ => if d.valid then .ok d else .error .valueError
  | _ => .error .valueError

/-- What a piece prints. -/
def FTok.print (d : DateTime) : FTok → Str
  | .dir .Y => natStr d.year
  | .dir .m => pad 2 d.month
  | .dir .d => pad 2 d.day
  | .dir .H => pad 2 d.hour
  | .dir .M => pad 2 d.minute
  | .dir .S => pad 2 d.second
  | .dir .f => pad 6 d.micro
  | .dir (.ch c) => [c]
  | .year2 => pad 2 (d.year % 100)
  | .space run => run

/-- `d.strftime(format)` -/
def strftimeAny (fmt : List FTok) (d : DateTime) : Str := fmt.flatMap (FTok.print d)

/-- fields.py:187-207 `DateTimeMapper.to_python` with a format: time zones are stripped before the format is looked at. -/
def dateTimeFmtToPython (fmt : List FTok) (normalize : Bool) : Option Item → Except PyErr (Option DateTime)
  | none => .ok none
  | some (.str s) => go s
  | some (.elem n) => go (if normalize then normSpace n.strVal else n.strVal)
  | some _ => .error .typeError
where
  /-- fields.py:194-200 -/
  go (rep : Str) : Except PyErr (Option DateTime) := match stripTz (stripZ rep) with
    | .error e => .error e
    | .ok rep => (strptimeAny fmt rep).map some

/-- fields.py:209-215 `DateTimeMapper.to_xml` with a format. -/
def dateTimeFmtToXml (fmt : List FTok) : Option DateTime → Except PyErr (Option Str)
  | none => .error .attributeError
  | some d => .ok (some (strftimeAny fmt d))

/-- The date of a datetime. -/
def DateTime.dateOf (d : DateTime) : DateTime := { d with hour := 0, minute := 0, second := 0, micro := 0 }

/-- fields.py:225-234 `DateMapper.to_python` with a format: `date(dt.year, dt.month, dt.day)`. -/
def dateFmtToPython (fmt : List FTok) : Option Item → Except PyErr (Option DateTime)
  | none => .ok none
  | some (.str s) => (strptimeAny fmt s).map (fun d => some d.dateOf)
  | some (.elem n) => match n.text with
    | some s => (strptimeAny fmt s).map (fun d => some d.dateOf)
    | none => .error .typeError
  | some _ => .error .nameError

/-- fields.py:209-215 with a format, on a date (time directives print zeros). -/
def dateFmtToXml (fmt : List FTok) : Option DateTime → Except PyErr (Option Str)
  | none => .error .attributeError
  | some d => .ok (some (strftimeAny fmt d.dateOf))

end Fields
