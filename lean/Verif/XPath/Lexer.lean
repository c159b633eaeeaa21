import Verif.XPath.Ast
/-
The XPath lexer: eulxml/xpath/lexrules.py under PLY's rule ordering, and the stateful wrapper of
eulxml/xpath/core.py:60-116.

PLY tries function rules in source order (LITERAL, FLOAT, INTEGER), then string rules by decreasing
length of their regular expression (NCNAME, `[<>]=?`, `\.\.`, `!?=`, the two-character ones including
`//` and `::`, then the one-character ones); the first alternative that matches wins.  `rawTok` below
follows that order; rules whose first characters are disjoint are dispatched on the first character.
-/
namespace XPath

/-- Tokens, with the names of lexrules.py:32-60 (types) and their values. -/
inductive Tok where
  | pathSep | abbrevPathSep | stepSelf | stepParent | axisSep | axisAt
  | openParen | closeParen | openBracket | closeBracket
  | unionOp | equalOp (neg : Bool) | relOp (gt : Bool) (orEq : Bool)
  | plusOp | minusOp | multOp | starOp | comma
  | literal (s : Str) | float (f : PyFloat) | integer (n : Nat)
  | ncname (s : Str) | nodeType (s : Str) | funcName (s : Str) | axisName (s : Str)
  | colon | dollar | orOp | andOp | divOp | modOp
  deriving DecidableEq, Repr

/-- `n ≤ c ≤ m` on code points. -/
def inRange (c : Char) (n m : Nat) : Bool := decide (n ≤ c.toNat) && decide (c.toNat ≤ m)

/-- The single-character alternatives of `NameStartChar`/`Full_NameStartChar` (lexrules.py:100-104).
The alternative written `\xc0-\xd6]` lacks its opening bracket and therefore is not a class: see
`startsBroken`. -/
def isNameStart (c : Char) : Bool :=
  inRange c 0x41 0x5A || c == '_' || inRange c 0x61 0x7A || inRange c 0xD8 0xF6 || inRange c 0xF8 0x2FF
  || inRange c 0x370 0x37D || inRange c 0x37F 0x1FFF || inRange c 0x200C 0x200D || inRange c 0x2070 0x218F
  || inRange c 0x2C00 0x2FEF || inRange c 0x3001 0xD7FF || inRange c 0xF900 0xFDCF || inRange c 0xFDF0 0xFFFD
  || inRange c 0x10000 0xEFFFF

/-- `NameChar_extras` (lexrules.py:106): `[-.0-9\xb7\u0300-\u036f\u203f-\u2040]`. -/
def isNameExtra (c : Char) : Bool :=
  c == '-' || c == '.' || inRange c 0x30 0x39 || inRange c 0xB7 0xB7 || inRange c 0x300 0x36F
  || inRange c 0x203F 0x2040

def isNameChar (c : Char) : Bool := isNameStart c || isNameExtra c

/-- Does the input start with the text `À-Ö]`?  It is all that the broken alternative `\xc0-\xd6]`
(lexrules.py:100) matches. -/
def startsBroken (s : Str) : Bool := s.take 4 == ['À', '-', 'Ö', ']']

/-- `(NameStartChar|NameChar_extras)*` (lexrules.py:119-120): greedy, as (matched, rest), including the
broken alternative `\xc0-\xd6]`, which matches the four-character text `À-Ö]`; `k` is the number of
characters of such a text still to be consumed. -/
def nameTailK : Nat → Str → Str × Str
  | _, [] => ([], [])
  | k + 1, c :: cs => (c :: (nameTailK k cs).1, (nameTailK k cs).2)
  | 0, c :: cs =>
    if isNameChar c then (c :: (nameTailK 0 cs).1, (nameTailK 0 cs).2)
    else if startsBroken (c :: cs) then (c :: (nameTailK 3 cs).1, (nameTailK 3 cs).2)
    else ([], c :: cs)

/-- `nameTailK` at a character boundary. -/
def nameTail (s : Str) : Str × Str := nameTailK 0 s

/-- `NCNAME_REGEX` (lexrules.py:119-124). -/
def ncname : Str → Option (Str × Str)
  | [] => none
  | c :: cs =>
    if isNameStart c then some (c :: (nameTail cs).1, (nameTail cs).2)
    else if startsBroken (c :: cs) then some (c :: (nameTailK 3 cs).1, (nameTailK 3 cs).2)
    else none

/-- `\d`.  Simplification: ASCII digits only (with `re.UNICODE` Python's `\d` also matches other
decimal digits). -/
def isDigit (c : Char) : Bool := inRange c 0x30 0x39

/-- `\d*`, greedy. -/
def spanDigits : Str → Str × Str
  | [] => ([], [])
  | c :: cs => if isDigit c then (c :: (spanDigits cs).1, (spanDigits cs).2) else ([], c :: cs)

/-- Value of a digit string, `int(...)`. -/
def digitsVal (ds : Str) : Nat := ds.foldl (fun a c => 10 * a + (c.toNat - 48)) 0

/-- Remove trailing zeros of a digit string. -/
def dropTrailingZeros (ds : Str) : Str := (ds.reverse.dropWhile (· == '0')).reverse

/-- `float(...)` of integer digits and fraction digits (see `PyFloat` for the simplification). -/
def mkFloat (ds fs : Str) : PyFloat :=
  ⟨digitsVal (ds ++ dropTrailingZeros fs), (dropTrailingZeros fs).length⟩

/-- Text up to the closing quote `q`, and what follows it (`[^q]*q`). -/
def spanQuote (q : Char) : Str → Option (Str × Str)
  | [] => none
  | c :: cs => if c = q then some ([], cs) else
      match spanQuote q cs with
      | none => none
      | some (v, r) => some (c :: v, r)

/-- Drop `x` from the head of the input, if it is there. -/
def eat (x : Char) : Str → Option Str
  | [] => none
  | c :: cs => if c = x then some cs else none

/-- The two-character operator rules (lexrules.py:62-80): second character and token. -/
def sym2 (c : Char) : Option (Char × Tok) :=
  if c = '<' then some ('=', .relOp false true)
  else if c = '>' then some ('=', .relOp true true)
  else if c = '!' then some ('=', .equalOp true)
  else if c = '/' then some ('/', .abbrevPathSep)
  else if c = ':' then some (':', .axisSep)
  else none

/-- The one-character operator rules (lexrules.py:62-80). -/
def sym1 (c : Char) : Option Tok :=
  if c = '<' then some (.relOp false false)
  else if c = '>' then some (.relOp true false)
  else if c = '=' then some (.equalOp false)
  else if c = '/' then some .pathSep
  else if c = ':' then some .colon
  else if c = '@' then some .axisAt
  else if c = '(' then some .openParen
  else if c = ')' then some .closeParen
  else if c = '[' then some .openBracket
  else if c = ']' then some .closeBracket
  else if c = '|' then some .unionOp
  else if c = '+' then some .plusOp
  else if c = '-' then some .minusOp
  else if c = ',' then some .comma
  else if c = '$' then some .dollar
  else if c = '*' then some .starOp
  else none

/-- The operator rules: two characters if possible, else one. -/
def symTok (c : Char) (cs : Str) : Option (Tok × Str) :=
  match (sym2 c).bind (fun p => (eat p.1 cs).map fun r => (p.2, r)) with
  | some q => some q
  | none => (sym1 c).map fun t => (t, cs)

/-- One PLY match at the head of the input; `none` is `t_error` (lexrules.py:141-142). -/
def rawTok : Str → Option (Tok × Str)
  | [] => none
  | c :: cs =>
    if c = '"' ∨ c = '\'' then                                   -- t_LITERAL
      match spanQuote c cs with
      | some (v, r) => some (.literal v, r)
      | none => none
    else if isDigit c then                                        -- t_FLOAT (first form), t_INTEGER
      match eat '.' (spanDigits cs).2 with
      | some r => some (.float (mkFloat (c :: (spanDigits cs).1) (spanDigits r).1), (spanDigits r).2)
      | none => some (.integer (digitsVal (c :: (spanDigits cs).1)), (spanDigits cs).2)
    else if c = '.' then                                          -- t_FLOAT (second form), `..`, `.`
      if (spanDigits cs).1 ≠ [] then some (.float (mkFloat [] (spanDigits cs).1), (spanDigits cs).2)
      else match eat '.' cs with
        | some r => some (.stepParent, r)
        | none => some (.stepSelf, cs)
    else match ncname (c :: cs) with                              -- t_NCNAME
      | some (nm, r) => some (.ncname nm, r)
      | none => symTok c cs

/-- `t_ignore` (lexrules.py:82). -/
def isWs (c : Char) : Bool := c == ' ' || c == '\t' || c == '\r' || c == '\n'

/-- PLY's token loop: skip ignored characters, match one token, repeat.  The flag tells whether the
stream ends with `t_error` (a lexical error).  `fuel > length` suffices; every token is non-empty. -/
def rawLexN : Nat → Str → List Tok × Bool
  | 0, _ => ([], true)
  | _ + 1, [] => ([], false)
  | fuel + 1, c :: cs =>
    if isWs c then rawLexN fuel cs
    else match rawTok (c :: cs) with
      | none => ([], true)
      | some (t, r) => (t :: (rawLexN fuel r).1, (rawLexN fuel r).2)

/-- The raw token stream of a string. -/
def rawLex (s : Str) : List Tok × Bool := rawLexN (s.length + 1) s

/-- `OPERATOR_FORCERS` (core.py:60-78).  `COMMA` and `DOLLAR` are not in the set. -/
def Tok.isForcer : Tok → Bool
  | .axisAt | .axisSep | .openParen | .openBracket
  | .andOp | .orOp | .modOp | .divOp | .multOp
  | .pathSep | .abbrevPathSep | .unionOp | .plusOp | .minusOp
  | .equalOp _ | .relOp _ _ | .colon => true
  | _ => false

/-- `self.last is not None and self.last.type not in OPERATOR_FORCERS` (core.py:88, 93). -/
def blocked : Option Tok → Bool
  | none => false
  | some t => !t.isForcer

/-- `lexrules.operator_names` (lexrules.py:25-30). -/
def operatorName (s : Str) : Option Tok :=
  if s = ['o', 'r'] then some .orOp
  else if s = ['a', 'n', 'd'] then some .andOp
  else if s = ['d', 'i', 'v'] then some .divOp
  else if s = ['m', 'o', 'd'] then some .modOp
  else none

/-- `NODE_TYPES` (core.py:80). -/
def isNodeType (s : Str) : Bool :=
  s == ['c','o','m','m','e','n','t'] || s == ['t','e','x','t'] ||
  s == ['p','r','o','c','e','s','s','i','n','g','-','i','n','s','t','r','u','c','t','i','o','n'] ||
  s == ['n','o','d','e']

/-- Does `peek` (core.py:114-116) run into a lexical error?  The clone's `token()` peeks again as long
as it sees names. -/
def peekErr : List Tok → Bool → Bool
  | [], err => err
  | .ncname _ :: ts, err => peekErr ts err
  | _ :: _, _ => false

/-- The type an unblocked name gets from the following token (core.py:99-109). -/
def nameByNext (s : Str) : Option Tok → Tok
  | some .openParen => if isNodeType s then .nodeType s else .funcName s
  | some .axisSep => .axisName s
  | _ => .ncname s

/-- `LexerWrapper.token` (core.py:83-112) iterated over the raw tokens, starting from the wrapper state
`last`.  The raw token stream does not depend on the wrapper, so lexing on demand and lexing ahead give
the same tokens; the flag again marks a stream that ends in a lexical error (which `peek` may report
before the names that precede it). -/
def classify : Option Tok → List Tok → Bool → List Tok × Bool
  | _, [], err => ([], err)
  | last, .starOp :: ts, err =>
    let t := if blocked last then Tok.multOp else Tok.starOp
    (t :: (classify (some t) ts err).1, (classify (some t) ts err).2)
  | last, .ncname s :: ts, err =>
    if blocked last then
      let t := (operatorName s).getD (.ncname s)
      (t :: (classify (some t) ts err).1, (classify (some t) ts err).2)
    else if peekErr ts err then ([], true)
    else
      let t := nameByNext s ts.head?
      (t :: (classify (some t) ts err).1, (classify (some t) ts err).2)
  | _, t :: ts, err => (t :: (classify (some t) ts err).1, (classify (some t) ts err).2)

/-- The tokens the parser sees for input `s` when the wrapper state is `last`. -/
def lex (last : Option Tok) (s : Str) : List Tok × Bool := classify last (rawLex s).1 (rawLex s).2

end XPath
