import Verif.XPath.Ast
/-
Serialisation of XPath ASTs, after eulxml/xpath/ast.py:56-330, on Python 3.
-/
namespace XPath

/-- `str.isprintable` of Python for characters outside ASCII (it depends on the Unicode data base of the
interpreter).  Kept as a parameter: theorems hold for every choice. -/
class PyUnicode where
  printable : Char → Bool

/-- A decimal digit character. -/
def digitChar (d : Nat) : Char := Char.ofNat (48 + d)

/-- Decimal digits of `n` in front of `acc`; `fuel > n` suffices. -/
def natStrAux : Nat → Nat → Str → Str
  | 0, _, acc => acc
  | fuel + 1, n, acc =>
    if n < 10 then digitChar n :: acc
    else natStrAux fuel (n / 10) (digitChar (n % 10) :: acc)

/-- Python `str(n)` for a non-negative integer. -/
def natStr (n : Nat) : Str := natStrAux (n + 1) n []

/-- Left-pad with zeros to width `w`. -/
def zeroPad (w : Nat) (s : Str) : Str := List.replicate (w - s.length) '0' ++ s

/-- Remove trailing decimal zeros of a positive number (`fuel` at least the number of digits). -/
def stripZeros : Nat → Nat → Nat
  | 0, m => m
  | fuel + 1, m => if m = 0 then 0 else if m % 10 = 0 then stripZeros fuel (m / 10) else m

/-- Is the value in the range in which Python prints a float positionally (`1e-4 <= x < 1e16`, or 0)? -/
def PyFloat.positional (f : PyFloat) : Bool :=
  f.mant == 0 || (decide (f.mant < 10 ^ (16 + f.scale)) && decide (10 ^ f.scale ≤ f.mant * 10000))

/-- Python `str(x)` of a float (shortest repr): positional, or `d.dddde±XX`. -/
def PyFloat.str (f : PyFloat) : Str :=
  if f.positional then
    natStr (f.mant / 10 ^ f.scale) ++ '.' ::
      (if f.scale = 0 then ['0'] else zeroPad f.scale (natStr (f.mant % 10 ^ f.scale)))
  else
    let ds := natStr (stripZeros f.mant f.mant)
    let n := (natStr f.mant).length
    let head := match ds with
      | [] => []
      | [d] => [d]
      | d :: rest => d :: '.' :: rest
    if n ≥ f.scale + 1 then head ++ 'e' :: '+' :: zeroPad 2 (natStr (n - 1 - f.scale))
    else head ++ 'e' :: '-' :: zeroPad 2 (natStr (f.scale + 1 - n))

/-- A hexadecimal digit, lower case. -/
def hexDigit (d : Nat) : Char := if d < 10 then Char.ofNat (48 + d) else Char.ofNat (87 + d)

/-- `w` hexadecimal digits of `n`. -/
def hexStr : Nat → Nat → Str
  | 0, _ => []
  | w + 1, n => hexStr w (n / 16) ++ [hexDigit (n % 16)]

/-- Is `c` printed unchanged by `repr` (apart from quotes and backslash)? -/
def isPrintable [PyUnicode] (c : Char) : Bool :=
  if c.toNat < 128 then decide (32 ≤ c.toNat) && decide (c.toNat < 127) else PyUnicode.printable c

/-- One character of Python's `repr(str)` with surrounding quote `q`. -/
def reprChar [PyUnicode] (q c : Char) : Str :=
  if c = q ∨ c = '\\' then ['\\', c]
  else if c = '\n' then ['\\', 'n']
  else if c = '\r' then ['\\', 'r']
  else if c = '\t' then ['\\', 't']
  else if isPrintable c then [c]
  else if c.toNat < 256 then '\\' :: 'x' :: hexStr 2 c.toNat
  else if c.toNat < 65536 then '\\' :: 'u' :: hexStr 4 c.toNat
  else '\\' :: 'U' :: hexStr 8 c.toNat

/-- The quote `repr` chooses: single, unless the string contains a single and no double quote. -/
def reprQuote (s : Str) : Char := if '\'' ∈ s ∧ '"' ∉ s then '"' else '\''

/-- `repr(s).lstrip('u')` (ast.py:67-72); on Python 3 there is no leading `u`. -/
def reprStr [PyUnicode] (s : Str) : Str :=
  reprQuote s :: (s.flatMap (reprChar (reprQuote s)) ++ [reprQuote s])

/-- The text of an operator: `op` of `BinaryExpression`. -/
def BinOp.text : BinOp → Str
  | .or => ['o', 'r'] | .and => ['a', 'n', 'd'] | .eq => ['='] | .ne => ['!', '='] | .lt => ['<']
  | .le => ['<', '='] | .gt => ['>'] | .ge => ['>', '='] | .plus => ['+'] | .minus => ['-']
  | .mult => ['*'] | .div => ['d', 'i', 'v'] | .mod => ['m', 'o', 'd'] | .union => ['|']
  | .slash => ['/'] | .dslash => ['/', '/']

/-- ast.py:97 `KEYWORDS = set(['or', 'and', 'div', 'mod'])`. -/
def BinOp.isKeyword : BinOp → Bool
  | .or | .and | .div | .mod => true
  | _ => false

/-- The operator part of `BinaryExpression._serialize` (ast.py:118-123). -/
def BinOp.ser (op : BinOp) : Str := if op.isKeyword then ' ' :: (op.text ++ [' ']) else op.text

/-- `if self.prefix: yield prefix; yield ':'` then the name (ast.py:229-232, 294-297, 317-320).
An empty prefix is falsy in Python. -/
def serQName (pfx : Option Str) (nm : Str) : Str :=
  match pfx with
  | some (c :: cs) => (c :: cs) ++ ':' :: nm
  | _ => nm

/-- `NameTest._serialize`, `NodeType._serialize` (ast.py:228-232, 252-258).  For a node type with a
literal the code yields `self.literal` once per token of the serialised literal, i.e. once, unquoted. -/
def NodeTest.ser : NodeTest → Str
  | .name pfx nm => serQName pfx nm
  | .type nm lit => nm ++ '(' :: (lit.getD [] ++ [')'])

/-- The axis part of `Step._serialize` (ast.py:198-202); an empty axis string is falsy. -/
def serAxis : Option Str → Str
  | none => []
  | some a => if a = ['@'] then ['@'] else if a = [] then [] else a ++ [':', ':']

mutual
/-- `serialize` (ast.py:56-74 and the `_serialize` methods). `AbsolutePath._serialize` serialises
`relative` even if it is `None`, giving the text `None` (ast.py:175-178). -/
def Expr.ser [PyUnicode] : Expr → Str
  | .lit s => reprStr s
  | .int n => natStr n
  | .float f => f.str
  | .neg e => '-' :: e.ser
  | .binary l op r => l.ser ++ (op.ser ++ r.ser)
  | .pred b ps => '(' :: (b.ser ++ ')' :: Expr.serPreds ps)
  | .root => ['/', 'N', 'o', 'n', 'e']
  | .abs dbl r => (if dbl then ['/', '/'] else ['/']) ++ r.ser
  | .step ax t ps => serAxis ax ++ (t.ser ++ Expr.serPreds ps)
  | .abbrev parent => if parent then ['.', '.'] else ['.']
  | .var pfx nm => '$' :: serQName pfx nm
  | .call pfx nm args => serQName pfx nm ++ '(' :: (Expr.serArgs args ++ [')'])
/-- `for pred in predicates: yield '['; ...; yield ']'` (ast.py:151-155, 207-211). -/
def Expr.serPreds [PyUnicode] : List Expr → Str
  | [] => []
  | p :: ps => '[' :: (p.ser ++ ']' :: Expr.serPreds ps)
/-- The arguments of a function call, separated by commas (ast.py:322-329). -/
def Expr.serArgs [PyUnicode] : List Expr → Str
  | [] => []
  | a :: as => a.ser ++ Expr.serArgsTail as
/-- `for arg in self.args[1:]: yield ','; ...` (ast.py:326-329). -/
def Expr.serArgsTail [PyUnicode] : List Expr → Str
  | [] => []
  | a :: as => ',' :: (a.ser ++ Expr.serArgsTail as)
end

end XPath
