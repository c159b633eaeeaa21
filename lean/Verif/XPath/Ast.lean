import Verif.Basic
/-
XPath abstract syntax, after eulxml/xpath/ast.py.
-/
namespace XPath

/-- A Python `float` produced by the lexer (lexrules.py:131-134, `float(t.value)`), as the exact decimal
`mant / 10^scale` written in the source.  Simplification: rounding to binary64 is not modelled, so the
model is exact for literals of at most 15 significant digits, where `str(float(x))` gives the digits of
`x` back.  Normal form (`norm`): no trailing zero in the fractional part. -/
structure PyFloat where
  mant : Nat
  scale : Nat
  deriving DecidableEq, Repr

/-- Operators of `BinaryExpression` (parserules.py:42-55, 67-72, 111-116); `op` is the token text. -/
inductive BinOp where
  | or | and | eq | ne | lt | le | gt | ge | plus | minus | mult | div | mod | union | slash | dslash
  deriving DecidableEq, Repr

/-- Node tests: `NameTest(prefix, name)` (ast.py:214-235, name may be `*`) and
`NodeType(name, literal)` (ast.py:237-261). -/
inductive NodeTest where
  | name (pfx : Option Str) (nm : Str)
  | type (nm : Str) (lit : Option Str)
  deriving DecidableEq, Repr

/-- XPath AST nodes (ast.py:77-330).  Literals, integers and floats are plain Python values there.
`root` is `AbsolutePath('/')` with `relative=None`, `abs dbl r` is `AbsolutePath('/' or '//', r)`.
`abbrev false` is `.`, `abbrev true` is `..`.  `neg e` is `UnaryExpression('-', e)`.
`step.axis` is Python's `None`, `'@'` or an axis name. -/
inductive Expr where
  | lit (s : Str)
  | int (n : Nat)
  | float (f : PyFloat)
  | neg (e : Expr)
  | binary (l : Expr) (op : BinOp) (r : Expr)
  | pred (base : Expr) (preds : List Expr)
  | root
  | abs (dbl : Bool) (rel : Expr)
  | step (axis : Option Str) (test : NodeTest) (preds : List Expr)
  | abbrev (parent : Bool)
  | var (pfx : Option Str) (nm : Str)
  | call (pfx : Option Str) (nm : Str) (args : List Expr)
  deriving Repr

mutual
/-- Structural equality test on ASTs (Python compares them by identity; used only to decide equations). -/
def Expr.beq : Expr → Expr → Bool
  | .lit a, .lit b => a == b
  | .int a, .int b => a == b
  | .float a, .float b => a == b
  | .neg a, .neg b => a.beq b
  | .binary l o r, .binary l' o' r' => l.beq l' && o == o' && r.beq r'
  | .pred b ps, .pred b' ps' => b.beq b' && Expr.beqL ps ps'
  | .root, .root => true
  | .abs d r, .abs d' r' => d == d' && r.beq r'
  | .step a t ps, .step a' t' ps' => a == a' && t == t' && Expr.beqL ps ps'
  | .abbrev a, .abbrev b => a == b
  | .var p n, .var p' n' => p == p' && n == n'
  | .call p n as, .call p' n' as' => p == p' && n == n' && Expr.beqL as as'
  | _, _ => false
/-- Equality test on lists of ASTs. -/
def Expr.beqL : List Expr → List Expr → Bool
  | [], [] => true
  | a :: as, b :: bs => a.beq b && Expr.beqL as bs
  | _, _ => false
end

mutual
theorem Expr.beq_iff : ∀ a b : Expr, a.beq b = true ↔ a = b
  | .lit _, b => by cases b <;> simp [Expr.beq]
  | .int _, b => by cases b <;> simp [Expr.beq]
  | .float _, b => by cases b <;> simp [Expr.beq]
  | .neg a, b => by cases b <;> simp [Expr.beq, Expr.beq_iff a]
  | .binary l o r, b => by cases b <;> simp [Expr.beq, Expr.beq_iff l, Expr.beq_iff r, and_assoc]
  | .pred a ps, b => by cases b <;> simp [Expr.beq, Expr.beq_iff a, Expr.beqL_iff ps]
  | .root, b => by cases b <;> simp [Expr.beq]
  | .abs d r, b => by cases b <;> simp [Expr.beq, Expr.beq_iff r]
  | .step a t ps, b => by cases b <;> simp [Expr.beq, Expr.beqL_iff ps, and_assoc]
  | .abbrev a, b => by cases b <;> simp [Expr.beq]
  | .var p n, b => by cases b <;> simp [Expr.beq]
  | .call p n as, b => by cases b <;> simp [Expr.beq, Expr.beqL_iff as, and_assoc]
theorem Expr.beqL_iff : ∀ as bs : List Expr, Expr.beqL as bs = true ↔ as = bs
  | [], bs => by cases bs <;> simp [Expr.beqL]
  | a :: as, bs => by cases bs <;> simp [Expr.beqL, Expr.beq_iff a, Expr.beqL_iff as]
end

instance : DecidableEq Expr := fun a b => decidable_of_iff _ (Expr.beq_iff a b)

end XPath
