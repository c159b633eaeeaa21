import Verif.XPath.Serialize
import Verif.XPath.Lexer
/-
Specification: canonical XPath ASTs (for the round-trip properties C01, C05).

An AST is canonical if its tree has the shape that the grammar gives to an expression without grouping
parentheses (`Expr.shape`; the base of a filter expression may be any expression, because `serialize`
writes that parenthesis), and if its leaves can be written down (`Expr.lexSafe`).
-/
namespace XPath

/-- NCName start characters of XML Namespaces 1.0 / XML 1.0 5th edition [4], without `:`. -/
def Spec.ncNameStart (c : Char) : Bool :=
  let n := c.toNat
  c == '_' || (0x41 ≤ n && n ≤ 0x5A) || (0x61 ≤ n && n ≤ 0x7A) || (0xC0 ≤ n && n ≤ 0xD6)
  || (0xD8 ≤ n && n ≤ 0xF6) || (0xF8 ≤ n && n ≤ 0x2FF) || (0x370 ≤ n && n ≤ 0x37D)
  || (0x37F ≤ n && n ≤ 0x1FFF) || (0x200C ≤ n && n ≤ 0x200D) || (0x2070 ≤ n && n ≤ 0x218F)
  || (0x2C00 ≤ n && n ≤ 0x2FEF) || (0x3001 ≤ n && n ≤ 0xD7FF) || (0xF900 ≤ n && n ≤ 0xFDCF)
  || (0xFDF0 ≤ n && n ≤ 0xFFFD) || (0x10000 ≤ n && n ≤ 0xEFFFF)

/-- NCName characters (XML 1.0 [4a], without `:`). -/
def Spec.ncNameChar (c : Char) : Bool :=
  let n := c.toNat
  Spec.ncNameStart c || c == '-' || c == '.' || (0x30 ≤ n && n ≤ 0x39) || n == 0xB7
  || (0x300 ≤ n && n ≤ 0x36F) || (0x203F ≤ n && n ≤ 0x2040)

/-- NCName. -/
def Spec.isNCName : Str → Bool
  | [] => false
  | c :: cs => Spec.ncNameStart c && cs.all Spec.ncNameChar

/-- `À`..`Ö`: the range that lexrules.py:100 spells wrong. -/
def Spec.brokenRange (c : Char) : Bool := 0xC0 ≤ c.toNat && c.toNat ≤ 0xD6

/-- An NCName without characters of the broken range. -/
def Spec.plainName (s : Str) : Bool := Spec.isNCName s && s.all (fun c => !Spec.brokenRange c)

/-- A string that Python's `repr` writes without escapes. -/
def Spec.plainLit [PyUnicode] (s : Str) : Bool :=
  s.all (fun c => c != '\\' && isPrintable c) && !(s.contains '\'' && s.contains '"')

/-- A float that Python writes without exponent: 0, or between 1e-4 and 1e16 (upper bound excluded). -/
def Spec.moderate (f : PyFloat) : Bool :=
  f.mant == 0 || (decide (10 ^ f.scale ≤ f.mant * 10 ^ 4) && decide (f.mant < 10 ^ 16 * 10 ^ f.scale))

/-- A float that Python writes without exponent, in normal form. -/
def Spec.plainFloat (f : PyFloat) : Bool := Spec.moderate f && (f.scale == 0 || f.mant % 10 != 0)

/-- `or and div mod`. -/
def Spec.isOperatorName (s : Str) : Bool :=
  s == ['o','r'] || s == ['a','n','d'] || s == ['d','i','v'] || s == ['m','o','d']

/-- `comment text processing-instruction node`. -/
def Spec.isNodeTypeName (s : Str) : Bool :=
  s == c%"comment" || s == c%"text" || s == c%"processing-instruction" || s == c%"node"

/-- Precedence row of an operator; the path separators are not in the table. -/
def BinOp.prec : BinOp → Option Nat
  | .or => some 1 | .and => some 2 | .eq => some 3 | .ne => some 3
  | .lt => some 4 | .le => some 4 | .gt => some 4 | .ge => some 4
  | .plus => some 5 | .minus => some 5 | .mult => some 6 | .div => some 6 | .mod => some 6
  | .union => some 8 | .slash => none | .dslash => none

/-- Operators on the left edge of an AST. -/
def Expr.leftEdge : Expr → List Nat
  | .binary l op _ => match op.prec with
    | some p => p :: l.leftEdge
    | none => []
  | _ => []

/-- Operators (7: unary minus) on the right edge of an AST. -/
def Expr.rightEdge : Expr → List Nat
  | .binary _ op r => match op.prec with
    | some p => p :: r.rightEdge
    | none => []
  | .neg e => 7 :: e.rightEdge
  | _ => []

/-- Nonterminals: location step, relative path, filter expression, any other path, operator expression. -/
inductive Kind where
  | step | rel | filt | path | expr
  deriving DecidableEq, Repr

def Kind.isRel : Kind → Bool
  | .step | .rel => true
  | _ => false

/-- No predicates directly on the outside. -/
def Expr.notPred : Expr → Bool
  | .pred .. => false
  | _ => true

mutual
/-- The nonterminal an AST belongs to, if it is the tree of an expression in which no grouping
parentheses are needed apart from those around the base of a filter expression. -/
def Expr.shape : Expr → Option Kind
  | .lit _ => some .filt
  | .int _ => some .filt
  | .float _ => some .filt
  | .var _ _ => some .filt
  | .call _ _ args => if Expr.shapes args then some .filt else none
  | .pred b ps => if b.shape.isSome && b.notPred && !ps.isEmpty && Expr.shapes ps then some .filt else none
  | .step _ _ ps => if Expr.shapes ps then some .step else none
  | .abbrev _ => some .step
  | .root => none
  | .abs _ r => match r.shape with
    | some k => if k.isRel then some .path else none
    | none => none
  | .neg e => if e.shape.isSome && e.leftEdge.all (fun q => decide (7 < q)) then some .expr else none
  | .binary l op r => match op.prec with
    | some p =>
      if l.shape.isSome && r.shape.isSome && l.rightEdge.all (fun q => decide (p ≤ q))
          && r.leftEdge.all (fun q => decide (p < q)) then some .expr else none
    | none => match l.shape, r.shape with
      | some kl, some kr =>
        if kl.isRel && kr == .step then some .rel
        else if kl == .filt && kr.isRel then some .path
        else none
      | _, _ => none
def Expr.shapes : List Expr → Bool
  | [] => true
  | p :: ps => p.shape.isSome && Expr.shapes ps
end

/-- Does the text of the AST end with a name?  (A following `-` would be read as part of it.) -/
def Expr.endsName : Expr → Bool
  | .binary _ _ r => r.endsName
  | .neg e => e.endsName
  | .abs _ r => r.endsName
  | .step _ (.name _ nm) [] => nm != ['*']
  | .var _ _ => true
  | _ => false

/-- Is the first token of the text read independently of what precedes it?  (After a comma, eulxml's
lexer takes `*` for multiplication, and does not recognise function, node type, axis names.) -/
def Expr.ctxFree : Expr → Bool
  | .binary l _ _ => l.ctxFree
  | .step none (.name (some p) _) _ => !Spec.isOperatorName p
  | .step none (.name none nm) _ => nm != ['*'] && !Spec.isOperatorName nm
  | .step none (.type _ _) _ => false
  | .step (some a) _ _ => a == ['@']
  | .call (some p) _ _ => !Spec.isOperatorName p
  | .call none _ _ => false
  | _ => true

/-- A writable axis. -/
def Spec.axisOK : Option Str → Bool
  | none => true
  | some a => a == ['@'] || Spec.plainName a

/-- A writable node test. -/
def Spec.testOK : NodeTest → Bool
  | .name none nm => nm == ['*'] || Spec.plainName nm
  | .name (some p) nm => Spec.plainName p && (nm == ['*'] || Spec.plainName nm)
  | .type nm lit => Spec.isNodeTypeName nm && lit.isNone

mutual
/-- Names are NCNames, literals and numbers are written without escapes and exponents, no `-` follows a
name directly, arguments after the first start with a context-free token. -/
def Expr.lexSafe [PyUnicode] : Expr → Bool
  | .lit s => Spec.plainLit s
  | .int _ => true
  | .float f => Spec.plainFloat f
  | .neg e => e.lexSafe
  | .binary l op r => l.lexSafe && r.lexSafe && (op != .minus || !l.endsName)
  | .pred b ps => b.lexSafe && Expr.lexSafes ps
  | .root => false
  | .abs _ r => r.lexSafe
  | .step ax t ps => Spec.axisOK ax && Spec.testOK t && Expr.lexSafes ps
  | .abbrev _ => true
  | .var none nm => Spec.plainName nm && !Spec.isOperatorName nm
  | .var (some p) nm => Spec.plainName p && !Spec.isOperatorName p && Spec.plainName nm
  | .call none nm args => Spec.plainName nm && !Spec.isNodeTypeName nm && Expr.argsSafe args
  | .call (some p) nm args =>
    Spec.plainName p && Spec.plainName nm && !Spec.isNodeTypeName nm && Expr.argsSafe args
def Expr.lexSafes [PyUnicode] : List Expr → Bool
  | [] => true
  | p :: ps => p.lexSafe && Expr.lexSafes ps
def Expr.argsSafe [PyUnicode] : List Expr → Bool
  | [] => true
  | a :: as => a.lexSafe && Expr.argsTailSafe as
def Expr.argsTailSafe [PyUnicode] : List Expr → Bool
  | [] => true
  | a :: as => a.lexSafe && a.ctxFree && Expr.argsTailSafe as
end

/-- Canonical ASTs. -/
def Expr.canonical [PyUnicode] (e : Expr) : Bool := e.shape.isSome && e.lexSafe

end XPath
