import Verif.XPath.Lexer
/-
Specification: the grammar of eulxml/xpath/parserules.py, production by production.

A value of one of the types `C...` below is a derivation tree of the corresponding nonterminal: every
constructor is one production (or one alternative of it).  `toks` is the right-hand side, read off as a
token sequence; `val` is the semantic action (`p[0] = ...`).  `PrecOK` is yacc's precedence rule.
Nothing here refers to the parser model.
-/
namespace XPath.G

/-- The operator tokens of `p_expr_boolean` (parserules.py:42-54). -/
inductive Op where
  | or | and | equal (neg : Bool) | rel (gt : Bool) (orEq : Bool) | plus | minus | mult | div | mod | union
  deriving DecidableEq, Repr

/-- The terminal symbol. -/
def Op.tok : Op → Tok
  | .or => .orOp | .and => .andOp | .equal n => .equalOp n | .rel g e => .relOp g e
  | .plus => .plusOp | .minus => .minusOp | .mult => .multOp | .div => .divOp | .mod => .modOp
  | .union => .unionOp

/-- The operator text `p[2]`. -/
def Op.val : Op → BinOp
  | .or => .or | .and => .and | .equal false => .eq | .equal true => .ne
  | .rel false false => .lt | .rel false true => .le | .rel true false => .gt | .rel true true => .ge
  | .plus => .plus | .minus => .minus | .mult => .mult | .div => .div | .mod => .mod | .union => .union

/-- The row of the `precedence` table (parserules.py:27-36), counted from 1; row 7 is `UMINUS_OP`. -/
def Op.prec : Op → Nat
  | .or => 1 | .and => 2 | .equal _ => 3 | .rel _ _ => 4 | .plus => 5 | .minus => 5
  | .mult => 6 | .div => 6 | .mod => 6 | .union => 8

/-- `QName` (parserules.py:225-235). -/
inductive CQName where
  | prefixed (p n : Str)
  | unprefixed (n : Str)
  deriving DecidableEq, Repr

def CQName.toks : CQName → List Tok
  | .prefixed p n => [.ncname p, .colon, .ncname n]
  | .unprefixed n => [.ncname n]
def CQName.pfx : CQName → Option Str
  | .prefixed p _ => some p
  | .unprefixed _ => none
def CQName.nm : CQName → Str
  | .prefixed _ n => n
  | .unprefixed n => n

/-- `FuncQName` (parserules.py:237-247). -/
inductive CFuncQName where
  | prefixed (p n : Str)
  | unprefixed (n : Str)
  deriving DecidableEq, Repr

def CFuncQName.toks : CFuncQName → List Tok
  | .prefixed p n => [.ncname p, .colon, .funcName n]
  | .unprefixed n => [.funcName n]
def CFuncQName.pfx : CFuncQName → Option Str
  | .prefixed p _ => some p
  | .unprefixed _ => none
def CFuncQName.nm : CFuncQName → Str
  | .prefixed _ n => n
  | .unprefixed n => n

/-- `NodeTest`, `NameTest` (parserules.py:173-218). -/
inductive CNodeTest where
  | star
  | prefixStar (p : Str)
  | qname (q : CQName)
  | type (n : Str)
  | typeLit (n s : Str)
  deriving DecidableEq, Repr

def CNodeTest.toks : CNodeTest → List Tok
  | .star => [.starOp]
  | .prefixStar p => [.ncname p, .colon, .starOp]
  | .qname q => q.toks
  | .type n => [.nodeType n, .openParen, .closeParen]
  | .typeLit n s => [.nodeType n, .openParen, .literal s, .closeParen]
def CNodeTest.val : CNodeTest → NodeTest
  | .star => .name none ['*']
  | .prefixStar p => .name (some p) ['*']
  | .qname q => .name q.pfx q.nm
  | .type n => .type n none
  | .typeLit n s => .type n (some s)

/-- `AxisSpecifier` (parserules.py:157-167). -/
inductive CAxis where
  | full (a : Str)
  | at
  deriving DecidableEq, Repr

def CAxis.toks : CAxis → List Tok
  | .full a => [.axisName a, .axisSep]
  | .at => [.axisAt]
def CAxis.val : CAxis → Str
  | .full a => a
  | .at => ['@']

mutual
/-- `Expr` (parserules.py:42-81), with the absolute path nonterminals (87-103) inlined. -/
inductive CExpr where
  | bin (l : CExpr) (op : Op) (r : CExpr)              -- Expr : Expr OP Expr
  | neg (e : CExpr)                                    -- Expr : MINUS_OP Expr
  | filterPath (f : CFilter) (dbl : Bool) (r : CRel)   -- Expr : FilterExpr (ABBREV_)PATH_SEP RelativeLocationPath
  | rel (r : CRel)                                     -- Expr : RelativeLocationPath
  | absRoot                                            -- AbsoluteLocationPath : PATH_SEP
  | abs (r : CRel)                                     -- AbsoluteLocationPath : PATH_SEP RelativeLocationPath
  | absAbbrev (r : CRel)                               -- AbbreviatedAbsoluteLocationPath : ABBREV_PATH_SEP Rel...
  | filter (f : CFilter)                               -- Expr : FilterExpr
/-- `RelativeLocationPath` (parserules.py:105-116). -/
inductive CRel where
  | step (s : CStep)
  | cons (r : CRel) (dbl : Bool) (s : CStep)
/-- `Step` (parserules.py:122-151). -/
inductive CStep where
  | test (t : CNodeTest)
  | testPreds (t : CNodeTest) (ps : CPreds)
  | axis (a : CAxis) (t : CNodeTest)
  | axisPreds (a : CAxis) (t : CNodeTest) (ps : CPreds)
  | self
  | parent
/-- `PredicateList` with `Predicate` inlined (parserules.py:283-300). -/
inductive CPreds where
  | single (e : CExpr)
  | snoc (ps : CPreds) (e : CExpr)
/-- `FilterExpr` (parserules.py:253-277), with `VariableReference`, `Number`, `FunctionCall` inlined. -/
inductive CFilter where
  | var (q : CQName)
  | lit (s : Str)
  | float (f : PyFloat)
  | int (n : Nat)
  | call (q : CFuncQName) (as : CArgs)
  | group (e : CExpr)
  | pred (f : CFilter) (e : CExpr)
/-- `FormalArguments` (parserules.py:336-346). -/
inductive CArgs where
  | empty
  | list (as : CArgList)
/-- `ArgumentList` (parserules.py:348-359). -/
inductive CArgList where
  | single (e : CExpr)
  | snoc (as : CArgList) (e : CExpr)
end

/-- `PATH_SEP` or `ABBREV_PATH_SEP`. -/
def sep (dbl : Bool) : Tok := if dbl then .abbrevPathSep else .pathSep
/-- Their texts. -/
def sepOp (dbl : Bool) : BinOp := if dbl then .dslash else .slash

mutual
/-- The token sequence derived by a tree. -/
def CExpr.toks : CExpr → List Tok
  | .bin l op r => l.toks ++ op.tok :: r.toks
  | .neg e => .minusOp :: e.toks
  | .filterPath f dbl r => f.toks ++ sep dbl :: r.toks
  | .rel r => r.toks
  | .absRoot => [.pathSep]
  | .abs r => .pathSep :: r.toks
  | .absAbbrev r => .abbrevPathSep :: r.toks
  | .filter f => f.toks
def CRel.toks : CRel → List Tok
  | .step s => s.toks
  | .cons r dbl s => r.toks ++ sep dbl :: s.toks
def CStep.toks : CStep → List Tok
  | .test t => t.toks
  | .testPreds t ps => t.toks ++ ps.toks
  | .axis a t => a.toks ++ t.toks
  | .axisPreds a t ps => a.toks ++ (t.toks ++ ps.toks)
  | .self => [.stepSelf]
  | .parent => [.stepParent]
def CPreds.toks : CPreds → List Tok
  | .single e => .openBracket :: (e.toks ++ [.closeBracket])
  | .snoc ps e => ps.toks ++ .openBracket :: (e.toks ++ [.closeBracket])
def CFilter.toks : CFilter → List Tok
  | .var q => .dollar :: q.toks
  | .lit s => [.literal s]
  | .float f => [.float f]
  | .int n => [.integer n]
  | .call q as => q.toks ++ as.toks
  | .group e => .openParen :: (e.toks ++ [.closeParen])
  | .pred f e => f.toks ++ .openBracket :: (e.toks ++ [.closeBracket])
def CArgs.toks : CArgs → List Tok
  | .empty => [.openParen, .closeParen]
  | .list as => .openParen :: (as.toks ++ [.closeParen])
def CArgList.toks : CArgList → List Tok
  | .single e => e.toks
  | .snoc as e => as.toks ++ .comma :: e.toks
end

/-- `p_filter_expr_predicate` (parserules.py:270-277). -/
def addPredicate : Expr → Expr → Expr
  | .pred b ps, p => .pred b (ps ++ [p])
  | e, p => .pred e [p]

mutual
/-- The semantic value of a tree (the actions of parserules.py). -/
def CExpr.val : CExpr → Expr
  | .bin l op r => .binary l.val op.val r.val
  | .neg e => .neg e.val
  | .filterPath f dbl r => .binary f.val (sepOp dbl) r.val
  | .rel r => r.val
  | .absRoot => .root
  | .abs r => .abs false r.val
  | .absAbbrev r => .abs true r.val
  | .filter f => f.val
def CRel.val : CRel → Expr
  | .step s => s.val
  | .cons r dbl s => .binary r.val (sepOp dbl) s.val
def CStep.val : CStep → Expr
  | .test t => .step none t.val []
  | .testPreds t ps => .step none t.val ps.val
  | .axis a t => .step (some a.val) t.val []
  | .axisPreds a t ps => .step (some a.val) t.val ps.val
  | .self => .abbrev false
  | .parent => .abbrev true
def CPreds.val : CPreds → List Expr
  | .single e => [e.val]
  | .snoc ps e => ps.val ++ [e.val]
def CFilter.val : CFilter → Expr
  | .var q => .var q.pfx q.nm
  | .lit s => .lit s
  | .float f => .float f
  | .int n => .int n
  | .call q as => .call q.pfx q.nm as.val
  | .group e => e.val
  | .pred f e => addPredicate f.val e.val
def CArgs.val : CArgs → List Expr
  | .empty => []
  | .list as => as.val
def CArgList.val : CArgList → List Expr
  | .single e => [e.val]
  | .snoc as e => as.val ++ [e.val]
end

/-- Precedences of the productions on the left edge of an expression: the operators that are reduced
with this expression as (part of) a right operand, i.e. were shifted past it. -/
def CExpr.leftEdge : CExpr → List Nat
  | .bin l op _ => op.prec :: l.leftEdge
  | _ => []

/-- Precedences of the productions on the right edge of an expression: those which must have been
reduced before an operator following the expression is shifted. -/
def CExpr.rightEdge : CExpr → List Nat
  | .bin _ op r => op.prec :: r.rightEdge
  | .neg e => 7 :: e.rightEdge
  | _ => []

mutual
/-- Yacc's disambiguation by precedence (all binary operators are `left`, `UMINUS_OP` is 7):
in `l op r`, every production on the right edge of `l` was reduced before `op`, so it binds at least as
tightly as `op`; every operator on the left edge of `r` was shifted after `op`, so it binds strictly
tighter; every operator on the left edge of the operand of unary minus binds tighter than unary minus. -/
def CExpr.PrecOK : CExpr → Prop
  | .bin l op r => l.PrecOK ∧ r.PrecOK ∧ (∀ q ∈ l.rightEdge, op.prec ≤ q) ∧ (∀ q ∈ r.leftEdge, op.prec < q)
  | .neg e => e.PrecOK ∧ (∀ q ∈ e.leftEdge, 7 < q)
  | .filterPath f _ r => f.PrecOK ∧ r.PrecOK
  | .rel r => r.PrecOK
  | .absRoot => True
  | .abs r => r.PrecOK
  | .absAbbrev r => r.PrecOK
  | .filter f => f.PrecOK
def CRel.PrecOK : CRel → Prop
  | .step s => s.PrecOK
  | .cons r _ s => r.PrecOK ∧ s.PrecOK
def CStep.PrecOK : CStep → Prop
  | .testPreds _ ps => ps.PrecOK
  | .axisPreds _ _ ps => ps.PrecOK
  | _ => True
def CPreds.PrecOK : CPreds → Prop
  | .single e => e.PrecOK
  | .snoc ps e => ps.PrecOK ∧ e.PrecOK
def CFilter.PrecOK : CFilter → Prop
  | .call _ as => as.PrecOK
  | .group e => e.PrecOK
  | .pred f e => f.PrecOK ∧ e.PrecOK
  | _ => True
def CArgs.PrecOK : CArgs → Prop
  | .empty => True
  | .list as => as.PrecOK
def CArgList.PrecOK : CArgList → Prop
  | .single e => e.PrecOK
  | .snoc as e => as.PrecOK ∧ e.PrecOK
end

end XPath.G
