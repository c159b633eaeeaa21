import Verif.XPath.Lexer
/-
The XPath parser that PLY generates from eulxml/xpath/parserules.py, and `parse` of eulxml/xpath/core.py.

PLY's LALR(1) tables are not transcribed.  The parser below is a deterministic precedence-climbing
parser for the same grammar; that it accepts exactly the token sequences of the grammar, with the tree
that yacc's precedence rules select, is proved in `Verif/XPath/ParserCorrect.lean` against the
transcription of the productions in `Verif/XPath/Grammar.lean`.  Like an LALR(1) parser it reports a
syntax error at a token (`p_error`, parserules.py:365-368); the remaining tokens, starting with that
one, are the error value.
-/
namespace XPath

/-- Failure of the token parser: out of fuel (never happens, see `parseToks_ne_fuel`), or a syntax error
with the remaining tokens, the first of which is the offending one (`[]`: end of input). -/
inductive PErr where
  | fuel
  | syntax (rest : List Tok)
  deriving DecidableEq, Repr

abbrev PRes (α : Type) := Except PErr (α × List Tok)

/-- The `precedence` table (parserules.py:27-36) for the binary operator tokens of `p_expr_boolean`
(parserules.py:42-55): operator and level (1 binds least); all are left-associative. `UMINUS_OP` has
level 7. -/
def binTok : Tok → Option (BinOp × Nat)
  | .orOp => some (.or, 1)
  | .andOp => some (.and, 2)
  | .equalOp neg => some (if neg then .ne else .eq, 3)
  | .relOp gt orEq => some (if gt then (if orEq then .ge else .gt) else (if orEq then .le else .lt), 4)
  | .plusOp => some (.plus, 5)
  | .minusOp => some (.minus, 5)
  | .multOp => some (.mult, 6)
  | .divOp => some (.div, 6)
  | .modOp => some (.mod, 6)
  | .unionOp => some (.union, 8)
  | _ => none

/-- `NodeTest` (parserules.py:173-235). -/
def parseNodeTest : List Tok → PRes NodeTest
  | .starOp :: r => .ok (.name none ['*'], r)
  | .ncname p :: .colon :: r =>
    match r with
    | .starOp :: r' => .ok (.name (some p) ['*'], r')
    | .ncname n :: r' => .ok (.name (some p) n, r')
    | _ => .error (.syntax r)
  | .ncname n :: r => .ok (.name none n, r)
  | .nodeType n :: r =>
    match r with
    | .openParen :: r1 =>
      match r1 with
      | .closeParen :: r2 => .ok (.type n none, r2)
      | .literal s :: r2 =>
        match r2 with
        | .closeParen :: r3 => .ok (.type n (some s), r3)
        | _ => .error (.syntax r2)
      | _ => .error (.syntax r1)
    | _ => .error (.syntax r)
  | ts => .error (.syntax ts)

/-- Can a location step start with this token?  (`Step`, parserules.py:122-167.) -/
def startsStep : List Tok → Bool
  | .starOp :: _ | .ncname _ :: _ | .nodeType _ :: _ | .axisName _ :: _ | .axisAt :: _
  | .stepSelf :: _ | .stepParent :: _ => true
  | _ => false

/-- Does a `FilterExpr` start here?  (parserules.py:237-268.) -/
def startsFilter : List Tok → Bool
  | .dollar :: _ | .literal _ :: _ | .float _ :: _ | .integer _ :: _ | .funcName _ :: _ | .openParen :: _ => true
  | .ncname _ :: .colon :: .funcName _ :: _ => true
  | _ => false

/-- `p_filter_expr_predicate` (parserules.py:270-277): append to an existing `PredicatedExpression`
(the only class with `append_predicate`), else wrap. -/
def applyPred (e p : Expr) : Expr :=
  match e with
  | .pred b ps => .pred b (ps ++ [p])
  | e => .pred e [p]

/-- `VariableReference : DOLLAR QName` (parserules.py:306-310), after the `$`. -/
def parseVar : List Tok → PRes Expr
  | .ncname p :: .colon :: r =>
    match r with
    | .ncname n :: r' => .ok (.var (some p) n, r')
    | _ => .error (.syntax r)
  | .ncname n :: r => .ok (.var none n, r)
  | ts => .error (.syntax ts)

mutual
/-- `Expr` (parserules.py:42-81) with binary operators of level at least `m`. -/
def parseExpr : Nat → Nat → List Tok → PRes Expr
  | 0, _, _ => .error .fuel
  | n + 1, m, ts =>
    match parsePrefix n ts with
    | .error e => .error e
    | .ok (l, ts') => parseLoop n m l ts'
/-- Continue `Expr` after its left operand. -/
def parseLoop : Nat → Nat → Expr → List Tok → PRes Expr
  | 0, _, _, _ => .error .fuel
  | _ + 1, _, l, [] => .ok (l, [])
  | n + 1, m, l, t :: ts =>
    match binTok t with
    | none => .ok (l, t :: ts)
    | some (op, p) =>
      if m ≤ p then
        match parseExpr n (p + 1) ts with
        | .error e => .error e
        | .ok (r, ts') => parseLoop n m (.binary l op r) ts'
      else .ok (l, t :: ts)
/-- Unary minus (parserules.py:57-61, level 7) or a path expression. -/
def parsePrefix : Nat → List Tok → PRes Expr
  | 0, _ => .error .fuel
  | n + 1, .minusOp :: ts =>
    match parseExpr n 7 ts with
    | .error e => .error e
    | .ok (e, ts') => .ok (.neg e, ts')
  | n + 1, ts => parsePath n ts
/-- Path expressions (parserules.py:67-116). -/
def parsePath : Nat → List Tok → PRes Expr
  | 0, _ => .error .fuel
  | n + 1, .pathSep :: ts =>
    if startsStep ts then
      match parseRel n ts with
      | .error e => .error e
      | .ok (r, ts') => .ok (.abs false r, ts')
    else .ok (.root, ts)
  | n + 1, .abbrevPathSep :: ts =>
    match parseRel n ts with
    | .error e => .error e
    | .ok (r, ts') => .ok (.abs true r, ts')
  | n + 1, ts => if startsFilter ts then parseFPath n ts else parseRel n ts
/-- `FilterExpr`, possibly followed by a separator and a relative path (parserules.py:67-81). -/
def parseFPath : Nat → List Tok → PRes Expr
  | 0, _ => .error .fuel
  | n + 1, ts =>
    match parseFilter n ts with
    | .error e => .error e
    | .ok (f, .pathSep :: ts') =>
      match parseRel n ts' with
      | .error e => .error e
      | .ok (r, ts'') => .ok (.binary f .slash r, ts'')
    | .ok (f, .abbrevPathSep :: ts') =>
      match parseRel n ts' with
      | .error e => .error e
      | .ok (r, ts'') => .ok (.binary f .dslash r, ts'')
    | .ok (f, ts') => .ok (f, ts')
/-- `RelativeLocationPath` (parserules.py:105-116). -/
def parseRel : Nat → List Tok → PRes Expr
  | 0, _ => .error .fuel
  | n + 1, ts =>
    match parseStep n ts with
    | .error e => .error e
    | .ok (s, ts') => parseRelLoop n s ts'
/-- Continue a `RelativeLocationPath`. -/
def parseRelLoop : Nat → Expr → List Tok → PRes Expr
  | 0, _, _ => .error .fuel
  | n + 1, l, .pathSep :: ts =>
    match parseStep n ts with
    | .error e => .error e
    | .ok (s, ts') => parseRelLoop n (.binary l .slash s) ts'
  | n + 1, l, .abbrevPathSep :: ts =>
    match parseStep n ts with
    | .error e => .error e
    | .ok (s, ts') => parseRelLoop n (.binary l .dslash s) ts'
  | _ + 1, l, ts => .ok (l, ts)
/-- `Step` (parserules.py:122-167). -/
def parseStep : Nat → List Tok → PRes Expr
  | 0, _ => .error .fuel
  | _ + 1, .stepSelf :: ts => .ok (.abbrev false, ts)
  | _ + 1, .stepParent :: ts => .ok (.abbrev true, ts)
  | n + 1, .axisName a :: ts =>
    match ts with
    | .axisSep :: ts' => parseTest n (some a) ts'
    | _ => .error (.syntax ts)
  | n + 1, .axisAt :: ts => parseTest n (some ['@']) ts
  | n + 1, ts => parseTest n none ts
/-- Node test and predicates of a step. -/
def parseTest : Nat → Option Str → List Tok → PRes Expr
  | 0, _, _ => .error .fuel
  | n + 1, ax, ts =>
    match parseNodeTest ts with
    | .error e => .error e
    | .ok (t, ts') =>
      match parsePreds n ts' with
      | .error e => .error e
      | .ok (ps, ts'') => .ok (.step ax t ps, ts'')
/-- `PredicateList`, possibly empty (parserules.py:283-300). -/
def parsePreds : Nat → List Tok → PRes (List Expr)
  | 0, _ => .error .fuel
  | n + 1, .openBracket :: ts =>
    match parseExpr n 0 ts with
    | .error e => .error e
    | .ok (p, .closeBracket :: ts') =>
      match parsePreds n ts' with
      | .error e => .error e
      | .ok (ps, ts'') => .ok (p :: ps, ts'')
    | .ok (_, ts') => .error (.syntax ts')
  | _ + 1, ts => .ok ([], ts)
/-- `FilterExpr` (parserules.py:253-277): a primary expression and its predicates. -/
def parseFilter : Nat → List Tok → PRes Expr
  | 0, _ => .error .fuel
  | n + 1, ts =>
    match parsePrimary n ts with
    | .error e => .error e
    | .ok (e, ts') =>
      match parsePreds n ts' with
      | .error e => .error e
      | .ok (ps, ts'') => .ok (ps.foldl applyPred e, ts'')
/-- The predicate-free forms of `FilterExpr` (parserules.py:253-268, 306-334). -/
def parsePrimary : Nat → List Tok → PRes Expr
  | 0, _ => .error .fuel
  | _ + 1, .dollar :: ts => parseVar ts
  | _ + 1, .literal s :: ts => .ok (.lit s, ts)
  | _ + 1, .float f :: ts => .ok (.float f, ts)
  | _ + 1, .integer k :: ts => .ok (.int k, ts)
  | n + 1, .funcName f :: ts => parseCall n none f ts
  | n + 1, .ncname p :: .colon :: .funcName f :: ts => parseCall n (some p) f ts
  | n + 1, .openParen :: ts =>
    match parseExpr n 0 ts with
    | .error e => .error e
    | .ok (e, .closeParen :: ts') => .ok (e, ts')
    | .ok (_, ts') => .error (.syntax ts')
  | _ + 1, ts => .error (.syntax ts)
/-- `FunctionCall`, `FormalArguments` (parserules.py:327-346), after the function name. -/
def parseCall : Nat → Option Str → Str → List Tok → PRes Expr
  | 0, _, _, _ => .error .fuel
  | _ + 1, p, f, .openParen :: .closeParen :: ts => .ok (.call p f [], ts)
  | n + 1, p, f, .openParen :: ts =>
    match parseArgs n ts with
    | .error e => .error e
    | .ok (as, .closeParen :: ts') => .ok (.call p f as, ts')
    | .ok (_, ts') => .error (.syntax ts')
  | _ + 1, _, _, ts => .error (.syntax ts)
/-- `ArgumentList` (parserules.py:348-359), non-empty. -/
def parseArgs : Nat → List Tok → PRes (List Expr)
  | 0, _ => .error .fuel
  | n + 1, ts =>
    match parseExpr n 0 ts with
    | .error e => .error e
    | .ok (a, .comma :: ts') =>
      match parseArgs n ts' with
      | .error e => .error e
      | .ok (as, ts'') => .ok (a :: as, ts'')
    | .ok (a, ts') => .ok ([a], ts')
end

/-- Fuel that always suffices for `ts` (`parseToks_ne_fuel`). -/
def fuelFor (ts : List Tok) : Nat := 16 * ts.length + 16

/-- Parse a complete token sequence: `Expr` followed by end of input. -/
def parseToks (ts : List Tok) : Except PErr Expr :=
  match parseExpr (fuelFor ts) 0 ts with
  | .error e => .error e
  | .ok (e, []) => .ok e
  | .ok (_, t :: r) => .error (.syntax (t :: r))

/-- `parse(xpath)` (core.py:149-154) on the module's lexer in state `last` (core.py:135, 111): result
and the state left behind.  A syntax error at a token leaves that token in `last`; at end of input it
leaves `None`; a lexical error (`TypeError`) leaves the last token that was delivered; success reads the
end of input and leaves `None`. -/
def parse (last : Option Tok) (s : Str) : Except PyErr Expr × Option Tok :=
  let toks := (lex last s).1
  let lexErr := (lex last s).2
  match parseExpr (fuelFor toks) 0 toks with
  | .error .fuel => (.error .runtimeError, none)
  | .error (.syntax (t :: _)) => (.error .runtimeError, some t)
  | .ok (_, t :: _) => (.error .runtimeError, some t)
  | .error (.syntax []) =>
    if lexErr then (.error .typeError, toks.getLast?.or last) else (.error .runtimeError, none)
  | .ok (e, []) =>
    if lexErr then (.error .typeError, toks.getLast?.or last) else (.ok e, none)

/-- `parse` in a fresh process. -/
def parse0 (s : Str) : Except PyErr Expr := (parse none s).1

end XPath
