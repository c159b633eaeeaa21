import Verif.XPath.RoundTripLex
import Verif.XPath.PrecLemmas
/-
Properties C01 - C06: parsing and serialising XPath.

Model: `parse` (Verif/XPath/Parser.lean), `Expr.ser` (Verif/XPath/Serialize.lean).
Specification: the grammar `XPath.G` (Verif/XPath/Grammar.lean), canonical ASTs (Verif/XPath/Canon.lean).
-/
namespace Props
open XPath

/-- `str.isprintable` for the examples: ASCII only. -/
instance asciiPrintable : PyUnicode := ⟨fun _ => false⟩

/-! ### C01: serialize / parse round trip -/

/-- C01.  Whatever `str.isprintable` says about non-ASCII characters: a canonical AST is returned
unchanged by `parse(serialize(ast))` in a fresh process, and the parser is left in its initial state. -/
theorem C01_round_trip [PyUnicode] (e : Expr) (h : e.canonical = true) : parse none e.ser = (.ok e, none) := by
  have h1 := lex_ser h (last := none) (by simp [blocked])
  unfold parse
  simp only [h1, parse_toks e h]
  rfl

/-- A non-trivial canonical AST:
`a:b[@id='x' and position()<3]//text() | -(c)[2]/child::*[. = 1.5]`. -/
def sampleAst : Expr :=
  .binary
    (.binary (.step none (.name (some c%"a") (c%"b")) [.binary
        (.binary (.step (some c%"@") (.name none (c%"id")) []) .eq (.lit c%"x")) .and
        (.binary (.call none (c%"position") []) .lt (.int 3))]) .dslash (.step none (.type (c%"text") none) []))
    .union
    (.neg (.binary (.pred (.step none (.name none (c%"c")) []) [.int 2]) .slash
      (.step (some c%"child") (.name none (c%"*")) [.binary (.abbrev false) .eq (.float ⟨15, 1⟩)])))

example : sampleAst.canonical = true := by decide
example : sampleAst.ser = c%"a:b[@id='x' and position()<3]//text()|-(c)[2]/child::*[.=1.5]" := by decide
example : parse none sampleAst.ser = (.ok sampleAst, none) := C01_round_trip _ (by decide)

/-- The text that Python writes for a float outside of the positional range. -/
theorem float_str_exponent (f : PyFloat) (h : Spec.moderate f = false) :
    ∃ (d : Char) (rest : Str) (sign : Char) (ex : Str), isDigit d = true ∧ (∀ c ∈ rest, isDigit c = true) ∧ (∀ c ∈ ex, isDigit c = true)
      ∧ ex ≠ [] ∧ (sign = '+' ∨ sign = '-') ∧ f.str = d :: ((if rest = [] then [] else '.' :: rest) ++ 'e' :: sign :: ex) := by
  have hp : f.positional = false := by rw [moderate_positional]; exact h
  obtain ⟨g1, g2, -, -⟩ := natStr_spec (stripZeros f.mant f.mant)
  unfold PyFloat.str
  simp only [hp, Bool.false_eq_true, if_false]
  generalize natStr (stripZeros f.mant f.mant) = ds at *
  have hx : ∀ n, (∀ c ∈ zeroPad 2 (natStr n), isDigit c = true) ∧ zeroPad 2 (natStr n) ≠ [] := by
    intro n
    obtain ⟨k1, k2, -, -⟩ := natStr_spec n
    constructor
    · intro c hc
      unfold zeroPad at hc
      rw [List.mem_append] at hc
      rcases hc with hc | hc
      · rw [(List.mem_replicate.1 hc).2]; decide
      · exact k2 c hc
    · unfold zeroPad
      intro hc
      exact k1 (List.append_eq_nil_iff.1 hc).2
  match ds, g1, g2 with
  | [d], _, g2 =>
    have hd : isDigit d = true := g2 d (by simp)
    by_cases hn : (natStr f.mant).length ≥ f.scale + 1
    · exact ⟨d, [], '+', zeroPad 2 (natStr ((natStr f.mant).length - 1 - f.scale)), hd, by simp, (hx _).1, (hx _).2, .inl rfl, by simp [hn]⟩
    · exact ⟨d, [], '-', zeroPad 2 (natStr (f.scale + 1 - (natStr f.mant).length)), hd, by simp, (hx _).1, (hx _).2, .inr rfl, by simp [hn]⟩
  | d :: e :: r, _, g2 =>
    have hd : isDigit d = true := g2 d (by simp)
    have hr : ∀ c ∈ e :: r, isDigit c = true := fun c hc => g2 c (List.mem_cons_of_mem _ hc)
    by_cases hn : (natStr f.mant).length ≥ f.scale + 1
    · exact ⟨d, e :: r, '+', zeroPad 2 (natStr ((natStr f.mant).length - 1 - f.scale)), hd, hr, (hx _).1, (hx _).2, .inl rfl, by simp [hn]⟩
    · exact ⟨d, e :: r, '-', zeroPad 2 (natStr (f.scale + 1 - (natStr f.mant).length)), hd, hr, (hx _).1, (hx _).2, .inr rfl, by simp [hn]⟩

theorem rawTok_exponent (sign : Char) (ex : Str) :
    ∃ nm r, rawTok ('e' :: sign :: ex) = some (.ncname nm, r) ∧ operatorName nm = none := by
  have h2 : ncname ('e' :: sign :: ex) = some ('e' :: (nameTail (sign :: ex)).1, (nameTail (sign :: ex)).2) := by
    simp only [ncname]
    rw [if_pos (by decide)]
  refine ⟨'e' :: (nameTail (sign :: ex)).1, (nameTail (sign :: ex)).2, ?_, ?_⟩
  · simp only [rawTok]
    rw [if_neg (by decide), if_neg (by decide), if_neg (by decide), h2]
  · generalize (nameTail (sign :: ex)).1 = t
    unfold operatorName
    simp

theorem reject_number (t : Tok) (ht : (∃ n, t = .integer n) ∨ (∃ f, t = .float f)) (nm : Str) (ts : List Tok) (n : Nat) :
    ∃ e, parseExpr (n + 10) 0 (t :: .ncname nm :: ts) = .ok (e, .ncname nm :: ts) := by
  rcases ht with ⟨k, rfl⟩ | ⟨f, rfl⟩
  · refine ⟨.int k, ?_⟩
    simp [parseExpr, parsePrefix, parsePath, startsFilter, parseFPath, parseFilter, parsePrimary, parsePreds, parseLoop, binTok]
  · refine ⟨.float f, ?_⟩
    simp [parseExpr, parsePrefix, parsePath, startsFilter, parseFPath, parseFilter, parsePrimary, parsePreds, parseLoop, binTok]

/-- C01: why floats must be moderate.  Every other float is written with an exponent, and `parse` does not accept that. -/
theorem C01_exponent_refused [PyUnicode] (f : PyFloat) (h : Spec.moderate f = false) : parse0 (Expr.ser (.float f)) = .error .runtimeError := by
  obtain ⟨d, rest, sign, ex, hd, hr, hx, -, -, hstr⟩ := float_str_exponent f h
  obtain ⟨nm, r, he, hop⟩ := rawTok_exponent sign ex
  have hdf := digit_facts hd
  have hraw : ∃ t, ((∃ n, t = Tok.integer n) ∨ (∃ f, t = Tok.float f)) ∧ rawTok f.str = some (t, 'e' :: sign :: ex) := by
    rw [hstr]
    by_cases hrest : rest = []
    · refine ⟨.integer (digitsVal [d]), .inl ⟨_, rfl⟩, ?_⟩
      have hsp : spanDigits ('e' :: sign :: ex) = ([], 'e' :: sign :: ex) := by
        unfold spanDigits; rw [if_neg (by decide)]
      simp only [hrest, if_true, List.nil_append, rawTok, if_neg hdf.1, hd, hsp, eat]
      rw [if_neg (by decide)]
    · refine ⟨.float (mkFloat [d] rest), .inr ⟨_, rfl⟩, ?_⟩
      have hsp : spanDigits ('.' :: (rest ++ 'e' :: sign :: ex)) = ([], '.' :: (rest ++ 'e' :: sign :: ex)) := by
        unfold spanDigits; rw [if_neg (by decide)]
      have hsp2 := spanDigits_all (k := 'e' :: sign :: ex) hr (fun c r h => by cases h; decide)
      simp only [if_neg hrest, List.cons_append, rawTok, if_neg hdf.1, hd, if_true, hsp, eat, hsp2]
  obtain ⟨t, ht, hrt⟩ := hraw
  have hl1 : rawLex ('e' :: sign :: ex) = (.ncname nm :: (rawLex r).1, (rawLex r).2) := by
    rw [rawLex_tok (by decide) he]
  have hl : rawLex f.str = (t :: .ncname nm :: (rawLex r).1, (rawLex r).2) := by
    rw [hstr] at hrt ⊢
    rw [rawLex_tok hdf.2.1 hrt, hl1]
  have hlex : ∃ ts err, lex none f.str = (t :: .ncname nm :: ts, err) := by
    unfold lex
    rw [hl]
    rcases ht with ⟨n, rfl⟩ | ⟨g, rfl⟩ <;> simp [classify, blocked, Tok.isForcer, hop]
  obtain ⟨ts, err, hlex⟩ := hlex
  have hser : Expr.ser (.float f) = f.str := by simp only [Expr.ser]
  unfold parse0 parse
  rw [hser]
  simp only [hlex]
  have hf : ∃ n, fuelFor (t :: .ncname nm :: ts) = n + 10 := ⟨16 * ts.length + 38, by simp [fuelFor]; omega⟩
  obtain ⟨n, hf⟩ := hf
  obtain ⟨e, hp⟩ := reject_number t ht nm ts n
  rw [hf, hp]

example : Spec.moderate ⟨10 ^ 16, 0⟩ = false ∧ Spec.moderate ⟨10 ^ 16 - 1, 0⟩ = true ∧ Spec.moderate ⟨1, 5⟩ = false ∧ Spec.moderate ⟨1, 4⟩ = true := by decide
example : parse0 c%"10000000000000000.0" = .ok (.float ⟨10 ^ 16, 0⟩) ∧ Expr.ser (.float ⟨10 ^ 16, 0⟩) = c%"1e+16" ∧ Expr.ser (.float ⟨15, 6⟩) = c%"1.5e-05" := by
  decide +kernel

/-! ### C02: soundness -/

/-- C02.  If `parse(s)` returns `e`, then the tokens of `s` (all of them, without lexical error) have a
derivation in the grammar, chosen by yacc's precedences, whose semantic value is `e`. -/
theorem C02_parse_sound (last : Option Tok) (s : Str) (e : Expr) (h : (parse last s).1 = .ok e) :
    ∃ c : G.CExpr, c.toks = (lex last s).1 ∧ (lex last s).2 = false ∧ c.val = e ∧ c.PrecOK := by
  unfold parse at h
  simp only at h
  generalize hz : parseExpr _ _ _ = z at h
  rcases z with (_ | ⟨_ | ⟨t, r⟩⟩) | ⟨e', _ | ⟨t, r⟩⟩
  · cases h
  · simp only at h; split at h <;> cases h
  · cases h
  · simp only at h
    split at h
    · cases h
    · cases h
      obtain ⟨c, h1, h2, h3⟩ := parseExpr_sound hz
      rename_i hf
      exact ⟨c, by simpa using h2.symm, by simpa using hf, h3, h1⟩
  · cases h

example : (parse none (c%"a or b and c")).1 = .ok (.binary (.step none (.name none (c%"a")) []) .or
    (.binary (.step none (.name none (c%"b")) []) .and (.step none (.name none (c%"c")) []))) := by decide

/-! ### C03: completeness -/

/-- C03.  A string whose tokens are derivable from the productions of the grammar (in any, possibly
ambiguous, way) is accepted, and the AST is the value of a derivation of the same tokens that obeys the
precedence rules. -/
theorem C03_parse_complete (last : Option Tok) (s : Str) (c : G.CExpr) (hl : lex last s = (c.toks, false)) :
    ∃ d : G.CExpr, d.toks = c.toks ∧ d.PrecOK ∧ parse last s = (.ok d.val, none) := by
  obtain ⟨d, h1, h2⟩ := norm_expr c
  refine ⟨d, h2, h1, ?_⟩
  have := parseExpr_complete d h1
  rw [h2] at this
  unfold parse
  simp [hl, this]

/-- Conversely to C03: rejection means that the tokens are not derivable at all. -/
theorem C03_reject (last : Option Tok) (s : Str) (err : PyErr) (h : (parse last s).1 = .error err) :
    (lex last s).2 = true ∨ ¬ ∃ c : G.CExpr, c.toks = (lex last s).1 := by
  by_contra hc
  simp only [not_or, Bool.not_eq_true, not_not] at hc
  obtain ⟨h1, c, h2⟩ := hc
  obtain ⟨d, -, -, h3⟩ := C03_parse_complete last s c (by rw [h2, ← h1])
  rw [h3] at h
  cases h

/-- `a or b and c`, with the derivation that groups it the other way. -/
example : lex none (c%"a or b and c") = (G.CExpr.toks
    (.bin (.bin (.rel (.step (.test (.qname (.unprefixed (c%"a")))))) .or (.rel (.step (.test (.qname (.unprefixed (c%"b"))))))) .and
      (.rel (.step (.test (.qname (.unprefixed (c%"c"))))))), false) := by decide

/-! ### C04: precedence -/

/-- C04.  If every `(` in the accepted expression belongs to a function call or a node type test, then
every operator application in the AST obeys the precedence table `or < and < = != < relational < + - <
* div mod < unary minus < |`, and operators of one row associate to the left. -/
theorem C04_precedence (last : Option Tok) (s : Str) (e : Expr) (h : (parse last s).1 = .ok e)
    (hp : ((lex last s).1.countP (· == .openParen)) = (lex last s).1.countP Tok.isCallName) : e.PrecWF := by
  obtain ⟨c, h1, -, h3, h4⟩ := C02_parse_sound last s e h
  have hg : c.groups = 0 := by
    have := groups_expr c
    rw [h1] at this
    simp only [excess, hp] at this
    omega
  rw [← h3]
  exact wf_expr c h4 hg

/-- C04, unambiguity: two derivations of the same tokens that obey the precedence rules have the same AST. -/
theorem C04_unambiguous (c d : G.CExpr) (hc : c.PrecOK) (hd : d.PrecOK) (h : c.toks = d.toks) : c.val = d.val := by
  have h1 := parseToks_complete c hc
  have h2 := parseToks_complete d hd
  rw [h, h2] at h1
  injection h1 with h1
  exact h1.symm

/-- C04, left associativity: `a op b op' c` with operators of one row is `(a op b) op' c`, whatever
single expressions `a`, `b`, `c` (paths, calls, parenthesised expressions) are. -/
theorem C04_left_assoc (a b c : G.CExpr) (op op' : G.Op) (hrow : op.prec = op'.prec) (ha : a.PrecOK) (hb : b.PrecOK) (hc : c.PrecOK)
    (ea : a.rightEdge = []) (eb : b.leftEdge = [] ∧ b.rightEdge = []) (ec : c.leftEdge = []) :
    parseToks (a.toks ++ op.tok :: (b.toks ++ op'.tok :: c.toks)) = .ok (.binary (.binary a.val op.val b.val) op'.val c.val) := by
  have := parseToks_complete (.bin (.bin a op b) op' c)
    ⟨⟨ha, hb, by simp [ea], by simp [eb]⟩, hc, by simp [G.CExpr.rightEdge, eb, hrow], by simp [ec]⟩
  simpa [G.CExpr.toks, G.CExpr.val] using this

/-- C04, rows: `a op b op' c` is `a op (b op' c)` if `op'` is in a higher row. -/
theorem C04_higher_row (a b c : G.CExpr) (op op' : G.Op) (hrow : op.prec < op'.prec) (ha : a.PrecOK) (hb : b.PrecOK) (hc : c.PrecOK)
    (ea : a.rightEdge = []) (eb : b.leftEdge = [] ∧ b.rightEdge = []) (ec : c.leftEdge = []) :
    parseToks (a.toks ++ op.tok :: (b.toks ++ op'.tok :: c.toks)) = .ok (.binary a.val op.val (.binary b.val op'.val c.val)) := by
  have := parseToks_complete (.bin a op (.bin b op' c))
    ⟨ha, ⟨hb, hc, by simp [eb], by simp [ec]⟩, by simp [ea], by simp [G.CExpr.leftEdge, eb, hrow]⟩
  simpa [G.CExpr.toks, G.CExpr.val] using this

/-- The table itself, row by row. -/
theorem C04_rows : G.Op.or.prec < G.Op.and.prec ∧ (∀ n, G.Op.and.prec < (G.Op.equal n).prec)
    ∧ (∀ n g e, (G.Op.equal n).prec < (G.Op.rel g e).prec) ∧ (∀ g e, (G.Op.rel g e).prec < G.Op.plus.prec)
    ∧ G.Op.plus.prec = G.Op.minus.prec ∧ G.Op.minus.prec < G.Op.mult.prec ∧ G.Op.mult.prec = G.Op.div.prec
    ∧ G.Op.div.prec = G.Op.mod.prec ∧ G.Op.mod.prec < 7 ∧ 7 < G.Op.union.prec := by
  decide

/-- An expression to which `C04_precedence` applies. -/
example : (parse none (c%"a or b = c - d - e * -f | g and h(i, j)")).1.isOk = true ∧
    ((lex none (c%"a or b = c - d - e * -f | g and h(i, j)")).1.countP (· == .openParen))
      = (lex none (c%"a or b = c - d - e * -f | g and h(i, j)")).1.countP Tok.isCallName := by decide
/-- An expression to which `C04_left_assoc` applies: `a - b + c`. -/
example : parseToks [.ncname (c%"a"), .minusOp, .ncname (c%"b"), .plusOp, .ncname (c%"c")] =
    .ok (.binary (.binary (.step none (.name none (c%"a")) []) .minus (.step none (.name none (c%"b")) [])) .plus (.step none (.name none (c%"c")) [])) :=
  C04_left_assoc (.rel (.step (.test (.qname (.unprefixed (c%"a")))))) (.rel (.step (.test (.qname (.unprefixed (c%"b"))))))
    (.rel (.step (.test (.qname (.unprefixed (c%"c")))))) .minus .plus rfl trivial trivial trivial rfl ⟨rfl, rfl⟩ rfl

/-! ### C05: serialize after parse -/

/-- C05 is false as stated: grouping parentheses are dropped (`(a or b) and c`), ... -/
theorem C05_counterexample_grouping [PyUnicode] : ∃ s e, parse0 s = .ok e ∧ parse0 e.ser ≠ .ok e := by
  refine ⟨c%"(a or b) and c", .binary (.binary (.step none (.name none (c%"a")) []) .or (.step none (.name none (c%"b")) [])) .and
    (.step none (.name none (c%"c")) []), by decide, ?_⟩
  have : Expr.ser (.binary (.binary (.step none (.name none (c%"a")) []) .or (.step none (.name none (c%"b")) [])) .and
    (.step none (.name none (c%"c")) [])) = c%"a or b and c" := by rfl
  rw [this]; decide

/-- ... `/` is written `/None`, ... -/
theorem C05_counterexample_root [PyUnicode] : parse0 (c%"/") = .ok .root ∧ Expr.ser .root = c%"/None" ∧ parse0 (Expr.ser .root) ≠ .ok .root := by
  have : Expr.ser .root = c%"/None" := by rfl
  rw [this]; decide

/-- ... the literal of a node type test is written without quotes, ... -/
theorem C05_counterexample_node_type [PyUnicode] : ∃ s e, parse0 s = .ok e ∧ parse0 e.ser = .error .runtimeError := by
  refine ⟨c%"processing-instruction('x')", .step none (.type (c%"processing-instruction") (some c%"x")) [], by decide, ?_⟩
  have : Expr.ser (.step none (.type (c%"processing-instruction") (some c%"x")) []) = c%"processing-instruction(x)" := by rfl
  rw [this]; decide

/-- ... and no blank is written between a name and a minus sign. -/
theorem C05_counterexample_minus [PyUnicode] : ∃ s e, parse0 s = .ok e ∧ parse0 e.ser ≠ .ok e := by
  refine ⟨c%"a - b", .binary (.step none (.name none (c%"a")) []) .minus (.step none (.name none (c%"b")) []), by decide, ?_⟩
  have : Expr.ser (.binary (.step none (.name none (c%"a")) []) .minus (.step none (.name none (c%"b")) [])) = c%"a-b" := by rfl
  rw [this]; decide

/-- C05, for expressions without grouping parentheses and without a lone `/`, whose leaves can be written
down (`lexSafe`: no literal with escapes, no exponent, no node type literal, no minus directly after a
name).  Excluded: the cases of the `C05_counterexample_*` theorems, where the claim is false. -/
theorem C05_faithful [PyUnicode] (s : Str) (e : Expr) (h : parse0 s = .ok e)
    (hp : ((lex none s).1.countP (· == .openParen)) = (lex none s).1.countP Tok.isCallName)
    (hr : e.hasRoot = false) (hs : e.lexSafe = true) : parse0 e.ser = .ok e := by
  obtain ⟨c, h1, -, h3, h4⟩ := C02_parse_sound none s e h
  have hg : c.groups = 0 := by
    have := groups_expr c
    rw [h1] at this
    simp only [excess, hp] at this
    omega
  have hsh := sh_expr c h4 hg (by rw [h3]; exact hr)
  rw [h3] at hsh
  unfold parse0
  rw [C01_round_trip e (by simp [Expr.canonical, hsh, hs])]

example : ∃ e, parse0 (c%"a:b [ @id = 'x' and position( ) < 3 ] // text( ) | - $v / child :: * [ . = 1.50 ]") = .ok e ∧ e.hasRoot = false ∧ e.lexSafe = true
    ∧ e.ser = c%"a:b[@id='x' and position()<3]//text()|-$v/child::*[.=1.5]" :=
  ⟨.binary
    (.binary (.step none (.name (some c%"a") (c%"b")) [.binary
        (.binary (.step (some c%"@") (.name none (c%"id")) []) .eq (.lit c%"x")) .and
        (.binary (.call none (c%"position") []) .lt (.int 3))]) .dslash (.step none (.type (c%"text") none) []))
    .union
    (.neg (.binary (.var none (c%"v")) .slash
      (.step (some c%"child") (.name none (c%"*")) [.binary (.abbrev false) .eq (.float ⟨15, 1⟩)]))), by decide⟩

/-! ### C06: independence of history -/

/-- The state of the module's lexer after a sequence of `parse` calls. -/
def stateAfter : Option Tok → List Str → Option Tok
  | last, [] => last
  | last, s :: hist => stateAfter (parse last s).2 hist

/-- C06 is false: after the failed call `parse('a b')`, `parse('text()')` fails, and `parse('*')` too. -/
theorem C06_counterexample : ∃ hist s, (parse (stateAfter none hist) s).1 ≠ (parse none s).1 :=
  ⟨[c%"a b"], c%"text()", by decide⟩

theorem parse_ok_state {last s e} (h : (parse last s).1 = .ok e) : (parse last s).2 = none := by
  unfold parse at h ⊢
  simp only at h ⊢
  generalize parseExpr _ _ _ = z at h ⊢
  rcases z with (_ | ⟨_ | ⟨t, r⟩⟩) | ⟨e', _ | ⟨t, r⟩⟩
  · cases h
  · simp only at h ⊢; split at h <;> cases h
  · cases h
  · simp only at h ⊢
    split at h
    · cases h
    · rename_i hf; simp [hf]
  · cases h

theorem stateAfter_append (last) (a b : List Str) : stateAfter last (a ++ b) = stateAfter (stateAfter last a) b := by
  induction a generalizing last with
  | nil => rfl
  | cons s a ih => exact ih _

theorem classify_ctx {a b : Option Tok} (h : blocked a = blocked b) (rs err) : classify a rs err = classify b rs err := by
  cases rs with
  | nil => rfl
  | cons t rs => cases t <;> simp [classify, h]

theorem classify_first {t : Tok} (ht : t ≠ .starOp ∧ ∀ n, t ≠ .ncname n) (a b rs err) :
    classify a (t :: rs) err = classify b (t :: rs) err := by
  cases t <;> first | rfl | exact absurd rfl ht.1 | exact absurd rfl (ht.2 _)

theorem parse_of_lex {a b s} (h : lex a s = lex b s) : (parse a s).1 = (parse b s).1 := by
  unfold parse
  rw [h]
  simp only
  generalize parseExpr _ _ _ = z
  rcases z with (_ | ⟨_ | ⟨t, r⟩⟩) | ⟨e', _ | ⟨t, r⟩⟩ <;> simp only <;> split <;> rfl

/-- C06. after any history of calls, failed ones included, `parse(s)` gives what it gives in
a fresh process, provided that the last call of the history succeeded, or that `s` starts with a token
other than `*` and a name.  Excluded: histories that end in a failure, followed by an `s` that starts with
a name or `*` (there the claim is false, `C06_counterexample`). -/
theorem C06_history (hist : List Str) (s : Str)
    (h : (∀ h' s', hist = h' ++ [s'] → ∃ e, (parse (stateAfter none h') s').1 = .ok e) ∨
      (∀ t, (rawLex s).1.head? = some t → t ≠ .starOp ∧ ∀ n, t ≠ .ncname n)) :
    (parse (stateAfter none hist) s).1 = (parse none s).1 := by
  rcases h with h | h
  · suffices stateAfter none hist = none by rw [this]
    rcases List.eq_nil_or_concat hist with rfl | ⟨h', s', rfl⟩
    · rfl
    · rw [List.concat_eq_append] at h ⊢
      obtain ⟨e, he⟩ := h h' s' rfl
      rw [stateAfter_append]
      exact parse_ok_state he
  · apply parse_of_lex
    unfold lex
    cases hr : (rawLex s).1 with
    | nil => rfl
    | cons t rs =>
      rw [hr] at h
      exact classify_first (h t rfl) _ _ _ _

/-- C06 for a history of failures that are noticed at the end of the input: they leave no trace either
(so the next call behaves as in a fresh process). -/
theorem C06_eof (last : Option Tok) (s : Str) (ts : List Tok) (hl : lex last s = (ts, false))
    (hs : parseToks ts = .error (.syntax [])) : (parse last s).2 = none := by
  unfold parse
  simp only [hl]
  unfold parseToks at hs
  generalize parseExpr _ _ _ = z at hs ⊢
  rcases z with (_ | ⟨_ | ⟨t, r⟩⟩) | ⟨e', _ | ⟨t, r⟩⟩ <;> simp at hs ⊢

/-- Histories to which `C06_history` applies: a failure followed by a success; a failure followed by a
path that starts with `/` or `@`. -/
example : (parse (stateAfter none [c%"a b", c%"@x[", c%"a/b"]) (c%"text()")).1 = (parse none (c%"text()")).1 :=
  C06_history _ _ (.inl (by
    intro h' s' he
    have : h' = [c%"a b", c%"@x["] ∧ s' = c%"a/b" := by
      have := congrArg List.getLast? he
      have h2 := congrArg List.dropLast he
      simp at this h2
      exact ⟨h2.symm, this.symm⟩
    obtain ⟨rfl, rfl⟩ := this
    exact ⟨.binary (.step none (.name none (c%"a")) []) .slash (.step none (.name none (c%"b")) []), by decide⟩))
example : (parse (stateAfter none [c%"a b"]) (c%"//text()")).1 = (parse none (c%"//text()")).1 :=
  C06_history _ _ (.inr (by
    intro t ht
    have : t = .abbrevPathSep := by
      have h : (rawLex (c%"//text()")).1.head? = some .abbrevPathSep := by decide
      rw [h] at ht; exact (Option.some.inj ht).symm
    subst this; simp))

/-! ### the theorems on concrete inputs -/

/-- The derivation of `a or b and c` whose root is `and`: it is not the one that the table of precedences allows, but parse finds that one. -/
def wrongRoot : G.CExpr := .bin (.bin (.rel (.step (.test (.qname (.unprefixed (c%"a")))))) .or (.rel (.step (.test (.qname (.unprefixed (c%"b"))))))) .and
  (.rel (.step (.test (.qname (.unprefixed (c%"c"))))))

example : ∃ d : G.CExpr, d.toks = wrongRoot.toks ∧ d.PrecOK ∧ parse none (c%"a or b and c") = (.ok d.val, none) :=
  C03_parse_complete none (c%"a or b and c") wrongRoot (by decide)

example : (lex none c%"a or").2 = true ∨ ¬ ∃ c : G.CExpr, c.toks = (lex none c%"a or").1 := C03_reject none c%"a or" .runtimeError (by decide +kernel)

example : parse0 (Expr.ser (.float ⟨10 ^ 16, 0⟩)) = .error .runtimeError := C01_exponent_refused ⟨10 ^ 16, 0⟩ (by decide)

example : ∃ c : G.CExpr, c.toks = (lex none c%"a or b and c").1 ∧ (lex none c%"a or b and c").2 = false ∧
    c.val = .binary (.step none (.name none (c%"a")) []) .or (.binary (.step none (.name none (c%"b")) []) .and (.step none (.name none (c%"c")) [])) ∧ c.PrecOK :=
  C02_parse_sound none c%"a or b and c" _ (by decide)

example : Expr.PrecWF (.binary (.step none (.name none (c%"a")) []) .or (.binary (.step none (.name none (c%"b")) []) .and (.step none (.name none (c%"c")) []))) :=
  C04_precedence none c%"a or b and c" _ (by decide) (by decide)

/-- `a or b and c` again, by `C04_higher_row`. -/
example : parseToks [.ncname (c%"a"), .orOp, .ncname (c%"b"), .andOp, .ncname (c%"c")] =
    .ok (.binary (.step none (.name none (c%"a")) []) .or (.binary (.step none (.name none (c%"b")) []) .and (.step none (.name none (c%"c")) []))) :=
  C04_higher_row (.rel (.step (.test (.qname (.unprefixed (c%"a")))))) (.rel (.step (.test (.qname (.unprefixed (c%"b"))))))
    (.rel (.step (.test (.qname (.unprefixed (c%"c")))))) .or .and (by decide) trivial trivial trivial rfl ⟨rfl, rfl⟩ rfl

/-- The other derivation: its root is `or`. -/
def rightRoot : G.CExpr := .bin (.rel (.step (.test (.qname (.unprefixed (c%"a")))))) .or
  (.bin (.rel (.step (.test (.qname (.unprefixed (c%"b")))))) .and (.rel (.step (.test (.qname (.unprefixed (c%"c")))))))

/-- Any derivation of `a or b and c` that follows the table has this value. -/
example (d : G.CExpr) (hd : d.PrecOK) (h : d.toks = rightRoot.toks) :
    d.val = .binary (.step none (.name none (c%"a")) []) .or (.binary (.step none (.name none (c%"b")) []) .and (.step none (.name none (c%"c")) [])) :=
  C04_unambiguous d rightRoot hd ⟨trivial, ⟨trivial, trivial, by decide, by decide⟩, by decide, by decide⟩ h

example : parse0 (Expr.ser (.binary (.step none (.name none (c%"a")) []) .or (.step none (.name none (c%"b")) []))) =
    .ok (.binary (.step none (.name none (c%"a")) []) .or (.step none (.name none (c%"b")) [])) :=
  C05_faithful c%" a  or b" _ (by decide) (by decide) (by decide) (by decide)

/-- An expression that ends too early leaves nothing for the next call. -/
example : (parse none c%"a or").2 = none := C06_eof none c%"a or" [.ncname c%"a", .orOp] (by decide) (by decide +kernel)

end Props
