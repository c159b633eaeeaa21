import Verif.XPath.RoundTripParse
import Verif.XPath.NumLemmas
/-
The lexer reads the serialisation of a canonical AST as the expected tokens.
-/
namespace XPath

/-- What the raw lexer says for a token: names are not classified yet, `*` is always a star. -/
def Tok.raw : Tok → Tok
  | .nodeType s => .ncname s
  | .funcName s => .ncname s
  | .axisName s => .ncname s
  | .orOp => .ncname ['o', 'r']
  | .andOp => .ncname ['a', 'n', 'd']
  | .divOp => .ncname ['d', 'i', 'v']
  | .modOp => .ncname ['m', 'o', 'd']
  | .multOp => .starOp
  | t => t

/-- The text `k` cannot be absorbed by the token that ends before it (`nm`: a name). -/
def Stopped (nm : Bool) (k : Str) : Prop :=
  ∀ c r, k = c :: r → c ≠ 'À' ∧ (isNameChar c = false ∨ (nm = false ∧ c = '-'))

theorem Stopped.weaken {nm k} (h : Stopped true k) : Stopped nm k := by
  intro c r hk
  obtain ⟨h1, h2⟩ := h c r hk
  exact ⟨h1, .inl (by simpa using h2)⟩

theorem stopped_nil (nm) : Stopped nm [] := by intro c r h; cases h

theorem stopped_cons {nm c r} (h1 : c ≠ 'À') (h2 : isNameChar c = false ∨ (nm = false ∧ c = '-')) : Stopped nm (c :: r) := by
  intro c' r' h; cases h; exact ⟨h1, h2⟩

theorem Stopped.digit {nm k} (h : Stopped nm k) : ∀ c r, k = c :: r → isDigit c = false ∧ c ≠ '.' := by
  intro c r hk
  obtain ⟨-, h2⟩ := h c r hk
  rcases h2 with h2 | ⟨-, rfl⟩
  · constructor
    · simp [isNameChar, isNameExtra] at h2
      simp [isDigit]; tauto
    · rintro rfl; revert h2; decide
  · decide

theorem plainStart {c} (h : Spec.ncNameStart c = true) (hb : Spec.brokenRange c = false) : isNameStart c = true := by
  simp [Spec.ncNameStart, Spec.brokenRange] at h hb
  simp [isNameStart, inRange]
  by_cases h_ : c = '_'
  · subst h_; decide
  · simp only [h_, false_or, or_false] at h ⊢
    omega

theorem plainChar {c} (h : Spec.ncNameChar c = true) (hb : Spec.brokenRange c = false) : isNameChar c = true := by
  simp only [Spec.ncNameChar, Bool.or_eq_true] at h
  simp only [isNameChar, isNameExtra, Bool.or_eq_true, inRange] at *
  rcases h with (((((h | h) | h) | h) | h) | h) | h
  · exact .inl (plainStart h hb)
  · tauto
  · tauto
  · tauto
  · simp at h; simp [h]
  · tauto
  · tauto

theorem nameStart_facts {c} (h : isNameStart c = true) : ¬ (c = '"' ∨ c = '\'') ∧ isDigit c = false ∧ c ≠ '.' ∧ isWs c = false := by
  refine ⟨?_, ?_, ?_, ?_⟩
  · rintro (rfl | rfl) <;> revert h <;> decide
  · simp [isNameStart, inRange] at h
    simp [isDigit, inRange]
    by_cases h_ : c = '_'
    · subst h_; decide
    · simp only [h_, false_or, or_false] at h ⊢
      omega
  · rintro rfl; revert h; decide
  · by_contra hw
    simp only [Bool.not_eq_false] at hw
    simp [isWs] at hw
    rcases hw with ((rfl | rfl) | rfl) | rfl <;> revert h <;> decide

theorem nameTail_all {s k : Str} (hs : ∀ c ∈ s, isNameChar c = true) (hk : Stopped true k) :
    nameTailK 0 (s ++ k) = (s, k) := by
  induction s with
  | nil =>
    cases k with
    | nil => rfl
    | cons c r =>
      obtain ⟨h1, h2⟩ := hk c r rfl
      simp at h2
      have : startsBroken (c :: r) = false := by simp [startsBroken, h1]
      simp [nameTailK, h2, this]
  | cons c s ih =>
    simp at hs
    simp [nameTailK, hs.1, ih hs.2]

theorem plainName_cases {s} (h : Spec.plainName s = true) : ∃ c cs, s = c :: cs ∧ isNameStart c = true ∧ ∀ d ∈ cs, isNameChar d = true := by
  rcases s with _ | ⟨c, cs⟩
  · simp [Spec.plainName, Spec.isNCName] at h
  · simp [Spec.plainName, Spec.isNCName] at h
    obtain ⟨⟨h1, h2⟩, h3, h4⟩ := h
    exact ⟨c, cs, rfl, plainStart h1 h3, fun d hd => plainChar (h2 d hd) (h4 d hd)⟩

theorem rawTok_name {s k} (h : Spec.plainName s = true) (hk : Stopped true k) :
    rawTok (s ++ k) = some (.ncname s, k) := by
  obtain ⟨c, cs, rfl, h1, h2⟩ := plainName_cases h
  obtain ⟨f1, f2, f3, f4⟩ := nameStart_facts h1
  simp only [List.cons_append, rawTok, if_neg f1, f2, f3, ncname, h1, nameTail, nameTail_all h2 hk, if_true, if_false]
  simp

/-! ### Raw level -/

/-- `s` is read as the raw tokens `rs`. -/
def RL (s : Str) (rs : List Tok) : Prop := rawLex s = (rs, false)

theorem RL.tok {s k t rs} (h : rawTok s = some (t, k)) (hw : ∀ c r, s = c :: r → isWs c = false) (hk : RL k rs) :
    RL s (t :: rs) := by
  cases s with
  | nil => simp [rawTok] at h
  | cons c s =>
    unfold RL at *
    rw [rawLex_tok (hw c s rfl) h, hk]

theorem RL.ws {s rs} (hk : RL s rs) : RL (' ' :: s) rs := by
  unfold RL at *
  rw [rawLex_ws (by decide), hk]

theorem RL.name {s k rs} (h : Spec.plainName s = true) (hs : Stopped true k) (hk : RL k rs) : RL (s ++ k) (.ncname s :: rs) := by
  refine RL.tok (rawTok_name h hs) ?_ hk
  intro c r hc
  obtain ⟨c', cs, rfl, h1, -⟩ := plainName_cases h
  cases hc
  exact (nameStart_facts h1).2.2.2

theorem RL.openParen {k rs} (hk : RL k rs) : RL ('(' :: k) (.openParen :: rs) :=
  RL.tok (by rfl) (by intro c r h; cases h; decide) hk
theorem RL.closeParen {k rs} (hk : RL k rs) : RL (')' :: k) (.closeParen :: rs) :=
  RL.tok (by rfl) (by intro c r h; cases h; decide) hk
theorem RL.openBracket {k rs} (hk : RL k rs) : RL ('[' :: k) (.openBracket :: rs) :=
  RL.tok (by rfl) (by intro c r h; cases h; decide) hk
theorem RL.closeBracket {k rs} (hk : RL k rs) : RL (']' :: k) (.closeBracket :: rs) :=
  RL.tok (by rfl) (by intro c r h; cases h; decide) hk
theorem RL.comma {k rs} (hk : RL k rs) : RL (',' :: k) (.comma :: rs) :=
  RL.tok (by rfl) (by intro c r h; cases h; decide) hk
theorem RL.dollar {k rs} (hk : RL k rs) : RL ('$' :: k) (.dollar :: rs) :=
  RL.tok (by rfl) (by intro c r h; cases h; decide) hk
theorem RL.minus {k rs} (hk : RL k rs) : RL ('-' :: k) (.minusOp :: rs) :=
  RL.tok (by rfl) (by intro c r h; cases h; decide) hk
theorem RL.at {k rs} (hk : RL k rs) : RL ('@' :: k) (.axisAt :: rs) :=
  RL.tok (by rfl) (by intro c r h; cases h; decide) hk
theorem RL.star {k rs} (hk : RL k rs) : RL ('*' :: k) (.starOp :: rs) :=
  RL.tok (by rfl) (by intro c r h; cases h; decide) hk
theorem RL.axisSep {k rs} (hk : RL k rs) : RL (':' :: ':' :: k) (.axisSep :: rs) :=
  RL.tok (by rfl) (by intro c r h; cases h; decide) hk
theorem RL.dslash {k rs} (hk : RL k rs) : RL ('/' :: '/' :: k) (.abbrevPathSep :: rs) :=
  RL.tok (by rfl) (by intro c r h; cases h; decide) hk
theorem RL.parent {k rs} (hk : RL k rs) : RL ('.' :: '.' :: k) (.stepParent :: rs) :=
  RL.tok (by rfl) (by intro c r h; cases h; decide) hk
theorem RL.self {nm k rs} (hs : Stopped nm k) (hk : RL k rs) : RL ('.' :: k) (.stepSelf :: rs) := by
  refine RL.tok ?_ (by intro c r h; cases h; decide) hk
  cases k with
  | nil => rfl
  | cons c k =>
    obtain ⟨h1, h2⟩ := hs.digit c k rfl
    have hd : isDigit '.' = false := by decide
    simp [rawTok, hd, spanDigits, h1, eat, h2]

theorem RL.colon {c k rs} (hc : c ≠ ':') (hk : RL (c :: k) rs) : RL (':' :: c :: k) (.colon :: rs) := by
  refine RL.tok ?_ (by intro c r h; cases h; decide) hk
  show symTok ':' (c :: k) = _
  simp [symTok, show sym2 ':' = some (':', .axisSep) from rfl, show sym1 ':' = some .colon from rfl, eat, hc]
theorem RL.slash {c k rs} (hc : c ≠ '/') (hk : RL (c :: k) rs) : RL ('/' :: c :: k) (.pathSep :: rs) := by
  refine RL.tok ?_ (by intro c r h; cases h; decide) hk
  show symTok '/' (c :: k) = _
  simp [symTok, show sym2 '/' = some ('/', .abbrevPathSep) from rfl, show sym1 '/' = some .pathSep from rfl, eat, hc]
theorem RL.lt {c k rs} (hc : c ≠ '=') (hk : RL (c :: k) rs) : RL ('<' :: c :: k) (.relOp false false :: rs) := by
  refine RL.tok ?_ (by intro c r h; cases h; decide) hk
  show symTok '<' (c :: k) = _
  simp [symTok, show sym2 '<' = some ('=', .relOp false true) from rfl, show sym1 '<' = some (.relOp false false) from rfl, eat, hc]
theorem RL.gt {c k rs} (hc : c ≠ '=') (hk : RL (c :: k) rs) : RL ('>' :: c :: k) (.relOp true false :: rs) := by
  refine RL.tok ?_ (by intro c r h; cases h; decide) hk
  show symTok '>' (c :: k) = _
  simp [symTok, show sym2 '>' = some ('=', .relOp true true) from rfl, show sym1 '>' = some (.relOp true false) from rfl, eat, hc]

theorem repr_body [PyUnicode] {q : Char} {s : Str} (h : ∀ c ∈ s, c ≠ '\\' ∧ isPrintable c = true) (hq : q ∉ s) :
    s.flatMap (reprChar q) = s := by
  induction s with
  | nil => rfl
  | cons c s ih =>
    simp at h hq
    have hn : c ≠ '\n' ∧ c ≠ '\r' ∧ c ≠ '\t' := by
      refine ⟨?_, ?_, ?_⟩ <;> rintro rfl <;> have := h.1.2 <;> simp [isPrintable] at this
    have : reprChar q c = [c] := by
      simp [reprChar, Ne.symm hq.1, h.1, hn]
    rw [List.flatMap_cons, this, ih h.2 hq.2]; rfl

theorem RL.literal [PyUnicode] {s k rs} (h : Spec.plainLit s = true) (hk : RL k rs) : RL (reprStr s ++ k) (.literal s :: rs) := by
  simp only [Spec.plainLit, Bool.and_eq_true, List.all_eq_true, Bool.not_eq_true', Bool.and_eq_false_iff] at h
  obtain ⟨h1, h2⟩ := h
  have hq : reprQuote s ∉ s ∧ (reprQuote s = '"' ∨ reprQuote s = '\'') := by
    unfold reprQuote
    split
    · rename_i h; simp [h.2]
    · rename_i h; simp; intro h'; apply h; refine ⟨h', ?_⟩; simpa [h'] using h2
  have hb := repr_body (q := reprQuote s) (s := s) (fun c hc => by simpa using h1 c hc) hq.1
  unfold reprStr
  rw [hb]
  refine RL.tok ?_ ?_ hk
  · simp only [List.cons_append, rawTok, if_pos hq.2, List.append_assoc, List.nil_append, spanQuote_of hq.1]
  · intro c r h
    cases h
    rcases hq.2 with h | h <;> rw [h] <;> decide

/-- First characters that no operator before them absorbs (`rel`: `/` excluded as well). -/
def HeadOK (rel : Bool) (s : Str) : Prop := ∃ c r, s = c :: r ∧ c ≠ '=' ∧ c ≠ ':' ∧ (rel = true → c ≠ '/')

theorem HeadOK.append {b s t} (h : HeadOK b s) : HeadOK b (s ++ t) := by
  obtain ⟨c, r, rfl, h⟩ := h
  exact ⟨c, r ++ t, rfl, h⟩

theorem headOK_name {b s} (h : Spec.plainName s = true) : HeadOK b s := by
  obtain ⟨c, cs, rfl, h1, -⟩ := plainName_cases h
  refine ⟨c, cs, rfl, ?_, ?_, ?_⟩
  · rintro rfl; revert h1; decide
  · rintro rfl; revert h1; decide
  · rintro - rfl; revert h1; decide

theorem headOK_lit {b : Bool} {c : Char} {r : Str} (h1 : c ≠ '=') (h2 : c ≠ ':') (h3 : c ≠ '/') : HeadOK b (c :: r) :=
  ⟨c, r, rfl, h1, h2, fun _ => h3⟩

theorem headOK_digits {b s} (h : s ≠ []) (hd : ∀ c ∈ s, isDigit c = true) : HeadOK b s := by
  rcases s with _ | ⟨c, r⟩
  · exact absurd rfl h
  simp at hd
  refine ⟨c, r, rfl, ?_, ?_, ?_⟩
  · rintro rfl; exact absurd hd.1 (by decide)
  · rintro rfl; exact absurd hd.1 (by decide)
  · rintro - rfl; exact absurd hd.1 (by decide)

theorem serQName_eq {p nm : Str} (hp : Spec.plainName p = true) : serQName (some p) nm = p ++ ':' :: nm := by
  obtain ⟨c, cs, rfl, h1, -⟩ := plainName_cases hp
  rfl

theorem nodeType_plain {nm} (h : Spec.isNodeTypeName nm = true) : Spec.plainName nm = true := by
  simp only [Spec.isNodeTypeName, Bool.or_eq_true, beq_iff_eq] at h
  rcases h with ((rfl | rfl) | rfl) | rfl <;> decide

theorem headOK_test {b t} (h : Spec.testOK t = true) : HeadOK b t.ser := by
  match t with
  | .name none nm =>
    simp [Spec.testOK] at h
    rcases h with rfl | h
    · exact headOK_lit (by decide) (by decide) (by decide)
    · exact headOK_name h
  | .name (some p) nm =>
    simp [Spec.testOK] at h
    simp only [NodeTest.ser, serQName_eq h.1]
    exact (headOK_name h.1).append
  | .type nm lit =>
    simp [Spec.testOK] at h
    exact (headOK_name (nodeType_plain h.1)).append

theorem serAxis_name {a : Str} (h : Spec.plainName a = true) : serAxis (some a) = a ++ [':', ':'] ∧ a ≠ ['@'] := by
  obtain ⟨c, cs, rfl, h1, -⟩ := plainName_cases h
  have : c :: cs ≠ ['@'] := by
    intro h; cases h; revert h1; decide
  simp [serAxis, this]

theorem headOK_axis {b ax} {s : Str} (h : Spec.axisOK ax = true) (hs : HeadOK b s) : HeadOK b (serAxis ax ++ s) := by
  match ax with
  | none => exact hs
  | some a =>
    simp [Spec.axisOK] at h
    rcases h with rfl | h
    · exact headOK_lit (by decide) (by decide) (by decide)
    · rw [(serAxis_name h).1]
      exact ((headOK_name h).append).append

theorem ser_head [PyUnicode] : ∀ {e : Expr} {k : Kind}, e.shape = some k → e.lexSafe = true → HeadOK k.isRel e.ser
  | .lit s, _, _, _ => by
    unfold Expr.ser reprStr reprQuote
    split <;> exact headOK_lit (by decide) (by decide) (by decide)
  | .int n, _, _, _ => headOK_digits (natStr_spec n).1 (natStr_spec n).2.1
  | .float f, _, _, h => by
    simp only [Expr.lexSafe, plainFloat_eq, Bool.and_eq_true] at h
    simp only [Expr.ser, PyFloat.str, h.1, if_true]
    exact (headOK_digits (natStr_spec _).1 (natStr_spec _).2.1).append
  | .neg e, _, _, _ => headOK_lit (by decide) (by decide) (by decide)
  | .pred b ps, _, _, _ => headOK_lit (by decide) (by decide) (by decide)
  | .root, _, h, _ => by simp [Expr.shape] at h
  | .abs d r, k, h, _ => by
    have : k.isRel = false := by
      simp only [Expr.shape] at h
      split at h
      · split at h
        · cases h; rfl
        · cases h
      · cases h
    rw [this]
    simp only [Expr.ser]
    split
    · exact ⟨'/', _, rfl, by decide, by decide, by simp⟩
    · exact ⟨'/', _, rfl, by decide, by decide, by simp⟩
  | .abbrev p, _, _, _ => by
    cases p <;> exact headOK_lit (by decide) (by decide) (by decide)
  | .var _ _, _, _, _ => headOK_lit (by decide) (by decide) (by decide)
  | .step ax t ps, _, _, h => by
    simp only [Expr.lexSafe, Bool.and_eq_true] at h
    exact headOK_axis h.1.1 (headOK_test h.1.2).append
  | .call none nm args, _, _, h => by
    simp only [Expr.lexSafe, Bool.and_eq_true] at h
    exact (headOK_name h.1.1).append
  | .call (some p) nm args, _, _, h => by
    simp only [Expr.lexSafe, Bool.and_eq_true] at h
    simp only [Expr.ser, serQName_eq h.1.1.1]
    exact (headOK_name h.1.1.1).append.append
  | .binary l op r, k, h, hl => by
    simp only [Expr.lexSafe, Bool.and_eq_true] at hl
    simp only [Expr.shape] at h
    have : ∃ k', l.shape = some k' ∧ (k.isRel = true → k'.isRel = true) := by
      split at h
      · split at h
        · rename_i hh
          simp only [Bool.and_eq_true, Option.isSome_iff_exists] at hh
          obtain ⟨k', hk'⟩ := hh.1.1.1
          cases h
          exact ⟨k', hk', by simp [Kind.isRel]⟩
        · cases h
      · split at h
        · rename_i kl kr h1 h2
          refine ⟨kl, h1, ?_⟩
          split_ifs at h with g1 g2
          · cases h; simp at g1; simp [g1.1]
          · cases h; simp [Kind.isRel]
        · cases h
    obtain ⟨k', h1, h2⟩ := this
    obtain ⟨c, r', h3, h4, h5, h6⟩ := ser_head h1 hl.1.1
    exact ⟨c, _, by simp only [Expr.ser, h3]; rfl, h4, h5, fun hk => h6 (h2 hk)⟩

theorem stopped_preds [PyUnicode] {nm ps k} (h : ps = [] → Stopped nm k) : Stopped nm (Expr.serPreds ps ++ k) := by
  cases ps with
  | nil => exact h rfl
  | cons p ps => exact stopped_cons (by decide) (.inl (by decide))

theorem stopped_tail [PyUnicode] {nm} {as : List Expr} {k} : Stopped nm (Expr.serArgsTail as ++ ')' :: k) := by
  cases as with
  | nil => exact stopped_cons (by decide) (.inl (by decide))
  | cons p ps => exact stopped_cons (by decide) (.inl (by decide))

theorem stopped_op {nm : Bool} {op : BinOp} {k : Str} (h : op ≠ .minus ∨ nm = false) : Stopped nm (op.ser ++ k) := by
  cases op <;> first
    | exact stopped_cons (by decide) (.inl (by decide))
    | (refine stopped_cons (by decide) (.inr ⟨?_, rfl⟩); simpa using h)

theorem RL.op {op : BinOp} {s : Str} {rs} (hs : HeadOK (op == .slash) s) (hk : RL s rs) :
    RL (op.ser ++ s) (op.tok.raw :: rs) := by
  obtain ⟨c, r, rfl, h1, h2, h3⟩ := hs
  have key : ∀ w : Str, Spec.plainName w = true → RL (w ++ ' ' :: c :: r) (.ncname w :: rs) :=
    fun w hw => RL.name hw (stopped_cons (by decide) (.inl (by decide))) hk.ws
  cases op
  case or => exact (key (c%"or") (by decide)).ws
  case and => exact (key (c%"and") (by decide)).ws
  case div => exact (key (c%"div") (by decide)).ws
  case mod => exact (key (c%"mod") (by decide)).ws
  case eq => exact RL.tok (by rfl) (by intro c r h; cases h; decide) hk
  case ne => exact RL.tok (by rfl) (by intro c r h; cases h; decide) hk
  case lt => exact RL.lt h1 hk
  case le => exact RL.tok (by rfl) (by intro c r h; cases h; decide) hk
  case gt => exact RL.gt h1 hk
  case ge => exact RL.tok (by rfl) (by intro c r h; cases h; decide) hk
  case plus => exact RL.tok (by rfl) (by intro c r h; cases h; decide) hk
  case minus => exact RL.minus hk
  case mult => exact RL.star hk
  case union => exact RL.tok (by rfl) (by intro c r h; cases h; decide) hk
  case slash => exact RL.slash (h3 rfl) hk
  case dslash => exact RL.dslash hk

theorem RL.pcolon {p s : Str} {rs} (hp : Spec.plainName p = true) (hs : HeadOK false s) (hk : RL s rs) :
    RL (p ++ ':' :: s) (.ncname p :: .colon :: rs) := by
  obtain ⟨c, r, rfl, h1, h2, -⟩ := hs
  exact RL.name hp (stopped_cons (by decide) (.inl (by decide))) (RL.colon h2 hk)

/-- Does a node test end with a name? -/
def testEndsName : NodeTest → Bool
  | .name _ nm => nm != ['*']
  | .type _ _ => false

theorem RL.test {t : NodeTest} {k rs} (h : Spec.testOK t = true)
    (hs : Stopped (testEndsName t) k) (hk : RL k rs) :
    RL (t.ser ++ k) ((testToks t).map Tok.raw ++ rs) := by
  match t with
  | .name none nm =>
    simp [Spec.testOK] at h
    by_cases hn : nm = ['*']
    · subst hn; exact RL.star hk
    · simp only [hn, false_or] at h
      have : (nm != ['*']) = true := by simp [hn]
      simp only [testEndsName, this] at hs
      simp only [testToks, if_neg hn]
      exact RL.name h hs hk
  | .name (some p) nm =>
    simp [Spec.testOK] at h
    simp only [NodeTest.ser, serQName_eq h.1, List.append_assoc, List.cons_append]
    by_cases hn : nm = ['*']
    · subst hn
      exact RL.pcolon h.1 (headOK_lit (by decide) (by decide) (by decide)) (RL.star hk)
    · have h2 := h.2
      simp only [hn, false_or] at h2
      have : (nm != ['*']) = true := by simp [hn]
      simp only [testEndsName, this] at hs
      simp only [testToks, if_neg hn]
      exact RL.pcolon h.1 (headOK_name h2).append (RL.name h2 hs hk)
  | .type nm lit =>
    simp [Spec.testOK] at h
    obtain ⟨h1, rfl⟩ := h
    simp only [NodeTest.ser, Option.getD_none, List.nil_append, List.append_assoc, List.cons_append]
    exact RL.name (nodeType_plain h1) (stopped_cons (by decide) (.inl (by decide))) (RL.openParen (RL.closeParen hk))

theorem RL.axis {ax : Option Str} {s rs} (h : Spec.axisOK ax = true) (hk : RL s rs) :
    RL (serAxis ax ++ s) ((axisToks ax).map Tok.raw ++ rs) := by
  match ax with
  | none => exact hk
  | some a =>
    simp [Spec.axisOK] at h
    rcases h with rfl | h
    · exact RL.at hk
    · obtain ⟨h1, h2⟩ := serAxis_name h
      simp only [h1, axisToks, if_neg h2, List.append_assoc, List.cons_append, List.nil_append]
      exact RL.name h (stopped_cons (by decide) (.inl (by decide))) (RL.axisSep hk)

theorem RL.qname {pfx : Option Str} {nm k : Str} {rs} (hp : ∀ p, pfx = some p → Spec.plainName p = true)
    (hn : Spec.plainName nm = true) (hs : Stopped true k) (hk : RL k rs) :
    RL (serQName pfx nm ++ k) ((qnameToks pfx nm).map Tok.raw ++ rs) := by
  match pfx with
  | none => exact RL.name hn hs hk
  | some p =>
    have hp := hp p rfl
    simp only [serQName_eq hp, List.append_assoc, List.cons_append]
    exact RL.pcolon hp (headOK_name hn).append (RL.name hn hs hk)

theorem funcToks_raw (pfx nm) : (funcToks pfx nm).map Tok.raw = (qnameToks pfx nm).map Tok.raw := by
  cases pfx <;> rfl

mutual
/-- The serialisation of a canonical AST is read as the raw form of its tokens. -/
theorem raw_expr [PyUnicode] : ∀ (e : Expr) (k : Str) (rs : List Tok), e.shape.isSome = true → e.lexSafe = true →
    Stopped e.endsName k → RL k rs → RL (e.ser ++ k) (e.toks.map Tok.raw ++ rs)
  | .lit s, k, rs, _, h, _, hk => RL.literal h hk
  | .int n, k, rs, _, _, hs, hk => by
    refine RL.tok (rawTok_int n k hs.digit) ?_ hk
    intro c r hc
    obtain ⟨h1, h2, -⟩ := natStr_spec n
    simp only [Expr.ser] at hc
    generalize natStr n = ds at *
    rcases ds with _ | ⟨d, ds⟩
    · exact absurd rfl h1
    · cases hc; simp at h2; exact (digit_facts h2.1).2.1
  | .float f, k, rs, _, h, hs, hk => by
    refine RL.tok (rawTok_float f h k (fun c r hc => (hs.digit c r hc).1)) ?_ hk
    intro c r hc
    simp only [Expr.lexSafe, plainFloat_eq, Bool.and_eq_true] at h
    simp only [Expr.ser, PyFloat.str, h.1, if_true] at hc
    obtain ⟨h1, h2, -⟩ := natStr_spec (f.mant / 10 ^ f.scale)
    generalize natStr (f.mant / 10 ^ f.scale) = ds at *
    rcases ds with _ | ⟨d, ds⟩
    · exact absurd rfl h1
    · cases hc; simp at h2; exact (digit_facts h2.1).2.1
  | .neg e, k, rs, hsh, h, hs, hk => by
    have : e.shape.isSome = true := by
      simp only [Expr.shape] at hsh
      split at hsh
      · rename_i hh; simp at hh; exact hh.1
      · cases hsh
    exact RL.minus (raw_expr e k rs this h hs hk)
  | .root, _, _, h, _, _, _ => by simp [Expr.shape] at h
  | .abs d r, k, rs, hsh, h, hs, hk => by
    simp only [Expr.shape] at hsh
    split at hsh
    · rename_i kd hkd
      split at hsh
      · rename_i hrel
        have ih := raw_expr r k rs (by simp [hkd]) h hs hk
        have hh := (ser_head hkd h).append (t := k)
        rw [hrel] at hh
        obtain ⟨c, r', h1, -, -, h3⟩ := hh
        simp only [Expr.ser, Expr.toks, List.append_assoc, List.map_cons, List.cons_append]
        rw [h1] at ih ⊢
        cases d
        · exact RL.slash (h3 rfl) ih
        · exact RL.dslash ih
      · cases hsh
    · cases hsh
  | .abbrev p, k, rs, _, _, hs, hk => by
    cases p
    · exact RL.self hs hk
    · exact RL.parent hk
  | .var pfx nm, k, rs, _, h, hs, hk => by
    have : (∀ p, pfx = some p → Spec.plainName p = true) ∧ Spec.plainName nm = true := by
      cases pfx <;> simp [Expr.lexSafe] at h
      · simp [h.1]
      · simp [h.1, h.2]
    exact RL.dollar (RL.qname this.1 this.2 hs hk)
  | .step ax t ps, k, rs, hsh, h, hs, hk => by
    simp only [Expr.lexSafe, Bool.and_eq_true] at h
    have hps : Expr.shapes ps = true := by
      simp only [Expr.shape] at hsh
      split at hsh
      · assumption
      · cases hsh
    have ih := raw_preds ps k rs hps h.2 hk
    simp only [Expr.ser, Expr.toks, List.append_assoc, List.map_append]
    refine RL.axis h.1.1 (RL.test h.1.2 (stopped_preds ?_) ih)
    rintro rfl
    cases t <;> exact hs
  | .pred b ps, k, rs, hsh, h, hs, hk => by
    simp only [Expr.lexSafe, Bool.and_eq_true] at h
    simp only [Expr.shape] at hsh
    split at hsh
    · rename_i hh
      simp only [Bool.and_eq_true] at hh
      have ih := raw_preds ps k rs hh.2 h.2 hk
      have ihb := raw_expr b (')' :: (Expr.serPreds ps ++ k)) _ hh.1.1.1 h.1 (stopped_cons (by decide) (.inl (by decide))) (RL.closeParen ih)
      simpa [Expr.ser, Expr.toks, List.append_assoc, Tok.raw] using RL.openParen ihb
    · cases hsh
  | .call pfx nm args, k, rs, hsh, h, hs, hk => by
    have hps : Expr.shapes args = true := by
      simp only [Expr.shape] at hsh
      split at hsh
      · assumption
      · cases hsh
    have hq : (∀ p, pfx = some p → Spec.plainName p = true) ∧ Spec.plainName nm = true ∧ Expr.argsSafe args = true := by
      cases pfx <;> simp [Expr.lexSafe] at h
      · simp [h.1, h.2]
      · simp [h.1, h.2]
    have ih := raw_args args (')' :: k) (.closeParen :: rs) hps hq.2.2 (by exact ⟨k, rfl⟩) (RL.closeParen hk)
    have := RL.qname (pfx := pfx) (k := '(' :: (Expr.serArgs args ++ ')' :: k)) hq.1 hq.2.1
      (stopped_cons (by decide) (.inl (by decide))) (RL.openParen ih)
    simpa [Expr.ser, Expr.toks, List.append_assoc, funcToks_raw, Tok.raw] using this
  | .binary l op r, k, rs, hsh, h, hs, hk => by
    simp only [Expr.lexSafe, Bool.and_eq_true, Bool.or_eq_true, bne_iff_ne, Bool.not_eq_true'] at h
    have hlr : l.shape.isSome = true ∧ ∃ kr, r.shape = some kr ∧ (op = .slash → kr.isRel = true) := by
      simp only [Expr.shape] at hsh
      split at hsh
      · rename_i p hp
        split at hsh
        · rename_i hh
          simp only [Bool.and_eq_true] at hh
          obtain ⟨kr, hkr⟩ := Option.isSome_iff_exists.mp hh.1.1.2
          exact ⟨hh.1.1.1, kr, hkr, by rintro rfl; simp [BinOp.prec] at hp⟩
        · cases hsh
      · split at hsh
        · rename_i kl kr h1 h2
          refine ⟨by simp [h1], kr, h2, fun _ => ?_⟩
          split_ifs at hsh with g1 g2
          · simp at g1; rw [g1.2]; rfl
          · simp at g2; exact g2.2
          · cases hsh
        · cases hsh
    obtain ⟨h1, kr, h2, h3⟩ := hlr
    have ihr := raw_expr r k rs (by simp [h2]) h.1.2 hs hk
    have hh := (ser_head h2 h.1.2).append (t := k)
    have hh' : HeadOK (op == .slash) (r.ser ++ k) := by
      obtain ⟨c, r', e1, e2, e3, e4⟩ := hh
      exact ⟨c, r', e1, e2, e3, fun ho => e4 (h3 (by simpa using ho))⟩
    have ihl := raw_expr l (op.ser ++ (r.ser ++ k)) _ h1 h.1.1 (stopped_op h.2) (RL.op hh' ihr)
    simpa [Expr.ser, Expr.toks, List.append_assoc] using ihl
theorem raw_preds [PyUnicode] : ∀ (ps : List Expr) (k : Str) (rs : List Tok), Expr.shapes ps = true → Expr.lexSafes ps = true →
    RL k rs → RL (Expr.serPreds ps ++ k) ((Expr.predsToks ps).map Tok.raw ++ rs)
  | [], _, _, _, _, hk => hk
  | p :: ps, k, rs, hsh, h, hk => by
    simp only [Expr.shapes, Expr.lexSafes, Bool.and_eq_true] at hsh h
    have ih := raw_preds ps k rs hsh.2 h.2 hk
    have ihp := raw_expr p (']' :: (Expr.serPreds ps ++ k)) _ hsh.1 h.1 (stopped_cons (by decide) (.inl (by decide))) (RL.closeBracket ih)
    simpa [Expr.serPreds, Expr.predsToks, List.append_assoc, Tok.raw] using RL.openBracket ihp
theorem raw_args [PyUnicode] : ∀ (as : List Expr) (k : Str) (rs : List Tok), Expr.shapes as = true → Expr.argsSafe as = true →
    (∃ k', k = ')' :: k') → RL k rs → RL (Expr.serArgs as ++ k) ((Expr.argsToks as).map Tok.raw ++ rs)
  | [], _, _, _, _, _, hk => hk
  | p :: ps, k, rs, hsh, h, hk', hk => by
    simp only [Expr.shapes, Expr.argsSafe, Bool.and_eq_true] at hsh h
    obtain ⟨k', rfl⟩ := hk'
    have ih := raw_argsTail ps (')' :: k') rs hsh.2 h.2 ⟨k', rfl⟩ hk
    have ihp := raw_expr p (Expr.serArgsTail ps ++ ')' :: k') _ hsh.1 h.1 stopped_tail ih
    simpa [Expr.serArgs, Expr.argsToks, List.append_assoc] using ihp
theorem raw_argsTail [PyUnicode] : ∀ (as : List Expr) (k : Str) (rs : List Tok), Expr.shapes as = true → Expr.argsTailSafe as = true →
    (∃ k', k = ')' :: k') → RL k rs → RL (Expr.serArgsTail as ++ k) ((Expr.argsTailToks as).map Tok.raw ++ rs)
  | [], _, _, _, _, _, hk => hk
  | p :: ps, k, rs, hsh, h, hk', hk => by
    simp only [Expr.shapes, Expr.argsTailSafe, Bool.and_eq_true] at hsh h
    obtain ⟨k', rfl⟩ := hk'
    have ih := raw_argsTail ps (')' :: k') rs hsh.2 h.2 ⟨k', rfl⟩ hk
    have ihp := raw_expr p (Expr.serArgsTail ps ++ ')' :: k') _ hsh.1 h.1.1 stopped_tail ih
    simpa [Expr.serArgsTail, Expr.argsTailToks, List.append_assoc, Tok.raw] using RL.comma ihp
end

/-! ### Classification -/

/-- In context `b` (blocked or not) the raw tokens `rs` are classified as `ts`. -/
def Cl (b : Bool) (rs ts : List Tok) : Prop := ∀ last, blocked last = b → classify last rs false = (ts, false)

theorem peekErr_false (ts : List Tok) : peekErr ts false = false := by
  induction ts with
  | nil => rfl
  | cons t ts ih => cases t <;> simp [peekErr, ih]

/-- Tokens that do not depend on the context. -/
def Tok.plain : Tok → Bool
  | .ncname _ | .starOp | .nodeType _ | .funcName _ | .axisName _ | .orOp | .andOp | .divOp | .modOp | .multOp => false
  | _ => true

theorem Cl.plain {b t rs ts} (h : t.plain = true) (hk : Cl (!t.isForcer) rs ts) : Cl b (t :: rs) (t :: ts) := by
  intro last _
  have := hk (some t) rfl
  cases t <;> simp [Tok.plain] at h <;> simp [classify, this]

theorem Cl.star {rs ts} (hk : Cl true rs ts) : Cl false (.starOp :: rs) (.starOp :: ts) := by
  intro last hl
  simp [classify, hl, hk (some .starOp) rfl]

theorem Cl.mult {rs ts} (hk : Cl false rs ts) : Cl true (.starOp :: rs) (.multOp :: ts) := by
  intro last hl
  simp [classify, hl, hk (some .multOp) rfl]

theorem Cl.kw {s t rs ts} (ho : operatorName s = some t) (hf : t.isForcer = true) (hk : Cl false rs ts) :
    Cl true (.ncname s :: rs) (t :: ts) := by
  intro last hl
  have := hk (some t) (by simp [blocked, hf])
  simp [classify, hl, ho, this]

/-- A name in front of a token that does not reclassify it. -/
theorem Cl.name {b s rs ts} (hb : b = true → Spec.isOperatorName s = false)
    (hn : rs.head? ≠ some .openParen ∧ rs.head? ≠ some .axisSep) (hk : Cl true rs ts) :
    Cl b (.ncname s :: rs) (.ncname s :: ts) := by
  intro last hl
  have hk := hk (some (.ncname s)) rfl
  cases b
  · have : nameByNext s rs.head? = .ncname s := by
      unfold nameByNext
      split
      · exact absurd ‹_› hn.1
      · exact absurd ‹_› hn.2
      · rfl
    simp [classify, hl, peekErr_false, this, hk]
  · have h := hb rfl
    have : operatorName s = none := by
      simp [Spec.isOperatorName] at h
      simp [operatorName, h]
    simp [classify, hl, this, hk]

theorem isNodeType_eq (s) : isNodeType s = Spec.isNodeTypeName s := rfl

theorem Cl.func {s rs ts} (h : Spec.isNodeTypeName s = false) (hk : Cl true (.openParen :: rs) ts) :
    Cl false (.ncname s :: .openParen :: rs) (.funcName s :: ts) := by
  intro last hl
  have := hk (some (.funcName s)) rfl
  simp [classify, hl, peekErr_false, nameByNext, isNodeType_eq, h] at this ⊢
  simp [this]

theorem Cl.nodeType {s rs ts} (h : Spec.isNodeTypeName s = true) (hk : Cl true (.openParen :: rs) ts) :
    Cl false (.ncname s :: .openParen :: rs) (.nodeType s :: ts) := by
  intro last hl
  have := hk (some (.nodeType s)) rfl
  simp [classify, hl, peekErr_false, nameByNext, isNodeType_eq, h] at this ⊢
  simp [this]

theorem Cl.axis {s rs ts} (hk : Cl true (.axisSep :: rs) ts) :
    Cl false (.ncname s :: .axisSep :: rs) (.axisName s :: ts) := by
  intro last hl
  have := hk (some (.axisName s)) rfl
  simp [classify, hl, peekErr_false, nameByNext] at this ⊢
  simp [this]

/-- The next token does not reclassify a name before it. -/
def NotParen (rs : List Tok) : Prop := rs.head? ≠ some .openParen ∧ rs.head? ≠ some .axisSep

theorem notParen_cons {t rs} (h : t ≠ .openParen ∧ t ≠ .axisSep) : NotParen (t :: rs) := by
  unfold NotParen; simpa using h

theorem Cl.op {op : BinOp} {rs ts} (hk : Cl false rs ts) : Cl true (op.tok.raw :: rs) (op.tok :: ts) := by
  cases op
  case or => exact Cl.kw (by rfl) (by rfl) hk
  case and => exact Cl.kw (by rfl) (by rfl) hk
  case div => exact Cl.kw (by rfl) (by rfl) hk
  case mod => exact Cl.kw (by rfl) (by rfl) hk
  case mult => exact Cl.mult hk
  all_goals exact Cl.plain (by rfl) hk

theorem notParen_op {op : BinOp} {rs} : NotParen (op.tok.raw :: rs) := by
  cases op <;> exact notParen_cons (by decide)

theorem Cl.pcolon {b p rs ts} (hb : b = true → Spec.isOperatorName p = false) (hk : Cl false rs ts) :
    Cl b (.ncname p :: .colon :: rs) (.ncname p :: .colon :: ts) :=
  Cl.name hb (by simp) (Cl.plain (by rfl) hk)

theorem Cl.test {b : Bool} {t : NodeTest} {rs ts} (h : Spec.testOK t = true)
    (hb : b = true → (Expr.step none t []).ctxFree = true) (hn : NotParen rs) (hk : Cl true rs ts) :
    Cl b ((testToks t).map Tok.raw ++ rs) (testToks t ++ ts) := by
  match t with
  | .name none nm =>
    by_cases hs : nm = ['*']
    · subst hs
      cases b
      · exact Cl.star hk
      · exact absurd (hb rfl) (by decide)
    · simp only [testToks, if_neg hs]
      refine Cl.name (fun hbt => ?_) hn hk
      have := hb hbt
      simp [Expr.ctxFree] at this
      exact this.2
  | .name (some p) nm =>
    have hp : b = true → Spec.isOperatorName p = false := by
      intro hbt; have := hb hbt; simpa [Expr.ctxFree] using this
    by_cases hs : nm = ['*']
    · subst hs
      exact Cl.pcolon hp (Cl.star hk)
    · simp only [testToks, if_neg hs]
      exact Cl.pcolon hp (Cl.name (by simp) hn hk)
  | .type nm lit =>
    simp [Spec.testOK] at h
    cases b
    · exact Cl.nodeType h.1 (Cl.plain (by rfl) (Cl.plain (by rfl) hk))
    · exact absurd (hb rfl) (by simp [Expr.ctxFree])

theorem Cl.axisToks {b : Bool} {ax : Option Str} {t : NodeTest} {ps rs ts}
    (hb : b = true → (Expr.step ax t ps).ctxFree = true)
    (hk : ∀ b', (b' = true → ax = none ∧ b = true) → Cl b' rs ts) :
    Cl b ((axisToks ax).map Tok.raw ++ rs) (axisToks ax ++ ts) := by
  match ax with
  | none => exact hk b (fun h => ⟨rfl, h⟩)
  | some a =>
    by_cases ha : a = ['@']
    · subst ha
      exact Cl.plain (by rfl) (hk false (by simp))
    · simp only [XPath.axisToks, if_neg ha]
      cases b
      · exact Cl.axis (Cl.plain (by rfl) (hk false (by simp)))
      · have := hb rfl
        simp [Expr.ctxFree, ha] at this

theorem ctxFree_step (t ps) : (Expr.step none t ps).ctxFree = (Expr.step none t []).ctxFree := by
  match t with
  | .name none _ => rfl
  | .name (some _) _ => rfl
  | .type _ _ => rfl

theorem notParen_preds {ps rs} (h : NotParen rs) : NotParen ((Expr.predsToks ps).map Tok.raw ++ rs) := by
  cases ps with
  | nil => exact h
  | cons p ps => exact notParen_cons (by decide)

theorem notParen_tail {as : List Expr} {rs} : NotParen ((Expr.argsTailToks as).map Tok.raw ++ .closeParen :: rs) := by
  cases as with
  | nil => exact notParen_cons (by decide)
  | cons p ps => exact notParen_cons (by decide)

mutual
/-- The raw tokens of a writable AST are classified as its tokens. -/
theorem cl_expr [PyUnicode] : ∀ (e : Expr) (b : Bool) (rs ts : List Tok), e.shape.isSome = true → e.lexSafe = true → (b = true → e.ctxFree = true) →
    NotParen rs → Cl true rs ts → Cl b (e.toks.map Tok.raw ++ rs) (e.toks ++ ts)
  | .lit s, b, rs, ts, _, _, _, _, hk => Cl.plain (by rfl) hk
  | .int _, b, rs, ts, _, _, _, _, hk => Cl.plain (by rfl) hk
  | .float _, b, rs, ts, _, _, _, _, hk => Cl.plain (by rfl) hk
  | .neg e, b, rs, ts, hs, h, hb, hn, hk => by
    have : e.shape.isSome = true := by
      simp only [Expr.shape] at hs
      split at hs
      · rename_i hh; simp at hh; exact hh.1
      · cases hs
    exact Cl.plain (by rfl) (cl_expr e false rs ts this h (by simp) hn hk)
  | .binary l op r, b, rs, ts, hs, h, hb, hn, hk => by
    simp only [Expr.lexSafe, Bool.and_eq_true] at h
    have hlr : l.shape.isSome = true ∧ r.shape.isSome = true := by
      simp only [Expr.shape] at hs
      split at hs
      · split at hs
        · rename_i hh
          simp only [Bool.and_eq_true] at hh
          exact hh.1.1
        · cases hs
      · split at hs
        · rename_i h1 h2; simp [h1, h2]
        · cases hs
    have ihr := cl_expr r false rs ts hlr.2 h.1.2 (by simp) hn hk
    have ihl := cl_expr l b _ _ hlr.1 h.1.1 hb notParen_op (Cl.op (op := op) ihr)
    simpa [Expr.toks] using ihl
  | .pred e ps, b, rs, ts, hs, h, hb, hn, hk => by
    simp only [Expr.lexSafe, Bool.and_eq_true] at h
    simp only [Expr.shape] at hs
    split at hs
    · rename_i hh
      simp only [Bool.and_eq_true] at hh
      have ih := cl_preds ps rs ts hh.2 h.2 hk
      have ihe := cl_expr e false _ _ hh.1.1.1 h.1 (by simp) (notParen_cons (by decide)) (Cl.plain (b := true) (t := .closeParen) (by rfl) ih)
      simpa [Expr.toks, Tok.raw] using Cl.plain (b := b) (t := .openParen) (by rfl) ihe
    · cases hs
  | .root, _, _, _, hs, _, _, _, _ => by simp [Expr.shape] at hs
  | .abs d r, b, rs, ts, hs, h, hb, hn, hk => by
    have : r.shape.isSome = true := by
      simp only [Expr.shape] at hs
      split at hs
      · rename_i hh; simp [hh]
      · cases hs
    have ih := cl_expr r false rs ts this h (by simp) hn hk
    cases d <;> exact Cl.plain (by rfl) ih
  | .abbrev p, b, rs, ts, _, _, _, _, hk => by
    cases p <;> exact Cl.plain (by rfl) hk
  | .var none nm, b, rs, ts, _, h, hb, hn, hk => by
    simp [Expr.lexSafe] at h
    exact Cl.plain (by rfl) (Cl.name (by simp [h.2]) hn hk)
  | .var (some p) nm, b, rs, ts, _, h, hb, hn, hk => by
    simp [Expr.lexSafe] at h
    exact Cl.plain (by rfl) (Cl.pcolon (by simp [h.1.2]) (Cl.name (by simp) hn hk))
  | .step ax t ps, b, rs, ts, hs, h, hb, hn, hk => by
    simp only [Expr.lexSafe, Bool.and_eq_true] at h
    have hps : Expr.shapes ps = true := by
      simp only [Expr.shape] at hs
      split at hs
      · assumption
      · cases hs
    have ih := cl_preds ps rs ts hps h.2 hk
    simp only [Expr.toks, List.append_assoc, List.map_append]
    refine Cl.axisToks hb (fun b' hb' => Cl.test h.1.2 ?_ (notParen_preds hn) ih)
    intro hbt
    obtain ⟨rfl, hbb⟩ := hb' hbt
    rw [← ctxFree_step t ps]; exact hb hbb
  | .call pfx nm args, b, rs, ts, hs, h, hb, hn, hk => by
    have hps : Expr.shapes args = true := by
      simp only [Expr.shape] at hs
      split at hs
      · assumption
      · cases hs
    have ih : Expr.argsSafe args = true → Cl true (.openParen :: ((Expr.argsToks args).map Tok.raw ++ .closeParen :: rs))
        (.openParen :: (Expr.argsToks args ++ .closeParen :: ts)) := by
      intro ha
      exact Cl.plain (by rfl) (cl_args args rs ts hps ha hk)
    match pfx with
    | none =>
      simp [Expr.lexSafe] at h
      cases b
      · have := Cl.func h.1.2 (ih h.2)
        simpa [Expr.toks, funcToks, Tok.raw] using this
      · exact absurd (hb rfl) (by simp [Expr.ctxFree])
    | some p =>
      simp [Expr.lexSafe] at h
      have := Cl.pcolon (b := b) (p := p) (fun hbt => by simpa [Expr.ctxFree] using hb hbt) (Cl.func h.1.2 (ih h.2))
      simpa [Expr.toks, funcToks, Tok.raw] using this
theorem cl_preds [PyUnicode] : ∀ (ps : List Expr) (rs ts : List Tok), Expr.shapes ps = true → Expr.lexSafes ps = true →
    Cl true rs ts → Cl true ((Expr.predsToks ps).map Tok.raw ++ rs) (Expr.predsToks ps ++ ts)
  | [], _, _, _, _, hk => hk
  | p :: ps, rs, ts, hs, h, hk => by
    simp only [Expr.shapes, Expr.lexSafes, Bool.and_eq_true] at hs h
    have ih := cl_preds ps rs ts hs.2 h.2 hk
    have ihp := cl_expr p false _ _ hs.1 h.1 (by simp) (notParen_cons (by decide)) (Cl.plain (b := true) (t := .closeBracket) (by rfl) ih)
    simpa [Expr.predsToks, Tok.raw] using Cl.plain (b := true) (t := .openBracket) (by rfl) ihp
theorem cl_args [PyUnicode] : ∀ (as : List Expr) (rs ts : List Tok), Expr.shapes as = true → Expr.argsSafe as = true →
    Cl true rs ts → Cl false ((Expr.argsToks as).map Tok.raw ++ .closeParen :: rs) (Expr.argsToks as ++ .closeParen :: ts)
  | [], _, _, _, _, hk => Cl.plain (by rfl) hk
  | p :: ps, rs, ts, hs, h, hk => by
    simp only [Expr.shapes, Expr.argsSafe, Bool.and_eq_true] at hs h
    have ih := cl_argsTail ps rs ts hs.2 h.2 hk
    have ihp := cl_expr p false _ _ hs.1 h.1 (by simp) notParen_tail ih
    simpa [Expr.argsToks, Tok.raw] using ihp
theorem cl_argsTail [PyUnicode] : ∀ (as : List Expr) (rs ts : List Tok), Expr.shapes as = true → Expr.argsTailSafe as = true →
    Cl true rs ts → Cl true ((Expr.argsTailToks as).map Tok.raw ++ .closeParen :: rs) (Expr.argsTailToks as ++ .closeParen :: ts)
  | [], _, _, _, _, hk => Cl.plain (by rfl) hk
  | p :: ps, rs, ts, hs, h, hk => by
    simp only [Expr.shapes, Expr.argsTailSafe, Bool.and_eq_true] at hs h
    have ih := cl_argsTail ps rs ts hs.2 h.2 hk
    have ihp := cl_expr p true _ _ hs.1 h.1.1 (fun _ => h.1.2) notParen_tail ih
    simpa [Expr.argsTailToks, Tok.raw] using Cl.plain (b := true) (t := .comma) (by rfl) ihp
end

/-- The serialisation of a canonical AST is read as its tokens, from every wrapper state that does not
block names, and from every state if the first token does not depend on it. -/
theorem lex_ser [PyUnicode] {e : Expr} (h : e.canonical = true) {last : Option Tok}
    (hl : blocked last = true → e.ctxFree = true) : lex last e.ser = (e.toks, false) := by
  simp only [Expr.canonical, Bool.and_eq_true] at h
  have h1 := raw_expr e [] [] h.1 h.2 (stopped_nil _) (by rfl)
  have h2 := cl_expr e (blocked last) [] [] h.1 h.2 hl ⟨by simp, by simp⟩ (fun _ _ => rfl) last rfl
  simp only [List.append_nil] at h1 h2
  unfold lex
  rw [h1]; exact h2

end XPath
