import Verif.Props.XPathParse
import Verif.XPath.Lexeme
/-
Properties C07 - C11: the XPath lexer.
-/
namespace Props
open XPath

/-! ### C07: disambiguation of `*` and names (XPath 1.0, section 3.7) -/

/-- The rules of XPath 1.0 section 3.7, for a token `t` with preceding token `prev` and following token
`next`: if there is a preceding token and it is none of `@ :: ( [ ,` or an operator, `*` is the
multiplication operator and an NCName must be an operator name; else an NCName followed by `(` is a node
type or function name, followed by `::` an axis name.  (`:` and `$`, which are parts of a QName and of a
variable reference in the W3C tokenisation, do not make a name an operator either.) -/
def W3C.read (prev : Option Tok) (t : Tok) (next : Option Tok) : Tok :=
  let operatorPosition := match prev with
    | none => false
    | some p => !(p ∈ [Tok.axisAt, .axisSep, .openParen, .openBracket, .comma, .colon, .dollar,
        .andOp, .orOp, .modOp, .divOp, .multOp, .pathSep, .abbrevPathSep, .unionOp, .plusOp, .minusOp,
        .equalOp false, .equalOp true, .relOp false false, .relOp false true, .relOp true false, .relOp true true])
  match t with
  | .starOp => if operatorPosition then .multOp else .starOp
  | .ncname n =>
    if operatorPosition then
      if n = c%"or" then .orOp else if n = c%"and" then .andOp else if n = c%"div" then .divOp
      else if n = c%"mod" then .modOp else .ncname n
    else if next = some .openParen then
      if n ∈ [c%"comment", c%"text", c%"processing-instruction", c%"node"] then .nodeType n else .funcName n
    else if next = some .axisSep then .axisName n
    else .ncname n
  | t => t

theorem operatorPosition_eq (p : Tok) (h : p ≠ .comma ∧ p ≠ .dollar) :
    (!(p ∈ [Tok.axisAt, .axisSep, .openParen, .openBracket, .comma, .colon, .dollar,
        .andOp, .orOp, .modOp, .divOp, .multOp, .pathSep, .abbrevPathSep, .unionOp, .plusOp, .minusOp,
        .equalOp false, .equalOp true, .relOp false false, .relOp false true, .relOp true false, .relOp true true] : Bool)) = blocked (some p) := by
  obtain ⟨h1, h2⟩ := h
  cases p <;> first | rfl | exact absurd rfl h1 | exact absurd rfl h2 | skip
  case equalOp n => cases n <;> rfl
  case relOp a b => cases a <;> cases b <;> rfl

/-- One step of the wrapper, without lexical errors. -/
theorem classify_cons (last : Option Tok) (t : Tok) (ts : List Tok) :
    ∃ u, classify last (t :: ts) false = (u :: (classify (some u) ts false).1, (classify (some u) ts false).2) ∧
      ((∀ p, last = some p → p ≠ .comma ∧ p ≠ .dollar) → u = W3C.read last t ts.head?) := by
  have hop : (∀ p, last = some p → p ≠ .comma ∧ p ≠ .dollar) →
      (match last with
        | none => false
        | some p => !(decide (p ∈ [Tok.axisAt, .axisSep, .openParen, .openBracket, .comma, .colon, .dollar,
          .andOp, .orOp, .modOp, .divOp, .multOp, .pathSep, .abbrevPathSep, .unionOp, .plusOp, .minusOp,
          .equalOp false, .equalOp true, .relOp false false, .relOp false true, .relOp true false, .relOp true true]))) = blocked last := by
    intro h
    cases last with
    | none => rfl
    | some p => exact operatorPosition_eq p (h p rfl)
  cases t
  case starOp =>
    refine ⟨if blocked last then .multOp else .starOp, rfl, fun h => ?_⟩
    simp only [W3C.read, hop h]
  case ncname n =>
    by_cases hb : blocked last = true
    · refine ⟨(operatorName n).getD (.ncname n), by simp [classify, hb], fun h => ?_⟩
      simp only [W3C.read, hop h, hb, if_true, operatorName]
      split_ifs <;> rfl
    · simp only [Bool.not_eq_true] at hb
      refine ⟨nameByNext n ts.head?, by simp [classify, hb, peekErr_false], fun h => ?_⟩
      simp only [W3C.read, hop h, hb]
      generalize ts.head? = nx
      unfold nameByNext
      split
      · simp [isNodeType, or_assoc]
      · simp
      · rename_i h1 h2
        have g1 : nx ≠ some .openParen := fun h => h1 h
        have g2 : nx ≠ some .axisSep := fun h => h2 h
        simp [g1, g2]
  all_goals exact ⟨_, rfl, fun _ => rfl⟩

theorem classify_spec : ∀ (rs : List Tok) (last : Option Tok),
    (classify last rs false).2 = false ∧ (classify last rs false).1.length = rs.length ∧
    ∀ i t, rs[i]? = some t →
      (∀ p, (if i = 0 then last else (classify last rs false).1[i - 1]?) = some p → p ≠ .comma ∧ p ≠ .dollar) →
      (classify last rs false).1[i]? = some (W3C.read (if i = 0 then last else (classify last rs false).1[i - 1]?) t rs[i + 1]?)
  | [], last => by simp [classify]
  | t :: ts, last => by
    obtain ⟨u, h1, h2⟩ := classify_cons last t ts
    obtain ⟨i1, i2, i3⟩ := classify_spec ts (some u)
    rw [h1]
    refine ⟨i1, by simp [i2], ?_⟩
    intro i v hv hp
    cases i with
    | zero =>
      simp at hv hp
      subst hv
      have := h2 hp
      simp [this, List.head?_eq_getElem?]
    | succ i =>
      simp at hv
      have hprev : (if i + 1 = 0 then last else (u :: (classify (some u) ts false).1)[i + 1 - 1]?)
          = (if i = 0 then some u else (classify (some u) ts false).1[i - 1]?) := by
        cases i with
        | zero => simp
        | succ i => simp
      rw [hprev] at hp ⊢
      have := i3 i v hv hp
      simpa using this

/-- C07 is false after a comma and after `$`: `concat(a,*)`, `contains('a', text())` and `$div` are
rejected. -/
theorem C07_counterexample :
    (lex none (c%"f(a,*)")).1 ≠ [.funcName (c%"f"), .openParen, .ncname (c%"a"), .comma, .starOp, .closeParen] ∧
    parse0 (c%"contains('a', text())") = .error .runtimeError ∧ parse0 (c%"$div") = .error .runtimeError := by
  decide

/-- C07. for every string that lexes, the tokens the parser sees are in one-to-one
correspondence with the raw tokens, and each one whose predecessor is not a comma or `$` is read
according to the W3C rules.  Excluded: tokens directly after a comma or `$`, where the claim is false
(`C07_counterexample`). -/
theorem C07_disambiguation (s : Str) (h : (rawLex s).2 = false) :
    (lex none s).2 = false ∧ (lex none s).1.length = (rawLex s).1.length ∧
    ∀ i t, (rawLex s).1[i]? = some t →
      (∀ p, (if i = 0 then none else (lex none s).1[i - 1]?) = some p → p ≠ .comma ∧ p ≠ .dollar) →
      (lex none s).1[i]? = some (W3C.read (if i = 0 then none else (lex none s).1[i - 1]?) t (rawLex s).1[i + 1]?) := by
  have := classify_spec (rawLex s).1 none
  unfold lex
  rw [h]
  exact this

example : (rawLex (c%"* * div div mod mod text() or/and::or(mod, div)")).2 = false ∧
    (lex none (c%"* * div div mod mod text() or/and::or(mod, div)")).1 =
      [.starOp, .multOp, .ncname (c%"div"), .divOp, .ncname (c%"mod"), .modOp, .nodeType (c%"text"), .openParen, .closeParen, .orOp,
       .pathSep, .axisName (c%"and"), .axisSep, .funcName (c%"or"), .openParen, .ncname (c%"mod"), .comma, .divOp, .closeParen] := by
  decide

/-! ### C08: names -/

/-- C08 is false for the letters `À`..`Ö`: `É` is an NCName but no token starts there, and `À-Ö]` is read
as a name although `]` may not occur in one. -/
theorem C08_counterexample : Spec.isNCName (c%"É") = true ∧ rawLex (c%"É") = ([], true) ∧ parse0 (c%"É") = .error .typeError ∧
    rawLex (c%"À-Ö]") = ([.ncname (c%"À-Ö]")], false) ∧ Spec.isNCName (c%"À-Ö]") = false := by
  decide

theorem start_iff {c} (hb : Spec.brokenRange c = false) : isNameStart c = Spec.ncNameStart c := by
  rw [Bool.eq_iff_iff]
  constructor
  · intro h
    simp [isNameStart, inRange] at h
    simp [Spec.ncNameStart]
    by_cases h_ : c = '_'
    · subst h_; decide
    · simp only [h_, false_or, or_false] at h ⊢
      omega
  · exact fun h => plainStart h hb

theorem char_iff {c} (hb : Spec.brokenRange c = false) : isNameChar c = Spec.ncNameChar c := by
  rw [Bool.eq_iff_iff]
  constructor
  · intro h
    simp only [isNameChar, Bool.or_eq_true] at h
    simp only [Spec.ncNameChar, Bool.or_eq_true]
    rcases h with h | h
    · rw [start_iff hb] at h; simp [h]
    · simp [isNameExtra, inRange] at h
      simp
      by_cases h1 : c = '-'
      · simp [h1]
      · by_cases h2 : c = '.'
        · simp [h2]
        · simp only [h1, h2, false_or] at h ⊢
          omega
  · exact fun h => plainChar h hb

theorem noBroken {c cs} (hb : Spec.brokenRange c = false) : startsBroken (c :: cs) = false := by
  have : c ≠ 'À' := by rintro rfl; revert hb; decide
  simp [startsBroken, this]

theorem nameTail_spec : ∀ s : Str, (∀ c ∈ s, Spec.brokenRange c = false) →
    (∀ c ∈ (nameTailK 0 s).1, Spec.ncNameChar c = true) ∧ (∀ c r, (nameTailK 0 s).2 = c :: r → Spec.ncNameChar c = false)
  | [], _ => by simp [nameTailK]
  | c :: cs, h => by
    simp at h
    obtain ⟨i1, i2⟩ := nameTail_spec cs h.2
    rw [nameTailK]
    split
    · rename_i hc
      rw [char_iff h.1] at hc
      exact ⟨by simpa using ⟨hc, i1⟩, i2⟩
    · rename_i hc
      rw [noBroken h.1]
      simp only [Bool.not_eq_true] at hc
      rw [char_iff h.1] at hc
      simp only [Bool.false_eq_true, if_false]
      exact ⟨by simp, by intro d r hd; cases hd; exact hc⟩

/-- C08. at every position of a string that contains no character of `À`..`Ö`, the name
token that the lexer finds is the longest NCName that starts there, and it finds none exactly if no
NCName starts there.  Excluded: `À`..`Ö`, where the claim is false (`C08_counterexample`). -/
theorem C08_names (s : Str) (h : ∀ c ∈ s, Spec.brokenRange c = false) :
    (∀ n r, ncname s = some (n, r) → s = n ++ r ∧ Spec.isNCName n = true ∧
      ∀ n' r', s = n' ++ r' → Spec.isNCName n' = true → n'.length ≤ n.length) ∧
    (ncname s = none → ∀ n r, s = n ++ r → Spec.isNCName n = false) := by
  cases s with
  | nil =>
    refine ⟨by simp [ncname], fun _ n r hn => ?_⟩
    have : n = [] := by
      cases n with
      | nil => rfl
      | cons _ _ => cases hn
    subst this; rfl
  | cons c cs =>
    simp at h
    simp only [ncname, noBroken h.1, Bool.false_eq_true, if_false]
    obtain ⟨i1, i2⟩ := nameTail_spec cs h.2
    constructor
    · intro n r hn
      split at hn
      · rename_i hc
        rw [start_iff h.1] at hc
        simp at hn
        obtain ⟨rfl, rfl⟩ := hn
        refine ⟨by simpa [nameTail] using nameTailK_append 0 cs, by simpa [Spec.isNCName, hc, nameTail] using i1, ?_⟩
        intro n' r' hs hn'
        by_contra hlt
        simp only [not_le] at hlt
        cases n' with
        | nil => simp at hlt
        | cons c' n' =>
          cases hs
          simp [Spec.isNCName] at hn'
          simp [nameTail] at hlt
          have ha := nameTailK_append 0 (n' ++ r')
          generalize (nameTailK 0 (n' ++ r')).1 = p at *
          generalize (nameTailK 0 (n' ++ r')).2 = q at *
          have : ∃ d q', q = d :: q' ∧ d ∈ n' := by
            have hp : p = n'.take p.length := by
              have := congrArg (List.take p.length) ha
              simp [List.take_append] at this
              rw [show p.length - n'.length = 0 by omega] at this
              simpa using this.symm
            have hq : q = n'.drop p.length ++ r' := by
              have := congrArg (List.drop p.length) ha
              simp [List.drop_append] at this
              rw [show p.length - n'.length = 0 by omega] at this
              simpa using this.symm
            have hne : n'.drop p.length ≠ [] := by simp; omega
            cases hd : n'.drop p.length with
            | nil => exact absurd hd hne
            | cons d q' =>
              refine ⟨d, q' ++ r', by rw [hq, hd]; rfl, ?_⟩
              exact List.mem_of_mem_drop (by rw [hd]; simp)
          obtain ⟨d, q', hq, hd⟩ := this
          have := i2 d q' hq
          rw [hn'.2 d hd] at this
          cases this
      · cases hn
    · intro hn n r hs
      split at hn
      · cases hn
      · rename_i hc
        rw [start_iff h.1] at hc
        cases n with
        | nil => rfl
        | cons d n => cases hs; simp [Spec.isNCName, hc]

example : (∀ c ∈ c%"año.x-1_y)", Spec.brokenRange c = false) ∧ ncname (c%"año.x-1_y)") = some (c%"año.x-1_y", c%")") := by decide

/-! ### C09: white space -/

/-- The ignorable characters: blank, tab, newline, carriage return. -/
def Spec.blanks : List Char := [' ', '\t', '\n', '\r']

theorem isWs_iff {c : Char} : isWs c = true ↔ c ∈ Spec.blanks := by
  simp only [isWs, Spec.blanks, Bool.or_eq_true, beq_iff_eq, List.mem_cons, List.not_mem_nil, or_false]
  tauto

theorem isWs_false {c : Char} : isWs c = false ↔ c ∉ Spec.blanks := by
  rw [← isWs_iff, Bool.not_eq_true]

theorem parse_lex {last s s'} (h : rawLex s = rawLex s') : parse last s = parse last s' := by
  unfold parse lex
  rw [h]

/-- C09, changing white space: two non-empty runs of blanks, tabs, carriage returns, newlines between two
pieces of text are interchangeable, if the first piece is lexically complete. -/
theorem C09_change (last : Option Tok) (u v w w' : Str) (hu : (rawLex u).2 = false)
    (hw : w ≠ [] ∧ ∀ c ∈ w, c ∈ Spec.blanks) (hw' : w' ≠ [] ∧ ∀ c ∈ w', c ∈ Spec.blanks) :
    parse last (u ++ w ++ v) = parse last (u ++ w' ++ v) := by
  simp only [← isWs_iff] at hw hw'
  apply parse_lex
  have key : ∀ w : Str, w ≠ [] → (∀ c ∈ w, isWs c = true) →
      rawLex (u ++ w ++ v) = ((rawLex u).1 ++ (rawLex v).1, (rawLex v).2) := by
    intro w h1 h2
    cases w with
    | nil => exact absurd rfl h1
    | cons c w =>
      simp at h2
      have := rawLex_stop (w ++ v) h2.1 u.length u (le_refl _) (rawLex u).1 (by rw [← hu])
      rw [List.append_assoc, List.cons_append, this, rawLex_wss h2.2]
  rw [key w hw.1 hw.2, key w' hw'.1 hw'.2]

/-- C09, white space around the expression. -/
theorem C09_around (last : Option Tok) (w s w' : Str) (hw : ∀ c ∈ w, c ∈ Spec.blanks) (hw' : ∀ c ∈ w', c ∈ Spec.blanks)
    (hs : (rawLex s).2 = false) : parse last (w ++ s ++ w') = parse last s := by
  simp only [← isWs_iff] at hw hw'
  apply parse_lex
  rw [List.append_assoc, rawLex_wss hw]
  cases w' with
  | nil => simp
  | cons c w' =>
    simp at hw'
    have := rawLex_stop w' hw'.1 s.length s (le_refl _) (rawLex s).1 (by rw [← hs])
    have h2 : rawLex w' = ([], false) := by
      have := rawLex_wss (s := []) hw'.2
      simpa using this
    rw [this, h2]
    simp [← hs]

/-- `v` is what remains of the input after some tokens (and white space): the position before `v` is a
token boundary. -/
inductive Cut : Str → Str → Prop
  | here (v) : Cut v v
  | ws {c s v} : c ∈ Spec.blanks → Cut s v → Cut (c :: s) v
  | tok {s t r v} : (∀ c r, s = c :: r → c ∉ Spec.blanks) → rawTok s = some (t, r) → Cut r v → Cut s v



/-- Lexing up to a token boundary. -/
theorem rawLex_cut {s v : Str} (h : Cut s v) :
    ∃ u, s = u ++ v ∧ (rawLex u).2 = false ∧ rawLex s = ((rawLex u).1 ++ (rawLex v).1, (rawLex v).2) := by
  induction h with
  | here v => exact ⟨[], rfl, rfl, rfl⟩
  | @ws c s v hc _ ih =>
    obtain ⟨u, rfl, h2, h3⟩ := ih
    exact ⟨c :: u, rfl, by rw [rawLex_ws (isWs_iff.mpr hc), h2], by rw [rawLex_ws (isWs_iff.mpr hc), rawLex_ws (isWs_iff.mpr hc), h3]⟩
  | @tok s t r v hs ht _ ih =>
    obtain ⟨u, rfl, h2, h3⟩ := ih
    obtain ⟨x, hx, rfl⟩ := rawTok_append ht
    refine ⟨x ++ u, by simp, ?_⟩
    have ht' : rawTok (x ++ u) = some (t, u) := rawTok_trunc (v := v) (by simpa using ht) (by simp [hx])
    cases x with
    | nil => exact absurd rfl hx
    | cons d x =>
      have hd := isWs_false.mpr (hs d _ rfl)
      have e1 : rawLex (d :: x ++ (u ++ v)) = _ := rawLex_tok hd ht
      have e2 : rawLex (d :: x ++ u) = _ := rawLex_tok hd ht'
      rw [e1, e2, h3]
      exact ⟨h2, by simp⟩

/-- C09, adding white space: at every token boundary of every string. -/
theorem C09_insert (last : Option Tok) (s v w : Str) (h : Cut s v) (hw : ∀ c ∈ w, c ∈ Spec.blanks) :
    ∃ u, s = u ++ v ∧ parse last (u ++ (w ++ v)) = parse last s := by
  simp only [← isWs_iff] at hw
  obtain ⟨u, h1, h2, h3⟩ := rawLex_cut h
  refine ⟨u, h1, parse_lex ?_⟩
  cases w with
  | nil => simp [h1]
  | cons c w =>
    simp at hw
    have := rawLex_stop (w ++ v) hw.1 u.length u (le_refl _) (rawLex u).1 (by rw [← h2])
    rw [List.cons_append, this, rawLex_wss hw.2, h3]

/-- Token boundaries of `a[@b='x']` before `[`, `@`, `=` and `]`. -/
example : Cut (c%"a[@b='x']") (c%"[@b='x']") ∧ Cut (c%"a[@b='x']") (c%"@b='x']") ∧ Cut (c%"a[@b='x']") (c%"='x']") ∧
    Cut (c%"a[@b='x']") (c%"]") := by
  have t1 : Cut (c%"]") (c%"]") := .here _
  have t2 : Cut (c%"'x']") (c%"]") := .tok (t := .literal (c%"x")) (r := c%"]") (by intro c r h; cases h; decide) (by decide) t1
  have t3 : Cut (c%"='x']") (c%"]") := .tok (t := .equalOp false) (r := c%"'x']") (by intro c r h; cases h; decide) (by decide) t2
  have step : ∀ v, Cut (c%"='x']") v → Cut (c%"@b='x']") v := fun v h =>
    .tok (t := .axisAt) (r := c%"b='x']") (by intro c r h; cases h; decide) (by decide)
      (.tok (t := .ncname (c%"b")) (r := c%"='x']") (by intro c r h; cases h; decide) (by decide) h)
  have step2 : ∀ v, Cut (c%"[@b='x']") v → Cut (c%"a[@b='x']") v := fun v h =>
    .tok (t := .ncname (c%"a")) (r := c%"[@b='x']") (by intro c r h; cases h; decide) (by decide) h
  have step3 : ∀ v, Cut (c%"@b='x']") v → Cut (c%"[@b='x']") v := fun v h =>
    .tok (t := .openBracket) (r := c%"@b='x']") (by intro c r h; cases h; decide) (by decide) h
  exact ⟨step2 _ (.here _), step2 _ (step3 _ (.here _)), step2 _ (step3 _ (step _ (.here _))), step2 _ (step3 _ (step _ t3))⟩
example : (rawLex (c%"a or b")).2 = false ∧ parse none (c%"a or b" ++ c%" \n" ++ c%"= c") = parse none (c%"a or b" ++ c%"\t" ++ c%"= c") :=
  ⟨by decide, C09_change none _ _ _ _ (by decide) (by decide) (by decide)⟩

/-! ### C10: string literals -/

theorem hexDigit_ne {n : Nat} (h : n < 16) : hexDigit n ≠ '"' ∧ hexDigit n ≠ '\'' := by
  interval_cases n <;> decide

theorem hexStr_ne : ∀ (w n : Nat) (c : Char), c ∈ hexStr w n → c ≠ '"' ∧ c ≠ '\''
  | 0, _, _, h => by simp [hexStr] at h
  | w + 1, n, c, h => by
    simp [hexStr] at h
    rcases h with h | rfl
    · exact hexStr_ne w _ c h
    · exact hexDigit_ne (Nat.mod_lt _ (by omega))

theorem reprChar_ne [PyUnicode] {q c : Char} (hq : q = '"' ∨ q = '\'') (hc : c ≠ q) : q ∉ reprChar q c := by
  have hb : q ≠ '\\' := by rcases hq with rfl | rfl <;> decide
  have hl : ∀ x : Char, (x = 'n' ∨ x = 'r' ∨ x = 't' ∨ x = 'x' ∨ x = 'u' ∨ x = 'U') → q ≠ x := by
    intro x hx
    rcases hq with rfl | rfl <;> rcases hx with rfl | rfl | rfl | rfl | rfl | rfl <;> decide
  have hh : ∀ w n, q ∉ hexStr w n := by
    intro w n hm
    have := hexStr_ne w n q hm
    rcases hq with rfl | rfl <;> simp at this
  unfold reprChar
  repeat' split
  all_goals simp [hb, Ne.symm hc, hl, hh]

theorem reprChar_len [PyUnicode] (q c : Char) :
    1 ≤ (reprChar q c).length ∧ ((reprChar q c).length = 1 → c ≠ '\\' ∧ isPrintable c = true) := by
  unfold reprChar
  split
  · simp
  · rename_i h
    repeat' split
    all_goals simp_all [hexStr]

theorem flatMap_len [PyUnicode] (q : Char) (s : Str) : s.length ≤ (s.flatMap (reprChar q)).length ∧
    ((s.flatMap (reprChar q)).length = s.length → ∀ c ∈ s, c ≠ '\\' ∧ isPrintable c = true) := by
  induction s with
  | nil => simp
  | cons c s ih =>
    have h1 := reprChar_len q c
    simp only [List.flatMap_cons, List.length_append, List.length_cons, List.mem_cons]
    refine ⟨by omega, fun h => ?_⟩
    have e1 := h1.2 (by omega)
    have e2 := ih.2 (by omega)
    rintro d (rfl | hd)
    · exact e1
    · exact e2 d hd

/-- C10 is false for strings with a backslash (or a control or otherwise unprintable character): the
literal is re-read with the escape sequences of Python's `repr`. -/
theorem C10_counterexample [PyUnicode] : parse0 (Expr.ser (.lit (c%"a\\b"))) = .ok (.lit (c%"a\\\\b")) ∧
    parse0 (Expr.ser (.lit (c%"\n"))) = .ok (.lit (c%"\\n")) := by
  constructor
  · have : Expr.ser (.lit (c%"a\\b")) = c%"'a\\\\b'" := by rfl
    rw [this]; decide
  · have : Expr.ser (.lit (c%"\n")) = c%"'\\n'" := by rfl
    rw [this]; decide

/-- The number that hexadecimal digits, with small letters, mean. -/
def hexVal : Str → Nat := List.foldl (fun n c => 16 * n + (if isDigit c then c.toNat - 48 else c.toNat - 87)) 0

/-- C10.  An unprintable character is written with as many digits as it needs, which are those of its code, in hexadecimal. -/
theorem C10_hex (w n : Nat) : (hexStr w n).length = w ∧ hexVal (hexStr w n) = n % 16 ^ w ∧ ∀ c ∈ hexStr w n, isDigit c = true ∨ c ∈ c%"abcdef" := by
  induction w generalizing n with
  | zero => exact ⟨rfl, (Nat.mod_one n).symm, fun c h => by cases h⟩
  | succ w ih =>
    obtain ⟨h1, h2, h3⟩ := ih (n / 16)
    have hd : ∀ d < 16, (if isDigit (hexDigit d) then (hexDigit d).toNat - 48 else (hexDigit d).toNat - 87) = d ∧ (isDigit (hexDigit d) = true ∨ hexDigit d ∈ c%"abcdef") := by
      intro d hd
      interval_cases d <;> decide
    have hm := hd (n % 16) (Nat.mod_lt _ (by omega))
    refine ⟨by simp [hexStr, h1], ?_, ?_⟩
    · show hexVal (hexStr w (n / 16) ++ [hexDigit (n % 16)]) = _
      unfold hexVal at h2 ⊢
      rw [List.foldl_append, h2, List.foldl_cons, List.foldl_nil, hm.1, Nat.pow_succ, Nat.mul_comm (16 ^ w) 16, Nat.mod_mul]
      omega
    · intro c hc
      rcases List.mem_append.1 hc with h | h
      · exact h3 c h
      · rw [List.mem_singleton.1 h]
        exact hm.2

/-- Such a character comes back as its escape sequence. -/
example [PyUnicode] : parse0 (Expr.ser (.lit [Char.ofNat 0x1a])) = .ok (.lit c%"\\x1a") := by
  have : Expr.ser (.lit [Char.ofNat 0x1a]) = c%"'\\x1a'" := by rfl
  rw [this]; decide

/-- C10, exactly: a string that lacks one of the two quotes survives serialisation as a literal if and
only if it contains no backslash and only printable characters.  (Inside larger expressions: C01.) -/
theorem C10_exact [PyUnicode] (s : Str) (h : '\'' ∉ s ∨ '"' ∉ s) :
    parse0 (Expr.ser (.lit s)) = .ok (.lit s) ↔ ∀ c ∈ s, c ≠ '\\' ∧ isPrintable c = true := by
  constructor
  · intro hp
    have hq : reprQuote s ∉ s ∧ (reprQuote s = '"' ∨ reprQuote s = '\'') := by
      unfold reprQuote
      split
      · rename_i h; simp [h.2]
      · rename_i h'; simp; intro hm; apply h'; refine ⟨hm, ?_⟩; simpa [hm] using h
    have hb : reprQuote s ∉ s.flatMap (reprChar (reprQuote s)) := by
      intro hm
      rw [List.mem_flatMap] at hm
      obtain ⟨c, hc, hm⟩ := hm
      exact reprChar_ne hq.2 (by rintro rfl; exact hq.1 hc) hm
    have hlex := RL.tok (s := reprStr s) (t := .literal (s.flatMap (reprChar (reprQuote s)))) (k := []) (rs := [])
      (by simp only [XPath.reprStr, rawTok, if_pos hq.2, spanQuote_of hb])
      (by intro c r hc; cases hc; rcases hq.2 with h | h <;> rw [h] <;> decide) rfl
    have hlex' : lex none (reprStr s) = ([.literal (s.flatMap (reprChar (reprQuote s)))], false) := by
      unfold lex; rw [hlex]; rfl
    have hparse := parseExpr_complete (.filter (.lit (s.flatMap (reprChar (reprQuote s))))) trivial
    simp only [G.CExpr.toks, G.CFilter.toks, G.CExpr.val, G.CFilter.val] at hparse
    unfold parse0 parse at hp
    simp only [Expr.ser, hlex', hparse] at hp
    simp at hp
    exact (flatMap_len (reprQuote s) s).2 (by rw [hp])
  · intro hs
    have : Expr.canonical (.lit s) = true := by
      simp only [Expr.canonical, Expr.shape, Option.isSome_some, Expr.lexSafe, Spec.plainLit, Bool.true_and,
        Bool.and_eq_true, List.all_eq_true, Bool.not_eq_true', Bool.and_eq_false_iff]
      refine ⟨fun c hc => ?_, ?_⟩
      · have := hs c hc; simp [this.1, this.2]
      · simpa using h
    unfold parse0
    rw [C01_round_trip _ this]

example : ('\'' ∉ c%"it is \"so\"" ∨ '"' ∉ c%"it is \"so\"") ∧ ∀ c ∈ c%"it is \"so\"", c ≠ '\\' ∧ isPrintable c = true := by decide

/-! ### C11: lexing loses nothing -/

/-- `s` consists of lexemes of the tokens `ts`, in order and separated by ignorable white space, up to a
remainder `rest`. -/
inductive Covers : Str → List Tok → Str → Prop
  | done (rest) : Covers rest [] rest
  | ws {c s ts rest} : c ∈ Spec.blanks → Covers s ts rest → Covers (c :: s) ts rest
  | tok {t x s ts rest} : Lexeme t x → Covers s ts rest → Covers (x ++ s) (t :: ts) rest

theorem covers_rawLex : ∀ (n : Nat) (s : Str), s.length ≤ n → ∃ rest, Covers s (rawLex s).1 rest ∧
    ((rawLex s).2 = false → rest = []) ∧
    ((rawLex s).2 = true → rest ≠ [] ∧ ∀ t x, Lexeme t x → ¬ x <+: rest)
  | _, [], _ => ⟨[], .done _, by simp, by simp⟩
  | 0, _ :: _, h => by simp at h
  | n + 1, c :: cs, h => by
    simp at h
    by_cases hc : isWs c = true
    · rw [rawLex_ws hc]
      obtain ⟨rest, h1, h2⟩ := covers_rawLex n cs h
      exact ⟨rest, .ws (isWs_iff.mp hc) h1, h2⟩
    · simp only [Bool.not_eq_true] at hc
      cases hr : rawTok (c :: cs) with
      | none =>
        rw [rawLex_none hc hr]
        refine ⟨c :: cs, .done _, by simp, fun _ => ⟨by simp, ?_⟩⟩
        rintro t x hx ⟨y, hy⟩
        obtain ⟨p, hp⟩ := rawTok_isSome hx y
        rw [hy, hr] at hp
        cases hp
      | some p =>
        obtain ⟨t, r⟩ := p
        rw [rawLex_tok hc hr]
        obtain ⟨x, hx, hl⟩ := rawTok_lexeme hr
        have := rawTok_lt hr
        simp at this
        obtain ⟨rest, h1, h2⟩ := covers_rawLex n r (by omega)
        exact ⟨rest, hx ▸ .tok hl h1, h2⟩

/-- C11.  The input is the sequence of the texts of its tokens, separated by nothing but white space; if
lexing fails, then at a position where no terminal matches. -/
theorem C11_cover (s : Str) : ∃ rest, Covers s (rawLex s).1 rest ∧
    ((rawLex s).2 = false → rest = []) ∧
    ((rawLex s).2 = true → rest ≠ [] ∧ ∀ t x, Lexeme t x → ¬ x <+: rest) :=
  covers_rawLex s.length s (le_refl _)

/-- C11, the tokens the parser sees: the wrapper only renames the types of tokens (`Tok.raw` undoes it);
it drops none, unless lexing fails. -/
theorem C11_tokens (last : Option Tok) (s : Str) : (lex last s).1.map Tok.raw <+: (rawLex s).1 ∧
    ((rawLex s).2 = false → (lex last s).2 = false ∧ (lex last s).1.map Tok.raw = (rawLex s).1) := by
  have key : ∀ (rs : List Tok) (last : Option Tok) (err : Bool), (∀ t ∈ rs, t.raw = t) →
      (classify last rs err).1.map Tok.raw <+: rs ∧ (err = false → (classify last rs err).2 = false ∧ (classify last rs err).1.map Tok.raw = rs) := by
    intro rs
    induction rs with
    | nil => intro last err _; exact ⟨List.prefix_refl _, fun h => ⟨h, rfl⟩⟩
    | cons t rs ih =>
      intro last err hr
      simp at hr
      have raw_op : ∀ n, ((operatorName n).getD (.ncname n)).raw = .ncname n := by
        intro n; unfold operatorName
        split_ifs with h1 h2 h3 h4
        · simp [Tok.raw, h1]
        · simp [Tok.raw, h2]
        · simp [Tok.raw, h3]
        · simp [Tok.raw, h4]
        · rfl
      have raw_nx : ∀ n x, (nameByNext n x).raw = .ncname n := by
        intro n x; unfold nameByNext
        split
        · split <;> rfl
        · rfl
        · rfl
      cases t
      case starOp =>
        obtain ⟨i1, i2⟩ := ih (some (if blocked last then Tok.multOp else Tok.starOp)) err hr.2
        have e : (if blocked last = true then Tok.multOp else Tok.starOp).raw = .starOp := by split <;> rfl
        simp only [classify, List.map_cons, e]
        exact ⟨List.cons_prefix_cons.mpr ⟨rfl, i1⟩, fun h => ⟨(i2 h).1, by rw [(i2 h).2]⟩⟩
      case ncname n =>
        by_cases hb : blocked last = true
        · obtain ⟨i1, i2⟩ := ih (some ((operatorName n).getD (.ncname n))) err hr.2
          simp only [classify, hb, if_true, List.map_cons, raw_op]
          exact ⟨List.cons_prefix_cons.mpr ⟨rfl, i1⟩, fun h => ⟨(i2 h).1, by rw [(i2 h).2]⟩⟩
        · by_cases hp : peekErr rs err = true
          · simp only [classify, hb, hp, if_true]
            refine ⟨by simp, fun h => ?_⟩
            rw [h, peekErr_false] at hp; cases hp
          · obtain ⟨i1, i2⟩ := ih (some (nameByNext n rs.head?)) err hr.2
            simp only [classify, hb, hp, Bool.false_eq_true, if_false, List.map_cons, raw_nx]
            exact ⟨List.cons_prefix_cons.mpr ⟨rfl, i1⟩, fun h => ⟨(i2 h).1, by rw [(i2 h).2]⟩⟩
      all_goals
        obtain ⟨i1, i2⟩ := ih (some _) err hr.2
        simp only [classify, List.map_cons, hr.1]
        exact ⟨List.cons_prefix_cons.mpr ⟨rfl, i1⟩, fun h => ⟨(i2 h).1, by rw [(i2 h).2]⟩⟩
  unfold lex
  refine key _ last _ ?_
  obtain ⟨rest, hc, -⟩ := C11_cover s
  intro t ht
  have lex_raw : ∀ {t x}, Lexeme t x → t.raw = t := by
    intro t x h
    cases h with
    | literal _ _ => rfl
    | integer _ _ => rfl
    | float _ _ _ => rfl
    | ncname _ => rfl
    | sym h =>
      have : ∀ p ∈ symTable, p.1.raw = p.1 := by decide
      exact this _ h
  generalize (rawLex s).1 = rs at hc ht
  induction hc with
  | done => simp at ht
  | ws _ _ ih => exact ih ht
  | tok hl _ ih =>
    simp at ht
    rcases ht with rfl | ht
    · exact lex_raw hl
    · exact ih ht

/-- C11, exceptions: `parse` raises `RuntimeError` for what it cannot parse, and `TypeError` only for a position that starts no token;
with an input all of whose positions can be read it raises nothing else than `RuntimeError`, and it never succeeds on the others. -/
theorem C11_exceptions (last : Option Tok) (s : Str) :
    (∀ x, (parse last s).1 = .error x → x = .runtimeError ∨ x = .typeError ∧ (rawLex s).2 = true) ∧
    ((rawLex s).2 = true → ∀ e, (parse last s).1 ≠ .ok e) := by
  have h0 : (rawLex s).2 = false → (lex last s).2 = false := fun h => ((C11_tokens last s).2 h).1
  have h1 : (lex last s).2 = true → (rawLex s).2 = true := by
    intro h
    cases hr : (rawLex s).2 with
    | true => rfl
    | false => rw [h0 hr] at h; cases h
  have h2 : (rawLex s).2 = true → (lex last s).2 = true := by
    have : ∀ (rs : List Tok) (last : Option Tok), (classify last rs true).2 = true := by
      intro rs
      induction rs with
      | nil => intro _; rfl
      | cons t rs ih =>
        intro last
        cases t
        case ncname n =>
          simp only [classify]
          split
          · exact ih _
          · split
            · rfl
            · exact ih _
        all_goals exact ih _
    intro h
    unfold lex
    rw [h]
    exact this _ _
  constructor
  · intro x hx
    unfold parse at hx
    simp only at hx
    generalize parseExpr _ _ _ = z at hx
    rcases z with (_ | ⟨_ | ⟨t, r⟩⟩) | ⟨e', _ | ⟨t, r⟩⟩
    · cases hx; exact .inl rfl
    · simp only at hx
      split at hx
      · rename_i hl; cases hx; exact .inr ⟨rfl, h1 hl⟩
      · cases hx; exact .inl rfl
    · cases hx; exact .inl rfl
    · simp only at hx
      split at hx
      · rename_i hl; cases hx; exact .inr ⟨rfl, h1 hl⟩
      · cases hx
    · cases hx; exact .inl rfl
  · intro hr e he
    have hl := h2 hr
    unfold parse at he
    simp only at he
    generalize parseExpr _ _ _ = z at he
    rcases z with (_ | ⟨_ | ⟨t, r⟩⟩) | ⟨e', _ | ⟨t, r⟩⟩ <;> simp [hl] at he

example : (parse none (c%"a[#")).1 = .error .typeError ∧ (parse none (c%"a[")).1 = .error .runtimeError := by decide

example : rawLex (c%"a[ 1.5 <='x']#") = ([.ncname (c%"a"), .openBracket, .float ⟨15, 1⟩, .relOp false true, .literal (c%"x"), .closeBracket], true) := by decide

/-! ### the theorems on concrete inputs -/

example : parse none (c%"  \t" ++ c%"a or b" ++ c%"\n") = parse none c%"a or b" :=
  C09_around none _ _ _ (by decide) (by decide) (by decide)

end Props
