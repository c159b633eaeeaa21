import Verif.XPath.RoundTripLex
/-
Specification of single tokens (`Lexeme`): which texts each terminal of lexrules.py matches.
Lemmas: the lexer finds lexemes, a lexeme alone is one token, and a failure means that no lexeme is there.
-/
namespace XPath

/-- `(NameStartChar|NameChar_extras)*` (lexrules.py:119-120), with the misspelt alternative `\xc0-\xd6]`. -/
inductive NameTail : Str → Prop
  | nil : NameTail []
  | char {c s} : isNameChar c = true → NameTail s → NameTail (c :: s)
  | odd {s} : NameTail s → NameTail ('À' :: '-' :: 'Ö' :: ']' :: s)

/-- `NCNAME_REGEX` (lexrules.py:119-124). -/
inductive NameText : Str → Prop
  | char {c s} : isNameStart c = true → NameTail s → NameText (c :: s)
  | odd {s} : NameTail s → NameText ('À' :: '-' :: 'Ö' :: ']' :: s)

/-- The terminals with a fixed set of texts (lexrules.py:62-80). -/
def symTable : List (Tok × Str) :=
  [(.pathSep, ['/']), (.abbrevPathSep, ['/', '/']), (.stepSelf, ['.']), (.stepParent, ['.', '.']),
   (.axisSep, [':', ':']), (.axisAt, ['@']), (.openParen, ['(']), (.closeParen, [')']), (.openBracket, ['[']),
   (.closeBracket, [']']), (.unionOp, ['|']), (.equalOp false, ['=']), (.equalOp true, ['!', '=']),
   (.relOp false false, ['<']), (.relOp false true, ['<', '=']), (.relOp true false, ['>']), (.relOp true true, ['>', '=']),
   (.plusOp, ['+']), (.minusOp, ['-']), (.starOp, ['*']), (.comma, [',']), (.colon, [':']), (.dollar, ['$'])]

/-- `Lexeme t x`: the text `x` is matched by the rule of the terminal `t`. -/
inductive Lexeme : Tok → Str → Prop
  | literal {q : Char} {v : Str} : (q = '"' ∨ q = '\'') → q ∉ v → Lexeme (.literal v) (q :: (v ++ [q]))
  | integer {ds : Str} : ds ≠ [] → (∀ c ∈ ds, isDigit c = true) → Lexeme (.integer (digitsVal ds)) ds
  | float {ds fs : Str} : (ds ≠ [] ∨ fs ≠ []) → (∀ c ∈ ds, isDigit c = true) → (∀ c ∈ fs, isDigit c = true) →
      Lexeme (.float (mkFloat ds fs)) (ds ++ '.' :: fs)
  | ncname {n : Str} : NameText n → Lexeme (.ncname n) n
  | sym {t x} : (t, x) ∈ symTable → Lexeme t x

theorem startsBroken_eq {s} (h : startsBroken s = true) : ∃ r, s = 'À' :: '-' :: 'Ö' :: ']' :: r := by
  unfold startsBroken at h
  rcases s with _ | ⟨a, _ | ⟨b', _ | ⟨d, _ | ⟨e, s⟩⟩⟩⟩ <;> simp at h ⊢
  exact h

theorem nameTailK_text : ∀ (n : Nat) (s : Str), s.length ≤ n → NameTail (nameTailK 0 s).1
  | _, [], _ => .nil
  | 0, _ :: _, h => by simp at h
  | n + 1, c :: cs, h => by
    simp at h
    rw [nameTailK]
    split
    · rename_i hc
      exact .char hc (nameTailK_text n cs h)
    · split
      · rename_i hb
        obtain ⟨r, hr⟩ := startsBroken_eq hb
        cases hr
        simp only [nameTailK]
        exact .odd (nameTailK_text n r (by simp at h; omega))
      · exact .nil

theorem ncname_text {s n r} (h : ncname s = some (n, r)) : NameText n := by
  cases s with
  | nil => cases h
  | cons c cs =>
    simp only [ncname] at h
    split at h
    · rename_i hc
      simp at h; obtain ⟨rfl, rfl⟩ := h
      exact .char hc (nameTailK_text _ cs (le_refl _))
    · split at h
      · rename_i hb
        obtain ⟨r', hr⟩ := startsBroken_eq hb
        cases hr
        simp at h; obtain ⟨rfl, rfl⟩ := h
        simp only [nameTailK]
        exact .odd (nameTailK_text _ r' (le_refl _))
      · cases h

theorem nameTailK_all {s} (h : NameTail s) : nameTailK 0 s = (s, []) := by
  induction h with
  | nil => rfl
  | char hc _ ih => simp [nameTailK, hc, ih]
  | odd _ ih =>
    have h1 : isNameChar 'À' = false := by decide
    rw [nameTailK]
    simp [h1, startsBroken, nameTailK, ih]

theorem ncname_all {s} (h : NameText s) : ncname s = some (s, []) := by
  cases h with
  | char hc ht => simp [ncname, hc, nameTail, nameTailK_all ht]
  | odd ht =>
    have h1 : isNameStart 'À' = false := by decide
    simp [ncname, h1, startsBroken, nameTailK, nameTailK_all ht]

theorem sym1_table {c t} (h : sym1 c = some t) : (t, [c]) ∈ symTable := by
  by_cases h0 : c = '<'
  · subst h0; cases h; decide
  by_cases h1 : c = '>'
  · subst h1; cases h; decide
  by_cases h2 : c = '='
  · subst h2; cases h; decide
  by_cases h3 : c = '/'
  · subst h3; cases h; decide
  by_cases h4 : c = ':'
  · subst h4; cases h; decide
  by_cases h5 : c = '@'
  · subst h5; cases h; decide
  by_cases h6 : c = '('
  · subst h6; cases h; decide
  by_cases h7 : c = ')'
  · subst h7; cases h; decide
  by_cases h8 : c = '['
  · subst h8; cases h; decide
  by_cases h9 : c = ']'
  · subst h9; cases h; decide
  by_cases h10 : c = '|'
  · subst h10; cases h; decide
  by_cases h11 : c = '+'
  · subst h11; cases h; decide
  by_cases h12 : c = '-'
  · subst h12; cases h; decide
  by_cases h13 : c = ','
  · subst h13; cases h; decide
  by_cases h14 : c = '$'
  · subst h14; cases h; decide
  by_cases h15 : c = '*'
  · subst h15; cases h; decide
  simp [sym1, h0, h1, h2, h3, h4, h5, h6, h7, h8, h9, h10, h11, h12, h13, h14, h15] at h

theorem sym2_table {c p} (h : sym2 c = some p) : (p.2, [c, p.1]) ∈ symTable := by
  by_cases h0 : c = '<'
  · subst h0; cases h; decide
  by_cases h1 : c = '>'
  · subst h1; cases h; decide
  by_cases h2 : c = '!'
  · subst h2; cases h; decide
  by_cases h3 : c = '/'
  · subst h3; cases h; decide
  by_cases h4 : c = ':'
  · subst h4; cases h; decide
  simp [sym2, h0, h1, h2, h3, h4] at h

/-- Every token found is a lexeme at the head of the input. -/
theorem rawTok_lexeme {s t r} (h : rawTok s = some (t, r)) : ∃ x, s = x ++ r ∧ Lexeme t x := by
  unfold rawTok at h
  split at h
  · cases h
  rename_i c cs
  split_ifs at h with h1 h2 h3 h4
  · split at h
    · rename_i v r' hq
      simp at h; obtain ⟨rfl, rfl⟩ := h
      obtain ⟨g1, g2⟩ := spanQuote_eq hq
      exact ⟨c :: (v ++ [c]), by simp [g1], .literal h1 g2⟩
    · cases h
  · have ha := spanDigits_append cs
    have hd := spanDigits_digits cs
    split at h
    · rename_i r' hr
      replace hr := eat_eq hr
      simp at h; obtain ⟨rfl, rfl⟩ := h
      have hb := spanDigits_append r'
      refine ⟨(c :: (spanDigits cs).1) ++ '.' :: (spanDigits r').1, ?_, .float (.inl (by simp)) (by simpa using ⟨h2, hd⟩) (spanDigits_digits r')⟩
      rw [hr] at ha
      simp only [List.cons_append, List.append_assoc]
      rw [← hb, ← ha]
    · simp at h; obtain ⟨rfl, rfl⟩ := h
      exact ⟨c :: (spanDigits cs).1, by simpa using ha, .integer (by simp) (by simpa using ⟨h2, hd⟩)⟩
  · simp at h; obtain ⟨rfl, rfl⟩ := h
    subst h3
    exact ⟨[] ++ '.' :: (spanDigits cs).1, by simpa using spanDigits_append cs, .float (.inr h4) (by simp) (spanDigits_digits cs)⟩
  · subst h3
    split at h <;> simp at h <;> obtain ⟨rfl, rfl⟩ := h
    · rename_i he
      exact ⟨['.', '.'], by rw [eat_eq he]; rfl, .sym (by decide)⟩
    · exact ⟨['.'], rfl, .sym (by decide)⟩
  · split at h
    · rename_i nm r' hn
      simp at h; obtain ⟨rfl, rfl⟩ := h
      exact ⟨nm, (ncname_append hn).1, .ncname (ncname_text hn)⟩
    · unfold symTok at h
      split at h
      · rename_i q hq
        cases h
        rw [Option.bind_eq_some_iff] at hq
        obtain ⟨p, g1, g2⟩ := hq
        rw [Option.map_eq_some_iff] at g2
        obtain ⟨r', g3, g4⟩ := g2
        cases g4
        exact ⟨[c, p.1], by rw [eat_eq g3]; rfl, .sym (sym2_table g1)⟩
      · rw [Option.map_eq_some_iff] at h
        obtain ⟨t', g1, g2⟩ := h
        cases g2
        exact ⟨[c], rfl, .sym (sym1_table g1)⟩

theorem lexeme_ne {t x} (h : Lexeme t x) : x ≠ [] := by
  cases h with
  | literal _ _ => simp
  | integer h _ => exact h
  | float _ _ _ => simp
  | ncname h => cases h <;> simp
  | sym h =>
    simp [symTable] at h
    rintro rfl; simp at h

/-- A lexeme alone is read as one token. -/
theorem rawTok_of_lexeme {t x} (h : Lexeme t x) : rawTok x = some (t, []) := by
  cases h with
  | @literal q v hq hv =>
    simp only [rawTok, if_pos hq, spanQuote_of hv]
  | integer hne hd =>
    rcases x with _ | ⟨c, ds⟩
    · exact absurd rfl hne
    simp at hd
    have hf := digit_facts hd.1
    have := spanDigits_all (k := []) hd.2 (by simp)
    simp only [List.append_nil] at this
    simp only [rawTok, if_neg hf.1, hd.1, if_true, this, eat]
  | @float ds fs hne hd hf =>
    have hfs := spanDigits_all (k := []) hf (by simp)
    simp only [List.append_nil] at hfs
    rcases ds with _ | ⟨c, ds⟩
    · have hne : fs ≠ [] := by simpa using hne
      have hd : isDigit '.' = false := by decide
      simp [rawTok, hd, hfs, hne]
    · simp at hd
      have hfx := digit_facts hd.1
      have hsp := spanDigits_all (k := '.' :: fs) hd.2 (fun c r h => by cases h; decide)
      simp only [List.cons_append, rawTok, if_neg hfx.1, hd.1, if_true, hsp, eat, hfs]
  | @ncname n hn =>
    have hall := ncname_all hn
    cases hn with
    | @char c s hc ht =>
      obtain ⟨f1, f2, f3, f4⟩ := nameStart_facts hc
      simp only [rawTok, if_neg f1, f2, if_neg f3, hall]
      simp
    | @odd s ht =>
      have f1 : ¬ ('À' = '"' ∨ 'À' = '\'') := by decide
      have f2 : isDigit 'À' = false := by decide
      simp only [rawTok, if_neg f1, f2, hall]
      simp
  | sym h =>
    simp only [symTable, List.mem_cons, List.not_mem_nil, or_false, Prod.mk.injEq] at h
    rcases h with ⟨rfl, rfl⟩ | ⟨rfl, rfl⟩ | ⟨rfl, rfl⟩ | ⟨rfl, rfl⟩ | ⟨rfl, rfl⟩ | ⟨rfl, rfl⟩ | ⟨rfl, rfl⟩ | ⟨rfl, rfl⟩ | ⟨rfl, rfl⟩ | ⟨rfl, rfl⟩ | ⟨rfl, rfl⟩ | ⟨rfl, rfl⟩ | ⟨rfl, rfl⟩ | ⟨rfl, rfl⟩ | ⟨rfl, rfl⟩ | ⟨rfl, rfl⟩ | ⟨rfl, rfl⟩ | ⟨rfl, rfl⟩ | ⟨rfl, rfl⟩ | ⟨rfl, rfl⟩ | ⟨rfl, rfl⟩ | ⟨rfl, rfl⟩ | ⟨rfl, rfl⟩ <;> decide

/-- Where a lexeme starts, a token is found. -/
theorem rawTok_isSome {t x} (h : Lexeme t x) (r : Str) : ∃ p, rawTok (x ++ r) = some p := by
  cases h with
  | @literal q v hq hv =>
    refine ⟨(.literal v, r), ?_⟩
    simp only [List.cons_append, List.append_assoc, List.nil_append, rawTok, if_pos hq, spanQuote_of hv]
  | integer hne hd =>
    rcases x with _ | ⟨c, ds⟩
    · exact absurd rfl hne
    simp at hd
    have hf := digit_facts hd.1
    simp only [List.cons_append, rawTok, if_neg hf.1, hd.1, if_true]
    split <;> exact ⟨_, rfl⟩
  | @float ds fs hne hd hf =>
    rcases ds with _ | ⟨c, ds⟩
    · have hd : isDigit '.' = false := by decide
      have f1 : ¬ ('.' = '"' ∨ '.' = '\'') := by decide
      simp only [List.nil_append, List.cons_append, rawTok, if_neg f1, hd, if_true]
      simp only [Bool.false_eq_true, if_false]
      split
      · exact ⟨_, rfl⟩
      · split <;> exact ⟨_, rfl⟩
    · simp at hd
      have hfx := digit_facts hd.1
      simp only [List.cons_append, rawTok, if_neg hfx.1, hd.1, if_true]
      split <;> exact ⟨_, rfl⟩
  | @ncname n hn =>
    cases hn with
    | @char c s hc ht =>
      obtain ⟨f1, f2, f3, f4⟩ := nameStart_facts hc
      simp only [List.cons_append, rawTok, if_neg f1, f2, if_neg f3, ncname, hc, if_true]
      simp
    | @odd s ht =>
      have f1 : ¬ ('À' = '"' ∨ 'À' = '\'') := by decide
      have f2 : isDigit 'À' = false := by decide
      have f3 : isNameStart 'À' = false := by decide
      simp only [List.cons_append, rawTok, if_neg f1, f2, ncname, f3]
      simp [startsBroken]
  | sym h =>
    simp only [symTable, List.mem_cons, List.not_mem_nil, or_false, Prod.mk.injEq] at h
    have hs : ∀ c cs, ¬ (c = '"' ∨ c = '\'') → isDigit c = false → c ≠ '.' → isNameStart c = false → c ≠ 'À' →
        (∃ t, sym1 c = some t) → ∃ p, rawTok (c :: cs) = some p := by
      intro c cs a1 a2 a3 a4 a5 ⟨t, a6⟩
      have hb : startsBroken (c :: cs) = false := by simp [startsBroken, a5]
      simp only [rawTok, if_neg a1, a2, if_neg a3, ncname, a4, hb, symTok, a6]
      simp only [Bool.false_eq_true, if_false]
      split <;> simp
    have hdot : ∀ cs, ∃ p, rawTok ('.' :: cs) = some p := by
      intro cs
      have hd : isDigit '.' = false := by decide
      have f1 : ¬ ('.' = '"' ∨ '.' = '\'') := by decide
      simp only [rawTok, if_neg f1, hd, if_true, Bool.false_eq_true, if_false]
      split
      · exact ⟨_, rfl⟩
      · split <;> exact ⟨_, rfl⟩
    rcases h with ⟨rfl, rfl⟩ | ⟨rfl, rfl⟩ | ⟨rfl, rfl⟩ | ⟨rfl, rfl⟩ | ⟨rfl, rfl⟩ | ⟨rfl, rfl⟩ | ⟨rfl, rfl⟩ | ⟨rfl, rfl⟩ | ⟨rfl, rfl⟩ | ⟨rfl, rfl⟩ | ⟨rfl, rfl⟩ | ⟨rfl, rfl⟩ | ⟨rfl, rfl⟩ | ⟨rfl, rfl⟩ | ⟨rfl, rfl⟩ | ⟨rfl, rfl⟩ | ⟨rfl, rfl⟩ | ⟨rfl, rfl⟩ | ⟨rfl, rfl⟩ | ⟨rfl, rfl⟩ | ⟨rfl, rfl⟩ | ⟨rfl, rfl⟩ | ⟨rfl, rfl⟩
    case inr.inr.inl => exact hdot _
    case inr.inr.inr.inl => exact hdot _
    case inr.inr.inr.inr.inr.inr.inr.inr.inr.inr.inr.inr.inl => exact ⟨_, rfl⟩
    all_goals exact hs _ _ (by decide) (by decide) (by decide) (by decide) (by decide) ⟨_, rfl⟩


/-! ### Removing what follows -/

/-- The text cannot be absorbed by a name before it. -/
def NStop (s : Str) : Prop := ∀ c r, s = c :: r → isNameChar c = false ∧ startsBroken (c :: r) = false

theorem nameTailK_nstop (k : Nat) (s : Str) : NStop (nameTailK k s).2 := by
  fun_induction nameTailK k s with
  | case1 => intro c r h; cases h
  | case2 k c cs ih => exact ih
  | case3 c cs h ih => exact ih
  | case4 c cs h hb ih => exact ih
  | case5 c cs h hb =>
    intro d r hd; cases hd
    exact ⟨by simpa using h, by simpa using hb⟩

theorem NStop.trunc {r v : Str} (h : NStop (r ++ v)) : NStop r := by
  intro c s hs
  subst hs
  obtain ⟨h1, h2⟩ := h c (s ++ v) rfl
  refine ⟨h1, ?_⟩
  by_contra hb
  simp only [Bool.not_eq_false] at hb
  obtain ⟨s', hs'⟩ := startsBroken_eq hb
  cases hs'
  simp [startsBroken] at h2

theorem nameTail_nstop {n r} (hn : NameTail n) (hr : NStop r) : nameTailK 0 (n ++ r) = (n, r) := by
  induction hn with
  | nil =>
    cases r with
    | nil => rfl
    | cons c r =>
      obtain ⟨h1, h2⟩ := hr c r rfl
      simp [nameTailK, h1, h2]
  | char hc _ ih => simp [nameTailK, hc, ih]
  | odd _ ih =>
    have h1 : isNameChar 'À' = false := by decide
    simp only [List.cons_append]
    rw [nameTailK]
    simp [h1, startsBroken, nameTailK, ih]

theorem ncname_nstop {n r} (hn : NameText n) (hr : NStop r) : ncname (n ++ r) = some (n, r) := by
  cases hn with
  | char hc ht => simp [ncname, hc, nameTail, nameTail_nstop ht hr]
  | odd ht =>
    have h1 : isNameStart 'À' = false := by decide
    simp [ncname, h1, startsBroken, nameTailK, nameTail_nstop ht hr]

theorem ncname_rest {s n r} (h : ncname s = some (n, r)) : NStop r := by
  cases s with
  | nil => cases h
  | cons c cs =>
    simp only [ncname] at h
    split at h
    · simp at h; obtain ⟨rfl, rfl⟩ := h; exact nameTailK_nstop _ _
    · split at h
      · simp at h; obtain ⟨rfl, rfl⟩ := h; exact nameTailK_nstop _ _
      · cases h

theorem ncname_none_trunc {s v : Str} (h : ncname (s ++ v) = none) : ncname s = none := by
  cases s with
  | nil => rfl
  | cons c s =>
    simp only [List.cons_append, ncname] at h ⊢
    split at h
    · cases h
    · rename_i h1
      split at h
      · cases h
      · rename_i h2
        have : startsBroken (c :: s) = false := by
          by_contra hb
          simp only [Bool.not_eq_false] at hb
          obtain ⟨s', hs'⟩ := startsBroken_eq hb
          cases hs'
          simp [startsBroken] at h2
        simp [h1, this]

theorem spanDigits_rest (s : Str) : ∀ c r, (spanDigits s).2 = c :: r → isDigit c = false := by
  fun_induction spanDigits s with
  | case1 => intro c r h; cases h
  | case2 c cs h ih => exact ih
  | case3 c cs h => intro d r hd; cases hd; simpa using h

theorem eat_none_trunc {x : Char} {s v : Str} (h : eat x (s ++ v) = none) : eat x s = none := by
  cases s with
  | nil => rfl
  | cons c s => simpa [eat] using h

theorem noDigit_trunc {r v : Str} (h : ∀ c s, r ++ v = c :: s → isDigit c = false) : ∀ c s, r = c :: s → isDigit c = false := by
  rintro c s rfl; exact h c (s ++ v) rfl

/-- The first token does not change if text behind it is removed. -/
theorem rawTok_trunc {s v r : Str} {t : Tok} (h : rawTok (s ++ v) = some (t, r ++ v)) (hs : s ≠ []) :
    rawTok s = some (t, r) := by
  rcases s with _ | ⟨c, cs⟩
  · exact absurd rfl hs
  simp only [List.cons_append, rawTok] at h ⊢
  have cancel : ∀ {a b : Str}, a ++ v = b ++ v → a = b := fun h => List.append_cancel_right h
  split_ifs at h ⊢ with g1 g2 g3 g4 g5 g5
  · split at h
    · rename_i v' r' hq
      simp at h; obtain ⟨rfl, rfl⟩ := h
      obtain ⟨e1, e2⟩ := spanQuote_eq hq
      have : cs = v' ++ c :: r := cancel (by simpa using e1)
      subst this
      rw [spanQuote_of e2]
    · cases h
  · have ha := spanDigits_append (cs ++ v)
    have hd := spanDigits_digits (cs ++ v)
    split at h
    · rename_i r' hr
      replace hr := eat_eq hr
      simp at h; obtain ⟨rfl, h2⟩ := h
      have hb := spanDigits_append r'
      have hbd := spanDigits_digits r'
      have hbr := spanDigits_rest r'
      rw [h2] at hb hbr
      rw [hr, hb] at ha
      have hcs : cs = (spanDigits (cs ++ v)).1 ++ '.' :: ((spanDigits r').1 ++ r) := cancel (by simpa using ha)
      generalize (spanDigits (cs ++ v)).1 = ds at *
      generalize (spanDigits r').1 = fs at *
      subst hcs
      have s1 := spanDigits_all (k := '.' :: (fs ++ r)) hd (fun c r h => by cases h; decide)
      have s2 := spanDigits_all (k := r) hbd (noDigit_trunc hbr)
      simp only [s1, eat, if_true, s2]
    · rename_i he
      simp at h; obtain ⟨rfl, h2⟩ := h
      have hbr := spanDigits_rest (cs ++ v)
      rw [h2] at ha he hbr
      have hcs : cs = (spanDigits (cs ++ v)).1 ++ r := cancel (by simpa using ha)
      generalize (spanDigits (cs ++ v)).1 = ds at *
      subst hcs
      have s1 := spanDigits_all (k := r) hd (noDigit_trunc hbr)
      simp only [s1, eat_none_trunc he]
  · simp at h; obtain ⟨rfl, h2⟩ := h
    have ha := spanDigits_append (cs ++ v)
    have hd := spanDigits_digits (cs ++ v)
    have hbr := spanDigits_rest (cs ++ v)
    rw [h2] at ha hbr
    have hcs : cs = (spanDigits (cs ++ v)).1 ++ r := cancel (by simpa using ha)
    generalize (spanDigits (cs ++ v)).1 = ds at *
    subst hcs
    have s1 := spanDigits_all (k := r) hd (noDigit_trunc hbr)
    simp only [s1]
  · -- and the other way round
    exfalso
    rcases cs with _ | ⟨d, cs⟩
    · simp [spanDigits] at g4
    · simp only [List.cons_append, spanDigits] at g4 g5
      by_cases hd : isDigit d = true
      · simp [hd] at g5
      · simp [hd] at g4
  · -- digits in the longer text, none in the shorter one
    simp at h; obtain ⟨rfl, h2⟩ := h
    have ha := spanDigits_append (cs ++ v)
    have hd := spanDigits_digits (cs ++ v)
    have hbr := spanDigits_rest (cs ++ v)
    rw [h2] at ha hbr
    have hcs : cs = (spanDigits (cs ++ v)).1 ++ r := cancel (by simpa using ha)
    generalize (spanDigits (cs ++ v)).1 = ds at *
    subst hcs
    have s1 := spanDigits_all (k := r) hd (noDigit_trunc hbr)
    rw [s1] at g4
    exact absurd g5 g4
  · split at h
    · rename_i r' he
      replace he := eat_eq he
      simp at h; obtain ⟨rfl, rfl⟩ := h
      have : cs = '.' :: r := cancel (by simpa using he)
      subst this
      simp [eat]
    · rename_i he
      simp at h; obtain ⟨rfl, h2⟩ := h
      subst h2
      simp [eat_none_trunc he]
  · split at h
    · rename_i nm r' hn
      simp at h; obtain ⟨rfl, rfl⟩ := h
      have e1 := (ncname_append hn).1
      have e2 := ncname_text hn
      have e3 := (ncname_rest hn).trunc
      have : c :: cs = nm ++ r := cancel (by simpa using e1)
      rw [this, ncname_nstop e2 e3]
    · rename_i hn
      rw [ncname_none_trunc (s := c :: cs) (v := v) hn]
      simp only
      unfold symTok at h ⊢
      split at h
      · rename_i q hq
        cases h
        rw [Option.bind_eq_some_iff] at hq
        obtain ⟨p, e1, e2⟩ := hq
        rw [Option.map_eq_some_iff] at e2
        obtain ⟨r', e3, e4⟩ := e2
        cases e4
        have : cs = p.1 :: r := cancel (by simpa using eat_eq e3)
        subst this
        simp [e1, eat]
      · rename_i hq
        rw [Option.map_eq_some_iff] at h
        obtain ⟨t', e1, e2⟩ := h
        simp at e2
        obtain ⟨rfl, rfl⟩ := e2
        have : ((sym2 c).bind fun p => Option.map (fun r => (p.2, r)) (eat p.1 cs)) = none := by
          cases h2 : sym2 c with
          | none => rfl
          | some p =>
            rw [h2] at hq
            simp at hq
            simp [eat_none_trunc hq]
        rw [this, e1]; rfl

end XPath
