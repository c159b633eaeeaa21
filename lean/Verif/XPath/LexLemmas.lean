import Verif.XPath.Lexer
import Verif.XPath.Serialize
import Mathlib.Tactic.Tauto
import Mathlib.Tactic.SplitIfs
/-
Lemmas about the lexer model: progress, independence of the fuel, and what single tokens look like.
-/
namespace XPath

theorem nameTailK_append (k : Nat) (s : Str) : s = (nameTailK k s).1 ++ (nameTailK k s).2 := by
  fun_induction nameTailK k s with
  | case1 => rfl
  | case2 k c cs ih => simpa using ih
  | case3 c cs h ih => simpa using ih
  | case4 c cs h hb ih => simpa using ih
  | case5 => rfl

theorem eat_eq {x s r} (h : eat x s = some r) : s = x :: r := by
  cases s with
  | nil => cases h
  | cons c s =>
    simp only [eat] at h
    split at h
    · cases h; simp [*]
    · cases h

theorem eat_stop {x w s b} (h : w ≠ x) : eat x (s ++ w :: b) = (eat x s).map (· ++ w :: b) := by
  cases s with
  | nil => simp [eat, h]
  | cons c s => simp only [List.cons_append, eat]; split <;> rfl

theorem spanDigits_append (s : Str) : s = (spanDigits s).1 ++ (spanDigits s).2 := by
  fun_induction spanDigits s with
  | case1 => rfl
  | case2 c cs h ih => simpa using ih
  | case3 => rfl

theorem spanDigits_digits (s : Str) : ∀ c ∈ (spanDigits s).1, isDigit c = true := by
  fun_induction spanDigits s with
  | case1 => simp
  | case2 c cs h ih => simpa using ⟨h, ih⟩
  | case3 => simp

theorem spanQuote_eq {q s v r} (h : spanQuote q s = some (v, r)) : s = v ++ q :: r ∧ q ∉ v := by
  fun_induction spanQuote q s generalizing v with
  | case1 => cases h
  | case2 cs => simp at h; obtain ⟨rfl, rfl⟩ := h; simp
  | case3 => simp at h
  | case4 c cs hc v' r' hq ih =>
    simp at h; obtain ⟨rfl, rfl⟩ := h
    have := ih hq
    refine ⟨by simp [← this.1], ?_⟩
    simp; exact ⟨fun h => hc h.symm, this.2⟩

theorem spanQuote_of {q v r} (h : q ∉ v) : spanQuote q (v ++ q :: r) = some (v, r) := by
  induction v with
  | nil => simp [spanQuote]
  | cons c v ih =>
    simp at h
    simp [spanQuote, Ne.symm h.1, ih h.2]

theorem ncname_append {s n r} (h : ncname s = some (n, r)) : s = n ++ r ∧ n ≠ [] := by
  unfold ncname at h
  split at h
  · cases h
  · rename_i c cs
    split at h
    · simp at h; obtain ⟨rfl, rfl⟩ := h
      simpa [nameTail] using nameTailK_append 0 cs
    · split at h
      · simp at h; obtain ⟨rfl, rfl⟩ := h
        simpa using nameTailK_append 3 cs
      · cases h

theorem symTok_append {c cs t r} (h : symTok c cs = some (t, r)) : ∃ x, c :: cs = (c :: x) ++ r := by
  unfold symTok at h
  split at h
  · rename_i q hq
    cases h
    rw [Option.bind_eq_some_iff] at hq
    obtain ⟨p, h1, h2⟩ := hq
    rw [Option.map_eq_some_iff] at h2
    obtain ⟨r', h3, h4⟩ := h2
    cases h4
    exact ⟨[p.1], by rw [eat_eq h3]; rfl⟩
  · rw [Option.map_eq_some_iff] at h
    obtain ⟨t', h1, h2⟩ := h
    cases h2
    exact ⟨[], rfl⟩

/-- A token is a non-empty prefix of the input. -/
theorem rawTok_append {s t r} (h : rawTok s = some (t, r)) : ∃ x, x ≠ [] ∧ s = x ++ r := by
  unfold rawTok at h
  split at h
  · cases h
  rename_i c cs
  split_ifs at h with h1 h2 h3 h4
  · split at h
    · rename_i v r' hq
      simp at h; obtain ⟨rfl, rfl⟩ := h
      exact ⟨c :: (v ++ [c]), by simp, by simp [(spanQuote_eq hq).1]⟩
    · cases h
  · have ha := spanDigits_append cs
    split at h
    · rename_i r' hr
      replace hr := eat_eq hr
      simp at h; obtain ⟨rfl, rfl⟩ := h
      have hb := spanDigits_append r'
      refine ⟨c :: (spanDigits cs).1 ++ '.' :: (spanDigits r').1, by simp, ?_⟩
      rw [hr] at ha
      rw [ha]
      simp only [List.cons_append, List.append_assoc]
      rw [← hb]
      simp [ha.symm]
    · simp at h; obtain ⟨rfl, rfl⟩ := h
      exact ⟨c :: (spanDigits cs).1, by simp, by simpa using ha⟩
  · simp at h; obtain ⟨rfl, rfl⟩ := h
    exact ⟨c :: (spanDigits cs).1, by simp, by simpa using spanDigits_append cs⟩
  · split at h <;> simp at h <;> obtain ⟨rfl, rfl⟩ := h
    · rename_i he
      exact ⟨[c, '.'], by simp, by rw [eat_eq he]; rfl⟩
    · exact ⟨[c], by simp, rfl⟩
  · split at h
    · rename_i nm r' hn
      simp at h; obtain ⟨rfl, rfl⟩ := h
      exact ⟨nm, (ncname_append hn).2, (ncname_append hn).1⟩
    · obtain ⟨x, hx⟩ := symTok_append h
      exact ⟨c :: x, by simp, hx⟩

theorem rawTok_lt {s t r} (h : rawTok s = some (t, r)) : r.length < s.length := by
  obtain ⟨x, hx, rfl⟩ := rawTok_append h
  have : 0 < x.length := List.length_pos_iff.mpr hx
  simp; omega

theorem rawLexN_fuel : ∀ (n m : Nat) (s : Str), s.length < n → s.length < m → rawLexN n s = rawLexN m s
  | 0, _, _, h, _ => absurd h (by omega)
  | _ + 1, 0, _, _, h => absurd h (by omega)
  | n + 1, m + 1, [], _, _ => rfl
  | n + 1, m + 1, c :: cs, h, h' => by
    simp at h h'
    simp only [rawLexN]
    split
    · exact rawLexN_fuel n m cs (by omega) (by omega)
    · split
      · rfl
      · rename_i t r hr
        have := rawTok_lt hr
        simp at this
        rw [rawLexN_fuel n m r (by omega) (by omega)]

@[simp] theorem rawLex_nil : rawLex [] = ([], false) := rfl

theorem rawLex_ws {c s} (h : isWs c = true) : rawLex (c :: s) = rawLex s := by
  unfold rawLex
  rw [rawLexN, if_pos h]
  exact rawLexN_fuel _ _ _ (by simp) (by simp)

theorem rawLex_none {c s} (h : isWs c = false) (h' : rawTok (c :: s) = none) : rawLex (c :: s) = ([], true) := by
  unfold rawLex
  rw [rawLexN, if_neg (by simp [h]), h']

theorem rawLex_tok {c s t r} (h : isWs c = false) (h' : rawTok (c :: s) = some (t, r)) :
    rawLex (c :: s) = (t :: (rawLex r).1, (rawLex r).2) := by
  have hl := rawTok_lt h'
  unfold rawLex
  rw [rawLexN, if_neg (by simp [h]), h']
  simp only
  rw [rawLexN_fuel _ (r.length + 1) _ hl (by omega)]

theorem rawLex_wss {w s : Str} (h : ∀ c ∈ w, isWs c = true) : rawLex (w ++ s) = rawLex s := by
  induction w with
  | nil => rfl
  | cons c w ih =>
    simp at h
    rw [List.cons_append, rawLex_ws h.1, ih h.2]

/-! ### White space ends every token -/

theorem ws_not {w} (h : isWs w = true) : isNameChar w = false ∧ isDigit w = false ∧ w ≠ 'À' ∧ w ≠ '.' ∧ w ≠ '=' ∧
    w ≠ '/' ∧ w ≠ ':' ∧ w ≠ '-' ∧ w ≠ 'Ö' ∧ w ≠ ']' := by
  simp [isWs] at h
  rcases h with ((rfl | rfl) | rfl) | rfl <;> decide

theorem startsBroken_stop {s w b} (hw : isWs w = true) : startsBroken (s ++ w :: b) = startsBroken s := by
  obtain ⟨h1, h2, h3, h4, h5, h6, h7, h8, h9, h10⟩ := ws_not hw
  unfold startsBroken
  rcases s with _ | ⟨a, _ | ⟨b', _ | ⟨d, _ | ⟨e, s⟩⟩⟩⟩ <;> simp [h3, h8, h9, h10]

theorem startsBroken_len {s} (h : startsBroken s = true) : 4 ≤ s.length := by
  unfold startsBroken at h
  rcases s with _ | ⟨a, _ | ⟨b', _ | ⟨d, _ | ⟨e, s⟩⟩⟩⟩ <;> simp at h ⊢

theorem nameTailK_stop {k s w b} (hw : isWs w = true) (hk : k ≤ s.length) :
    nameTailK k (s ++ w :: b) = ((nameTailK k s).1, (nameTailK k s).2 ++ w :: b) := by
  obtain ⟨h1, h2, h3, h4, h5, h6, h7, h8, h9, h10⟩ := ws_not hw
  fun_induction nameTailK k s with
  | case1 k =>
    simp at hk; subst hk
    have : startsBroken (w :: b) = false := by simp [startsBroken, h3]
    simp [nameTailK, h1, this]
  | case2 k c cs ih => simp at hk; simp [nameTailK, ih hk]
  | case3 c cs h ih => simp [nameTailK, h, ih (by omega)]
  | case4 c cs h hb ih =>
    have hl := startsBroken_len hb
    have hb' := hb
    rw [← startsBroken_stop (b := b) hw] at hb'
    simp only [List.cons_append] at hb'
    have := ih (by simp at hl; omega)
    simp [nameTailK, h, hb', this]
  | case5 c cs h hb =>
    rw [← startsBroken_stop (b := b) hw] at hb
    simp only [List.cons_append] at hb
    simp [nameTailK, h, hb]

theorem spanDigits_stop {s w b} (hw : isDigit w = false) :
    spanDigits (s ++ w :: b) = ((spanDigits s).1, (spanDigits s).2 ++ w :: b) := by
  fun_induction spanDigits s with
  | case1 => simp [spanDigits, hw]
  | case2 c cs h ih => simp [spanDigits, h, ih]
  | case3 c cs h => simp [spanDigits, h]

theorem spanQuote_app {q s v r} (b) (h : spanQuote q s = some (v, r)) : spanQuote q (s ++ b) = some (v, r ++ b) := by
  obtain ⟨rfl, h2⟩ := spanQuote_eq h
  rw [List.append_assoc, List.cons_append]
  exact spanQuote_of h2

theorem ncname_stop {s w b} (hw : isWs w = true) (hs : s ≠ []) :
    ncname (s ++ w :: b) = (ncname s).map fun p => (p.1, p.2 ++ w :: b) := by
  rcases s with _ | ⟨c, cs⟩
  · exact absurd rfl hs
  simp only [List.cons_append, ncname]
  split
  · simp [nameTail, nameTailK_stop hw]
  · have := startsBroken_stop (s := c :: cs) (b := b) hw
    simp only [List.cons_append] at this
    rw [this]
    split
    · rename_i hb
      have hl := startsBroken_len hb
      simp at hl
      simp [nameTailK_stop (s := cs) (k := 3) hw (by omega)]
    · rfl

theorem sym2_char {c p} (h : sym2 c = some p) : p.1 = '=' ∨ p.1 = '/' ∨ p.1 = ':' := by
  unfold sym2 at h
  split_ifs at h <;> cases h <;> simp

theorem symTok_stop {c cs w b} (hw : isWs w = true) :
    symTok c (cs ++ w :: b) = (symTok c cs).map fun p => (p.1, p.2 ++ w :: b) := by
  obtain ⟨h1, h2, h3, h4, h5, h6, h7, h8, h9, h10⟩ := ws_not hw
  unfold symTok
  cases h : sym2 c with
  | none => cases sym1 c <;> rfl
  | some p =>
    have : w ≠ p.1 := by rcases sym2_char h with h | h | h <;> rw [h] <;> assumption
    simp only [Option.bind_some, eat_stop this]
    cases eat p.1 cs with
    | none => cases sym1 c <;> rfl
    | some r => rfl

/-- Appending white space and arbitrary text does not change the first token. -/
theorem rawTok_stop {s w b} (hw : isWs w = true) (hs : s ≠ []) {t r} (h : rawTok s = some (t, r)) :
    rawTok (s ++ w :: b) = some (t, r ++ w :: b) := by
  obtain ⟨h1, h2, h3, h4, h5, h6, h7, h8, h9, h10⟩ := ws_not hw
  rcases s with _ | ⟨c, cs⟩
  · exact absurd rfl hs
  simp only [List.cons_append, rawTok] at h ⊢
  split_ifs at h ⊢ with g1 g2 g3 g4 g5 g5
  · split at h
    · rename_i v r' hq
      simp at h; obtain ⟨rfl, rfl⟩ := h
      simp [spanQuote_app _ hq]
    · cases h
  · rw [spanDigits_stop h2, eat_stop h4]
    split at h
    · rename_i he
      simp at h; obtain ⟨rfl, rfl⟩ := h
      simp [he, spanDigits_stop h2]
    · rename_i he
      simp at h; obtain ⟨rfl, rfl⟩ := h
      simp [he]
  · simp at h; obtain ⟨rfl, rfl⟩ := h
    simp [spanDigits_stop h2]
  · rw [spanDigits_stop h2] at g4; exact absurd g4 g5
  · rw [spanDigits_stop h2] at g4; exact absurd g5 g4
  · rw [eat_stop h4]
    split at h <;> rename_i he <;> simp at h <;> obtain ⟨rfl, rfl⟩ := h <;> simp [he]
  · have := ncname_stop (b := b) hw (s := c :: cs) (by simp)
    simp only [List.cons_append] at this
    rw [this]
    split at h
    · rename_i hn
      simp at h; obtain ⟨rfl, rfl⟩ := h
      simp [hn]
    · rename_i hn
      simp only [hn, Option.map_none]
      rw [symTok_stop hw, h]; rfl

theorem rawLex_stop {w : Char} (b : Str) (hw : isWs w = true) : ∀ (n : Nat) (s : Str), s.length ≤ n →
    ∀ ts, rawLex s = (ts, false) → rawLex (s ++ w :: b) = (ts ++ (rawLex b).1, (rawLex b).2)
  | n, [], _, ts, h => by
    simp at h; subst h
    rw [List.nil_append, rawLex_ws hw]; rfl
  | 0, _ :: _, hn, _, _ => by simp at hn
  | n + 1, c :: cs, hn, ts, h => by
    simp at hn
    by_cases hc : isWs c = true
    · rw [List.cons_append, rawLex_ws hc]
      rw [rawLex_ws hc] at h
      exact rawLex_stop b hw n cs (by omega) ts h
    · simp at hc
      cases hr : rawTok (c :: cs) with
      | none => rw [rawLex_none hc hr] at h; simp at h
      | some p =>
        obtain ⟨t, r⟩ := p
        have hl := rawTok_lt hr
        simp at hl
        rw [rawLex_tok hc hr] at h
        simp at h
        have h2 := rawTok_stop (b := b) hw (by simp) hr
        rw [List.cons_append] at h2 ⊢
        rw [rawLex_tok hc h2]
        have := rawLex_stop b hw n r (by omega) (rawLex r).1 (by rw [← h.2])
        rw [this, ← h.1]
        simp

end XPath
