import Verif.XPath.LexLemmas
import Verif.XPath.Canon
import Mathlib.Tactic.Ring
import Mathlib.Tactic.IntervalCases
/-
Decimal numerals: `str(n)` is read back as `n`, and the same for floats without exponent.
-/
namespace XPath

theorem digitChar_isDigit {d : Nat} (h : d < 10) : isDigit (digitChar d) = true ∧ (digitChar d).toNat - 48 = d := by
  interval_cases d <;> decide

theorem digitsVal_acc (ds : Str) (a : Nat) :
    ds.foldl (fun a c => 10 * a + (c.toNat - 48)) a = a * 10 ^ ds.length + digitsVal ds := by
  unfold digitsVal
  induction ds generalizing a with
  | nil => simp
  | cons c ds ih =>
    simp only [List.foldl_cons, List.length_cons]
    rw [ih, ih (10 * 0 + _)]
    ring

theorem digitsVal_append (a b : Str) : digitsVal (a ++ b) = digitsVal a * 10 ^ b.length + digitsVal b := by
  rw [digitsVal, List.foldl_append, digitsVal_acc]; rfl

theorem digitsVal_cons (c : Char) (b : Str) : digitsVal (c :: b) = (c.toNat - 48) * 10 ^ b.length + digitsVal b := by
  rw [show c :: b = [c] ++ b from rfl, digitsVal_append]; simp [digitsVal]

theorem natStrAux_spec : ∀ (fuel n : Nat) (acc : Str), n < fuel → ∃ ds : Str, natStrAux fuel n acc = ds ++ acc ∧
    ds ≠ [] ∧ (∀ c ∈ ds, isDigit c = true) ∧ digitsVal ds = n ∧ (∀ k, 0 < k → n < 10 ^ k → ds.length ≤ k)
  | 0, _, _, h => absurd h (by omega)
  | fuel + 1, n, acc, h => by
    unfold natStrAux
    split
    · rename_i hn
      have := digitChar_isDigit hn
      exact ⟨[digitChar n], rfl, by simp, by simpa using this.1, by simp [digitsVal, this.2], by intro k hk _; simp; omega⟩
    · rename_i hn
      have hm := digitChar_isDigit (Nat.mod_lt n (by omega : 10 > 0))
      obtain ⟨ds, h1, h2, h3, h4, h5⟩ := natStrAux_spec fuel (n / 10) (digitChar (n % 10) :: acc) (by omega)
      refine ⟨ds ++ [digitChar (n % 10)], by simp [h1], by simp, ?_, ?_, ?_⟩
      · intro c hc
        simp at hc
        rcases hc with hc | rfl
        · exact h3 c hc
        · exact hm.1
      · rw [digitsVal_append, h4]
        simp [digitsVal, hm.2]; omega
      · intro k hk hlt
        obtain ⟨j, rfl⟩ : ∃ j, k = j + 1 := ⟨k - 1, by omega⟩
        have hj : n / 10 < 10 ^ j := by
          rw [Nat.div_lt_iff_lt_mul (by omega)]; rw [pow_succ] at hlt; exact hlt
        have : 0 < j := by
          rcases Nat.eq_zero_or_pos j with rfl | h
          · simp at hj; omega
          · exact h
        have := h5 j this hj
        simp; omega

theorem natStr_spec (n : Nat) : natStr n ≠ [] ∧ (∀ c ∈ natStr n, isDigit c = true) ∧ digitsVal (natStr n) = n ∧
    (∀ k, 0 < k → n < 10 ^ k → (natStr n).length ≤ k) := by
  obtain ⟨ds, h1, h2, h3, h4, h5⟩ := natStrAux_spec (n + 1) n [] (by omega)
  unfold natStr
  rw [h1]; simp only [List.append_nil]
  exact ⟨h2, h3, h4, h5⟩

theorem digitsVal_zeros (k : Nat) (s : Str) : digitsVal (List.replicate k '0' ++ s) = digitsVal s := by
  induction k with
  | zero => rfl
  | succ k ih => rw [List.replicate_succ, List.cons_append, digitsVal_cons, ih]; simp

theorem zeroPad_spec (w : Nat) (s : Str) (hs : ∀ c ∈ s, isDigit c = true) (hl : s.length ≤ w) :
    (zeroPad w s).length = w ∧ (∀ c ∈ zeroPad w s, isDigit c = true) ∧ digitsVal (zeroPad w s) = digitsVal s := by
  refine ⟨by simp [zeroPad]; omega, ?_, digitsVal_zeros _ _⟩
  intro c hc
  simp [zeroPad] at hc
  rcases hc with ⟨_, rfl⟩ | hc
  · decide
  · exact hs c hc

theorem spanDigits_all {ds k : Str} (hd : ∀ c ∈ ds, isDigit c = true) (hk : ∀ c r, k = c :: r → isDigit c = false) :
    spanDigits (ds ++ k) = (ds, k) := by
  induction ds with
  | nil =>
    cases k with
    | nil => rfl
    | cons c r => simp [spanDigits, hk c r rfl]
  | cons c ds ih =>
    simp at hd
    simp [spanDigits, hd.1, ih hd.2]

theorem digit_facts {c} (h : isDigit c = true) : ¬ (c = '"' ∨ c = '\'') ∧ isWs c = false ∧ c ≠ '.' := by
  refine ⟨?_, ?_, ?_⟩
  · rintro (rfl | rfl) <;> simp [isDigit, inRange] at h
  · by_contra hw
    simp only [Bool.not_eq_false] at hw
    simp [isWs] at hw
    rcases hw with ((rfl | rfl) | rfl) | rfl <;> simp [isDigit, inRange] at h
  · rintro rfl; simp [isDigit, inRange] at h

theorem rawTok_int (n : Nat) (k : Str) (hk : ∀ c r, k = c :: r → isDigit c = false ∧ c ≠ '.') :
    rawTok (natStr n ++ k) = some (.integer n, k) := by
  obtain ⟨h1, h2, h3, -⟩ := natStr_spec n
  generalize natStr n = ds at *
  rcases ds with _ | ⟨c, ds⟩
  · exact absurd rfl h1
  simp at h2
  have hf := digit_facts h2.1
  have hsp := spanDigits_all (k := k) h2.2 (fun c r h => (hk c r h).1)
  have he : eat '.' k = none := by
    cases k with
    | nil => rfl
    | cons c r => simp [eat, (hk c r rfl).2]
  simp only [List.cons_append, rawTok, if_neg hf.1, h2.1, if_true, hsp, he, h3]

theorem dropTrailingZeros_id {fs : Str} (h : ∀ a, fs.getLast? = some a → a ≠ '0') : dropTrailingZeros fs = fs := by
  unfold dropTrailingZeros
  rw [List.getLast?_eq_head?_reverse] at h
  cases hr : fs.reverse with
  | nil => simp at hr; simp [hr]
  | cons a r =>
    rw [hr] at h
    have := h a rfl
    rw [List.dropWhile_cons_of_neg (by simpa using this), ← hr, List.reverse_reverse]

theorem digitsVal_mod (fs : Str) (hne : fs ≠ []) : ∃ a, fs.getLast? = some a ∧ digitsVal fs % 10 = (a.toNat - 48) % 10 := by
  obtain ⟨init, a, rfl⟩ : ∃ init a, fs = init ++ [a] :=
    ⟨fs.dropLast, fs.getLast hne, (List.dropLast_concat_getLast hne).symm⟩
  refine ⟨a, by simp, ?_⟩
  rw [digitsVal_append]; simp [digitsVal]

theorem moderate_positional (f : PyFloat) : f.positional = Spec.moderate f := by
  unfold PyFloat.positional Spec.moderate
  rw [pow_add, Bool.and_comm]

theorem plainFloat_eq (f : PyFloat) : Spec.plainFloat f = (f.positional && (f.scale == 0 || f.mant % 10 != 0)) := by
  rw [moderate_positional]; rfl

theorem rawTok_float (f : PyFloat) (hf : Spec.plainFloat f = true) (k : Str)
    (hk : ∀ c r, k = c :: r → isDigit c = false) : rawTok (f.str ++ k) = some (.float f, k) := by
  obtain ⟨m, s⟩ := f
  simp only [plainFloat_eq, Bool.and_eq_true, Bool.or_eq_true, beq_iff_eq, bne_iff_ne] at hf
  obtain ⟨hp, hn⟩ := hf
  simp only [PyFloat.str, hp, if_true]
  have key : ∀ (ds fs : Str), ds ≠ [] → (∀ c ∈ ds, isDigit c = true) → (∀ c ∈ fs, isDigit c = true) →
      rawTok (ds ++ '.' :: (fs ++ k)) = some (.float (mkFloat ds fs), k) := by
    intro ds fs h1 h2 h3
    rcases ds with _ | ⟨c, ds⟩
    · exact absurd rfl h1
    simp at h2
    have hfx := digit_facts h2.1
    have hsp := spanDigits_all (k := '.' :: (fs ++ k)) h2.2 (fun c r h => by cases h; decide)
    have hsp2 := spanDigits_all (k := k) h3 hk
    simp only [List.cons_append, rawTok, if_neg hfx.1, h2.1, if_true, hsp, eat, hsp2]
  obtain ⟨g1, g2, g3, -⟩ := natStr_spec (m / 10 ^ s)
  by_cases hs : s = 0
  · subst hs
    simp only [List.append_assoc, List.cons_append, if_true]
    have := key (natStr (m / 10 ^ 0)) ['0'] g1 g2 (by decide)
    simp only [List.cons_append, List.nil_append] at this ⊢
    rw [this]
    simp [mkFloat, show dropTrailingZeros ['0'] = [] by decide]
    simp at g3; exact g3
  · simp only [hs, if_false, List.append_assoc, List.cons_append]
    obtain ⟨k1, k2, k3, k4⟩ := natStr_spec (m % 10 ^ s)
    have hlt : m % 10 ^ s < 10 ^ s := Nat.mod_lt _ (by positivity)
    obtain ⟨z1, z2, z3⟩ := zeroPad_spec s _ k2 (k4 s (by omega) hlt)
    rw [key _ _ g1 g2 z2]
    have hm : m % 10 ≠ 0 := by rcases hn with h | h; · exact absurd h hs
                               · exact h
    have hd : dropTrailingZeros (zeroPad s (natStr (m % 10 ^ s))) = zeroPad s (natStr (m % 10 ^ s)) := by
      apply dropTrailingZeros_id
      intro a ha ha0
      subst ha0
      have hne : zeroPad s (natStr (m % 10 ^ s)) ≠ [] := by
        intro h; rw [h] at z1; simp at z1; omega
      obtain ⟨a', h1, h2⟩ := digitsVal_mod _ hne
      rw [ha] at h1; cases h1
      rw [z3, k3] at h2
      simp at h2
      apply hm
      have : 10 ∣ 10 ^ s := dvd_pow_self 10 hs
      have h3 := Nat.mod_mod_of_dvd m this
      omega
    simp only [mkFloat, hd, z1, digitsVal_append, g3, z3, k3]
    rw [Nat.div_add_mod']

end XPath
