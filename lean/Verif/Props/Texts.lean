import Verif.Props.DateFormat
import Verif.Spec.Texts
/-
Property C81: the texts that typed fields write into the document.

Specification: Verif/Spec/Texts.lean.
-/
namespace Props
open XPath Xml Spec Fields

theorem digit_eq {c : Char} (h : isDigit c = true) {n : Nat} (hn : n % 10 = dv c) : c = digit n := by
  have hb := digit_bounds h
  apply Char.toNat_inj.1
  unfold digit
  rw [hn]
  unfold dv
  have : 48 + (c.toNat - 48) = c.toNat := by omega
  rw [this, Char.ofNat_toNat]

theorem dv_le {c : Char} (h : isDigit c = true) : dv c ≤ 9 := by have := digit_bounds h; unfold dv; omega

theorem pad2_digits {n : Nat} (h : n < 100) : pad 2 n = digits2 n := by
  obtain ⟨a, b, hp, ha, hb, hv⟩ := pad2 h
  have := dv_le ha
  have := dv_le hb
  rw [hp, digits2, ← digit_eq ha (n := n / 10) (by omega), ← digit_eq hb (n := n) (by omega)]

theorem pad4_digits {n : Nat} (h : n < 10000) : pad 4 n = digits4 n := by
  obtain ⟨a, b, c, d, hp, ha, hb, hc, hd, hv⟩ := pad4 h
  have := dv_le ha
  have := dv_le hb
  have := dv_le hc
  have := dv_le hd
  have hv' : dv a * 1000 + dv b * 100 + dv c * 10 + dv d = n := by rw [← hv]; simp only [digitsVal, List.foldl, dv]; omega
  rw [hp, digits4, ← digit_eq ha (n := n / 1000) (by omega), ← digit_eq hb (n := n / 100) (by omega), ← digit_eq hc (n := n / 10) (by omega), ← digit_eq hd (n := n) (by omega)]

theorem pad6_digits {n : Nat} (h : n < 1000000) : pad 6 n = digits6 n := by
  obtain ⟨a, b, c, d, e, f, hp, hall, hv⟩ := pad6 h
  have ha := hall a (by simp)
  have hb := hall b (by simp)
  have hc := hall c (by simp)
  have hd := hall d (by simp)
  have he := hall e (by simp)
  have hf := hall f (by simp)
  have := dv_le ha
  have := dv_le hb
  have := dv_le hc
  have := dv_le hd
  have := dv_le he
  have := dv_le hf
  have hv' : dv a * 100000 + dv b * 10000 + dv c * 1000 + dv d * 100 + dv e * 10 + dv f = n := by rw [← hv]; simp only [digitsVal, List.foldl, dv]; omega
  rw [hp, digits6, ← digit_eq ha (n := n / 100000) (by omega), ← digit_eq hb (n := n / 10000) (by omega), ← digit_eq hc (n := n / 1000) (by omega), ← digit_eq hd (n := n / 100) (by omega),
    ← digit_eq he (n := n / 10) (by omega), ← digit_eq hf (n := n) (by omega)]

theorem isoformat_text {d : DateTime} (h : d.valid = true) : isoformat d = isoText d := by
  obtain ⟨h1, h2, h3, h4, h5, h6, h7, h8, h9, h10⟩ := valid_bounds h
  unfold isoformat isoText isoDateText
  rw [pad4_digits (by omega), pad2_digits (by omega), pad2_digits (by omega), pad2_digits (by omega), pad2_digits (by omega), pad2_digits (by omega), pad6_digits (by omega)]
  simp

theorem strftime_text {d : DateTime} (h : d.valid = true) (hy : 1000 ≤ d.year) : strftimeDate d = isoDateText d := by
  obtain ⟨h1, h2, h3, h4, h5, h6, -⟩ := valid_bounds h
  unfold strftimeDate isoDateText
  rw [natStr_pad4 hy h2, pad4_digits (by omega), pad2_digits (by omega), pad2_digits (by omega)]
  simp

theorem digitsVal_lt {ds : Str} (h : ∀ c ∈ ds, isDigit c = true) : digitsVal ds < 10 ^ ds.length := by
  induction ds with
  | nil => simp [digitsVal]
  | cons c ds ih =>
    rw [digitsVal_cons, List.length_cons, Nat.pow_succ]
    have := ih (fun x hx => h x (by simp [hx]))
    have hb := digit_bounds (h c (by simp))
    have : (c.toNat - 48) * 10 ^ ds.length ≤ 9 * 10 ^ ds.length := Nat.mul_le_mul_right _ (by omega)
    omega

theorem intStr_text (n : Int) : DecimalText n (intStr n) := by
  obtain ⟨h1, h2, h3, h4⟩ := natStr_spec n.natAbs
  refine ⟨natStr n.natAbs, ?_, h1, fun c hc => by have := digit_bounds (h2 c hc); exact this, h3, fun h0 => ?_⟩
  · unfold intStr; rfl
  · match hq : natStr n.natAbs with
    | [] => exact absurd hq h1
    | [c] => rw [hq] at h0; simp at h0; rw [h0]
    | c :: c' :: r =>
      exfalso
      rw [hq] at h0 h2 h3 h4
      simp only [List.head?_cons, Option.some.injEq] at h0
      subst h0
      rw [digitsVal_cons, show '0'.toNat - 48 = 0 from rfl, Nat.zero_mul, Nat.zero_add] at h3
      have hlt := digitsVal_lt (ds := c' :: r) (fun x hx => h2 x (by simp at hx ⊢; tauto))
      rw [h3] at hlt
      have := h4 _ (by simp) hlt
      simp at this

theorem prints_piece {d : DateTime} (h : d.valid = true) (hy : 1000 ≤ d.year) {x : Char} {t : FTok} (ht : directiveOf x = some t) {f r : Str} (hr : Prints d f r) :
    Prints d ('%' :: x :: f) (FTok.print d t ++ r) := by
  obtain ⟨h1, h2, h3, h4, h5, h6, h7, h8, h9, h10⟩ := valid_bounds h
  have e2 : ∀ {n}, n < 100 → pad 2 n = digits2 n := fun h => pad2_digits h
  have ey : digits2 (d.year % 100) = digits2 d.year := by
    unfold digits2 digit
    rw [show (d.year % 100 / 10) % 10 = d.year / 10 % 10 by omega, show d.year % 100 % 10 = d.year % 10 by omega]
  unfold directiveOf at ht
  by_cases hx : x = 'Y'
  · subst hx; rw [if_pos rfl] at ht; cases ht; simp only [FTok.print, natStr_pad4 hy h2, pad4_digits (show d.year < 10000 by omega)]; exact .Y hr
  rw [if_neg hx] at ht; clear hx
  by_cases hx : x = 'm'
  · subst hx; rw [if_pos rfl] at ht; cases ht; simp only [FTok.print, e2 (show d.month < 100 by omega)]; exact .m hr
  rw [if_neg hx] at ht; clear hx
  by_cases hx : x = 'd'
  · subst hx; rw [if_pos rfl] at ht; cases ht; simp only [FTok.print, e2 (show d.day < 100 by omega)]; exact .d hr
  rw [if_neg hx] at ht; clear hx
  by_cases hx : x = 'H'
  · subst hx; rw [if_pos rfl] at ht; cases ht; simp only [FTok.print, e2 (show d.hour < 100 by omega)]; exact .H hr
  rw [if_neg hx] at ht; clear hx
  by_cases hx : x = 'M'
  · subst hx; rw [if_pos rfl] at ht; cases ht; simp only [FTok.print, e2 (show d.minute < 100 by omega)]; exact .M hr
  rw [if_neg hx] at ht; clear hx
  by_cases hx : x = 'S'
  · subst hx; rw [if_pos rfl] at ht; cases ht; simp only [FTok.print, e2 (show d.second < 100 by omega)]; exact .S hr
  rw [if_neg hx] at ht; clear hx
  by_cases hx : x = 'f'
  · subst hx; rw [if_pos rfl] at ht; cases ht; simp only [FTok.print, pad6_digits h10]; exact .f hr
  rw [if_neg hx] at ht; clear hx
  by_cases hx : x = 'y'
  · subst hx; rw [if_pos rfl] at ht; cases ht; simp only [FTok.print, e2 (show d.year % 100 < 100 by omega), ey]; exact .y hr
  rw [if_neg hx] at ht; clear hx
  by_cases hx : x = '%'
  · subst hx; rw [if_pos rfl] at ht; cases ht; exact .percent hr
  rw [if_neg hx] at ht
  cases ht

theorem strftime_space (d : DateTime) (c : Char) (ts : List FTok) : strftimeAny (consSpace c ts) d = c :: strftimeAny ts d := by
  unfold consSpace strftimeAny
  split <;> simp [FTok.print]

theorem prints {d : DateTime} (h : d.valid = true) (hy : 1000 ≤ d.year) : ∀ (fmt : Str) (ts : List FTok), parseFormat fmt = some ts → Prints d fmt (strftimeAny ts d)
  | [], ts, hp => by
    simp only [parseFormat, Option.some.injEq] at hp
    subst hp
    exact .nil
  | [c], ts, hp => by
    rw [parseFormat] at hp
    by_cases hc : c = '%'
    · rw [if_pos hc] at hp; simp at hp
    · rw [if_neg hc] at hp
      simp only [parseFormat, Option.some.injEq] at hp
      subst hp
      by_cases hs : isPySpace c = true
      · rw [if_pos hs, strftime_space]; exact .ch hc .nil
      · rw [if_neg hs]; exact .ch hc .nil
  | c :: x :: s, ts, hp => by
    rw [parseFormat] at hp
    by_cases hc : c = '%'
    · rw [if_pos hc] at hp
      cases hd : directiveOf x with
      | none => simp [hd] at hp
      | some t =>
        cases hq : parseFormat s with
        | none => simp [hd, hq] at hp
        | some ts' =>
          simp only [hd, hq, Option.some.injEq] at hp
          subst hp hc
          exact prints_piece h hy hd (prints h hy s ts' hq)
    · rw [if_neg hc] at hp
      cases hq : parseFormat (x :: s) with
      | none => rw [hq] at hp; simp at hp
      | some ts' =>
        rw [hq] at hp
        simp only [Option.some.injEq] at hp
        subst hp
        have ih := prints h hy (x :: s) ts' hq
        by_cases hs : isPySpace c = true
        · rw [if_pos hs, strftime_space]; exact .ch hc ih
        · rw [if_neg hs]; exact .ch hc ih

theorem digit_ok (n : Nat) : isDigit (digit n) = true := by
  unfold digit
  have : n % 10 < 10 := Nat.mod_lt _ (by omega)
  generalize n % 10 = k at *
  interval_cases k <;> decide

theorem prints_xmlOk [PyUnicode] {d : DateTime} {fmt t : Str} (h : Prints d fmt t) (hx : xmlOk fmt = true) : xmlOk t = true := by
  have hdig : ∀ n, xmlChar (digit n) = true := by
    intro n
    have hb := digit_bounds (digit_ok n)
    simp only [xmlChar, Bool.or_eq_true, Bool.and_eq_true, decide_eq_true_eq]
    refine .inl (.inl (.inl ⟨⟨by omega, ?_⟩, ?_⟩)) <;> (simp; omega)
  unfold xmlOk at hx ⊢
  induction h with
  | nil => rfl
  | ch hc _ ih => simp only [List.all_cons, Bool.and_eq_true] at hx ⊢; exact ⟨hx.1, ih hx.2⟩
  | percent _ ih => simp only [List.all_cons, Bool.and_eq_true] at hx ⊢; exact ⟨hx.1, ih hx.2.2⟩
  | _ _ ih =>
    simp only [List.all_cons, Bool.and_eq_true] at hx
    simp only [digits2, digits4, digits6, List.all_cons, List.cons_append, List.nil_append, hdig, Bool.true_and]
    exact ih hx.2.2

/-- The text of a string goes into the first match. -/
theorem writes [PyUnicode] {eng : Engine} (heng : EngineOk eng) {ctx xp e p} (hf : SimpleField ctx xp e p) (hso : stringOk p = true) {v : Str} (hv : xmlOk v = true) {a s n}
    (hs : Node.get a s = some n) (hw : Writable p n) : ∃ s', writeAs (.ok (some v)) eng ctx xp e (.elem a) s = (.ok (), s') ∧ HoldsText p a s' v := by
  obtain ⟨x, h1, h2, -⟩ := write_read (v := v) hf.ok hso (ne_nil_of_field hf) hw
  exact ⟨_, managerSet_str heng hf.parse hf.path hf.canonical hf.ok hso hv hs hw, write p v n, x, by rw [Node.get_modify, hs]; rfl, h1, h2⟩

section
variable [PyUnicode] (eng : Engine) (heng : EngineOk eng) (ctx : Ctx) (xp : Str) (e : Expr) (p : List Step) (hf : SimpleField ctx xp e p) (hso : stringOk p = true)
  (a : Node.Addr) (s n : Node) (hs : s.get a = some n) (hw : Writable p n)
include heng hf hso hs hw

/-- C81.  An integer is written in decimal notation. -/
theorem C81_integer (k : Int) : ∃ s' t, writeAs (intToXml (some k)) eng ctx xp e (.elem a) s = (.ok (), s') ∧ HoldsText p a s' t ∧ DecimalText k t := by
  obtain ⟨s', h1, h2⟩ := writes heng hf hso (intStr_xmlOk k) hs hw
  exact ⟨s', _, h1, h2, intStr_text k⟩

/-- C81.  A datetime is written in ISO format. -/
theorem C81_datetime (d : DateTime) (hd : RealDateTime d) : ∃ s', writeAs (dateTimeToXml (some d)) eng ctx xp e (.elem a) s = (.ok (), s') ∧ HoldsText p a s' (isoText d) := by
  replace hd := (valid_iff d).mpr hd
  obtain ⟨s', h1, h2⟩ := writes heng hf hso (isoformat_chars hd).1 hs hw
  exact ⟨s', h1, by rw [← isoformat_text hd]; exact h2⟩

/-- C81.  A date from the year 1000 on is written in ISO format. -/
theorem C81_date (d : DateTime) (hd : RealDateTime d) (hy : 1000 ≤ d.year) : ∃ s', writeAs (dateToXml (some d)) eng ctx xp e (.elem a) s = (.ok (), s') ∧ HoldsText p a s' (isoDateText d) := by
  replace hd := (valid_iff d).mpr hd
  obtain ⟨s', h1, h2⟩ := writes heng hf hso (strftime_xmlOk hd) hs hw
  exact ⟨s', h1, by rw [← strftime_text hd hy]; exact h2⟩

/-- C81.  With a format, a datetime is written as the format says. -/
theorem C81_datetime_format (fmt : Str) (ts : List FTok) (hp : parseFormat fmt = some ts) (hx : xmlOk fmt = true) (d : DateTime) (hd : RealDateTime d) (hy : 1000 ≤ d.year) :
    ∃ s' t, writeAs (dateTimeFmtToXml ts (some d)) eng ctx xp e (.elem a) s = (.ok (), s') ∧ HoldsText p a s' t ∧ Prints d fmt t := by
  replace hd := (valid_iff d).mpr hd
  have hpr := prints hd hy fmt ts hp
  obtain ⟨s', h1, h2⟩ := writes heng hf hso (prints_xmlOk hpr hx) hs hw
  exact ⟨s', _, h1, h2, hpr⟩

/-- C81.  The same for a date; time directives print zeros. -/
theorem C81_date_format (fmt : Str) (ts : List FTok) (hp : parseFormat fmt = some ts) (hx : xmlOk fmt = true) (d : DateTime) (hd : RealDateTime d) (hy : 1000 ≤ d.year) :
    ∃ s' t, writeAs (dateFmtToXml ts (some d)) eng ctx xp e (.elem a) s = (.ok (), s') ∧ HoldsText p a s' t ∧ Prints ⟨d.year, d.month, d.day, 0, 0, 0, 0⟩ fmt t := by
  have hd' : (⟨d.year, d.month, d.day, 0, 0, 0, 0⟩ : DateTime).valid = true := by
    rw [valid_iff]; exact ⟨hd.1, by unfold RealTime; simp⟩
  have hpr := prints hd' hy fmt ts hp
  obtain ⟨s', h1, h2⟩ := writes heng hf hso (prints_xmlOk hpr hx) hs hw
  exact ⟨s', _, h1, h2, hpr⟩

/-- C81.  A boolean is written as one of the two texts of the field. -/
theorem C81_boolean (t f : Str) (ht : xmlOk t = true) (hfx : xmlOk f = true) (b : Bool) :
    ∃ s', writeAs (boolToXml t (some f) (some b)) eng ctx xp e (.elem a) s = (.ok (), s') ∧ HoldsText p a s' (if b then t else f) := by
  cases b with
  | true => exact writes heng hf hso ht hs hw
  | false => exact writes heng hf hso hfx hs hw

end

/-- The hypotheses can be met, and the texts are as expected. -/
example : ∃ s' t, writeAs (intToXml (some (-120))) refEngine sampleCtx c%"m:a/@id" (ast c%"m:a/@id") (.elem []) sampleDoc = (.ok (), s') ∧
    HoldsText [.child ⟨some c%"http://m", c%"a"⟩ [], .attr ⟨none, c%"id"⟩] [] s' t ∧ DecimalText (-120) t :=
  C81_integer refEngine refEngine_ok _ _ _ _ { parse := by decide, path := by rfl, canonical := by decide, ok := by decide } (by decide) _ _ sampleDoc rfl (by trivial) _
example : DecimalText (-120) c%"-120" := ⟨c%"120", rfl, by decide, by decide, rfl, by decide⟩
example : isoText ⟨2024, 2, 29, 23, 5, 9, 20⟩ = c%"2024-02-29T23:05:09.000020" ∧ isoDateText ⟨2024, 2, 29, 23, 5, 9, 20⟩ = c%"2024-02-29" := by decide
example : Prints ⟨2024, 2, 29, 23, 5, 9, 20⟩ c%"%d.%m.%y %%" c%"29.02.24 %" := .d (.ch (by decide) (.m (.ch (by decide) (.y (.ch (by decide) (.percent .nil))))))

/-! ### C81 applied to further kinds -/

example := C81_datetime refEngine refEngine_ok sampleCtx c%"m:a/@id" (ast c%"m:a/@id") (steps sampleCtx c%"m:a/@id") ⟨by decide, by rfl, by decide, by decide⟩ (by decide) [] sampleDoc sampleDoc rfl (by trivial)
  ⟨2024, 2, 29, 23, 5, 9, 20⟩ ((valid_iff _).mp (by decide))
example := C81_date refEngine refEngine_ok sampleCtx c%"m:a/@id" (ast c%"m:a/@id") (steps sampleCtx c%"m:a/@id") ⟨by decide, by rfl, by decide, by decide⟩ (by decide) [] sampleDoc sampleDoc rfl (by trivial)
  ⟨2024, 2, 29, 0, 0, 0, 0⟩ ((valid_iff _).mp (by decide)) (by decide)
example := C81_datetime_format refEngine refEngine_ok sampleCtx c%"m:a/@id" (ast c%"m:a/@id") (steps sampleCtx c%"m:a/@id") ⟨by decide, by rfl, by decide, by decide⟩ (by decide) [] sampleDoc sampleDoc rfl (by trivial)
  c%"%d.%m.%y %%" _ rfl (by decide) ⟨2024, 2, 29, 23, 5, 9, 20⟩ ((valid_iff _).mp (by decide)) (by decide)
example := C81_date_format refEngine refEngine_ok sampleCtx c%"m:a/@id" (ast c%"m:a/@id") (steps sampleCtx c%"m:a/@id") ⟨by decide, by rfl, by decide, by decide⟩ (by decide) [] sampleDoc sampleDoc rfl (by trivial)
  c%"%d.%m.%y" _ rfl (by decide) ⟨2024, 2, 29, 23, 5, 9, 20⟩ ((valid_iff _).mp (by decide)) (by decide)

end Props
