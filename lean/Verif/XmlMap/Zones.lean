import Verif.XmlMap.DateText
import Mathlib.Tactic.IntervalCases
/-
Model of datetimes with a time zone in a DateTimeField (eulxml/xmlmap/fields.py:179-215): Python writes the offset from UTC at the end of the text, eulxml strips it when reading.
-/
namespace Fields
open XPath Xml Spec

/-- An aware `datetime.datetime`: the time the clock on the wall shows, and `utcoffset()` in microseconds. -/
structure Aware where
  wall : DateTime
  offset : Int
  deriving DecidableEq, Repr

/-- The offset at the end of `isoformat()` (CPython `datetime._format_offset`): sign, hours, minutes, and, if they are not 0, seconds and microseconds. -/
def offsetText (off : Int) : Str :=
  let u := off.natAbs
  (if off < 0 then '-' else '+') :: pad 2 (u / 3600000000) ++ ':' :: pad 2 (u / 60000000 % 60)
    ++ (if u % 60000000 = 0 then [] else ':' :: pad 2 (u / 1000000 % 60) ++ (if u % 1000000 = 0 then [] else '.' :: pad 6 (u % 1000000)))

/-- fields.py:209-215 `DateTimeMapper.to_xml` of an aware datetime, without format: `dt.isoformat()`. -/
def awareToXml (d : Aware) : Except PyErr (Option Str) := .ok (some (isoformat d.wall ++ offsetText d.offset))

/-! ### reading -/

theorem two_mem {p q : Char → Bool} {s t r : Str} (h : (t, r) ∈ two p q s) : ∃ a b, t = [a, b] ∧ s = a :: b :: r ∧ p a = true ∧ q b = true := by
  unfold two at h
  split at h
  · split_ifs at h with hp
    · simp only [List.mem_singleton, Prod.mk.injEq] at h
      obtain ⟨rfl, rfl⟩ := h
      rw [Bool.and_eq_true] at hp
      exact ⟨_, _, rfl, rfl, hp.1, hp.2⟩
    · cases h
  · cases h

theorem one_mem {p : Char → Bool} {s t r : Str} (h : (t, r) ∈ one p s) : ∃ a, t = [a] ∧ s = a :: r ∧ p a = true := by
  unfold one at h
  split at h
  · split_ifs at h with hp
    · simp only [List.mem_singleton, Prod.mk.injEq] at h
      obtain ⟨rfl, rfl⟩ := h
      exact ⟨_, rfl, rfl, hp⟩
    · cases h
  · cases h

theorem upTo_mem : ∀ {k : Nat} {s t r : Str}, (t, r) ∈ upTo k s → s = t ++ r ∧ ∀ c ∈ t, isDigit c = true
  | 0, s, t, r, h => by unfold upTo at h; cases h
  | k + 1, [], t, r, h => by unfold upTo at h; cases h
  | k + 1, c :: s, t, r, h => by
    unfold upTo at h
    split_ifs at h with hc
    · rw [List.mem_append, List.mem_map] at h
      rcases h with ⟨p, hp, he⟩ | h
      · obtain ⟨h1, h2⟩ := upTo_mem (t := p.1) (r := p.2) hp
        simp only [Prod.mk.injEq] at he
        obtain ⟨rfl, rfl⟩ := he
        refine ⟨by rw [h1]; rfl, ?_⟩
        intro x hx
        rcases List.mem_cons.1 hx with rfl | hx
        · exact hc
        · exact h2 x hx
      · simp only [List.mem_singleton, Prod.mk.injEq] at h
        obtain ⟨rfl, rfl⟩ := h
        exact ⟨rfl, by simpa using hc⟩
    · cases h

theorem digitIn_digit {lo hi : Nat} {c : Char} (h : digitIn lo hi c = true) : isDigit c = true := by
  unfold digitIn at h
  simp only [Bool.and_eq_true] at h
  exact h.1.1

/-- What a directive takes from the text: digits (or a blank), or, for a literal character, that character. -/
theorem alts_text {x : Directive} {s t r : Str} (h : (t, r) ∈ x.alts s) :
    ∃ u, s = u ++ r ∧ ((∀ c ∈ u, isDigit c = true ∨ c = ' ') ∧ (∀ c, x ≠ .ch c) ∨ ∃ a c, u = [a] ∧ x = .ch c ∧ lowerAscii a = lowerAscii c) := by
  have h2 : ∀ {p q : Char → Bool}, (t, r) ∈ two p q s → (∀ c, p c = true → isDigit c = true ∨ c = ' ') → (∀ c, q c = true → isDigit c = true) →
      ∃ u, s = u ++ r ∧ ∀ c ∈ u, isDigit c = true ∨ c = ' ' := by
    intro p q h hp hq
    obtain ⟨a, b, -, rfl, ha, hb⟩ := two_mem h
    refine ⟨[a, b], rfl, ?_⟩
    intro c hc
    rcases List.mem_cons.1 hc with rfl | hc
    · exact hp _ ha
    · rw [List.mem_singleton.1 hc]; exact .inl (hq _ hb)
  have h1 : ∀ {p : Char → Bool}, (t, r) ∈ one p s → (∀ c, p c = true → isDigit c = true) → ∃ u, s = u ++ r ∧ ∀ c ∈ u, isDigit c = true ∨ c = ' ' := by
    intro p h hp
    obtain ⟨a, -, rfl, ha⟩ := one_mem h
    exact ⟨[a], rfl, fun c hc => by rw [List.mem_singleton.1 hc]; exact .inl (hp _ ha)⟩
  have hd : ∀ lo hi c, digitIn lo hi c = true → isDigit c = true := fun _ _ _ => digitIn_digit
  have hd' : ∀ lo hi c, digitIn lo hi c = true → isDigit c = true ∨ c = ' ' := fun _ _ _ h => .inl (digitIn_digit h)
  have wrap : (∃ u, s = u ++ r ∧ ∀ c ∈ u, isDigit c = true ∨ c = ' ') → (∀ c, x ≠ .ch c) →
      ∃ u, s = u ++ r ∧ ((∀ c ∈ u, isDigit c = true ∨ c = ' ') ∧ (∀ c, x ≠ .ch c) ∨ ∃ a c, u = [a] ∧ x = .ch c ∧ lowerAscii a = lowerAscii c) :=
    fun ⟨u, h1, h2⟩ h3 => ⟨u, h1, .inl ⟨h2, h3⟩⟩
  cases x with
  | Y =>
    refine wrap ?_ (fun c hc => by cases hc)
    simp only [Directive.alts] at h
    split at h
    · split_ifs at h with hp
      · simp only [List.mem_singleton, Prod.mk.injEq] at h
        obtain ⟨rfl, rfl⟩ := h
        simp only [Bool.and_eq_true] at hp
        refine ⟨[_, _, _, _], rfl, ?_⟩
        intro c hc
        simp only [List.mem_cons, List.not_mem_nil, or_false] at hc
        rcases hc with rfl | rfl | rfl | rfl
        · exact .inl hp.1.1.1
        · exact .inl hp.1.1.2
        · exact .inl hp.1.2
        · exact .inl hp.2
      · cases h
    · cases h
  | m =>
    refine wrap ?_ (fun c hc => by cases hc)
    simp only [Directive.alts, List.mem_append] at h
    rcases h with h | h | h
    · exact h2 h (hd' _ _) (hd _ _)
    · exact h2 h (hd' _ _) (hd _ _)
    · exact h1 h (hd _ _)
  | d =>
    refine wrap ?_ (fun c hc => by cases hc)
    simp only [Directive.alts, List.mem_append] at h
    rcases h with h | h | h | h | h
    · exact h2 h (hd' _ _) (hd _ _)
    · exact h2 h (hd' _ _) (fun _ h => h)
    · exact h2 h (hd' _ _) (hd _ _)
    · exact h1 h (hd _ _)
    · exact h2 h (fun c hc => .inr (by simpa using hc)) (hd _ _)
  | H =>
    refine wrap ?_ (fun c hc => by cases hc)
    simp only [Directive.alts, List.mem_append] at h
    rcases h with h | h | h
    · exact h2 h (hd' _ _) (hd _ _)
    · exact h2 h (hd' _ _) (fun _ h => h)
    · exact h1 h (fun _ h => h)
  | M =>
    refine wrap ?_ (fun c hc => by cases hc)
    simp only [Directive.alts, List.mem_append] at h
    rcases h with h | h
    · exact h2 h (hd' _ _) (fun _ h => h)
    · exact h1 h (fun _ h => h)
  | S =>
    refine wrap ?_ (fun c hc => by cases hc)
    simp only [Directive.alts, List.mem_append] at h
    rcases h with h | h | h
    · exact h2 h (hd' _ _) (hd _ _)
    · exact h2 h (hd' _ _) (fun _ h => h)
    · exact h1 h (fun _ h => h)
  | f =>
    refine wrap ?_ (fun c hc => by cases hc)
    obtain ⟨h1, h2⟩ := upTo_mem h
    exact ⟨t, h1, fun c hc => .inl (h2 c hc)⟩
  | ch c =>
    simp only [Directive.alts] at h
    split at h
    · split_ifs at h with hp
      · simp only [List.mem_singleton, Prod.mk.injEq] at h
        obtain ⟨rfl, rfl⟩ := h
        exact ⟨[_], rfl, .inr ⟨_, _, rfl, rfl, hp⟩⟩
      · cases h
    · cases h

theorem lower_sign {a : Char} {c : Char} (hc : c = '+' ∨ c = '-') (h : lowerAscii a = c) : a = c := by
  unfold lowerAscii at h
  split_ifs at h with ha
  · exfalso
    simp only [Bool.and_eq_true, decide_eq_true_eq] at ha
    generalize a.toNat = n at ha h
    obtain ⟨h1, h2⟩ := ha
    rcases hc with rfl | rfl <;> interval_cases n <;> revert h <;> decide
  · exact h

theorem lower_sign' {a : Char} (ha : a = '+' ∨ a = '-') : lowerAscii a = a := by rcases ha with rfl | rfl <;> rfl

/-- A sign in the text is matched only by the same sign in the format. -/
theorem match_signs {c : Char} (hc : c = '+' ∨ c = '-') : ∀ {fmt : List Directive} {s : Str} {d0 : DateTime} {y : DateTime × Str}, y ∈ matchFormat fmt s d0 →
    s.count c = fmt.count (.ch c) + y.2.count c
  | [], s, d0, y, h => by
    unfold matchFormat at h
    rw [List.mem_singleton.1 h]; simp
  | x :: fmt, s, d0, y, h => by
    unfold matchFormat at h
    rw [List.mem_flatMap] at h
    obtain ⟨p, hp, hy⟩ := h
    have ih := match_signs hc hy
    obtain ⟨u, hs, hu⟩ := alts_text (t := p.1) (r := p.2) hp
    rw [hs, List.count_append, ih]
    have nd : ∀ b : Char, isDigit b = true ∨ b = ' ' → b ≠ c := by
      intro b hb e
      subst e
      rcases hc with rfl | rfl <;> revert hb <;> decide
    rcases hu with ⟨h1, h2⟩ | ⟨a, b, rfl, rfl, h1⟩
    · have h0 : u.count c = 0 := List.count_eq_zero.2 (fun hm => nd c (h1 c hm) rfl)
      have h3 : (x :: fmt).count (.ch c) = fmt.count (.ch c) := List.count_cons_of_ne (h2 c)
      omega
    · by_cases hab : a = c
      · subst hab
        have hb : b = a := lower_sign hc (by rw [← h1, lower_sign' hc])
        subst hb
        simp only [List.count_cons_self, List.count_nil]
        omega
      · have hb : b ≠ c := by
          rintro rfl
          exact hab (lower_sign hc (by rw [h1, lower_sign' hc]))
        have h3 : (Directive.ch b :: fmt).count (.ch c) = fmt.count (.ch c) := List.count_cons_of_ne (by simpa using hb)
        have h4 : [a].count c = 0 := List.count_eq_zero.2 (by simpa using fun e => hab e.symm)
        omega

/-- A text with a sign too many is refused. -/
theorem strptime_signs {c : Char} (hc : c = '+' ∨ c = '-') {fmt : List Directive} {s : Str} (h : fmt.count (.ch c) < s.count c) : strptime fmt s = .error .valueError := by
  unfold strptime
  split
  · rename_i d rest he
    have := match_signs hc (y := (d, [])) (by rw [he]; exact List.mem_cons_self)
    simp only [List.count_nil] at this
    omega
  · rfl

theorem strptime_ok_signs {c : Char} (hc : c = '+' ∨ c = '-') {fmt : List Directive} {s : Str} {d : DateTime} (h : strptime fmt s = .ok d) : s.count c = fmt.count (.ch c) := by
  unfold strptime at h
  split at h
  · rename_i d' rest he
    have := match_signs hc (y := (d', [])) (by rw [he]; exact List.mem_cons_self)
    simpa using this
  · cases h

theorem iso_signs {c : Char} (hc : c = '+' ∨ c = '-') {d : DateTime} (h : d.valid = true) :
    (isoformat d).count c = fmtDateTime.count (.ch c) ∧ fmtMicro.count (.ch c) = fmtDateTime.count (.ch c) := by
  have he : fmtMicro.count (.ch c) = fmtDateTime.count (.ch c) := by rcases hc with rfl | rfl <;> decide
  refine ⟨?_, he⟩
  have hp := parseIso_isoformat h
  unfold parseIso at hp
  split at hp
  · exact strptime_ok_signs hc ‹_›
  · rw [← he]; exact strptime_ok_signs hc hp
  · cases hp

/-- The offset: a sign, and then digits, colons and a point; five characters if it is in whole minutes, and more otherwise. -/
theorem offset_shape {off : Int} (h : off.natAbs < 86400000000) :
    ∃ o, offsetText off = (if off < 0 then '-' else '+') :: o ∧ (∀ c ∈ o, isDigit c = true ∨ c = ':' ∨ c = '.') ∧
      (if off.natAbs % 60000000 = 0 then o.length = 5 else 6 ≤ o.length) := by
  obtain ⟨a1, a2, ha, da1, da2, -⟩ := pad2 (n := off.natAbs / 3600000000) (by omega)
  obtain ⟨b1, b2, hb, db1, db2, -⟩ := pad2 (n := off.natAbs / 60000000 % 60) (by omega)
  obtain ⟨c1, c2, hc, dc1, dc2, -⟩ := pad2 (n := off.natAbs / 1000000 % 60) (by omega)
  obtain ⟨e1, e2, e3, e4, e5, e6, he, de, -⟩ := pad6 (n := off.natAbs % 1000000) (by omega)
  by_cases h1 : off.natAbs % 60000000 = 0
  · refine ⟨[a1, a2, ':', b1, b2], ?_, ?_, by rw [if_pos h1]; rfl⟩
    · unfold offsetText; simp only [ha, hb, if_pos h1]; rfl
    · intro c hm
      simp only [List.mem_cons, List.not_mem_nil, or_false] at hm
      rcases hm with rfl | rfl | rfl | rfl | rfl <;> first | exact .inl ‹_› | exact .inr (.inl rfl)
  · by_cases h2 : off.natAbs % 1000000 = 0
    · refine ⟨[a1, a2, ':', b1, b2, ':', c1, c2], ?_, ?_, by rw [if_neg h1]; simp⟩
      · unfold offsetText; simp only [ha, hb, hc, if_neg h1, if_pos h2]; rfl
      · intro c hm
        simp only [List.mem_cons, List.not_mem_nil, or_false] at hm
        rcases hm with rfl | rfl | rfl | rfl | rfl | rfl | rfl | rfl <;> first | exact .inl ‹_› | exact .inr (.inl rfl)
    · refine ⟨[a1, a2, ':', b1, b2, ':', c1, c2, '.'] ++ [e1, e2, e3, e4, e5, e6], ?_, ?_, by rw [if_neg h1]; simp⟩
      · unfold offsetText; simp only [ha, hb, hc, he, if_neg h1, if_neg h2]; rfl
      · intro c hm
        rcases List.mem_append.1 hm with hm | hm
        · simp only [List.mem_cons, List.not_mem_nil, or_false] at hm
          rcases hm with rfl | rfl | rfl | rfl | rfl | rfl | rfl | rfl | rfl <;> first | exact .inl ‹_› | exact .inr (.inl rfl) | exact .inr (.inr rfl)
        · exact .inl (de c hm)

theorem sign_of (off : Int) : (if off < 0 then '-' else '+') = '+' ∨ (if off < 0 then '-' else '+') = '-' := by
  by_cases h : off < 0
  · exact .inr (if_pos h)
  · exact .inl (if_neg h)

theorem offset_last {o : Str} (h : ∀ c ∈ o, isDigit c = true ∨ c = ':' ∨ c = '.') : o.getLast? ≠ some 'Z' := by
  intro e
  have := h 'Z' (List.mem_of_getLast? e)
  revert this; decide

theorem aware_minutes {d : DateTime} (hd : d.valid = true) {off : Int} (h : off.natAbs < 86400000000) (hm : off.natAbs % 60000000 = 0) :
    dateTimeParse (isoformat d ++ offsetText off) = .ok d := by
  obtain ⟨o, ho, h1, h2⟩ := offset_shape h
  rw [if_pos hm] at h2
  rw [ho]
  exact dateTimeParse_offset hd _ (sign_of off) o h2 (offset_last h1)

theorem aware_odd {d : DateTime} (hd : d.valid = true) {off : Int} (h : off.natAbs < 86400000000) (hm : off.natAbs % 60000000 ≠ 0) :
    dateTimeParse (isoformat d ++ offsetText off) = .error .valueError := by
  obtain ⟨o, ho, h1, h2⟩ := offset_shape h
  rw [if_neg hm] at h2
  rw [ho]
  obtain ⟨sgn, hsg⟩ : ∃ sgn, sgn = (if off < 0 then '-' else '+') := ⟨_, rfl⟩
  have hs : sgn = '+' ∨ sgn = '-' := hsg ▸ sign_of off
  rw [← hsg]
  have hz : stripZ (isoformat d ++ sgn :: o) = isoformat d ++ sgn :: o := by
    unfold stripZ
    rw [if_neg]
    rw [List.getLast?_append, List.getLast?_cons]
    cases hg : o.getLast? with
    | none => rw [List.getLast?_eq_none_iff] at hg; subst hg; simp at h2
    | some c => have := offset_last h1; rw [hg] at this; simpa using this
  have ht : stripTz (isoformat d ++ sgn :: o) = .ok (isoformat d ++ sgn :: o) := by
    have hl : (isoformat d ++ sgn :: o).length - 6 = (isoformat d ++ [sgn]).length + (o.length - 6) := by simp only [List.length_append, List.length_cons, List.length_nil]; omega
    have hx : (isoformat d ++ sgn :: o)[(isoformat d ++ sgn :: o).length - 6]? = o[o.length - 6]? := by
      rw [hl, show isoformat d ++ sgn :: o = (isoformat d ++ [sgn]) ++ o by simp, List.getElem?_append_right (Nat.le_add_right _ _), Nat.add_sub_cancel_left]
    have hlt : o.length - 6 < o.length := by omega
    obtain ⟨x, hox⟩ : ∃ x, o[o.length - 6]? = some x := ⟨_, List.getElem?_eq_getElem hlt⟩
    have hd' := h1 x (List.mem_of_getElem? hox)
    have hne : ¬ (x = '+' ∨ x = '-') := by
      rintro (rfl | rfl) <;> revert hd' <;> decide
    unfold stripTz
    rw [if_neg (by simp only [List.length_append, List.length_cons]; omega), hx, hox]
    show Except.ok (if x = '+' ∨ x = '-' then _ else _) = _
    rw [if_neg hne]
  obtain ⟨k1, k2⟩ := iso_signs hs hd
  have hcount : fmtDateTime.count (.ch sgn) < (isoformat d ++ sgn :: o).count sgn := by
    rw [List.count_append, List.count_cons_self, k1]; omega
  rw [dateTimeParse_eq, hz, ht]
  simp only [parseIso]
  rw [strptime_signs hs hcount]
  exact strptime_signs hs (by rw [k2]; exact hcount)

theorem aware_chars [PyUnicode] {d : DateTime} (hd : d.valid = true) {off : Int} (h : off.natAbs < 86400000000) :
    xmlOk (isoformat d ++ offsetText off) = true ∧ (∀ c ∈ isoformat d ++ offsetText off, xmlBlank c = false) := by
  obtain ⟨k1, k2⟩ := isoformat_chars hd
  obtain ⟨o, ho, h1, -⟩ := offset_shape h
  have key : ∀ c ∈ offsetText off, xmlChar c = true ∧ xmlBlank c = false := by
    intro c hc
    rw [ho] at hc
    have hc' : isDigit c = true ∨ c = ':' ∨ c = '.' ∨ c = '+' ∨ c = '-' := by
      rcases List.mem_cons.1 hc with e | hc
      · rcases sign_of off with h | h
        · exact .inr (.inr (.inr (.inl (e.trans h))))
        · exact .inr (.inr (.inr (.inr (e.trans h))))
      · rcases h1 c hc with h | h | h
        · exact .inl h
        · exact .inr (.inl h)
        · exact .inr (.inr (.inl h))
    rcases hc' with h | rfl | rfl | rfl | rfl
    · have hb := digit_bounds h
      constructor
      · simp only [xmlChar, Bool.or_eq_true, Bool.and_eq_true, decide_eq_true_eq]
        refine .inl (.inl (.inl ⟨⟨by omega, ?_⟩, ?_⟩)) <;> (simp; omega)
      · simp only [xmlBlank, Bool.or_eq_false_iff, beq_eq_false_iff_ne]
        refine ⟨⟨⟨?_, ?_⟩, ?_⟩, ?_⟩ <;> rintro rfl <;> revert hb <;> decide
    all_goals decide
  constructor
  · rw [xmlOk, List.all_append, Bool.and_eq_true]
    exact ⟨by simpa [xmlOk] using k1, by rw [List.all_eq_true]; exact fun c hc => (key c hc).1⟩
  · intro c hc
    rcases List.mem_append.1 hc with hc | hc
    · exact k2 c hc
    · exact (key c hc).2

end Fields
