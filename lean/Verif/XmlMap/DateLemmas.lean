import Verif.XmlMap.Mappers
import Verif.XPath.NumLemmas
import Mathlib.Tactic.SplitIfs
import Mathlib.Tactic.IntervalCases
/-
Dates: what is formatted can be parsed.
-/
namespace Fields
open Xml XPath

/-! ### padded numbers -/

theorem digit_bounds {c : Char} (h : isDigit c = true) : 48 ≤ c.toNat ∧ c.toNat ≤ 57 := by
  simpa [isDigit, inRange] using h

theorem pad_spec {w n : Nat} (hw : 0 < w) (h : n < 10 ^ w) :
    (pad w n).length = w ∧ (∀ c ∈ pad w n, isDigit c = true) ∧ digitsVal (pad w n) = n := by
  obtain ⟨h1, h2, h3, h4⟩ := natStr_spec n
  have hl := h4 w hw h
  refine ⟨?_, ?_, ?_⟩
  · simp [pad, zeroPad]; omega
  · intro c hc
    simp only [pad, zeroPad, List.mem_append, List.mem_replicate] at hc
    rcases hc with ⟨-, rfl⟩ | hc
    · decide
    · exact h2 c hc
  · rw [pad, zeroPad, digitsVal_zeros, h3]

/-- The value of a digit. -/
def dv (c : Char) : Nat := c.toNat - 48

theorem pad2 {n : Nat} (h : n < 100) : ∃ a b, pad 2 n = [a, b] ∧ isDigit a = true ∧ isDigit b = true ∧ dv a * 10 + dv b = n := by
  obtain ⟨h1, h2, h3⟩ := pad_spec (w := 2) (by omega) h
  match hp : pad 2 n, h1 with
  | [a, b], _ =>
    rw [hp] at h2 h3
    refine ⟨a, b, rfl, h2 a (by simp), h2 b (by simp), ?_⟩
    rw [← h3]
    simp [digitsVal, dv]
    omega

theorem pad4 {n : Nat} (h : n < 10000) : ∃ a b c d, pad 4 n = [a, b, c, d] ∧ isDigit a = true ∧ isDigit b = true ∧ isDigit c = true ∧ isDigit d = true ∧
    digitsVal [a, b, c, d] = n := by
  obtain ⟨h1, h2, h3⟩ := pad_spec (w := 4) (by omega) h
  match hp : pad 4 n, h1 with
  | [a, b, c, d], _ =>
    rw [hp] at h2 h3
    exact ⟨a, b, c, d, rfl, h2 a (by simp), h2 b (by simp), h2 c (by simp), h2 d (by simp), h3⟩

theorem pad6 {n : Nat} (h : n < 1000000) : ∃ a b c d e f, pad 6 n = [a, b, c, d, e, f] ∧ (∀ x ∈ [a, b, c, d, e, f], isDigit x = true) ∧
    digitsVal [a, b, c, d, e, f] = n := by
  obtain ⟨h1, h2, h3⟩ := pad_spec (w := 6) (by omega) h
  match hp : pad 6 n, h1 with
  | [a, b, c, d, e, f], _ =>
    rw [hp] at h2 h3
    exact ⟨a, b, c, d, e, f, rfl, h2, h3⟩

/-! ### matching -/

/-- The first way to match. -/
def First (xs : List Directive) (s : Str) (d : DateTime) (y : DateTime × Str) : Prop := ∃ ys, matchFormat xs s d = y :: ys

theorem First.nil (s : Str) (d : DateTime) : First [] s d (d, s) := ⟨[], rfl⟩

theorem First.cons {x : Directive} {xs : List Directive} {s t r : Str} {d : DateTime} {more : List (Str × Str)} {y : DateTime × Str}
    (h : x.alts s = (t, r) :: more) (hy : First xs r (x.store t d) y) : First (x :: xs) s d y := by
  obtain ⟨ys, hy⟩ := hy
  exact ⟨ys ++ more.flatMap (fun p => matchFormat xs p.2 (x.store p.1 d)), by simp [matchFormat, h, hy]⟩

theorem First.ch {c : Char} {xs : List Directive} {r : Str} {d : DateTime} {y : DateTime × Str}
    (hy : First xs r d y) : First (.ch c :: xs) (c :: r) d y :=
  First.cons (x := .ch c) (t := []) (r := r) (more := []) (by simp [Directive.alts]) hy

theorem two_pos {p q : Char → Bool} {a b : Char} (r : Str) (X : List (Str × Str)) (h : (p a && q b) = true) :
    two p q (a :: b :: r) ++ X = ([a, b], r) :: X := by simp only [two, h, if_true]; rfl

theorem two_neg {p q : Char → Bool} {a b : Char} (r : Str) (X : List (Str × Str)) (h : ¬ (p a && q b) = true) :
    two p q (a :: b :: r) ++ X = X := by simp only [two, h]; rfl

theorem digitIn_iff {lo hi : Nat} {c : Char} (h : isDigit c = true) : digitIn lo hi c = true ↔ lo ≤ dv c ∧ dv c ≤ hi := by
  simp [digitIn, h, dv]

/-- The two-digit directives and their ranges. -/
def Directive.range : Directive → Nat × Nat
  | .m => (1, 12) | .d => (1, 31) | .H => (0, 23) | .M => (0, 59) | .S => (0, 61)
  | _ => (1, 0)

theorem alts_two {x : Directive} {a b : Char} (ha : isDigit a = true) (hb : isDigit b = true)
    (h1 : x.range.1 ≤ dv a * 10 + dv b) (h2 : dv a * 10 + dv b ≤ x.range.2) (r : Str) : ∃ more, x.alts (a :: b :: r) = ([a, b], r) :: more := by
  have ba : dv a ≤ 9 := by have := digit_bounds ha; unfold dv; omega
  have bb : dv b ≤ 9 := by have := digit_bounds hb; unfold dv; omega
  cases x with
  | Y => simp [Directive.range] at h1 h2; omega
  | f => simp [Directive.range] at h1 h2; omega
  | ch c => simp [Directive.range] at h1 h2; omega
  | m =>
    simp only [Directive.range] at h1 h2
    simp only [Directive.alts]
    by_cases hc : (digitIn 1 1 a && digitIn 0 2 b) = true
    · exact ⟨_, two_pos r _ hc⟩
    · rw [two_neg r _ hc]
      refine ⟨_, two_pos r _ ?_⟩
      simp only [Bool.and_eq_true, digitIn_iff ha, digitIn_iff hb] at hc ⊢
      omega
  | d =>
    simp only [Directive.range] at h1 h2
    simp only [Directive.alts]
    by_cases hc : (digitIn 3 3 a && digitIn 0 1 b) = true
    · exact ⟨_, two_pos r _ hc⟩
    · rw [two_neg r _ hc]
      by_cases hc2 : (digitIn 1 2 a && isDigit b) = true
      · exact ⟨_, two_pos r _ hc2⟩
      · rw [two_neg r _ hc2]
        refine ⟨_, two_pos r _ ?_⟩
        simp only [Bool.and_eq_true, digitIn_iff ha, digitIn_iff hb, hb, and_true] at hc hc2 ⊢
        omega
  | H =>
    simp only [Directive.range] at h1 h2
    simp only [Directive.alts]
    by_cases hc : (digitIn 2 2 a && digitIn 0 3 b) = true
    · exact ⟨_, two_pos r _ hc⟩
    · rw [two_neg r _ hc]
      refine ⟨_, two_pos r _ ?_⟩
      simp only [Bool.and_eq_true, digitIn_iff ha, digitIn_iff hb, hb, and_true] at hc ⊢
      omega
  | M =>
    simp only [Directive.range] at h1 h2
    simp only [Directive.alts]
    refine ⟨_, two_pos r _ ?_⟩
    simp only [Bool.and_eq_true, digitIn_iff ha, hb, and_true]
    omega
  | S =>
    simp only [Directive.range] at h1 h2
    simp only [Directive.alts]
    by_cases hc : (digitIn 6 6 a && digitIn 0 1 b) = true
    · exact ⟨_, two_pos r _ hc⟩
    · rw [two_neg r _ hc]
      refine ⟨_, two_pos r _ ?_⟩
      simp only [Bool.and_eq_true, digitIn_iff ha, digitIn_iff hb, hb, and_true] at hc ⊢
      omega

theorem filter_two {a b : Char} (ha : isDigit a = true) (hb : isDigit b = true) : digitsVal ([a, b].filter isDigit) = dv a * 10 + dv b := by
  simp [ha, hb, digitsVal, dv]; omega

theorem upTo_digits : ∀ {k : Nat} {ds : Str}, ds.length = k + 1 → (∀ c ∈ ds, isDigit c = true) → ∀ r, ∃ more, upTo (k + 1) (ds ++ r) = (ds, r) :: more
  | 0, [c], _, h, r => ⟨[], by simp [upTo, h c (by simp)]⟩
  | k + 1, c :: ds, hl, h, r => by
    obtain ⟨more, hm⟩ := upTo_digits (k := k) (ds := ds) (by simpa using hl) (fun x hx => h x (by simp [hx])) r
    refine ⟨more.map (fun p => (c :: p.1, p.2)) ++ [([c], ds ++ r)], ?_⟩
    rw [List.cons_append, upTo, if_pos (h c (by simp)), hm]
    rfl

/-! ### the formats -/

theorem valid_bounds {d : DateTime} (h : d.valid = true) : 1 ≤ d.year ∧ d.year ≤ 9999 ∧ 1 ≤ d.month ∧ d.month ≤ 12 ∧ 1 ≤ d.day ∧ d.day ≤ 31 ∧
    d.hour < 24 ∧ d.minute < 60 ∧ d.second < 60 ∧ d.micro < 1000000 := by
  simp only [DateTime.valid, Bool.and_eq_true, decide_eq_true_eq] at h
  have : daysInMonth d.year d.month ≤ 31 := by
    unfold daysInMonth; split_ifs <;> omega
  omega

/-- A date parses, in front of anything. -/
theorem first_date {y m d : Nat} (hy : y ≤ 9999) (hm : 1 ≤ m ∧ m ≤ 12) (hd : 1 ≤ d ∧ d ≤ 31) (xs : List Directive) (r : Str) (d0 : DateTime)
    {res : DateTime × Str} (h : First xs r { d0 with year := y, month := m, day := d } res) :
    First (fmtDate ++ xs) (pad 4 y ++ '-' :: pad 2 m ++ '-' :: pad 2 d ++ r) d0 res := by
  obtain ⟨a, b, c, e, hp, ha, hb, hc, he, hv⟩ := pad4 (n := y) (by omega)
  obtain ⟨m1, m2, hpm, hm1, hm2, hmv⟩ := pad2 (n := m) (by omega)
  obtain ⟨d1, d2, hpd, hd1, hd2, hdv⟩ := pad2 (n := d) (by omega)
  rw [hp, hpm, hpd]
  simp only [fmtDate, List.cons_append, List.nil_append]
  refine First.cons (x := .Y) (t := [a, b, c, e]) (r := '-' :: m1 :: m2 :: '-' :: d1 :: d2 :: r) (more := []) (by simp [Directive.alts, ha, hb, hc, he]) ?_
  apply First.ch
  obtain ⟨mm, hmm⟩ := alts_two (x := .m) hm1 hm2 (by simp [Directive.range]; omega) (by simp [Directive.range]; omega) ('-' :: d1 :: d2 :: r)
  refine First.cons hmm ?_
  apply First.ch
  obtain ⟨dd, hdd⟩ := alts_two (x := .d) hd1 hd2 (by simp [Directive.range]; omega) (by simp [Directive.range]; omega) r
  refine First.cons hdd ?_
  simp only [Directive.store, filter_two hm1 hm2, filter_two hd1 hd2, hmv, hdv]
  have : digitsVal ([a, b, c, e].filter isDigit) = y := by simp [ha, hb, hc, he, hv]
  rw [this]
  exact h

/-- `T` and a time. -/
theorem first_time {h mi s : Nat} (hh : h < 24) (hmi : mi < 60) (hs : s < 60) (xs : List Directive) (r : Str) (d0 : DateTime)
    {res : DateTime × Str} (hf : First xs r { d0 with hour := h, minute := mi, second := s } res) :
    First ([.ch 'T', .H, .ch ':', .M, .ch ':', .S] ++ xs) ('T' :: pad 2 h ++ ':' :: pad 2 mi ++ ':' :: pad 2 s ++ r) d0 res := by
  obtain ⟨h1, h2, hph, hh1, hh2, hhv⟩ := pad2 (n := h) (by omega)
  obtain ⟨m1, m2, hpm, hm1, hm2, hmv⟩ := pad2 (n := mi) (by omega)
  obtain ⟨s1, s2, hps, hs1, hs2, hsv⟩ := pad2 (n := s) (by omega)
  rw [hph, hpm, hps]
  simp only [List.cons_append, List.nil_append]
  apply First.ch
  obtain ⟨mh, hmh⟩ := alts_two (x := .H) hh1 hh2 (by simp [Directive.range]) (by simp [Directive.range]; omega) (':' :: m1 :: m2 :: ':' :: s1 :: s2 :: r)
  refine First.cons hmh ?_
  apply First.ch
  obtain ⟨mm, hmm⟩ := alts_two (x := .M) hm1 hm2 (by simp [Directive.range]) (by simp [Directive.range]; omega) (':' :: s1 :: s2 :: r)
  refine First.cons hmm ?_
  apply First.ch
  obtain ⟨ms, hms⟩ := alts_two (x := .S) hs1 hs2 (by simp [Directive.range]) (by simp [Directive.range]; omega) r
  refine First.cons hms ?_
  simp only [Directive.store, filter_two hh1 hh2, filter_two hm1 hm2, filter_two hs1 hs2, hhv, hmv, hsv]
  exact hf

theorem strptime_first {fmt : List Directive} {s : Str} {d : DateTime} (h : First fmt s ⟨1900, 1, 1, 0, 0, 0, 0⟩ (d, [])) (hv : d.valid = true) :
    strptime fmt s = .ok d := by
  obtain ⟨ys, hy⟩ := h
  simp [strptime, hy, hv]

theorem strptime_rest {fmt : List Directive} {s r : Str} {c : Char} {d : DateTime} (h : First fmt s ⟨1900, 1, 1, 0, 0, 0, 0⟩ (d, c :: r)) :
    strptime fmt s = .error .valueError := by
  obtain ⟨ys, hy⟩ := h
  simp [strptime, hy]

/-- The end of `dateTimeParse`, fields.py:199-206. -/
def parseIso (rep : Str) : Except PyErr DateTime := match strptime fmtDateTime rep with
  | .ok d => .ok d
  | .error .valueError => strptime fmtMicro rep
  | .error e => .error e

theorem parseIso_isoformat {d : DateTime} (h : d.valid = true) : parseIso (isoformat d) = .ok d := by
  obtain ⟨h1, h2, h3, h4, h5, h6, h7, h8, h9, h10⟩ := valid_bounds h
  have key : ∀ (xs : List Directive) (r : Str) (res : DateTime × Str),
      First xs r { d with micro := 0 } res →
      First (fmtDateTime ++ xs) (pad 4 d.year ++ '-' :: pad 2 d.month ++ '-' :: pad 2 d.day ++ 'T' :: pad 2 d.hour ++ ':' :: pad 2 d.minute
        ++ ':' :: pad 2 d.second ++ r) ⟨1900, 1, 1, 0, 0, 0, 0⟩ res := by
    intro xs r res hres
    have := first_date h2 ⟨h3, h4⟩ ⟨h5, h6⟩ ([.ch 'T', .H, .ch ':', .M, .ch ':', .S] ++ xs)
      ('T' :: pad 2 d.hour ++ ':' :: pad 2 d.minute ++ ':' :: pad 2 d.second ++ r) ⟨1900, 1, 1, 0, 0, 0, 0⟩
      (first_time (d0 := ⟨d.year, d.month, d.day, 0, 0, 0, 0⟩) h7 h8 h9 xs r hres)
    simpa [fmtDateTime, List.append_assoc] using this
  by_cases hm : d.micro = 0
  · have hiso : isoformat d = pad 4 d.year ++ '-' :: pad 2 d.month ++ '-' :: pad 2 d.day ++ 'T' :: pad 2 d.hour ++ ':' :: pad 2 d.minute
        ++ ':' :: pad 2 d.second ++ [] := by unfold isoformat; rw [if_pos hm]
    have hd : { d with micro := 0 } = d := by cases d; simp_all
    have := key [] [] (d, []) (by rw [hd]; exact First.nil _ _)
    rw [← hiso, List.append_nil] at this
    unfold parseIso
    rw [strptime_first this h]
  · have hiso : isoformat d = pad 4 d.year ++ '-' :: pad 2 d.month ++ '-' :: pad 2 d.day ++ 'T' :: pad 2 d.hour ++ ':' :: pad 2 d.minute
        ++ ':' :: pad 2 d.second ++ '.' :: pad 6 d.micro := by unfold isoformat; rw [if_neg hm]
    have t1 := key [] ('.' :: pad 6 d.micro) _ (First.nil _ _)
    rw [← hiso, List.append_nil] at t1
    obtain ⟨k1, k2, k3⟩ := pad_spec (w := 6) (n := d.micro) (by omega) h10
    obtain ⟨more, hmore⟩ := upTo_digits (k := 5) k1 k2 []
    rw [List.append_nil] at hmore
    have t2 := key [.ch '.', .f] ('.' :: pad 6 d.micro) (d, []) (by
      apply First.ch
      refine First.cons (x := .f) hmore ?_
      simp only [Directive.store, k1, Nat.sub_self, List.replicate_zero, List.append_nil, k3]
      exact First.nil _ _)
    rw [← hiso] at t2
    unfold parseIso
    rw [strptime_rest t1]
    exact strptime_first t2 h

/-- The shape of an ISO date. -/
theorem isoformat_shape {d : DateTime} (h : d.valid = true) :
    stripZ (isoformat d) = isoformat d ∧ stripTz (isoformat d) = .ok (isoformat d) ∧
    ∀ c ∈ isoformat d, isDigit c = true ∨ c = '-' ∨ c = 'T' ∨ c = ':' ∨ c = '.' := by
  obtain ⟨h1, h2, h3, h4, h5, h6, h7, h8, h9, h10⟩ := valid_bounds h
  obtain ⟨y1, y2, y3, y4, hy, gy1, gy2, gy3, gy4, -⟩ := pad4 (n := d.year) (by omega)
  obtain ⟨m1, m2, hm, gm1, gm2, -⟩ := pad2 (n := d.month) (by omega)
  obtain ⟨d1, d2, hd, gd1, gd2, -⟩ := pad2 (n := d.day) (by omega)
  obtain ⟨a1, a2, hh, ga1, ga2, -⟩ := pad2 (n := d.hour) (by omega)
  obtain ⟨b1, b2, hb, gb1, gb2, -⟩ := pad2 (n := d.minute) (by omega)
  obtain ⟨s1, s2, hs, gs1, gs2, -⟩ := pad2 (n := d.second) (by omega)
  have notZ : ∀ c, isDigit c = true → c ≠ 'Z' := by rintro c hc rfl; revert hc; decide
  have notP : ∀ c, isDigit c = true → ¬ (c = '+' ∨ c = '-') := by rintro c hc (rfl | rfl) <;> revert hc <;> decide
  refine ⟨?_, ?_, ?_⟩
  · unfold isoformat
    rw [hy, hm, hd, hh, hb, hs]
    by_cases hmi : d.micro = 0
    · rw [if_pos hmi]; simp [stripZ, notZ s2 gs2]
    · rw [if_neg hmi]
      obtain ⟨f1, f2, f3, f4, f5, f6, hf, gf, -⟩ := pad6 (n := d.micro) h10
      rw [hf]
      simp [stripZ, notZ f6 (gf f6 (by simp))]
  · unfold isoformat
    rw [hy, hm, hd, hh, hb, hs]
    by_cases hmi : d.micro = 0
    · rw [if_pos hmi]; simp [stripTz]
    · rw [if_neg hmi]
      obtain ⟨f1, f2, f3, f4, f5, f6, hf, gf, -⟩ := pad6 (n := d.micro) h10
      rw [hf]
      have := notP f1 (gf f1 (by simp))
      simp only [not_or] at this
      simp [stripTz, this]
  · obtain ⟨-, e1, -⟩ := pad_spec (w := 4) (n := d.year) (by omega) (by omega)
    obtain ⟨-, e2, -⟩ := pad_spec (w := 2) (n := d.month) (by omega) (by omega)
    obtain ⟨-, e3, -⟩ := pad_spec (w := 2) (n := d.day) (by omega) (by omega)
    obtain ⟨-, e4, -⟩ := pad_spec (w := 2) (n := d.hour) (by omega) (by omega)
    obtain ⟨-, e5, -⟩ := pad_spec (w := 2) (n := d.minute) (by omega) (by omega)
    obtain ⟨-, e6, -⟩ := pad_spec (w := 2) (n := d.second) (by omega) (by omega)
    obtain ⟨-, e7, -⟩ := pad_spec (w := 6) (n := d.micro) (by omega) (by omega)
    have e8 : ∀ c ∈ (if d.micro = 0 then [] else '.' :: pad 6 d.micro), isDigit c = true ∨ c = '.' := by
      intro c hc
      by_cases hmi : d.micro = 0
      · rw [if_pos hmi] at hc; simp at hc
      · rw [if_neg hmi] at hc
        rcases List.mem_cons.1 hc with rfl | hc
        · exact .inr rfl
        · exact .inl (e7 c hc)
    intro c hc
    unfold isoformat at hc
    simp only [List.append_assoc, List.cons_append] at hc
    rcases List.mem_append.1 hc with hc | hc
    · exact .inl (e1 c hc)
    rcases List.mem_cons.1 hc with rfl | hc
    · simp
    rcases List.mem_append.1 hc with hc | hc
    · exact .inl (e2 c hc)
    rcases List.mem_cons.1 hc with rfl | hc
    · simp
    rcases List.mem_append.1 hc with hc | hc
    · exact .inl (e3 c hc)
    rcases List.mem_cons.1 hc with rfl | hc
    · simp
    rcases List.mem_append.1 hc with hc | hc
    · exact .inl (e4 c hc)
    rcases List.mem_cons.1 hc with rfl | hc
    · simp
    rcases List.mem_append.1 hc with hc | hc
    · exact .inl (e5 c hc)
    rcases List.mem_cons.1 hc with rfl | hc
    · simp
    rcases List.mem_append.1 hc with hc | hc
    · exact .inl (e6 c hc)
    rcases e8 c hc with h | h
    · exact .inl h
    · simp [h]

theorem dateTimeParse_eq (rep : Str) : dateTimeParse rep = match stripTz (stripZ rep) with
    | .error e => .error e
    | .ok rep => parseIso rep := rfl

/-- Round trip, and with a time zone that is stripped. -/
theorem dateTimeParse_isoformat {d : DateTime} (h : d.valid = true) : dateTimeParse (isoformat d) = .ok d := by
  obtain ⟨h1, h2, -⟩ := isoformat_shape h
  rw [dateTimeParse_eq, h1, h2]
  exact parseIso_isoformat h

theorem dateTimeParse_Z {d : DateTime} (h : d.valid = true) : dateTimeParse (isoformat d ++ ['Z']) = .ok d := by
  obtain ⟨h1, h2, -⟩ := isoformat_shape h
  have : stripZ (isoformat d ++ ['Z']) = isoformat d := by simp [stripZ]
  rw [dateTimeParse_eq, this, h2]
  exact parseIso_isoformat h

theorem dateTimeParse_offset {d : DateTime} (h : d.valid = true) (sgn : Char) (hs : sgn = '+' ∨ sgn = '-') (o : Str) (ho : o.length = 5)
    (hz : o.getLast? ≠ some 'Z') : dateTimeParse (isoformat d ++ sgn :: o) = .ok d := by
  have h1 : stripZ (isoformat d ++ sgn :: o) = isoformat d ++ sgn :: o := by
    unfold stripZ
    rw [if_neg]
    rw [List.getLast?_append, List.getLast?_cons]
    cases hg : o.getLast? with
    | none => rw [List.getLast?_eq_none_iff] at hg; subst hg; simp at ho
    | some c => rw [hg] at hz; simpa using hz
  have h2 : stripTz (isoformat d ++ sgn :: o) = .ok (isoformat d) := by
    have hl : (isoformat d ++ sgn :: o).length - 6 = (isoformat d).length := by simp [ho]
    unfold stripTz
    rw [if_neg (by simp [ho]), hl]
    simp [hs]
  rw [dateTimeParse_eq, h1, h2]
  exact parseIso_isoformat h

/-! ### dates -/

theorem natStr_pad4 {n : Nat} (h1 : 1000 ≤ n) (h2 : n ≤ 9999) : natStr n = pad 4 n := by
  obtain ⟨k1, k2, k3, k4⟩ := natStr_spec n
  have : 4 ≤ (natStr n).length := by
    by_contra hl
    have key : ∀ s : Str, (∀ c ∈ s, isDigit c = true) → digitsVal s < 10 ^ s.length := by
      intro s
      induction s with
      | nil => intro _; simp [digitsVal]
      | cons c s ih =>
        intro hs
        rw [digitsVal_cons, List.length_cons, Nat.pow_succ]
        have := ih (fun x hx => hs x (by simp [hx]))
        have hb := digit_bounds (hs c (by simp))
        have : (c.toNat - 48) * 10 ^ s.length ≤ 9 * 10 ^ s.length := Nat.mul_le_mul_right _ (by omega)
        omega
    have hlt := key _ k2
    have : 10 ^ (natStr n).length ≤ 10 ^ 3 := Nat.pow_le_pow_right (by omega) (by omega)
    omega
  rw [pad, zeroPad, show 4 - (natStr n).length = 0 by omega]
  rfl

/-- A `datetime.date`: no time. -/
def DateTime.isDate (d : DateTime) : Bool := d.hour == 0 && d.minute == 0 && d.second == 0 && d.micro == 0

theorem strptime_strftime {d : DateTime} (h : d.valid = true) (hd : d.isDate = true) (hy : 1000 ≤ d.year) : strptime fmtDate (strftimeDate d) = .ok d := by
  obtain ⟨h1, h2, h3, h4, h5, h6, h7, h8, h9, h10⟩ := valid_bounds h
  simp only [DateTime.isDate, Bool.and_eq_true, beq_iff_eq] at hd
  apply strptime_first _ h
  unfold strftimeDate
  rw [natStr_pad4 hy h2]
  have := first_date h2 ⟨h3, h4⟩ ⟨h5, h6⟩ [] [] ⟨1900, 1, 1, 0, 0, 0, 0⟩ (First.nil _ _)
  rw [List.append_nil, List.append_nil] at this
  convert this using 2
  cases d
  simp_all

theorem strftime_shape {d : DateTime} (h : d.valid = true) : (∀ c ∈ strftimeDate d, isDigit c = true ∨ c = '-') ∧ strftimeDate d ≠ [] := by
  obtain ⟨h1, h2, h3, h4, h5, h6, -⟩ := valid_bounds h
  obtain ⟨k1, k2, -⟩ := natStr_spec d.year
  obtain ⟨-, a2, -⟩ := pad_spec (w := 2) (n := d.month) (by omega) (by omega)
  obtain ⟨-, b2, -⟩ := pad_spec (w := 2) (n := d.day) (by omega) (by omega)
  constructor
  · intro c hc
    simp only [strftimeDate, List.mem_append, List.mem_cons] at hc
    rcases hc with (hc | rfl | hc) | rfl | hc
    · exact .inl (k2 c hc)
    · exact .inr rfl
    · exact .inl (a2 c hc)
    · exact .inr rfl
    · exact .inl (b2 c hc)
  · unfold strftimeDate; simp

end Fields
