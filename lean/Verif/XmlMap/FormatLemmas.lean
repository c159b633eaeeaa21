import Verif.Spec.Formats
import Verif.XmlMap.DateLemmas
import Verif.XmlMap.SpaceLemmas
import Mathlib.Data.List.Forall2
/-
Printing and reading dates in a user's format.
-/
namespace Fields
open Xml XPath Spec

/-- White space pieces are not empty, hold white space only, and do not follow one another; other characters are no white space. -/
def wellFormed : List FTok → Bool
  | [] => true
  | .space run :: ts => !run.isEmpty && run.all isPySpace && (match ts with | .space _ :: _ => false | _ => true) && wellFormed ts
  | .dir (.ch c) :: ts => !isPySpace c && wellFormed ts
  | _ :: ts => wellFormed ts

theorem wellFormed_directive {c t} (h : directiveOf c = some t) (ts : List FTok) : wellFormed (t :: ts) = wellFormed ts := by
  unfold directiveOf at h
  split_ifs at h <;> (cases h; simp [wellFormed])
  exact fun _ => by decide

theorem wellFormed_consSpace {c} (h : isPySpace c = true) {ts : List FTok} (hw : wellFormed ts = true) : wellFormed (consSpace c ts) = true := by
  unfold consSpace
  split
  · simp only [wellFormed, Bool.and_eq_true] at hw ⊢
    obtain ⟨⟨⟨h1, h2⟩, h3⟩, h4⟩ := hw
    exact ⟨⟨⟨by simp, by simp only [List.all_cons, h, h2]; rfl⟩, h3⟩, h4⟩
  · rename_i hn
    simp only [wellFormed, Bool.and_eq_true]
    refine ⟨⟨⟨by simp, by simp [h]⟩, ?_⟩, hw⟩
    cases ts with
    | nil => trivial
    | cons t ts =>
      cases t with
      | space run => exact absurd rfl (hn run ts)
      | _ => trivial

/-- What the tokeniser yields is well-formed, and all its characters are from the format. -/
theorem parseFormat_ok : ∀ (s : Str) (ts : List FTok), parseFormat s = some ts → wellFormed ts = true ∧ ∀ c, some c ∈ layout ts → c ∈ s
  | [], ts, h => by
    simp only [parseFormat, Option.some.injEq] at h
    subst h
    exact ⟨rfl, by simp [layout]⟩
  | [c], ts, h => by
    rw [parseFormat] at h
    by_cases hc : c = '%'
    · rw [if_pos hc] at h; simp at h
    · rw [if_neg hc] at h
      simp only [parseFormat, Option.some.injEq] at h
      subst h
      by_cases hs : isPySpace c = true
      · simp [hs, consSpace, wellFormed, layout, places]
      · simp [hs, wellFormed, layout, places]
  | c :: x :: s, ts, h => by
    rw [parseFormat] at h
    by_cases hc : c = '%'
    · rw [if_pos hc] at h
      cases hd : directiveOf x with
      | none => simp [hd] at h
      | some t =>
        cases hp : parseFormat s with
        | none => simp [hd, hp] at h
        | some ts' =>
          simp only [hd, hp, Option.some.injEq] at h
          subst h
          obtain ⟨h1, h2⟩ := parseFormat_ok s ts' hp
          refine ⟨by rw [wellFormed_directive hd]; exact h1, ?_⟩
          intro y hy
          simp only [layout, List.flatMap_cons, List.mem_append] at hy
          rcases hy with hy | hy
          · unfold directiveOf at hd
            split_ifs at hd <;> (cases hd; simp [places] at hy)
            subst hy
            simp [hc]
          · have := h2 y hy
            simp [this]
    · rw [if_neg hc] at h
      cases hp : parseFormat (x :: s) with
      | none => rw [hp] at h; simp at h
      | some ts' =>
        rw [hp] at h
        simp only [Option.some.injEq] at h
        subst h
        obtain ⟨h1, h2⟩ := parseFormat_ok (x :: s) ts' hp
        by_cases hs : isPySpace c = true
        · rw [if_pos hs]
          refine ⟨wellFormed_consSpace hs h1, fun y hy => ?_⟩
          unfold consSpace at hy
          split at hy
          · simp only [layout, List.flatMap_cons, places, List.map_cons, List.cons_append, List.mem_cons, Option.some.injEq] at hy
            rcases hy with rfl | hy
            · simp
            · exact List.mem_cons_of_mem _ (h2 y (by simpa [layout, places] using hy))
          · simp only [layout, List.flatMap_cons, places, List.map_cons, List.map_nil, List.cons_append, List.nil_append, List.mem_cons, Option.some.injEq] at hy
            rcases hy with rfl | hy
            · simp
            · exact List.mem_cons_of_mem _ (h2 y hy)
        · rw [if_neg hs]
          refine ⟨by simp [wellFormed, hs, h1], fun y hy => ?_⟩
          simp only [layout, List.flatMap_cons, places, List.cons_append, List.nil_append, List.mem_cons, Option.some.injEq] at hy
          rcases hy with rfl | hy
          · simp
          · exact List.mem_cons_of_mem _ (h2 y hy)

theorem shownOn_cons (d0 d : DateTime) (t : FTok) (ts : List FTok) : shownOn (shownOn d0 [t] d) ts d = shownOn d0 (t :: ts) d := by
  simp only [shownOn, showsYear, List.mem_cons, List.not_mem_nil, or_false, DateTime.mk.injEq]
  refine ⟨?_, ?_, ?_, ?_, ?_, ?_, ?_⟩
  · by_cases h1 : (FTok.dir .Y ∈ ts ∨ .year2 ∈ ts)
    · rw [if_pos h1, if_pos (by tauto)]
    · rw [if_neg h1]
      by_cases h2 : (FTok.dir .Y = t ∨ .year2 = t)
      · rw [if_pos h2, if_pos (by tauto)]
      · rw [if_neg h2, if_neg (by tauto)]
  all_goals
    split_ifs <;> first | rfl | tauto

theorem spaces_run {run r : Str} (h : run.all isPySpace = true) (hne : run ≠ []) (hr : ∀ c, r.head? = some c → isPySpace c = false) :
    ∃ more, spaces (run ++ r) = r :: more := by
  have h0 : spaces r = [] := by
    cases r with
    | nil => rfl
    | cons c r => simp [spaces, hr c rfl]
  induction run with
  | nil => exact absurd rfl hne
  | cons c run ih =>
    simp only [List.all_cons, Bool.and_eq_true] at h
    simp only [List.cons_append, spaces, h.1, if_true]
    by_cases hn : run = []
    · subst hn; simp [h0]
    · obtain ⟨more, hm⟩ := ih h.2 hn
      rw [hm]; exact ⟨_, rfl⟩

/-- A piece matches what it printed, as its first alternative, and stores it. -/
theorem piece_first {d : DateTime} (hv : d.valid = true) {t : FTok} {ts : List FTok} (hw : wellFormed (t :: ts) = true) (hy : yearOk (t :: ts) d.year)
    (r : Str) (hr : ∀ run, t = .space run → ∀ c, r.head? = some c → isPySpace c = false) :
    ∃ f more, t.alts (t.print d ++ r) = (f, r) :: more ∧ ∀ d0, f d0 = shownOn d0 [t] d := by
  obtain ⟨b1, b2, b3, b4, b5, b6, b7, b8, b9, b10⟩ := valid_bounds hv
  have key : ∀ (x : Directive) (n : Nat), x.range.1 ≤ n → n ≤ x.range.2 → x.range.2 < 100 → FTok.print d (.dir x) = pad 2 n →
      ∃ f more, (FTok.dir x).alts (FTok.print d (.dir x) ++ r) = (f, r) :: more ∧ ∃ a b, f = x.store [a, b] ∧ digitsVal ([a, b].filter isDigit) = n := by
    intro x n h1 h2 h3 hp
    obtain ⟨a, b, hab, ha, hb, hval⟩ := pad2 (n := n) (by omega)
    obtain ⟨more, hm⟩ := alts_two (x := x) ha hb (by omega) (by omega) r
    refine ⟨_, _, by rw [hp, hab]; simp only [FTok.alts, List.cons_append, List.nil_append, hm, List.map_cons]; rfl, a, b, rfl, by rw [filter_two ha hb, hval]⟩
  cases t with
  | space run =>
    simp only [wellFormed, Bool.and_eq_true, Bool.not_eq_true', List.isEmpty_eq_false_iff] at hw
    obtain ⟨more, hm⟩ := spaces_run hw.1.1.2 hw.1.1.1 (hr run rfl)
    refine ⟨id, more.map (fun r => (id, r)), by simp only [FTok.alts, FTok.print, hm, List.map_cons], fun d0 => ?_⟩
    simp [shownOn, showsYear]
  | year2 =>
    have hy2 := hy.2 (by simp)
    obtain ⟨a, b, hab, ha, hb, hval⟩ := pad2 (n := d.year % 100) (by omega)
    refine ⟨_, [], by simp [FTok.alts, FTok.print, hab, two, ha, hb]; rfl, fun d0 => ?_⟩
    have hd : digitsVal [a, b] = d.year % 100 := by
      have := filter_two ha hb
      simp only [List.filter_cons, ha, hb, if_true, List.filter_nil] at this
      rw [this, hval]
    simp only [hd, shownOn, showsYear, List.mem_singleton, or_true, if_true, reduceCtorEq, if_false]
    congr 1
    split_ifs <;> omega
  | dir x =>
    cases x with
    | ch c => exact ⟨id, [], by simp [FTok.alts, FTok.print, Directive.alts]; rfl, fun d0 => by simp [shownOn, showsYear]⟩
    | Y =>
      have hy1 := hy.1 (by simp)
      obtain ⟨a, b, c, e, hp, ha, hb, hc, he, hval⟩ := pad4 (n := d.year) (by omega)
      refine ⟨_, [], by simp [FTok.alts, FTok.print, natStr_pad4 hy1 b2, hp, Directive.alts, ha, hb, hc, he]; rfl, fun d0 => ?_⟩
      have : digitsVal ([a, b, c, e].filter isDigit) = d.year := by simp [ha, hb, hc, he, hval]
      simp [Directive.store, this, shownOn, showsYear]
    | f =>
      obtain ⟨h1, h2, h3⟩ := pad_spec (w := 6) (n := d.micro) (by omega) (by omega)
      obtain ⟨more, hm⟩ := upTo_digits (k := 5) h1 h2 r
      refine ⟨_, _, by simp only [FTok.alts, FTok.print, Directive.alts, hm, List.map_cons]; rfl, fun d0 => ?_⟩
      simp [Directive.store, h1, h3, shownOn, showsYear]
    | m =>
      obtain ⟨f, more, hm, a, b, rfl, hval⟩ := key .m d.month (by simp [Directive.range]; omega) (by simp [Directive.range]; omega) (by decide) rfl
      exact ⟨_, _, hm, fun d0 => by simp only [Directive.store, hval]; simp [shownOn, showsYear]⟩
    | d =>
      obtain ⟨f, more, hm, a, b, rfl, hval⟩ := key .d d.day (by simp [Directive.range]; omega) (by simp [Directive.range]; omega) (by decide) rfl
      exact ⟨_, _, hm, fun d0 => by simp only [Directive.store, hval]; simp [shownOn, showsYear]⟩
    | H =>
      obtain ⟨f, more, hm, a, b, rfl, hval⟩ := key .H d.hour (by simp [Directive.range]) (by simp [Directive.range]; omega) (by decide) rfl
      exact ⟨_, _, hm, fun d0 => by simp only [Directive.store, hval]; simp [shownOn, showsYear]⟩
    | M =>
      obtain ⟨f, more, hm, a, b, rfl, hval⟩ := key .M d.minute (by simp [Directive.range]) (by simp [Directive.range]; omega) (by decide) rfl
      exact ⟨_, _, hm, fun d0 => by simp only [Directive.store, hval]; simp [shownOn, showsYear]⟩
    | S =>
      obtain ⟨f, more, hm, a, b, rfl, hval⟩ := key .S d.second (by simp [Directive.range]) (by simp [Directive.range]; omega) (by decide) rfl
      exact ⟨_, _, hm, fun d0 => by simp only [Directive.store, hval]; simp [shownOn, showsYear]⟩

theorem digit_not_space {c : Char} (h : isDigit c = true) : isPySpace c = false := by
  have hb := digit_bounds h
  by_contra hc
  have hc : isPySpace c = true := by simpa using hc
  simp only [isPySpace, isXmlSpace, Bool.or_eq_true, beq_iff_eq, Bool.and_eq_true, decide_eq_true_eq] at hc
  rcases hc with (((((rfl | rfl) | rfl) | rfl) | h) | h) | h <;> first | omega | (revert hb; decide)

/-- The characters of a printed piece are those of the format, or digits; and where they are. -/
theorem print_places {d : DateTime} (hv : d.valid = true) {t : FTok} (hy : t = .dir .Y → 1000 ≤ d.year) :
    List.Forall₂ (fun (c : Char) (o : Option Char) => match o with | some c' => c = c' | none => isDigit c = true) (t.print d) (places t) := by
  obtain ⟨b1, b2, b3, b4, b5, b6, b7, b8, b9, b10⟩ := valid_bounds hv
  have key : ∀ n, n < 100 → List.Forall₂ (fun (c : Char) (o : Option Char) => match o with | some c' => c = c' | none => isDigit c = true) (pad 2 n) [none, none] := by
    intro n hn
    obtain ⟨a, b, hab, ha, hb, -⟩ := pad2 hn
    rw [hab]
    exact .cons ha (.cons hb .nil)
  cases t with
  | space run =>
    simp only [FTok.print, places]
    clear hy
    induction run with
    | nil => exact .nil
    | cons c run ih => exact .cons rfl ih
  | year2 => exact key _ (by omega)
  | dir x =>
    cases x with
    | ch c => exact .cons rfl .nil
    | Y =>
      obtain ⟨a, b, c, e, hp, ha, hb, hc, he, -⟩ := pad4 (n := d.year) (by omega)
      simp only [FTok.print, places]
      rw [natStr_pad4 (hy rfl) b2, hp]
      exact .cons ha (.cons hb (.cons hc (.cons he .nil)))
    | f =>
      obtain ⟨a, b, c, e, g, h, hp, hd, -⟩ := pad6 (n := d.micro) (by omega)
      simp only [FTok.print, places, hp]
      exact .cons (hd _ (by simp)) (.cons (hd _ (by simp)) (.cons (hd _ (by simp)) (.cons (hd _ (by simp)) (.cons (hd _ (by simp)) (.cons (hd _ (by simp)) .nil)))))
    | m => exact key _ (by omega)
    | d => exact key _ (by omega)
    | H => exact key _ (by omega)
    | M => exact key _ (by omega)
    | S => exact key _ (by omega)

theorem print_head {d : DateTime} (hv : d.valid = true) {t : FTok} {ts : List FTok} (hw : wellFormed (t :: ts) = true) (ht : ∀ run, t ≠ .space run) :
    ∃ c r, t.print d = c :: r ∧ isPySpace c = false := by
  obtain ⟨b1, b2, b3, b4, b5, b6, b7, b8, b9, b10⟩ := valid_bounds hv
  have key : ∀ w n, 0 < w → n < 10 ^ w → ∃ c r, pad w n = c :: r ∧ isPySpace c = false := by
    intro w n h0 hn
    obtain ⟨h1, h2, -⟩ := pad_spec h0 hn
    cases hp : pad w n with
    | nil => rw [hp] at h1; simp at h1; omega
    | cons c r => exact ⟨c, r, rfl, digit_not_space (h2 c (by rw [hp]; simp))⟩
  cases t with
  | space run => exact absurd rfl (ht run)
  | year2 => exact key 2 _ (by omega) (by omega)
  | dir x =>
    cases x with
    | ch c =>
      simp only [wellFormed, Bool.and_eq_true, Bool.not_eq_true'] at hw
      exact ⟨c, [], rfl, hw.1⟩
    | Y =>
      obtain ⟨k1, k2, k3, k4⟩ := natStr_spec d.year
      simp only [FTok.print]
      cases hp : natStr d.year with
      | nil => exact absurd hp (by first | exact k1 | exact k2 | exact k3)
      | cons c r => exact ⟨c, r, rfl, digit_not_space (by have := k2 c (by rw [hp]; simp); exact this)⟩
    | f => exact key 6 _ (by omega) (by omega)
    | m => exact key 2 _ (by omega) (by omega)
    | d => exact key 2 _ (by omega) (by omega)
    | H => exact key 2 _ (by omega) (by omega)
    | M => exact key 2 _ (by omega) (by omega)
    | S => exact key 2 _ (by omega) (by omega)

theorem wellFormed_tail {t : FTok} {ts : List FTok} (h : wellFormed (t :: ts) = true) : wellFormed ts = true := by
  cases t with
  | space run => simp only [wellFormed, Bool.and_eq_true] at h; exact h.2
  | year2 => exact h
  | dir x =>
    cases x with
    | ch c => simp only [wellFormed, Bool.and_eq_true] at h; exact h.2
    | _ => exact h

theorem matchPieces_first {d : DateTime} (hv : d.valid = true) : ∀ (ts : List FTok), wellFormed ts = true → yearOk ts d.year →
    ∀ d0, ∃ ys, matchPieces ts (strftimeAny ts d) d0 = (shownOn d0 ts d, []) :: ys
  | [], _, _, d0 => ⟨[], by simp [matchPieces, strftimeAny, shownOn, showsYear]⟩
  | t :: ts, hw, hy, d0 => by
    have hw' := wellFormed_tail hw
    have hy' : yearOk ts d.year := ⟨fun h => hy.1 (by simp [h]), fun h => hy.2 (by simp [h])⟩
    have hr : ∀ run, t = .space run → ∀ c, (strftimeAny ts d).head? = some c → isPySpace c = false := by
      rintro run rfl c hc
      cases ts with
      | nil => simp [strftimeAny] at hc
      | cons t2 ts2 =>
        have hne : ∀ run', t2 ≠ .space run' := by
          rintro run' rfl
          simp [wellFormed] at hw
        obtain ⟨c', r', h1, h2⟩ := print_head hv hw' hne
        simp only [strftimeAny, List.flatMap_cons, h1, List.cons_append, List.head?_cons, Option.some.injEq] at hc
        rw [← hc]; exact h2
    obtain ⟨f, more, hm, hf⟩ := piece_first hv hw hy (strftimeAny ts d) hr
    obtain ⟨ys, ih⟩ := matchPieces_first hv ts hw' hy' (shownOn d0 [t] d)
    rw [shownOn_cons] at ih
    refine ⟨ys ++ more.flatMap (fun p => matchPieces ts p.2 (p.1 d0)), ?_⟩
    have : strftimeAny (t :: ts) d = t.print d ++ strftimeAny ts d := by simp [strftimeAny]
    rw [this, matchPieces, hm, List.flatMap_cons]
    simp only [hf d0]
    rw [ih, List.cons_append]

theorem strptimeAny_strftimeAny {d : DateTime} (hv : d.valid = true) {ts : List FTok} (hw : wellFormed ts = true) (hy : yearOk ts d.year)
    (hn : (ts.filter FTok.named).Nodup) :
    strptimeAny ts (strftimeAny ts d) = if (shown ts d).valid then .ok (shown ts d) else .error .valueError := by
  obtain ⟨ys, h⟩ := matchPieces_first hv ts hw hy ⟨1900, 1, 1, 0, 0, 0, 0⟩
  unfold strptimeAny
  rw [if_neg (by simp [hn]), h]
  rfl

theorem strftime_layout {d : DateTime} (hv : d.valid = true) : ∀ (ts : List FTok), yearOk ts d.year →
    List.Forall₂ (fun (c : Char) (o : Option Char) => match o with | some c' => c = c' | none => isDigit c = true) (strftimeAny ts d) (layout ts)
  | [], _ => .nil
  | t :: ts, hy => by
    simp only [strftimeAny, layout, List.flatMap_cons]
    exact List.rel_append (print_places hv (fun h => hy.1 (by simp [h]))) (strftime_layout hv ts ⟨fun h => hy.1 (by simp [h]), fun h => hy.2 (by simp [h])⟩)

theorem strftime_chars {d : DateTime} (hv : d.valid = true) {ts : List FTok} (hy : yearOk ts d.year) :
    ∀ c ∈ strftimeAny ts d, isDigit c = true ∨ some c ∈ layout ts := by
  have h := strftime_layout hv ts hy
  intro c hc
  generalize strftimeAny ts d = s at *
  generalize layout ts = l at *
  induction h with
  | nil => simp at hc
  | @cons x o s l h1 h2 ih =>
    rcases List.mem_cons.mp hc with rfl | hc
    · cases o with
      | none => exact .inl h1
      | some c' => right; simp only at h1; simp [h1]
    · rcases ih hc with h | h
      · exact .inl h
      · exact .inr (by simp [h])

/-- On a safe format the time zone heuristics leaves the text alone. -/
theorem strip_safe {d : DateTime} (hv : d.valid = true) {ts : List FTok} (hy : yearOk ts d.year) (hz : zoneSafe ts) :
    stripTz (stripZ (strftimeAny ts d)) = .ok (strftimeAny ts d) := by
  have h := strftime_layout hv ts hy
  obtain ⟨h1, h2, h3, h4⟩ := hz
  generalize strftimeAny ts d = s at *
  generalize layout ts = l at *
  have hlen := h.length_eq
  have hget : ∀ i : Nat, (∃ c o, s[i]? = some c ∧ l[i]? = some o ∧ (match o with | some c' => c = c' | none => isDigit c = true)) ∨ (s[i]? = none ∧ l[i]? = none) := by
    intro i
    by_cases hi : i < s.length
    · left
      refine ⟨s[i], l[i]'(by omega), by simp [hi], by simp [hlen ▸ hi], ?_⟩
      exact (List.forall₂_iff_get.mp h).2 i hi (by omega)
    · right; simp; omega
  have hZ : stripZ s = s := by
    unfold stripZ
    rw [if_neg]
    intro hl
    rw [List.getLast?_eq_getElem?] at hl
    rcases hget (s.length - 1) with ⟨c, o, e1, e2, e3⟩ | ⟨e1, -⟩
    · rw [hl] at e1
      simp only [Option.some.injEq] at e1
      subst e1
      cases o with
      | none => simp only at e3; revert e3; decide
      | some c' =>
        simp only at e3
        subst e3
        apply h2
        rw [List.getLast?_eq_getElem?, ← hlen, e2]
    · rw [hl] at e1; simp at e1
  rw [hZ]
  unfold stripTz
  rw [if_neg (by omega)]
  rcases hget (s.length - 6) with ⟨c, o, e1, e2, e3⟩ | ⟨-, e2⟩
  · rw [e1]
    simp only
    rw [if_neg]
    rintro (rfl | rfl)
    · cases o with
      | none => simp only at e3; revert e3; decide
      | some c' => simp only at e3; subst e3; rw [hlen] at e2; exact h3 e2
    · cases o with
      | none => simp only at e3; revert e3; decide
      | some c' => simp only at e3; subst e3; rw [hlen] at e2; exact h4 e2
  · simp at e2; omega

/-- The characters of a piece that is no white space are no white space. -/
theorem print_solid {d : DateTime} (hv : d.valid = true) {t : FTok} {ts : List FTok} (hw : wellFormed (t :: ts) = true) (ht : ∀ run, t ≠ .space run)
    (hy : yearOk (t :: ts) d.year) : ∀ c ∈ t.print d, isXmlSpace c = false := by
  intro c hc
  have hs : isPySpace c = false := by
    rcases strftime_chars hv (ts := [t]) ⟨fun h => hy.1 (by simp at h; simp [h]), fun h => hy.2 (by simp at h; simp [h])⟩ c (by simpa [strftimeAny] using hc) with h | h
    · exact digit_not_space h
    · cases t with
      | space run => exact absurd rfl (ht run)
      | year2 => simp [layout, places] at h
      | dir x =>
        cases x with
        | ch c' =>
          simp only [layout, List.flatMap_cons, places, List.flatMap_nil, List.append_nil, List.mem_singleton, Option.some.injEq] at h
          subst h
          simp only [wellFormed, Bool.and_eq_true, Bool.not_eq_true'] at hw
          exact hw.1
        | _ => simp [layout, places] at h
  by_contra hc
  simp only [Bool.not_eq_false] at hc
  simp [isPySpace, hc] at hs

theorem tail_word {w : Str} (h : ∀ c ∈ w, isXmlSpace c = false) (s : Str) : normSpaceGo.normSpaceTail (w ++ s) = w ++ normSpaceGo.normSpaceTail s := by
  induction w with
  | nil => rfl
  | cons c w ih =>
    rw [List.cons_append, normSpaceGo.normSpaceTail, if_neg (by simp [h c (by simp)]), ih (fun x hx => h x (by simp [hx]))]
    rfl

theorem tidyTail_norm {d : DateTime} (hv : d.valid = true) : ∀ (ts : List FTok), wellFormed ts = true → yearOk ts d.year → tidy.tidyTail ts = true →
    normSpaceGo.normSpaceTail (strftimeAny ts d) = strftimeAny ts d
  | [], _, _, _ => rfl
  | [.space _], _, _, h => by simp [tidy.tidyTail] at h
  | .space run :: t :: ts, hw, hy, h => by
    simp only [tidy.tidyTail, Bool.and_eq_true, beq_iff_eq] at h
    obtain ⟨rfl, h⟩ := h
    have hw' := wellFormed_tail hw
    have hne : ∀ run', t ≠ .space run' := by
      rintro run' rfl
      simp [wellFormed] at hw
    have hy' : yearOk (t :: ts) d.year := ⟨fun h => hy.1 (by simp only [List.mem_cons] at h ⊢; tauto), fun h => hy.2 (by simp only [List.mem_cons] at h ⊢; tauto)⟩
    have hy2 : yearOk ts d.year := ⟨fun h => hy.1 (by simp only [List.mem_cons] at h ⊢; tauto), fun h => hy.2 (by simp only [List.mem_cons] at h ⊢; tauto)⟩
    obtain ⟨c, r, hp, -⟩ := print_head hv hw' hne
    have hsol := print_solid hv hw' hne hy'
    rw [hp] at hsol
    have ih := tidyTail_norm hv ts (wellFormed_tail hw') hy2 h
    have he : strftimeAny (.space [' '] :: t :: ts) d = ' ' :: c :: (r ++ strftimeAny ts d) := by
      have h0 : FTok.print d (.space [' ']) = [' '] := rfl
      simp [strftimeAny, h0, hp]
    rw [he, normSpaceGo.normSpaceTail, if_pos (by decide), normSpaceGo, if_neg (by simp [hsol c (by simp)]), if_pos rfl,
      tail_word (fun x hx => hsol x (by simp [hx])), ih]
  | .year2 :: ts, hw, hy, h => by
    have hsol := print_solid hv hw (by simp) hy
    have ih := tidyTail_norm hv ts (wellFormed_tail hw) ⟨fun h => hy.1 (by simp [h]), fun h => hy.2 (by simp [h])⟩ (by simpa [tidy.tidyTail] using h)
    have he : strftimeAny (.year2 :: ts) d = FTok.print d .year2 ++ strftimeAny ts d := by simp [strftimeAny]
    rw [he, tail_word hsol, ih]
  | .dir x :: ts, hw, hy, h => by
    have hsol := print_solid hv hw (by simp) hy
    have ih := tidyTail_norm hv ts (wellFormed_tail hw) ⟨fun h => hy.1 (by simp [h]), fun h => hy.2 (by simp [h])⟩ (by simpa [tidy.tidyTail] using h)
    have he : strftimeAny (.dir x :: ts) d = FTok.print d (.dir x) ++ strftimeAny ts d := by simp [strftimeAny]
    rw [he, tail_word hsol, ih]

theorem tidy_norm {d : DateTime} (hv : d.valid = true) {ts : List FTok} (hw : wellFormed ts = true) (hy : yearOk ts d.year) (h : tidy ts = true) :
    normSpace (strftimeAny ts d) = strftimeAny ts d := by
  cases ts with
  | nil => rfl
  | cons t ts =>
    have hne : ∀ run', t ≠ .space run' := by
      rintro run' rfl
      simp [tidy] at h
    have ht : tidy.tidyTail ts = true := by
      cases t with
      | space run => exact absurd rfl (hne run)
      | _ => simpa [tidy] using h
    obtain ⟨c, r, hp, -⟩ := print_head hv hw hne
    have hsol := print_solid hv hw hne hy
    rw [hp] at hsol
    have ih := tidyTail_norm hv ts (wellFormed_tail hw) ⟨fun h => hy.1 (by simp [h]), fun h => hy.2 (by simp [h])⟩ ht
    have he : strftimeAny (t :: ts) d = c :: (r ++ strftimeAny ts d) := by simp [strftimeAny, hp]
    rw [he, normSpace, normSpaceGo, if_neg (by simp [hsol c (by simp)]), if_neg (by simp), tail_word (fun x hx => hsol x (by simp [hx])), ih]

end Fields
