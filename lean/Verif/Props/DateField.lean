import Verif.Props.TypedField
import Verif.Spec.Calendar
import Verif.XmlMap.DateText
/-
Properties C33-C36: dates, scalar results, white space.

Model: mappers in Verif/XmlMap/Mappers.lean, `managerGet`, `managerSet` in Verif/XmlMap/Manager.lean.
-/
namespace Props
open XPath Xml Spec Fields

/-! ### C33 -/

/-- C33.  Writing a (naive) datetime and reading it back gives the same datetime, with and without white-space normalisation. -/
theorem C33_datetime_round_trip [PyUnicode] (eng : Engine) (heng : EngineOk eng) (ctx : Ctx) (xp : Str) (e : Expr) (p : List Step)
    (hf : SimpleField ctx xp e p) (hso : stringOk p = true) (normalize : Bool) (d : DateTime) (hd : RealDateTime d)
    (a : Node.Addr) (s n : Node) (hs : s.get a = some n) (hw : Writable p n) :
    ∃ s', writeAs (dateTimeToXml (some d)) eng ctx xp e (.elem a) s = (.ok (), s') ∧
      readAs (dateTimeToPython normalize) eng ctx xp e (.elem a) s' = (.ok (some d), s') := by
  replace hd := (valid_iff d).mpr hd
  obtain ⟨hx, hb⟩ := isoformat_chars hd
  obtain ⟨s', it, h1, h2, h3⟩ := write_then_item (conv := dateTimeToPython normalize) heng hf hso hx hs hw
  refine ⟨s', h1, ?_⟩
  rw [h2]
  rcases h3 with ⟨-, rfl⟩ | ⟨-, m, rfl, hm, -⟩
  · simp only [dateTimeToPython, dateTimeParse_isoformat hd]; rfl
  · simp only [dateTimeToPython, hm, normSpace_noSpace hb, ite_self, dateTimeParse_isoformat hd]; rfl

/-- The hypotheses can be met. -/
example : ∃ s', writeAs (dateTimeToXml (some ⟨2024, 2, 29, 23, 59, 59, 120⟩)) refEngine sampleCtx c%"m:a/@id" (ast c%"m:a/@id") (.elem []) sampleDoc
      = (.ok (), s') ∧
    readAs (dateTimeToPython true) refEngine sampleCtx c%"m:a/@id" (ast c%"m:a/@id") (.elem []) s' = (.ok (some ⟨2024, 2, 29, 23, 59, 59, 120⟩), s') :=
  C33_datetime_round_trip refEngine refEngine_ok _ _ _ [.child ⟨some c%"http://m", c%"a"⟩ [], .attr ⟨none, c%"id"⟩]
    { parse := by decide, path := by rfl, canonical := by decide, ok := by decide } (by decide) _ _ ((valid_iff _).mp (by decide)) _ _ sampleDoc rfl (by trivial)

/-- C33.  A datetime in ISO format followed by `Z` or by an offset of the form `+hh:mm` or `-hh:mm` (any five characters not ending in `Z`) reads as
the datetime; the time zone is dropped. -/
theorem C33_time_zone_is_stripped [PyUnicode] (eng : Engine) (heng : EngineOk eng) (ctx : Ctx) (xp : Str) (e : Expr) (p : List Step)
    (hf : SimpleField ctx xp e p) (d : DateTime) (hd : RealDateTime d) (zone : Str)
    (hz : zone = [] ∨ zone = ['Z'] ∨ ∃ sgn o, zone = sgn :: o ∧ (sgn = '+' ∨ sgn = '-') ∧ o.length = 5 ∧ o.getLast? ≠ some 'Z')
    (a : Node.Addr) (s n : Node) (hs : s.get a = some n) (x : Ref) (hx : (Step.matches p n).head? = some x) (ht : refText n x = some (isoformat d ++ zone)) :
    readAs (dateTimeToPython false) eng ctx xp e (.elem a) s = (.ok (some d), s) := by
  replace hd := (valid_iff d).mpr hd
  rw [readAs_run heng hf hs, hx]
  have hp : dateTimeParse (isoformat d ++ zone) = .ok d := by
    rcases hz with rfl | rfl | ⟨sgn, o, rfl, h1, h2, h3⟩
    · rw [List.append_nil]; exact dateTimeParse_isoformat hd
    · exact dateTimeParse_Z hd
    · exact dateTimeParse_offset hd _ h1 o h2 h3
  cases x with
  | elem b =>
    simp only [refText, Option.map_eq_some_iff] at ht
    obtain ⟨m, hm, hv⟩ := ht
    simp only [Option.bind_some, seen, hm, Option.map_some, dateTimeToPython, hv, Bool.false_eq_true, if_false, hp]; rfl
  | attr b q => simp only [Option.bind_some, seen, ht, Option.map_some, dateTimeToPython, hp]; rfl
  | text b => simp only [Option.bind_some, seen, ht, Option.map_some, dateTimeToPython, hp]; rfl
  | tail b => simp only [Option.bind_some, seen, ht, Option.map_some, dateTimeToPython, hp]; rfl

/-- C33.  What is read is always a datetime that exists: reading gives `None`, a valid datetime, or raises. -/
theorem C33_only_valid_datetimes (rep : Str) (d : DateTime) (h : dateTimeParse rep = .ok d) : RealDateTime d := by
  rw [← valid_iff]
  have key : ∀ fmt s, strptime fmt s = .ok d → d.valid = true := by
    intro fmt s hs
    unfold strptime at hs
    split at hs
    · split_ifs at hs with hv
      simp only [Except.ok.injEq] at hs; subst hs; exact hv
    · simp at hs
  rw [dateTimeParse_eq] at h
  cases hz : stripTz (stripZ rep) with
  | error e => rw [hz] at h; simp at h
  | ok r =>
    rw [hz] at h
    simp only [parseIso] at h
    split at h
    · simp only [Except.ok.injEq] at h; subst h; exact key _ _ ‹_›
    · exact key _ _ h
    · simp at h

/-- C33.  What reading a text can raise: `IndexError` when, without a final `Z`, fewer than six characters are left; otherwise only `ValueError`. -/
theorem C33_errors (rep : Str) (er : PyErr) (h : dateTimeParse rep = .error er) :
    (er = .indexError ∧ (if rep.getLast? = some 'Z' then rep.dropLast else rep).length < 6) ∨
    (er = .valueError ∧ 6 ≤ (if rep.getLast? = some 'Z' then rep.dropLast else rep).length) := by
  have key : ∀ fmt s er, strptime fmt s = .error er → er = .valueError := by
    intro fmt s er hs
    unfold strptime at hs
    split at hs
    · split_ifs at hs
      simpa using hs.symm
    · simpa using hs.symm
  change (er = .indexError ∧ (stripZ rep).length < 6) ∨ (er = .valueError ∧ 6 ≤ (stripZ rep).length)
  unfold dateTimeParse at h
  by_cases hl : (stripZ rep).length < 6
  · left
    have : stripTz (stripZ rep) = .error .indexError := by unfold stripTz; rw [if_pos hl]
    rw [this] at h
    simp only [Except.error.injEq] at h
    exact ⟨h.symm, hl⟩
  · right
    have hx : (stripZ rep).length - 6 < (stripZ rep).length := by omega
    have : ∃ r, stripTz (stripZ rep) = .ok r := by
      unfold stripTz
      rw [if_neg hl, List.getElem?_eq_getElem hx]
      exact ⟨_, rfl⟩
    obtain ⟨r, hr⟩ := this
    rw [hr] at h
    refine ⟨?_, by omega⟩
    simp only at h
    split at h
    · simp at h
    · exact key _ _ _ h
    · rename_i e' hs
      simp only [Except.error.injEq] at h
      subst h
      exact key _ _ _ hs

example : dateTimeParse c%"2024-02-30T10:00:00Z" = .error .valueError ∧ dateTimeParse c%"2024Z" = .error .indexError := by decide

/-- C34.  A text that is not a date raises `ValueError`, an element without text `TypeError`. -/
theorem C34_errors (it : Item) (er : PyErr) (h : dateToPython (some it) = .error er) :
    (∀ s, it = .str s → er = .valueError) ∧ (∀ n : Node, it = .elem n → (n.text ≠ none → er = .valueError) ∧ (n.text = none → er = .typeError)) := by
  have key : ∀ s, (strptime fmtDate s).map some = .error er → er = .valueError := by
    intro s hs
    unfold strptime at hs
    split at hs
    · split_ifs at hs
      · simp [Except.map] at hs
      · simpa [Except.map] using hs.symm
    · simpa [Except.map] using hs.symm
  constructor
  · rintro s rfl
    exact key s h
  · rintro n rfl
    cases hn : n.text with
    | none =>
      simp only [dateToPython, hn, Except.error.injEq] at h
      exact ⟨fun h => absurd rfl h, fun _ => h.symm⟩
    | some s =>
      simp only [dateToPython, hn] at h
      exact ⟨fun _ => key s h, fun h => by cases h⟩

example : dateToPython (some (.str c%"2023-02-29")) = .error .valueError := by decide

/-- Counterexamples to more: text of less than six characters raises IndexError (not ValueError, and not `None`), and `None` cannot be written. -/
theorem C33_counterexample_short_text (normalize : Bool) : dateTimeToPython normalize (some (.str c%"2024")) = .error .indexError ∧
    dateTimeToPython normalize (some (.str [])) = .error .indexError ∧ dateTimeToXml none = .error .attributeError := ⟨by cases normalize <;> decide, by cases normalize <;> decide, rfl⟩

/-- A date without time loses its day: `2024-01-15` is taken for `2024` with the offset `-01-15`, which then cannot be parsed. -/
theorem C33_counterexample_date_only : stripTz c%"2024-01-15" = .ok c%"2024" ∧ dateTimeToPython false (some (.str c%"2024-01-15")) = .error .valueError := by decide

/-! ### C34 -/

/-- C34.  Writing a date from the year 1000 on and reading it back gives the same date. -/
theorem C34_date_round_trip [PyUnicode] (eng : Engine) (heng : EngineOk eng) (ctx : Ctx) (xp : Str) (e : Expr) (p : List Step)
    (hf : SimpleField ctx xp e p) (hso : stringOk p = true) (d : DateTime) (hd : RealDateTime d) (hdate : d.isDate = true) (hy : 1000 ≤ d.year)
    (a : Node.Addr) (s n : Node) (hs : s.get a = some n) (hw : Writable p n) :
    ∃ s', writeAs (dateToXml (some d)) eng ctx xp e (.elem a) s = (.ok (), s') ∧
      readAs dateToPython eng ctx xp e (.elem a) s' = (.ok (some d), s') := by
  replace hd := (valid_iff d).mpr hd
  obtain ⟨s', it, h1, h2, h3⟩ := write_then_item (conv := dateToPython) heng hf hso (strftime_xmlOk hd) hs hw
  refine ⟨s', h1, ?_⟩
  rw [h2]
  rcases h3 with ⟨-, rfl⟩ | ⟨-, m, rfl, hm, hc⟩
  · simp only [dateToPython, strptime_strftime hd hdate hy]; rfl
  · have := text_of_strVal hc (by rw [hm]; exact (strftime_shape hd).2)
    simp only [dateToPython, this, hm, strptime_strftime hd hdate hy]; rfl

/-- The hypotheses can be met. -/
example : ∃ s', writeAs (dateToXml (some ⟨1066, 10, 14, 0, 0, 0, 0⟩)) refEngine sampleCtx c%"m:a/@id" (ast c%"m:a/@id") (.elem []) sampleDoc = (.ok (), s') ∧
    readAs dateToPython refEngine sampleCtx c%"m:a/@id" (ast c%"m:a/@id") (.elem []) s' = (.ok (some ⟨1066, 10, 14, 0, 0, 0, 0⟩), s') :=
  C34_date_round_trip refEngine refEngine_ok _ _ _ [.child ⟨some c%"http://m", c%"a"⟩ [], .attr ⟨none, c%"id"⟩]
    { parse := by decide, path := by rfl, canonical := by decide, ok := by decide } (by decide) _ ((valid_iff _).mp (by decide)) (by decide) (by decide) _ _ sampleDoc rfl (by trivial)

/-- Counterexample before the year 1000: what is written cannot be read. -/
theorem C34_counterexample_year_999 : (⟨999, 1, 1, 0, 0, 0, 0⟩ : DateTime).valid = true ∧
    dateToXml (some ⟨999, 1, 1, 0, 0, 0, 0⟩) = .ok (some c%"999-01-01") ∧ dateToPython (some (.str c%"999-01-01")) = .error .valueError := by decide

/-- Every date before the year 1000 is affected. -/
theorem C34_counterexample_early_years (d : DateTime) (hd : RealDateTime d) (hy : d.year < 1000) :
    dateToXml (some d) = .ok (some (strftimeDate d)) ∧ dateToPython (some (.str (strftimeDate d))) = .error .valueError := by
  replace hd := (valid_iff d).mpr hd
  refine ⟨rfl, ?_⟩
  obtain ⟨h1, h2, h3, h4, h5, h6, -⟩ := valid_bounds hd
  obtain ⟨k1, k2, k3, k4⟩ := natStr_spec d.year
  have hl : (natStr d.year).length ≤ 3 := k4 3 (by omega) (by omega)
  have hy : Directive.alts .Y (strftimeDate d) = [] := by
    unfold strftimeDate
    simp only [List.append_assoc, List.cons_append]
    have hm : isDigit '-' = false := by decide
    match hq : natStr d.year, k1, hl with
    | [a], _, _ =>
      generalize pad 2 d.month ++ '-' :: pad 2 d.day = q at *
      match q with
      | [] => simp [Directive.alts]
      | [b] => simp [Directive.alts]
      | b :: c :: r => simp [Directive.alts, hm]
    | [a, b], _, _ =>
      generalize pad 2 d.month ++ '-' :: pad 2 d.day = q at *
      match q with
      | [] => simp [Directive.alts]
      | c :: r => simp [Directive.alts, hm]
    | [a, b, c], _, _ => simp [Directive.alts, hm]
  have : strptime fmtDate (strftimeDate d) = .error .valueError := by
    unfold strptime
    have : matchFormat fmtDate (strftimeDate d) ⟨1900, 1, 1, 0, 0, 0, 0⟩ = [] := by
      show (Directive.alts .Y (strftimeDate d)).flatMap _ = []
      rw [hy]; rfl
    rw [this]
  simp only [dateToPython, this]; rfl

/-! ### C35 -/

/-- Python truth value of a scalar XPath result: the empty string, 0 and false are false. -/
def truthy : XVal → Bool
  | .nodes l => !l.isEmpty
  | .str s => !s.isEmpty
  | .num (.dec _ m _) => decide (m ≠ 0)
  | .num .nan => true
  | .num (.inf _) => true
  | .bool b => b

theorem truthy_num (x : XNum) : truthy (.num x) = numTruthy x := by
  cases x with
  | dec neg m k => cases m <;> simp [truthy, numTruthy]
  | _ => rfl

theorem readAs_scalar [PyUnicode] {α} (conv : Option Item → Except PyErr α) (eng : Engine) (ctx : Ctx) (xp : Str) (e : Expr) (a : Node.Addr) (s : Node)
    {v : XVal} (hv : eng.xpath xp s a ctx = .ok v) :
    readAs conv eng ctx xp e (.elem a) s = (conv ((foundOf v).bind (itemOf s)), s) := by
  have h : findNode eng ctx xp (.elem a) s = (.ok (foundOf v), s) := by
    have : evalXPath eng ctx xp (.elem a) s = (.ok v, s) := by
      show (eng.xpath xp s a ctx, s) = _
      rw [hv]
    unfold findNode
    rw [bind_ok this]; rfl
  unfold readAs managerGet
  rw [bind_ok h]
  simp only [Bool.false_eq_true, and_false, if_false]
  rw [bind_ok (show getDoc s = (.ok s, s) from rfl), ofExcept_eq]

/-- C35.  If the XPath gives a string, number or boolean that is true as a Python value, then an `ItemField` reports it as it is, a `StringField` the
string, an `IntegerField` the number cut to an integer. -/
theorem C35_scalar_results [PyUnicode] (eng : Engine) (ctx : Ctx) (xp : Str) (e : Expr) (a : Node.Addr) (s : Node) (number : Str → XNum) (normalize : Bool) :
    (∀ v, eng.xpath xp s a ctx = .ok (.str v) → v ≠ [] →
      readAs .ok eng ctx xp e (.elem a) s = (.ok (some (.str v)), s) ∧
      readAs (strToPython normalize) eng ctx xp e (.elem a) s = (.ok (some v), s)) ∧
    (∀ neg m k, eng.xpath xp s a ctx = .ok (.num (.dec neg m k)) → m ≠ 0 →
      readAs .ok eng ctx xp e (.elem a) s = (.ok (some (.num (.dec neg m k))), s) ∧
      readAs (intToPython number) eng ctx xp e (.elem a) s = (.ok (some (if neg then -((m / 10 ^ k : Nat) : Int) else ((m / 10 ^ k : Nat) : Int))), s)) ∧
    (eng.xpath xp s a ctx = .ok (.bool true) → readAs .ok eng ctx xp e (.elem a) s = (.ok (some (.bool true)), s)) := by
  refine ⟨fun v hv hne => ?_, fun neg m k hv hm => ?_, fun hv => ?_⟩
  · have hfo : foundOf (.str v) = some (.str v) := by simp [foundOf, hne]
    rw [readAs_scalar _ _ _ _ _ _ _ hv, readAs_scalar _ _ _ _ _ _ _ hv, hfo]
    exact ⟨rfl, rfl⟩
  · have hfo : foundOf (.num (.dec neg m k)) = some (.num (.dec neg m k)) := by simp [foundOf, numTruthy, hm]
    rw [readAs_scalar _ _ _ _ _ _ _ hv, readAs_scalar _ _ _ _ _ _ _ hv, hfo]
    exact ⟨rfl, rfl⟩
  · rw [readAs_scalar _ _ _ _ _ _ _ hv]; rfl

/-- C35.  A count: the integer field reports it exactly. -/
theorem C35_count [PyUnicode] (eng : Engine) (ctx : Ctx) (xp : Str) (e : Expr) (a : Node.Addr) (s : Node) (number : Str → XNum) (n : Nat)
    (hv : eng.xpath xp s a ctx = .ok (.num (.dec false n 0))) (hn : n ≠ 0) :
    readAs (intToPython number) eng ctx xp e (.elem a) s = (.ok (some (n : Int)), s) := by
  have := (C35_scalar_results eng ctx xp e a s number false).2.1 false n 0 hv hn
  rw [this.2]; simp

/-- C35: a scalar that is false as a Python value (empty string, 0, false) is reported as `None`, for every mapper: refutes the unrestricted claim. -/
theorem C35_counterexample_falsy [PyUnicode] {α} (conv : Option Item → Except PyErr α) (eng : Engine) (ctx : Ctx) (xp : Str) (e : Expr) (a : Node.Addr) (s : Node)
    (v : XVal) (hv : eng.xpath xp s a ctx = .ok v) (ht : truthy v = false) : readAs conv eng ctx xp e (.elem a) s = (conv none, s) := by
  rw [readAs_scalar _ _ _ _ _ _ _ hv]
  have : foundOf v = none := by
    cases v with
    | nodes l => cases l with | nil => rfl | cons r l => simp [truthy] at ht
    | str s => simp only [truthy, Bool.not_eq_false', List.isEmpty_iff] at ht; simp [foundOf, ht]
    | num x => rw [truthy_num] at ht; simp [foundOf, ht]
    | bool b => simp only [truthy] at ht; subst ht; rfl
  rw [this]; rfl

/-- C35: a `StringField` over a number raises TypeError. -/
theorem C35_counterexample_string_field_over_number [PyUnicode] (eng : Engine) (ctx : Ctx) (xp : Str) (e : Expr) (a : Node.Addr) (s : Node) (x : XNum)
    (hv : eng.xpath xp s a ctx = .ok (.num x)) (hx : truthy (.num x) = true) (normalize : Bool) :
    readAs (strToPython normalize) eng ctx xp e (.elem a) s = (.error .typeError, s) := by
  rw [truthy_num] at hx
  rw [readAs_scalar _ _ _ _ _ _ _ hv]
  simp [foundOf, hx, itemOf, strToPython]

/-- The hypotheses can be met: an engine may return any scalar. -/
example : ∃ eng : Engine, eng.xpath c%"count(a)" sampleDoc [] sampleCtx = .ok (.num (.dec false 2 0)) ∧
    readAs (intToPython xpathNumber) eng sampleCtx c%"count(a)" (ast c%"count(a)") (.elem []) sampleDoc = (.ok (some 2), sampleDoc) :=
  ⟨⟨fun _ _ _ _ => .ok (.num (.dec false 2 0))⟩, rfl, C35_count _ _ _ _ _ _ _ 2 rfl (by decide)⟩

/-! ### C36 -/

/-- C36.  A string field reads the text of the matched element (all its text, concatenated); with `normalize`, its words with one blank between them. -/
theorem C36_element_text [PyUnicode] (eng : Engine) (heng : EngineOk eng) (ctx : Ctx) (xp : Str) (e : Expr) (p : List Step) (hf : SimpleField ctx xp e p)
    (a : Node.Addr) (s n : Node) (hs : s.get a = some n) (b : Node.Addr) (m : Node) (hx : (Step.matches p n).head? = some (.elem b)) (hm : n.get b = some m) :
    readAs (strToPython false) eng ctx xp e (.elem a) s = (.ok (some m.strVal), s) ∧
    readAs (strToPython true) eng ctx xp e (.elem a) s = (.ok (some (unwords (words m.strVal))), s) := by
  rw [readAs_run heng hf hs, readAs_run heng hf hs, hx]
  simp only [Option.bind_some, seen, hm, Option.map_some, strToPython, Bool.false_eq_true, if_false, if_true, normSpace_eq]
  trivial

/-- C36.  Normalising keeps the words, has no blank at either end nor two blanks in a row (it is the words joined by single blanks), and is idempotent. -/
theorem C36_normalisation (s : Str) : words (normSpace s) = words s ∧ normSpace s = unwords (words s) ∧ normSpace (normSpace s) = normSpace s := by
  refine ⟨words_normSpace s, normSpace_eq s, ?_⟩
  rw [normSpace_eq (normSpace s), words_normSpace, ← normSpace_eq]

/-- C36: normalising is the identity exactly on the texts that are normalised already. -/
theorem C36_fixed_points (s : Str) : normSpace s = s ↔ ∃ t, s = normSpace t :=
  ⟨fun h => ⟨s, h.symm⟩, fun ⟨t, h⟩ => by rw [h, (C36_normalisation t).2.2]⟩

/-- Counterexample: attributes and `text()` are never normalised, although `normalize=True` was asked for. -/
theorem C36_counterexample_attributes [PyUnicode] (eng : Engine) (heng : EngineOk eng) (ctx : Ctx) (xp : Str) (e : Expr) (p : List Step) (hf : SimpleField ctx xp e p)
    (a : Node.Addr) (s n : Node) (hs : s.get a = some n) (x : Ref) (hx : (Step.matches p n).head? = some x) (hne : ∀ b, x ≠ .elem b) (t : Str)
    (ht : refText n x = some t) : readAs (strToPython true) eng ctx xp e (.elem a) s = (.ok (some t), s) := by
  rw [readAs_run heng hf hs, hx]
  cases x with
  | elem b => exact absurd rfl (hne b)
  | attr b q => simp only [Option.bind_some, seen, ht, Option.map_some, strToPython]
  | text b => simp only [Option.bind_some, seen, ht, Option.map_some, strToPython]
  | tail b => simp only [Option.bind_some, seen, ht, Option.map_some, strToPython]

/-- A concrete text. -/
example : normSpace c%"  a\n\t b  " = c%"a b" ∧ words c%"  a\n\t b  " = [c%"a", c%"b"] := by decide

/-! ### the other theorems applied to documents -/

/-- A document with a time that has a zone. -/
def zonedDoc : Node := .mk (.elem ⟨none, c%"r"⟩) [] none [.mk (.elem ⟨none, c%"t"⟩) [] (some c%"2024-02-29T23:59:59-05:00") [] none] none

example : readAs (dateTimeToPython false) refEngine sampleCtx c%"t" (ast c%"t") (.elem []) zonedDoc = (.ok (some ⟨2024, 2, 29, 23, 59, 59, 0⟩), zonedDoc) :=
  C33_time_zone_is_stripped refEngine refEngine_ok sampleCtx c%"t" (ast c%"t") (steps sampleCtx c%"t") ⟨by decide, by rfl, by decide, by decide⟩ _
    ((valid_iff _).mp (by decide)) c%"-05:00" (.inr (.inr ⟨'-', c%"05:00", rfl, .inr rfl, rfl, by decide⟩)) [] _ zonedDoc rfl (.elem [0]) (by decide) (by decide)
example : RealDateTime ⟨2024, 2, 29, 23, 59, 59, 0⟩ := C33_only_valid_datetimes c%"2024-02-29T23:59:59-05:00" _ (by decide +kernel)
example := C36_element_text refEngine refEngine_ok sampleCtx c%"t" (ast c%"t") (steps sampleCtx c%"t") ⟨by decide, by rfl, by decide, by decide⟩ [] _ zonedDoc rfl
  [0] _ (by decide) rfl

end Props
