import Verif.Props.DateField
import Verif.XmlMap.FormatLemmas
/-
Property C80: date and datetime fields with a format given by the user.

Model: Verif/XmlMap/Formats.lean (`DateTimeMapper`, `DateMapper`, `strptime`, `strftime`), `managerGet`, `managerSet` in Verif/XmlMap/Manager.lean.
Specification: Verif/Spec/Formats.lean, Verif/Spec/Calendar.lean.
-/
namespace Props
open XPath Xml Spec Fields

/-- What a `DateTimeField` with a format reads after a datetime was written. -/
theorem dateTimeFmt_read [PyUnicode] (eng : Engine) (heng : EngineOk eng) (ctx : Ctx) (xp : Str) (e : Expr) (p : List Step)
    (hf : SimpleField ctx xp e p) (hso : stringOk p = true) (fmt : Str) (ts : List FTok) (hp : parseFormat fmt = some ts) (hx : xmlOk fmt = true)
    (hn : (ts.filter FTok.named).Nodup) (hz : zoneSafe ts) (normalize : Bool) (ht : normalize = true → tidy ts = true)
    (d : DateTime) (hd : d.valid = true) (hy : yearOk ts d.year)
    (a : Node.Addr) (s n : Node) (hs : s.get a = some n) (hw : Writable p n) :
    ∃ s', writeAs (dateTimeFmtToXml ts (some d)) eng ctx xp e (.elem a) s = (.ok (), s') ∧
      readAs (dateTimeFmtToPython ts normalize) eng ctx xp e (.elem a) s' =
        ((if (shown ts d).valid then .ok (shown ts d) else .error .valueError : Except PyErr DateTime).map some, s') := by
  have hwf := (parseFormat_ok fmt ts hp).1
  obtain ⟨s', it, h1, h2, h3⟩ := write_then_item (conv := dateTimeFmtToPython ts normalize) heng hf hso (strftimeAny_xmlOk hd hp hx hy) hs hw
  refine ⟨s', h1, ?_⟩
  rw [h2]
  have hgo : dateTimeFmtToPython.go ts (strftimeAny ts d) = (if (shown ts d).valid then .ok (shown ts d) else .error .valueError : Except PyErr DateTime).map some := by
    unfold dateTimeFmtToPython.go
    rw [strip_safe hd hy hz]
    simp only
    rw [strptimeAny_strftimeAny hd hwf hy hn]
  rcases h3 with ⟨-, rfl⟩ | ⟨-, m, rfl, hm, -⟩
  · simp only [dateTimeFmtToPython, hgo]
  · simp only [dateTimeFmtToPython, hm]
    cases normalize with
    | false => simp only [Bool.false_eq_true, if_false, hgo]
    | true => simp only [if_true, tidy_norm hd hwf hy (ht rfl), hgo]

/-- C80.  For every numeric format without repeated directives whose texts the time zone heuristics leaves alone: a datetime that is written reads
back as what the format shows of it. -/
theorem C80_datetime_format [PyUnicode] (eng : Engine) (heng : EngineOk eng) (ctx : Ctx) (xp : Str) (e : Expr) (p : List Step)
    (hf : SimpleField ctx xp e p) (hso : stringOk p = true) (fmt : Str) (ts : List FTok) (hp : parseFormat fmt = some ts) (hx : xmlOk fmt = true)
    (hn : (ts.filter FTok.named).Nodup) (hz : zoneSafe ts) (normalize : Bool) (ht : normalize = true → tidy ts = true)
    (d : DateTime) (hd : RealDateTime d) (hy : yearOk ts d.year) (hsh : RealDateTime (shown ts d))
    (a : Node.Addr) (s n : Node) (hs : s.get a = some n) (hw : Writable p n) :
    ∃ s', writeAs (dateTimeFmtToXml ts (some d)) eng ctx xp e (.elem a) s = (.ok (), s') ∧
      readAs (dateTimeFmtToPython ts normalize) eng ctx xp e (.elem a) s' = (.ok (some (shown ts d)), s') := by
  obtain ⟨s', h1, h2⟩ := dateTimeFmt_read eng heng ctx xp e p hf hso fmt ts hp hx hn hz normalize ht d ((valid_iff d).mpr hd) hy a s n hs hw
  refine ⟨s', h1, ?_⟩
  rw [h2, if_pos ((valid_iff _).mpr hsh)]
  rfl

/-- C80.  If what the format shows is no date (29 February without year), it cannot be read: `ValueError`. -/
theorem C80_datetime_unreadable [PyUnicode] (eng : Engine) (heng : EngineOk eng) (ctx : Ctx) (xp : Str) (e : Expr) (p : List Step)
    (hf : SimpleField ctx xp e p) (hso : stringOk p = true) (fmt : Str) (ts : List FTok) (hp : parseFormat fmt = some ts) (hx : xmlOk fmt = true)
    (hn : (ts.filter FTok.named).Nodup) (hz : zoneSafe ts) (normalize : Bool) (ht : normalize = true → tidy ts = true)
    (d : DateTime) (hd : RealDateTime d) (hy : yearOk ts d.year) (hsh : ¬ RealDateTime (shown ts d))
    (a : Node.Addr) (s n : Node) (hs : s.get a = some n) (hw : Writable p n) :
    ∃ s', writeAs (dateTimeFmtToXml ts (some d)) eng ctx xp e (.elem a) s = (.ok (), s') ∧
      readAs (dateTimeFmtToPython ts normalize) eng ctx xp e (.elem a) s' = (.error .valueError, s') := by
  obtain ⟨s', h1, h2⟩ := dateTimeFmt_read eng heng ctx xp e p hf hso fmt ts hp hx hn hz normalize ht d ((valid_iff d).mpr hd) hy a s n hs hw
  refine ⟨s', h1, ?_⟩
  rw [h2, if_neg (by rw [valid_iff]; exact hsh)]
  rfl

/-- C80.  A format that names everything shows everything: the round trip is exact.  (Microseconds may be left out if they are 0.) -/
theorem C80_complete (ts : List FTok) (d : DateTime) (hY : showsYear ts) (hm : .dir .m ∈ ts) (hd : .dir .d ∈ ts) (hH : .dir .H ∈ ts)
    (hM : .dir .M ∈ ts) (hS : .dir .S ∈ ts) (hf : .dir .f ∈ ts ∨ d.micro = 0) : shown ts d = d := by
  unfold shown shownOn
  rw [if_pos hY, if_pos hm, if_pos hd, if_pos hH, if_pos hM, if_pos hS]
  rcases hf with hf | hf
  · rw [if_pos hf]
  · split_ifs <;> (cases d; simp_all)

/-- C80.  `DateField` with a format: a date that is written reads back, if the format names year, month and day.  There is no time zone heuristics here. -/
theorem C80_date_format [PyUnicode] (eng : Engine) (heng : EngineOk eng) (ctx : Ctx) (xp : Str) (e : Expr) (p : List Step)
    (hf : SimpleField ctx xp e p) (hso : stringOk p = true) (fmt : Str) (ts : List FTok) (hp : parseFormat fmt = some ts) (hx : xmlOk fmt = true)
    (hn : (ts.filter FTok.named).Nodup) (hY : showsYear ts) (hm : .dir .m ∈ ts) (hdd : .dir .d ∈ ts)
    (d : DateTime) (hd : RealDateTime d) (hdate : d.isDate = true) (hy : yearOk ts d.year)
    (a : Node.Addr) (s n : Node) (hs : s.get a = some n) (hw : Writable p n) :
    ∃ s', writeAs (dateFmtToXml ts (some d)) eng ctx xp e (.elem a) s = (.ok (), s') ∧
      readAs (dateFmtToPython ts) eng ctx xp e (.elem a) s' = (.ok (some d), s') := by
  replace hd := (valid_iff d).mpr hd
  have hwf := (parseFormat_ok fmt ts hp).1
  simp only [DateTime.isDate, Bool.and_eq_true, beq_iff_eq] at hdate
  have hdo : d.dateOf = d := by cases d; simp_all [DateTime.dateOf]
  have hsh : shown ts d = d := by
    unfold shown shownOn
    rw [if_pos hY, if_pos hm, if_pos hdd]
    cases d
    simp_all
  have hx' := strftimeAny_xmlOk hd hp hx hy
  rw [← hdo] at hx'
  obtain ⟨s', it, h1, h2, h3⟩ := write_then_item (conv := dateFmtToPython ts) heng hf hso hx' hs hw
  refine ⟨s', h1, ?_⟩
  rw [h2]
  rw [hdo] at h3
  have hst : strptimeAny ts (strftimeAny ts d) = .ok d := by rw [strptimeAny_strftimeAny hd hwf hy hn, hsh, if_pos hd]
  rcases h3 with ⟨-, rfl⟩ | ⟨-, m, rfl, hm', hc⟩
  · simp only [dateFmtToPython, hst]
    simp [Except.map, hdo]
  · have hne : m.strVal ≠ [] := by
      rw [hm']
      intro h0
      have := matchPieces_first hd ts hwf hy ⟨1900, 1, 1, 0, 0, 0, 0⟩
      have hmem := List.flatMap_eq_nil_iff.mp h0 _ hdd
      obtain ⟨x, y, hxy, -⟩ := pad2 (n := d.day) (by have := valid_bounds hd; omega)
      simp [FTok.print, hxy] at hmem
    simp only [dateFmtToPython, text_of_strVal hc hne, hm', hst]
    simp [Except.map, hdo]

/-- C80.  Whatever the text, what is read exists. -/
theorem C80_only_real (ts : List FTok) (normalize : Bool) (it : Option Item) (d : DateTime) :
    (dateTimeFmtToPython ts normalize it = .ok (some d) → RealDateTime d) ∧ (dateFmtToPython ts it = .ok (some d) → RealDateTime d) := by
  have key : ∀ s d, strptimeAny ts s = .ok d → RealDateTime d := by
    intro s d h
    rw [← valid_iff]
    unfold strptimeAny at h
    split_ifs at h
    split at h
    · split_ifs at h with hv
      simp only [Except.ok.injEq] at h; subst h; exact hv
    · simp at h
  have hgo : ∀ s, dateTimeFmtToPython.go ts s = .ok (some d) → RealDateTime d := by
    intro s h
    unfold dateTimeFmtToPython.go at h
    split at h
    · simp at h
    · rename_i r _
      cases hs : strptimeAny ts r with
      | error er => rw [hs] at h; simp [Except.map] at h
      | ok d' => rw [hs] at h; simp only [Except.map, Except.ok.injEq, Option.some.injEq] at h; subst h; exact key _ _ hs
  have hdt : ∀ s, (strptimeAny ts s).map (fun d => some d.dateOf) = .ok (some d) → RealDateTime d := by
    intro s h
    cases hs : strptimeAny ts s with
    | error er => rw [hs] at h; simp [Except.map] at h
    | ok d' =>
      rw [hs] at h
      simp only [Except.map, Except.ok.injEq, Option.some.injEq] at h
      subst h
      have := key _ _ hs
      exact ⟨this.1, by simp [DateTime.dateOf], by simp [DateTime.dateOf], by simp [DateTime.dateOf], by simp [DateTime.dateOf]⟩
  constructor
  · intro h
    match it with
    | none => simp [dateTimeFmtToPython] at h
    | some (.str s) => exact hgo _ h
    | some (.elem n) => exact hgo _ h
    | some (.num x) => simp [dateTimeFmtToPython] at h
    | some (.bool b) => simp [dateTimeFmtToPython] at h
  · intro h
    match it with
    | none => simp [dateFmtToPython] at h
    | some (.str s) => exact hdt _ h
    | some (.elem n) =>
      simp only [dateFmtToPython] at h
      split at h
      · exact hdt _ h
      · simp at h
    | some (.num x) => simp [dateFmtToPython] at h
    | some (.bool b) => simp [dateFmtToPython] at h

/-- C80.  With `normalize=True` white space around and between the words of the text does not matter: an element whose text, split into words and joined with single blanks, is what
the format prints for `d` reads as what the format shows of `d`. -/
theorem C80_normalized [PyUnicode] (eng : Engine) (heng : EngineOk eng) (ctx : Ctx) (xp : Str) (e : Expr) (p : List Step) (hf : SimpleField ctx xp e p)
    (fmt : Str) (ts : List FTok) (hp : parseFormat fmt = some ts) (hn : (ts.filter FTok.named).Nodup) (hz : zoneSafe ts)
    (d : DateTime) (hd : RealDateTime d) (hy : yearOk ts d.year) (hsh : RealDateTime (shown ts d))
    (a : Node.Addr) (s n : Node) (hs : s.get a = some n) (b : Node.Addr) (m : Node) (hb : (Step.matches p n).head? = some (.elem b)) (hm : n.get b = some m)
    (htxt : unwords (words m.strVal) = strftimeAny ts d) :
    readAs (dateTimeFmtToPython ts true) eng ctx xp e (.elem a) s = (.ok (some (shown ts d)), s) := by
  have hv := (valid_iff d).mpr hd
  rw [readAs_run heng hf hs, hb]
  simp only [Option.bind_some, seen, hm, Option.map_some, dateTimeFmtToPython, if_true, normSpace_eq, htxt]
  unfold dateTimeFmtToPython.go
  rw [strip_safe hv hy hz]
  simp only
  rw [strptimeAny_strftimeAny hv (parseFormat_ok fmt ts hp).1 hy hn, if_pos ((valid_iff _).mpr hsh)]
  rfl

/-- C80.  On any document: a field with a format reads `None` if there is no match; a `DateField` raises TypeError if the match is an element without text; nothing changes. -/
theorem C80_reads [PyUnicode] (eng : Engine) (heng : EngineOk eng) (ctx : Ctx) (xp : Str) (e : Expr) (p : List Step) (hf : SimpleField ctx xp e p)
    (ts : List FTok) (normalize : Bool) (a : Node.Addr) (s n : Node) (hs : s.get a = some n) :
    (Step.matches p n = [] → readAs (dateTimeFmtToPython ts normalize) eng ctx xp e (.elem a) s = (.ok none, s) ∧
      readAs (dateFmtToPython ts) eng ctx xp e (.elem a) s = (.ok none, s)) ∧
    (∀ b m, (Step.matches p n).head? = some (.elem b) → n.get b = some m → m.text = none →
      readAs (dateFmtToPython ts) eng ctx xp e (.elem a) s = (.error .typeError, s)) ∧
    (readAs (dateTimeFmtToPython ts normalize) eng ctx xp e (.elem a) s).2 = s ∧ (readAs (dateFmtToPython ts) eng ctx xp e (.elem a) s).2 = s := by
  rw [readAs_run heng hf hs, readAs_run heng hf hs]
  refine ⟨fun h => by rw [h]; exact ⟨rfl, rfl⟩, fun b m hb hm ht => ?_, rfl, rfl⟩
  rw [hb]
  simp only [Option.bind_some, seen, hm, Option.map_some, dateFmtToPython, ht]

/-- The format of the documentation, fields.py:997. -/
def docFormat : List FTok := (parseFormat c%"%d-%m-%Y %H:%M:%S").getD []

/-- It meets the hypotheses, with normalisation. -/
example : ∃ s', writeAs (dateTimeFmtToXml docFormat (some ⟨2024, 2, 29, 23, 5, 9, 0⟩)) refEngine sampleCtx c%"m:a/@id" (ast c%"m:a/@id") (.elem []) sampleDoc = (.ok (), s') ∧
    readAs (dateTimeFmtToPython docFormat true) refEngine sampleCtx c%"m:a/@id" (ast c%"m:a/@id") (.elem []) s' = (.ok (some ⟨2024, 2, 29, 23, 5, 9, 0⟩), s') :=
  C80_datetime_format refEngine refEngine_ok _ _ _ [.child ⟨some c%"http://m", c%"a"⟩ [], .attr ⟨none, c%"id"⟩]
    { parse := by decide, path := by rfl, canonical := by decide, ok := by decide } (by decide) c%"%d-%m-%Y %H:%M:%S" docFormat rfl (by decide) (by decide) (by decide) true
    (fun _ => by decide) ⟨2024, 2, 29, 23, 5, 9, 0⟩ ((valid_iff _).mp (by decide)) ⟨fun _ => by decide, fun h => absurd h (by decide)⟩ ((valid_iff _).mp (by decide)) _ _ sampleDoc rfl (by trivial)

/-- `<r><a> 29-02-2024
 23:05:09 </a></r>` reads with normalisation. -/
example : readAs (dateTimeFmtToPython docFormat true) refEngine sampleCtx c%"a" (ast c%"a") (.elem [])
      (.mk (.elem ⟨none, c%"r"⟩) [] none [.mk (.elem ⟨none, c%"a"⟩) [] (some c%" 29-02-2024\n 23:05:09 ") [] none] none) =
    (.ok (some ⟨2024, 2, 29, 23, 5, 9, 0⟩), .mk (.elem ⟨none, c%"r"⟩) [] none [.mk (.elem ⟨none, c%"a"⟩) [] (some c%" 29-02-2024\n 23:05:09 ") [] none] none) :=
  C80_normalized refEngine refEngine_ok _ _ _ [.child ⟨none, c%"a"⟩ []] { parse := by decide, path := by rfl, canonical := by decide, ok := by decide } c%"%d-%m-%Y %H:%M:%S" docFormat rfl
    (by decide) (by decide) ⟨2024, 2, 29, 23, 5, 9, 0⟩ ((valid_iff _).mp (by decide)) ⟨fun _ => by decide, fun h => absurd h (by decide)⟩ ((valid_iff _).mp (by decide)) [] _ _ rfl [0]
    (.mk (.elem ⟨none, c%"a"⟩) [] (some c%" 29-02-2024\n 23:05:09 ") [] none) (by decide) (by decide) (by decide)

/-- Counterexample to the round trip without the condition on time zones: a `DateTimeField` with the format `%Y-%m-%d` (or `%d-%m-%y`) cannot read what it writes: the
month and day are taken for a time zone. -/
theorem C80_counterexample_zone :
    (do let ts ← parseFormat c%"%Y-%m-%d"; some (dateTimeFmtToXml ts (some ⟨2024, 1, 15, 0, 0, 0, 0⟩), dateTimeFmtToPython ts false (some (.str c%"2024-01-15"))))
      = some (.ok (some c%"2024-01-15"), .error .valueError) ∧
    (do let ts ← parseFormat c%"%d-%m-%y"; some (dateTimeFmtToXml ts (some ⟨2024, 1, 15, 0, 0, 0, 0⟩), dateTimeFmtToPython ts false (some (.str c%"15-01-24"))))
      = some (.ok (some c%"15-01-24"), .error .valueError) := by decide

/-- Counterexample: with a short format even a match is not tried: `IndexError`. -/
theorem C80_counterexample_short : (do let ts ← parseFormat c%"%Y"; some (dateTimeFmtToXml ts (some ⟨2024, 1, 1, 0, 0, 0, 0⟩), dateTimeFmtToPython ts false (some (.str c%"2024"))))
      = some (.ok (some c%"2024"), .error .indexError) := by decide

/-- Counterexample: two-digit years outside of 1969-2068 read as another year. -/
theorem C80_counterexample_two_digits : (do let ts ← parseFormat c%"%d.%m.%y %H:%M"; some (dateTimeFmtToXml ts (some ⟨1920, 1, 15, 1, 2, 0, 0⟩), dateTimeFmtToPython ts false (some (.str c%"15.01.20 01:02"))))
      = some (.ok (some c%"15.01.20 01:02"), .ok (some ⟨2020, 1, 15, 1, 2, 0, 0⟩)) := by decide

/-- 29 February in a format without year: the case of `C80_datetime_unreadable` exists. -/
example : ¬ RealDateTime (shown ((parseFormat c%"%d/%m %H:%M").getD []) ⟨2024, 2, 29, 1, 1, 0, 0⟩) := by rw [← valid_iff]; decide

/-- Letters of the format are read in both cases. -/
example : (do let ts ← parseFormat c%"A %d.%m.%Y Q"; some (dateTimeFmtToPython ts false (some (.str c%"a 03.02.2024 q")))) =
    (do let ts ← parseFormat c%"A %d.%m.%Y Q"; some (dateTimeFmtToPython ts false (some (.str c%"A 03.02.2024 Q")))) ∧
    (do let ts ← parseFormat c%"A %d.%m.%Y Q"; some (dateTimeFmtToPython ts false (some (.str c%"a 03.02.2024 q")))) = some (.ok (some ⟨2024, 2, 3, 0, 0, 0, 0⟩)) := by
  decide +kernel

/-- Each of the ten ASCII characters that Python takes for white space is read where the format has a space, no other one up to 'DEL'. -/
example : ((List.range 128).map Char.ofNat).filter (fun c => decide ((do let ts ← parseFormat c%"%Y/%m %d"; some (dateTimeFmtToPython ts false (some (.str (c%"2024/02" ++ c :: c%"03"))))) =
    some (.ok (some ⟨2024, 2, 3, 0, 0, 0, 0⟩)))) = [9, 10, 11, 12, 13, 28, 29, 30, 31, 32].map Char.ofNat := by decide +kernel

/-- A format in which a directive occurs twice can write, but never read: `strptime` raises `re.error`, whatever the text. -/
theorem C80_counterexample_twice (pre mid post : List FTok) (d : Directive) (hd : ∀ c, d ≠ .ch c) (t : Str) : strptimeAny (pre ++ .dir d :: mid ++ .dir d :: post) t = .error .exception := by
  unfold strptimeAny
  have hn : FTok.named (.dir d) = true := by cases d <;> first | rfl | exact absurd rfl (hd _)
  rw [if_pos]
  intro h
  simp only [List.append_assoc, List.cons_append, List.filter_append, List.filter_cons, hn, if_true] at h
  have := (List.nodup_append.1 h).2.1
  rw [List.nodup_cons] at this
  exact this.1 (by simp)

example : (do let ts ← parseFormat c%"%d-%m-%Y (%d)"; some (dateTimeFmtToXml ts (some ⟨2024, 1, 15, 0, 0, 0, 0⟩), dateTimeFmtToPython ts false (some (.str c%"15-01-2024 (15)"))))
    = some (.ok (some c%"15-01-2024 (15)"), .error .exception) := by decide +kernel

/-! ### C80 applied to further formats -/

example := C80_datetime_unreadable refEngine refEngine_ok sampleCtx c%"m:a/@id" (ast c%"m:a/@id") [.child ⟨some c%"http://m", c%"a"⟩ [], .attr ⟨none, c%"id"⟩]
  { parse := by decide, path := by rfl, canonical := by decide, ok := by decide } (by decide) c%"%d/%m %H:%M" _ rfl (by decide) (by decide) (by decide) true
  (fun _ => by decide) ⟨2024, 2, 29, 1, 1, 0, 0⟩ ((valid_iff _).mp (by decide)) ⟨fun h => absurd h (by decide), fun h => absurd h (by decide)⟩ (by rw [← valid_iff]; decide) [] sampleDoc sampleDoc rfl (by trivial)
example := C80_complete docFormat ⟨2024, 2, 29, 23, 5, 9, 0⟩ (by decide) (by decide) (by decide) (by decide) (by decide) (by decide) (.inr rfl)
example := C80_date_format refEngine refEngine_ok sampleCtx c%"m:a/@id" (ast c%"m:a/@id") [.child ⟨some c%"http://m", c%"a"⟩ [], .attr ⟨none, c%"id"⟩]
  { parse := by decide, path := by rfl, canonical := by decide, ok := by decide } (by decide) c%"%d.%m.%Y" _ rfl (by decide) (by decide) (by decide) (by decide) (by decide)
  ⟨2024, 2, 29, 0, 0, 0, 0⟩ ((valid_iff _).mp (by decide)) (by decide) ⟨fun _ => by decide, fun h => absurd h (by decide)⟩ [] sampleDoc sampleDoc rfl (by trivial)

end Props
