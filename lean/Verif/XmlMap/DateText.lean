import Verif.XmlMap.FormatLemmas
import Verif.XmlMap.CreateLemmas
/-
Elements that hold a date as their text.
-/
namespace Fields
open Xml XPath Spec

theorem isoformat_chars [PyUnicode] {d : DateTime} (h : d.valid = true) :
    xmlOk (isoformat d) = true ∧ (∀ c ∈ isoformat d, xmlBlank c = false) := by
  obtain ⟨-, -, h3⟩ := isoformat_shape h
  have key : ∀ c ∈ isoformat d, xmlChar c = true ∧ xmlBlank c = false := by
    intro c hc
    rcases h3 c hc with h | rfl | rfl | rfl | rfl
    · have hb := digit_bounds h
      constructor
      · simp only [xmlChar, Bool.or_eq_true, Bool.and_eq_true, decide_eq_true_eq]
        refine .inl (.inl (.inl ⟨⟨by omega, ?_⟩, ?_⟩)) <;> (simp; omega)
      · simp only [xmlBlank, Bool.or_eq_false_iff, beq_eq_false_iff_ne]
        refine ⟨⟨⟨?_, ?_⟩, ?_⟩, ?_⟩ <;> rintro rfl <;> revert hb <;> decide
    all_goals decide
  exact ⟨by rw [xmlOk, List.all_eq_true]; exact fun c hc => (key c hc).1, fun c hc => (key c hc).2⟩

theorem strftime_xmlOk [PyUnicode] {d : DateTime} (h : d.valid = true) : xmlOk (strftimeDate d) = true := by
  obtain ⟨h3, -⟩ := strftime_shape h
  rw [xmlOk, List.all_eq_true]
  intro c hc
  rcases h3 c hc with h | rfl
  · have hb := digit_bounds h
    simp only [xmlChar, Bool.or_eq_true, Bool.and_eq_true, decide_eq_true_eq]
    refine .inl (.inl (.inl ⟨⟨by omega, ?_⟩, ?_⟩)) <;> (simp; omega)
  · decide

theorem text_of_strVal {m : Node} (h : m.children = []) (hne : m.strVal ≠ []) : m.text = some m.strVal := by
  cases m with
  | mk t a x c l =>
    simp only [Node.children] at h
    subst h
    cases x with
    | none => simp [Node.strVal, Node.strValL] at hne
    | some x => simp [Node.text, Node.strVal, Node.strValL]

theorem strftimeAny_xmlOk [PyUnicode] {d : DateTime} (hd : d.valid = true) {fmt : Str} {ts : List FTok} (hp : parseFormat fmt = some ts) (hx : xmlOk fmt = true)
    (hy : yearOk ts d.year) : xmlOk (strftimeAny ts d) = true := by
  rw [xmlOk, List.all_eq_true] at hx ⊢
  intro c hc
  rcases strftime_chars hd hy c hc with h | h
  · have hb := digit_bounds h
    simp only [xmlChar, Bool.or_eq_true, Bool.and_eq_true, decide_eq_true_eq]
    refine .inl (.inl (.inl ⟨⟨by omega, ?_⟩, ?_⟩)) <;> (simp; omega)
  · exact hx c ((parseFormat_ok fmt ts hp).2 c h)

/-! ### what is read from an element without children -/

theorem dateTime_elem [PyUnicode] {d : DateTime} (hd : d.valid = true) (normalize : Bool) {m : Node} (hm : m.strVal = isoformat d) :
    dateTimeToPython normalize (some (.elem m)) = .ok (some d) := by
  simp only [dateTimeToPython, hm, normSpace_noSpace (isoformat_chars hd).2, ite_self, dateTimeParse_isoformat hd]; rfl

theorem date_elem [PyUnicode] {d : DateTime} (hd : d.valid = true) (hdate : d.isDate = true) (hy : 1000 ≤ d.year) {m : Node} (hc : m.children = [])
    (hm : m.strVal = strftimeDate d) : dateToPython (some (.elem m)) = .ok (some d) := by
  have := text_of_strVal hc (by rw [hm]; exact (strftime_shape hd).2)
  simp only [dateToPython, this, hm, strptime_strftime hd hdate hy]; rfl

theorem dateTimeFmt_text {ts : List FTok} (hwf : wellFormed ts = true) (hn : (ts.filter FTok.named).Nodup) (hz : zoneSafe ts) {d : DateTime} (hd : d.valid = true)
    (hy : yearOk ts d.year) :
    dateTimeFmtToPython.go ts (strftimeAny ts d) = (if (shown ts d).valid then .ok (shown ts d) else .error .valueError : Except PyErr DateTime).map some := by
  unfold dateTimeFmtToPython.go
  rw [strip_safe hd hy hz]
  simp only
  rw [strptimeAny_strftimeAny hd hwf hy hn]

theorem dateTimeFmt_elem {ts : List FTok} (hwf : wellFormed ts = true) (hn : (ts.filter FTok.named).Nodup) (hz : zoneSafe ts) (normalize : Bool)
    (ht : normalize = true → tidy ts = true) {d : DateTime} (hd : d.valid = true) (hy : yearOk ts d.year) {m : Node} (hm : m.strVal = strftimeAny ts d) :
    dateTimeFmtToPython ts normalize (some (.elem m)) = (if (shown ts d).valid then .ok (shown ts d) else .error .valueError : Except PyErr DateTime).map some := by
  have hgo := dateTimeFmt_text hwf hn hz hd hy
  simp only [dateTimeFmtToPython, hm]
  cases normalize with
  | false => simp only [Bool.false_eq_true, if_false, hgo]
  | true => simp only [if_true, tidy_norm hd hwf hy (ht rfl), hgo]

theorem dateOf_isDate {d : DateTime} (h : d.isDate = true) : d.dateOf = d := by
  cases d
  simp [DateTime.isDate, DateTime.dateOf] at h ⊢
  tauto

theorem dateFmt_text {ts : List FTok} (hwf : wellFormed ts = true) (hn : (ts.filter FTok.named).Nodup) (hY : showsYear ts) (hm : .dir .m ∈ ts) (hdd : .dir .d ∈ ts)
    {d : DateTime} (hd : d.valid = true) (hdate : d.isDate = true) (hy : yearOk ts d.year) : strptimeAny ts (strftimeAny ts d) = .ok d := by
  have hsh : shown ts d = d := by
    unfold shown shownOn
    rw [if_pos hY, if_pos hm, if_pos hdd]
    cases d
    simp_all [DateTime.isDate]
  rw [strptimeAny_strftimeAny hd hwf hy hn, hsh, if_pos hd]

theorem dateFmt_elem {ts : List FTok} (hwf : wellFormed ts = true) (hn : (ts.filter FTok.named).Nodup) (hY : showsYear ts) (hm : .dir .m ∈ ts) (hdd : .dir .d ∈ ts)
    {d : DateTime} (hd : d.valid = true) (hdate : d.isDate = true) (hy : yearOk ts d.year) {m : Node} (hc : m.children = []) (hm' : m.strVal = strftimeAny ts d) :
    dateFmtToPython ts (some (.elem m)) = .ok (some d) := by
  have hne : m.strVal ≠ [] := by
    rw [hm']
    intro h0
    have hmem := List.flatMap_eq_nil_iff.mp h0 _ hdd
    obtain ⟨x, y, hxy, -⟩ := pad2 (n := d.day) (by have := valid_bounds hd; omega)
    simp [FTok.print, hxy] at hmem
  simp only [dateFmtToPython, text_of_strVal hc hne, hm', dateFmt_text hwf hn hY hm hdd hd hdate hy]
  simp [Except.map, dateOf_isDate hdate]

end Fields
