import Verif.Props.Texts
/-
Property C82: float fields.

Model: `floatToPython`, `floatToXml` in Verif/XmlMap/Floats.lean, `managerGet`, `managerSet` in Verif/XmlMap/Manager.lean.
The functions of Python and libxml2 on floats are parameters, of which only `FloatOk` is assumed.
-/
namespace Props
open XPath Xml Spec Fields

/-- A path of child steps does not end in text. -/
theorem textual_allChild : ∀ {p : List Step}, allChild p = true → textual p = false
  | [], _ => rfl
  | [.child _ _], _ => rfl
  | .child _ _ :: st :: p, h => by
    have := textual_allChild (p := st :: p) h
    simpa [textual] using this
  | .attr _ :: _, h => by simp [allChild] at h
  | .text :: _, h => by simp [allChild] at h

section
variable [PyUnicode] {F : Type} (L : FloatLib F) (eng : Engine) (heng : EngineOk eng) (ctx : Ctx) (xp : Str) (e : Expr) (p : List Step)
  (hf : SimpleField ctx xp e p)

include heng hf in
/-- C82.  A float is written as `str(x)`.  In an attribute or `text()` it reads back; in an element it reads as what XPath's `number()` makes of that text,
so that it reads back exactly if `number()` is exact for it. -/
theorem C82_float_round_trip (hL : FloatOk L) (hso : stringOk p = true) (x : F) (hx : L.plain x) (a : Node.Addr) (s n : Node) (hs : s.get a = some n) (hw : Writable p n) :
    ∃ s', writeAs (floatToXml L (some x)) eng ctx xp e (.elem a) s = (.ok (), s') ∧ HoldsText p a s' (L.repr x) ∧
      readAs (floatToPython L) eng ctx xp e (.elem a) s' = (.ok (some (if textual p then x else L.number (L.repr x))), s') := by
  obtain ⟨s', it, h1, h2, h3⟩ := write_then_item (conv := floatToPython L) heng hf hso (hL.chars x) hs hw
  obtain ⟨s'', k1, k2⟩ := writes heng hf hso (hL.chars x) hs hw
  obtain rfl : s'' = s' := by
    rw [h1] at k1
    injection k1 with _ h
    exact h.symm
  refine ⟨s'', h1, k2, ?_⟩
  rw [h2]
  rcases h3 with ⟨ht, rfl⟩ | ⟨ht, m, rfl, hm, -⟩
  · simp only [floatToPython, hL.round x hx, ht, if_true]
  · simp only [floatToPython, hm, ht, Bool.false_eq_true, if_false]

include heng hf in
/-- C82.  Whatever the document: a float field without match reads `None`; an element reads as a float, which may be NaN; an attribute or text reads as the
float that `float()` finds in it, or `None`.  Nothing raises, and nothing changes. -/
theorem C82_reads (a : Node.Addr) (s n : Node) (hs : s.get a = some n) :
    (Step.matches p n = [] → readAs (floatToPython L) eng ctx xp e (.elem a) s = (.ok none, s)) ∧
    (∀ x t, (Step.matches p n).head? = some x → refText n x = some t →
      readAs (floatToPython L) eng ctx xp e (.elem a) s = (.ok (if textual p then L.ofStr t else some (L.number t)), s)) := by
  rw [readAs_run heng hf hs]
  refine ⟨fun h => by rw [h]; rfl, fun x t hx ht => ?_⟩
  obtain ⟨k1, k2, k3⟩ := matches_kind p _ x (List.mem_of_mem_head? hx)
  rw [hx]
  cases x with
  | elem b =>
    simp only [refText, Option.map_eq_some_iff] at ht
    obtain ⟨m, hm, rfl⟩ := ht
    simp only [Option.bind_some, seen, hm, Option.map_some, floatToPython, textual_allChild (k3 b rfl), Bool.false_eq_true, if_false]
  | attr b q =>
    have : textual p = true := by unfold textual; rw [k1 b q rfl]
    simp only [Option.bind_some, seen, ht, Option.map_some, floatToPython, this, if_true]
  | text b =>
    have : textual p = true := by unfold textual; rw [k2 b (.inl rfl)]
    simp only [Option.bind_some, seen, ht, Option.map_some, floatToPython, this, if_true]
  | tail b =>
    have : textual p = true := by unfold textual; rw [k2 b (.inr rfl)]
    simp only [Option.bind_some, seen, ht, Option.map_some, floatToPython, this, if_true]

/-- Counterexample: a `FloatField` over an XPath that gives a number, such as `count(a)` or `number(a)`, raises TypeError (`IntegerMapper` has a case for it,
`FloatMapper` has none). -/
theorem C82_counterexample_number (a : Node.Addr) (s : Node) (x : XNum) (hv : eng.xpath xp s a ctx = .ok (.num x)) (hx : truthy (.num x) = true) :
    readAs (floatToPython L) eng ctx xp e (.elem a) s = (.error .typeError, s) := by
  rw [truthy_num] at hx
  rw [readAs_scalar _ _ _ _ _ _ _ hv]
  simp [foundOf, hx, itemOf, floatToPython]

end

/-- A library with integers as its floats, for examples. -/
def wholeLib : FloatLib Int := ⟨pyInt, fun s => (pyInt s).getD 0, intStr, fun _ => True⟩

theorem wholeLib_ok [PyUnicode] : FloatOk wholeLib := ⟨fun n _ => pyInt_intStr n, intStr_xmlOk⟩

/-- The hypotheses can be met. -/
example : ∃ s', writeAs (floatToXml wholeLib (some (-120))) refEngine sampleCtx c%"m:a/@id" (ast c%"m:a/@id") (.elem []) sampleDoc = (.ok (), s') ∧
    HoldsText [.child ⟨some c%"http://m", c%"a"⟩ [], .attr ⟨none, c%"id"⟩] [] s' c%"-120" ∧
    readAs (floatToPython wholeLib) refEngine sampleCtx c%"m:a/@id" (ast c%"m:a/@id") (.elem []) s' = (.ok (some (-120)), s') := by
  have := C82_float_round_trip wholeLib refEngine refEngine_ok sampleCtx c%"m:a/@id" (ast c%"m:a/@id") [.child ⟨some c%"http://m", c%"a"⟩ [], .attr ⟨none, c%"id"⟩]
    { parse := by decide, path := by rfl, canonical := by decide, ok := by decide } wholeLib_ok (by decide) (-120) trivial [] sampleDoc sampleDoc rfl (by trivial)
  exact this

/-- A list of floats (C25-C30). -/
example : Covered xpathNumber sampleCtx (ast c%"a") ⟨none, c%"a"⟩ [] (floatKind wholeLib sampleCtx (ast c%"a")) (floatView wholeLib) := .float _ (by decide) wholeLib_ok
example : (floatView wholeLib).storable (some 12) := ⟨12, rfl, trivial, by show (pyInt (intStr 12)).getD 0 = 12; rw [pyInt_intStr]; rfl⟩

/-- C82 applied to the sample document. -/
example := C82_reads wholeLib refEngine refEngine_ok sampleCtx c%"m:a/@id" (ast c%"m:a/@id") (steps sampleCtx c%"m:a/@id") ⟨by decide, by rfl, by decide, by decide⟩ [] sampleDoc sampleDoc rfl

end Props
