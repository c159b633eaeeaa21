import Verif.Props.FieldSet
import Verif.XmlMap.GraftLemmas
/-
Properties C16 - C19, C22, C24: deleting single-value fields, assigning None, assigning elements.

Model: `managerDelete`, `managerSet` (Verif/XmlMap/Manager.lean).
Specification: Verif/Spec/Delete.lean.
-/
namespace Props
open XPath Xml Spec Fields

/-! ### sample data -/

/-- `<r><a id="1"><b x="y" t="k"><c/></b>tail</a></r>` -/
def nested : Node := .mk (.elem ⟨none, c%"r"⟩) [] none
  [.mk (.elem ⟨none, c%"a"⟩) [(⟨none, c%"id"⟩, c%"1")] none
    [.mk (.elem ⟨none, c%"b"⟩) [(⟨none, c%"x"⟩, c%"y"), (⟨none, c%"t"⟩, c%"k")] none [.mk (.elem ⟨none, c%"c"⟩) [] none [] none] (some c%"tail")] none] none

/-- `a[@id='1']/b[@x='y'][@t=$KIND]/c` is a simple field. -/
theorem nestedField : SimpleField sampleCtx c%"a[@id='1']/b[@x='y'][@t=$KIND]/c" (ast c%"a[@id='1']/b[@x='y'][@t=$KIND]/c")
    [.child ⟨none, c%"a"⟩ [.attr ⟨none, c%"id"⟩ (some (.str c%"1"))],
     .child ⟨none, c%"b"⟩ [.attr ⟨none, c%"x"⟩ (some (.str c%"y")), .attr ⟨none, c%"t"⟩ (some (.str c%"k"))],
     .child ⟨none, c%"c"⟩ []] where
  parse := by decide
  path := by rfl
  canonical := by decide
  ok := by decide

/-- A document of one empty element. -/
def bare : Node := .mk (.elem ⟨none, c%"r"⟩) [] none [] none

/-! ### C16 -/

/-- C16.  Deleting a field removes its first match (an element with its tail, an attribute; `text()` is set to the empty string), and then
only cleans up ancestors on the path: the document outside of the XmlObject's element is as before, and inside it is `removeRef x` of what it
was, with at most one more element `c` removed, an ancestor of (or the element holding) the match. -/
theorem C16_removes_match [PyUnicode] (eng : Engine) (heng : EngineOk eng) (ctx : Ctx) (xp : Str) (e : Expr) (p : List Step)
    (hf : SimpleField ctx xp e p) (hap : attrPreds p = true) (a : Node.Addr) (s n : Node) (hs : s.get a = some n) (hal : Aligned p n)
    (x : Ref) (hx : (Step.matches p n).head? = some x) (hnt : ∀ b, x ≠ .tail b) :
    ∃ n', managerDelete eng ctx xp e (.elem a) s = (.ok (), s.modify a (fun _ => n')) ∧
      (n' = removeRef x n ∨ ∃ c, c ≠ [] ∧ c <+: Ref.holder x ∧ n' = removeAt c (removeRef x n)) := by
  refine ⟨delete p n, ?_, ?_⟩
  · rw [managerDelete_run heng hf.parse hf.path hf.canonical hf.ok hap hs hal (by rw [hx]; intro b h; exact hnt b (by simpa using h))]
    congr 1
    exact Node.modify_congr hs rfl
  · unfold delete
    rw [hx]
    obtain ⟨hlen, hget⟩ := holder_facts (hal x hx) hnt
    rcases cleanup_chain p.dropLast.reverse (Ref.holder x) (removeRef x n) (by simpa using hlen) hget with h | ⟨c, h1, h2, h3, -⟩
    · exact .inl h
    · exact .inr ⟨c, h1, h2, h3⟩

/-- C16.  If the match was the only one (and the field is no `text()` field), the field reads `None` afterwards. -/
theorem C16_then_none [PyUnicode] (eng : Engine) (heng : EngineOk eng) (ctx : Ctx) (xp : Str) (e : Expr) (p : List Step)
    (hf : SimpleField ctx xp e p) (hap : attrPreds p = true) (hl : p.getLast? ≠ some .text) (a : Node.Addr) (s n : Node)
    (hs : s.get a = some n) (hal : Aligned p n) (x : Ref) (hx : Step.matches p n = [x]) :
    ∃ s', managerDelete eng ctx xp e (.elem a) s = (.ok (), s') ∧ readStr eng ctx xp e (.elem a) s' = (.ok none, s') := by
  have hnt : ∀ b, (Step.matches p n).head? ≠ some (.tail b) := by
    intro b h
    exact hl ((matches_kind p n _ (List.mem_of_mem_head? h)).2.1 b (.inr rfl))
  refine ⟨_, managerDelete_run heng hf.parse hf.path hf.canonical hf.ok hap hs hal hnt, ?_⟩
  rw [readStr_run heng hf (n := delete p n) (by rw [Node.get_modify, hs]; rfl),
    delete_nomatch hf.ok hap (ne_nil_of_field hf) hl hx hal]
  rfl

/-- The hypotheses hold for a three-step path with predicates. -/
example : ∃ s', managerDelete refEngine sampleCtx c%"a[@id='1']/b[@x='y'][@t=$KIND]/c" (ast c%"a[@id='1']/b[@x='y'][@t=$KIND]/c") (.elem []) nested = (.ok (), s') ∧
    readStr refEngine sampleCtx c%"a[@id='1']/b[@x='y'][@t=$KIND]/c" (ast c%"a[@id='1']/b[@x='y'][@t=$KIND]/c") (.elem []) s' = (.ok none, s') :=
  C16_then_none refEngine refEngine_ok _ _ _ _ nestedField (by decide) (by simp) _ _ nested rfl
    (by intro x h; cases (Option.some.inj h); rfl) _ rfl

/-- Counterexamples: without the alignment, the wrong element is looked at: in `<r><a/><a><b/></a></r>`, deleting `a/b` removes
nothing, -/
theorem C16_counterexample_not_aligned :
    let doc : Node := bare.withChildren [Node.empty ⟨none, c%"a"⟩, (Node.empty ⟨none, c%"a"⟩).withChildren [Node.empty ⟨none, c%"b"⟩]]
    managerDelete refEngine sampleCtx c%"a/b" (ast c%"a/b") (.elem []) doc = (.ok (), doc) ∧
      (Step.matches (steps sampleCtx c%"a/b") doc).length = 1 := by decide

/-- - in `<r><a/><a c="x"/></r>`, deleting `a/@c` raises `KeyError`, -/
theorem C16_counterexample_key_error :
    let doc : Node := bare.withChildren [Node.empty ⟨none, c%"a"⟩, (Node.empty ⟨none, c%"a"⟩).setAttr ⟨none, c%"c"⟩ c%"x"]
    managerDelete refEngine sampleCtx c%"a/@c" (ast c%"a/@c") (.elem []) doc = (.error .keyError, doc) := by decide

/-- - and a deleted `text()` reads as the empty string, not `None`. -/
theorem C16_counterexample_text :
    let doc : Node := bare.setText (some c%"x")
    let r := managerDelete refEngine sampleCtx c%"text()" (ast c%"text()") (.elem []) doc
    r.1 = .ok () ∧ (readStr refEngine sampleCtx c%"text()" (ast c%"text()") (.elem []) r.2).1 = .ok (some []) := by decide

/-- The tail of a removed element (text of the parent) is lost: `<r><a/>kept?</r>` becomes `<r/>`. -/
theorem C16_counterexample_tail :
    managerDelete refEngine sampleCtx c%"a" (ast c%"a") (.elem []) (bare.withChildren [(Node.empty ⟨none, c%"a"⟩).setTail (some c%"kept?")])
      = (.ok (), bare) := by decide

/-! ### C17 -/

/-- C17, for every engine, XPath and document: if the mapper turns the value into `None`, assigning is deleting. -/
theorem C17_none_is_delete [PyUnicode] (eng : Engine) (ctx : Ctx) (xp : Str) (e : Expr) (node : Ref) (s : Node) :
    managerSet eng ctx (.ok none) xp e node s = managerDelete eng ctx xp e node s := by
  unfold managerSet managerDelete
  rw [bind_ok (ofExcept_run _ s)]

/-- C17.  Deleting (or assigning `None`) where nothing matches changes nothing and raises nothing. -/
theorem C17_absent [PyUnicode] (eng : Engine) (ctx : Ctx) (xp : Str) (e : Expr) (node : Ref) (s : Node)
    (h : findNode eng ctx xp node s = (.ok none, s)) :
    managerDelete eng ctx xp e node s = (.ok (), s) ∧ managerSet eng ctx (.ok none) xp e node s = (.ok (), s) := by
  have : managerDelete eng ctx xp e node s = (.ok (), s) := by
    unfold managerDelete
    rw [bind_ok h]
    rfl
  exact ⟨this, by rw [C17_none_is_delete]; exact this⟩

/-- C17.  Strings, integers, and booleans without false value turn `None` into `None`.  (For a boolean, `False` then is `None`, too.) -/
theorem C17_mappers (t : Str) : strToXml none = .ok none ∧ intToXml none = .ok none ∧ boolToXml t none none = .ok none ∧
    boolToXml t none (some false) = .ok none := ⟨rfl, rfl, rfl, rfl⟩

example : managerDelete refEngine sampleCtx c%"a/b" (ast c%"a/b") (.elem []) bare = (.ok (), bare) :=
  (C17_absent refEngine sampleCtx _ _ _ _ (by rfl)).1

/-- Counterexamples: date fields raise when `None` is assigned, and booleans with a false value write it. -/
theorem C17_counterexample_mappers (t f : Str) : dateTimeToXml none = .error .attributeError ∧ dateToXml none = .error .attributeError ∧
    boolToXml t (some f) none = .ok (some f) := ⟨rfl, rfl, rfl⟩

/-! ### C18 -/

/-- C18.  If a field has no match, all predicates on its path compare an attribute with a value, and the elements already there on its path
are not empty, then writing a string and deleting the field restores the document. -/
theorem C18_set_then_delete [PyUnicode] (eng : Engine) (heng : EngineOk eng) (ctx : Ctx) (xp : Str) (e : Expr) (p : List Step)
    (hf : SimpleField ctx xp e p) (hl : p.getLast? ≠ some .text) (heq : eqPreds p = true) (v : Str) (hv : xmlOk v = true)
    (a : Node.Addr) (s n : Node) (hs : s.get a = some n) (hno : Step.matches p n = []) (hne : NotEmpty p n) :
    ∃ s', writeStr eng ctx v xp e (.elem a) s = (.ok (), s') ∧ managerDelete eng ctx xp e (.elem a) s' = (.ok (), s) := by
  obtain ⟨hap, hso⟩ := eqPreds_attrPreds heq
  obtain ⟨h1, h2, h3⟩ := delete_write hf.ok (ne_nil_of_field hf) hno v hl heq hne
  have hw : Writable p n := by
    unfold Writable
    rw [hno]
    intro hm
    exfalso
    obtain ⟨pre, hpre, -, hnn⟩ := missing_spec p n
    rw [hm] at hpre hnn
    exact hl (by rw [getLast?_of_suffix hpre (by simp)]; rfl)
  refine ⟨_, managerSet_str heng hf.parse hf.path hf.canonical hf.ok hso hv hs hw, ?_⟩
  rw [managerDelete_run heng hf.parse hf.path hf.canonical hf.ok hap (n := write p v n) (by rw [Node.get_modify, hs]; rfl) h2 h3,
    Node.modify_modify]
  congr 1
  exact Node.modify_id hs h1

/-- The hypotheses hold for `a[@id='1']/b[@x='y'][@t=$KIND]/c` where `a[@id='1']` is there with another attribute, and the rest is missing. -/
example : ∃ s', writeStr refEngine sampleCtx c%"v" c%"a[@id='1']/b[@x='y'][@t=$KIND]/c" (ast c%"a[@id='1']/b[@x='y'][@t=$KIND]/c") (.elem [])
      (bare.withChildren [.mk (.elem ⟨none, c%"a"⟩) [(⟨none, c%"id"⟩, c%"1"), (⟨none, c%"z"⟩, c%"1")] none [] none]) = (.ok (), s') ∧
    managerDelete refEngine sampleCtx c%"a[@id='1']/b[@x='y'][@t=$KIND]/c" (ast c%"a[@id='1']/b[@x='y'][@t=$KIND]/c") (.elem []) s'
      = (.ok (), bare.withChildren [.mk (.elem ⟨none, c%"a"⟩) [(⟨none, c%"id"⟩, c%"1"), (⟨none, c%"z"⟩, c%"1")] none [] none]) :=
  C18_set_then_delete refEngine refEngine_ok _ _ _ _ nestedField (by simp) (by decide) _ (by decide) _ _ _ rfl rfl (by
    intro i st b m h1 h2 h3
    match i with
    | 0 => cases (Option.some.inj h1); cases (Option.some.inj h2); cases (Option.some.inj h3); rfl
    | 1 => cases h2
    | 2 => cases h2
    | i + 3 => simp at h1)

/-- Counterexamples: an empty element that was there before is removed, -/
theorem C18_counterexample_empty_parent :
    let doc : Node := bare.withChildren [Node.empty ⟨none, c%"a"⟩]
    let r := writeStr refEngine sampleCtx c%"v" c%"a/@b" (ast c%"a/@b") (.elem []) doc
    r.1 = .ok () ∧ managerDelete refEngine sampleCtx c%"a/@b" (ast c%"a/@b") (.elem []) r.2 = (.ok (), bare) := by decide

/-- - and what was created for a predicate without value stays. -/
theorem C18_counterexample_bare_predicate :
    let r := writeStr refEngine sampleCtx c%"v" c%"a[@x]/b" (ast c%"a[@x]/b") (.elem []) bare
    r.1 = .ok () ∧ managerDelete refEngine sampleCtx c%"a[@x]/b" (ast c%"a[@x]/b") (.elem []) r.2
      = (.ok (), bare.withChildren [(Node.empty ⟨none, c%"a"⟩).setAttr ⟨none, c%"x"⟩ []]) := by decide

/-! ### C19 -/

/-- C19.  Apart from the match itself, deletion removes nothing, or exactly one element `c` on the path; and then (after the match is removed)
everything from `c` down to the element that held the match is a chain of elements: each has no child but the next one, and no attributes but
those that the predicates of its step compare with a value. -/
theorem C19_cleanup [PyUnicode] (eng : Engine) (heng : EngineOk eng) (ctx : Ctx) (xp : Str) (e : Expr) (p : List Step)
    (hf : SimpleField ctx xp e p) (hap : attrPreds p = true) (a : Node.Addr) (s n : Node) (hs : s.get a = some n) (hal : Aligned p n)
    (x : Ref) (hx : (Step.matches p n).head? = some x) (hnt : ∀ b, x ≠ .tail b) :
    ∃ n', managerDelete eng ctx xp e (.elem a) s = (.ok (), s.modify a (fun _ => n')) ∧
      (n' = removeRef x n ∨ ∃ c, c ≠ [] ∧ c <+: Ref.holder x ∧ n' = removeAt c (removeRef x n) ∧
        ∀ d, c <+: d → d <+: Ref.holder x → ∀ m, (removeRef x n).get d = some m →
          m.children.length = (if d = Ref.holder x then 0 else 1) ∧
          ∃ st, p[d.length - 1]? = some st ∧ ∀ at' ∈ m.attrs, at'.1 ∈ eqAttrs st.preds) := by
  refine ⟨delete p n, ?_, ?_⟩
  · rw [managerDelete_run heng hf.parse hf.path hf.canonical hf.ok hap hs hal (by rw [hx]; intro b h; exact hnt b (by simpa using h))]
    congr 1
    exact Node.modify_congr hs rfl
  · unfold delete
    rw [hx]
    obtain ⟨hlen, hget⟩ := holder_facts (hal x hx) hnt
    rcases cleanup_chain p.dropLast.reverse (Ref.holder x) (removeRef x n) (by simpa using hlen) hget with h | ⟨c, h1, h2, h3, h4⟩
    · exact .inl h
    · refine .inr ⟨c, h1, h2, h3, fun d hd hd' m hm => ?_⟩
      obtain ⟨h5, st, h6, h7⟩ := h4 d hd hd' m hm
      refine ⟨h5, st, ?_, h7⟩
      rw [List.reverse_reverse] at h6
      obtain ⟨hi, h6⟩ := List.getElem?_eq_some_iff.mp h6
      rw [List.getElem_dropLast] at h6
      rw [List.getElem?_eq_some_iff]
      exact ⟨by simp at hi; omega, h6⟩

example : managerDelete refEngine sampleCtx c%"a[@id='1']/b[@x='y'][@t=$KIND]/c" (ast c%"a[@id='1']/b[@x='y'][@t=$KIND]/c") (.elem []) nested
    = (.ok (), bare) := by decide

/-- Counterexample to "elements that hold text are kept": text does not count, so deleting `a/@id` in `<r><a id="1">text</a></r>` removes
the text. -/
theorem C19_counterexample_text :
    managerDelete refEngine sampleCtx c%"a/@id" (ast c%"a/@id") (.elem [])
      (bare.withChildren [.mk (.elem ⟨none, c%"a"⟩) [(⟨none, c%"id"⟩, c%"1")] (some c%"text") [] none]) = (.ok (), bare) := by decide

/-! ### C22 -/

/-- Assigning an object whose element is the root of another document (`obj.field = other`). -/
def writeElem [PyUnicode] (eng : Engine) (ctx : Ctx) (v : Node) (xp : Str) (e : Expr) (node : Ref) : M Unit :=
  managerSet eng ctx (.ok (some (.elem (.foreign v)))) xp e node

/-- C22.  Assigning the root `v` of another document to a NodeField: the field's element is created if it is missing, exactly like
`create_<field>()` does; then it keeps its tag and place and gets the attributes, text and children of `v`, and loses its tail; no other
element changes. -/
theorem C22_graft [PyUnicode] (eng : Engine) (heng : EngineOk eng) (ctx : Ctx) (xp : Str) (e : Expr) (p : List Step)
    (hf : SimpleField ctx xp e p) (hcs : childSteps p = true) (v : Node) (hv : (v.attrs.map Prod.fst).Nodup)
    (a : Node.Addr) (s n : Node) (hs : s.get a = some n) :
    ∃ b s₁ m, managerCreate eng ctx xp e (.elem a) s = (.ok (.ref (.elem (a ++ b))), s₁) ∧ s₁.get (a ++ b) = some m ∧
      (Step.matches p n ≠ [] → s₁ = s) ∧
      writeElem eng ctx v xp e (.elem a) s
        = (.ok (), s₁.modify (a ++ b) (fun _ => .mk m.tag v.attrs v.text v.children none)) := by
  have hac := childSteps_allChild hcs
  have hnt : p.getLast? ≠ some .text := by
    intro h
    obtain ⟨p', rfl⟩ := getLast?_split h
    simp [childSteps] at hcs
  obtain ⟨r, s₁, n₁, h1, -, h3, ⟨x, h4, rfl⟩, h5⟩ := C21_create_idempotent eng heng ctx xp e p hf hnt a s n hs
  obtain ⟨b, rfl⟩ := matches_allChild hac (List.mem_of_mem_head? h4)
  obtain ⟨m, hm⟩ := get_of_match _ _ _ (List.mem_of_mem_head? h4)
  have hg : s₁.get (a ++ b) = some m := by rw [Node.get_append, h3]; exact hm
  refine ⟨b, s₁, m, h1, hg, h5, ?_⟩
  have hset : writeElem eng ctx v xp e (.elem a) s = (do
      let f ← managerCreate eng ctx xp e (.elem a)
      setValue ctx f (.elem (.foreign v)) (findTerminalStep e) : M Unit) s := by
    unfold writeElem managerSet managerCreate
    rw [bind_ok (ofExcept_run _ s)]
    obtain ⟨o, ho⟩ := findNode_state (eng := eng) (ctx := ctx) xp (.elem a) s
    cases o with
    | error er => rw [bind_err ho, bind_err (bind_err ho)]
    | ok o =>
      rw [bind_ok ho, bind_assoc', bind_ok ho]
      cases o with
      | some f => rfl
      | none =>
        simp only
        rw [bind_assoc']
        rfl
  rw [hset, bind_ok h1]
  show (edit (a ++ b) (graftOnto v)) s₁ = _
  show (Except.ok (), s₁.modify (a ++ b) (graftOnto v)) = _
  congr 1
  exact Node.modify_congr hg (graftOnto_eq hv m)

/-- C22.  Afterwards the field selects that element first, if `v` has the attributes and children that the predicates of the last step
require. -/
theorem C22_read_back [PyUnicode] (eng : Engine) (heng : EngineOk eng) (ctx : Ctx) (xp : Str) (e : Expr) (p : List Step)
    (hf : SimpleField ctx xp e p) (hcs : childSteps p = true) (v : Node) (hv : (v.attrs.map Prod.fst).Nodup)
    (hsat : ∀ q ps, p.getLast? = some (.child q ps) → satAll ps v = true) (a : Node.Addr) (s n : Node) (hs : s.get a = some n) :
    ∃ s' b m, writeElem eng ctx v xp e (.elem a) s = (.ok (), s') ∧
      findNode eng ctx xp (.elem a) s' = (.ok (some (.ref (.elem b))), s') ∧ s'.get b = some m ∧
      m.attrs = v.attrs ∧ m.text = v.text ∧ m.children = v.children ∧ m.tail = none := by
  have hac := childSteps_allChild hcs
  have hnt : p.getLast? ≠ some .text := by
    intro h
    obtain ⟨p', rfl⟩ := getLast?_split h
    simp [childSteps] at hcs
  obtain ⟨r, s₁, n₁, h1, -, h3, ⟨x, h4, rfl⟩, -⟩ := C21_create_idempotent eng heng ctx xp e p hf hnt a s n hs
  obtain ⟨b, s₁', m, h1', hm, -, h5⟩ := C22_graft eng heng ctx xp e p hf hcs v hv a s n hs
  rw [h1] at h1'
  simp only [Prod.mk.injEq, Except.ok.injEq, Found.ref.injEq] at h1'
  obtain ⟨hx, rfl⟩ := h1'
  obtain ⟨b', rfl⟩ := matches_allChild hac (List.mem_of_mem_head? h4)
  simp only [Ref.under, Ref.elem.injEq, List.append_cancel_left_eq] at hx
  subst hx
  refine ⟨_, a ++ b', .mk m.tag v.attrs v.text v.children none, h5, ?_, by rw [Node.get_modify, hm]; rfl, rfl, rfl, rfl, rfl⟩
  have hm' : n₁.get b' = some m := by rw [Node.get_append, h3] at hm; exact hm
  have hmod : (s₁.modify (a ++ b') (fun _ => Node.mk m.tag v.attrs v.text v.children none)).get a
      = some (n₁.modify b' (fun _ => Node.mk m.tag v.attrs v.text v.children none)) := by
    rw [Node.modify_append, Node.get_modify, h3]; rfl
  rw [findNode_path heng hf.parse hf.path hmod,
    matches_replace hf.ok (List.mem_of_mem_head? h4) hm' rfl (by
      intro q ps hl
      cases v
      rw [show satAll ps _ = _ from satAll_mk ps _ _ _ _ _ _ _]
      exact hsat q ps hl), h4]
  rfl

/-- The hypotheses hold for `a/b[@x]` in an empty document. -/
example : ∃ s' b m, writeElem refEngine sampleCtx (.mk (.elem ⟨none, c%"q"⟩) [(⟨none, c%"x"⟩, c%"1")] (some c%"t") [bare] (some c%"u")) c%"a/b[@x]" (ast c%"a/b[@x]") (.elem []) bare
      = (.ok (), s') ∧
      findNode refEngine sampleCtx c%"a/b[@x]" (.elem []) s' = (.ok (some (.ref (.elem b))), s') ∧ s'.get b = some m ∧
      m.attrs = [(⟨none, c%"x"⟩, c%"1")] ∧ m.text = some c%"t" ∧ m.children = [bare] ∧ m.tail = none :=
  C22_read_back refEngine refEngine_ok sampleCtx _ _ (steps sampleCtx c%"a/b[@x]") ⟨by decide, by rfl, by decide, by decide⟩ (by decide) _ (by decide)
    (by intro q ps h; cases (Option.some.inj h); rfl) _ _ bare rfl

/-- Counterexample to "nothing else changes" and to "reads back": the text after the field's element is lost, and so are the attributes
by which the path found it. -/
theorem C22_counterexample :
    let doc : Node := bare.withChildren [.mk (.elem ⟨none, c%"a"⟩) [(⟨none, c%"x"⟩, c%"1")] none [] (some c%"after")]
    let r := writeElem refEngine sampleCtx bare c%"a[@x='1']" (ast c%"a[@x='1']") (.elem []) doc
    r = (.ok (), bare.withChildren [Node.empty ⟨none, c%"a"⟩]) ∧
      findNode refEngine sampleCtx c%"a[@x='1']" (.elem []) r.2 = (.ok none, r.2) := by decide

/-! ### C24 -/

/-- C24.  `obj.field = obj.field` for a string field: nothing changes if the match is an attribute, a leading text, or an element without
children that has text; and if there is no match. -/
theorem C24_string_self_assign [PyUnicode] (eng : Engine) (heng : EngineOk eng) (ctx : Ctx) (xp : Str) (e : Expr) (p : List Step)
    (hf : SimpleField ctx xp e p) (hso : stringOk p = true) (a : Node.Addr) (s n : Node) (hs : s.get a = some n) (hw : Writable p n)
    (htext : ∀ b m, (Step.matches p n).head? = some (.elem b) → n.get b = some m → m.text ≠ none) (o : Option Str)
    (hr : readStr eng ctx xp e (.elem a) s = (.ok o, s)) (ho : ∀ v, o = some v → xmlOk v = true) :
    managerSet eng ctx (.ok (o.map .str)) xp e (.elem a) s = (.ok (), s) := by
  rw [readStr_run heng hf hs] at hr
  simp only [Prod.mk.injEq, Except.ok.injEq, and_true] at hr
  cases hh : (Step.matches p n).head? with
  | none =>
    rw [hh] at hr
    subst hr
    have hfn := findNode_path heng hf.parse hf.path hs
    rw [hh] at hfn
    exact (C17_absent eng ctx xp e (.elem a) s hfn).2
  | some x =>
    obtain ⟨m, hm⟩ := get_of_match p n x (List.mem_of_mem_head? hh)
    obtain ⟨k1, k2, k3⟩ := matches_kind p n x (List.mem_of_mem_head? hh)
    rw [hh] at hr
    simp only [Option.bind_some] at hr
    have key : ∀ v, o = some v → writeLast p v m = m → managerSet eng ctx (.ok (o.map .str)) xp e (.elem a) s = (.ok (), s) := by
      intro v hv hwl
      subst hv
      rw [show Option.map XValue.str (some v) = some (.str v) from rfl,
        managerSet_str heng hf.parse hf.path hf.canonical hf.ok hso (ho v rfl) hs hw]
      congr 1
      apply Node.modify_id hs
      unfold write
      rw [hh]
      exact Node.modify_id hm hwl
    cases x with
    | elem b =>
      simp only [Ref.addr] at hm
      have hc : m.children = [] := by
        unfold Writable at hw
        rw [hh] at hw
        exact hw m hm
      have ht := htext b m hh hm
      obtain ⟨t, ht'⟩ := Option.ne_none_iff_exists'.mp ht
      simp only [refText, hm, Option.map_some] at hr
      have hv : m.strVal = t := by
        cases m
        simp only [Node.children_mk, Node.text_mk] at hc ht'
        subst hc; subst ht'
        simp [Node.strVal, Node.strValL]
      refine key t (by rw [← hr, hv]) ?_
      rw [writeLast_elem (allChild_last (k3 b rfl))]
      cases m
      simp only [Node.text_mk] at ht'
      subst ht'
      rfl
    | attr b q =>
      simp only [Ref.addr] at hm
      simp only [refText, hm, Option.bind_some] at hr
      have hsome : (m.attr? q).isSome = true := matched_attr (List.mem_of_mem_head? hh) hm
      obtain ⟨v, hv⟩ := Option.isSome_iff_exists.mp hsome
      refine key v (by rw [← hr, hv]) ?_
      rw [writeLast_attr (k1 b q rfl)]
      exact setAttr_same hv
    | text b =>
      simp only [Ref.addr] at hm
      simp only [refText, hm, Option.bind_some] at hr
      have hsome : m.text.isSome = true := matched_text (List.mem_of_mem_head? hh) hm
      obtain ⟨v, hv⟩ := Option.isSome_iff_exists.mp hsome
      refine key v (by rw [← hr, hv]) ?_
      rw [writeLast_elem (fun q h => by rw [k2 b (.inl rfl)] at h; simp at h)]
      cases m
      simp only [Node.text_mk] at hv
      subst hv
      rfl
    | tail b =>
      unfold Writable at hw
      rw [hh] at hw
      exact hw.elim

example : managerSet refEngine sampleCtx (.ok ((some c%"1").map .str)) c%"m:a/@id" (ast c%"m:a/@id") (.elem []) sampleDoc = (.ok (), sampleDoc) :=
  C24_string_self_assign refEngine refEngine_ok sampleCtx _ _ (steps sampleCtx c%"m:a/@id") ⟨by decide, by rfl, by decide, by decide⟩ (by decide) _ _
    sampleDoc rfl (by trivial) (by intro b m h; cases (Option.some.inj h)) _ (by decide) (by intro v h; cases h; decide)

/-- C24.  Assigning an element to itself empties it (`node.clear()` before the value is read), for every document: the element keeps only its
tag. -/
theorem C24_counterexample_element [PyUnicode] (eng : Engine) (ctx : Ctx) (xp : Str) (e : Expr) (node : Ref) (s : Node) (b : Node.Addr)
    (h : findNode eng ctx xp node s = (.ok (some (.ref (.elem b))), s)) :
    managerSet eng ctx (.ok (some (.elem (.own b)))) xp e node s = (.ok (), s.modify b Node.clear) := by
  unfold managerSet
  rw [bind_ok (ofExcept_run _ s), bind_ok h]
  simp only [setValue, graftOwn, if_true]
  rfl

/-- An instance where this loses content; and an empty element gets an empty text. -/
theorem C24_counterexample_concrete :
    managerSet refEngine sampleCtx (.ok (some (.elem (.own [0])))) c%"a" (ast c%"a") (.elem []) nested
      = (.ok (), bare.withChildren [Node.empty ⟨none, c%"a"⟩]) ∧
    managerSet refEngine sampleCtx (.ok ((some []).map .str)) c%"a" (ast c%"a") (.elem []) (bare.withChildren [Node.empty ⟨none, c%"a"⟩])
      = (.ok (), bare.withChildren [(Node.empty ⟨none, c%"a"⟩).setText (some [])]) := by decide

/-! ### further theorems applied to these documents -/

example := C16_removes_match refEngine refEngine_ok _ _ _ _ nestedField (by decide) [] nested nested rfl (by intro x h; cases (Option.some.inj h); rfl) _ rfl (by intro b h; cases h)
example := C19_cleanup refEngine refEngine_ok _ _ _ _ nestedField (by decide) [] nested nested rfl (by intro x h; cases (Option.some.inj h); rfl) _ rfl (by intro b h; cases h)
example := C22_graft refEngine refEngine_ok sampleCtx c%"a/b[@x]" (ast c%"a/b[@x]") (steps sampleCtx c%"a/b[@x]") ⟨by decide, by rfl, by decide, by decide⟩ (by decide)
  (.mk (.elem ⟨none, c%"q"⟩) [(⟨none, c%"x"⟩, c%"1")] (some c%"t") [bare] (some c%"u")) (by decide) [] bare bare rfl

end Props
