import Verif.Props.Bundled
/-
Property C73: constructing an object with keyword arguments.

Model: `build` below (core.py:311-348), `managerSet` (Verif/XmlMap/Manager.lean).
Specification: the table of values given, below.
-/
namespace Props
open XPath Xml Spec Fields Bundled

section
variable {ι : Type} {fs : ι → RField}

/-- A keyword argument for a field: its name and its value. -/
abbrev Kwarg (fs : ι → RField) := (i : ι) × (fs i).V

/-- core.py:335-337: `setattr(self, field, value)` for each keyword argument, in order, on the element at `a`.  Simplification: keywords that are no fields
(which set plain attributes of the Python object) are left out; they do not touch the document. -/
def setKwargs [PyUnicode] (eng : Engine) (ctx : Ctx) (a : Node.Addr) : List (Kwarg fs) → M Unit
  | [] => pure ()
  | k :: ks => do
    writeAs ((fs k.1).toXml k.2) eng ctx (fs k.1).xp (fs k.1).e (.elem a)
    setKwargs eng ctx a ks

/-- core.py:311-348 `XmlObject(**kwargs)`, without a node: `_build_root_element` makes an empty element with the class's name, then the keywords are set. -/
def build [PyUnicode] (eng : Engine) (ctx : Ctx) (root : QName) (ks : List (Kwarg fs)) : Except PyErr Unit × Node :=
  setKwargs eng ctx [] ks (Node.empty root)

/-- The value given for a field, if any. -/
def given [DecidableEq ι] (i : ι) : List (Kwarg fs) → Option (fs i).V
  | [] => none
  | k :: ks => if h : k.1 = i then some (h ▸ k.2) else given i ks

/-- What a field of the new object is expected to read. -/
def expected [DecidableEq ι] (ks : List (Kwarg fs)) (i : ι) : Except PyErr (fs i).V := match given i ks with
  | some v => .ok v
  | none => (fs i).toPython none

/-- The keyword arguments as assignments. -/
def kwOps (ks : List (Kwarg fs)) : List (ROp fs) := ks.map (fun k => ROp.set k.1 k.2)

theorem setKwargs_history [PyUnicode] (eng : Engine) (ctx : Ctx) (a : Node.Addr) : ∀ (ks : List (Kwarg fs)),
    setKwargs eng ctx a ks = runHistory eng ctx a (kwOps ks)
  | [] => rfl
  | k :: ks => by
    simp only [setKwargs, kwOps, List.map_cons, runHistory, setKwargs_history eng ctx a ks]
    rfl

theorem replay_given [DecidableEq ι] (ks : List (Kwarg fs)) (hks : (ks.map (·.1)).Nodup) (r : Rec fs) (i : ι) :
    List.foldl (ROp.replay (fs := fs)) r (kwOps ks) i = match given i ks with
      | some v => .ok v
      | none => r i := by
  induction ks generalizing r with
  | nil => rfl
  | cons k ks ih =>
    rw [List.map_cons, List.nodup_cons] at hks
    show List.foldl (ROp.replay (fs := fs)) _ (kwOps ks) i = _
    rw [ih hks.2]
    by_cases h : k.1 = i
    · have hn : given i ks = none := by
        have : i ∉ ks.map (·.1) := h ▸ hks.1
        clear ih hks
        induction ks with
        | nil => rfl
        | cons k' ks ih' =>
          simp only [List.map_cons, List.mem_cons, not_or] at this
          simp only [given, dif_neg (Ne.symm this.1)]
          exact ih' this.2
      rw [hn]
      obtain ⟨j, v⟩ := k
      simp only at h
      subst h
      simp [given, ROp.replay]
    · simp only [given, dif_neg h]
      cases given i ks with
      | some v => rfl
      | none =>
        simp only [ROp.replay]
        rw [Function.update_of_ne (Ne.symm h)]

/-- C73.  `XmlObject(**kwargs)` for fields as in C69: construction raises nothing; the new object is an element with the class's name; every field given as
a keyword reads the value given, and every other field reads what its mapper makes of a missing node (`None`). -/
theorem C73_constructor [PyUnicode] [DecidableEq ι] (eng : Engine) (heng : EngineOk eng) (ctx : Ctx) (hf : ∀ i, (fs i).Ok ctx)
    (hpart : ∀ i j, i ≠ j → Part (fs i).p (fs j).p) (root : QName) (ks : List (Kwarg fs)) (hks : (ks.map (·.1)).Nodup) (hkeep : ∀ k ∈ ks, (fs k.1).Keeps k.2) :
    ∃ n, build eng ctx root ks = (.ok (), n) ∧ Tidy fs n ∧
      ∀ i, readAs (fs i).toPython eng ctx (fs i).xp (fs i).e (.elem []) n = (expected ks i, n) := by
  have ht := C69_new_element fs ctx hf root
  obtain ⟨n', h1, h2, h3⟩ := C69_record eng heng ctx hf hpart [] (kwOps ks)
    (by intro op hop; obtain ⟨k, hk, rfl⟩ := List.mem_map.mp hop; exact hkeep k hk) (Node.empty root) (Node.empty root) rfl ht
  rw [Node.modify] at h1 h3
  refine ⟨n', by unfold build; rw [setKwargs_history]; exact h1, h2, fun i => ?_⟩
  rw [h3 i, replay_given ks hks]
  congr 1
  unfold expected
  cases given i ks with
  | some v => rfl
  | none =>
    show readRec fs eng ctx [] (Node.empty root) i = _
    unfold readRec
    have hu := uniq_of_single (hf i).good (ht i).1
    rw [read_item heng (hf i) (n := Node.empty root) rfl hu]
    have : hits (fs i).p (Node.empty root) = [] := by
      cases h : (fs i).p with
      | nil => exact absurd h (ne_nil_of_field (hf i).simple)
      | cons st r => cases st <;> simp [hits, Node.attr?]
    rw [this]
    rfl

/-- C73.  The order of the keywords does not matter for what the fields read. -/
theorem C73_order [PyUnicode] [DecidableEq ι] (eng : Engine) (heng : EngineOk eng) (ctx : Ctx) (hf : ∀ i, (fs i).Ok ctx)
    (hpart : ∀ i j, i ≠ j → Part (fs i).p (fs j).p) (root : QName) (ks ks' : List (Kwarg fs)) (hks : (ks.map (·.1)).Nodup) (hperm : ks.Perm ks')
    (hkeep : ∀ k ∈ ks, (fs k.1).Keeps k.2) (i : ι) :
    (readAs (fs i).toPython eng ctx (fs i).xp (fs i).e (.elem []) (build eng ctx root ks).2).1
      = (readAs (fs i).toPython eng ctx (fs i).xp (fs i).e (.elem []) (build eng ctx root ks').2).1 := by
  have hks' : (ks'.map (·.1)).Nodup := (hperm.map _).nodup_iff.mp hks
  obtain ⟨n, h1, -, h3⟩ := C73_constructor eng heng ctx hf hpart root ks hks hkeep
  obtain ⟨n', k1, -, k3⟩ := C73_constructor eng heng ctx hf hpart root ks' hks' (fun k hk => hkeep k (hperm.mem_iff.mpr hk))
  rw [h1, k1, h3 i, k3 i]
  have key : ∀ {l : List (Kwarg fs)}, (l.map (·.1)).Nodup → ∀ {v}, given i l = some v ↔ ⟨i, v⟩ ∈ l := by
    intro l
    induction l with
    | nil => intro _ v; simp [given]
    | cons k l ih =>
      intro hl v
      rw [List.map_cons, List.nodup_cons] at hl
      by_cases h : k.1 = i
      · obtain ⟨j, w⟩ := k
        simp only at h
        subst h
        rw [show given j (⟨j, w⟩ :: l) = some w by simp [given]]
        simp only [List.mem_cons, Option.some.injEq, Sigma.mk.injEq, heq_eq_eq, true_and]
        constructor
        · rintro rfl; exact .inl rfl
        · rintro (h | h)
          · exact h.symm
          · exact absurd (List.mem_map.mpr ⟨_, h, rfl⟩) hl.1
      · simp only [given, dif_neg h, List.mem_cons, ih hl.2]
        constructor
        · exact .inr
        · rintro (h' | h')
          · rw [← h'] at h; exact absurd rfl h
          · exact h'
  have he : given i ks = given i ks' := by
    cases h : given i ks with
    | some v => exact ((key hks').mpr (hperm.mem_iff.mp ((key hks).mp h))).symm
    | none =>
      cases h' : given i ks' with
      | none => rfl
      | some v => rw [(key hks).mpr (hperm.mem_iff.mpr ((key hks').mp h'))] at h; cases h
  show expected ks i = expected ks' i
  unfold expected
  rw [he]

end

/-- C73.  In particular for the bundled classes (C72). -/
theorem C73_bundled [PyUnicode] {ι : Type} [DecidableEq ι] (eng : Engine) (heng : EngineOk eng) (number : Str → XNum) (c : ClassDecl) (hc : c ∈ records)
    (sel : ι → FieldDecl) (hsel : Selection c sel) (root : QName) (ks : List (Kwarg (fun i => fieldOf number c (sel i)))) (hks : (ks.map (·.1)).Nodup)
    (hkeep : ∀ k ∈ ks, (fieldOf number c (sel k.1)).Keeps k.2) :
    ∃ n, build eng (classCtx c) root ks = (.ok (), n) ∧
      ∀ i, readAs (fieldOf number c (sel i)).toPython eng (classCtx c) (fieldOf number c (sel i)).xp (fieldOf number c (sel i)).e (.elem []) n =
        (expected (fs := fun i => fieldOf number c (sel i)) ks i, n) := by
  obtain ⟨h1, h2⟩ := selection_record hc hsel
  obtain ⟨n, k1, -, k2⟩ := C73_constructor (fs := fun i => fieldOf number c (sel i)) eng heng (classCtx c)
    (fun i => recordable_ok number (h1 i) ⟨fun nss h => ⟨nss, h, fun _ _ h => h⟩, fun _ _ h => h⟩)
    (fun i j hij => disjoint_ok number (h2 i j hij)) root ks hks hkeep
  exact ⟨n, k1, k2⟩

/-- `Event(type='fixity', id='E2')`: the keyword values are read back, the other eight fields read `None`. -/
example (number : Str → XNum) : ∃ n, build (fs := fun i : Fin 10 => fieldOf number premis_Event (premis_Event.fields[i]'(by exact i.2))) refEngine
      (classCtx premis_Event) ⟨some c%"info:lc/xmlns/premis-v2", c%"event"⟩ [⟨0, (some c%"fixity" : Option Str)⟩, ⟨2, (some c%"E2" : Option Str)⟩] = (.ok (), n) ∧
    (readAs (fieldOf number premis_Event premis_Event.fields[2]).toPython refEngine (classCtx premis_Event)
      (fieldOf number premis_Event premis_Event.fields[2]).xp (fieldOf number premis_Event premis_Event.fields[2]).e (.elem []) n).1 = .ok (some c%"E2" : Option Str) ∧
    (readAs (fieldOf number premis_Event premis_Event.fields[1]).toPython refEngine (classCtx premis_Event)
      (fieldOf number premis_Event premis_Event.fields[1]).xp (fieldOf number premis_Event premis_Event.fields[1]).e (.elem []) n).1 = .ok (none : Option Str) := by
  obtain ⟨n, h1, h2⟩ := C73_bundled refEngine refEngine_ok number premis_Event (by simp [records]) _ eventSelection
    ⟨some c%"info:lc/xmlns/premis-v2", c%"event"⟩ [⟨0, (some c%"fixity" : Option Str)⟩, ⟨2, (some c%"E2" : Option Str)⟩] (by simp)
    (by
      intro k hk
      simp only [List.mem_cons, List.not_mem_nil, or_false] at hk
      rcases hk with rfl | rfl
      · exact C72_keeps_string number _ false _ _ _ _ (fun v hv => by cases hv; exact ⟨by decide, by simp⟩)
      · exact C72_keeps_string number _ false _ _ _ _ (fun v hv => by cases hv; exact ⟨by decide, by simp⟩))
  exact ⟨n, h1, congrArg Prod.fst (h2 2), congrArg Prod.fst (h2 1)⟩

/-- A keyword value that the mapper refuses raises, when the object is half built. -/
theorem C73_counterexample_bad_value : let e := ast c%"a"
    let fs : Fin 1 → RField := fun _ => ⟨c%"a", e, [.child ⟨none, c%"a"⟩ []], Option Str, fun _ => .error .typeError, strToPython false⟩
    (build (fs := fs) refEngine sampleCtx ⟨none, c%"r"⟩ [⟨0, (some c%"x" : Option Str)⟩]).1 = .error .typeError := by decide +kernel

end Props
