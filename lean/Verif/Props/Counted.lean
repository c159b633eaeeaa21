import Verif.Props.ListEnds
/-
Property C133: clearing a list, with any XPath, takes items out one after the other, as many as there were.

Model: `listDeleteAll`, `listTrimAll` (Verif/XmlMap/NodeList.lean).  Specification: `TakenMany`, below, in terms of `Selects`, `Yields` and `TakenOut` (Verif/Props/Taking.lean).
-/
namespace Props
open XPath Xml Spec Fields

section
variable [PyUnicode] {α : Type} [DecidableEq α] (eng : Engine) (ctx : Ctx) (mapper : Item → Except PyErr α) (xp : Str) (b : Node.Addr)

/-- `k` items have been taken out, one after the other: each one was an item of the list at its time, and is removed with its content and the text behind it; `which` says which items these were, by the length of the list and the index. -/
inductive TakenMany (which : Nat → Nat → Prop) : Node → Nat → Node → Prop
  | none {s} : TakenMany which s 0 s
  | more {s s1 s' ms j r v k} : Selects eng ctx xp b s ms → ms[j]? = some r → Yields mapper s r v → which ms.length j → TakenOut s ms j s1 → TakenMany which s1 k s' → TakenMany which s (k + 1) s'

variable {eng ctx mapper xp b}

omit [PyUnicode] [DecidableEq α] in
/-- C133.  Each item taken out makes the document smaller by at least one node. -/
theorem C133_nodes {which : Nat → Nat → Prop} {s s' : Node} {k : Nat} (h : TakenMany eng ctx mapper xp b which s k s') : s'.nodes + k ≤ s.nodes := by
  induction h with
  | none => omega
  | @more s0 s1 s2 ms j r v k hsel hr hy hw ht _ ih =>
    obtain ⟨a, i, h1, rfl⟩ := ht
    rw [h1] at hr
    cases hr
    obtain ⟨it, h2, -⟩ := hy
    have : (s0.get (a ++ [i])).map Item.elem = some it := h2
    obtain ⟨n, hn, -⟩ := Option.map_eq_some_iff.mp this
    have := Node.nodes_removed hn
    omega

theorem clear_go (doc : Node) : ∀ (rs : List Ref) (s : Node), ∃ k, k ≤ rs.length ∧ TakenMany eng ctx mapper xp b (fun _ _ => True) s k (listDeleteAll.go eng ctx mapper xp (.elem b) doc rs s).2 ∧
    ((listDeleteAll.go eng ctx mapper xp (.elem b) doc rs s).1 = .ok () ↔ k = rs.length)
  | [], s => ⟨0, Nat.le_refl _, .none, by simp [listDeleteAll.go]; rfl⟩
  | r :: rs, s => by
    unfold listDeleteAll.go
    cases hm : mapMatch mapper doc r with
    | error er =>
      rw [bind_err (ofExcept_err _ _)]
      exact ⟨0, Nat.zero_le _, .none, by simp⟩
    | ok x =>
      rw [bind_ok (ofExcept_run _ _)]
      rcases C123_remove eng ctx mapper xp b x s with ⟨er, h⟩ | ⟨s1, ms, j, r', h, h1, h2, h3, -, h4⟩
      · rw [bind_err h]
        exact ⟨0, Nat.zero_le _, .none, by simp⟩
      · rw [bind_ok h]
        obtain ⟨k, g1, g2, g3⟩ := clear_go doc rs s1
        exact ⟨k + 1, by simpa using g1, .more h1 h2 h3 trivial h4 g2, by rw [g3]; simp⟩

/-- C133.  `del obj.list`, with any XPath: if it succeeds, as many items have been taken out as the list had, one after the other, and nothing else has happened; if it raises, fewer. -/
theorem C133_clear {s : Node} {ms : List Ref} (hsel : Selects eng ctx xp b s ms) : ∃ k, k ≤ ms.length ∧
    TakenMany eng ctx mapper xp b (fun _ _ => True) s k (listDeleteAll eng ctx mapper xp (.elem b) s).2 ∧ ((listDeleteAll eng ctx mapper xp (.elem b) s).1 = .ok () ↔ k = ms.length) := by
  have := clear_go (eng := eng) (ctx := ctx) (mapper := mapper) (xp := xp) (b := b) s ms s
  unfold listDeleteAll
  rw [bind_ok (matches_of eng ctx xp hsel), bind_ok (show getDoc s = (.ok s, s) from rfl)]
  exact this

/-- C133.  `while len(obj.list) > n: obj.list.pop()`, the loop with which assigning a list ends, with any XPath: each round takes out the item that is last at the time, and nothing else happens; a round in which `pop` raises takes out nothing. -/
theorem C133_trim {n : Nat} {s s' : Node} {r : Except PyErr Unit} {k : Nat} (h : Trims eng ctx mapper xp (.elem b) n s r s' k) :
    ∃ j, TakenMany eng ctx mapper xp b (fun len i => i + 1 = len ∧ n < len) s j s' ∧ (r = .ok () → j = k) := by
  have len : ∀ {t t' : Node} {c : Bool}, tooLong eng ctx mapper xp (.elem b) n t = (.ok c, t') → t' = t ∧ (c = true → ∃ ms, Selects eng ctx xp b t ms ∧ n < ms.length) := by
    intro t t' c h
    obtain ⟨m, t1, h1, h2⟩ := both_ok h
    have hk := looks_len (eng := eng) (ctx := ctx) (mapper := mapper) (xp := xp) (node := .elem b) t
    rw [h1] at hk
    have hk : t1 = t := hk
    subst hk
    have hc : decide (m > n) = c ∧ t1 = t' := ⟨Except.ok.inj (congrArg Prod.fst h2), congrArg Prod.snd h2⟩
    refine ⟨hc.2.symm, fun hct => ?_⟩
    rw [hct] at hc
    obtain ⟨d, t2, f1, f2⟩ := both_ok h1
    obtain ⟨ms, t3, g1, g2⟩ := both_ok f1
    have g1' := looks_matches (eng := eng) (ctx := ctx) (xp := xp) (node := .elem b) t1
    rw [g1] at g1'
    have g1' : t3 = t1 := g1'
    subst g1'
    have g2 : (ofExcept (mapMatches mapper t3 ms)) t3 = (.ok d, t2) := g2
    have hd : mapMatches mapper t3 ms = .ok d := by
      cases hx : mapMatches mapper t3 ms with
      | error er => rw [hx] at g2; cases g2
      | ok y => rw [hx] at g2; cases g2; rfl
    have hm : d.length = m := Except.ok.inj (congrArg Prod.fst f2)
    rcases anyMatches_cases eng ctx xp b t3 with ⟨er, h5⟩ | ⟨ms', h5, h6⟩
    · rw [g1] at h5; cases h5
    · rw [g1] at h5
      cases h5
      have hlen := (mapMatches_shows mapper hd).1
      have := of_decide_eq_true hc.1
      exact ⟨ms, h6, by omega⟩
  have noTest : ∀ {t t' : Node} {er : PyErr}, tooLong eng ctx mapper xp (.elem b) n t = (.error er, t') → t' = t := by
    intro t t' er h
    have := looks_bind (looks_len (eng := eng) (ctx := ctx) (mapper := mapper) (xp := xp) (node := .elem b)) (fun m => looks_pure (decide (m > n))) t
    have h : (listLen eng ctx mapper xp (.elem b) >>= fun m => pure (decide (m > n))) t = (.error er, t') := h
    rw [h] at this
    exact this
  have pop : ∀ {t t' : Node} {c : Except PyErr Unit} {ms : List Ref}, popOne eng ctx mapper xp (.elem b) t = (c, t') → Selects eng ctx xp b t ms → n < ms.length →
      (t' = t ∧ c ≠ .ok ()) ∨ (c = .ok () ∧ ∃ r v j, ms[j]? = some r ∧ Yields mapper t r v ∧ (j + 1 = ms.length ∧ n < ms.length) ∧ TakenOut t ms j t') := by
    intro t t' c ms h hsel hn
    rcases C123_pop eng ctx mapper xp b none t with ⟨er, g⟩ | ⟨v, t1, ms', j, r, g, g1, -, g2, g3, g4, g5⟩
    · unfold popOne at h
      rw [bind_err g] at h
      cases h
      exact .inl ⟨rfl, by simp⟩
    · unfold popOne at h
      rw [bind_ok g] at h
      cases h
      unfold Selects at g1 hsel
      rw [hsel] at g1
      cases g1
      exact .inr ⟨rfl, r, v, j, g3, g4, ⟨g2 rfl, hn⟩, g5⟩
  unfold Trims at h
  induction h with
  | stop ht => exact ⟨0, by rw [(len ht).1]; exact .none, fun _ => rfl⟩
  | testRaises ht => exact ⟨0, by rw [noTest ht]; exact .none, fun h => by cases h⟩
  | bodyRaises ht hb =>
    obtain ⟨h1, h2⟩ := len ht
    obtain ⟨ms, h3, h4⟩ := h2 rfl
    subst h1
    rcases pop hb h3 h4 with ⟨h5, -⟩ | ⟨h5, -⟩
    · exact ⟨0, by rw [h5]; exact .none, fun h => by cases h⟩
    · cases h5
  | again ht hb _ ih =>
    obtain ⟨h1, h2⟩ := len ht
    obtain ⟨ms, h3, h4⟩ := h2 rfl
    subst h1
    obtain ⟨j, g1, g2⟩ := ih
    rcases pop hb h3 h4 with ⟨-, h5⟩ | ⟨-, r, v, i, k1, k2, k3, k4⟩
    · exact absurd rfl h5
    · exact ⟨j + 1, .more h3 k1 k2 k3 k4 g1, fun h => by rw [g2 h]⟩

end

/-- The cases are there: the list `a[1]` has one item, and `del obj.list` succeeds and takes out one … -/
example : (listDeleteAll headEngine sampleCtx readElem c%"a[1]" (.elem []) listDoc).1 = .ok () ∧
    TakenMany headEngine sampleCtx readElem c%"a[1]" [] (fun _ _ => True) listDoc 1 (listDeleteAll headEngine sampleCtx readElem c%"a[1]" (.elem []) listDoc).2 := by
  have hok : (listDeleteAll headEngine sampleCtx readElem c%"a[1]" (.elem []) listDoc).1 = .ok () := rfl
  obtain ⟨k, -, h1, h2⟩ := C133_clear (eng := headEngine) (ctx := sampleCtx) (mapper := readElem) (xp := c%"a[1]") (b := []) (s := listDoc) (ms := [.elem [0]]) rfl
  have hk : k = 1 := h2.mp hok
  exact ⟨hok, hk ▸ h1⟩

/-- … while the loop of an assignment makes three rounds. -/
theorem three_rounds : ∃ s', Trims headEngine sampleCtx readElem c%"a[1]" (.elem []) 0 listDoc (.ok ()) s' 3 :=
  ⟨_, .again rfl rfl (.again rfl rfl (.again rfl rfl (.stop rfl)))⟩

example : ∃ s', TakenMany headEngine sampleCtx readElem c%"a[1]" [] (fun len i => i + 1 = len ∧ 0 < len) listDoc 3 s' := by
  obtain ⟨s', h⟩ := three_rounds
  obtain ⟨j, h1, h2⟩ := C133_trim h
  exact ⟨s', h2 rfl ▸ h1⟩

end Props
