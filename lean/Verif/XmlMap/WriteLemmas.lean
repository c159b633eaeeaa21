import Verif.XmlMap.SetLemmas
import Verif.XmlMap.Manager
/-
`SingleNodeManager.set` with a string, on a simple path.
-/
namespace Fields
open Xml XPath Spec

set_option linter.unusedSectionVars false
variable [PyUnicode] {eng : Engine} {ctx : Ctx}

theorem created_attr : ∀ {p : List Step} {q}, pathOk p = true → p.getLast? = some (.attr q) → ∀ n,
    created p n = .attr (target p n).addr q
  | [], q, _, h, _ => by simp at h
  | .attr q' :: r, q, hc, h, n => by
    simp only [pathOk, List.isEmpty_iff] at hc
    subst hc
    simp only [List.getLast?_singleton, Option.some.injEq, Step.attr.injEq] at h
    subst h
    rfl
  | .text :: r, q, hc, h, _ => by
    simp only [pathOk, List.isEmpty_iff] at hc
    subst hc
    simp at h
  | .child q' ps :: r, q, hc, h, n => by
    simp only [pathOk, Bool.and_eq_true] at hc
    cases r with
    | nil => simp at h
    | cons s r =>
      rw [List.getLast?_cons_cons] at h
      rw [created, created_attr hc.2 h, target, under_addr]
      rfl

theorem created_elem : ∀ {p : List Step}, pathOk p = true → (∀ q, p.getLast? ≠ some (.attr q)) → ∀ n,
    created p n = .elem (target p n).addr
  | [], _, h, _ => rfl
  | .attr q' :: r, hc, h, n => by
    simp only [pathOk, List.isEmpty_iff] at hc
    subst hc
    simp at h
  | .text :: r, hc, h, _ => rfl
  | .child q' ps :: r, hc, h, n => by
    simp only [pathOk, Bool.and_eq_true] at hc
    have h' : ∀ q, r.getLast? ≠ some (.attr q) := by
      intro q hq
      cases r with
      | nil => simp at hq
      | cons s r => exact h q (by rw [List.getLast?_cons_cons]; exact hq)
    rw [created, created_elem hc.2 h', target, under_addr]
    rfl

theorem newElem_attrOnly {q ps} (h : attrOnly ps = true) : (newElem q ps).children = [] := by
  unfold newElem; rw [buildAll_attrOnly _ _ h]; rfl

/-- The element that gets the string has no children, except that for `text()` it may be an existing one. -/
theorem leaf_children : ∀ (r : List Step) (n : Node), pathOk r = true → stringOk r = true → r ≠ [] → r ≠ [.text] →
    (∀ q, r.getLast? ≠ some (.attr q)) → (leafNode r n).children = []
  | [], _, _, _, h, _, _ => absurd rfl h
  | .attr q :: r, n, hp, _, _, _, h => by
    simp only [pathOk, List.isEmpty_iff] at hp
    subst hp
    simp at h
  | .text :: r, n, hp, _, _, h, _ => by
    simp only [pathOk, List.isEmpty_iff] at hp
    subst hp
    simp at h
  | [.child q ps], n, _, hs, _, _, _ => by
    simp only [stringOk] at hs
    exact newElem_attrOnly hs
  | [.child q ps, .text], n, _, hs, _, _, _ => by
    simp only [stringOk] at hs
    exact newElem_attrOnly hs
  | [.child q ps, .attr _], n, _, hs, _, _, h => by simp at h
  | .child q ps :: .text :: s :: r, n, hp, _, _, _, _ => by simp [pathOk] at hp
  | .child q ps :: .attr _ :: s :: r, n, hp, _, _, _, _ => by simp [pathOk] at hp
  | .child q ps :: .child q' ps' :: r, n, hp, hs, _, _, h => by
    simp only [stringOk] at hs
    rw [leafNode]
    refine leaf_children (.child q' ps' :: r) _ ?_ hs (by simp) (by simp) ?_
    · simp only [pathOk, Bool.and_eq_true] at hp ⊢; exact hp.2
    · intro q hq; exact h q (by rw [List.getLast?_cons_cons]; exact hq)

theorem writeLast_attr {p : List Step} {q} (h : p.getLast? = some (.attr q)) (v) : writeLast p v = Node.setAttr q v := by
  simp [writeLast, h]

theorem writeLast_elem {p : List Step} (h : ∀ q, p.getLast? ≠ some (.attr q)) (v) : writeLast p v = Node.setText (some v) := by
  unfold writeLast
  split
  · rename_i q hq; exact absurd hq (h q)
  · rfl

theorem writeLast_congr {p r : List Step} (h : p.getLast? = r.getLast?) (v) : writeLast p v = writeLast r v := by
  simp [writeLast, h]

theorem setInXml_elem {s : Node} {b : Node.Addr} {m v st} (hv : xmlOk v = true) (hm : s.get b = some m) (hc : m.children = []) :
    setInXml ctx (.ref (.elem b)) (some v) st s = (.ok (), s.modify b (Node.setText (some v))) := by
  simp only [setInXml]
  rw [bind_ok (nodeAt_run hm), if_pos hc, setElemText_run hv]

theorem setInXml_attr {e : Expr} {p : List Step} (he : res ctx e = some (p, none)) {s : Node} {b : Node.Addr} {q v} (hv : xmlOk v = true)
    (hl : p.getLast? = some (.attr q)) :
    setInXml ctx (.ref (.attr b q)) (some v) (findTerminalStep e) s = (.ok (), s.modify b (Node.setAttr q v)) := by
  obtain ⟨ax, t, ht, h1, -⟩ := terminal_of_res e he
  obtain ⟨pfx, nm, rfl, h2, h3, h4⟩ := h1 q hl
  rw [ht]
  have h5 : isTextTest (some (ax, .name pfx nm)) = false := by simp [isTextTest, h3]
  simp only [setInXml, h5, Bool.false_eq_true, if_false, h2, Ref.addr]
  rw [setAttrib_run h4 hv]

theorem setInXml_text {e : Expr} {p : List Step} (he : res ctx e = some (p, none)) {s : Node} {b : Node.Addr} {v} (hv : xmlOk v = true)
    (hl : p.getLast? = some .text) :
    setInXml ctx (.ref (.text b)) (some v) (findTerminalStep e) s = (.ok (), s.modify b (Node.setText (some v))) := by
  obtain ⟨ax, t, ht, -, h1⟩ := terminal_of_res e he
  obtain ⟨lit, rfl⟩ := h1 hl
  rw [ht]
  have h5 : isTextTest (some (ax, .type c%"text" lit)) = true := by simp [isTextTest]
  simp only [setInXml, h5, if_true, Ref.addr]
  rw [setElemText_run hv]

/-- The kind of a match is the kind of the last step. -/
theorem matches_kind : ∀ (p : List Step) (n : Node) (x : Ref), x ∈ Step.matches p n →
    (∀ b q, x = .attr b q → p.getLast? = some (.attr q)) ∧ (∀ b, x = .text b ∨ x = .tail b → p.getLast? = some .text) ∧
    (∀ b, x = .elem b → allChild p = true)
  | [], n, x, h => by simp [Step.matches] at h; subst h; simp [allChild]
  | .attr q :: r, n, x, h => by
    simp only [Step.matches] at h
    split_ifs at h with h1
    · simp only [Bool.and_eq_true, List.isEmpty_iff] at h1
      obtain ⟨rfl, -⟩ := h1
      simp only [List.mem_singleton] at h
      subst h
      simp
    · simp at h
  | .text :: r, n, x, h => by
    simp only [Step.matches] at h
    split_ifs at h with h1
    · simp only [List.isEmpty_iff] at h1
      subst h1
      rcases List.mem_append.mp h with h | h
      · simp at h; subst h; simp
      · simp only [tailRefs, List.mem_flatten, List.mem_mapIdx] at h
        obtain ⟨l, ⟨i, hi, rfl⟩, h⟩ := h
        split_ifs at h <;> simp at h
        subst h; simp
    · simp only [List.isEmpty_iff] at *
      rcases List.mem_append.mp h with h | h
      · simp at h
      · simp only [tailRefs, List.mem_flatten, List.mem_mapIdx] at h
        obtain ⟨l, ⟨i, hi, rfl⟩, h⟩ := h
        split_ifs at h <;> simp at h
        subst h; simp_all
    · simp at h
  | .child q ps :: r, n, x, h => by
    obtain ⟨i, c, -, -, -, y, hy, rfl⟩ := mem_matches_child.mp h
    obtain ⟨h1, h2, h3⟩ := matches_kind r c y hy
    have hl : ∀ st, r.getLast? = some st → (Step.child q ps :: r).getLast? = some st := by
      intro st h
      cases r with
      | nil => simp at h
      | cons s r => rw [List.getLast?_cons_cons]; exact h
    refine ⟨?_, ?_, ?_⟩
    · intro b q' hx
      cases y <;> simp [Ref.under] at hx
      exact hl _ (h1 _ _ (by rw [hx.2]))
    · intro b hx
      cases y <;> simp [Ref.under] at hx
      · exact hl _ (h2 _ (.inl rfl))
      · exact hl _ (h2 _ (.inr rfl))
    · intro b hx
      cases y <;> simp [Ref.under] at hx
      exact h3 _ rfl

theorem allChild_last {p : List Step} (h : allChild p = true) (q) : p.getLast? ≠ some (.attr q) := by
  induction p with
  | nil => simp
  | cons s p ih =>
    cases s with
    | child q' ps =>
      cases p with
      | nil => simp
      | cons s p => rw [List.getLast?_cons_cons]; exact ih h
    | attr => cases h
    | text => cases h

theorem getLast?_of_suffix {p pre r : List Step} (h : p = pre ++ r) (hr : r ≠ []) : p.getLast? = r.getLast? := by
  subst h; exact getLast?_append' _ hr

/-- The element a reference belongs to exists. -/
theorem get_of_match : ∀ (p : List Step) (n : Node) (x : Ref), x ∈ Step.matches p n → (∃ m, n.get x.addr = some m)
  | [], n, x, h => by simp [Step.matches] at h; subst h; exact ⟨n, rfl⟩
  | .attr q :: r, n, x, h => by
    simp only [Step.matches] at h
    split_ifs at h with h1
    · simp only [List.mem_singleton] at h
      subst h
      exact ⟨n, rfl⟩
    · simp at h
  | .text :: r, n, x, h => by
    have key : x ∈ tailRefs n.children → ∃ m, n.get x.addr = some m := by
      intro h
      simp only [tailRefs, List.mem_flatten, List.mem_mapIdx] at h
      obtain ⟨l, ⟨i, hi, rfl⟩, h⟩ := h
      split_ifs at h <;> simp at h
      subst h
      exact ⟨n.children[i], by simp [Ref.addr, Node.get_cons, hi]⟩
    simp only [Step.matches] at h
    split_ifs at h with h1
    · rcases List.mem_append.mp h with h | h
      · simp at h; subst h; exact ⟨n, rfl⟩
      · exact key h
    · rcases List.mem_append.mp h with h | h
      · simp at h
      · exact key h
    · simp at h
  | .child q ps :: r, n, x, h => by
    obtain ⟨i, c, hc, -, -, y, hy, rfl⟩ := mem_matches_child.mp h
    obtain ⟨m, hm⟩ := get_of_match r c y hy
    exact ⟨m, by rw [under_addr]; simp [Node.get_cons, hc, hm]⟩

/-- `SingleNodeManager.set` with a string does what `Spec.write` says. -/
theorem managerSet_str (heng : EngineOk eng) {xp e p} (hp : parse0 xp = .ok e) (hr : res ctx e = some (p, none))
    (hc : e.canonical = true) (hok : pathOk p = true) (hso : stringOk p = true) {v} (hv : xmlOk v = true) {a s n}
    (hs : Node.get a s = some n) (hw : Writable p n) :
    managerSet eng ctx (.ok (some (.str v))) xp e (.elem a) s = (.ok (), s.modify a (write p v)) := by
  unfold managerSet
  rw [bind_ok (ofExcept_run _ _), bind_ok (findNode_path heng hp hr hs)]
  have hne := res_ne_nil e hr
  cases hh : (Step.matches p n).head? with
  | some x =>
    have hmem := List.mem_of_mem_head? hh
    obtain ⟨k1, k2, k3⟩ := matches_kind p n x hmem
    obtain ⟨m, hm⟩ := get_of_match p n x hmem
    have hwr : s.modify a (write p v) = s.modify (a ++ x.addr) (writeLast p v) := by
      rw [Node.modify_append]
      apply Node.modify_congr hs
      unfold write; rw [hh]
    have hgm : Node.get (a ++ x.addr) s = some m := by rw [Node.get_append, hs]; exact hm
    rw [hwr]
    simp only [Option.map_some, setValue]
    unfold Writable at hw
    rw [hh] at hw
    cases x with
    | elem b =>
      rw [writeLast_elem (allChild_last (k3 b rfl))]
      exact setInXml_elem hv hgm (hw m hm)
    | attr b q =>
      rw [writeLast_attr (k1 b q rfl)]
      exact setInXml_attr hr hv (k1 b q rfl)
    | text b =>
      rw [writeLast_elem (by rw [k2 b (.inl rfl)]; simp)]
      exact setInXml_text hr hv (k2 b (.inl rfl))
    | tail b => exact hw.elim
  | none =>
    have hnil : Step.matches p n = [] := List.head?_eq_none_iff.mp hh
    obtain ⟨m, hm⟩ := missing_get hok n hne
    have hcr := createNode_run heng e p hr hok hc a s n hs (.inl hnil) m hm
    simp only [Option.map_none, setValue]
    rw [bind_ok hcr]
    obtain ⟨pre, hpre, hhead, hne'⟩ := missing_spec p n
    have hrne := hne' hne
    have hlast := getLast?_of_suffix hpre hrne
    have hg : Node.get (a ++ (missing p n).1) s = some m := by rw [Node.get_append, hs]; exact hm
    have hrok : pathOk (missing p n).2 = true := by
      have := hok; rw [hpre] at this; exact (pathOk_append this hrne).2.2
    have hwr : s.modify a (write p v) = s.modify (a ++ (missing p n).1) (buildPath (missing p n).2 (writeLast (missing p n).2 v)) := by
      rw [Node.modify_append]
      apply Node.modify_congr hs
      unfold write; rw [hh, writeLast_congr hlast]
    rw [hwr]
    have hget := get_built hg (missing p n).2 id
    have hmod := modify_built hg (missing p n).2 id
    by_cases hattr : ∃ q, (missing p n).2.getLast? = some (.attr q)
    · obtain ⟨q, hq⟩ := hattr
      rw [created_attr hrok hq, writeLast_attr hq]
      rw [show ∀ c, (Ref.attr c q).under (a ++ (missing p n).1) = .attr (a ++ (missing p n).1 ++ c) q from fun _ => rfl]
      rw [setInXml_attr hr hv (hlast.trans hq), hmod]
      rfl
    · have hattr' : ∀ q, (missing p n).2.getLast? ≠ some (.attr q) := fun q h => hattr ⟨q, h⟩
      rw [created_elem hrok hattr', writeLast_elem hattr']
      rw [show ∀ c, (Ref.elem c).under (a ++ (missing p n).1) = .elem (a ++ (missing p n).1 ++ c) from fun _ => rfl]
      have hleaf : (leafNode (missing p n).2 m).children = [] := by
        by_cases ht : (missing p n).2 = [.text]
        · rw [ht]
          unfold Writable at hw
          rw [hh] at hw
          exact hw ht m hm
        · exact leaf_children _ _ hrok (stringOk_suffix hso hpre) hrne ht hattr'
      rw [setInXml_elem hv hget hleaf, hmod]
      rfl
where
  stringOk_suffix : ∀ {p pre r : List Step}, stringOk p = true → p = pre ++ r → stringOk r = true
    | p, [], r, h, he => by subst he; exact h
    | p, s :: pre, r, h, he => by
      subst he
      have : stringOk (pre ++ r) = true := by
        rw [List.cons_append] at h
        unfold stringOk at h
        split at h
        · simp_all
        · simp_all [stringOk]
        · simp_all [stringOk]
        · rename_i heq; injection heq with _ h2; rw [h2]; exact h
      exact stringOk_suffix this rfl

end Fields
