import Verif.XmlMap.WriteLemmas
/-
What a path selects after writing to it.
-/
namespace Fields
open Xml XPath Spec

set_option linter.unusedSectionVars false
variable [PyUnicode]

/-- Selecting a path in two parts. -/
theorem mem_matches_append {p1 p2 : List Step} (h : allChild p1 = true) {n : Node} {x : Ref} :
    x ∈ Step.matches (p1 ++ p2) n ↔ ∃ b m y, .elem b ∈ Step.matches p1 n ∧ n.get b = some m ∧ y ∈ Step.matches p2 m ∧ x = y.under b := by
  induction p1 generalizing n x with
  | nil =>
    constructor
    · intro hx; exact ⟨[], n, x, by simp [Step.matches], rfl, hx, (under_nil x).symm⟩
    · rintro ⟨b, m, y, hb, hm, hy, rfl⟩
      simp only [Step.matches, List.mem_singleton, Ref.elem.injEq] at hb
      subst hb
      simp only [Node.get_nil, Option.some.injEq] at hm
      subst hm
      rw [under_nil]; exact hy
  | cons s p1 ih =>
    cases s with
    | attr => cases h
    | text => cases h
    | child q ps =>
      rw [List.cons_append, mem_matches_child]
      constructor
      · rintro ⟨i, c, hc, hq, hs, y, hy, rfl⟩
        obtain ⟨b, m, z, hb, hm, hz, rfl⟩ := (ih h).mp hy
        refine ⟨i :: b, m, z, mem_matches_child.mpr ⟨i, c, hc, hq, hs, _, hb, rfl⟩, ?_, hz, ?_⟩
        · simp [Node.get_cons, hc, hm]
        · rw [under_under]; rfl
      · rintro ⟨b, m, z, hb, hm, hz, rfl⟩
        obtain ⟨i, c, hc, hq, hs, y, hy, hay⟩ := mem_matches_child.mp hb
        obtain ⟨b', rfl, rfl⟩ := elem_under_iff hay
        refine ⟨i, c, hc, hq, hs, z.under b', (ih h).mpr ⟨b', m, z, hy, ?_, hz, rfl⟩, ?_⟩
        · simpa [Node.get_cons, hc] using hm
        · rw [under_under]; rfl

theorem keeps_of_sat {last : Option Step} {m m' : Node} (htag : m'.tag = m.tag)
    (h : ∀ q ps, last = some (.child q ps) → satAll ps m' = true) : keeps last m m' := by
  cases last with
  | none => trivial
  | some st =>
    cases st with
    | child q ps => exact ⟨htag, h q ps rfl⟩
    | attr => trivial
    | text => trivial

/-- The predicates of the last step before `r` are constructible and do not speak about `r`. -/
theorem last_ok : ∀ {pre r : List Step} {q ps}, pathOk (pre ++ r) = true → pre.getLast? = some (.child q ps) →
    okAll ps = true ∧ nextOk ps r = true
  | [], _, _, _, _, h => by simp at h
  | [s], r, q, ps, hok, h => by
    simp only [List.getLast?_singleton, Option.some.injEq] at h
    subst h
    simp only [List.singleton_append, pathOk, Bool.and_eq_true] at hok
    exact hok.1
  | .child _ _ :: s' :: pre, r, q, ps, hok, h => by
    rw [List.getLast?_cons_cons] at h
    simp only [List.cons_append, pathOk, Bool.and_eq_true] at hok
    exact last_ok (pre := s' :: pre) hok.2 h
  | .attr _ :: s' :: pre, r, q, ps, hok, h => by simp [pathOk] at hok
  | .text :: s' :: pre, r, q, ps, hok, h => by simp [pathOk] at hok

theorem writeLast_lastEdit (p : List Step) (v) : LastEdit p.getLast? (writeLast p v) := by
  by_cases h : ∃ q, p.getLast? = some (.attr q)
  · obtain ⟨q, hq⟩ := h
    rw [writeLast_attr hq, hq]
    refine ⟨by simp, by simp, ?_, ?_⟩
    · intro m q' hne
      rw [Node.attr?_setAttr, if_neg]
      rintro rfl; exact hne rfl
    · intro m q' hs
      rw [Node.attr?_setAttr]; split_ifs <;> simp_all
  · have h' : ∀ q, p.getLast? ≠ some (.attr q) := fun q hq => h ⟨q, hq⟩
    rw [writeLast_elem h']
    refine ⟨by simp, by simp, ?_, ?_⟩
    · intro m q _; simp [Node.attr?]
    · intro m q hs; simpa [Node.attr?] using hs

theorem writeLast_text {p : List Step} (h : p.getLast? = some .text) (v) (m : Node) : (writeLast p v m).text = some v := by
  rw [writeLast_elem (by rw [h]; simp)]; simp

theorem getLast?_split {p : List Step} {st} (h : p.getLast? = some st) : ∃ p', p = p' ++ [st] := by
  obtain ⟨p', rfl⟩ := List.getLast?_eq_some_iff.mp h
  exact ⟨p', rfl⟩

/-- An edit at the end of a match that is no more than what the last step is about keeps the selection. -/
theorem matches_edit_last {p : List Step} (hok : pathOk p = true) {n : Node} {x : Ref} (hx : x ∈ Step.matches p n)
    {k : Node → Node} (hk : LastEdit p.getLast? k) (ht : p.getLast? = some .text → ∀ m, (k m).text.isSome = true)
    (hnt : ∀ b, x ≠ .tail b) :
    Step.matches p (n.modify x.addr k) = Step.matches p n := by
  obtain ⟨k1, k2, k3⟩ := matches_kind p n x hx
  -- the general argument for a split into an element path and a last step
  have key : ∀ (pre r : List Step) (b : Node.Addr), p = pre ++ r → (r = [] ∨ ∃ st, r = [st]) → Ref.elem b ∈ Step.matches pre n →
      (∀ m, n.get b = some m → Step.matches r (k m) = Step.matches r m) →
      Step.matches p (n.modify b k) = Step.matches p n := by
    intro pre r b hp hr hb hsame
    have hok' := hok
    rw [hp] at hok'
    have hprok : pathOk pre = true := by
      rcases hr with rfl | ⟨st, rfl⟩
      · simpa using hok'
      · exact (pathOk_append hok' (by simp)).2.1
    obtain ⟨m, hm, hkm, hsp⟩ := matches_split pre n b hprok hb
    obtain ⟨L, R, -, hLR⟩ := hsp r
    have h1 := hLR id hkm
    rw [Node.modify_id hm rfl] at h1
    have h2 := hLR k ?_
    · rw [hp, h1, h2, hsame m hm]; rfl
    · apply keeps_of_sat (hk.tag m)
      intro q ps hl
      obtain ⟨o1, o2⟩ := last_ok hok' hl
      rw [hl] at hkm
      rw [← hkm.2]
      apply satAll_local' o1
      · intro pr hpr q' hq'
        apply hk.attrs
        intro hlast
        rcases hr with rfl | ⟨st, rfl⟩
        · rw [hp, List.append_nil, hl] at hlast; simp at hlast
        · rw [hp, getLast?_append' _ (by simp)] at hlast
          simp only [List.getLast?_singleton, Option.some.injEq] at hlast
          subst hlast
          simp only [nextOk, List.all_eq_true, bne_iff_ne, ne_eq] at o2
          exact o2 pr hpr hq'
      · intro pr _ q' _; rw [hk.children]
  cases x with
  | elem b => exact key p [] b (by simp) (.inl rfl) hx (fun m _ => by simp [Step.matches])
  | tail b => exact absurd rfl (hnt b)
  | attr b q =>
    have hl := k1 b q rfl
    obtain ⟨p', hp'⟩ := getLast?_split hl
    have hac : allChild p' = true := by rw [hp'] at hok; exact (pathOk_append hok (by simp)).1
    have hx' := hx
    rw [hp'] at hx'
    obtain ⟨b', m, y, hb', hm, hy, hxy⟩ := (mem_matches_append hac).mp hx'
    simp only [Step.matches] at hy
    split_ifs at hy with hcond
    · simp only [List.mem_singleton] at hy
      subst hy
      simp only [Ref.under, List.append_nil, Ref.attr.injEq] at hxy
      obtain ⟨rfl, -⟩ := hxy
      refine key p' [.attr q] b hp' (.inr ⟨_, rfl⟩) hb' ?_
      intro m' hm'
      rw [hm] at hm'
      simp only [Option.some.injEq] at hm'
      subst hm'
      simp only [Bool.and_eq_true] at hcond
      have := hk.keepAttr m q hcond.2
      simp [Step.matches, this, hcond.2]
    · simp at hy
  | text b =>
    have hl := k2 b (.inl rfl)
    obtain ⟨p', hp'⟩ := getLast?_split hl
    have hac : allChild p' = true := by rw [hp'] at hok; exact (pathOk_append hok (by simp)).1
    have hx' := hx
    rw [hp'] at hx'
    obtain ⟨b', m, y, hb', hm, hy, hxy⟩ := (mem_matches_append hac).mp hx'
    have hy' : y = .text [] ∧ m.text.isSome = true := by
      simp only [Step.matches, List.isEmpty_nil, if_true] at hy
      rcases List.mem_append.mp hy with h | h
      · split_ifs at h with ht
        · simp at h; exact ⟨h, ht⟩
        · simp at h
      · exfalso
        simp only [tailRefs, List.mem_flatten, List.mem_mapIdx] at h
        obtain ⟨l, ⟨i, hi, rfl⟩, h⟩ := h
        split_ifs at h <;> simp at h
        subst h
        simp [Ref.under] at hxy
    obtain ⟨rfl, htx⟩ := hy'
    simp only [Ref.under, List.append_nil, Ref.text.injEq] at hxy
    subst hxy
    refine key p' [.text] b hp' (.inr ⟨_, rfl⟩) hb' ?_
    intro m' hm'
    rw [hm] at hm'
    simp only [Option.some.injEq] at hm'
    subst hm'
    simp [Step.matches, ht hl m, htx, hk.children]

theorem strVal_setText {m : Node} (h : m.children = []) (v) : (m.setText (some v)).strVal = v := by
  cases m
  simp only [Node.children_mk] at h
  subst h
  simp [Node.setText, Node.strVal, Node.strValL]

/-- The element under which the missing steps go: its match of the missing steps is empty, and building keeps the
predicates in front. -/
theorem matches_create {p : List Step} (hok : pathOk p = true) (hp : p ≠ []) {n m : Node} (hnm : Step.matches p n = [])
    (hm : n.get (missing p n).1 = some m) {k : Node → Node} (hk : LastEdit (missing p n).2.getLast? k)
    (ht : (missing p n).2.getLast? = some .text → ∀ m, (k m).text.isSome = true) :
    Step.matches (missing p n).2 m = [] ∧
    Step.matches p (n.modify (missing p n).1 (buildPath (missing p n).2 k)) = [(target (missing p n).2 m).under (missing p n).1] := by
  obtain ⟨pre, hpre, hhead, hne'⟩ := missing_spec p n
  have hrne := hne' hp
  generalize hb : (missing p n).1 = b at *
  generalize hr : (missing p n).2 = r at *
  have hok' := hok
  rw [hpre] at hok'
  obtain ⟨hac, hprok, hrok⟩ := pathOk_append hok' hrne
  obtain ⟨m', hm', hkm, hsp⟩ := matches_split pre n b hprok (List.mem_of_mem_head? hhead)
  rw [hm] at hm'
  simp only [Option.some.injEq] at hm'
  subst hm'
  obtain ⟨L, R, hL, hLR⟩ := hsp r
  have hL := hL hhead
  subst hL
  have h1 := hLR id hkm
  rw [Node.modify_id hm rfl, ← hpre, hnm] at h1
  simp only [List.nil_append, id, List.nil_eq_append_iff, List.map_eq_nil_iff] at h1
  obtain ⟨h2, rfl⟩ := h1
  refine ⟨h2, ?_⟩
  have h3 := hLR (buildPath r k) ?_
  · rw [hpre, h3, matches_buildPath r m k hrok hk ht (fun _ => h2)]
    rfl
  · apply keeps_of_sat (buildPath_tag r hk.tag m)
    intro q ps hl
    obtain ⟨o1, o2⟩ := last_ok hok' hl
    rw [satAll_buildPath o1 o2 hrok hk]
    rw [hl] at hkm
    exact hkm.2

/-- After writing a string, the first match of the path is the node written to, and its text is the string.  If there
were matches, they stay; if not, there is exactly one. -/
theorem write_read {p : List Step} (hok : pathOk p = true) (hso : stringOk p = true) (hp : p ≠ []) {n : Node} {v : Str} (hw : Writable p n) :
    ∃ x, (Step.matches p (write p v n)).head? = some x ∧ refText (write p v n) x = some v ∧
      (Step.matches p n ≠ [] → Step.matches p (write p v n) = Step.matches p n) ∧
      (Step.matches p n = [] → Step.matches p (write p v n) = [x]) ∧ (∀ b, x ≠ .tail b) ∧
      (∀ b m, x = .elem b → (write p v n).get b = some m → m.children = []) := by
  cases hh : (Step.matches p n).head? with
  | some x =>
    have hmem := List.mem_of_mem_head? hh
    have hwd : write p v n = n.modify x.addr (writeLast p v) := by unfold write; rw [hh]
    obtain ⟨m, hm⟩ := get_of_match p n x hmem
    obtain ⟨k1, k2, k3⟩ := matches_kind p n x hmem
    unfold Writable at hw
    rw [hh] at hw
    have hnt : ∀ b, x ≠ .tail b := by rintro b rfl; exact hw
    have hmat := matches_edit_last hok hmem (writeLast_lastEdit p v) (fun hl m => by rw [writeLast_text hl]; rfl) hnt
    have hget : (write p v n).get x.addr = some (writeLast p v m) := by rw [hwd, Node.get_modify, hm]; rfl
    refine ⟨x, ?_, ?_, fun _ => by rw [hwd, hmat], fun h0 => by rw [h0] at hh; simp at hh, hnt, ?_⟩
    · rw [hwd, hmat, hh]
    · cases x with
      | elem b =>
        simp only [Ref.addr] at hget
        simp only [refText, hget, Option.map_some, writeLast_elem (allChild_last (k3 b rfl)), Option.some.injEq]
        exact strVal_setText (hw m hm) v
      | attr b q =>
        simp only [Ref.addr] at hget
        simp [refText, hget, writeLast_attr (k1 b q rfl), Node.attr?_setAttr]
      | text b =>
        simp only [Ref.addr] at hget
        simp [refText, hget, writeLast_text (k2 b (.inl rfl))]
      | tail b => exact absurd rfl (hnt b)
    · rintro b m' rfl hm'
      simp only [Ref.addr] at hget hm
      rw [hget] at hm'
      simp only [Option.some.injEq] at hm'
      subst hm'
      rw [(writeLast_lastEdit p v).children]
      exact hw m hm
  | none =>
    have hnil : Step.matches p n = [] := List.head?_eq_none_iff.mp hh
    obtain ⟨m, hm⟩ := missing_get hok n hp
    obtain ⟨pre, hpre, -, hne'⟩ := missing_spec p n
    have hrne := hne' hp
    have hlast := getLast?_of_suffix hpre hrne
    have hwd : write p v n = n.modify (missing p n).1 (buildPath (missing p n).2 (writeLast p v)) := by unfold write; rw [hh]
    have hk : LastEdit (missing p n).2.getLast? (writeLast p v) := by rw [← hlast]; exact writeLast_lastEdit p v
    have ht : (missing p n).2.getLast? = some .text → ∀ m, (writeLast p v m).text.isSome = true := by
      intro h m; rw [writeLast_text (hlast.trans h)]; rfl
    obtain ⟨h1, h2⟩ := matches_create hok hp hnil hm hk ht
    have hrok : pathOk (missing p n).2 = true := by
      have := hok; rw [hpre] at this; exact (pathOk_append this hrne).2.2
    have hget : (write p v n).get ((target (missing p n).2 m).under (missing p n).1).addr
        = some (writeLast p v (leafNode (missing p n).2 m)) := by
      rw [hwd, under_addr]; exact get_built hm _ _
    have hleaf : (∀ q, (missing p n).2.getLast? ≠ some (.attr q)) → (leafNode (missing p n).2 m).children = [] := by
      intro hattr
      by_cases htt : (missing p n).2 = [.text]
      · rw [htt]
        unfold Writable at hw
        rw [hh] at hw
        exact hw htt m hm
      · exact leaf_children _ _ hrok (managerSet_str.stringOk_suffix hso hpre) hrne htt hattr
    have hmem : (target (missing p n).2 m).under (missing p n).1 ∈ Step.matches p (write p v n) := by
      rw [hwd, h2]; simp
    obtain ⟨k1, k2, k3⟩ := matches_kind _ _ _ hmem
    refine ⟨(target (missing p n).2 m).under (missing p n).1, by rw [hwd, h2]; rfl, ?_, fun h => absurd hnil h, fun _ => by rw [hwd, h2], ?_, ?_⟩
    · generalize hx : (target (missing p n).2 m).under (missing p n).1 = x at *
      cases x with
      | elem b =>
        simp only [Ref.addr] at hget
        have hla := allChild_last (k3 b rfl)
        simp only [refText, hget, Option.map_some, writeLast_elem hla, Option.some.injEq]
        exact strVal_setText (hleaf (by rw [← hlast]; exact hla)) v
      | attr b q =>
        simp only [Ref.addr] at hget
        simp [refText, hget, writeLast_attr (k1 b q rfl), Node.attr?_setAttr]
      | text b =>
        simp only [Ref.addr] at hget
        simp [refText, hget, writeLast_text (k2 b (.inl rfl))]
      | tail b => exact absurd hx (target_not_tail _ _ _ _)
    · intro b; exact target_not_tail _ _ _ _
    · intro b m' hx hm'
      rw [hx] at hget k3
      simp only [Ref.addr] at hget
      rw [hget] at hm'
      simp only [Option.some.injEq] at hm'
      subst hm'
      rw [(writeLast_lastEdit p v).children]
      apply hleaf
      rw [← hlast]; exact allChild_last (k3 b rfl)
where
  target_not_tail : ∀ (r : List Step) (m : Node) (a b : Node.Addr), (target r m).under a ≠ .tail b
    | [], m, a, b => by simp [target, Ref.under]
    | .attr q :: r, m, a, b => by simp [target, Ref.under]
    | .text :: r, m, a, b => by simp [target, Ref.under]
    | .child q ps :: r, m, a, b => by
      rw [target, under_under]; exact target_not_tail r _ _ _

end Fields
