import Verif.XmlMap.DeleteFacts
import Verif.XmlMap.Manager
import Verif.Spec.Field
/-
Assigning elements: lemmas.
-/
namespace Fields
open Xml XPath Spec
variable [PyUnicode]

/-- Replacing a matching element by one with the same tag that satisfies the predicates of the last step keeps the selection. -/
theorem matches_replace {p : List Step} (hok : pathOk p = true) {n m : Node} {b : Node.Addr} (hb : Ref.elem b ∈ Step.matches p n)
    (hm : n.get b = some m) {k : Node → Node} (htag : (k m).tag = m.tag)
    (hsat : ∀ q ps, p.getLast? = some (.child q ps) → satAll ps (k m) = true) :
    Step.matches p (n.modify b k) = Step.matches p n := by
  obtain ⟨m', hm', hkm, hsp⟩ := matches_split p n b hok hb
  rw [hm] at hm'
  simp only [Option.some.injEq] at hm'
  subst hm'
  obtain ⟨L, R, -, hLR⟩ := hsp []
  have h1 := hLR id hkm
  rw [Node.modify_id hm rfl] at h1
  have h2 := hLR k (keeps_of_sat htag hsat)
  simp only [List.append_nil] at h1 h2
  rw [h1, h2]
  simp [Step.matches]

theorem setAttrL_fold_append : ∀ (l done : List (QName × Str)), ((done ++ l).map Prod.fst).Nodup →
    l.foldl (fun acc p => Node.setAttrL p.1 p.2 acc) done = done ++ l
  | [], done, _ => by simp
  | (q, v) :: l, done, h => by
    have hq : done.lookup q = none := by
      rw [List.lookup_eq_none_iff]
      intro p hp
      simp only [bne_iff_ne, ne_eq]
      rintro rfl
      simp only [List.map_append, List.map_cons, List.nodup_append, List.mem_map, List.mem_cons, forall_exists_index, and_imp, forall_apply_eq_imp_iff₂] at h
      exact h.2.2 p hp p.1 (.inl rfl) rfl
    rw [List.foldl_cons, setAttrL_absent hq]
    have := setAttrL_fold_append l (done ++ [(q, v)]) (by simpa using h)
    simpa using this

theorem foldl_setAttr_node : ∀ (l : List (QName × Str)) (n : Node),
    l.foldl (fun n p => n.setAttr p.1 p.2) n = n.withAttrs (l.foldl (fun acc p => Node.setAttrL p.1 p.2 acc) n.attrs)
  | [], n => by cases n; rfl
  | p :: l, n => by
    rw [List.foldl_cons, foldl_setAttr_node l, List.foldl_cons]
    cases n; rfl

/-- What an element is after an element was assigned to it. -/
theorem graftOnto_eq {v : Node} (hv : (v.attrs.map Prod.fst).Nodup) (m : Node) :
    graftOnto v m = .mk m.tag v.attrs v.text v.children none := by
  unfold graftOnto
  rw [foldl_setAttr_node, show ((m.clear.setText v.text).withChildren v.children).attrs = [] by cases m; rfl,
    setAttrL_fold_append v.attrs [] (by simpa using hv)]
  cases m; rfl

/-- Predicates do not depend on tag and tail. -/
theorem sat_mk (p : Pred) (t t' l l' a x c) : p.sat (.mk t a x c l) = p.sat (.mk t' a x c l') := by
  cases p with
  | attr q cmp => rfl
  | here cmp => simp [Pred.sat, Node.strVal]
  | child q ps rest => simp [Pred.sat]

theorem satAll_mk : ∀ (ps : List Pred) (t t' l l' a x c), satAll ps (.mk t a x c l) = satAll ps (.mk t' a x c l')
  | [], _, _, _, _, _, _, _ => rfl
  | p :: ps, t, t', l, l', a, x, c => by rw [satAll, satAll, sat_mk p t t' l l', satAll_mk ps t t' l l']

/-- The element that holds the first match exists at the depth of the path before the last step, and stays when the match is removed. -/
theorem holder_facts {p : List Step} {n : Node} {x : Ref} (hal : (Step.matches p.dropLast n).head? = some (.elem (Ref.holder x)))
    (hnt : ∀ b, x ≠ .tail b) :
    p.dropLast.length = (Ref.holder x).length ∧ ((removeRef x n).get (Ref.holder x)).isSome = true := by
  have hmem := List.mem_of_mem_head? hal
  refine ⟨(match_addr_length _ _ _ hmem).symm, ?_⟩
  obtain ⟨m, hm⟩ := get_of_match _ _ _ hmem
  simp only [Ref.addr] at hm
  cases x with
  | elem b =>
    simp only [Ref.holder] at hm
    simp only [Ref.holder, removeRef, removeAt, Node.get_modify, hm, Option.map_some, Option.isSome_some]
  | attr b q =>
    simp only [Ref.holder] at hm
    simp only [Ref.holder, removeRef, Node.get_modify, hm, Option.map_some, Option.isSome_some]
  | text b =>
    simp only [Ref.holder] at hm
    simp only [Ref.holder, removeRef, Node.get_modify, hm, Option.map_some, Option.isSome_some]
  | tail b => exact absurd rfl (hnt b)

omit [PyUnicode] in
theorem attrPreds_stringOk : ∀ {p : List Step}, attrPreds p = true → stringOk p = true
  | [], _ => rfl
  | [.child q ps], h => by simpa [attrPreds, stringOk, Step.preds] using h
  | [.attr q], _ => rfl
  | [.text], _ => rfl
  | .child q ps :: .child q' ps' :: r, h => by
    simp only [attrPreds, List.all_cons, Bool.and_eq_true] at h
    exact attrPreds_stringOk (p := .child q' ps' :: r) (by simp [attrPreds, h])
  | .child q ps :: .attr q' :: r, h => by
    simp only [attrPreds, List.all_cons, Bool.and_eq_true] at h
    exact attrPreds_stringOk (p := .attr q' :: r) (by simp [attrPreds, h])
  | [.child q ps, .text], h => by
    simp only [attrPreds, List.all_cons, Bool.and_eq_true] at h
    exact h.1
  | .child q ps :: .text :: st :: r, h => by
    simp only [attrPreds, List.all_cons, Bool.and_eq_true] at h
    exact attrPreds_stringOk (p := .text :: st :: r) (by simp [attrPreds, h])
  | .attr q :: st :: r, h => by
    simp only [attrPreds, List.all_cons, Bool.and_eq_true] at h
    exact attrPreds_stringOk (p := st :: r) (by simp [attrPreds, h])
  | .text :: st :: r, h => by
    simp only [attrPreds, List.all_cons, Bool.and_eq_true] at h
    exact attrPreds_stringOk (p := st :: r) (by simp [attrPreds, h])

omit [PyUnicode] in
theorem eqPreds_attrPreds {p : List Step} (h : eqPreds p = true) : attrPreds p = true ∧ stringOk p = true := by
  have : attrPreds p = true := by
    simp only [eqPreds, List.all_eq_true] at h
    simp only [attrPreds, List.all_eq_true, attrOnly]
    intro st hst q hq
    have := h st hst q hq
    cases q <;> simp_all [Pred.attrOf]
  exact ⟨this, attrPreds_stringOk this⟩

omit [PyUnicode] in
theorem childSteps_allChild {p : List Step} (h : childSteps p = true) : allChild p = true := by
  induction p with
  | nil => rfl
  | cons st p ih =>
    simp only [childSteps, List.all_cons, Bool.and_eq_true] at h
    cases st with
    | child q ps => exact ih h.2
    | attr => simp at h
    | text => simp at h

omit [PyUnicode] in
theorem setAttrL_same {q : QName} {v : Str} : ∀ {l : List (QName × Str)}, l.lookup q = some v → Node.setAttrL q v l = l
  | [], h => by simp at h
  | (q', v') :: l, h => by
    rw [Node.setAttrL]
    split_ifs with hq
    · subst hq; simp at h; subst h; rfl
    · rw [List.lookup_cons] at h
      have : (q == q') = false := by simp; exact fun h => hq h.symm
      rw [this] at h
      rw [setAttrL_same h]

omit [PyUnicode] in
theorem setAttr_same {q : QName} {v : Str} {m : Node} (h : m.attr? q = some v) : m.setAttr q v = m := by
  unfold Node.setAttr
  rw [setAttrL_same h]
  cases m; rfl

theorem bind_assoc' {α β γ} (m : M α) (f : α → M β) (g : β → M γ) : ((m >>= f) >>= g) = (m >>= fun x => f x >>= g) := by
  funext s
  show M.bind (M.bind m f) g s = M.bind m (fun x => M.bind (f x) g) s
  unfold M.bind
  cases h : m s with
  | mk r s' => cases r <;> rfl

omit [PyUnicode] in
theorem mem_tailRefs {x : Ref} {cs : List Node} (h : x ∈ tailRefs cs) : ∃ b, x = .tail b := by
  simp only [tailRefs, List.mem_flatten, List.mem_mapIdx] at h
  obtain ⟨l, ⟨i, hi, rfl⟩, h⟩ := h
  by_cases ht : cs[i].tail.isSome = true
  · rw [if_pos ht] at h; exact ⟨[i], by simpa using h⟩
  · rw [if_neg ht] at h; simp at h

/-- A matched attribute is there. -/
theorem matched_attr : ∀ {p : List Step} {n : Node} {b q m}, Ref.attr b q ∈ Step.matches p n → n.get b = some m → (m.attr? q).isSome = true
  | [], n, b, q, m, h, _ => by simp [Step.matches] at h
  | .child q' ps :: r, n, b, q, m, h, hm => by
    obtain ⟨i, c, hc, -, -, y, hy, hxy⟩ := mem_matches_child.mp h
    cases y with
    | attr b' q'' =>
      simp only [Ref.under, Ref.attr.injEq] at hxy
      obtain ⟨rfl, rfl⟩ := hxy
      refine matched_attr hy ?_
      simpa [Node.get_cons, hc] using hm
    | elem => simp [Ref.under] at hxy
    | text => simp [Ref.under] at hxy
    | tail => simp [Ref.under] at hxy
  | .attr q' :: r, n, b, q, m, h, hm => by
    simp only [Step.matches] at h
    split_ifs at h with hc
    · simp only [List.mem_singleton, Ref.attr.injEq] at h
      obtain ⟨rfl, rfl⟩ := h
      simp only [Node.get, Option.some.injEq] at hm
      subst hm
      simp only [Bool.and_eq_true] at hc
      exact hc.2
    · simp at h
  | .text :: r, n, b, q, m, h, hm => by
    exfalso
    rw [Step.matches] at h
    by_cases hc : r.isEmpty = true
    · rw [if_pos hc] at h
      rcases List.mem_append.mp h with h | h
      · by_cases ht : n.text.isSome = true
        · rw [if_pos ht] at h; simp at h
        · rw [if_neg ht] at h; simp at h
      · obtain ⟨b, hb⟩ := mem_tailRefs h; cases hb
    · rw [if_neg hc] at h; simp at h

/-- A matched leading text is there. -/
theorem matched_text : ∀ {p : List Step} {n : Node} {b m}, Ref.text b ∈ Step.matches p n → n.get b = some m → m.text.isSome = true
  | [], n, b, m, h, _ => by simp [Step.matches] at h
  | .child q' ps :: r, n, b, m, h, hm => by
    obtain ⟨i, c, hc, -, -, y, hy, hxy⟩ := mem_matches_child.mp h
    cases y with
    | text b' =>
      simp only [Ref.under, Ref.text.injEq] at hxy
      subst hxy
      refine matched_text hy ?_
      simpa [Node.get_cons, hc] using hm
    | elem => simp [Ref.under] at hxy
    | attr => simp [Ref.under] at hxy
    | tail => simp [Ref.under] at hxy
  | .attr q' :: r, n, b, m, h, hm => by
    simp only [Step.matches] at h
    split_ifs at h with hc <;> simp at h
  | .text :: r, n, b, m, h, hm => by
    rw [Step.matches] at h
    by_cases hc : r.isEmpty = true
    · rw [if_pos hc] at h
      rcases List.mem_append.mp h with h | h
      · by_cases ht : n.text.isSome = true
        · rw [if_pos ht] at h
          simp only [List.mem_singleton, Ref.text.injEq] at h
          subst h
          simp only [Node.get, Option.some.injEq] at hm
          subst hm
          exact ht
        · rw [if_neg ht] at h; simp at h
      · obtain ⟨b, hb⟩ := mem_tailRefs h; cases hb
    · rw [if_neg hc] at h; simp at h

end Fields
