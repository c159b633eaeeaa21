import Verif.XmlMap.DeleteLemmas
import Verif.XmlMap.FrameLemmas
/-
Setting and then deleting; exact frame of setting; where nodes are created.
-/
namespace Fields
open Xml XPath Spec

set_option linter.unusedSectionVars false

section
variable [PyUnicode]

/-! ### where nodes are created -/

theorem place_max (p : List Step) (n : Node) : ∀ j, ∃ i, i ≤ j ∧ (place p n j).2 = p.drop i ∧
    (Step.matches (p.take i) n).head? = some (.elem (place p n j).1) ∧
    ∀ i', i < i' → i' ≤ j → ∀ b, (Step.matches (p.take i') n).head? ≠ some (.elem b)
  | 0 => ⟨0, by omega, by simp [place], by simp [place, Step.matches], by intros; omega⟩
  | j + 1 => by
    simp only [place]
    split
    · rename_i b hb; exact ⟨j + 1, by omega, rfl, hb, by intros; omega⟩
    · rename_i hno
      obtain ⟨i, h1, h2, h3, h4⟩ := place_max p n j
      refine ⟨i, by omega, h2, h3, ?_⟩
      intro i' hi hi' b hb
      by_cases h : i' ≤ j
      · exact h4 i' hi h b hb
      · have : i' = j + 1 := by omega
        subst this
        exact hno b hb

theorem matches_nil_of_no_elem {p : List Step} (h : allChild p = true) {n : Node} (hn : ∀ b, (Step.matches p n).head? ≠ some (.elem b)) :
    Step.matches p n = [] := by
  cases hm : Step.matches p n with
  | nil => rfl
  | cons x l =>
    obtain ⟨b, rfl⟩ := matches_allChild h (n := n) (x := x) (by rw [hm]; simp)
    exact absurd (by rw [hm]; rfl) (hn b)

theorem allChild_take {p : List Step} (h : pathOk p = true) {i} (hi : i < p.length) : allChild (p.take i) = true := by
  have := List.take_append_drop i p
  rw [← this] at h
  exact (pathOk_append h (by intro h; have := congrArg List.length h; simp at this; omega)).1

/-- The missing steps start after the longest proper prefix with a match. -/
theorem missing_max {p : List Step} (hok : pathOk p = true) (hp : p ≠ []) (n : Node) : ∃ i, i < p.length ∧
    (missing p n).2 = p.drop i ∧ (Step.matches (p.take i) n).head? = some (.elem (missing p n).1) ∧
    ∀ i', i < i' → i' < p.length → Step.matches (p.take i') n = [] := by
  obtain ⟨i, h1, h2, h3, h4⟩ := place_max p n (p.length - 1)
  have hlen : 0 < p.length := List.length_pos_iff.mpr hp
  refine ⟨i, by omega, h2, h3, ?_⟩
  intro i' hi hi'
  exact matches_nil_of_no_elem (allChild_take hok hi') (fun b => h4 i' hi (by omega) b)

theorem buildPath_append {p1 p2 : List Step} (h : allChild p1 = true) (k : Node → Node) (n) :
    buildPath (p1 ++ p2) k n = buildPath p1 (buildPath p2 k) n := by
  induction p1 generalizing n with
  | nil => rfl
  | cons s p1 ih => cases s <;> simp_all [allChild, buildPath]

theorem lastEdit_id (l) : LastEdit l id := ⟨fun _ => rfl, fun _ => rfl, fun _ _ _ => rfl, fun _ _ h => h⟩

/-- The first match of a path whose last steps were just created. -/
theorem head_built {pre r : List Step} (hok : pathOk (pre ++ r) = true) (hac : allChild (pre ++ r) = true) {n m : Node} {b}
    (hh : (Step.matches pre n).head? = some (.elem b)) (hm : n.get b = some m) (hnm : r ≠ [] → Step.matches (pre ++ r) n = [])
    {k : Node → Node} (hkt : ∀ m, (k m).tag = m.tag)
    (hks : ∀ q ps, (pre ++ r).getLast? = some (.child q ps) → ∀ m, satAll ps m = true → satAll ps (k m) = true) :
    (Step.matches (pre ++ r) (n.modify b (buildPath r k))).head? = some (.elem (b ++ (target r m).addr)) := by
  by_cases hr : r = []
  · subst hr
    simp only [List.append_nil] at *
    have := first_stays (f := k) hok hh hm (hkt m) (fun q ps hl hs => hks q ps hl m hs)
    simpa [buildPath, target, Ref.addr] using this
  · obtain ⟨hpa, hprok, hrok⟩ := pathOk_append hok hr
    have hra : allChild r = true := by
      clear hnm hks hok hh hrok hprok hpa
      induction pre with
      | nil => simpa using hac
      | cons s pre ih => cases s <;> simp [allChild] at hac; exact ih hac
    obtain ⟨m', hm', hkm, hsp⟩ := matches_split pre n b hprok (List.mem_of_mem_head? hh)
    rw [hm] at hm'
    simp only [Option.some.injEq] at hm'
    subst hm'
    obtain ⟨L, R, hL, hLR⟩ := hsp r
    have hL := hL hh
    subst hL
    have h1 := hLR id hkm
    rw [Node.modify_id hm rfl, hnm hr] at h1
    simp only [List.nil_append, id, List.nil_eq_append_iff, List.map_eq_nil_iff] at h1
    obtain ⟨h2, rfl⟩ := h1
    have h3 := hLR (buildPath r id) ?_
    · have hb : (Step.matches (pre ++ r) (n.modify b (buildPath r id))).head? = some (.elem (b ++ (target r m).addr)) := by
        rw [h3, matches_buildPath r m id hrok (lastEdit_id _) (fun hl => ?_) (fun _ => h2), target_allChild hra]
        · rfl
        · exfalso
          obtain ⟨r', rfl⟩ := getLast?_split hl
          clear h3 hLR h2 hsp hrok hnm hks hac hr hok hl
          induction r' with
          | nil => cases hra
          | cons s r' ih => cases s <;> simp [allChild] at hra; exact ih hra
      have hg : (n.modify b (buildPath r id)).get (b ++ (target r m).addr) = some (leafNode r m) := by
        rw [Node.get_append, Node.get_modify, hm]
        exact get_target r m id
      have := first_stays (f := k) hok hb hg (hkt _) (fun q ps hl hs => hks q ps hl _ hs)
      rw [← this]
      congr 2
      rw [Node.modify_append]
      rw [Node.modify_modify]
      apply Node.modify_congr hm
      exact (modify_target r m id k).symm
    · apply keeps_of_sat (buildPath_tag r (fun _ => rfl) m)
      intro q ps hl
      obtain ⟨o1, o2⟩ := last_ok hok hl
      show satAll ps (buildPath r id m) = true
      rw [satAll_buildPath o1 o2 hrok (lastEdit_id _)]
      rw [hl] at hkm
      exact hkm.2

/-! ### undoing a creation -/

theorem mem_setAttrL {q : QName} {a : QName × Str} (l : List (QName × Str)) (w) (h : a ∈ Node.setAttrL q w l) : a ∈ l ∨ a.1 = q := by
  induction l with
  | nil => simp [Node.setAttrL] at h; rw [h]; simp
  | cons x l ih =>
    rw [Node.setAttrL] at h
    by_cases hx : x.1 = q
    · rw [if_pos hx] at h
      rcases List.mem_cons.mp h with h | h
      · right; rw [h]
      · left; simp [h]
    · rw [if_neg hx] at h
      rcases List.mem_cons.mp h with h | h
      · left; simp [h]
      · rcases ih h with h | h
        · left; simp [h]
        · exact .inr h

theorem buildPath_congr (r : List Step) {k g : Node → Node} {m : Node} (h : k (leafNode r m) = g (leafNode r m)) :
    buildPath r k m = buildPath r g m := by
  induction r generalizing m with
  | nil => exact h
  | cons s r ih =>
    cases s with
    | child q ps => simp only [buildPath]; rw [ih h]
    | attr => exact h
    | text => exact h

theorem build_attrs_mem (ps : List Pred) (h : (ps.all (fun q => match q with | .attr _ (some _) => true | _ => false)) = true) (n : Node) :
    ∀ a ∈ (buildAll ps n).attrs, a ∈ n.attrs ∨ a.1 ∈ eqAttrs ps := by
  induction ps generalizing n with
  | nil => intro a ha; exact .inl ha
  | cons p ps ih =>
    simp only [List.all_cons, Bool.and_eq_true] at h
    obtain ⟨h1, h2⟩ := h
    match p, h1 with
    | .attr q (some v), _ =>
      intro a ha
      simp only [eqAttrs, List.filterMap_cons, List.mem_cons]
      rcases ih h2 _ a ha with h | h
      · simp only [Pred.build, Node.setAttr_attrs] at h
        have := fun l w h => mem_setAttrL (q := q) (a := a) l w h
        rcases this _ _ h with h | h
        · exact .inl h
        · exact .inr (.inl h)
      · exact .inr (.inr h)

theorem emptyBut_newElem {q ps} (h : (ps.all (fun q => match q with | .attr _ (some _) => true | _ => false)) = true) :
    emptyBut ps (newElem q ps) = true := by
  have hao : attrOnly ps = true := by
    simp only [attrOnly, List.all_eq_true] at h ⊢
    intro p hp
    have := h p hp
    split at this
    · rfl
    · cases this
  simp only [emptyBut, newElem_attrOnly hao, List.isEmpty_nil, Bool.true_and, List.all_eq_true, decide_eq_true_eq]
  intro a ha
  rcases build_attrs_mem ps h _ a ha with h | h
  · simp at h
  · exact h

theorem pathOk_left {p1 p2 : List Step} (h : pathOk (p1 ++ p2) = true) (_ : allChild p1 = true) : pathOk p1 = true := by
  by_cases h2 : p2 = []
  · subst h2; simpa using h
  · exact (pathOk_append h h2).2.1

theorem allChild_left {p1 p2 : List Step} (h : allChild (p1 ++ p2) = true) : allChild p1 = true ∧ allChild p2 = true := by
  induction p1 with
  | nil => exact ⟨rfl, h⟩
  | cons s p1 ih => cases s <;> simp_all [allChild]

theorem removeAt_append (m c : Node) : removeAt [m.children.length] (Node.append c m) = m := by
  simp only [removeAt, List.dropLast_singleton, Node.modify_nil, List.getLast?_singleton, Option.getD_some]
  unfold Node.removeChild Node.append
  rw [Node.withChildren_withChildren, Node.withChildren_children]
  have : (m.children ++ [c]).eraseIdx m.children.length = m.children := by
    rw [List.eraseIdx_append_of_length_le (le_refl _)]; simp
  rw [this, Node.withChildren_self]

theorem undo_path {pre : List Step} {n m : Node} {b} (hh : (Step.matches pre n).head? = some (.elem b)) (hm : n.get b = some m) :
    ∀ r : List Step, pathOk (pre ++ r) = true → allChild (pre ++ r) = true → eqPreds r = true →
      (∀ r1, r1 <+: r → r1 ≠ [] → Step.matches (pre ++ r1) n = []) →
      cleanup (pre ++ r) (b ++ (target r m).addr) (n.modify b (buildPath r id)) = cleanup pre b n := by
  intro r
  induction r using List.reverseRecOn with
  | nil =>
    intro _ _ _ _
    simp only [List.append_nil, target, Ref.addr]
    rw [Node.modify_id hm rfl]
  | append_singleton r1 st ih =>
    intro hok hac heq hnm
    have hac' := hac
    rw [← List.append_assoc] at hac' hok
    obtain ⟨ha1, ha2⟩ := allChild_left hac'
    have hok1 := pathOk_left hok ha1
    obtain ⟨hpa, hra⟩ := allChild_left ha1
    cases st with
    | attr => cases ha2
    | text => cases ha2
    | child q ps =>
      simp only [eqPreds, List.all_append, List.all_cons, List.all_nil, Bool.and_true, Bool.and_eq_true, Step.preds] at heq
      have hbp : buildPath (r1 ++ [.child q ps]) id = buildPath r1 (Node.append (newElem q ps)) := by
        funext x
        rw [allChild_append hra]
        rfl
      have htg : (target (r1 ++ [.child q ps]) m).addr = (target r1 m).addr ++ [(leafNode r1 m).children.length] := by
        rw [target_append hra, under_addr]
        simp only [target]
        rw [show Ref.under [(leafNode r1 m).children.length] (.elem []) = .elem [(leafNode r1 m).children.length] from rfl]
        rfl
      rw [← List.append_assoc, cleanup_snoc, hbp, htg]
      have hgl : (n.modify b (buildPath r1 (Node.append (newElem q ps)))).get (b ++ (target r1 m).addr)
          = some (Node.append (newElem q ps) (leafNode r1 m)) := get_built hm r1 _
      have hg : (n.modify b (buildPath r1 (Node.append (newElem q ps)))).get (b ++ ((target r1 m).addr ++ [(leafNode r1 m).children.length]))
          = some (newElem q ps) := by
        rw [← List.append_assoc, Node.get_append, hgl]
        simp [Node.get_cons]
      have hd : (b ++ ((target r1 m).addr ++ [(leafNode r1 m).children.length])).dropLast = b ++ (target r1 m).addr := by
        rw [← List.append_assoc, List.dropLast_concat]
      have hhd := head_built (pre := pre) (r := r1) hok1 ha1 hh hm (fun hne => hnm r1 (List.prefix_append _ _) hne)
        (k := Node.append (newElem q ps)) (by simp) (by
          intro q' ps' hl m' hs
          obtain ⟨o1, o2⟩ := last_ok hok hl
          have := satAll_buildPath (r := [.child q ps]) (k := id) (n := m') o1 o2 (by
            have := hok
            by_cases h0 : pre ++ r1 = []
            · rw [h0] at this; simpa using this
            · exact (pathOk_append hok (by simp)).2.2) (lastEdit_id _)
          rw [show buildPath [.child q ps] id m' = Node.append (newElem q ps) m' from rfl] at this
          rw [this]; exact hs)
      rw [if_pos]
      · rw [hd]
        have hrm : removeAt (b ++ ((target r1 m).addr ++ [(leafNode r1 m).children.length])) (n.modify b (buildPath r1 (Node.append (newElem q ps))))
            = n.modify b (buildPath r1 id) := by
          rw [← List.append_assoc, removeAt_under _ _ (by simp)]
          rw [modify_built hm]
          apply Node.modify_congr hm
          exact buildPath_congr r1 (removeAt_append _ _)
        rw [hrm]
        exact ih hok1 ha1 heq.1 (fun r' h' hne => hnm r' (h'.trans (List.prefix_append _ _)) hne)
      · refine ⟨?_, ?_⟩
        · rw [hg]; simpa [Step.preds] using emptyBut_newElem heq.2
        · rw [hd, hhd]

theorem setAttrL_absent {q : QName} {v : Str} {l : List (QName × Str)} (h : l.lookup q = none) : Node.setAttrL q v l = l ++ [(q, v)] := by
  induction l with
  | nil => rfl
  | cons x l ih =>
    rw [List.lookup_cons] at h
    by_cases hq : q = x.1
    · simp [hq] at h
    · have hb : (q == x.1) = false := by simpa using hq
      rw [hb] at h
      rw [Node.setAttrL, if_neg (fun h => hq h.symm), ih h]
      rfl

theorem filter_absent {q : QName} {l : List (QName × Str)} (h : l.lookup q = none) : l.filter (fun p => p.1 != q) = l := by
  rw [List.filter_eq_self]
  intro a ha
  induction l with
  | nil => cases ha
  | cons x l ih =>
    rw [List.lookup_cons] at h
    by_cases hq : q = x.1
    · simp [hq] at h
    · have hb : (q == x.1) = false := by simpa using hq
      rw [hb] at h
      rcases List.mem_cons.mp ha with rfl | ha
      · simpa using fun h => hq h.symm
      · exact ih h ha

theorem del_setAttr {q : QName} {v : Str} {m : Node} (h : m.attr? q = none) : Node.delAttr q (Node.setAttr q v m) = m := by
  rw [Node.attr?] at h
  rw [Node.ext_iff']
  simp [setAttrL_absent h, filter_absent h]

/-- The element at the end of a created path has nothing that the next step would match. -/
theorem leaf_nomatch {r1 : List Step} {st : Step} {m : Node} (hok : pathOk (r1 ++ [st]) = true)
    (hnm : Step.matches (r1 ++ [st]) m = []) : Step.matches [st] (leafNode r1 m) = [] := by
  induction r1 generalizing m with
  | nil => exact hnm
  | cons s r1 ih =>
    cases s with
    | child q ps =>
      simp only [List.cons_append, pathOk, Bool.and_eq_true] at hok
      simp only [leafNode]
      exact ih hok.2 (newElem_nomatch hok.1.1 hok.1.2 (by simp))
    | attr q => simp [pathOk] at hok
    | text => simp [pathOk] at hok

theorem eqPreds_append {p1 p2 : List Step} (h : eqPreds (p1 ++ p2) = true) : eqPreds p1 = true ∧ eqPreds p2 = true := by
  simpa [eqPreds] using h

/-- Deleting what was just created. -/
theorem delete_write {p : List Step} (hok : pathOk p = true) (hp : p ≠ []) {n : Node} (hnm : Step.matches p n = []) (v : Str)
    (hlast : p.getLast? ≠ some .text) (heq : eqPreds p = true) (hset : NotEmpty p n) :
    delete p (write p v n) = n ∧ Aligned p (write p v n) ∧ ∀ b, (Step.matches p (write p v n)).head? ≠ some (.tail b) := by
  obtain ⟨i, hi, h2, h3, h4⟩ := missing_max hok hp n
  obtain ⟨m, hm⟩ := missing_get hok n hp
  have hwd : write p v n = n.modify (missing p n).1 (buildPath (missing p n).2 (writeLast p v)) := by
    unfold write; rw [hnm]; rfl
  have hne : (missing p n).2 ≠ [] := by
    rw [h2]; intro h; have := congrArg List.length h; simp at this; omega
  have hpl : p.getLast? = (missing p n).2.getLast? := by
    refine getLast?_of_suffix (pre := p.take i) ?_ hne
    rw [h2]; exact (List.take_append_drop i p).symm
  obtain ⟨hmr, hcr⟩ := matches_create hok hp hnm hm (k := writeLast p v) (hpl ▸ writeLast_lastEdit p v)
    (fun h => absurd (hpl.trans h) hlast)
  rw [← hwd] at hcr
  generalize hb : (missing p n).1 = b at *
  generalize hr : (missing p n).2 = r at *
  obtain ⟨r1, st, rfl⟩ : ∃ r1 st, r = r1 ++ [st] := ⟨r.dropLast, r.getLast hne, (List.dropLast_concat_getLast hne).symm⟩
  obtain ⟨pre, hpre⟩ : ∃ pre, pre = p.take i := ⟨_, rfl⟩
  have hp' : p = pre ++ (r1 ++ [st]) := by rw [hpre, h2]; exact (List.take_append_drop i p).symm
  have hlen : pre.length = i := by rw [hpre]; simp; omega
  rw [← hpre] at h3
  have hok' := hok
  rw [hp'] at hok'
  obtain ⟨hpa, hprok, hrok⟩ := pathOk_append hok' (by simp)
  have hr1 := (pathOk_append hrok (by simp)).1
  have hst := (pathOk_append hrok (by simp)).2.2
  have hok2 : pathOk ((pre ++ r1) ++ [st]) = true := by rw [List.append_assoc]; exact hok'
  obtain ⟨hac, hok3, -⟩ := pathOk_append hok2 (by simp)
  have hk : LastEdit [st].getLast? (writeLast p v) := by
    have : [st].getLast? = p.getLast? := by rw [hp']; simp [← List.append_assoc]
    rw [this]; exact writeLast_lastEdit p v
  have hbp : buildPath (r1 ++ [st]) (writeLast p v) = buildPath r1 (buildPath [st] (writeLast p v)) := by
    funext x; exact allChild_append hr1 _ x
  rw [hbp] at hwd
  have hprefix : ∀ r', r' <+: r1 → r' ≠ [] → Step.matches (pre ++ r') n = [] := by
    intro r' hr' hne'
    have := h4 (i + r'.length) (by have := List.length_pos_iff.mpr hne'; omega) (by
      have := hr'.length_le
      rw [hp']; simp; omega)
    rw [← this]
    congr 1
    obtain ⟨t, ht⟩ := hr'
    have : p = (pre ++ r') ++ (t ++ [st]) := by rw [hp', ← ht]; simp
    rw [this, ← hlen, ← List.length_append, List.take_left']
    rfl
  have hhd : (Step.matches (pre ++ r1) (write p v n)).head? = some (.elem (b ++ (target r1 m).addr)) := by
    rw [hwd]
    refine head_built hok3 hac h3 hm (fun hne => hprefix r1 (List.prefix_refl _) hne) (fun x => buildPath_tag [st] hk.tag x) ?_
    intro q ps hl m' hs
    obtain ⟨o1, o2⟩ := last_ok hok2 hl
    rw [satAll_buildPath o1 o2 hst hk]
    exact hs
  have htg : (target (r1 ++ [st]) m).under b = (target [st] (leafNode r1 m)).under (b ++ (target r1 m).addr) := by
    rw [target_append hr1, under_under]
  rw [htg] at hcr
  have hleaf := leaf_nomatch hrok hmr
  have hhold : Ref.holder ((target [st] (leafNode r1 m)).under (b ++ (target r1 m).addr)) = b ++ (target r1 m).addr := by
    cases st with
    | child q ps =>
      show (b ++ (target r1 m).addr ++ [_]).dropLast = _
      rw [List.dropLast_concat]
    | attr q => show b ++ (target r1 m).addr ++ [] = _; simp
    | text => rw [hp'] at hlast; simp [← List.append_assoc] at hlast
  have hnt : ∀ b', (Step.matches p (write p v n)).head? ≠ some (.tail b') := by
    intro b' h
    rw [hcr] at h
    simp only [List.head?_cons, Option.some.injEq] at h
    cases st with
    | child q ps => cases h
    | attr q => cases h
    | text => cases h
  have hdl : p.dropLast = pre ++ r1 := by rw [hp', ← List.append_assoc, List.dropLast_concat]
  refine ⟨?_, ?_, hnt⟩
  · have hrm : removeRef ((target [st] (leafNode r1 m)).under (b ++ (target r1 m).addr)) (write p v n)
        = n.modify b (buildPath r1 id) := by
      cases st with
      | child q ps =>
        show removeAt (b ++ (target r1 m).addr ++ [(leafNode r1 m).children.length]) (write p v n) = _
        rw [hwd, removeAt_under _ _ (by simp), modify_built hm]
        apply Node.modify_congr hm
        exact buildPath_congr r1 (removeAt_append _ _)
      | attr q =>
        show (write p v n).modify (b ++ (target r1 m).addr ++ []) (Node.delAttr q) = _
        rw [List.append_nil, hwd, modify_built hm]
        apply Node.modify_congr hm
        apply buildPath_congr
        have h0 : (leafNode r1 m).attr? q = none := by
          simp only [Step.matches, List.isEmpty_nil, Bool.true_and] at hleaf
          split_ifs at hleaf with h
          simpa using h
        have hwl : writeLast p v = Node.setAttr q v := writeLast_attr (by rw [hp', ← List.append_assoc]; simp) v
        simp only [Function.comp, buildPath, hwl, Node.setAttr_setAttr, id]
        exact del_setAttr h0
      | text => rw [hp'] at hlast; simp [← List.append_assoc] at hlast
    unfold delete
    rw [hcr]
    simp only [List.head?_cons]
    rw [hhold, hdl, hrm]
    have heq' := heq
    rw [hp', ← List.append_assoc] at heq'
    rw [undo_path h3 hm r1 hok3 hac (eqPreds_append (eqPreds_append heq').1).2 hprefix]
    by_cases hpn : pre = []
    · subst hpn; rfl
    · obtain ⟨pre', st', rfl⟩ : ∃ pre' st', pre = pre' ++ [st'] := ⟨pre.dropLast, pre.getLast hpn, (List.dropLast_concat_getLast hpn).symm⟩
      rw [cleanup_snoc, if_neg]
      rintro ⟨h, -⟩
      have := hset (pre'.length) st' b m (by rw [hp']; simp) (by
        
        rw [hp', ← h3]
        congr 2
        rw [show pre'.length + 1 = (pre' ++ [st']).length by simp, List.take_left']
        rfl) hm
      rw [hm] at h
      simp [this] at h
  · intro x hx
    rw [hcr] at hx
    simp only [List.head?_cons, Option.some.injEq] at hx
    subst hx
    rw [hhold, hdl, hhd]

/-! ### writing twice -/

theorem writeLast_twice (p : List Step) (v w : Str) (m : Node) : writeLast p w (writeLast p v m) = writeLast p w m := by
  by_cases h : ∃ q, p.getLast? = some (.attr q)
  · obtain ⟨q, h⟩ := h
    simp [writeLast_attr h]
  · have h' : ∀ q, p.getLast? ≠ some (.attr q) := fun q hq => h ⟨q, hq⟩
    simp [writeLast_elem h']

theorem write_write {p : List Step} (hok : pathOk p = true) (hso : stringOk p = true) (hp : p ≠ []) {n : Node} {v w : Str} (hw : Writable p n) :
    write p w (write p v n) = write p w n := by
  obtain ⟨x, h1, -, h3, h4, -, -⟩ := write_read (v := v) hok hso hp hw
  have hww : write p w (write p v n) = (write p v n).modify x.addr (writeLast p w) := by
    rw [write, h1]
  cases hh : (Step.matches p n).head? with
  | some y =>
    have hne : Step.matches p n ≠ [] := by rintro h; rw [h] at hh; simp at hh
    rw [h3 hne, hh] at h1
    simp only [Option.some.injEq] at h1
    subst h1
    rw [hww]
    unfold write
    rw [hh]
    simp only
    rw [Node.modify_modify]
    congr 1
    funext m
    exact writeLast_twice p v w m
  | none =>
    have hnm : Step.matches p n = [] := by simpa using hh
    obtain ⟨m, hm⟩ := missing_get hok n hp
    have hne : (missing p n).2 ≠ [] := (missing_spec p n).choose_spec.2.2 hp
    have hpl : p.getLast? = (missing p n).2.getLast? := by
      obtain ⟨pre, h, -, -⟩ := missing_spec p n
      exact getLast?_of_suffix h hne
    obtain ⟨-, hcr⟩ := matches_create hok hp hnm hm (k := writeLast p v) (hpl ▸ writeLast_lastEdit p v)
      (fun h m => by rw [writeLast_text (hpl.trans h)]; rfl)
    have hwd : ∀ v, write p v n = n.modify (missing p n).1 (buildPath (missing p n).2 (writeLast p v)) := by
      intro v; unfold write; rw [hnm]; rfl
    rw [hww, hwd v]
    rw [← hwd v, h4 hnm] at hcr
    simp only [List.cons.injEq, and_true] at hcr
    rw [hcr, under_addr, modify_built hm, hwd w]
    congr 1
    congr 1
    funext m
    exact writeLast_twice p v w m

theorem writable_write {p : List Step} (hok : pathOk p = true) (hso : stringOk p = true) (hp : p ≠ []) {n : Node} {v : Str} (hw : Writable p n) :
    Writable p (write p v n) := by
  obtain ⟨x, h1, -, -, -, h5, h6⟩ := write_read (v := v) hok hso hp hw
  unfold Writable
  rw [h1]
  cases x with
  | elem b => exact fun m hm => h6 b m rfl hm
  | attr => trivial
  | text => trivial
  | tail b => exact h5 b rfl

/-! ### nothing else changes -/

theorem kept_setText (x : Ref) {a : Node.Addr} (hx : x = .elem a ∨ x = .text a) (v) (s : Node) :
    Kept x none s (s.modify a (Node.setText v)) := by
  intro c m hm
  rcases get_modify_cases a c (Node.setText v) s m hm with ⟨-, m', k1, k2, k3, k4, k5, k6⟩ | ⟨c', n, rfl, hn, hn', hg⟩
  · exact ⟨m', k1, k2, k3, by simp [k6], fun _ _ => k4, fun _ => k5, fun q _ => by simp [Node.attr?, k5], by simp [k5]⟩
  · cases c' with
    | nil =>
      simp only [Node.get_nil, Option.some.injEq] at hn'
      subst hn'
      refine ⟨n.setText v, by rw [hg]; rfl, by simp, by simp, by simp, ?_, by simp, by simp [Node.attr?], by simp⟩
      intro h1 h2
      rcases hx with h | h <;> simp [h] at h1 h2
    | cons i r =>
      refine ⟨m, ?_, rfl, rfl, by simp, by simp, by simp, by simp, by simp⟩
      rw [hg, Node.get_cons, Node.setText_children, ← Node.get_cons]; exact hn'

theorem keys_setAttrL (q v) : ∀ l : List (QName × Str), l.map Prod.fst <+: (Node.setAttrL q v l).map Prod.fst
  | [] => by simp
  | x :: l => by
    rw [Node.setAttrL]
    split_ifs with h
    · simp [h]
    · simpa using keys_setAttrL q v l

theorem kept_setAttr {a : Node.Addr} (q v) (s : Node) : Kept (.attr a q) none s (s.modify a (Node.setAttr q v)) := by
  intro c m hm
  rcases get_modify_cases a c (Node.setAttr q v) s m hm with ⟨-, m', k1, k2, k3, k4, k5, k6⟩ | ⟨c', n, rfl, hn, hn', hg⟩
  · exact ⟨m', k1, k2, k3, by simp [k6], fun _ _ => k4, fun _ => k5, fun q _ => by simp [Node.attr?, k5], by simp [k5]⟩
  · cases c' with
    | nil =>
      simp only [Node.get_nil, Option.some.injEq] at hn'
      subst hn'
      refine ⟨n.setAttr q v, by rw [hg]; rfl, by simp, by simp, by simp, by simp, ?_, ?_, ?_⟩
      · intro h; exact absurd (by simp) (h q)
      · intro q' h
        rw [Node.attr?_setAttr, if_neg]
        rintro rfl
        simp at h
      · rw [Node.setAttr_attrs]; exact keys_setAttrL q v _
    | cons i r =>
      refine ⟨m, ?_, rfl, rfl, by simp, by simp, by simp, by simp, by simp⟩
      rw [hg, Node.get_cons, Node.setAttr_children, ← Node.get_cons]; exact hn'

theorem kept_append (x : Ref) {a : Node.Addr} (k) (s : Node) : Kept x (some a) s (s.modify a (Node.append k)) := by
  intro c m hm
  rcases get_modify_cases a c (Node.append k) s m hm with ⟨hac, m', k1, k2, k3, k4, k5, k6⟩ | ⟨c', n, rfl, hn, hn', hg⟩
  · refine ⟨m', k1, k2, k3, ?_, fun _ _ => k4, fun _ => k5, fun q _ => by simp [Node.attr?, k5], by simp [k5]⟩
    rw [if_neg, k6]
    · rfl
    · rintro h
      simp only [Option.some.injEq] at h
      exact hac (by simp [h])
  · cases c' with
    | nil =>
      simp only [Node.get_nil, Option.some.injEq] at hn'
      subst hn'
      exact ⟨Node.append k n, by rw [hg]; rfl, by simp, by simp, by simp, by simp, by simp, by simp [Node.attr?], by simp⟩
    | cons i r =>
      refine ⟨m, ?_, rfl, rfl, by simp, by simp, by simp, by simp, by simp⟩
      rw [hg, Node.get_cons, Node.append_children]
      rw [Node.get_cons] at hn'
      cases hi : n.children[i]? with
      | none => rw [hi] at hn'; simp at hn'
      | some d =>
        rw [List.getElem?_append_left (by simpa using (List.getElem?_eq_some_iff.mp hi).1), hi]
        rw [hi] at hn'; exact hn'

/-- Writing changes the text or attribute that the path selects afterwards, and adds at most one new last child. -/
theorem write_kept {p : List Step} (hok : pathOk p = true) (hso : stringOk p = true) (hp : p ≠ []) {n : Node} {v : Str} (hw : Writable p n) :
    ∃ x grown, (Step.matches p (write p v n)).head? = some x ∧ Kept x grown n (write p v n) ∧ (Step.matches p n ≠ [] → grown = none) := by
  obtain ⟨x, h1, -, h3, h4, h5, -⟩ := write_read (v := v) hok hso hp hw
  cases hh : (Step.matches p n).head? with
  | some y =>
    have hne : Step.matches p n ≠ [] := by rintro h; rw [h] at hh; simp at hh
    have h1' := h1
    rw [h3 hne, hh] at h1'
    simp only [Option.some.injEq] at h1'
    subst h1'
    have hwd : write p v n = n.modify y.addr (writeLast p v) := by unfold write; rw [hh]
    refine ⟨y, none, h1, ?_, fun _ => rfl⟩
    rw [hwd]
    obtain ⟨k1, k2, k3⟩ := matches_kind p n y (List.mem_of_mem_head? hh)
    cases y with
    | elem b => rw [writeLast_elem (allChild_last (k3 b rfl))]; exact kept_setText _ (.inl rfl) _ _
    | attr b q => rw [writeLast_attr (k1 b q rfl)]; exact kept_setAttr q v n
    | text b =>
      rw [writeLast_elem (by rw [k2 b (.inl rfl)]; simp)]
      exact kept_setText _ (.inr rfl) _ _
    | tail b => exact absurd rfl (h5 b)
  | none =>
    have hnm : Step.matches p n = [] := by simpa using hh
    obtain ⟨m, hm⟩ := missing_get hok n hp
    obtain ⟨pre, hpre, -, hne⟩ := missing_spec p n
    have hne := hne hp
    have hpl : p.getLast? = (missing p n).2.getLast? := getLast?_of_suffix hpre hne
    obtain ⟨-, hcr⟩ := matches_create hok hp hnm hm (k := writeLast p v) (hpl ▸ writeLast_lastEdit p v)
      (fun h m => by rw [writeLast_text (hpl.trans h)]; rfl)
    have hwd : write p v n = n.modify (missing p n).1 (buildPath (missing p n).2 (writeLast p v)) := by
      unfold write; rw [hnm]; rfl
    rw [← hwd] at hcr
    have hrok : pathOk (missing p n).2 = true := by
      have := hok
      rw [hpre] at this
      exact (pathOk_append this hne).2.2
    have hxe := h4 hnm
    rw [hcr] at hxe
    simp only [List.cons.injEq, and_true] at hxe
    cases hr : (missing p n).2 with
    | nil => exact absurd hr hne
    | cons s r =>
      rw [hr] at hwd hxe hrok hpl
      cases s with
      | child q ps =>
        refine ⟨x, some (missing p n).1, h1, ?_, fun h => absurd hnm h⟩
        rw [hwd, show buildPath (.child q ps :: r) (writeLast p v) = Node.append (buildPath r (writeLast p v) (newElem q ps)) from rfl]
        exact kept_append _ _ _
      | attr q =>
        simp only [pathOk, List.isEmpty_iff] at hrok
        subst hrok
        refine ⟨x, none, h1, ?_, fun h => absurd hnm h⟩
        have : buildPath [.attr q] (writeLast p v) = Node.setAttr q v := by
          rw [writeLast_attr hpl]
          funext y
          exact Node.setAttr_setAttr _ _ _ _
        rw [hwd, this, ← hxe]
        show Kept (.attr ((missing p n).1 ++ []) q) none _ _
        rw [List.append_nil]
        exact kept_setAttr q v n
      | text =>
        simp only [pathOk, List.isEmpty_iff] at hrok
        subst hrok
        refine ⟨x, none, h1, ?_, fun h => absurd hnm h⟩
        have : buildPath [.text] (writeLast p v) = Node.setText (some v) := by
          rw [writeLast_elem (by rw [hpl]; simp)]
          rfl
        rw [hwd, this, ← hxe]
        show Kept (.text ((missing p n).1 ++ [])) none _ _
        rw [List.append_nil]
        exact kept_setText _ (.inr rfl) _ _

end
end Fields
