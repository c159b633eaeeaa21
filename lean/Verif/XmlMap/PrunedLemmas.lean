import Verif.XmlMap.DeleteAny
/-
What removing predicates (and emptied elements) takes away.
-/
namespace Fields
open Xml XPath Spec

set_option linter.unusedSectionVars false

theorem prunedL_refl (ps : List Pred) : ∀ l : List Node, PrunedL ps l l
  | [] => .nil
  | _ :: l => .same (prunedL_refl ps l)

theorem pruned_refl (ps : List Pred) (m : Node) : Pruned ps m m :=
  .mk rfl rfl rfl (List.Sublist.refl _) (fun _ h h' => absurd h h') (prunedL_refl ps _)

theorem eqAttrs_mono {ps ps' : List Pred} (h : ps ⊆ ps') {q} (hq : q ∈ eqAttrs ps) : q ∈ eqAttrs ps' := by
  simp only [eqAttrs, List.mem_filterMap] at hq ⊢
  obtain ⟨p, hp, h'⟩ := hq
  exact ⟨p, h hp, h'⟩

theorem innerNames_mono {ps ps' : List Pred} (h : ps ⊆ ps') {q} (hq : q ∈ innerNames ps) : q ∈ innerNames ps' := by
  simp only [innerNames, List.mem_filterMap] at hq ⊢
  obtain ⟨p, hp, h'⟩ := hq
  exact ⟨p, h hp, h'⟩

theorem inner_mono {ps ps' : List Pred} (h : ps ⊆ ps') (q) : inner ps q ⊆ inner ps' q := by
  intro x hx
  simp only [inner, List.mem_flatMap] at hx ⊢
  obtain ⟨p, hp, h'⟩ := hx
  exact ⟨p, h hp, h'⟩

mutual
theorem pruned_mono {ps ps' : List Pred} (h : ps ⊆ ps') {m m'} : Pruned ps m m' → Pruned ps' m m'
  | .mk h1 h2 h3 h4 h5 h6 => .mk h1 h2 h3 h4 (fun a ha ha' => eqAttrs_mono h (h5 a ha ha')) (prunedL_mono h h6)
theorem prunedL_mono {ps ps' : List Pred} (h : ps ⊆ ps') {l l'} : PrunedL ps l l' → PrunedL ps' l l'
  | .nil => .nil
  | .same r => .same (prunedL_mono h r)
  | .inside h1 h2 h3 r => .inside h1 (innerNames_mono h h2) (pruned_mono (inner_mono h _) h3) (prunedL_mono h r)
  | .drop h1 h2 h3 h4 h5 r => .drop h1 (innerNames_mono h h2) (pruned_mono (inner_mono h _) h3) h4 h5 (prunedL_mono h r)
end

theorem pruned_tag {ps m m'} : Pruned ps m m' → m'.tag = m.tag
  | .mk h1 _ _ _ _ _ => h1

theorem isElem_inj {q q' : QName} {c c' : Node} (h : c.isElem q = true) (h' : c'.isElem q' = true) (ht : c'.tag = c.tag) : q' = q := by
  simp only [Node.isElem, beq_iff_eq] at h h'
  rw [ht, h] at h'
  exact (Tag.elem.inj h').symm

mutual
theorem pruned_trans {ps : List Pred} {m m'} : Pruned ps m m' → ∀ {m''}, Pruned ps m' m'' → Pruned ps m m''
  | .mk h1 h2 h3 h4 h5 h6, _, .mk k1 k2 k3 k4 k5 k6 => .mk (k1.trans h1) (k2.trans h2) (k3.trans h3) (k4.trans h4)
      (fun a ha ha' => by
        by_cases hm : a ∈ m'.attrs
        · exact k5 a hm ha'
        · exact h5 a ha hm) (prunedL_trans h6 k6)
theorem prunedL_trans {ps : List Pred} {l l'} : PrunedL ps l l' → ∀ {l''}, PrunedL ps l' l'' → PrunedL ps l l''
  | .nil, _, k => k
  | .same r, _, .same k => .same (prunedL_trans r k)
  | .same r, _, .inside k1 k2 k3 k => .inside k1 k2 k3 (prunedL_trans r k)
  | .same r, _, .drop k1 k2 k3 k4 k5 k => .drop k1 k2 k3 k4 k5 (prunedL_trans r k)
  | .inside h1 h2 h3 r, _, .same k => .inside h1 h2 h3 (prunedL_trans r k)
  | .inside h1 h2 h3 r, _, .inside k1 k2 k3 k => by
    have := isElem_inj h1 k1 (pruned_tag h3)
    rw [this] at k3
    exact .inside h1 h2 (pruned_trans h3 k3) (prunedL_trans r k)
  | .inside h1 h2 h3 r, _, .drop k1 k2 k3 k4 k5 k => by
    have := isElem_inj h1 k1 (pruned_tag h3)
    rw [this] at k3
    exact .drop h1 h2 (pruned_trans h3 k3) k4 k5 (prunedL_trans r k)
  | .drop h1 h2 h3 h4 h5 r, _, k => .drop h1 h2 h3 h4 h5 (prunedL_trans r k)
end

/-! ### along a path -/

/-- What the predicates say about the element that a path reaches. -/
def innerAt : List Pred → List Step → List Pred
  | ps, [] => ps
  | ps, .child q _ :: r => innerAt (inner ps q) r
  | _, _ :: _ => []

/-- The predicates speak about all elements on the path. -/
def Known : List Pred → List Step → Prop
  | _, [] => True
  | ps, .child q _ :: r => q ∈ innerNames ps ∧ Known (inner ps q) r
  | _, _ :: _ => False

theorem known_of_pred : ∀ (p0 : List Step) (ps : List Pred) (pr : Pred) (st : Step) (r : List Step), pr ∈ ps → pr.valued = true →
    allChild p0 = true → pr.steps = p0 ++ st :: r → Known ps p0 ∧ ∃ pr' ∈ innerAt ps p0, pr'.valued = true ∧ pr'.steps = st :: r
  | [], ps, pr, st, r, hm, hv, _, hs => ⟨trivial, pr, hm, hv, hs⟩
  | .child q ps1 :: p0, ps, pr, st, r, hm, hv, hac, hs => by
    cases pr with
    | attr q' c => simp [Pred.steps] at hs
    | here c => simp [Pred.steps] at hs
    | child q' ps' rest =>
      simp only [Pred.steps, List.cons_append, List.cons.injEq, Step.child.injEq] at hs
      obtain ⟨⟨rfl, rfl⟩, hs⟩ := hs
      simp only [Pred.valued] at hv
      have hin : rest ∈ inner ps q' := by
        simp only [inner, List.mem_flatMap]
        exact ⟨_, hm, by simp [hv]⟩
      obtain ⟨h1, h2⟩ := known_of_pred p0 (inner ps q') rest st r hin hv hac hs
      refine ⟨⟨?_, h1⟩, h2⟩
      simp only [innerNames, List.mem_filterMap]
      exact ⟨_, hm, by simp [hv]⟩
  | .attr q :: p0, ps, pr, st, r, hm, hv, hac, hs => by simp [allChild] at hac
  | .text :: p0, ps, pr, st, r, hm, hv, hac, hs => by simp [allChild] at hac

theorem prunedL_modify {ps : List Pred} {q} {f : Node → Node} : ∀ {l : List Node} {i : Nat} {c : Node}, l[i]? = some c → c.isElem q = true → q ∈ innerNames ps →
    Pruned (inner ps q) c (f c) → PrunedL ps l (l.modify i f)
  | [], i, c, h, _, _, _ => by simp at h
  | d :: l, 0, c, h, h1, h2, h3 => by
    simp only [List.getElem?_cons_zero, Option.some.injEq] at h
    subst h
    exact .inside h1 h2 h3 (prunedL_refl _ _)
  | d :: l, i + 1, c, h, h1, h2, h3 => by
    simp only [List.getElem?_cons_succ] at h
    exact .same (prunedL_modify h h1 h2 h3)

theorem prunedL_erase {ps : List Pred} {q} {c' : Node} : ∀ {l : List Node} {i : Nat} {c : Node}, l[i]? = some c → c.isElem q = true → q ∈ innerNames ps →
    Pruned (inner ps q) c c' → c'.attrs = [] → c'.children = [] → PrunedL ps l (l.eraseIdx i)
  | [], i, c, h, _, _, _, _, _ => by simp at h
  | d :: l, 0, c, h, h1, h2, h3, h4, h5 => by
    simp only [List.getElem?_cons_zero, Option.some.injEq] at h
    subst h
    exact .drop h1 h2 h3 h4 h5 (prunedL_refl _ _)
  | d :: l, i + 1, c, h, h1, h2, h3, h4, h5 => by
    simp only [List.getElem?_cons_succ] at h
    exact .same (prunedL_erase h h1 h2 h3 h4 h5)

theorem pruned_children {ps : List Pred} {m : Node} {l : List Node} (h : PrunedL ps m.children l) : Pruned ps m (m.withChildren l) :=
  .mk (by simp) (by simp) (by simp) (by simp) (fun a ha h => absurd (by simpa using ha) h) (by simpa using h)

/-- Pruning inside of an element on the path prunes the whole. -/
theorem pruned_lift : ∀ (p0 : List Step) (ps : List Pred) (n m m' : Node) (b : Node.Addr), .elem b ∈ Step.matches p0 n → n.get b = some m → Known ps p0 →
    Pruned (innerAt ps p0) m m' → Pruned ps n (n.modify b (fun _ => m'))
  | [], ps, n, m, m', b, hb, hm, _, h => by
    simp only [Step.matches, List.mem_singleton, Ref.elem.injEq] at hb
    subst hb
    simp only [Node.get_nil, Option.some.injEq] at hm
    subst hm
    exact h
  | .child q ps1 :: p0, ps, n, m, m', b, hb, hm, hk, h => by
    obtain ⟨i, c, hc, hq, -, y, hy, hxy⟩ := mem_matches_child.mp hb
    obtain ⟨b', rfl, rfl⟩ := elem_under_iff hxy
    have hm' : c.get b' = some m := by
      rw [Node.get_cons, hc] at hm
      exact hm
    have ih := pruned_lift p0 (inner ps q) c m m' b' hy hm' hk.2 h
    rw [Node.modify_cons]
    exact pruned_children (prunedL_modify hc hq hk.1 ih)
  | .attr q :: p0, ps, n, m, m', b, _, _, hk, _ => by cases hk
  | .text :: p0, ps, n, m, m', b, _, _, hk, _ => by cases hk

variable [PyUnicode]

/-- Removing one step that the predicates require. -/
theorem removeOne_pruned {ps : List Pred} {pr : Pred} (hm : pr ∈ ps) (hv : pr.valued = true) {st r} (hs : pr.steps = st :: r)
    (H : ∀ q ps1, st = .child q ps1 → ∀ c c', stripAll ps1 c = (.ok (), c') → Pruned ps1 c c') (n : Node) :
    Pruned ps n (removeOne st (Step.test st) n).2 := by
  by_cases hok : (removeOne st (Step.test st) n).1 = .ok true
  swap
  · rw [removeOne_keep hok]; exact pruned_refl _ _
  cases st with
  | child q ps1 =>
    cases pr with
    | attr q' c => simp [Pred.steps] at hs
    | here c => simp [Pred.steps] at hs
    | child q' ps' rest =>
      simp only [Pred.steps, List.cons.injEq, Step.child.injEq] at hs
      obtain ⟨⟨rfl, rfl⟩, -⟩ := hs
      simp only [Pred.valued] at hv
      unfold removeOne at hok ⊢
      simp only at hok ⊢
      cases hh : (Step.matches [.child q' ps'] n).head? with
      | none => exact pruned_refl _ _
      | some x =>
        obtain ⟨i, c, rfl, hci, hq, -⟩ := match_child_one (List.mem_of_mem_head? hh)
        have hg : n.get [i] = some c := by simp [Node.get_cons, hci]
        rw [hh] at hok
        simp only [show (Ref.elem [i]).addr = [i] from rfl, hg] at hok ⊢
        cases ht : Step.test (.child q' ps') c with
        | error e => exact pruned_refl _ _
        | ok t =>
          cases t with
          | false => exact pruned_refl _ _
          | true =>
            simp only
            unfold Step.test bareAfter at ht
            simp only [Step.preds] at ht
            split at ht
            · rename_i c' hc'
              simp only [Except.ok.injEq, Bool.and_eq_true, List.isEmpty_iff] at ht
              have hpr := H q' ps' rfl c c' hc'
              have hsub : ps' ⊆ inner ps q' := by
                intro x hx
                simp only [inner, List.mem_flatMap]
                exact ⟨_, hm, by simp [hv, hx]⟩
              have hkn : q' ∈ innerNames ps := by
                simp only [innerNames, List.mem_filterMap]
                exact ⟨_, hm, by simp [hv]⟩
              have : removeAt [i] n = n.withChildren (n.children.eraseIdx i) := by
                simp [removeAt, Node.removeChild]
              rw [this]
              exact pruned_children (prunedL_erase hci hq hkn (pruned_mono hsub hpr) ht.2 ht.1)
            · simp at ht
  | attr q =>
    cases pr with
    | attr q' c =>
      simp only [Pred.steps, List.cons.injEq, Step.attr.injEq] at hs
      obtain ⟨rfl, -⟩ := hs
      simp only [Pred.valued, Option.isSome_iff_exists] at hv
      obtain ⟨v, rfl⟩ := hv
      unfold removeOne
      simp only
      split_ifs with h
      · refine .mk (by simp) (by simp) (by simp) ?_ ?_ ?_
        · simp only [Node.delAttr, Node.withAttrs_attrs]; exact List.filter_sublist
        · intro a ha ha'
          simp only [Node.delAttr, Node.withAttrs_attrs, List.mem_filter, not_and, Bool.not_eq_true, bne_eq_false_iff_eq] at ha'
          have := ha' ha
          rw [this]
          simp only [eqAttrs, List.mem_filterMap]
          exact ⟨_, hm, rfl⟩
        · simp only [Node.delAttr, Node.withAttrs_children]; exact prunedL_refl _ _
      · exact pruned_refl _ _
    | here c => simp [Pred.steps] at hs
    | child q' ps' rest => simp [Pred.steps] at hs
  | text =>
    exfalso
    cases pr <;> simp [Pred.steps] at hs

theorem path_pruned {ps : List Pred} {pr : Pred} (hm : pr ∈ ps) (hv : pr.valued = true)
    (H : ∀ q ps1, Step.child q ps1 ∈ pr.steps → ∀ c c', stripAll ps1 c = (.ok (), c') → Pruned ps1 c c') :
    ∀ (p1 : List Step), p1 <+: pr.steps → allChild p1.dropLast = true → ∀ n, Pruned ps n (pathR false p1.reverse n).2 := by
  intro p1
  induction p1 using List.reverseRecOn with
  | nil => intro _ _ n; exact pruned_refl _ _
  | append_singleton p0 st ih =>
    intro hpre hac n
    rw [List.dropLast_concat] at hac
    obtain ⟨r, hr⟩ := hpre
    rw [List.append_assoc] at hr
    obtain ⟨hkn, pr', hm', hv', hs'⟩ := known_of_pred p0 ps pr st r hm hv hac hr.symm
    rw [List.reverse_append, List.reverse_singleton, List.singleton_append]
    cases hh : (Step.matches p0 n).head? with
    | none => rw [pathR_none _ _ (by rw [List.reverse_reverse]; exact hh)]; exact pruned_refl _ _
    | some x =>
      obtain ⟨b, rfl⟩ := matches_allChild hac (List.mem_of_mem_head? hh)
      obtain ⟨m, hmb⟩ := get_of_match _ _ _ (List.mem_of_mem_head? hh)
      rw [show (Ref.elem b).addr = b from rfl] at hmb
      rw [pathR_hit _ _ (by rw [List.reverse_reverse]; exact hh) hmb]
      have h1 := removeOne_pruned hm' hv' hs' (fun q ps1 e => H q ps1 (by rw [← hr, ← e]; simp)) m
      simp only [Bool.false_eq_true, if_false]
      generalize removeOne st (Step.test st) m = R at h1 ⊢
      obtain ⟨res, m'⟩ := R
      match res with
      | .error e => exact pruned_refl _ _
      | .ok false => exact pruned_refl _ _
      | .ok true =>
        have hl := pruned_lift p0 ps n m m' b (List.mem_of_mem_head? hh) hmb hkn h1
        have hac' : allChild p0.dropLast = true := by
          rcases List.eq_nil_or_concat p0 with rfl | ⟨p', st', rfl⟩
          · rfl
          · rw [List.concat_eq_append] at hac ⊢
            rw [List.dropLast_concat]; exact (allChild_left hac).1
        have h2 := ih ⟨st :: r, hr⟩ hac' (n.modify b (fun _ => m'))
        simp only [andThen]
        generalize pathR false p0.reverse (n.modify b fun _ => m') = R2 at h2 ⊢
        obtain ⟨r2, n2⟩ := R2
        cases r2 <;> exact pruned_trans hl h2

theorem steps_allChild : ∀ pr : Pred, allChild pr.steps.dropLast = true
  | .attr q c => rfl
  | .here c => rfl
  | .child q ps rest => by
    have := steps_allChild rest
    rw [Pred.steps]
    cases h : rest.steps with
    | nil => rfl
    | cons st r => rw [h] at this; simpa [List.dropLast, allChild] using this

theorem steps_size : ∀ (pr : Pred) {q ps}, Step.child q ps ∈ pr.steps → sizeOf ps < sizeOf pr
  | .attr q c, q', ps', h => by simp [Pred.steps] at h
  | .here c, q', ps', h => by simp [Pred.steps] at h
  | .child q ps rest, q', ps', h => by
    simp only [Pred.steps, List.mem_cons, Step.child.injEq] at h
    rcases h with ⟨rfl, rfl⟩ | h
    · simp; omega
    · have := steps_size rest h
      simp; omega

/-- Removing predicates only prunes. -/
theorem strip_pruned : ∀ (N : Nat) (ps : List Pred), sizeOf ps ≤ N → ∀ n, Pruned ps n (stripAll ps n).2 := by
  intro N
  induction N with
  | zero => intro ps h; cases ps <;> simp at h
  | succ N ih =>
    intro ps h n
    cases ps with
    | nil => exact pruned_refl _ _
    | cons p ps =>
      rw [stripAll_cons]
      have h1 : Pruned (p :: ps) n (stripP p n).2 := by
        unfold stripP
        split_ifs with hc
        · refine path_pruned (List.mem_cons_self) hc.1 (fun q ps1 hst c c' hcc => ?_) p.steps (List.prefix_refl _) (steps_allChild p) n
          have := steps_size p hst
          have := ih ps1 (by simp at h; omega) c
          rw [hcc] at this
          exact this
        · exact pruned_refl _ _
      unfold seqA
      generalize stripP p n = R at h1 ⊢
      obtain ⟨r, n'⟩ := R
      cases r with
      | error e => exact h1
      | ok u =>
        refine pruned_trans h1 (pruned_mono (List.subset_cons_self _ _) (ih ps (by simp at h; omega) n'))

/-- An element that the test finds empty is left over. -/
theorem test_leftover {st : Step} {m : Node} (h : Step.test st m = .ok true) : Leftover st.preds m := by
  unfold Step.test bareAfter at h
  split at h
  · rename_i m' hm'
    simp only [Except.ok.injEq, Bool.and_eq_true, List.isEmpty_iff] at h
    have := strip_pruned _ st.preds (Nat.le_refl _) m
    rw [hm'] at this
    exact ⟨m', this, h.2, h.1⟩
  · simp at h

end Fields
