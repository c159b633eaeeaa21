import Verif.Forms.FormsetDoc
import Verif.XmlMap.NodeListLemmas
/-
A formset on the document does what the abstract formset (Verif/Forms/Formsets.lean, C52) does: each step of `docFormsetUpdate` follows that of `formsetUpdate`.
-/
namespace Forms
open XPath Xml Spec Fields

theorem nodeItem_ok (q : QName) (ps : List Pred) : StoreOk q ps nodeItem (fun r v => storeNode r (.foreign v)) (fun _ => True) id (fun v _ => v) (fun v => isMember q ps v = true) := by
  have e : nodeItem = (fun it => match it with | .elem m => .ok m | _ => .error .typeError) := by funext it; cases it <;> rfl
  rw [e]
  exact storeNode_ok q ps

theorem pos_nat {len k : Nat} (h : k < len) : pos len (k : Int) = some k := by
  unfold pos
  rw [if_pos ⟨by omega, by omega⟩]
  simp

section
variable {q : QName} {ps : List Pred} {I : Type} [DecidableEq I]

theorem holds_members {n : Node} {l : List Node} (h : members q ps n = l) : Holds q ps (fun _ => True) id n l := ⟨fun _ _ => trivial, by simp [h]⟩

/-- The state of the formset on the document `s`, whose element at `a` was `n`, and the state of the abstract formset: the members have the contents of the elements
in the list, in order, everything but the members is as it was, and each element is where it should be. -/
structure Sim (q : QName) (ps : List Pred) (a : Node.Addr) (s n : Node) (st : FSt I) (el : Elems I Node) : Prop where
  doc : ∃ n', st.doc = s.modify a (fun _ => n') ∧ members q ps n' = el.list.map el.content ∧ SameButMembers q ps n n'
  nodup : el.list.Nodup
  there : ∀ k i, el.list[k]? = some i → st.inst i = .member k
  away : ∀ i, i ∉ el.list → st.inst i = .detached (el.content i)

variable [PyUnicode] {eng : Engine} {ctx : Ctx} {xp : Str} {ax : Option Str} {t : NodeTest} {es : List Expr}
variable (heng : EngineOk eng) (hp : parse0 xp = .ok (.step ax t es)) (hr : res ctx (.step ax t es) = some ([.child q ps], none))
include heng hp hr

omit [DecidableEq I] in
theorem sim_elem {a s n} (hs : Node.get a s = some n) {st : FSt I} {el : Elems I Node} (h : Sim q ps a s n st el) (i : I) :
    st.elem eng ctx xp (.elem a) i = .ok (el.content i) := by
  by_cases hi : i ∈ el.list
  · obtain ⟨k, hk⟩ := List.mem_iff_getElem?.mp hi
    obtain ⟨n', h1, h2, -⟩ := h.doc
    have hs' : st.doc.get a = some n' := by rw [h1, Node.get_modify, hs]; rfl
    have hkl : k < el.list.length := (List.getElem?_eq_some_iff.mp hk).1
    unfold FSt.elem
    rw [h.there k i hk]
    simp only
    rw [listGet_run heng hp hr (nodeItem_ok q ps) hs' (holds_members h2) k]
    rw [pyGet_pos]
    have : pos (el.list.map el.content).length (k : Int) = some k := by
      exact pos_nat (by simpa using hkl)
    rw [this]
    simp [hk]
  · unfold FSt.elem
    rw [h.away i hi]

theorem sim_contains {a s n} (hs : Node.get a s = some n) {st : FSt I} {el : Elems I Node} (h : Sim q ps a s n st el) (i : I) :
    st.contains eng ctx xp (.elem a) i = .ok (el.contains i) := by
  obtain ⟨n', h1, h2, -⟩ := h.doc
  have hs' : st.doc.get a = some n' := by rw [h1, Node.get_modify, hs]; rfl
  unfold FSt.contains
  rw [sim_elem heng hp hr hs h i]
  show (listContains eng ctx nodeItem xp (.elem a) (el.content i) st.doc).1 = _
  unfold listContains
  rw [bind_ok (listData_run heng hp hr (nodeItem_ok q ps) hs' (holds_members h2))]
  show Except.ok _ = _
  congr 1
  unfold Elems.contains
  rw [Bool.eq_iff_iff]
  simp

theorem sim_remove {a s n} (hs : Node.get a s = some n) {st : FSt I} {el : Elems I Node} (h : Sim q ps a s n st el) (i : I) (hc : el.contains i = true) :
    ∃ st', st.remove eng ctx xp (.elem a) i = .ok st' ∧ Sim q ps a s n st' (el.remove i) := by
  obtain ⟨n', h1, h2, h3⟩ := h.doc
  have hs' : st.doc.get a = some n' := by rw [h1, Node.get_modify, hs]; rfl
  have hd := h.nodup
  unfold Elems.contains at hc
  obtain ⟨b, hb, hpb⟩ := List.any_eq_true.mp hc
  obtain ⟨x, l₁, l₂, k1, k2, k3, k4⟩ := List.exists_of_eraseP (p := fun y => el.content y == el.content i) hb hpb
  simp only [beq_iff_eq] at k1 k2
  have hidx : (el.list.map el.content).idxOf? (el.content i) = some l₁.length := by
    rw [idxOf?_mem (by rw [k3]; simp [k2]), k3, List.map_append, List.map_cons, ← k2, List.idxOf_append_of_notMem, List.idxOf_cons_self]
    · simp
    · rw [List.mem_map]
      rintro ⟨y, hy, e⟩
      exact k1 y hy (e.trans k2)
  have hpos : pos (el.list.map el.content).length (l₁.length : Int) = some l₁.length := by
    exact pos_nat (by rw [k3]; simp)
  have hget : (listGet eng ctx nodeItem xp (.elem a) (l₁.length : Int) st.doc).1 = .ok (el.content x) := by
    rw [listGet_run heng hp hr (nodeItem_ok q ps) hs' (holds_members h2), pyGet_pos, hpos]
    simp [k3]
  have hindex : (listIndex eng ctx nodeItem xp (.elem a) (el.content i) st.doc).1 = .ok l₁.length := by
    unfold listIndex
    rw [bind_ok (listData_run heng hp hr (nodeItem_ok q ps) hs' (holds_members h2)), hidx]
    rfl
  have hdel := listDel_run heng hp hr hs' (holds_members h2) (l₁.length : Int)
  rw [hpos] at hdel
  simp only at hdel
  obtain ⟨n'', d1, d2, d3⟩ := hdel
  refine ⟨⟨st.doc.modify a (fun _ => n''), fun j => (st.inst j).removed l₁.length (el.content x)⟩, ?_, ?_⟩
  · unfold FSt.remove
    rw [sim_elem heng hp hr hs h i]
    simp only [bind, Except.bind, hindex, hget, d1]
  · have hrem : el.remove i = ⟨l₁ ++ l₂, el.content⟩ := by unfold Elems.remove; rw [k4]
    rw [hrem]
    rw [k3] at hd
    have hx : x ∉ l₁ ++ l₂ := by
      rw [List.nodup_append] at hd
      intro hx
      rcases List.mem_append.mp hx with hx | hx
      · exact hd.2.2 x hx x (by simp) rfl
      · exact (List.nodup_cons.mp hd.2.1).1 hx
    refine ⟨⟨n'', ?_, ?_, same_trans h3 d3⟩, ?_, ?_, ?_⟩
    · show st.doc.modify a (fun _ => n'') = _
      rw [h1, Node.modify_modify]; rfl
    · have := d2.2
      simp only [List.map_id] at this
      rw [this, k3, List.map_append, List.map_cons, ← List.length_map (f := el.content), eraseIdx_mid, List.map_append]
    · exact List.Nodup.sublist (by simp) hd
    · intro k j hk
      have hj : j ∈ l₁ ++ l₂ := List.mem_iff_getElem?.mpr ⟨k, hk⟩
      show Handle.removed l₁.length (el.content x) (st.inst j) = _
      by_cases hlt : k < l₁.length
      · rw [List.getElem?_append_left hlt] at hk
        rw [h.there k j (by rw [k3, List.getElem?_append_left hlt, hk])]
        simp only [Handle.removed]
        rw [if_neg (by omega), if_neg (by omega)]
      · rw [List.getElem?_append_right (by omega)] at hk
        rw [h.there (k + 1) j (by rw [k3, List.getElem?_append_right (by omega), show k + 1 - l₁.length = (k - l₁.length) + 1 by omega, List.getElem?_cons_succ, hk])]
        simp only [Handle.removed]
        rw [if_neg (by omega), if_pos (by omega)]
        simp
    · intro j hj
      show Handle.removed l₁.length (el.content x) (st.inst j) = _
      by_cases hjx : j = x
      · subst hjx
        rw [h.there l₁.length j (by rw [k3]; simp)]
        simp [Handle.removed]
      · have : j ∉ el.list := by
          rw [k3]
          simp only [List.mem_append, List.mem_cons] at hj ⊢
          tauto
        rw [h.away j this]
        rfl

theorem sim_removeIfThere {a s n} (hs : Node.get a s = some n) {st : FSt I} {el : Elems I Node} (h : Sim q ps a s n st el) (i : I) :
    ∃ st', st.removeIfThere eng ctx xp (.elem a) i = .ok st' ∧ Sim q ps a s n st' (if el.contains i then el.remove i else el) := by
  unfold FSt.removeIfThere
  rw [sim_contains heng hp hr hs h i]
  cases hc : el.contains i with
  | false => exact ⟨st, rfl, by simpa using h⟩
  | true =>
    obtain ⟨st', e, h'⟩ := sim_remove heng hp hr hs h i hc
    exact ⟨st', e, by simpa using h'⟩

theorem sim_update {a s n} (hs : Node.get a s = some n) {st : FSt I} {el : Elems I Node} (h : Sim q ps a s n st el) (upd : I → Node → Node) (i : I)
    (hm : isMember q ps (upd i (el.content i)) = true) :
    ∃ st', st.update eng ctx xp (.elem a) upd i = .ok st' ∧ Sim q ps a s n st' (el.update upd i) := by
  obtain ⟨n', h1, h2, h3⟩ := h.doc
  have hs' : st.doc.get a = some n' := by rw [h1, Node.get_modify, hs]; rfl
  have hd := h.nodup
  by_cases hi : i ∈ el.list
  · obtain ⟨l₁, l₂, k3⟩ := List.append_of_mem hi
    have hi1 : i ∉ l₁ := by
      rw [k3, List.nodup_append] at hd
      intro hx
      exact hd.2.2 i hx i (by simp) rfl
    have hi2 : i ∉ l₂ := by
      rw [k3, List.nodup_append] at hd
      exact (List.nodup_cons.mp hd.2.1).1
    have hH := holds_members h2
    obtain ⟨A, m, B, g1, g2, -, g4, g5, g6, -, -⟩ := member_at hH (k := l₁.length) (by rw [k3]; simp)
    simp only [List.map_id, id] at g6
    have hAm : A.filter (isMember q ps) = l₁.map el.content ∧ m = el.content i ∧ B.filter (isMember q ps) = l₂.map el.content := by
      rw [k3, List.map_append, List.map_cons] at g6
      have := List.append_inj g6 (by simp [g4])
      obtain ⟨e1, e2⟩ := this
      injection e2 with e2 e3
      exact ⟨e1.symm, e2.symm, e3.symm⟩
    obtain ⟨e1, rfl, e3⟩ := hAm
    refine ⟨⟨st.doc.modify (a ++ [A.length]) (upd i), st.inst⟩, ?_, ?_⟩
    · unfold FSt.update
      rw [h.there l₁.length i (by rw [k3]; simp)]
      simp only
      rw [listMatches_run heng hp hr hs']
      have : pyGet ((idxs (isMember q ps) n'.children).map (fun i => Ref.elem (a ++ [i]))) (l₁.length : Int) = .ok (.elem (a ++ [A.length])) := by
        rw [pyGet_pos, matches_length hH a]
        have : pos (el.list.map el.content).length (l₁.length : Int) = some l₁.length := by
          exact pos_nat (by rw [k3]; simp)
        rw [this]
        simp [g5]
      show (do let r ← pyGet ((idxs (isMember q ps) n'.children).map (fun i => Ref.elem (a ++ [i]))) (l₁.length : Int); _) = _
      rw [this]
      rfl
    · refine ⟨⟨n'.withChildren (A ++ upd i (el.content i) :: B), ?_, ?_, same_trans h3 (same_mid g1 g2 hm)⟩, hd, h.there, ?_⟩
      · show st.doc.modify (a ++ [A.length]) (upd i) = _
        rw [modify_at_mid hs' g1, h1, Node.modify_modify]; rfl
      · rw [members_mid hm, e1, e3]
        show _ = el.list.map (fun y => if y = i then upd i (el.content i) else el.content y)
        rw [k3, List.map_append, List.map_cons, if_pos rfl]
        congr 1
        · refine List.map_congr_left (fun y hy => ?_)
          rw [if_neg (fun e => hi1 (by rw [← e]; exact hy))]
        · congr 1
          refine List.map_congr_left (fun y hy => ?_)
          rw [if_neg (fun e => hi2 (by rw [← e]; exact hy))]
      · intro j hj
        show st.inst j = .detached (if j = i then _ else _)
        rw [if_neg (fun e => hj (by rw [e]; exact hi))]
        exact h.away j hj
  · refine ⟨{ st with inst := fun j => if j = i then .detached (upd i (el.content i)) else st.inst j }, ?_, ?_⟩
    · unfold FSt.update
      rw [h.away i hi]
    · refine ⟨⟨n', h1, ?_, h3⟩, hd, ?_, ?_⟩
      · rw [h2]
        refine List.map_congr_left (fun y hy => ?_)
        show _ = if y = i then _ else _
        rw [if_neg (fun e => hi (by rw [← e]; exact hy))]
      · intro k j hk
        show (if j = i then _ else _) = _
        rw [if_neg (fun e => hi (by rw [← e]; exact List.mem_iff_getElem?.mpr ⟨k, hk⟩))]
        exact h.there k j hk
      · intro j hj
        show (if j = i then _ else _) = Handle.detached (if j = i then _ else _)
        split_ifs with e
        · rfl
        · exact h.away j hj

variable (hok : okAll ps = true)
include hok

/-- Appending a member: it is moved behind the last one. -/
theorem listSet_own {a s n} (hs : Node.get a s = some n) {A B : List Node} {m : Node} (hc : n.children = A ++ m :: B) (hm : isMember q ps m = true) :
    ∃ n', listSet eng ctx storeNode xp (.step ax t es) (.elem a) (members q ps n).length (.own (a ++ [A.length])) s = (.ok (), s.modify a (fun _ => n')) ∧
      members q ps n' = A.filter (isMember q ps) ++ B.filter (isMember q ps) ++ [m] ∧ SameButMembers q ps n n' := by
  have hH := holds_members (rfl : members q ps n = members q ps n)
  have hlen : 0 < (members q ps n).length := by rw [members, hc]; simp [hm]
  obtain ⟨A', m', B', g1, g2, -, g4, g5, g6, -, -⟩ := member_at hH (k := (members q ps n).length - 1) (by omega)
  have hB' : ∀ m ∈ B', isMember q ps m = false := by
    have hl := congrArg List.length g6
    simp only [List.length_append, List.length_map, List.length_cons] at hl
    have : B'.filter (isMember q ps) = [] := by rw [← List.length_eq_zero_iff]; omega
    rw [List.filter_eq_nil_iff] at this
    intro m hm
    simpa using this m hm
  obtain ⟨D, hD, hBD⟩ : ∃ D, A' ++ [m'] = A ++ m :: D ∧ B = D ++ B' := by
    have e : A ++ m :: B = (A' ++ [m']) ++ B' := by rw [← hc, g1]; simp
    rcases List.append_eq_append_iff.mp e with ⟨c, e1, e2⟩ | ⟨c, e1, e2⟩
    · cases c with
      | nil =>
        simp only [List.nil_append] at e2
        have := hB' m (by rw [← e2]; simp)
        rw [hm] at this; cases this
      | cons y c =>
        simp only [List.cons_append, List.cons.injEq] at e2
        exact ⟨c, by rw [e1, e2.1], e2.2⟩
    · have := hB' m (by rw [e2]; simp)
      rw [hm] at this; cases this
  generalize hC : A' ++ [m'] = C at hD
  have hcC : n.children = C ++ B' := by rw [g1, ← hC]; simp
  have hgl : ((idxs (isMember q ps) n.children).map (fun i => Ref.elem (a ++ [i]))).getLast? = some (.elem (a ++ [A'.length])) := by
    rw [List.getLast?_eq_getElem?, matches_length hH a, List.getElem?_map, g5]; rfl
  have happ : appendIndex ((idxs (isMember q ps) n.children).map (fun i => Ref.elem (a ++ [i]))) s = (.ok (some C.length), s) := by
    unfold appendIndex
    rw [hgl]
    have hpos : positionOf (.elem (a ++ [A'.length])) s = (.ok A'.length, s) := by simp [positionOf]; rfl
    simp only
    rw [bind_ok hpos, ← hC]
    simp
    rfl
  have hcr := createNode_at (eng := eng) hr hok hs hcC
  generalize hs1 : s.modify a (fun _ => n.withChildren (C ++ newElem q ps :: B')) = s1 at hcr
  have hsa : s1.get a = some (n.withChildren (C ++ newElem q ps :: B')) := by rw [← hs1, Node.get_modify, hs]; rfl
  have hgm : s1.get (a ++ [A.length]) = some m := get_mid hsa (A := A) (B := D ++ newElem q ps :: B') (by rw [hD]; simp)
  have hlt : A.length ≠ C.length := by rw [hD]; simp
  refine ⟨n.withChildren (A ++ D ++ m :: B'), ?_, ?_, ?_⟩
  · unfold listSet
    rw [bind_ok (listMatches_run heng hp hr hs), matches_length hH a, if_pos rfl, bind_assoc', bind_ok happ, bind_ok hcr]
    simp only [storeNode]
    rw [if_neg (by simp), bind_ok (show nodeAt (a ++ [A.length]) s1 = (.ok m, s1) by simp only [nodeAt, hgm])]
    rw [if_neg (by
        intro h
        have := h.length_le
        simp at this),
      if_neg (by simpa using fun e : C.length = A.length => hlt e.symm),
      if_neg (by
        intro h
        have e := h.eq_of_length (by simp)
        simp at e
        exact hlt e.symm)]
    show (Except.ok (), (s1.modify (a ++ [C.length]) (fun _ => m)).modify (a ++ [A.length]).dropLast (Node.removeChild _)) = _
    rw [modify_at_mid hsa (Node.withChildren_children _ _), List.dropLast_concat, Node.modify_modify, ← hs1, Node.modify_modify]
    congr 1
    refine Node.modify_congr hs ?_
    simp only [Function.comp, Node.withChildren_withChildren, Node.removeChild, Node.withChildren_children, List.getLast?_append, List.getLast?_singleton, Option.some_or, Option.getD_some]
    congr 1
    rw [hD, List.append_assoc, List.cons_append, eraseIdx_mid, List.append_assoc]
  · rw [List.append_assoc, ← List.append_assoc A D, members_mid hm, hBD]
    have : B'.filter (isMember q ps) = [] := by rw [List.filter_eq_nil_iff]; intro m hm; simp [hB' m hm]
    simp [this]
  · simp [SameButMembers, others, hcC, hD, hm]

theorem sim_append {a s n} (hs : Node.get a s = some n) {st : FSt I} {el : Elems I Node} (h : Sim q ps a s n st el) (i : I) (hm : isMember q ps (el.content i) = true) :
    ∃ st', st.append eng ctx xp (.step ax t es) (.elem a) i = .ok st' ∧ Sim q ps a s n st' (el.append i) := by
  obtain ⟨n', h1, h2, h3⟩ := h.doc
  have hs' : st.doc.get a = some n' := by rw [h1, Node.get_modify, hs]; rfl
  have hd := h.nodup
  have hH := holds_members h2
  have hlen : (listLen eng ctx nodeItem xp (.elem a) st.doc).1 = .ok el.list.length := by
    rw [listLen_run heng hp hr (nodeItem_ok q ps) hs' hH]; simp
  by_cases hi : i ∈ el.list
  · obtain ⟨l₁, l₂, k3⟩ := List.append_of_mem hi
    have hi1 : i ∉ l₁ := by
      rw [k3, List.nodup_append] at hd
      intro hx
      exact hd.2.2 i hx i (by simp) rfl
    have hi2 : i ∉ l₂ := by
      rw [k3, List.nodup_append] at hd
      exact (List.nodup_cons.mp hd.2.1).1
    obtain ⟨A, m, B, g1, g2, -, g4, g5, g6, -, -⟩ := member_at hH (k := l₁.length) (by rw [k3]; simp)
    simp only [List.map_id, id] at g6
    have hAm : A.filter (isMember q ps) = l₁.map el.content ∧ m = el.content i ∧ B.filter (isMember q ps) = l₂.map el.content := by
      rw [k3, List.map_append, List.map_cons] at g6
      have := List.append_inj g6 (by simp [g4])
      obtain ⟨e1, e2⟩ := this
      injection e2 with e2 e3
      exact ⟨e1.symm, e2.symm, e3.symm⟩
    obtain ⟨e1, rfl, e3⟩ := hAm
    obtain ⟨n'', o1, o2, o3⟩ := listSet_own heng hp hr hok hs' g1 g2
    rw [h2, List.length_map] at o1
    have hget : pyGet ((idxs (isMember q ps) n'.children).map (fun i => Ref.elem (a ++ [i]))) (l₁.length : Int) = .ok (.elem (a ++ [A.length])) := by
      rw [pyGet_pos, matches_length hH a]
      have : pos (el.list.map el.content).length (l₁.length : Int) = some l₁.length := by
        exact pos_nat (by rw [k3]; simp)
      rw [this]
      simp [g5]
    have herase : el.list.erase i = l₁ ++ l₂ := by
      rw [k3, List.erase_append_right _ hi1, List.erase_cons_head]
    refine ⟨⟨st.doc.modify a (fun _ => n''), fun j => if j = i then .member (el.list.length - 1) else (st.inst j).moved l₁.length⟩, ?_, ?_⟩
    · unfold FSt.append
      rw [hlen, h.there l₁.length i (by rw [k3]; simp)]
      simp only [bind, Except.bind]
      rw [listMatches_run heng hp hr hs']
      simp only [hget, o1]
    · have happ : el.append i = ⟨l₁ ++ l₂ ++ [i], el.content⟩ := by unfold Elems.append; rw [herase]
      rw [happ]
      refine ⟨⟨n'', ?_, ?_, same_trans h3 o3⟩, ?_, ?_, ?_⟩
      · show st.doc.modify a (fun _ => n'') = _
        rw [h1, Node.modify_modify]; rfl
      · rw [o2, e1, e3]; simp
      · have hp' : (l₁ ++ l₂ ++ [i]).Perm el.list := by
          rw [k3, List.append_assoc]
          exact List.Perm.append_left _ (List.perm_append_singleton _ _)
        exact hp'.nodup_iff.mpr hd
      · intro k j hk
        show (if j = i then _ else Handle.moved l₁.length (st.inst j)) = _
        by_cases hlt : k < l₁.length
        · rw [List.append_assoc, List.getElem?_append_left hlt] at hk
          have hne : j ≠ i := fun e => hi1 (by rw [← e]; exact List.mem_iff_getElem?.mpr ⟨k, hk⟩)
          rw [if_neg hne, h.there k j (by rw [k3, List.getElem?_append_left hlt, hk])]
          simp only [Handle.moved]
          rw [if_neg (by omega)]
        · rw [List.append_assoc, List.getElem?_append_right (by omega)] at hk
          by_cases hlt2 : k - l₁.length < l₂.length
          · rw [List.getElem?_append_left hlt2] at hk
            have hne : j ≠ i := fun e => hi2 (by rw [← e]; exact List.mem_iff_getElem?.mpr ⟨_, hk⟩)
            rw [if_neg hne, h.there (k + 1) j (by
              rw [k3, List.getElem?_append_right (by omega), show k + 1 - l₁.length = (k - l₁.length) + 1 by omega, List.getElem?_cons_succ, hk])]
            simp only [Handle.moved]
            rw [if_pos (by omega)]
            simp
          · rw [List.getElem?_append_right (by omega)] at hk
            obtain ⟨hk1, hk2⟩ := List.getElem?_eq_some_iff.mp hk
            simp only [List.length_singleton] at hk1
            have hji : j = i := by rw [← hk2]; simp
            rw [if_pos hji]
            congr 1
            rw [k3]
            simp only [List.length_append, List.length_cons]
            omega
      · intro j hj
        have hj' : j ∉ el.list := by
          rw [k3]
          simp only [List.mem_append, List.mem_cons, List.not_mem_nil, or_false] at hj ⊢
          tauto
        show (if j = i then _ else Handle.moved l₁.length (st.inst j)) = _
        rw [if_neg (fun e => hj (by simp [e])), h.away j hj']
        rfl
  · obtain ⟨n'', o1, o2, o3, -⟩ := listSet_end heng hp hr hok (nodeItem_ok q ps) hs' hH hm
    have o1' : listSet eng ctx storeNode xp (.step ax t es) (.elem a) (el.list.length : Int) (.foreign (el.content i)) st.doc = (.ok (), st.doc.modify a (fun _ => n'')) := by
      rw [List.length_map] at o1; exact o1
    refine ⟨⟨st.doc.modify a (fun _ => n''), fun j => if j = i then .member el.list.length else st.inst j⟩, ?_, ?_⟩
    · unfold FSt.append
      rw [hlen, h.away i hi]
      simp only [bind, Except.bind, o1']
    · have happ : el.append i = ⟨el.list ++ [i], el.content⟩ := by unfold Elems.append; rw [List.erase_of_not_mem hi]
      rw [happ]
      refine ⟨⟨n'', ?_, ?_, same_trans h3 o3⟩, ?_, ?_, ?_⟩
      · show st.doc.modify a (fun _ => n'') = _
        rw [h1, Node.modify_modify]; rfl
      · have := o2.2
        simp only [List.map_id] at this
        rw [this]; simp
      · rw [List.nodup_append]
        refine ⟨hd, by simp, ?_⟩
        intro x hx y hy e
        simp only [List.mem_singleton] at hy
        exact hi (by rw [← hy, ← e]; exact hx)
      · intro k j hk
        show (if j = i then _ else _) = _
        by_cases hlt : k < el.list.length
        · rw [List.getElem?_append_left hlt] at hk
          rw [if_neg (fun e => hi (by rw [← e]; exact List.mem_iff_getElem?.mpr ⟨k, hk⟩))]
          exact h.there k j hk
        · rw [List.getElem?_append_right (by omega)] at hk
          obtain ⟨hk1, hk2⟩ := List.getElem?_eq_some_iff.mp hk
          simp only [List.length_singleton] at hk1
          have hji : j = i := by rw [← hk2]; simp
          rw [if_pos hji]
          congr 1
          omega
      · intro j hj
        simp only [List.mem_append, List.mem_singleton, not_or] at hj
        show (if j = i then _ else _) = _
        rw [if_neg hj.2]
        exact h.away j hj.1

/-- The contents stay such that updating them gives members. -/
def Fine (q : QName) (ps : List Pred) (upd : I → Node → Node) (P : I → Node → Prop) : Prop := ∀ i c, P i c → P i (upd i c) ∧ isMember q ps (upd i c) = true

omit heng hp hr hok [PyUnicode] in
theorem fine_update {upd : I → Node → Node} {P : I → Node → Prop} (hf : Fine q ps upd P) {el : Elems I Node} (h : ∀ i, P i (el.content i)) (x : I) :
    ∀ i, P i ((el.update upd x).content i) := by
  intro i
  show P i (if i = x then upd x (el.content x) else el.content i)
  split_ifs with e
  · rw [e]; exact (hf x _ (h x)).1
  · exact h i

omit hok in
theorem sim_removeDeleted {a s n} (hs : Node.get a s = some n) : ∀ (fs : List (MForm I)) {st : FSt I} {el : Elems I Node}, Sim q ps a s n st el →
    ∃ st', docRemoveDeleted eng ctx xp (.elem a) st fs = .ok st' ∧ Sim q ps a s n st' (removeDeleted el fs)
  | [], st, el, h => ⟨st, rfl, h⟩
  | f :: fs, st, el, h => by
    obtain ⟨st', e, h'⟩ := sim_removeIfThere heng hp hr hs h f.inst
    obtain ⟨st'', e', h''⟩ := sim_removeDeleted hs fs h'
    exact ⟨st'', by rw [docRemoveDeleted, e]; exact e', h''⟩

omit heng hp hr hok [PyUnicode] in
theorem removeIf_content (el : Elems I Node) (x : I) : (if el.contains x then el.remove x else el).content = el.content := by split_ifs <;> rfl

omit heng hp hr hok [PyUnicode] in
theorem removeDeleted_content : ∀ (fs : List (MForm I)) (el : Elems I Node), (removeDeleted el fs).content = el.content
  | [], el => rfl
  | f :: fs, el => by rw [removeDeleted, removeDeleted_content fs, removeIf_content]

theorem sim_reorder {a s n} (hs : Node.get a s = some n) {upd : I → Node → Node} {P : I → Node → Prop} (hf : Fine q ps upd P) : ∀ (fs : List (MForm I)) {st : FSt I} {el : Elems I Node},
    Sim q ps a s n st el → (∀ i, P i (el.content i)) →
    ∃ st', docReorder eng ctx xp (.step ax t es) (.elem a) upd st fs = .ok st' ∧ Sim q ps a s n st' (reorder upd el fs) ∧ ∀ i, P i ((reorder upd el fs).content i)
  | [], st, el, h, hP => ⟨st, rfl, h, hP⟩
  | f :: fs, st, el, h, hP => by
    obtain ⟨st1, e1, h1⟩ := sim_removeIfThere heng hp hr hs h f.inst
    rw [docReorder, reorder, e1]
    generalize hel : (if el.contains f.inst then el.remove f.inst else el) = el1 at h1
    have hP1 : ∀ i, P i (el1.content i) := by rw [← hel, removeIf_content]; exact hP
    have hm := (hf f.inst _ (hP1 f.inst)).2
    obtain ⟨st2, e2, h2⟩ := sim_update heng hp hr hs h1 upd f.inst hm
    obtain ⟨st3, e3, h3⟩ := sim_append heng hp hr hok hs h2 f.inst (by
      show isMember q ps (if f.inst = f.inst then _ else _) = true
      rw [if_pos rfl]; exact hm)
    obtain ⟨st4, e4, h4, hP4⟩ := sim_reorder hs hf fs h3 (fine_update hf hP1 f.inst)
    refine ⟨st4, ?_, h4, hP4⟩
    simp only [bind, Except.bind, e2, e3]
    exact e4

omit hok in
theorem sim_updateInitial {a s n} (hs : Node.get a s = some n) {upd : I → Node → Node} {P : I → Node → Prop} (hf : Fine q ps upd P) : ∀ (fs : List (MForm I)) {st : FSt I} {el : Elems I Node},
    Sim q ps a s n st el → (∀ i, P i (el.content i)) →
    ∃ st', docUpdateInitial eng ctx xp (.elem a) upd st fs = .ok st' ∧ Sim q ps a s n st' (updateInitial upd el fs) ∧ ∀ i, P i ((updateInitial upd el fs).content i)
  | [], st, el, h, hP => ⟨st, rfl, h, hP⟩
  | f :: fs, st, el, h, hP => by
    rw [docUpdateInitial, updateInitial]
    cases hc : f.changed with
    | false =>
      simp only [Bool.false_eq_true, if_false, pure_bind]
      exact sim_updateInitial hs hf fs h hP
    | true =>
      obtain ⟨st2, e2, h2⟩ := sim_update heng hp hr hs h upd f.inst (hf f.inst _ (hP f.inst)).2
      simp only [if_true, bind, Except.bind, e2]
      exact sim_updateInitial hs hf fs h2 (fine_update hf hP f.inst)

theorem sim_updateExtra {a s n} (hs : Node.get a s = some n) {upd : I → Node → Node} {P : I → Node → Prop} (hf : Fine q ps upd P) : ∀ (fs : List (MForm I)) {st : FSt I} {el : Elems I Node},
    Sim q ps a s n st el → (∀ i, P i (el.content i)) →
    ∃ st', docUpdateExtra eng ctx xp (.step ax t es) (.elem a) upd st fs = .ok st' ∧ Sim q ps a s n st' (updateExtra upd el fs) ∧ ∀ i, P i ((updateExtra upd el fs).content i)
  | [], st, el, h, hP => ⟨st, rfl, h, hP⟩
  | f :: fs, st, el, h, hP => by
    rw [docUpdateExtra, updateExtra]
    cases hc : f.changed with
    | false =>
      simp only [Bool.false_eq_true, if_false, pure_bind]
      exact sim_updateExtra hs hf fs h hP
    | true =>
      have hm := (hf f.inst _ (hP f.inst)).2
      obtain ⟨st2, e2, h2⟩ := sim_update heng hp hr hs h upd f.inst hm
      obtain ⟨st3, e3, h3⟩ := sim_append heng hp hr hok hs h2 f.inst (by
        show isMember q ps (if f.inst = f.inst then _ else _) = true
        rw [if_pos rfl]; exact hm)
      simp only [if_true, bind, Except.bind, e2, e3]
      exact sim_updateExtra hs hf fs h3 (fine_update hf hP f.inst)

omit hok in
theorem sim_validate {a s n} (hs : Node.get a s = some n) {upd : I → Node → Node} {P : I → Node → Prop} (hf : Fine q ps upd P) : ∀ (fs : List (MForm I)) {st : FSt I} {el : Elems I Node},
    Sim q ps a s n st el → (∀ i, P i (el.content i)) →
    ∃ st', docValidate eng ctx xp (.elem a) upd st fs = .ok st' ∧ Sim q ps a s n st' (validateForms upd el fs) ∧ ∀ i, P i ((validateForms upd el fs).content i)
  | [], st, el, h, hP => ⟨st, rfl, h, hP⟩
  | f :: fs, st, el, h, hP => by
    rw [docValidate, validateForms]
    obtain ⟨st2, e2, h2⟩ := sim_update heng hp hr hs h upd f.inst (hf f.inst _ (hP f.inst)).2
    simp only [bind, Except.bind, e2]
    exact sim_validate hs hf fs h2 (fine_update hf hP f.inst)

/-- The formset on the document follows the abstract one. -/
theorem sim_formset {a s n} (hs : Node.get a s = some n) {upd : I → Node → Node} {P : I → Node → Prop} (hf : Fine q ps upd P) (canDelete canOrder : Bool) (forms : List (MForm I))
    {st : FSt I} {el : Elems I Node} (h : Sim q ps a s n st el) (hP : ∀ i, P i (el.content i)) :
    ∃ st', docFormsetUpdate eng ctx xp (.step ax t es) (.elem a) upd canDelete canOrder forms st = .ok st' ∧
      Sim q ps a s n st' (formsetUpdate upd canDelete canOrder forms el) ∧ ∀ i, P i ((formsetUpdate upd canDelete canOrder forms el).content i) := by
  obtain ⟨st0, e0, h0, hP0⟩ := sim_validate heng hp hr hs hf (remainingForms canDelete forms) h hP
  unfold docFormsetUpdate formsetUpdate
  rw [e0]
  generalize validateForms upd el (remainingForms canDelete forms) = el at h0 hP0
  obtain ⟨st1, e1, h1⟩ := sim_removeDeleted heng hp hr hs (deletedForms canDelete forms) h0
  have hP1 : ∀ i, P i ((removeDeleted el (deletedForms canDelete forms)).content i) := by rw [removeDeleted_content]; exact hP0
  simp only [bind, Except.bind, e1]
  cases canOrder with
  | true =>
    obtain ⟨st2, e2, h2, hP2⟩ := sim_validate heng hp hr hs hf (remainingForms canDelete forms) h1 hP1
    obtain ⟨st3, e3, h3, hP3⟩ := sim_reorder heng hp hr hok hs hf (orderedForms canDelete forms) h2 hP2
    simp only [if_true, e2]
    exact ⟨st3, e3, h3, hP3⟩
  | false =>
    obtain ⟨st2, e2, h2, hP2⟩ := sim_updateInitial heng hp hr hs hf (forms.filter (fun f => f.initial)) h1 hP1
    obtain ⟨st3, e3, h3, hP3⟩ := sim_updateExtra heng hp hr hok hs hf (forms.filter (fun f => !f.initial)) h2 hP2
    refine ⟨st3, ?_, h3, hP3⟩
    simp only [Bool.false_eq_true, if_false, e2]
    exact e3

end
end Forms
