import Verif.Forms.FormsetTrees
import Verif.Props.FormsetForms
/-
The formset of Verif/Forms/FormsetTrees.lean follows the abstract formset (Verif/Forms/Formsets.lean) in which each form turns its element, once, into what it saves.
-/
namespace Props
open XPath Xml Spec Fields Forms Core Py

section
variable [PyUnicode] {eng : Engine} {A : Type}

/- ### single forms -/

mutual
theorem FTree.Ev.valid {t t' : FTree A} {n n' : Node} (h : FTree.Ev t n t' n') (hp : FTree.AllValid t) : FTree.AllValid t' := match t, t', h, hp with
  | .mk _ _, .mk _ _, h, hp => by
    obtain ⟨⟨c, e, -⟩, -, -, -, k⟩ := h
    subst e
    exact ⟨hp.1, FSubs.Ev.valid k hp.2⟩
theorem FSubs.Ev.valid {l l' : FSubs A} {n n' : Node} (h : FSubs.Ev l n l' n') (hp : FSubs.AllValid l) : FSubs.AllValid l' := match l, l', h, hp with
  | .nil, .nil, _, _ => trivial
  | .nil, .cons _ _ _ _, h, _ => h.elim
  | .cons _ _ _ _, .nil, h, _ => h.elim
  | .cons h out f rest, .cons h' out' f' rest', hev, hp => by
    obtain ⟨e, ⟨x, x', -, -, k⟩, k4⟩ := hev
    subst e
    exact ⟨FTree.Ev.valid k hp.1, FSubs.Ev.valid k4 hp.2⟩
end

mutual
theorem FTree.Ev.noSchema {t t' : FTree A} {n n' : Node} (h : FTree.Ev t n t' n') (hp : FTree.NoSchema t) : FTree.NoSchema t' := match t, t', h, hp with
  | .mk _ _, .mk _ _, h, hp => by
    obtain ⟨⟨c, e, -⟩, -, -, -, k⟩ := h
    subst e
    exact ⟨hp.1, FSubs.Ev.noSchema k hp.2⟩
theorem FSubs.Ev.noSchema {l l' : FSubs A} {n n' : Node} (h : FSubs.Ev l n l' n') (hp : FSubs.NoSchema l) : FSubs.NoSchema l' := match l, l', h, hp with
  | .nil, .nil, _, _ => trivial
  | .nil, .cons _ _ _ _, h, _ => h.elim
  | .cons _ _ _ _, .nil, h, _ => h.elim
  | .cons h out f rest, .cons h' out' f' rest', hev, hp => by
    obtain ⟨e, ⟨x, x', -, -, k⟩, k4⟩ := hev
    subst e
    exact ⟨FTree.Ev.noSchema k hp.1, FSubs.Ev.noSchema k4 hp.2⟩
end

/-- The form has saved its data on the element. -/
structure Settled (t : FTree A) (c : Node) : Prop where
  ok : FTree.Ok t
  inv : FTree.Inv t c
  done : FTree.Done t c
  valid : FTree.AllValid t
  schema : FTree.NoSchema t

theorem settled_update (heng : EngineOk eng) {t : FTree A} {c : Node} (h : Settled t c) : ∃ t', updateTree eng t [] c = (.ok (), t', c) ∧ Settled t' c := by
  obtain ⟨t', n', u1, u2, u3, u4, u5, u6⟩ := updateTree_run heng t h.ok (a := []) (s := c) (n := c) rfl h.inv
  obtain rfl := u6 h.done
  exact ⟨t', u1, u2, u3, u4, FTree.Ev.valid u5 h.valid, FTree.Ev.noSchema u5 h.schema⟩

theorem settled_validate (heng : EngineOk eng) {t : FTree A} {c : Node} (h : Settled t c) : ∃ t', validTree eng t [] c = (.ok true, t', c) ∧ Settled t' c := by
  obtain ⟨r, t', n', u1, u2, u3, -, u5, u6, -, u8⟩ := validTree_run heng t h.ok (a := []) (s := c) (n := c) rfl h.inv
  obtain ⟨rfl, hd⟩ := u6 h.done
  obtain rfl := u8 h.valid h.schema
  exact ⟨t', u1, u2, u3, hd, FTree.Ev.valid u5 h.valid, FTree.Ev.noSchema u5 h.schema⟩

/-- The first update, and the first validation, of a form that has been made for an element. -/
theorem first_run (heng : EngineOk eng) {t : FTree A} (ht : FTree.Ok t) (hn : FTree.New t) {n : Node} (hfit : FTree.Fits t n) (hv : FTree.AllValid t) (hns : FTree.NoSchema t) :
    (initTree eng t [] n).1 = .ok () ∧
    (∃ t' n', updateTree eng t [] (opened eng t n) = (.ok (), t', n') ∧ Settled t' n' ∧ FTree.Saved t n n' ∧ Frame (FTree.Paths t) n n') ∧
    (∃ t' n', validTree eng t [] (opened eng t n) = (.ok true, t', n') ∧ Settled t' n' ∧ FTree.Saved t n n' ∧ Frame (FTree.Paths t) n n') ∧
    Frame (FTree.Paths t) n (opened eng t n) := by
  have hf := FTree.Fits.fit ht hfit
  obtain ⟨n0, r1, r2, r3, -⟩ := initTree_run heng t ht hn (a := []) (s := n) (n := n) rfl hf
  have e0 : opened eng t n = n0 := by unfold opened; rw [r1]; rfl
  rw [e0]
  refine ⟨by rw [r1], ?_, ?_, FTree.Ini.frame r3⟩
  · obtain ⟨t', n', u1, u2, u3, u4, u5, -⟩ := updateTree_run heng t ht (a := []) (s := n0) (n := n0) rfl r2
    exact ⟨t', n', u1, ⟨u2, u3, u4, FTree.Ev.valid u5 hv, FTree.Ev.noSchema u5 hns⟩, saved_of ht hn hf r3 u5 u3 u4, (FTree.Ini.frame r3).trans (FTree.Ev.frame u5)⟩
  · obtain ⟨r, t', n', u1, u2, u3, u4, u5, -, -, u8⟩ := validTree_run heng t ht (a := []) (s := n0) (n := n0) rfl r2
    obtain rfl := u8 hv hns
    exact ⟨t', n', u1, ⟨u2, u3, u4 rfl, FTree.Ev.valid u5 hv, FTree.Ev.noSchema u5 hns⟩, saved_of ht hn hf r3 u5 u3 (u4 rfl), (FTree.Ini.frame r3).trans (FTree.Ev.frame u5)⟩

/- ### the formset -/

/-- The abstract form: it turns the element that it begins with into what it saves. -/
def onceUpd (op sv : Nat → Node) (i : Nat) (c : Node) : Node := if c = op i then sv i else c

/-- What is known of the forms: form `i`, which is `U i`, has made `op i` of its element; its first validation (if `R i`) or update makes `sv i` of that. -/
structure FirstRuns (eng : Engine) (q : QName) (ps : List Pred) (U : Nat → FTree A) (op sv : Nat → Node) (R : Nat → Prop) : Prop where
  member : ∀ i, isMember q ps (sv i) = true
  validate : ∀ i, R i → ∃ t', validTree eng (U i) [] (op i) = (.ok true, t', sv i) ∧ Settled t' (sv i)
  update : ∀ i, ¬ R i → ∃ t', updateTree eng (U i) [] (op i) = (.ok (), t', sv i) ∧ Settled t' (sv i)

/-- The state of form `i`: as made, or settled. -/
def Fresh (U : Nat → FTree A) (op sv : Nat → Node) (i : Nat) (t : FTree A) (c : Node) : Prop := (t = U i ∧ c = op i) ∨ (c = sv i ∧ Settled t c)
/-- The same after the forms `R` have been validated. -/
def Checked (U : Nat → FTree A) (op sv : Nat → Node) (R : Nat → Prop) (i : Nat) (t : FTree A) (c : Node) : Prop := (¬ R i ∧ t = U i ∧ c = op i) ∨ (c = sv i ∧ Settled t c)

omit [PyUnicode] in
theorem once_op (op sv : Nat → Node) (i : Nat) : onceUpd op sv i (op i) = sv i := if_pos rfl
omit [PyUnicode] in
theorem once_sv (op sv : Nat → Node) (i : Nat) : onceUpd op sv i (sv i) = sv i := by unfold onceUpd; split_ifs <;> rfl

variable {ctx : Ctx} {xp : Str} {ax : Option Str} {nt : NodeTest} {es : List Expr} {q : QName} {ps : List Pred} {a : Node.Addr} {s n : Node}
  {U : Nat → FTree A} {op sv : Nat → Node} {R : Nat → Prop}
variable (heng : EngineOk eng) (hp : parse0 xp = .ok (.step ax nt es)) (hr : res ctx (.step ax nt es) = some ([.child q ps], none)) (hs : s.get a = some n)
  (hF : FirstRuns eng q ps U op sv R)
include heng hp hr hs

/-- The update of the document by a constant. -/
theorem put_const {st : FSt Nat} {el : Elems Nat Node} (h : Sim q ps a s n st el) (i : Nat) (v' : Node) (hm : isMember q ps v' = true) :
    ∃ st', st.update eng ctx xp (.elem a) (fun _ _ => v') i = .ok st' ∧ ∀ upd : Nat → Node → Node, upd i (el.content i) = v' → Sim q ps a s n st' (el.update upd i) := by
  obtain ⟨st', h1, h2⟩ := sim_update heng hp hr hs h (fun _ _ => v') i hm
  refine ⟨st', h1, fun upd hu => ?_⟩
  have : el.update (fun _ _ => v') i = el.update upd i := by
    unfold Elems.update
    rw [hu]
  rw [← this]; exact h2

include hF

theorem tree_update {ts : TSt A} {el : Elems Nat Node} (h : Sim q ps a s n ts.st el) (i : Nat) (hc : ∀ j, Checked U op sv R j (ts.forms j) (el.content j)) :
    ∃ ts', ts.update eng ctx xp (.elem a) i = .ok ts' ∧ Sim q ps a s n ts'.st (el.update (onceUpd op sv) i) ∧
      (∀ j, Checked U op sv R j (ts'.forms j) ((el.update (onceUpd op sv) i).content j)) ∧ isMember q ps ((el.update (onceUpd op sv) i).content i) = true := by
  have he := sim_elem heng hp hr hs h i
  obtain ⟨t', hrun, hset, hu⟩ : ∃ t', updateTree eng (ts.forms i) [] (el.content i) = (.ok (), t', sv i) ∧ Settled t' (sv i) ∧ onceUpd op sv i (el.content i) = sv i := by
    rcases hc i with ⟨h1, h2, h3⟩ | ⟨h1, h2⟩
    · obtain ⟨t', k1, k2⟩ := hF.update i h1
      exact ⟨t', by rw [h2, h3]; exact k1, k2, by rw [h3]; exact once_op _ _ _⟩
    · obtain ⟨t', k1, k2⟩ := settled_update heng h2
      rw [h1] at k1 k2 ⊢
      exact ⟨t', k1, k2, once_sv _ _ _⟩
  obtain ⟨st', k1, k2⟩ := put_const heng hp hr hs h i (sv i) (hF.member i)
  refine ⟨ts.put st' i t', ?_, k2 _ hu, fun j => ?_, ?_⟩
  · unfold TSt.update
    rw [he]
    simp only [hrun, k1]
  · show Checked U op sv R j (if j = i then t' else ts.forms j) (if j = i then onceUpd op sv i (el.content i) else el.content j)
    split_ifs with hj
    · subst hj; rw [hu]; exact .inr ⟨rfl, hset⟩
    · exact hc j
  · show isMember q ps (if i = i then onceUpd op sv i (el.content i) else el.content i) = true
    rw [if_pos rfl, hu]; exact hF.member i

theorem tree_validate1 {ts : TSt A} {el : Elems Nat Node} (h : Sim q ps a s n ts.st el) (i : Nat) (hi : R i) (hc : ∀ j, Fresh U op sv j (ts.forms j) (el.content j)) :
    ∃ ts', ts.validate eng ctx xp (.elem a) i = .ok (true, ts') ∧ Sim q ps a s n ts'.st (el.update (onceUpd op sv) i) ∧
      (∀ j, Fresh U op sv j (ts'.forms j) ((el.update (onceUpd op sv) i).content j)) ∧
      (∀ j, (j = i ∨ (el.content j = sv j ∧ Settled (ts.forms j) (el.content j))) →
        ((el.update (onceUpd op sv) i).content j = sv j ∧ Settled (ts'.forms j) ((el.update (onceUpd op sv) i).content j))) := by
  have he := sim_elem heng hp hr hs h i
  obtain ⟨t', hrun, hset, hu⟩ : ∃ t', validTree eng (ts.forms i) [] (el.content i) = (.ok true, t', sv i) ∧ Settled t' (sv i) ∧ onceUpd op sv i (el.content i) = sv i := by
    rcases hc i with ⟨h2, h3⟩ | ⟨h1, h2⟩
    · obtain ⟨t', k1, k2⟩ := hF.validate i hi
      exact ⟨t', by rw [h2, h3]; exact k1, k2, by rw [h3]; exact once_op _ _ _⟩
    · obtain ⟨t', k1, k2⟩ := settled_validate heng h2
      rw [h1] at k1 k2 ⊢
      exact ⟨t', k1, k2, once_sv _ _ _⟩
  obtain ⟨st', k1, k2⟩ := put_const heng hp hr hs h i (sv i) (hF.member i)
  refine ⟨ts.put st' i t', ?_, k2 _ hu, fun j => ?_, fun j hj => ?_⟩
  · unfold TSt.validate
    rw [he]
    simp only [hrun, k1]
  · show Fresh U op sv j (if j = i then t' else ts.forms j) (if j = i then onceUpd op sv i (el.content i) else el.content j)
    split_ifs with hj
    · subst hj; rw [hu]; exact .inr ⟨rfl, hset⟩
    · exact hc j
  · show (if j = i then onceUpd op sv i (el.content i) else el.content j) = sv j ∧ Settled (if j = i then t' else ts.forms j) (if j = i then onceUpd op sv i (el.content i) else el.content j)
    by_cases hji : j = i
    · subst hji
      rw [if_pos rfl, if_pos rfl, hu]
      exact ⟨rfl, hset⟩
    · rw [if_neg hji, if_neg hji]
      exact hj.resolve_left hji

theorem tree_validate : ∀ (fs : List (MForm Nat)) {ts : TSt A} {el : Elems Nat Node}, Sim q ps a s n ts.st el → (∀ f ∈ fs, R f.inst) → (∀ j, Fresh U op sv j (ts.forms j) (el.content j)) →
    ∃ ts', treeValidate eng ctx xp (.elem a) ts fs = .ok (true, ts') ∧ Sim q ps a s n ts'.st (validateForms (onceUpd op sv) el fs) ∧
      (∀ j, Fresh U op sv j (ts'.forms j) ((validateForms (onceUpd op sv) el fs).content j)) ∧
      (∀ j, ((∃ f ∈ fs, f.inst = j) ∨ (el.content j = sv j ∧ Settled (ts.forms j) (el.content j))) →
        ((validateForms (onceUpd op sv) el fs).content j = sv j ∧ Settled (ts'.forms j) ((validateForms (onceUpd op sv) el fs).content j)))
  | [], ts, el, h, _, hc => ⟨ts, rfl, h, hc, fun j hj => hj.resolve_left (by rintro ⟨f, hf, -⟩; cases hf)⟩
  | f :: fs, ts, el, h, hR, hc => by
    obtain ⟨ts1, e1, h1, c1, d1⟩ := tree_validate1 heng hp hr hs hF h f.inst (hR f List.mem_cons_self) hc
    obtain ⟨ts2, e2, h2, c2, d2⟩ := tree_validate fs h1 (fun g hg => hR g (List.mem_cons_of_mem _ hg)) c1
    refine ⟨ts2, ?_, h2, c2, fun j hj => d2 j ?_⟩
    · rw [treeValidate, e1]
      simp only [e2, Bool.and_self]
    · by_cases hj' : ∃ g ∈ fs, g.inst = j
      · exact .inl hj'
      · refine .inr (d1 j ?_)
        rcases hj with ⟨g, hg, rfl⟩ | hj
        · rcases List.mem_cons.1 hg with rfl | hg
          · exact .inl rfl
          · exact absurd ⟨g, hg, rfl⟩ hj'
        · exact .inr hj

theorem tree_updateInitial : ∀ (fs : List (MForm Nat)) {ts : TSt A} {el : Elems Nat Node}, Sim q ps a s n ts.st el → (∀ j, Checked U op sv R j (ts.forms j) (el.content j)) →
    ∃ ts', treeUpdateInitial eng ctx xp (.elem a) ts fs = .ok ts' ∧ Sim q ps a s n ts'.st (updateInitial (onceUpd op sv) el fs) ∧
      ∀ j, Checked U op sv R j (ts'.forms j) ((updateInitial (onceUpd op sv) el fs).content j)
  | [], ts, el, h, hc => ⟨ts, rfl, h, hc⟩
  | f :: fs, ts, el, h, hc => by
    rw [treeUpdateInitial, updateInitial]
    cases hch : f.changed with
    | false =>
      simp only [Bool.false_eq_true, if_false]
      exact tree_updateInitial fs h hc
    | true =>
      obtain ⟨ts1, e1, h1, c1, -⟩ := tree_update heng hp hr hs hF h f.inst hc
      simp only [if_true, e1]
      exact tree_updateInitial fs h1 c1

variable (hok : okAll ps = true)
include hok

theorem tree_updateExtra : ∀ (fs : List (MForm Nat)) {ts : TSt A} {el : Elems Nat Node}, Sim q ps a s n ts.st el → (∀ j, Checked U op sv R j (ts.forms j) (el.content j)) →
    ∃ ts', treeUpdateExtra eng ctx xp (.step ax nt es) (.elem a) ts fs = .ok ts' ∧ Sim q ps a s n ts'.st (updateExtra (onceUpd op sv) el fs)
  | [], ts, el, h, hc => ⟨ts, rfl, h⟩
  | f :: fs, ts, el, h, hc => by
    rw [treeUpdateExtra, updateExtra]
    cases hch : f.changed with
    | false =>
      simp only [Bool.false_eq_true, if_false]
      exact tree_updateExtra fs h hc
    | true =>
      obtain ⟨ts1, e1, h1, c1, m1⟩ := tree_update heng hp hr hs hF h f.inst hc
      obtain ⟨st2, e2, h2⟩ := sim_append heng hp hr hok hs h1 f.inst m1
      simp only [if_true, e1, e2]
      exact tree_updateExtra (ts := ⟨st2, ts1.forms⟩) fs h2 c1

theorem tree_reorder : ∀ (fs : List (MForm Nat)) {ts : TSt A} {el : Elems Nat Node}, Sim q ps a s n ts.st el → (∀ j, Checked U op sv R j (ts.forms j) (el.content j)) →
    ∃ ts', treeReorder eng ctx xp (.step ax nt es) (.elem a) ts fs = .ok ts' ∧ Sim q ps a s n ts'.st (reorder (onceUpd op sv) el fs)
  | [], ts, el, h, hc => ⟨ts, rfl, h⟩
  | f :: fs, ts, el, h, hc => by
    obtain ⟨st0, e0, h0⟩ := sim_removeIfThere heng hp hr hs h f.inst
    rw [treeReorder, reorder]
    generalize hel : (if el.contains f.inst then el.remove f.inst else el) = el0 at h0
    have hc0 : ∀ j, Checked U op sv R j (ts.forms j) (el0.content j) := by rw [← hel, removeIf_content]; exact hc
    obtain ⟨ts1, e1, h1, c1, m1⟩ := tree_update heng hp hr hs hF (ts := ⟨st0, ts.forms⟩) h0 f.inst hc0
    obtain ⟨st2, e2, h2⟩ := sim_append heng hp hr hok hs h1 f.inst m1
    obtain ⟨ts3, e3, h3⟩ := tree_reorder (ts := ⟨st2, ts1.forms⟩) fs h2 c1
    refine ⟨ts3, ?_, h3⟩
    simp only [e0, e1, e2, e3]

/-- The formset follows the abstract one. -/
theorem tree_formset (canDelete canOrder : Bool) (forms : List (MForm Nat)) (hR : ∀ j, R j ↔ ∃ f ∈ remainingForms canDelete forms, f.inst = j)
    {ts : TSt A} {el : Elems Nat Node} (h : Sim q ps a s n ts.st el) (hc : ∀ j, Fresh U op sv j (ts.forms j) (el.content j)) :
    ∃ ts', treeFormsetUpdate eng ctx xp (.step ax nt es) (.elem a) canDelete canOrder forms ts = .ok ts' ∧
      Sim q ps a s n ts'.st (formsetUpdate (onceUpd op sv) canDelete canOrder forms el) := by
  have hR' : ∀ f ∈ remainingForms canDelete forms, R f.inst := fun f hf => (hR _).2 ⟨f, hf, rfl⟩
  obtain ⟨ts0, e0, h0, c0, d0⟩ := tree_validate heng hp hr hs hF (remainingForms canDelete forms) h hR' hc
  have c0' : ∀ j, Checked U op sv R j (ts0.forms j) ((validateForms (onceUpd op sv) el (remainingForms canDelete forms)).content j) := by
    intro j
    by_cases hj : R j
    · exact .inr (d0 j (.inl ((hR j).1 hj)))
    · rcases c0 j with ⟨k1, k2⟩ | k
      · exact .inl ⟨hj, k1, k2⟩
      · exact .inr k
  unfold treeFormsetUpdate formsetUpdate
  generalize validateForms (onceUpd op sv) el (remainingForms canDelete forms) = el1 at h0 c0 c0' d0
  obtain ⟨st1, e1, h1⟩ := sim_removeDeleted heng hp hr hs (deletedForms canDelete forms) h0
  have c1 : ∀ j, Checked U op sv R j (ts0.forms j) ((removeDeleted el1 (deletedForms canDelete forms)).content j) := by rw [removeDeleted_content]; exact c0'
  have c1f : ∀ j, Fresh U op sv j (ts0.forms j) ((removeDeleted el1 (deletedForms canDelete forms)).content j) := by rw [removeDeleted_content]; exact c0
  simp only [e0, if_true, e1]
  cases canOrder with
  | true =>
    obtain ⟨ts2, e2, h2, c2, d2⟩ := tree_validate heng hp hr hs hF (ts := ⟨st1, ts0.forms⟩) (remainingForms canDelete forms) h1 hR' c1f
    have c2' : ∀ j, Checked U op sv R j (ts2.forms j) ((validateForms (onceUpd op sv) (removeDeleted el1 (deletedForms canDelete forms)) (remainingForms canDelete forms)).content j) := by
      intro j
      by_cases hj : R j
      · exact .inr (d2 j (.inl ((hR j).1 hj)))
      · rcases c2 j with ⟨k1, k2⟩ | k
        · exact .inl ⟨hj, k1, k2⟩
        · exact .inr k
    obtain ⟨ts3, e3, h3⟩ := tree_reorder heng hp hr hs hF hok (orderedForms canDelete forms) h2 c2'
    exact ⟨ts3, by simp only [if_true, e2]; exact e3, h3⟩
  | false =>
    obtain ⟨ts2, e2, h2, c2⟩ := tree_updateInitial heng hp hr hs hF (ts := ⟨st1, ts0.forms⟩) (forms.filter (fun f => f.initial)) h1 c1
    obtain ⟨ts3, e3, h3⟩ := tree_updateExtra heng hp hr hs hF hok (forms.filter (fun f => !f.initial)) h2 c2
    exact ⟨ts3, by simp only [Bool.false_eq_true, if_false, e2]; exact e3, h3⟩

end
end Props
