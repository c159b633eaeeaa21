import Verif.Spec.Whole
/-
Proofs for C90: formsets, one after the other, on a document of which other parts change too.
-/
namespace Props
open XPath Xml Spec Fields Forms Core Py

/-- The state of a formset on the document, at the element `n`. -/
structure SimAt (q : QName) (ps : List Pred) (inst : Nat → Handle) (el : Elems Nat Node) (n : Node) : Prop where
  mem : members q ps n = el.list.map el.content
  nodup : el.list.Nodup
  there : ∀ k i, el.list[k]? = some i → inst i = .member k
  away : ∀ i, i ∉ el.list → inst i = .detached (el.content i)

theorem SimAt.sim {q ps inst el n} (h : SimAt q ps inst el n) {a : Node.Addr} {s : Node} (hs : s.get a = some n) : Sim q ps a s n ⟨s, inst⟩ el :=
  ⟨⟨n, by rw [Node.modify_id hs rfl], h.mem, same_refl _⟩, h.nodup, h.there, h.away⟩

theorem sim_at {q ps a s n st} {el : Elems Nat Node} (h : Sim q ps a s n st el) : ∃ n', st.doc = s.modify a (fun _ => n') ∧ SimAt q ps st.inst el n' ∧ SameButMembers q ps n n' := by
  obtain ⟨n', h1, h2, h3⟩ := h.doc
  exact ⟨n', h1, ⟨h2, h.nodup, h.there, h.away⟩, h3⟩

theorem SimAt.keep {q ps inst el n n'} (h : SimAt q ps inst el n) (hm : members q ps n' = members q ps n) : SimAt q ps inst el n' := ⟨hm.trans h.mem, h.nodup, h.there, h.away⟩

/-- Nothing but the members of these lists has changed. -/
def OnlyLists (ls : List (QName × List Pred)) (n n' : Node) : Prop := ∀ p, (∀ l ∈ ls, Part p [.child l.1 l.2]) → hits p n' = hits p n ∧ (Uniq p n → Uniq p n')

theorem onlyLists_refl (ls : List (QName × List Pred)) (n : Node) : OnlyLists ls n n := fun _ _ => ⟨rfl, id⟩

theorem onlyLists_one {q ps n n'} (h : SameButMembers q ps n n') : OnlyLists [(q, ps)] n n' := fun p hp =>
  ⟨hits_same (hp (q, ps) (by simp)) h, uniq_same (hp (q, ps) (by simp)) h⟩

theorem OnlyLists.cons {l ls} {n n1 n2 : Node} (h1 : OnlyLists [l] n n1) (h2 : OnlyLists ls n1 n2) : OnlyLists (l :: ls) n n2 := by
  intro p hp
  obtain ⟨k1, k2⟩ := h1 p (fun x hx => hp x (by simp only [List.mem_singleton] at hx; simp [hx]))
  obtain ⟨k3, k4⟩ := h2 p (fun x hx => hp x (by simp [hx]))
  exact ⟨k3.trans k1, fun hu => k4 (k2 hu)⟩

theorem OnlyLists.trans {ls} {n n1 n2 : Node} (h1 : OnlyLists ls n n1) (h2 : OnlyLists ls n1 n2) : OnlyLists ls n n2 := by
  intro p hp
  obtain ⟨k1, k2⟩ := h1 p hp
  obtain ⟨k3, k4⟩ := h2 p hp
  exact ⟨k3.trans k1, fun hu => k4 (k2 hu)⟩

theorem OnlyLists.left {l ls} {n n' : Node} (h : OnlyLists [l] n n') : OnlyLists (l :: ls) n n' := OnlyLists.cons h (onlyLists_refl ls n')

theorem OnlyLists.members {ls} {n n' : Node} (h : OnlyLists ls n n') {q ps} (hp : ∀ l ∈ ls, Spec.Apart q ps l.1 l.2) : members q ps n' = members q ps n :=
  members_of_hits (h [.child q ps] (fun l hl => show Part [.child q ps] [.child l.1 l.2] from Or.inl (hp l hl))).1

section
variable [PyUnicode] {eng : Engine} {A : Type}

/-- A formset that was made for the list in `n0`: the state of its forms fits `n`. -/
def SetAt (eng : Engine) (n0 : Node) (inst : Nat → Handle) (n : Node) : FSet A → Prop
  | .nodes f => ∃ el : Elems Nat Node,
      formsetUpdate (formUpd eng f.o f.data) f.canDelete f.canOrder (boundForms f.initial f.subs) el
        = formsetUpdate (formUpd eng f.o f.data) f.canDelete f.canOrder (boundForms f.initial f.subs) (startElems (members f.q f.ps n0) f.new) ∧
      (∀ i, el.content i = formElem (members f.q f.ps n0) f.new i ∨ el.content i = formUpd eng f.o f.data i (formElem (members f.q f.ps n0) f.new i)) ∧
      SimAt f.q f.ps inst el n
  | .values f _ _ _ => ∀ m ∈ members f.q f.ps n, f.V.fits m

theorem setAt_keep {set : FSet A} {n0 inst n n'} (h : SetAt eng n0 inst n set) (hm : members set.q set.ps n' = members set.q set.ps n) : SetAt eng n0 inst n' set := by
  cases set with
  | nodes f =>
    obtain ⟨el, h1, h2, h3⟩ := h
    exact ⟨el, h1, h2, h3.keep hm⟩
  | values f truthy vs valid =>
    intro m hmem
    exact h m (by rw [← show members f.q f.ps n' = members f.q f.ps n from hm]; exact hmem)

theorem saved_keep {set : FSet A} {n0 n n'} (h : FSet.Saved n0 n set) (hm : members set.q set.ps n' = members set.q set.ps n) : FSet.Saved n0 n' set := by
  cases set with
  | nodes f =>
    have hm : members f.q f.ps n' = members f.q f.ps n := hm
    simp only [FSet.Saved, NodeSet.SavedAs, hm] at h ⊢
    exact h
  | values f truthy vs valid =>
    have hm : members f.q f.ps n' = members f.q f.ps n := hm
    simp only [FSet.Saved, hm] at h ⊢
    exact h

/-- The sets are made. -/
theorem startSet_at (heng : EngineOk eng) {number : Str → XNum} {ctx : Ctx} {a : Node.Addr} {s n n0 : Node} (hs : s.get a = some n) {set : FSet A} (hok : FSet.Ok number ctx n0 set)
    (hm : members set.q set.ps n = members set.q set.ps n0) : SetAt eng n0 (startSet eng ctx a s set).inst n set ∧ (startSet eng ctx a s set).set = set := by
  cases set with
  | nodes f =>
    have hm : members f.q f.ps n = members f.q f.ps n0 := hm
    refine ⟨⟨startElems (members f.q f.ps n0) f.new, rfl, fun i => .inl rfl, ?_⟩, rfl⟩
    have hsim := start_sim heng hok.1 hs f.new
    rw [hm] at hsim
    obtain ⟨h1, h2, h3, h4⟩ := hsim
    refine ⟨?_, h2, h3, h4⟩
    rw [hm]
    apply List.ext_getElem?
    intro i
    by_cases h : i < (members f.q f.ps n0).length
    · simp [startElems, formElem, h]
    · simp [startElems, formElem, h]
  | values f truthy vs valid =>
    refine ⟨fun m hmem => ?_, rfl⟩
    have hm : members f.q f.ps n = members f.q f.ps n0 := hm
    exact hok.2.1 m (by rw [← hm]; exact hmem)

/-- A formset that was made for the list in `n0` has updated it, with `n1`, and now the list is that of `n`. -/
def SetDone (eng : Engine) (n0 n1 : Node) (inst : Nat → Handle) (n : Node) : FSet A → Prop
  | .nodes f => ∃ el : Elems Nat Node,
      el = formsetUpdate (formUpd eng f.o f.data) f.canDelete f.canOrder (boundForms f.initial f.subs) (startElems (members f.q f.ps n0) f.new) ∧
      (∀ i, el.content i = formElem (members f.q f.ps n0) f.new i ∨ el.content i = formUpd eng f.o f.data i (formElem (members f.q f.ps n0) f.new i)) ∧
      SimAt f.q f.ps inst el n ∧ members f.q f.ps n1 = members f.q f.ps n
  | .values f truthy vs _ => (∀ m ∈ members f.q f.ps n, f.V.fits m) ∧ (members f.q f.ps n1).map f.V.item = vs.filter truthy

theorem setDone_keep {set : FSet A} {n0 n1 inst n n'} (h : SetDone eng n0 n1 inst n set) (hm : members set.q set.ps n' = members set.q set.ps n) : SetDone eng n0 n1 inst n' set := by
  cases set with
  | nodes f =>
    have hm : members f.q f.ps n' = members f.q f.ps n := hm
    obtain ⟨el, h1, h2, h3, h4⟩ := h
    exact ⟨el, h1, h2, h3.keep hm, h4.trans hm.symm⟩
  | values f truthy vs valid =>
    have hm : members f.q f.ps n' = members f.q f.ps n := hm
    refine ⟨fun m hmem => ?_, h.2⟩
    exact h.1 m (by rw [← hm]; exact hmem)

theorem setDone_left {set : FSet A} {n0 n1 n1' inst n} (h : SetDone eng n0 n1 inst n set) (hm : members set.q set.ps n1' = members set.q set.ps n1) : SetDone eng n0 n1' inst n set := by
  cases set with
  | nodes f =>
    have hm : members f.q f.ps n1' = members f.q f.ps n1 := hm
    obtain ⟨el, h1, h2, h3, h4⟩ := h
    exact ⟨el, h1, h2, h3, hm.trans h4⟩
  | values f truthy vs valid =>
    have hm : members f.q f.ps n1' = members f.q f.ps n1 := hm
    exact ⟨h.1, by rw [hm]; exact h.2⟩

theorem savedTwice_keep {set : FSet A} {n0 n n1 n'} (h : FSet.SavedTwice n0 n n1 set) (hm : members set.q set.ps n' = members set.q set.ps n1) : FSet.SavedTwice n0 n n' set := by
  cases set with
  | nodes f =>
    have hm : members f.q f.ps n' = members f.q f.ps n1 := hm
    simp only [FSet.SavedTwice, hm] at h ⊢
    exact h
  | values f truthy vs valid =>
    have hm : members f.q f.ps n' = members f.q f.ps n1 := hm
    simp only [FSet.SavedTwice, hm] at h ⊢
    exact h

theorem done_savedAs (heng : EngineOk eng) {ctx : Ctx} {f : NodeSet A} {n0 n' : Node} {number : Str → XNum} (hok : FSet.Ok number ctx n0 (.nodes f))
    (hm : members f.q f.ps n' = (formsetUpdate (formUpd eng f.o f.data) f.canDelete f.canOrder (boundForms f.initial f.subs) (startElems (members f.q f.ps n0) f.new)).list.map
      (formsetUpdate (formUpd eng f.o f.data) f.canDelete f.canOrder (boundForms f.initial f.subs) (startElems (members f.q f.ps n0) f.new)).content) :
    NodeSet.SavedAs f (fun i => formUpd eng f.o f.data i (formElem (members f.q f.ps n0) f.new i)) n0 n' := by
  obtain ⟨hf, hfit, hini, hlen⟩ := hok
  have hst := formUpd_steady heng hf hfit
  refine ⟨fun i d hd => ?_, fun i hi => by simp only [formUpd, hi], fun ha => ⟨fun hco => ?_, fun hco hdist => ?_⟩⟩
  · obtain ⟨-, -, k⟩ := formUpd_saved heng hf hfit i d hd
    exact k
  · rw [← kept_saved, ← new_saved, hm, hco, hini]
    exact unordered_list hst f.canDelete f.subs hlen (apart_saved ha)
  · rw [hm, hco, hini]
    exact ordered_list hst f.canDelete f.subs hlen (apart_saved ha) hdist

/-- One formset updates its list. -/
theorem updateSet_run (heng : EngineOk eng) {number : Str → XNum} (hnum : NumberOk number) {ctx : Ctx} {a : Node.Addr} {s n n0 : Node} (hs : s.get a = some n) {r : RSet A}
    (hok : FSet.Ok number ctx n0 r.set) (hat : SetAt eng n0 r.inst n r.set) :
    ∃ inst n', updateSet eng ctx a r s = .ok (inst, s.modify a (fun _ => n')) ∧ FSet.Saved n0 n' r.set ∧ SetDone eng n0 n' inst n' r.set ∧ SameButMembers r.set.q r.set.ps n n' := by
  obtain ⟨set, inst⟩ := r
  cases set with
  | nodes f =>
    have hok' := hok
    obtain ⟨hf, hfit, hini, hlen⟩ := hok
    obtain ⟨el, k1, k2, k3⟩ := hat
    have hst := formUpd_steady heng hf hfit
    have hP : ∀ i, el.content i = formElem (members f.q f.ps n0) f.new i ∨ el.content i = formUpd eng f.o f.data i (formElem (members f.q f.ps n0) f.new i) := k2
    have hp := hf.parse
    have hr := hf.path
    obtain ⟨ax, t, es, he⟩ := res_single hf.path
    rw [he] at hp hr
    obtain ⟨st', h1, h2, h3⟩ := sim_formset heng hp hr (pathOk_single hf.ok) hs hst.fine f.canDelete f.canOrder (boundForms f.initial f.subs) (k3.sim hs) hP
    rw [← he] at h1
    rw [k1] at h2 h3
    obtain ⟨n', l1, l2, l3⟩ := sim_at h2
    refine ⟨st'.inst, n', ?_, ⟨_, done_savedAs heng hok' l2.mem⟩, ⟨_, rfl, h3, l2, rfl⟩, l3⟩
    unfold updateSet
    simp only [bind, Except.bind, h1, l1]
  | values f truthy vs valid =>
    obtain ⟨hf, -, hvs⟩ := hok
    have hat : ∀ m ∈ members f.q f.ps n, f.V.fits m := hat
    obtain ⟨n', h1, -, h3, h4⟩ := listFormset_holds ⟨heng, hnum, hf.field, hf.kind, hs, hat⟩ truthy vs hvs
    refine ⟨inst, n', ?_, h4.2, ⟨h4.1, h4.2⟩, h3⟩
    unfold updateSet
    simp only [h1]

/-- One formset updates its list again. -/
theorem updateSet_again (heng : EngineOk eng) {number : Str → XNum} (hnum : NumberOk number) {ctx : Ctx} {a : Node.Addr} {s n n0 n1 : Node} (hs : s.get a = some n) {r : RSet A}
    (hok : FSet.Ok number ctx n0 r.set) (hat : SetDone eng n0 n1 r.inst n r.set) :
    ∃ inst n', updateSet eng ctx a r s = .ok (inst, s.modify a (fun _ => n')) ∧ FSet.SavedTwice n0 n1 n' r.set ∧ SameButMembers r.set.q r.set.ps n n' := by
  obtain ⟨set, inst⟩ := r
  cases set with
  | nodes f =>
    have hok' := hok
    obtain ⟨hf, hfit, hini, hlen⟩ := hok
    obtain ⟨el, k1, k2, k3, k4⟩ := hat
    have hst := formUpd_steady heng hf hfit
    have hP : ∀ i, el.content i = formElem (members f.q f.ps n0) f.new i ∨ el.content i = formUpd eng f.o f.data i (formElem (members f.q f.ps n0) f.new i) := k2
    have hp := hf.parse
    have hr := hf.path
    obtain ⟨ax, t, es, he⟩ := res_single hf.path
    rw [he] at hp hr
    obtain ⟨st', h1, h2, -⟩ := sim_formset heng hp hr (pathOk_single hf.ok) hs hst.fine f.canDelete f.canOrder (boundForms f.initial f.subs) (k3.sim hs) hP
    rw [← he] at h1
    obtain ⟨n', l1, l2, l3⟩ := sim_at h2
    have hm1 : members f.q f.ps n1 = el.list.map el.content := k4.trans k3.mem
    refine ⟨st'.inst, n', ?_, ⟨_, done_savedAs heng hok' (by rw [hm1, k1]), fun hcalm => ?_⟩, l3⟩
    · unfold updateSet
      simp only [bind, Except.bind, h1, l1]
    · obtain ⟨c1, c2, c3⟩ := hcalm
      rw [l2.mem, hm1]
      rw [hm1] at c3
      cases hco : f.canOrder with
      | false =>
        rw [hco, hini] at k1
        rw [hini]
        exact unordered_twice hst f.canDelete f.subs hlen (apart_saved c1) k1 rfl (fun i d g1 g2 g3 m hmem => by
          have := c3 i d g1 g2 g3 m hmem
          simp only [hco, true_and] at this
          exact this)
      | true =>
        rw [hco, hini] at k1
        rw [hini]
        exact ordered_twice hst f.canDelete f.subs hlen (apart_saved c1) (c2 hco) k1 rfl (fun i d g1 g2 g3 m hmem => by
          have := c3 i d g1 g2 g3 m hmem
          simp only [hco, Bool.true_eq_false, false_and, if_false] at this
          exact this)
  | values f truthy vs valid =>
    obtain ⟨hf, -, hvs⟩ := hok
    obtain ⟨hat, hsh⟩ := hat
    obtain ⟨n', h1, -, h3, h4⟩ := listFormset_holds ⟨heng, hnum, hf.field, hf.kind, hs, hat⟩ truthy vs hvs
    refine ⟨inst, n', ?_, ⟨hsh, h4.2⟩, h3⟩
    unfold updateSet
    simp only [h1]

/-- The list of a set. -/
def setList (r : RSet A) : QName × List Pred := (r.set.q, r.set.ps)

/-- The formsets update their lists. -/
theorem updateFormsets_run (heng : EngineOk eng) {number : Str → XNum} (hnum : NumberOk number) {ctx : Ctx} {a : Node.Addr} {n0 : Node} : ∀ (rs : List (RSet A)) {s n : Node}, s.get a = some n →
    (∀ r ∈ rs, FSet.Ok number ctx n0 r.set ∧ SetAt eng n0 r.inst n r.set) → rs.Pairwise (fun x y => Spec.Apart x.set.q x.set.ps y.set.q y.set.ps) →
    ∃ rs' n', updateFormsets eng ctx a rs s = .ok (rs', s.modify a (fun _ => n')) ∧ (∀ r ∈ rs, FSet.Saved n0 n' r.set) ∧ OnlyLists (rs.map setList) n n' ∧
      rs'.map RSet.set = rs.map RSet.set ∧ ∀ r ∈ rs', SetDone eng n0 n' r.inst n' r.set
  | [], s, n, hs, _, _ => ⟨[], n, by rw [Node.modify_id hs rfl]; rfl, by simp, onlyLists_refl _ _, rfl, by simp⟩
  | r :: rs, s, n, hs, h, hp => by
    rw [List.pairwise_cons] at hp
    obtain ⟨h1, h2⟩ := h r (by simp)
    obtain ⟨inst, n1, u1, u2, u4, u3⟩ := updateSet_run heng hnum hs h1 h2
    have ho := onlyLists_one u3
    obtain ⟨rs', n2, v1, v2, v3, v4, v5⟩ := updateFormsets_run heng hnum rs (s := s.modify a (fun _ => n1)) (get_modify_here hs) (fun x hx => by
      obtain ⟨k1, k2⟩ := h x (by simp [hx])
      refine ⟨k1, setAt_keep k2 (ho.members (fun l hl => ?_))⟩
      simp only [List.mem_singleton] at hl
      subst hl
      exact apart_symm (hp.1 x hx)) hp.2
    rw [modify_twice] at v1
    have hmem : members r.set.q r.set.ps n2 = members r.set.q r.set.ps n1 := v3.members (fun l hl => by
      obtain ⟨y, hy, rfl⟩ := List.mem_map.1 hl
      exact hp.1 y hy)
    refine ⟨⟨r.set, inst⟩ :: rs', n2, ?_, ?_, OnlyLists.cons ho v3, by simp [v4], ?_⟩
    · rw [updateFormsets, u1]
      simp only
      rw [v1]
    · intro x hx
      rcases List.mem_cons.1 hx with rfl | hx
      · exact saved_keep u2 hmem
      · exact v2 x hx
    · intro x hx
      rcases List.mem_cons.1 hx with rfl | hx
      · exact setDone_left (setDone_keep u4 hmem) hmem
      · exact v5 x hx

/-- The formsets update their lists again. -/
theorem updateFormsets_again (heng : EngineOk eng) {number : Str → XNum} (hnum : NumberOk number) {ctx : Ctx} {a : Node.Addr} {n0 n1 : Node} : ∀ (rs : List (RSet A)) {s n : Node}, s.get a = some n →
    (∀ r ∈ rs, FSet.Ok number ctx n0 r.set ∧ SetDone eng n0 n1 r.inst n r.set) → rs.Pairwise (fun x y => Spec.Apart x.set.q x.set.ps y.set.q y.set.ps) →
    ∃ rs' n', updateFormsets eng ctx a rs s = .ok (rs', s.modify a (fun _ => n')) ∧ (∀ r ∈ rs, FSet.SavedTwice n0 n1 n' r.set) ∧ OnlyLists (rs.map setList) n n'
  | [], s, n, hs, _, _ => ⟨[], n, by rw [Node.modify_id hs rfl]; rfl, by simp, onlyLists_refl _ _⟩
  | r :: rs, s, n, hs, h, hp => by
    rw [List.pairwise_cons] at hp
    obtain ⟨h1, h2⟩ := h r (by simp)
    obtain ⟨inst, n2, u1, u2, u3⟩ := updateSet_again heng hnum hs h1 h2
    have ho := onlyLists_one u3
    obtain ⟨rs', n3, v1, v2, v3⟩ := updateFormsets_again heng hnum rs (s := s.modify a (fun _ => n2)) (get_modify_here hs) (fun x hx => by
      obtain ⟨k1, k2⟩ := h x (by simp [hx])
      refine ⟨k1, setDone_keep k2 (ho.members (fun l hl => ?_))⟩
      simp only [List.mem_singleton] at hl
      subst hl
      exact apart_symm (hp.1 x hx)) hp.2
    rw [modify_twice] at v1
    refine ⟨⟨r.set, inst⟩ :: rs', n3, ?_, ?_, OnlyLists.cons ho v3⟩
    · rw [updateFormsets, u1]
      simp only
      rw [v1]
    · intro x hx
      rcases List.mem_cons.1 hx with rfl | hx
      · refine savedTwice_keep u2 (v3.members (fun l hl => ?_))
        obtain ⟨y, hy, rfl⟩ := List.mem_map.1 hl
        exact hp.1 y hy
      · exact v2 x hx

/-- The forms of a set are validated. -/
theorem validForms_run (heng : EngineOk eng) {ctx : Ctx} {f : NodeSet A} (hf : SimpleField ctx f.xp f.e [.child f.q f.ps]) {P : Nat → Node → Prop} (hfine : Fine f.q f.ps (formUpd eng f.o f.data) P)
    {a : Node.Addr} {s n : Node} (hs : s.get a = some n) : ∀ (fs : List (MForm Nat)) {st : FSt Nat} {el : Elems Nat Node}, Sim f.q f.ps a s n st el → (∀ i, P i (el.content i)) →
    ∃ b st' el', validForms eng ctx a f st fs = .ok (b, st') ∧ Sim f.q f.ps a s n st' el' ∧ (b = true → (∀ g ∈ fs, f.formValid g.inst = true) ∧ el' = validateForms (formUpd eng f.o f.data) el fs) ∧
      ((∀ g ∈ fs, f.formValid g.inst = true) → (∀ m, f.o.schemaValid m = true) → b = true)
  | [], st, el, h, hP => ⟨true, st, el, rfl, h, fun _ => ⟨by simp, rfl⟩, fun _ _ => rfl⟩
  | g :: fs, st, el, h, hP => by
    by_cases hv : f.formValid g.inst = true
    · have hp := hf.parse
      have hr := hf.path
      obtain ⟨ax, t, es, he⟩ := res_single hf.path
      rw [he] at hp hr
      obtain ⟨st1, e1, h1⟩ := sim_update heng hp hr hs h (formUpd eng f.o f.data) g.inst (hfine g.inst _ (hP g.inst)).2
      have e2 := sim_elem heng hp hr hs h1 g.inst
      obtain ⟨b, st', el', k1, k2, k3, k4⟩ := validForms_run heng hf hfine hs fs h1 (fine_update hfine hP g.inst)
      refine ⟨f.o.schemaValid ((el.update (formUpd eng f.o f.data) g.inst).content g.inst) && b, st', el', ?_, k2, ?_, ?_⟩
      · rw [validForms, if_pos hv]
        simp only [bind, Except.bind, e1, e2, k1]
      · intro hb
        rw [Bool.and_eq_true] at hb
        obtain ⟨l1, l2⟩ := k3 hb.2
        refine ⟨fun x hx => ?_, l2⟩
        rcases List.mem_cons.1 hx with rfl | hx
        · exact hv
        · exact l1 x hx
      · intro h1 h2
        rw [h2, k4 (fun x hx => h1 x (by simp [hx])) h2]
        rfl
    · obtain ⟨b, st', el', k1, k2, k3, k4⟩ := validForms_run heng hf hfine hs fs h hP
      refine ⟨false, st', el', ?_, k2, (by intro h; cases h), fun h1 _ => absurd (h1 g (by simp)) hv⟩
      rw [validForms, if_neg hv]
      simp only [bind, Except.bind, k1]

theorem formsetUpdate_validated {upd : Nat → Node → Node} (cd co : Bool) {forms : List (MForm Nat)} (hd : (forms.map MForm.inst).Nodup) (el : Elems Nat Node)
    (hupd : ∀ x, upd x (upd x (el.content x)) = upd x (el.content x)) :
    formsetUpdate upd cd co forms (validateForms upd el (remainingForms cd forms)) = formsetUpdate upd cd co forms el := by
  have hn : ((remainingForms cd forms).map MForm.inst).Nodup := filter_map_nodup hd _
  have h : validateForms upd (validateForms upd el (remainingForms cd forms)) (remainingForms cd forms) = validateForms upd el (remainingForms cd forms) := by
    refine validate_fixed upd _ _ (fun f hf => ?_)
    rw [validate_run upd _ el hn]
    have : f.inst ∈ (remainingForms cd forms).map MForm.inst := List.mem_map.2 ⟨f, hf, rfl⟩
    simp only [after, this, if_true]
    exact hupd _
  unfold formsetUpdate
  simp only [h]

/-- One formset is validated. -/
theorem validSet_run (heng : EngineOk eng) {number : Str → XNum} {ctx : Ctx} {a : Node.Addr} {s n n0 : Node} (hs : s.get a = some n) {r : RSet A}
    (hok : FSet.Ok number ctx n0 r.set) (hat : SetAt eng n0 r.inst n r.set) :
    ∃ b inst n', validSet eng ctx a r s = .ok (b, inst, s.modify a (fun _ => n')) ∧ SameButMembers r.set.q r.set.ps n n' ∧
      (b = true → FSet.Valid r.set ∧ SetAt eng n0 inst n' r.set) ∧ (FSet.Valid r.set → FSet.NoSchema r.set → b = true) := by
  obtain ⟨set, inst⟩ := r
  cases set with
  | nodes f =>
    obtain ⟨hf, hfit, hini, hlen⟩ := hok
    obtain ⟨el, k1, k2, k3⟩ := hat
    have hst := formUpd_steady heng hf hfit
    obtain ⟨b, st', el', h1, h2, h3, h4⟩ := validForms_run heng hf hst.fine hs (remainingForms f.canDelete (boundForms f.initial f.subs)) (k3.sim hs) k2
    obtain ⟨n', l1, l2, l3⟩ := sim_at h2
    refine ⟨b && f.clean, st'.inst, n', ?_, l3, fun hb => ?_, fun hv hn => ?_⟩
    · unfold validSet
      simp only [bind, Except.bind, h1, l1]
    · rw [Bool.and_eq_true] at hb
      obtain ⟨g1, g2⟩ := h3 hb.1
      have hupd : ∀ x, formUpd eng f.o f.data x (formUpd eng f.o f.data x (el.content x)) = formUpd eng f.o f.data x (el.content x) := by
        intro x
        rcases k2 x with e | e
        · rw [e]; exact hst.again x
        · rw [e, hst.again, hst.again]
      have hd : ((boundForms f.initial f.subs).map MForm.inst).Nodup := by rw [boundForms_inst]; exact List.nodup_range
      refine ⟨⟨hb.2, fun i d hd hdel => ?_⟩, el', ?_, ?_, l2⟩
      · refine g1 ⟨i, decide (i < f.initial), d.changed, d.deleted, d.order⟩ ?_
        unfold remainingForms
        rw [List.mem_filter]
        exact ⟨mem_boundForms.2 ⟨d, hd, rfl⟩, by simp only [hdel]; rfl⟩
      · rw [g2, formsetUpdate_validated _ _ hd el hupd]
        exact k1
      · intro i
        have hn : ((remainingForms f.canDelete (boundForms f.initial f.subs)).map MForm.inst).Nodup := filter_map_nodup hd _
        rw [g2, validate_run _ _ _ hn]
        simp only [after]
        split_ifs
        · rcases k2 i with e | e
          · rw [e]; exact .inr rfl
          · rw [e, hst.again]; exact .inr rfl
        · exact k2 i
    · rw [h4 ?_ hn, hv.1]
      · rfl
      · intro g hg
        obtain ⟨g1, g2⟩ := List.mem_filter.1 hg
        obtain ⟨d, d1, d2⟩ := mem_boundForms.1 g1
        refine hv.2 g.inst d d1 ?_
        rw [d2] at g2
        cases hc : (f.canDelete && d.deleted)
        · rfl
        · simp only [hc] at g2; exact absurd g2 (by simp)
  | values f truthy vs valid =>
    refine ⟨valid, inst, n, ?_, same_refl _, fun hb => ⟨hb, hat⟩, fun hv _ => hv⟩
    unfold validSet
    simp only
    rw [Node.modify_id hs rfl]

/-- The formsets are validated. -/
theorem validFormsets_run (heng : EngineOk eng) {number : Str → XNum} {ctx : Ctx} {a : Node.Addr} {n0 : Node} : ∀ (rs : List (RSet A)) {s n : Node}, s.get a = some n →
    (∀ r ∈ rs, FSet.Ok number ctx n0 r.set ∧ SetAt eng n0 r.inst n r.set) → rs.Pairwise (fun x y => Spec.Apart x.set.q x.set.ps y.set.q y.set.ps) →
    ∃ b rs' n', validFormsets eng ctx a rs s = .ok (b, rs', s.modify a (fun _ => n')) ∧ OnlyLists (rs.map setList) n n' ∧ rs'.map RSet.set = rs.map RSet.set ∧
      (b = true → ∀ r ∈ rs', FSet.Valid r.set ∧ SetAt eng n0 r.inst n' r.set) ∧ ((∀ r ∈ rs, FSet.Valid r.set ∧ FSet.NoSchema r.set) → b = true)
  | [], s, n, hs, _, _ => ⟨true, [], n, by rw [Node.modify_id hs rfl]; rfl, onlyLists_refl _ _, rfl, by simp, fun _ => rfl⟩
  | r :: rs, s, n, hs, h, hp => by
    rw [List.pairwise_cons] at hp
    obtain ⟨h1, h2⟩ := h r (by simp)
    obtain ⟨b, inst, n1, u1, u2, u3, u4⟩ := validSet_run heng hs h1 h2
    have ho := onlyLists_one u2
    cases b with
    | false =>
      refine ⟨false, ⟨r.set, inst⟩ :: rs, n1, ?_, OnlyLists.left ho, rfl, (by intro h; cases h), fun hall => ?_⟩
      · rw [validFormsets, u1]
      · obtain ⟨k1, k2⟩ := hall r (by simp)
        exact u4 k1 k2
    | true =>
      obtain ⟨g1, g2⟩ := u3 rfl
      obtain ⟨b, rs', n2, v1, v2, v3, v4, v5⟩ := validFormsets_run heng rs (s := s.modify a (fun _ => n1)) (get_modify_here hs) (fun x hx => by
        obtain ⟨k1, k2⟩ := h x (by simp [hx])
        refine ⟨k1, setAt_keep k2 (ho.members (fun l hl => ?_))⟩
        simp only [List.mem_singleton] at hl
        subst hl
        exact apart_symm (hp.1 x hx)) hp.2
      rw [modify_twice] at v1
      refine ⟨b, ⟨r.set, inst⟩ :: rs', n2, ?_, OnlyLists.cons ho v2, by rw [List.map_cons, List.map_cons, v3], ?_, fun hall => v5 (fun x hx => hall x (by simp [hx]))⟩
      · rw [validFormsets, u1]
        simp only
        rw [v1]
      · intro hb x hx
        rcases List.mem_cons.1 hx with rfl | hx
        · refine ⟨g1, setAt_keep g2 (v2.members (fun l hl => ?_))⟩
          obtain ⟨y, hy, rfl⟩ := List.mem_map.1 hl
          exact hp.1 y hy
        · exact v4 hb x hx

end
end Props
