import Verif.Forms.WholeProofs
/-
Property C90: a form with subforms, at any depth, and formsets saves the submitted data into the document.

Model: `initWhole`, `updateWhole`, `validWhole` (Verif/Forms/Whole.lean).  Specification: Verif/Spec/Whole.lean.
-/
namespace Props
open XPath Xml Spec Fields Core Forms Py

section
variable [PyUnicode] {eng : Engine} {A : Type}

theorem FSubs.Ev.right {n n1 n2 : Node} : ∀ {l l' : FSubs A}, (∀ q, FSubs.Has q l → hits q n2 = hits q n1) → FSubs.Ev l n l' n1 → FSubs.Ev l n l' n2
  | .nil, .nil, _, _ => trivial
  | .nil, .cons _ _ _ _, _, h => h
  | .cons _ _ _ _, .nil, _, h => h
  | .cons h out f rest, .cons h' out' f' rest', hh, hev => by
    obtain ⟨e, ⟨x, x', k1, k2, k3⟩, k4⟩ := hev
    exact ⟨e, ⟨x, x', k1, by rw [cur_hits (hh _ (.inl rfl))]; exact k2, k3⟩, FSubs.Ev.right (fun q hq => hh q (.inr hq)) k4⟩

/-- The list field of a set has a path as the other fields. -/
theorem FSet.Ok.good {number : Str → XNum} {ctx : Ctx} {n : Node} {set : FSet A} (h : FSet.Ok number ctx n set) : Spec.good (FSet.path set) = true := by
  cases set with
  | nodes f => exact good_of h.1.ok h.2.1.preds (by simp [FSet.path])
  | values f truthy vs valid => exact good_of h.1.field.ok (by simpa [FSet.path, FSet.ps, attrPreds, Step.preds] using h.1.preds) (by simp [FSet.path])

/-- Nothing has happened yet to the fields of the form, nor to anything else but its subforms and lists; these are ready to be updated. -/
structure Ready (o : Forms.Own A) (subs : FSubs A) (sets : List (FSet A)) (n n0 : Node) (l : FSubs A) (n1 : Node) : Prop where
  own : ∀ i, FU (o.m.fs i) n1 ∧ hits (o.m.fs i).p n1 = hits (o.m.fs i).p n
  ok : FSubs.Ok l (FieldPath o)
  inv : FSubs.Inv l n1
  ev : FSubs.Ev subs n0 l n1
  rest : ∀ g, Spec.good g = true → (∀ p, FTree.Paths (.mk o subs) p → Part p g) → (∀ set ∈ sets, Part (FSet.path set) g) → hits g n1 = hits g n ∧ (Uniq g n → Uniq g n1)

/-- The formsets fit the lists. -/
structure ListsAt (eng : Engine) (sets : List (FSet A)) (n : Node) (rs : List (RSet A)) (n1 : Node) : Prop where
  sets : rs.map RSet.set = sets
  list : ∀ r ∈ rs, SetAt eng n r.inst n1 r.set

theorem pairwise_sets {rs : List (RSet A)} {sets : List (FSet A)} (h : rs.map RSet.set = sets) (hp : sets.Pairwise (fun x y => Spec.Apart x.q x.ps y.q y.ps)) :
    rs.Pairwise (fun x y => Spec.Apart x.set.q x.set.ps y.set.q y.set.ps) := by
  rw [← h, List.pairwise_map] at hp
  exact hp

theorem part_lists {rs : List (RSet A)} {sets : List (FSet A)} (h : rs.map RSet.set = sets) {g : List Step} (hp : ∀ set ∈ sets, Part (FSet.path set) g) :
    ∀ l ∈ rs.map setList, Part g [.child l.1 l.2] := by
  intro l hl
  obtain ⟨r, hr, rfl⟩ := List.mem_map.1 hl
  exact part_symm (hp r.set (by rw [← h]; exact List.mem_map.2 ⟨r, hr, rfl⟩))

/-- The update. -/
theorem Ready.update (heng : EngineOk eng) {number : Str → XNum} (hnum : NumberOk number) {o : Forms.Own A} {subs : FSubs A} {sets : List (FSet A)} (ht : FTree.Ok (.mk o subs))
    (hn : FTree.New (.mk o subs)) {a : Node.Addr} {s n n0 n1 : Node} (hs : s.get a = some n1) (hfit : FTree.Fit (.mk o subs) n) (hini : FTree.Ini (.mk o subs) n n0)
    (hsets : ∀ set ∈ sets, FSet.Ok number o.ctx n set) (hno : NoOverlap (.mk o subs) sets) {l : FSubs A} {rs : List (RSet A)} (h : Ready o subs sets n n0 l n1) (hl : ListsAt eng sets n rs n1) :
    ∃ w' n', updateWhole eng a ⟨.mk o l, rs⟩ s = .ok (w', s.modify a (fun _ => n')) ∧ WholeSaved (.mk o subs) sets n n' ∧
      ∃ w'' n'', updateWhole eng a w' (s.modify a (fun _ => n')) = .ok (w'', s.modify a (fun _ => n'')) ∧ Unchanged (.mk o subs) sets n n' n'' := by
  obtain ⟨t', n2, u1, u2, u3, u4, u5, -⟩ := updateTree_run heng (.mk o l) ⟨ht.1, h.ok⟩ hs ⟨fun i => (h.own i).1, h.inv⟩
  have hfr : Frame (FTree.Paths (.mk o subs)) n1 n2 := u5.frame.mono (fun p hp => by
    rcases hp with hp | hp
    · exact .inl hp
    · exact .inr ((h.ev.has p).1 hp))
  have hmem : ∀ r ∈ rs, members r.set.q r.set.ps n2 = members r.set.q r.set.ps n1 := by
    intro r hr
    have hin : r.set ∈ sets := by rw [← hl.sets]; exact List.mem_map.2 ⟨r, hr, rfl⟩
    exact members_of_hits (hfr.other (FSet.path r.set) (hsets _ hin).good (fun p hp => hno.tree _ hin p hp))
  obtain ⟨rs', n', v1, v2, v3, v4, v5⟩ := updateFormsets_run heng hnum (ctx := o.ctx) (n0 := n) rs (s := s.modify a (fun _ => n2)) (get_modify_here hs) (fun r hr =>
    ⟨hsets _ (by rw [← hl.sets]; exact List.mem_map.2 ⟨r, hr, rfl⟩), setAt_keep (hl.list r hr) (hmem r hr)⟩) (pairwise_sets hl.sets hno.lists)
  rw [modify_twice] at v1
  obtain ⟨c, hc, -⟩ := ht.1.data
  have hfp : ∀ p, FTree.Paths (.mk o subs) p → hits p n' = hits p n2 ∧ (Uniq p n2 → Uniq p n') := fun p hp =>
    v3 p (part_lists hl.sets (fun set hset => part_symm (hno.tree set hset p hp)))
  match t', u1, u2, u3, u4, u5 with
  | .mk o' l', u1, u2, u3, u4, u5 =>
    obtain ⟨⟨c', e, hlike⟩, ev2, -, -, ev4⟩ := u5
    subst e
    have hev : FSubs.Ev subs n0 l' n' := FSubs.Ev.right (fun q hq => (hfp q (.inr hq)).1) (FSubs.Ev.trans h.ev ev4)
    have hhas : ∀ q, FSubs.Has q l' ↔ FSubs.Has q subs := (FSubs.Ev.trans h.ev ev4).has
    have hinv : FSubs.Inv l' n' := FSubs.Inv.keep (fun q hq => hfp q (.inr ((hhas q).1 hq))) u3.2
    have hdone : FSubs.Done l' n' := FSubs.Done.keep (fun q hq => (hfp q (.inr ((hhas q).1 hq))).1) u4.2
    have hfu : ∀ i, Uniq (o.m.fs i).p n' := fun i => (hfp _ (.inl ⟨i, rfl⟩)).2 (u3.1 i).1
    refine ⟨⟨.mk { o with cleaned := c' } l', rs'⟩, n', ?_, ⟨fun i v hv => ?_, fun i hv => ?_, fun g ctx hg hsi hp1 hp2 => ?_, savedSubs_of ht.2 hn hfit.2 hini.2.2 hev hinv hdone, fun set hset => ?_⟩, ?_⟩
    · unfold updateWhole
      simp only [hc, u1, v1]
    · obtain ⟨v', hv', e⟩ := submits_like' hlike hv
      obtain ⟨w, x, k1, k2, k3, k4⟩ : InElem o.m i v n' := inElem_hits (hfp _ (.inl ⟨i, rfl⟩)).1 (inElem_like (m := o.m) e (u4.1 i v' hv'))
      rw [fieldVal_hits (ht.1.field i) (hfu i), hitIs_value k2 k3 k4]
      simp only [Except.map, o.m.take_show i _ w k1]
    · rw [fieldVal_hits (ht.1.field i) (hfu i), fieldVal_hits (ht.1.field i) (hfit.1 i).1, (hfp (o.m.fs i).p (.inl ⟨i, rfl⟩)).1, ev2 i hv, (h.own i).2]
    · have hu := uniq_of_single hg.good hsi
      obtain ⟨r1, r2⟩ := h.rest g.p hg.good hp1 hp2
      obtain ⟨r3, r4⟩ := v3 g.p (part_lists hl.sets hp2)
      rw [fieldVal_hits hg (r4 (hfr.uniq _ hg.good hp1 (r2 hu))), fieldVal_hits hg hu, r3, hfr.other _ hg.good hp1, r1]
    · rw [← hl.sets] at hset
      obtain ⟨r, hr, rfl⟩ := List.mem_map.1 hset
      exact v2 r hr
    · have hfu' : ∀ i, FU (o.m.fs i) n' := fun i => by
        obtain ⟨k1, k2⟩ := hfp (o.m.fs i).p (.inl ⟨i, rfl⟩)
        exact ⟨hfu i, by rw [k1]; exact (u3.1 i).2⟩
      obtain ⟨t2, n3, w1, -, -, -, -, w6⟩ := updateTree_run heng (.mk { o with cleaned := c' } l') u2 (s := s.modify a (fun _ => n')) (get_modify_here hs) ⟨hfu', hinv⟩
      have hn3 : n3 = n' := w6 ⟨fun i v hv => inElem_hits (hfp (o.m.fs i).p (.inl ⟨i, rfl⟩)).1 (u4.1 i v hv), hdone⟩
      subst hn3
      rw [modify_twice] at w1
      have hsets' : rs'.map RSet.set = sets := v4.trans hl.sets
      have hin : ∀ r ∈ rs', r.set ∈ sets := fun r hr => by rw [← hsets']; exact List.mem_map.2 ⟨r, hr, rfl⟩
      obtain ⟨rs2, n4, x1, x2, x3⟩ := updateFormsets_again heng hnum (ctx := o.ctx) (n0 := n) (n1 := n3) rs' (s := s.modify a (fun _ => n3)) (get_modify_here hs)
        (fun r hr => ⟨hsets _ (hin r hr), v5 r hr⟩) (pairwise_sets hsets' hno.lists)
      rw [modify_twice] at x1
      have hfp4 : ∀ p, FTree.Paths (.mk o subs) p → hits p n4 = hits p n3 ∧ (Uniq p n3 → Uniq p n4) := fun p hp =>
        x3 p (part_lists hsets' (fun set hset => part_symm (hno.tree set hset p hp)))
      refine ⟨⟨t2, rs2⟩, n4, ?_, fun g ctx hg hu hp => ?_, fun i => ?_, ?_, fun set hset => ?_⟩
      · obtain ⟨c2, hc2, -⟩ := u2.1.data
        have hc2 : c' = some c2 := hc2
        subst hc2
        unfold updateWhole
        simp only [w1, x1]
      · obtain ⟨y1, y2⟩ := x3 g.p (part_lists hsets' hp)
        have hu' := uniq_of_single hg.good hu
        rw [fieldVal_hits hg (y2 hu'), fieldVal_hits hg hu', y1]
      · obtain ⟨y1, y2⟩ := hfp4 (o.m.fs i).p (.inl ⟨i, rfl⟩)
        show fieldVal (o.m.fs i) n4 = fieldVal (o.m.fs i) n3
        rw [fieldVal_hits (ht.1.field i) (y2 (hfu i)), fieldVal_hits (ht.1.field i) (hfu i), y1]
      · show FSubs.Saved subs n n4
        exact savedSubs_of ht.2 hn hfit.2 hini.2.2 (FSubs.Ev.right (fun q hq => (hfp4 q (.inr hq)).1) hev)
          (FSubs.Inv.keep (fun q hq => hfp4 q (.inr ((hhas q).1 hq))) hinv) (FSubs.Done.keep (fun q hq => (hfp4 q (.inr ((hhas q).1 hq))).1) hdone)
      · rw [← hsets'] at hset
        obtain ⟨r, hr, rfl⟩ := List.mem_map.1 hset
        exact x2 r hr

/-- The form has just been made. -/
theorem ready_init (heng : EngineOk eng) {number : Str → XNum} {o : Forms.Own A} {subs : FSubs A} {sets : List (FSet A)} (ht : FTree.Ok (.mk o subs))
    (hn : FTree.New (.mk o subs)) {a : Node.Addr} {s n : Node} (hs : s.get a = some n) (hfit : FTree.Fit (.mk o subs) n)
    (hsets : ∀ set ∈ sets, FSet.Ok number o.ctx n set) (hno : NoOverlap (.mk o subs) sets) :
    ∃ rs n0, initWhole eng a (.mk o subs) sets s = .ok (⟨.mk o subs, rs⟩, s.modify a (fun _ => n0)) ∧ FTree.Ini (.mk o subs) n n0 ∧ Ready o subs sets n n0 subs n0 ∧ ListsAt eng sets n rs n0 := by
  obtain ⟨n0, r1, r2, r3, -⟩ := initTree_run heng (.mk o subs) ht hn hs hfit
  have hfr := r3.frame
  have hset : ∀ set ∈ sets, SetAt eng n (startSet eng o.ctx a (s.modify a (fun _ => n0)) set).inst n0 set ∧ (startSet eng o.ctx a (s.modify a (fun _ => n0)) set).set = set := by
    intro set hset
    exact startSet_at heng (get_modify_here hs) (hsets set hset) (members_of_hits (hfr.other (FSet.path set) (hsets set hset).good (fun p hp => hno.tree set hset p hp)))
  refine ⟨sets.map (startSet eng o.ctx a (s.modify a (fun _ => n0))), n0, ?_, r3, ⟨fun i => ⟨r2.1 i, r3.1 i⟩, ht.2, r2.2, FSubs.Ev.refl' r2.2, fun g hg hp _ => ⟨hfr.other g hg hp, hfr.uniq g hg hp⟩⟩, ?_, ?_⟩
  · unfold initWhole
    simp only [r1]
  · rw [List.map_map]
    conv => rhs; rw [← List.map_id sets]
    exact List.map_congr_left (fun set hs => (hset set hs).2)
  · intro r hr
    obtain ⟨set, h1, rfl⟩ := List.mem_map.1 hr
    obtain ⟨k1, k2⟩ := hset set h1
    rw [k2]
    exact k1

/-- C90.  A form with subforms, at any depth, and formsets is made for the object whose element is at `a`, and then updates its instance.  Then all that has been submitted, and
nothing else, is in the document: `WholeSaved`; nothing outside the element has changed.  Updating the instance again changes neither the fields nor the subforms, and the lists
only as said in `SavedTwice`. -/
theorem C90_save (heng : EngineOk eng) (number : Str → XNum) (hnum : NumberOk number) (t : FTree A) (sets : List (FSet A)) (ht : FTree.Ok t) (hn : FTree.New t) (a : Node.Addr) (s n : Node)
    (hs : s.get a = some n) (hfit : FTree.Fits t n) (hsets : ∀ set ∈ sets, FSet.Ok number (FTree.own t).ctx n set) (hno : NoOverlap t sets) :
    ∃ w s0 w' n', initWhole eng a t sets s = .ok (w, s0) ∧ updateWhole eng a w s0 = .ok (w', s.modify a (fun _ => n')) ∧ WholeSaved t sets n n' ∧
      ∃ w'' n'', updateWhole eng a w' (s.modify a (fun _ => n')) = .ok (w'', s.modify a (fun _ => n'')) ∧ Unchanged t sets n n' n'' := by
  have hf := FTree.Fits.fit ht hfit
  match t, ht, hn, hf, hsets, hno with
  | .mk o subs, ht, hn, hf, hsets, hno =>
    obtain ⟨rs, n0, h1, h2, h3, h4⟩ := ready_init heng ht hn hs hf hsets hno
    obtain ⟨w', n', k1, k2, w'', n'', k3, k4⟩ := h3.update heng hnum ht hn (s := s.modify a (fun _ => n0)) (get_modify_here hs) hf h2 hsets hno h4
    rw [modify_twice] at k1 k3
    rw [modify_twice] at k3
    exact ⟨_, _, w', n', h1, k1, k2, w'', n'', k3, k4⟩

/-- The subforms are validated. -/
theorem Ready.trees (heng : EngineOk eng) {number : Str → XNum} {o : Forms.Own A} {subs : FSubs A} {sets : List (FSet A)} (ht : FTree.Ok (.mk o subs)) {a : Node.Addr} {s n n0 : Node}
    (hs : s.get a = some n0) (hsets : ∀ set ∈ sets, FSet.Ok number o.ctx n set) (hno : NoOverlap (.mk o subs) sets) {rs : List (RSet A)} (h : Ready o subs sets n n0 subs n0)
    (hl : ListsAt eng sets n rs n0) :
    ∃ r l n1, validTrees eng subs a s = (.ok r, l, s.modify a (fun _ => n1)) ∧ Ready o subs sets n n0 l n1 ∧ ListsAt eng sets n rs n1 ∧ (r = true → FSubs.AllValid subs) ∧
      (FSubs.AllValid subs → FSubs.NoSchema subs → r = true) := by
  obtain ⟨r, l, n1, v1, v2, v3, v4, v5, -, v7, v8, -⟩ := validTrees_run heng subs ht.2 hs h.inv
  refine ⟨r, l, n1, v1, ⟨fun i => ?_, v2, v3, v4, fun g hg h1 h2 => ?_⟩, ⟨hl.sets, fun r hr => ?_⟩, v7, v8⟩
  · have hp : ∀ q, FSubs.Has q subs → Part q (o.m.fs i).p := fun q hq => part_symm ((FSubs.Ok.has ht.2 hq).2.2.2 _ ⟨i, rfl⟩)
    exact ⟨v5.fu (ht.1.field i).good hp (h.own i).1, (v5.other _ (ht.1.field i).good hp).trans (h.own i).2⟩
  · obtain ⟨k1, k2⟩ := h.rest g hg h1 h2
    exact ⟨(v5.other g hg (fun p hp => h1 p (.inr hp))).trans k1, fun hu => v5.uniq g hg (fun p hp => h1 p (.inr hp)) (k2 hu)⟩
  · have hin : r.set ∈ sets := by rw [← hl.sets]; exact List.mem_map.2 ⟨r, hr, rfl⟩
    exact setAt_keep (hl.list r hr) (members_of_hits (v5.other (FSet.path r.set) (hsets _ hin).good (fun p hp => hno.tree _ hin p (.inr hp))))

/-- The formsets are validated. -/
theorem Ready.lists (heng : EngineOk eng) {number : Str → XNum} {o : Forms.Own A} {subs : FSubs A} {sets : List (FSet A)} (ht : FTree.Ok (.mk o subs)) {a : Node.Addr} {s n n0 n1 : Node}
    (hs : s.get a = some n1) (hsets : ∀ set ∈ sets, FSet.Ok number o.ctx n set) (hno : NoOverlap (.mk o subs) sets) {l : FSubs A} {rs : List (RSet A)} (h : Ready o subs sets n n0 l n1)
    (hl : ListsAt eng sets n rs n1) :
    ∃ b rs' n2, validFormsets eng o.ctx a rs s = .ok (b, rs', s.modify a (fun _ => n2)) ∧ Ready o subs sets n n0 l n2 ∧
      (b = true → ListsAt eng sets n rs' n2 ∧ ∀ set ∈ sets, FSet.Valid set) ∧ ((∀ set ∈ sets, FSet.Valid set) → (∀ set ∈ sets, FSet.NoSchema set) → b = true) := by
  have hmem : ∀ r ∈ rs, r.set ∈ sets := fun r hr => by rw [← hl.sets]; exact List.mem_map.2 ⟨r, hr, rfl⟩
  obtain ⟨b, rs', n2, v1, v2, v3, v4, v5⟩ := validFormsets_run heng (ctx := o.ctx) (n0 := n) rs hs (fun r hr => ⟨hsets _ (hmem r hr), hl.list r hr⟩) (pairwise_sets hl.sets hno.lists)
  have hfp : ∀ p, FTree.Paths (.mk o subs) p → hits p n2 = hits p n1 ∧ (Uniq p n1 → Uniq p n2) := fun p hp =>
    v2 p (part_lists hl.sets (fun set hset => part_symm (hno.tree set hset p hp)))
  refine ⟨b, rs', n2, v1, ⟨fun i => ?_, h.ok, ?_, ?_, fun g hg h1 h2 => ?_⟩, fun hb => ?_, fun h1 h2 => v5 (fun r hr => ⟨h1 _ (hmem r hr), h2 _ (hmem r hr)⟩)⟩
  · obtain ⟨k1, k2⟩ := hfp (o.m.fs i).p (.inl ⟨i, rfl⟩)
    obtain ⟨k3, k4⟩ := h.own i
    exact ⟨⟨k2 k3.1, by rw [k1]; exact k3.2⟩, k1.trans k4⟩
  · exact FSubs.Inv.keep (fun q hq => hfp q (.inr ((h.ev.has q).1 hq))) h.inv
  · exact FSubs.Ev.right (fun q hq => (hfp q (.inr hq)).1) h.ev
  · obtain ⟨k1, k2⟩ := h.rest g hg h1 h2
    obtain ⟨k3, k4⟩ := v2 g (part_lists hl.sets h2)
    exact ⟨k3.trans k1, fun hu => k4 (k2 hu)⟩
  · refine ⟨⟨v3.trans hl.sets, fun r hr => (v4 hb r hr).2⟩, fun set hset => ?_⟩
    rw [← hl.sets, ← v3] at hset
    obtain ⟨r, hr, rfl⟩ := List.mem_map.1 hset
    exact (v4 hb r hr).1

/-- The form is validated. -/
theorem valid_run (heng : EngineOk eng) {number : Str → XNum} (hnum : NumberOk number) {o : Forms.Own A} {subs : FSubs A} {sets : List (FSet A)} (ht : FTree.Ok (.mk o subs))
    (hn : FTree.New (.mk o subs)) {a : Node.Addr} {s n : Node} (hs : s.get a = some n) (hfit : FTree.Fit (.mk o subs) n)
    (hsets : ∀ set ∈ sets, FSet.Ok number o.ctx n set) (hno : NoOverlap (.mk o subs) sets) :
    ∃ w s0 r w' n', initWhole eng a (.mk o subs) sets s = .ok (w, s0) ∧ validWhole eng a w s0 = .ok (r, w', s.modify a (fun _ => n')) ∧
      (r = true → FTree.AllValid (.mk o subs) ∧ (∀ set ∈ sets, FSet.Valid set) ∧ o.schemaValid n' = true ∧ WholeSaved (.mk o subs) sets n n' ∧
        ∃ w'' n'', updateWhole eng a w' (s.modify a (fun _ => n')) = .ok (w'', s.modify a (fun _ => n'')) ∧ Unchanged (.mk o subs) sets n n' n'') ∧
      (FTree.AllValid (.mk o subs) → (∀ set ∈ sets, FSet.Valid set) → FTree.NoSchema (.mk o subs) → (∀ set ∈ sets, FSet.NoSchema set) → r = true) ∧
      (¬ FTree.AllValid (.mk o subs) ∨ (∃ set ∈ sets, ¬ FSet.Valid set) → r = false ∧ ∃ n0 l, Ready o subs sets n n0 l n') := by
  obtain ⟨rs, n0, h1, h2, h3, h4⟩ := ready_init heng ht hn hs hfit hsets hno
  by_cases hv : o.valid = false
  · refine ⟨_, _, false, ⟨.mk o subs, rs⟩, n0, h1, by unfold validWhole; simp only [hv, if_true], (by intro h; cases h), fun hall _ _ _ => ?_, fun _ => ⟨rfl, n0, subs, h3⟩⟩
    rw [hall.1] at hv; cases hv
  obtain ⟨r, l, n1, v1, v2, v3, v4, v5⟩ := h3.trees heng ht (s := s.modify a (fun _ => n0)) (get_modify_here hs) hsets hno h4
  rw [modify_twice] at v1
  cases r with
  | false =>
    refine ⟨_, _, false, ⟨.mk o l, rs⟩, n1, h1, by unfold validWhole; simp only [if_neg hv, v1], (by intro h; cases h), fun hall _ hsch _ => v5 hall.2 hsch.2, fun _ => ⟨rfl, n0, l, v2⟩⟩
  | true =>
    obtain ⟨b, rs', n2, u1, u2, u3, u4⟩ := v2.lists heng ht (s := s.modify a (fun _ => n1)) (get_modify_here hs) hsets hno v3
    rw [modify_twice] at u1
    cases b with
    | false =>
      refine ⟨_, _, false, ⟨.mk o l, rs'⟩, n2, h1, by unfold validWhole; simp only [if_neg hv, v1, u1], (by intro h; cases h), fun _ hset _ hsch => u4 hset hsch, fun _ => ⟨rfl, n0, l, u2⟩⟩
    | true =>
      obtain ⟨g1, g2⟩ := u3 rfl
      obtain ⟨w', n', k1, k2, w'', n'', k3, k4⟩ := u2.update heng hnum ht hn (s := s.modify a (fun _ => n2)) (get_modify_here hs) hfit h2 hsets hno g1
      rw [modify_twice] at k1 k3
      rw [modify_twice] at k3
      have hall : FTree.AllValid (.mk o subs) := ⟨by simpa using hv, v4 rfl⟩
      refine ⟨_, _, o.schemaValid n', w', n', h1, ?_, fun hr => ⟨hall, g2, hr, k2, w'', n'', k3, k4⟩, fun _ _ hsch _ => hsch.1 n', fun hbad => ?_⟩
      · unfold validWhole
        simp only [if_neg hv, v1, u1, k1, get_modify_here hs, Option.all_some]
      · rcases hbad with hb | ⟨set, hset, hb⟩
        · exact absurd hall hb
        · exact absurd (g2 set hset) hb

/-- C90.  `is_valid()` of such a form succeeds.  If it is True, Django has found the data of all forms and formsets valid, the element is valid by the schema, and everything has
been saved; `update_instance()`, which is what views call then, changes nothing but as said in C90_save.  If Django finds the data valid and the schemas accept everything, it is True. -/
theorem C90_valid (heng : EngineOk eng) (number : Str → XNum) (hnum : NumberOk number) (t : FTree A) (sets : List (FSet A)) (ht : FTree.Ok t) (hn : FTree.New t) (a : Node.Addr) (s n : Node)
    (hs : s.get a = some n) (hfit : FTree.Fits t n) (hsets : ∀ set ∈ sets, FSet.Ok number (FTree.own t).ctx n set) (hno : NoOverlap t sets) :
    ∃ w s0 r w' n', initWhole eng a t sets s = .ok (w, s0) ∧ validWhole eng a w s0 = .ok (r, w', s.modify a (fun _ => n')) ∧
      (r = true → FTree.AllValid t ∧ (∀ set ∈ sets, FSet.Valid set) ∧ (FTree.own t).schemaValid n' = true ∧ WholeSaved t sets n n' ∧
        ∃ w'' n'', updateWhole eng a w' (s.modify a (fun _ => n')) = .ok (w'', s.modify a (fun _ => n'')) ∧ Unchanged t sets n n' n'') ∧
      (FTree.AllValid t → (∀ set ∈ sets, FSet.Valid set) → FTree.NoSchema t → (∀ set ∈ sets, FSet.NoSchema set) → r = true) := by
  have hf := FTree.Fits.fit ht hfit
  match t, ht, hn, hf, hsets, hno with
  | .mk o subs, ht, hn, hf, hsets, hno =>
    obtain ⟨w, s0, r, w', n', h1, h2, h3, h4, -⟩ := valid_run heng hnum ht hn hs hf hsets hno
    exact ⟨w, s0, r, w', n', h1, h2, h3, h4⟩

/-- C90.  If Django finds the data of one of the forms or formsets invalid, `is_valid()` is False, and no field of the form's own instance has changed, nor anything else apart
from the elements of the subforms and the members of the lists (those that come before the invalid one may have been saved). -/
theorem C90_invalid (heng : EngineOk eng) (number : Str → XNum) (hnum : NumberOk number) (t : FTree A) (sets : List (FSet A)) (ht : FTree.Ok t) (hn : FTree.New t) (a : Node.Addr) (s n : Node)
    (hs : s.get a = some n) (hfit : FTree.Fits t n) (hsets : ∀ set ∈ sets, FSet.Ok number (FTree.own t).ctx n set) (hno : NoOverlap t sets)
    (hbad : ¬ FTree.AllValid t ∨ ∃ set ∈ sets, ¬ FSet.Valid set) :
    ∃ w s0 w' n', initWhole eng a t sets s = .ok (w, s0) ∧ validWhole eng a w s0 = .ok (false, w', s.modify a (fun _ => n')) ∧
      (∀ i, fieldVal ((FTree.own t).m.fs i) n' = fieldVal ((FTree.own t).m.fs i) n) ∧
      ∀ g ctx, g.Ok ctx → Single g.p n → (∀ p, FTree.Paths t p → Part p g.p) → (∀ set ∈ sets, Part (FSet.path set) g.p) → fieldVal g n' = fieldVal g n := by
  have hf := FTree.Fits.fit ht hfit
  match t, ht, hn, hf, hsets, hno with
  | .mk o subs, ht, hn, hf, hsets, hno =>
    obtain ⟨w, s0, r, w', n', h1, h2, -, -, h5⟩ := valid_run heng hnum ht hn hs hf hsets hno
    obtain ⟨rfl, n0, l, hr⟩ := h5 hbad
    refine ⟨w, s0, w', n', h1, h2, fun i => ?_, fun g ctx hg hsi hp1 hp2 => ?_⟩
    · obtain ⟨k1, k2⟩ := hr.own i
      show fieldVal (o.m.fs i) n' = fieldVal (o.m.fs i) n
      rw [fieldVal_hits (ht.1.field i) k1.1, fieldVal_hits (ht.1.field i) (hf.1 i).1, k2]
    · have hu := uniq_of_single hg.good hsi
      obtain ⟨r1, r2⟩ := hr.rest g.p hg.good hp1 hp2
      rw [fieldVal_hits hg (r2 hu), fieldVal_hits hg hu, r1]

end

/-! ### an example -/

/-- The page of C85, with the two people of C89 and one subject, and the form of C85 with formsets for both lists: the first person is marked for deletion, the second one gets
another name, one is new; of the three subjects the second one is empty. -/
def wholeDoc : Node := pageDoc.withChildren (pageDoc.children ++ [person c%"Doe", (Node.empty ⟨none, c%"subject"⟩).setText (some c%"S"), person c%"Poe"])
def subjectList : LField := ⟨Option Str, inferInstance, c%"subject", ast c%"subject", ⟨none, c%"subject"⟩, [], strKind sampleCtx (ast c%"subject"), strView⟩
def wholeSets : List (FSet Plain2) :=
  [.nodes { xp := c%"a", e := ast c%"a", q := ⟨none, c%"a"⟩, ps := [], o := oneForm c%"family" [], data := peopleData, new := newItem, canDelete := true, canOrder := false, initial := 2, subs := [⟨true, true, none⟩, ⟨true, false, none⟩, ⟨true, false, none⟩], formValid := fun _ => true, clean := true },
   .values subjectList strTruthy [some c%"X", some [], some c%"Y"] true]

theorem wholeSets_ok : ∀ set ∈ wholeSets, FSet.Ok xpathNumber sampleCtx wholeDoc set := by
  intro set hset
  simp only [wholeSets, List.mem_cons, List.not_mem_nil, or_false] at hset
  rcases hset with rfl | rfl
  · refine ⟨subField, ?_, by decide, by decide⟩
    have hm : members ⟨none, c%"a"⟩ [] wholeDoc = members ⟨none, c%"a"⟩ [] people := by decide
    show FormsFit (oneForm c%"family" []) peopleData ⟨none, c%"a"⟩ [] (members ⟨none, c%"a"⟩ [] wholeDoc) newItem
    rw [hm]
    exact people_fit
  · refine ⟨⟨⟨by decide, by rfl, by decide, by decide⟩, .str rfl, rfl⟩, ?_, ?_⟩
    · intro m hm
      have hm : m ∈ [(Node.empty ⟨none, c%"subject"⟩).setText (some c%"S")] := hm
      simp only [List.mem_singleton] at hm
      subst hm
      rfl
    · intro v hv ht
      have hv : (show Option Str from v) ∈ [some c%"X", some [], some c%"Y"] := hv
      revert hv ht
      generalize (show Option Str from v) = v
      intro ht hv
      simp only [List.mem_cons, List.not_mem_nil, or_false] at hv
      rcases hv with rfl | rfl | rfl
      · exact ⟨_, rfl, by decide⟩
      · exact absurd ht (by decide)
      · exact ⟨_, rfl, by decide⟩

theorem wholeSets_apart : NoOverlap pageForm wholeSets where
  lists := by
    simp only [wholeSets, List.pairwise_cons, List.mem_singleton, forall_eq, List.not_mem_nil, false_imp_iff, implies_true, List.Pairwise.nil, and_true]
    exact C69_apart_names (by decide) _ _
  tree := by
    intro set hset p hp
    simp only [wholeSets, List.mem_cons, List.not_mem_nil, or_false] at hset
    rcases hset with rfl | rfl
    · rcases hp with ⟨i, rfl⟩ | rfl | rfl | h
      · match (show Fin 4 from i) with
        | 0 | 1 | 2 => exact .inl (C69_apart_names (by decide) _ _)
        | 3 => trivial
      · exact .inl (C69_apart_names (by decide) _ _)
      · exact .inl (C69_apart_names (by decide) _ _)
      · exact h.elim
    · rcases hp with ⟨i, rfl⟩ | rfl | rfl | h
      · match (show Fin 4 from i) with
        | 0 | 1 | 2 => exact .inl (C69_apart_names (by decide) _ _)
        | 3 => trivial
      · exact .inl (C69_apart_names (by decide) _ _)
      · exact .inl (C69_apart_names (by decide) _ _)
      · exact h.elim

theorem whole_fits : FTree.Fits pageForm wholeDoc := by
  have hsi : ∀ x : Str, (Step.matches [.child ⟨none, x⟩ []] wholeDoc).length ≤ 1 → Single [.child ⟨none, x⟩ []] wholeDoc := by
    intro x h k
    match k with
    | 0 => exact Nat.le_refl 1
    | k + 1 => simpa using h
  refine ⟨C69_tidy_check _ _ (fun i => match (show Fin 4 from i) with | 0 => by decide | 1 => by decide | 2 => by decide | 3 => by decide), hsi _ (by decide), ?_, hsi _ (by decide), ?_, trivial⟩
  · intro m h; have h : (none : Option Node) = some m := h; cases h
  · intro m h; have h : (none : Option Node) = some m := h; cases h

/-- The form is valid, everything is saved, in particular the subjects; and the update that follows leaves the subjects as they are. -/
example : ∃ w s0 w' n' w'' n'', initWhole refEngine [] pageForm wholeSets wholeDoc = .ok (w, s0) ∧ validWhole refEngine [] w s0 = .ok (true, w', n') ∧ WholeSaved pageForm wholeSets wholeDoc n' ∧
    updateWhole refEngine [] w' n' = .ok (w'', n'') ∧ (members ⟨none, c%"subject"⟩ [] n'').map strView.item = [some c%"X", some c%"Y"] := by
  obtain ⟨w, s0, r, w', n', h1, h2, h3, h4⟩ := C90_valid refEngine_ok xpathNumber xpathNumber_ok pageForm wholeSets pageForm_ok ⟨rfl, ⟨rfl, trivial, trivial⟩, rfl, trivial, trivial⟩ [] wholeDoc wholeDoc rfl
    whole_fits wholeSets_ok wholeSets_apart
  have hr : r = true := h4 ⟨rfl, ⟨rfl, ⟨rfl, trivial⟩, trivial⟩, ⟨rfl, trivial⟩, trivial⟩ (by
      intro set hset
      simp only [wholeSets, List.mem_cons, List.not_mem_nil, or_false] at hset
      rcases hset with rfl | rfl
      · exact ⟨rfl, fun _ _ _ _ => rfl⟩
      · exact rfl) ⟨fun _ => rfl, ⟨fun _ => rfl, ⟨fun _ => rfl, trivial⟩, trivial⟩, ⟨fun _ => rfl, trivial⟩, trivial⟩ (by
      intro set hset
      simp only [wholeSets, List.mem_cons, List.not_mem_nil, or_false] at hset
      rcases hset with rfl | rfl
      · exact fun _ => rfl
      · exact trivial)
  subst hr
  obtain ⟨-, -, -, k4, w'', n'', k5, -, -, -, k6⟩ := h3 rfl
  refine ⟨w, s0, w', n', w'', n'', h1, h2, k4, k5, ?_⟩
  have h := k6 (.values subjectList strTruthy [some c%"X", some [], some c%"Y"] true) (List.mem_cons_of_mem _ (List.mem_singleton.2 rfl))
  exact h.2

/-- Evaluated: the second person has been renamed and the third one added, the first one removed. -/
example : (match initWhole refEngine [] pageForm wholeSets wholeDoc with
    | .ok (w, s) => match updateWhole refEngine [] w s with
      | .ok (_, s) => members ⟨none, c%"a"⟩ [] s
      | .error _ => []
    | .error _ => []) = [person c%"Roe", person c%"Moe"] := by decide +kernel

end Props
