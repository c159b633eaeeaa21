import Verif.Spec.FormTree
/-
Proofs for C85: the runs of `initTree`, `updateTree` and `validTree` (Verif/Forms/Tree.lean).
-/
namespace Props
open XPath Xml Spec Fields Core Forms Py

/-! ### proof: one field -/

/-- The field has at most one node at each step, and can be written. -/
def FU (f : RField) (n : Node) : Prop := Uniq f.p n ∧ ∀ m, (hits f.p n).head? = some (.inl m) → m.children = []

/-- `n'` differs from `n` only at the paths `P`. -/
structure Frame (P : List Step → Prop) (n n' : Node) : Prop where
  tag : n'.tag = n.tag
  attr : ∀ t, (∀ r, ¬ P (.attr t :: r)) → n'.attr? t = n.attr? t
  other : ∀ g, Spec.good g = true → (∀ p, P p → Part p g) → hits g n' = hits g n
  uniq : ∀ g, Spec.good g = true → (∀ p, P p → Part p g) → Uniq g n → Uniq g n'

theorem Frame.refl (P : List Step → Prop) (n : Node) : Frame P n n := ⟨rfl, fun _ _ => rfl, fun _ _ _ => rfl, fun _ _ _ h => h⟩

theorem Frame.trans {P : List Step → Prop} {n n' n'' : Node} (h : Frame P n n') (h' : Frame P n' n'') : Frame P n n'' :=
  ⟨h'.tag.trans h.tag, fun t ht => (h'.attr t ht).trans (h.attr t ht), fun g hg hp => (h'.other g hg hp).trans (h.other g hg hp),
    fun g hg hp hu => h'.uniq g hg hp (h.uniq g hg hp hu)⟩

theorem Frame.mono {P Q : List Step → Prop} {n n' : Node} (h : Frame P n n') (hpq : ∀ p, P p → Q p) : Frame Q n n' :=
  ⟨h.tag, fun t ht => h.attr t (fun r hr => ht r (hpq _ hr)), fun g hg hp => h.other g hg (fun p hp' => hp p (hpq p hp')),
    fun g hg hp hu => h.uniq g hg (fun p hp' => hp p (hpq p hp')) hu⟩

theorem frame_of {P : List Step → Prop} {p : List Step} (hp : P p) {n n' : Node} (h : Local p n n') : Frame P n n' :=
  ⟨h.tag, fun t ht => h.attr t (fun r hr => ht r (hr ▸ hp)), fun g hg hq => h.other g hg (hq p hp), fun g hg hq hu => h.uniq g hg (hq p hp) hu⟩

theorem Frame.fu {P : List Step → Prop} {n n' : Node} (h : Frame P n n') {f : RField} (hg : Spec.good f.p = true) (hp : ∀ p, P p → Part p f.p) (hu : FU f n) : FU f n' :=
  ⟨h.uniq _ hg hp hu.1, by rw [h.other _ hg hp]; exact hu.2⟩

theorem textual_ends (p : List Step) : textual p = endsText p := rfl

theorem hitIs_children {p : List Step} {o : Option Str} {n : Node} (h : HitIs p o n) : ∀ m, (hits p n).head? = some (.inl m) → m.children = [] := by
  intro m hm
  cases o with
  | none => rw [show hits p n = [] from h] at hm; cases hm
  | some t =>
    rcases h with ⟨-, h⟩ | ⟨-, m', h, h1, -⟩
    · rw [h] at hm; cases hm
    · rw [h] at hm; cases hm; exact h1

section
variable [PyUnicode] {eng : Engine}

/-- Assigning to a field. -/
theorem field_set (heng : EngineOk eng) {ctx : Ctx} {f : RField} (hf : f.Ok ctx) {a s n} (hs : Node.get a s = some n) (hu : FU f n) {v : f.V} {x : Option Str}
    (hx : f.toXml v = .ok x) (hk : f.Keeps v) :
    ∃ n', writeAs (f.toXml v) eng ctx f.xp f.e (.elem a) s = (.ok (), s.modify a (fun _ => n')) ∧ Local f.p n n' ∧ Uniq f.p n' ∧ HitIs f.p x n' ∧ (HitIs f.p x n → n' = n) := by
  have hg := hf.good
  have hp := ne_nil_of_field hf.simple
  have hsi := single_of_uniq hg hu.1
  obtain ⟨o, h1, h2⟩ := hk
  rw [hx] at h1
  cases h1
  cases x with
  | none =>
    refine ⟨delete f.p n, ?_, ?_, ?_, ?_, ?_⟩
    · rw [hx]
      show managerSet eng ctx (.ok none) _ _ _ _ = _
      rw [C17_none_is_delete, delete_run heng hf hs hsi]
      congr 1
      exact Node.modify_congr hs rfl
    · rw [delete_del hg hp hu.1]
      split_ifs
      · exact Local.refl _ _
      · exact local_del hg n
    · exact uniq_of_single hg (tidy_delete hf hsi).1.1
    · exact (hits_nil_iff hg (uniq_of_single hg (tidy_delete hf hsi).1.1)).mpr (hits_delete_self hf hsi)
    · intro h
      rw [delete_del hg hp hu.1, if_pos (show hits f.p n = [] from h)]
  | some t =>
    have hw := (writable_hits hg hp hu.1).mpr hu.2
    refine ⟨wr f.p t n, ?_, local_wr hg t n, uniq_wr_self hg t n hu.1, ?_, fun h => wr_same hg hu.1 h⟩
    · rw [hx, show writeAs (.ok (some t)) eng ctx f.xp f.e (.elem a) s = (.ok (), s.modify a (write f.p t)) from
        managerSet_str heng hf.simple.parse hf.simple.path hf.simple.canonical hf.simple.ok (attrPreds_stringOk hf.preds) h2.1 hs hw]
      congr 1
      exact Node.modify_congr hs (write_wr hg t hu.1)
    · refine hitIs_wr hg t hu.1 ?_
      intro m hm
      refine hu.2 m ?_
      have hl := hits_le_one hg hu.1
      match hh : hits f.p n, hm, hl with
      | [y], hm, _ => simp only [List.mem_singleton] at hm; subst hm; rfl

/-- What such a field reads. -/
theorem hitIs_value {f : RField} {n : Node} {v : f.V} {x : Option Str} (hx : f.toXml v = .ok x) (hk : f.Keeps v) (h : HitIs f.p x n) :
    f.toPython ((hits f.p n).head?.map hitItem) = .ok v := by
  obtain ⟨o, h1, h2⟩ := hk
  rw [hx] at h1
  cases h1
  cases x with
  | none => rw [show hits f.p n = [] from h]; exact h2
  | some t =>
    rcases h with ⟨he, h⟩ | ⟨he, m, h, hc, ht⟩
    · rw [h]; exact h2.2.1 he
    · rw [h]
      refine h2.2.2 he m hc ?_
      cases m
      simp only [Node.children] at hc
      simp only [Node.text] at ht
      subst hc ht
      simp [Node.strVal, Node.strValL]

/-! ### proof: the fields of one form -/

/-- The submitted value of the field is in the element. -/
def InElem {A : Type} (m : FormModel A) (i : m.ι) (v : CVal A) (n : Node) : Prop :=
  ∃ w x, m.take i (stored v) = some w ∧ (m.fs i).toXml w = .ok x ∧ (m.fs i).Keeps w ∧ HitIs (m.fs i).p x n

theorem model_inj {A : Type} (m : FormModel A) {i j : m.ι} (h : m.name i = m.name j) : i = j := by
  have h1 := (m.look_iff i _).2 rfl
  have h2 := (m.look_iff j _).2 rfl
  rw [h, h2] at h1
  simpa using h1.symm

theorem loop_run (heng : EngineOk eng) {A : Type} (m : FormModel A) {ctx : Ctx} (hf : ∀ i, (m.fs i).Ok ctx) (hpart : ∀ i j, i ≠ j → Part (m.fs i).p (m.fs j).p)
    (fields exclude : MetaList) (names : List Str) (c : Dict Str (CVal A)) (hc : ∀ x v, c.get? x = some v → ∃ i, m.name i = x ∧ m.Keeps i (stored v))
    {a s n} (hs : Node.get a s = some n) (hu : ∀ i, FU (m.fs i) n) :
    let W := fun i => m.name i ∈ names ∧ skipUpdate fields exclude (m.name i) = false ∧ ∃ v, c.get? (m.name i) = some v
    ∃ c' n', updateLoop fields exclude (setattrDoc m eng ctx a) names c s = (.ok (), c', s.modify a (fun _ => n')) ∧ (∀ i, FU (m.fs i) n') ∧
      Frame (fun p => ∃ i, W i ∧ p = (m.fs i).p) n n' ∧ (∀ i v, W i → c.get? (m.name i) = some v → InElem m i v n') ∧
      (∀ x, (c'.get? x).map stored = (c.get? x).map stored) ∧ ((∀ i v, W i → c.get? (m.name i) = some v → InElem m i v n) → n' = n) := by
  induction names generalizing c s n with
  | nil =>
    refine ⟨c, n, ?_, hu, Frame.refl _ _, fun i v hw => absurd hw.1 (by simp), fun _ => rfl, fun _ => rfl⟩
    rw [Node.modify_id hs rfl]; rfl
  | cons x names ih =>
    have hskip : (skipUpdate fields exclude x = true ∨ c.get? x = none) → updateLoop fields exclude (setattrDoc m eng ctx a) (x :: names) c s =
        updateLoop fields exclude (setattrDoc m eng ctx a) names c s := by
      intro h
      rw [updateLoop]
      by_cases h1 : skipUpdate fields exclude x = true
      · rw [if_pos h1]
      · rw [if_neg h1]
        rcases h with h | h
        · exact absurd h h1
        · rw [h]
    by_cases hcase : skipUpdate fields exclude x = true ∨ c.get? x = none
    · obtain ⟨c', n', h1, h2, h3, h4, h5, h6⟩ := ih c hc hs hu
      have hW : ∀ i, (m.name i ∈ x :: names ∧ skipUpdate fields exclude (m.name i) = false ∧ ∃ v, c.get? (m.name i) = some v) ↔
          (m.name i ∈ names ∧ skipUpdate fields exclude (m.name i) = false ∧ ∃ v, c.get? (m.name i) = some v) := by
        intro i
        refine ⟨fun h => ⟨?_, h.2⟩, fun h => ⟨by simp [h.1], h.2⟩⟩
        rcases List.mem_cons.mp h.1 with e | e
        · exfalso
          obtain ⟨-, k1, v, k2⟩ := h
          rw [e] at k1 k2
          rcases hcase with hh | hh
          · rw [k1] at hh; cases hh
          · rw [k2] at hh; cases hh
        · exact e
      refine ⟨c', n', by rw [hskip hcase]; exact h1, h2, ?_, fun i v hw => h4 i v ((hW i).mp hw), h5, fun h => h6 (fun i v hw => h i v ((hW i).mpr hw))⟩
      exact h3.mono (fun p hp => by obtain ⟨i, hi, e⟩ := hp; exact ⟨i, (hW i).mpr hi, e⟩)
    · have hcase1 : skipUpdate fields exclude x = false := by
        cases h : skipUpdate fields exclude x with
        | false => rfl
        | true => exact absurd (.inl h) hcase
      obtain ⟨v, hv⟩ : ∃ v, c.get? x = some v := by
        cases h : c.get? x with
        | none => exact absurd (.inr h) hcase
        | some v => exact ⟨v, rfl⟩
      obtain ⟨i, rfl, w, hw, hk⟩ := hc x v hv
      obtain ⟨o, ho, -⟩ := id hk
      obtain ⟨n1, r1, r2, r3, r4, r5⟩ := field_set heng (hf i) hs (hu i) ho hk
      have hset : setattrDoc m eng ctx a (m.name i) (stored v) s = (.ok (), s.modify a (fun _ => n1)) := by
        unfold setattrDoc
        rw [(m.look_iff i _).2 rfl]
        simp only [hw]
        exact r1
      have hcl : ∀ y, ((if v.isEmpty = true then c.set (m.name i) .null else c).get? y).map stored = (c.get? y).map stored := by
        intro y
        by_cases he : v.isEmpty = true
        · rw [if_pos he, Dict.get?_set]
          by_cases hx : y = m.name i
          · subst hx
            rw [if_pos rfl, hv]
            have : stored v = .null := by rw [← stored_eq, if_pos he]
            simp only [Option.map_some, this]; rfl
          · rw [if_neg hx]
        · rw [if_neg he]
      have hcl2 : ∀ y u, (if v.isEmpty = true then c.set (m.name i) .null else c).get? y = some u → ∃ u', c.get? y = some u' ∧ stored u' = stored u := by
        intro y u h
        have e := hcl y
        rw [h] at e
        cases h' : c.get? y with
        | none => rw [h'] at e; simp at e
        | some u' => rw [h'] at e; exact ⟨u', rfl, by simpa using e.symm⟩
      have hcl3 : ∀ y u, c.get? y = some u → ∃ u', (if v.isEmpty = true then c.set (m.name i) .null else c).get? y = some u' ∧ stored u' = stored u := by
        intro y u h
        have e := hcl y
        rw [h] at e
        cases h' : (if v.isEmpty = true then c.set (m.name i) .null else c).get? y with
        | none => rw [h'] at e; simp at e
        | some u' => rw [h'] at e; exact ⟨u', rfl, by simpa using e⟩
      have hu1 : ∀ j, FU (m.fs j) n1 := by
        intro j
        by_cases hj : j = i
        · subst hj; exact ⟨r3, hitIs_children r4⟩
        · have hp := hpart i j (Ne.symm hj)
          exact ⟨r2.uniq _ (hf j).good hp (hu j).1, by rw [r2.other _ (hf j).good hp]; exact (hu j).2⟩
      obtain ⟨c', n', h1, h2, h3, h4, h5, h6⟩ := ih (if v.isEmpty = true then c.set (m.name i) .null else c)
        (by
          intro y u h
          obtain ⟨u', k1, k2⟩ := hcl2 y u h
          rw [← k2]
          exact hc y u' k1)
        (s := s.modify a (fun _ => n1)) (n := n1) (by rw [Node.get_modify, hs]; rfl) hu1
      have hin : ∀ {j u u'} {k : Node}, stored u' = stored u → InElem m j u' k → InElem m j u k := by
        intro j u u' k e h
        unfold InElem at h ⊢
        rw [← e]; exact h
      have hW : ∀ j, (m.name j ∈ names ∧ skipUpdate fields exclude (m.name j) = false ∧
          ∃ v_1, (if v.isEmpty = true then c.set (m.name i) .null else c).get? (m.name j) = some v_1) ↔
          (m.name j ∈ names ∧ skipUpdate fields exclude (m.name j) = false ∧ ∃ v, c.get? (m.name j) = some v) := by
        intro j
        constructor
        · rintro ⟨k1, k2, u, k3⟩
          obtain ⟨u', k4, -⟩ := hcl2 _ _ k3
          exact ⟨k1, k2, u', k4⟩
        · rintro ⟨k1, k2, u, k3⟩
          obtain ⟨u', k4, -⟩ := hcl3 _ _ k3
          exact ⟨k1, k2, u', k4⟩
      have hfr1 : Frame (fun p => ∃ j, (m.name j ∈ m.name i :: names ∧ skipUpdate fields exclude (m.name j) = false ∧ ∃ v, c.get? (m.name j) = some v) ∧ p = (m.fs j).p) n n1 :=
        frame_of ⟨i, ⟨by simp, hcase1, v, hv⟩, rfl⟩ r2
      refine ⟨c', n', ?_, h2, ?_, ?_, ?_, ?_⟩
      · rw [updateLoop, if_neg (by rw [hcase1]; simp), hv]
        simp only [stored_eq, hset]
        rw [h1, Node.modify_modify]
        rfl
      · refine hfr1.trans (h3.mono ?_)
        rintro p ⟨j, hj, e⟩
        have := (hW j).mp hj
        exact ⟨j, ⟨by simp [this.1], this.2⟩, e⟩
      · intro j u hj hju
        by_cases hjn : m.name j ∈ names
        · obtain ⟨u', k1, k2⟩ := hcl3 _ _ hju
          exact hin k2 (h4 j u' ((hW j).mpr ⟨hjn, hj.2⟩) k1)
        · have hji : m.name j = m.name i := by
            rcases List.mem_cons.mp hj.1 with e | e
            · exact e
            · exact absurd e hjn
          obtain rfl := model_inj m hji
          rw [hv] at hju
          cases hju
          refine ⟨w, o, hw, ho, hk, ?_⟩
          have hh : hits (m.fs j).p n' = hits (m.fs j).p n1 := by
            refine h3.other _ (hf j).good ?_
            rintro p ⟨k, hk', rfl⟩
            refine hpart k j (fun e => ?_)
            subst e
            exact hjn hk'.1
          cases o with
          | none => exact hh.trans r4
          | some t => unfold HitIs at r4 ⊢; rw [hh]; exact r4
      · intro y; rw [h5, hcl]
      · intro h
        obtain ⟨w', o', k1, k2, k3, k4⟩ := h i v ⟨by simp, hcase1, v, hv⟩ hv
        rw [hw] at k1; cases k1
        rw [ho] at k2; cases k2
        have e1 := r5 k4
        subst e1
        refine h6 (fun j u hj hju => ?_)
        obtain ⟨u', l1, l2⟩ := hcl2 _ _ hju
        have := (hW j).mp hj
        exact hin l2 (h j u' ⟨by simp [this.1], this.2⟩ l1)

/-- `cleaned_data` differ at most by empty strings. -/
def CleanLike {A : Type} (c c' : Option (Dict Str (CVal A))) : Prop := ∀ x, (c'.bind (·.get? x)).map stored = (c.bind (·.get? x)).map stored

theorem own_run (heng : EngineOk eng) {A : Type} {o : Own A} (ho : OwnOk o) {c} (hc : o.cleaned = some c) {a s n} (hs : Node.get a s = some n) (hu : ∀ i, FU (o.m.fs i) n) :
    ∃ c' n', updateOwn (metaList o.fields) (metaList o.exclude) o.modelNames (setattrDoc o.m eng o.ctx a) c s = (.ok (), c', s.modify a (fun _ => n')) ∧
      (∀ i, FU (o.m.fs i) n') ∧ Frame (fun p => ∃ i v, Submits o i v ∧ p = (o.m.fs i).p) n n' ∧ (∀ i v, Submits o i v → InElem o.m i v n') ∧
      CleanLike (some c) (some c') ∧ ((∀ i v, Submits o i v → InElem o.m i v n) → n' = n) := by
  obtain ⟨c0, hc0, hd⟩ := ho.data
  rw [hc] at hc0; cases hc0
  have hnames : ∃ names, fieldsInOrder (metaList o.fields) o.modelNames = .ok names := by cases o.fields <;> exact ⟨_, rfl⟩
  obtain ⟨names, hn⟩ := hnames
  obtain ⟨c', n', h1, h2, h3, h4, h5, h6⟩ := loop_run heng o.m ho.field ho.part (metaList o.fields) (metaList o.exclude) names c hd hs hu
  have hW : ∀ i v, (Submits o i v ↔ (o.m.name i ∈ names ∧ skipUpdate (metaList o.fields) (metaList o.exclude) (o.m.name i) = false ∧ ∃ v, c.get? (o.m.name i) = some v) ∧
      c.get? (o.m.name i) = some v) := by
    intro i v
    have := assigns_iff o.fields o.exclude o.modelNames ho.names names hn (o.m.name i)
    unfold Submits
    rw [← this]
    constructor
    · rintro ⟨k1, c1, k2, k3⟩
      rw [hc] at k2; cases k2
      exact ⟨⟨k1.1, k1.2, v, k3⟩, k3⟩
    · rintro ⟨⟨k1, k2, -⟩, k3⟩
      exact ⟨⟨k1, k2⟩, c, hc, k3⟩
  refine ⟨c', n', ?_, h2, ?_, ?_, ?_, ?_⟩
  · unfold updateOwn
    rw [hn]
    exact h1
  · refine h3.mono ?_
    rintro p ⟨i, hi, e⟩
    obtain ⟨v, hv⟩ := hi.2.2
    exact ⟨i, v, (hW i v).mpr ⟨hi, hv⟩, e⟩
  · intro i v h
    obtain ⟨k1, k2⟩ := (hW i v).mp h
    exact h4 i v k1 k2
  · intro x; exact h5 x
  · intro h
    exact h6 (fun i v k1 k2 => h i v ((hW i v).mpr ⟨k1, k2⟩))

/-! ### proof: NodeFields -/

theorem HopOk.good {h : Hop} (hh : HopOk h) : Spec.good h.p = true := good_of hh.1.ok hh.2.1 (last_child hh.2.2)
theorem HopOk.ne {h : Hop} (hh : HopOk h) : h.p ≠ [] := ne_nil_of_field hh.1

theorem hop_none (heng : EngineOk eng) {h : Hop} (hh : HopOk h) {a s n} (hs : Node.get a s = some n) (hu : Uniq h.p n) (he : elems h.p n = []) :
    Domain.getNode eng h.ctx h.xp a s = (.ok none, s) := by
  have hfind := findNode_path heng hh.1.parse hh.1.path hs
  rw [none_of hh.2.2 hh.good hu he] at hfind
  unfold Domain.getNode; rw [bind_ok hfind]; rfl

theorem hop_some (heng : EngineOk eng) {h : Hop} (hh : HopOk h) {a s n m} (hs : Node.get a s = some n) (hu : Uniq h.p n) (he : elems h.p n = [m]) :
    ∃ b, Domain.getNode eng h.ctx h.xp a s = (.ok (some b), s) ∧ s.get b = some m ∧ ∀ m', s.modify b (fun _ => m') = s.modify a (fun _ => chg h.p (fun _ => m') n) := by
  have hfind := findNode_path heng hh.1.parse hh.1.path hs
  obtain ⟨b, hb1, hb2, hb3⟩ := addr_of hh.2.2 hu he
  rw [hb1] at hfind
  refine ⟨a ++ b, ?_, ?_, ?_⟩
  · unfold Domain.getNode; rw [bind_ok hfind]; rfl
  · rw [Node.get_append, hs]; exact hb2
  · intro m'
    rw [Node.modify_append]
    exact Node.modify_congr hs (hb3 _)

theorem hop_create (heng : EngineOk eng) {h : Hop} (hh : HopOk h) {a s n} (hs : Node.get a s = some n) (hu : Uniq h.p n) :
    ∃ n', createObj eng h a s = (.ok (), s.modify a (fun _ => n')) ∧ Local h.p n n' ∧ Uniq h.p n' ∧ elems h.p n' = [(elems h.p n).head?.getD (newAt h.p)] ∧
      (elems h.p n = [] → n' = mk h.p n) := by
  obtain ⟨hf, hap, hac⟩ := id hh
  have hfn := findNode_path heng hf.parse hf.path hs
  rcases elems_cases hac hu with he | ⟨x, he⟩
  · have hno := none_of hac hh.good hu he
    obtain ⟨m', hm'⟩ := missing_get hf.ok n hh.ne
    have hrun := createNode_run heng h.e h.p hf.path hf.ok hf.canonical a s n hs (.inl hno) m' hm'
    obtain ⟨k1, k2⟩ := elems_mk_new hac hh.good hu he n
    refine ⟨mk h.p n, ?_, local_mk hh.good n, k2, ?_, fun _ => rfl⟩
    · have h1 : managerCreate eng h.ctx h.xp h.e (.elem a) s
          = (.ok (.ref ((created (missing h.p n).2 m').under (a ++ (missing h.p n).1))), s.modify (a ++ (missing h.p n).1) (buildPath (missing h.p n).2 id)) := by
        unfold managerCreate
        rw [hno] at hfn
        rw [bind_ok hfn]
        exact bind_ok hrun
      unfold createObj
      rw [bind_ok h1, Node.modify_append]
      show (Except.ok (), _) = _
      congr 1
      exact Node.modify_congr hs (create_mk hac hh.ne hh.good hu he)
    · rw [k1, he, newOf_at hac hh.ne]; rfl
  · refine ⟨n, ?_, Local.refl _ _, hu, (by rw [he]; rfl), fun h0 => by rw [he] at h0; cases h0⟩
    obtain ⟨b, hb1, -, -⟩ := addr_of hac hu he
    have h1 : ∃ r, managerCreate eng h.ctx h.xp h.e (.elem a) s = (.ok r, s) := by
      unfold managerCreate
      rw [hb1] at hfn
      rw [bind_ok hfn]
      exact ⟨_, rfl⟩
    obtain ⟨r, h1⟩ := h1
    unfold createObj
    rw [bind_ok h1, Node.modify_id hs rfl]
    rfl

theorem hop_remove (heng : EngineOk eng) {h : Hop} (hh : HopOk h) {a s n} (hs : Node.get a s = some n) (hu : Uniq h.p n) :
    ∃ n', deleteObj eng h a s = (.ok (), s.modify a (fun _ => n')) ∧ Local h.p n n' ∧ Uniq h.p n' ∧ elems h.p n' = [] ∧ n' = delete h.p n := by
  have hf : (RField.mk h.xp h.e h.p Unit (fun _ => .ok none) (fun _ => .ok ())).Ok h.ctx := ⟨hh.1, hh.2.1, last_child hh.2.2⟩
  have hsi : Single h.p n := single_of_uniq hh.good hu
  have hu' : Uniq h.p (delete h.p n) := uniq_of_single hh.good (tidy_delete hf hsi).1.1
  refine ⟨delete h.p n, ?_, ?_, hu', ?_, rfl⟩
  · unfold deleteObj
    rw [show managerDelete eng h.ctx h.xp h.e (.elem a) s = _ from delete_run heng hf hs hsi]
    congr 1
    exact Node.modify_congr hs rfl
  · rw [delete_del hh.good hh.ne hu]
    split_ifs
    · exact Local.refl _ _
    · exact local_del hh.good n
  · unfold elems
    rw [(hits_nil_iff hh.good hu').mpr (hits_delete_self hf hsi)]; rfl

/-- The element of an object changes, keeping its name and the attributes that the NodeField's predicates compare. -/
theorem hop_put {h : Hop} (hh : HopOk h) {n m m' : Node} (hu : Uniq h.p n) (he : elems h.p n = [m]) {P : List Step → Prop} (hP : ∀ r, P r → Spec.good (h.p ++ r) = true)
    (hfr : Frame P m m') : Local h.p n (chg h.p (fun _ => m') n) ∧ elems h.p (chg h.p (fun _ => m') n) = [m'] ∧ Uniq h.p (chg h.p (fun _ => m') n) := by
  refine local_put hh.2.2 hh.ne hh.good hu he ?_
  refine lastOk_keep hh.ne hh.2.2 hh.good hfr.tag ?_ (lastOk_elems hh.2.2 (n := n) (m := m) (by rw [he]; simp))
  intro t ht
  exact hfr.attr t (fun r hr => ht r (hP _ hr))

/-! ### proof: trees of forms -/

variable {A : Type}

theorem FSubs.Ok.has {M : List Step → Prop} : ∀ {l : FSubs A}, FSubs.Ok l M → ∀ {q}, FSubs.Has q l → Spec.good q = true ∧ allChild q = true ∧ q ≠ [] ∧ ∀ q', M q' → Part q' q
  | .nil, _, _, hq => hq.elim
  | .cons h _ f rest, hl, q, hq => by
    rcases hq with rfl | hq
    · exact ⟨hl.1.good, hl.1.2.2, hl.1.ne, hl.2.1⟩
    · exact FSubs.Ok.has hl.2.2.2.2.2 hq

/-- The paths of a subform go on from the NodeField. -/
theorem FSubs.Ok.under {M : List Step → Prop} {h : Hop} {out : Option Node} {f : FTree A} {rest : FSubs A} (hl : FSubs.Ok (.cons h out f rest) M) :
    ∀ r, FTree.Paths f r → Spec.good (h.p ++ r) = true := by
  intro r hr
  obtain ⟨h1, -, -, h4, h5, -⟩ := hl
  rcases hr with ⟨i, rfl⟩ | hr
  · cases f with
    | mk o subs =>
      have hf := h5.1.field i
      refine good_of (h4 i) ?_ ?_
      · unfold attrPreds
        rw [List.all_append, Bool.and_eq_true]
        exact ⟨h1.2.1, hf.preds⟩
      · show (h.p ++ (o.m.fs i).p).getLast? ≠ _
        rw [List.getLast?_append_of_ne_nil _ (ne_nil_of_field hf.simple)]
        exact hf.noText
  · cases f with
    | mk o subs =>
      obtain ⟨k1, k2, k3, -⟩ := FSubs.Ok.has h5.2 hr
      exact good_join h1.2.2 h1.good k1 k2

mutual
/-- The submitted data are in the element, and the elements of subforms are in the document if and only if they are not empty. -/
def FTree.Done (t : FTree A) (n : Node) : Prop := match t with
  | .mk o subs => (∀ i v, Submits o i v → InElem o.m i v n) ∧ FSubs.Done subs n
def FSubs.Done (l : FSubs A) (n : Node) : Prop := match l with
  | .nil => True
  | .cons h none f rest => (∀ m ∈ elems h.p n, isEmpty m = false ∧ FTree.Done f m) ∧ FSubs.Done rest n
  | .cons _ (some v) f rest => (isEmpty v = true ∧ FTree.Done f v) ∧ FSubs.Done rest n
end

mutual
/-- The elements of the forms in the document, and those that have been removed. -/
def FTree.Inv (t : FTree A) (n : Node) : Prop := match t with
  | .mk o subs => (∀ i, FU (o.m.fs i) n) ∧ FSubs.Inv subs n
def FSubs.Inv (l : FSubs A) (n : Node) : Prop := match l with
  | .nil => True
  | .cons h none f rest => (Uniq h.p n ∧ ∃ m, elems h.p n = [m] ∧ FTree.Inv f m) ∧ FSubs.Inv rest n
  | .cons h (some v) f rest => (Uniq h.p n ∧ elems h.p n = [] ∧ isEmpty v = true ∧ FTree.Inv f v ∧ FTree.Done f v) ∧ FSubs.Inv rest n
end

/-- The element of a subform for this NodeField is in the document. -/
def FSubs.Live (q : QName) : FSubs A → Prop
  | .nil => False
  | .cons h none _ rest => h.p = [.child q []] ∨ FSubs.Live q rest
  | .cons _ (some _) _ rest => FSubs.Live q rest

mutual
/-- There is nothing in the element but elements of subforms in which there is nothing. -/
def FTree.Blank (t : FTree A) (n : Node) : Prop := match t with
  | .mk o subs => (∀ i v, Submits o i v → InElem o.m i v n) ∧ (n.attrs = [] ∧ noText n.text = true ∧ noText n.tail = true) ∧
      (∀ c ∈ n.children, ∃ q, FSubs.Live q subs ∧ okc q [] c = true) ∧ FSubs.Blank subs n
def FSubs.Blank (l : FSubs A) (n : Node) : Prop := match l with
  | .nil => True
  | .cons h none f rest => (∀ m ∈ elems h.p n, FTree.Blank f m) ∧ FSubs.Blank rest n
  | .cons _ (some _) _ rest => FSubs.Blank rest n
end

/-- Changes of subforms keep blank elements blank. -/
def Kept (l : FSubs A) (n : Node) (l' : FSubs A) (n' : Node) : Prop := FSubs.Plain l → FSubs.Blank l n →
  FSubs.Blank l' n' ∧ (n'.attrs = n.attrs ∧ n'.text = n.text ∧ n'.tail = n.tail) ∧
  ∀ c ∈ n'.children, (c ∈ n.children ∧ ∀ q, FSubs.Live q l → okc q [] c = true → FSubs.Live q l') ∨ ∃ q, FSubs.Live q l' ∧ okc q [] c = true

/-- The element of a subform. -/
def cur (h : Hop) (out : Option Node) (n : Node) : Option Node := match out with
  | some v => some v
  | none => (elems h.p n).head?

mutual
/-- The forms are the same (with `cleaned_data` that differ by empty strings), and in the elements nothing has changed but submitted fields and subforms. -/
def FTree.Ev (t : FTree A) (n : Node) (t' : FTree A) (n' : Node) : Prop := match t, t' with
  | .mk o subs, .mk o' subs' => (∃ c', o' = { o with cleaned := c' } ∧ CleanLike o.cleaned c') ∧ (∀ i, (∀ v, ¬ Submits o i v) → hits (o.m.fs i).p n' = hits (o.m.fs i).p n) ∧
      Frame (FTree.Paths (.mk o subs)) n n' ∧ (FTree.Plain (.mk o subs) → FTree.Blank (.mk o subs) n → FTree.Blank (.mk o' subs') n') ∧ FSubs.Ev subs n subs' n'
def FSubs.Ev (l : FSubs A) (n : Node) (l' : FSubs A) (n' : Node) : Prop := match l, l' with
  | .nil, .nil => True
  | .cons h out f rest, .cons h' out' f' rest' => h' = h ∧ (∃ x x', cur h out n = some x ∧ cur h out' n' = some x' ∧ FTree.Ev f x f' x') ∧ FSubs.Ev rest n rest' n'
  | _, _ => False
end

theorem CleanLike.get {c c' : Option (Dict Str (CVal A))} (h : CleanLike c c') {x v'} (hv : c'.bind (·.get? x) = some v') : ∃ v, c.bind (·.get? x) = some v ∧ stored v = stored v' := by
  have e := h x
  rw [hv] at e
  cases h' : c.bind (·.get? x) with
  | none => rw [h'] at e; simp at e
  | some v => rw [h'] at e; exact ⟨v, rfl, by simpa using e.symm⟩

theorem CleanLike.symm {c c' : Option (Dict Str (CVal A))} (h : CleanLike c c') : CleanLike c' c := fun x => (h x).symm
theorem CleanLike.refl (c : Option (Dict Str (CVal A))) : CleanLike c c := fun _ => rfl
theorem CleanLike.trans {c c' c'' : Option (Dict Str (CVal A))} (h : CleanLike c c') (h' : CleanLike c' c'') : CleanLike c c'' := fun x => (h' x).trans (h x)

theorem submits_iff {o : Own A} {i : o.m.ι} {v : CVal A} : Submits o i v ↔ Assigns o.fields o.exclude o.modelNames (o.m.name i) ∧ o.cleaned.bind (·.get? (o.m.name i)) = some v := by
  unfold Submits
  cases o.cleaned with
  | none => simp
  | some c => simp

theorem submits_like {o : Own A} {c'} (h : CleanLike o.cleaned c') {i : o.m.ι} {v : CVal A} (hs : Submits { o with cleaned := c' } i v) : ∃ v', Submits o i v' ∧ stored v' = stored v := by
  rw [submits_iff] at hs
  obtain ⟨v', k1, k2⟩ := h.get hs.2
  exact ⟨v', submits_iff.mpr ⟨hs.1, k1⟩, k2⟩

theorem submits_like' {o : Own A} {c'} (h : CleanLike o.cleaned c') {i : o.m.ι} {v : CVal A} (hs : Submits o i v) : ∃ v', Submits { o with cleaned := c' } i v' ∧ stored v' = stored v := by
  rw [submits_iff] at hs
  obtain ⟨v', k1, k2⟩ := h.symm.get hs.2
  exact ⟨v', submits_iff.mpr ⟨hs.1, k1⟩, k2⟩

theorem ownOk_like {o : Own A} (ho : OwnOk o) {c'} (h : CleanLike o.cleaned (some c')) : OwnOk { o with cleaned := some c' } where
  field := ho.field
  part := ho.part
  names := ho.names
  data := by
    refine ⟨c', rfl, fun x v hv => ?_⟩
    obtain ⟨v', k1, k2⟩ := h.get (x := x) (v' := v) hv
    obtain ⟨c, hc, hd⟩ := ho.data
    rw [hc] at k1
    have := hd x v' k1
    rwa [k2] at this

theorem inElem_like {m : FormModel A} {i : m.ι} {v v' : CVal A} {n : Node} (e : stored v' = stored v) (h : InElem m i v' n) : InElem m i v n := by
  unfold InElem at h ⊢
  rw [← e]; exact h

theorem inElem_hits {m : FormModel A} {i : m.ι} {v : CVal A} {n n' : Node} (e : hits (m.fs i).p n' = hits (m.fs i).p n) (h : InElem m i v n) : InElem m i v n' := by
  obtain ⟨w, x, h1, h2, h3, h4⟩ := h
  refine ⟨w, x, h1, h2, h3, ?_⟩
  cases x with
  | none => exact e.trans h4
  | some t => unfold HitIs at h4 ⊢; rw [e]; exact h4

theorem elems_hits {p : List Step} {n n' : Node} (e : hits p n' = hits p n) : elems p n' = elems p n := by unfold elems; rw [e]

theorem cur_hits {h : Hop} {out : Option Node} {n n' : Node} (e : hits h.p n' = hits h.p n) : cur h out n' = cur h out n := by
  cases out with
  | some v => rfl
  | none => simp only [cur]; rw [elems_hits e]

theorem FSubs.Ev.left {n n1 n2 : Node} : ∀ {l l' : FSubs A}, (∀ q, FSubs.Has q l → hits q n1 = hits q n) → FSubs.Ev l n1 l' n2 → FSubs.Ev l n l' n2
  | .nil, .nil, _, _ => trivial
  | .nil, .cons _ _ _ _, _, h => h
  | .cons _ _ _ _, .nil, _, h => h
  | .cons h out f rest, .cons h' out' f' rest', hh, hev => by
    obtain ⟨e, ⟨x, x', k1, k2, k3⟩, k4⟩ := hev
    exact ⟨e, ⟨x, x', by rw [← cur_hits (hh _ (.inl rfl))]; exact k1, k2, k3⟩, FSubs.Ev.left (fun q hq => hh q (.inr hq)) k4⟩

theorem FSubs.Inv.keep {n n' : Node} : ∀ {l : FSubs A}, (∀ q, FSubs.Has q l → hits q n' = hits q n ∧ (Uniq q n → Uniq q n')) → FSubs.Inv l n → FSubs.Inv l n'
  | .nil, _, _ => trivial
  | .cons h none f rest, hh, hi => by
    obtain ⟨k1, k2⟩ := hh _ (.inl rfl)
    obtain ⟨⟨i1, m, i2, i3⟩, i4⟩ := hi
    exact ⟨⟨k2 i1, m, by rw [elems_hits k1]; exact i2, i3⟩, FSubs.Inv.keep (fun q hq => hh q (.inr hq)) i4⟩
  | .cons h (some v) f rest, hh, hi => by
    obtain ⟨k1, k2⟩ := hh _ (.inl rfl)
    obtain ⟨⟨i1, i2, i3⟩, i4⟩ := hi
    exact ⟨⟨k2 i1, by rw [elems_hits k1]; exact i2, i3⟩, FSubs.Inv.keep (fun q hq => hh q (.inr hq)) i4⟩

theorem FSubs.Done.keep {n n' : Node} : ∀ {l : FSubs A}, (∀ q, FSubs.Has q l → hits q n' = hits q n) → FSubs.Done l n → FSubs.Done l n'
  | .nil, _, _ => trivial
  | .cons h none f rest, hh, hi => ⟨by rw [elems_hits (hh _ (.inl rfl))]; exact hi.1, FSubs.Done.keep (fun q hq => hh q (.inr hq)) hi.2⟩
  | .cons h (some v) f rest, hh, hi => ⟨hi.1, FSubs.Done.keep (fun q hq => hh q (.inr hq)) hi.2⟩

theorem FSubs.Ev.has {n n' : Node} : ∀ {l l' : FSubs A}, FSubs.Ev l n l' n' → ∀ q, FSubs.Has q l' ↔ FSubs.Has q l
  | .nil, .nil, _, q => Iff.rfl
  | .nil, .cons _ _ _ _, h, _ => h.elim
  | .cons _ _ _ _, .nil, h, _ => h.elim
  | .cons h out f rest, .cons h' out' f' rest', hev, q => by
    obtain ⟨e, -, k4⟩ := hev
    subst e
    exact or_congr Iff.rfl (FSubs.Ev.has k4 q)

theorem FTree.Ev.blank : ∀ {t t' : FTree A} {n n' : Node}, FTree.Ev t n t' n' → FTree.Plain t → FTree.Blank t n → FTree.Blank t' n'
  | .mk _ _, .mk _ _, _, _, h => h.2.2.2.1

mutual
theorem FTree.Ev.plain {t t' : FTree A} {n n' : Node} (h : FTree.Ev t n t' n') (hp : FTree.Plain t) : FTree.Plain t' := match t, t', h, hp with
  | .mk _ _, .mk _ _, h, hp => FSubs.Ev.plain h.2.2.2.2 hp
theorem FSubs.Ev.plain {l l' : FSubs A} {n n' : Node} (h : FSubs.Ev l n l' n') (hp : FSubs.Plain l) : FSubs.Plain l' := match l, l', h, hp with
  | .nil, .nil, _, _ => trivial
  | .nil, .cons _ _ _ _, h, _ => h.elim
  | .cons _ _ _ _, .nil, h, _ => h.elim
  | .cons h out f rest, .cons h' out' f' rest', hev, hp => by
    obtain ⟨e, ⟨x, x', -, -, k⟩, k4⟩ := hev
    subst e
    exact ⟨hp.1, FTree.Ev.plain k hp.2.1, FSubs.Ev.plain k4 hp.2.2⟩
end

theorem FSubs.Blank.keep {n n' : Node} : ∀ {l : FSubs A}, (∀ q, FSubs.Has q l → hits q n' = hits q n) → FSubs.Blank l n → FSubs.Blank l n'
  | .nil, _, _ => trivial
  | .cons h none f rest, hh, hi => ⟨by rw [elems_hits (hh _ (.inl rfl))]; exact hi.1, FSubs.Blank.keep (fun q hq => hh q (.inr hq)) hi.2⟩
  | .cons h (some v) f rest, hh, hi => FSubs.Blank.keep (l := rest) (fun q hq => hh q (.inr hq)) hi

theorem Kept.refl (l : FSubs A) (n : Node) : Kept l n l n := fun _ hb => ⟨hb, ⟨rfl, rfl, rfl⟩, fun c hc => .inl ⟨hc, fun _ h _ => h⟩⟩

/-- The elements of the subforms of a blank element are in their places. -/
theorem blank_tree {o : Own A} {subs subs' : FSubs A} {n n1 n' : Node} {c'} (he : n1 = n) (hk : Kept subs n1 subs' n') (hp : FSubs.Plain subs)
    (hb : FTree.Blank (.mk o subs) n) (hd : ∀ i v, Submits { o with cleaned := c' } i v → InElem o.m i v n') : FTree.Blank (.mk { o with cleaned := c' } subs') n' := by
  subst he
  obtain ⟨-, ⟨b1, b2, b3⟩, b4, b5⟩ := hb
  obtain ⟨k1, ⟨k2, k3, k4⟩, k5⟩ := hk hp b5
  refine ⟨hd, ⟨by rw [k2, b1], by rw [k3, b2], by rw [k4, b3]⟩, fun c hc => ?_, k1⟩
  rcases k5 c hc with ⟨h1, h2⟩ | h
  · obtain ⟨q, q1, q2⟩ := b4 c h1
    exact ⟨q, h2 q q1 q2, q2⟩
  · exact h

/-- Putting an element in the place of a child. -/
theorem put_one {q : QName} {n m m' : Node} (hu : Uniq [.child q []] n) (he : elems [.child q []] n = [m]) :
    ((chg [.child q []] (fun _ => m') n).attrs = n.attrs ∧ (chg [.child q []] (fun _ => m') n).text = n.text ∧ (chg [.child q []] (fun _ => m') n).tail = n.tail) ∧
      ∀ c ∈ (chg [.child q []] (fun _ => m') n).children, c ∈ n.children ∨ c = m' := by
  obtain ⟨A, c, B, hc, hA, hok, hB, -⟩ := elems_one hu he
  simp only [chg]
  rw [hc, chgFirst_mid hok hA]
  refine ⟨⟨by simp, by simp, by simp⟩, fun x hx => ?_⟩
  simp at hx ⊢
  tauto

/-- Removing a child. -/
theorem remove_one [PyUnicode] {q : QName} {n : Node} (hg : Spec.good [.child q []] = true) (hu : Uniq [.child q []] n) :
    ((delete [.child q []] n).attrs = n.attrs ∧ (delete [.child q []] n).text = n.text ∧ (delete [.child q []] n).tail = n.tail) ∧
      ∀ c ∈ (delete [.child q []] n).children, c ∈ n.children := by
  rw [delete_del hg (by simp) hu]
  split_ifs with h
  · exact ⟨⟨rfl, rfl, rfl⟩, fun _ h => h⟩
  · rcases first_split (okc q []) n.children with h0 | ⟨A, c, B, hc, hA, hok⟩
    · exact absurd (hits_out h0) h
    · simp only [del]
      rw [hc, chgFirst_mid hok hA]
      refine ⟨⟨by simp, by simp, by simp⟩, fun x hx => ?_⟩
      simp at hx ⊢
      tauto

theorem not_selected {q : QName} {n c : Node} (he : elems [.child q []] n = []) (hc : c ∈ n.children) : okc q [] c = false := by
  by_contra h
  have : c ∈ elems [.child q []] n := by
    rw [elems_child, List.mem_flatMap]
    exact ⟨c, List.mem_filter.mpr ⟨hc, by simpa using h⟩, by simp [elems, hits]⟩
  rw [he] at this
  simp at this

/-- One subform after the other. -/
theorem kept_cons {h : Hop} {f f' : FTree A} {rest l' : FSubs A} {out' : Option Node} {n m m' n2 n3 : Node} (he : elems h.p n = [m])
    (hrest : Kept rest n2 l' n3) (hh : ∀ q, FSubs.Has q rest → hits q n2 = hits q n) (hb : FTree.Plain f → FTree.Blank f m → FTree.Blank f' m') (hel3 : elems h.p n3 = elems h.p n2)
    (hel : elems h.p n2 = if out' = none then [m'] else [])
    (hch : ∀ q, h.p = [.child q []] → (n2.attrs = n.attrs ∧ n2.text = n.text ∧ n2.tail = n.tail) ∧ ∀ c ∈ n2.children, c ∈ n.children ∨ c = m') (hok : lastOk h.p m') :
    Kept (.cons h none f rest) n (.cons h out' f' l') n3 := by
  rintro ⟨⟨q, hq⟩, hp1, hp2⟩ ⟨hb1, hb2⟩
  obtain ⟨k1, ⟨k2, k3, k4⟩, k5⟩ := hrest hp2 (FSubs.Blank.keep hh hb2)
  obtain ⟨⟨c1, c2, c3⟩, c4⟩ := hch q hq
  have hokm : okc q [] m' = true := by
    rw [hq] at hok; exact hok
  have hbf : FTree.Blank f' m' := hb hp1 (hb1 m (by rw [he]; simp))
  have hlive : ∀ x, FSubs.Live x l' → FSubs.Live x (.cons h out' f' l') := by
    intro x hx
    cases out' with
    | none => exact .inr hx
    | some v => exact hx
  refine ⟨?_, ⟨by rw [k2, c1], by rw [k3, c2], by rw [k4, c3]⟩, fun c hc => ?_⟩
  · cases out' with
    | none =>
      refine ⟨fun x hx => ?_, k1⟩
      rw [hel3, hel, if_pos rfl, List.mem_singleton] at hx
      subst hx; exact hbf
    | some v => exact k1
  · rcases k5 c hc with ⟨h1, h2⟩ | ⟨x, h1, h2⟩
    · cases out' with
      | none =>
        rcases c4 c h1 with h3 | rfl
        · refine .inl ⟨h3, fun x hx hxc => ?_⟩
          rcases hx with hx | hx
          · exact .inl hx
          · exact .inr (h2 x hx hxc)
        · exact .inr ⟨q, .inl hq, hokm⟩
      | some v =>
        rw [if_neg (by simp), hq] at hel
        have hno := not_selected hel h1
        refine .inl ⟨?_, fun x hx hxc => ?_⟩
        · rcases c4 c h1 with h3 | rfl
          · exact h3
          · rw [hokm] at hno; cases hno
        · rcases hx with hx | hx
          · rw [hq] at hx
            simp only [List.cons.injEq, Step.child.injEq, and_true] at hx
            subst hx
            rw [hno] at hxc; cases hxc
          · exact h2 x hx hxc
    · exact .inr ⟨x, hlive x h1, h2⟩

theorem FTree.Ev.frame : ∀ {t t' : FTree A} {n n' : Node}, FTree.Ev t n t' n' → Frame (FTree.Paths t) n n'
  | .mk _ _, .mk _ _, _, _, h => h.2.2.1

theorem FTree.Ev.own : ∀ {t t' : FTree A} {n n' : Node}, FTree.Ev t n t' n' → (FTree.own t').m = (FTree.own t).m
  | .mk o _, .mk _ _, _, _, h => by
    obtain ⟨⟨c', e, -⟩, -⟩ := h
    subst e; rfl

mutual
theorem FTree.Ev.trans {t t' t'' : FTree A} {n n' n'' : Node} (h : FTree.Ev t n t' n') (h' : FTree.Ev t' n' t'' n'') : FTree.Ev t n t'' n'' :=
  match t, t', t'', h, h' with
  | .mk o subs, .mk o' subs', .mk o'' subs'', h, h' => by
    obtain ⟨⟨c1, e1, l1⟩, a1, b1, g1, s1⟩ := h
    obtain ⟨⟨c2, e2, l2⟩, a2, b2, g2, s2⟩ := h'
    subst e1
    subst e2
    refine ⟨⟨c2, rfl, l1.trans l2⟩, fun i hi => (a2 i (fun v hv => ?_)).trans (a1 i hi), b1.trans (b2.mono ?_), fun hp hb => g2 (FSubs.Ev.plain s1 hp) (g1 hp hb), FSubs.Ev.trans s1 s2⟩
    · obtain ⟨v', k1, -⟩ := submits_like l1 hv
      exact hi v' k1
    · rintro p (⟨i, e⟩ | hp)
      · exact .inl ⟨i, e⟩
      · exact .inr ((FSubs.Ev.has s1 p).mp hp)
theorem FSubs.Ev.trans {l l' l'' : FSubs A} {n n' n'' : Node} (h : FSubs.Ev l n l' n') (h' : FSubs.Ev l' n' l'' n'') : FSubs.Ev l n l'' n'' :=
  match l, l', l'', h, h' with
  | .nil, .nil, .nil, _, _ => trivial
  | .nil, .cons _ _ _ _, _, h, _ => h.elim
  | .nil, .nil, .cons _ _ _ _, _, h => h.elim
  | .cons _ _ _ _, .nil, _, h, _ => h.elim
  | .cons _ _ _ _, .cons _ _ _ _, .nil, _, h => h.elim
  | .cons h out f rest, .cons h1 out1 f1 rest1, .cons h2 out2 f2 rest2, hev, hev' => by
    obtain ⟨e1, ⟨x, x1, k1, k2, k3⟩, k4⟩ := hev
    obtain ⟨e2, ⟨y, y1, j1, j2, j3⟩, j4⟩ := hev'
    subst e1
    subst e2
    rw [k2] at j1
    cases j1
    exact ⟨rfl, ⟨x, y1, k1, j2, FTree.Ev.trans k3 j3⟩, FSubs.Ev.trans k4 j4⟩
end

mutual
theorem FTree.Ev.refl' {t : FTree A} {n : Node} (hi : FTree.Inv t n) : FTree.Ev t n t n := match t, hi with
  | .mk o subs, hi => ⟨⟨o.cleaned, rfl, CleanLike.refl _⟩, fun _ _ => rfl, Frame.refl _ _, fun _ h => h, FSubs.Ev.refl' hi.2⟩
theorem FSubs.Ev.refl' {l : FSubs A} {n : Node} (hi : FSubs.Inv l n) : FSubs.Ev l n l n := match l, hi with
  | .nil, _ => trivial
  | .cons h none f rest, hi => by
    obtain ⟨⟨-, m, i2, i3⟩, i4⟩ := hi
    exact ⟨rfl, ⟨m, m, by simp [cur, i2], by simp [cur, i2], FTree.Ev.refl' i3⟩, FSubs.Ev.refl' i4⟩
  | .cons h (some v) f rest, hi => ⟨rfl, ⟨v, v, rfl, rfl, FTree.Ev.refl' hi.1.2.2.2.1⟩, FSubs.Ev.refl' hi.2⟩
end

omit [PyUnicode] in
theorem chg_same : ∀ {p : List Step}, allChild p = true → ∀ {n m : Node}, Uniq p n → elems p n = [m] → chg p (fun _ => m) n = n
  | [], _, n, m, _, h => by
    have : n = m := by simpa [elems, hits] using h
    exact this.symm
  | .child q ps :: r, ha, n, m, hu, h => by
    obtain ⟨A, c, B, hc, hA, hok, hB, he⟩ := elems_one hu h
    have ih := chg_same (by simpa [allChild] using ha) (hu.2 c (by rw [hc]; simp) hok) he
    simp only [chg]
    rw [hc, chgFirst_mid hok hA, ih]
    simp only [Option.toList_some, List.append_assoc, List.singleton_append]
    rw [← hc, withChildren_self]

theorem local_has {M : List Step → Prop} {h : Hop} {out : Option Node} {f : FTree A} {rest : FSubs A} (hl : FSubs.Ok (.cons h out f rest) M) {n n' : Node}
    (hloc : Local h.p n n') : ∀ q, FSubs.Has q rest → hits q n' = hits q n ∧ (Uniq q n → Uniq q n') := by
  intro q hq
  have hg := (FSubs.Ok.has hl.2.2.2.2.2 hq).1
  have hp := hl.2.2.1 q hq
  exact ⟨hloc.other q hg hp, hloc.uniq q hg hp⟩

theorem frame_head {M : List Step → Prop} {h : Hop} {out : Option Node} {f : FTree A} {rest : FSubs A} (hl : FSubs.Ok (.cons h out f rest) M) {n n' : Node}
    (hfr : Frame (fun q => FSubs.Has q rest) n n') : hits h.p n' = hits h.p n ∧ (Uniq h.p n → Uniq h.p n') := by
  have hp : ∀ q, FSubs.Has q rest → Part q h.p := fun q hq => (hl.2.2.1 q hq).symm
  exact ⟨hfr.other _ hl.1.good hp, hfr.uniq _ hl.1.good hp⟩

theorem get_modify_here {a : Node.Addr} {s n n' : Node} (hs : s.get a = some n) : (s.modify a (fun _ => n')).get a = some n' := by rw [Node.get_modify, hs]; rfl

theorem modify_twice (a : Node.Addr) (s n n' : Node) : (s.modify a (fun _ => n)).modify a (fun _ => n') = s.modify a (fun _ => n') := by rw [Node.modify_modify]; rfl

mutual
theorem updateTree_run (heng : EngineOk eng) (t : FTree A) (ht : FTree.Ok t) {a s n} (hs : Node.get a s = some n) (hi : FTree.Inv t n) :
    ∃ t' n', updateTree eng t a s = (.ok (), t', s.modify a (fun _ => n')) ∧ FTree.Ok t' ∧ FTree.Inv t' n' ∧ FTree.Done t' n' ∧ FTree.Ev t n t' n' ∧ (FTree.Done t n → n' = n) :=
  match t, ht, hi with
  | .mk o subs, ht, hi => by
    obtain ⟨c, hc, -⟩ := ht.1.data
    obtain ⟨c', n1, r1, r2, r3, r4, r5, r6⟩ := own_run heng ht.1 hc hs hi.1
    have hlike : CleanLike o.cleaned (some c') := by rw [hc]; exact r5
    have hown : ∀ p, (∃ i v, Submits o i v ∧ p = (o.m.fs i).p) → FieldPath o p := fun p hp => by obtain ⟨i, -, -, e⟩ := hp; exact ⟨i, e⟩
    have hh : ∀ q, FSubs.Has q subs → hits q n1 = hits q n ∧ (Uniq q n → Uniq q n1) := by
      intro q hq
      obtain ⟨k1, -, -, k4⟩ := FSubs.Ok.has ht.2 hq
      exact ⟨r3.other q k1 (fun p hp => k4 p (hown p hp)), r3.uniq q k1 (fun p hp => k4 p (hown p hp))⟩
    obtain ⟨l', n2, s1, s2, s3, s4, s5, s6, s7, s8⟩ := updateTrees_run heng subs ht.2 (s := s.modify a (fun _ => n1)) (get_modify_here hs) (FSubs.Inv.keep hh hi.2)
    rw [modify_twice] at s1
    have hfld : ∀ i, hits (o.m.fs i).p n2 = hits (o.m.fs i).p n1 ∧ (Uniq (o.m.fs i).p n1 → Uniq (o.m.fs i).p n2) := by
      intro i
      have hp : ∀ q, FSubs.Has q subs → Part q (o.m.fs i).p := fun q hq => ((FSubs.Ok.has ht.2 hq).2.2.2 _ ⟨i, rfl⟩).symm
      exact ⟨s6.other _ (ht.1.field i).good hp, s6.uniq _ (ht.1.field i).good hp⟩
    have hdone : ∀ i v, Submits { o with cleaned := some c' } i v → InElem o.m i v n2 := by
      intro i v hv
      obtain ⟨v', k1, k2⟩ := submits_like hlike hv
      exact inElem_hits (m := o.m) (hfld i).1 (inElem_like (m := o.m) k2 (r4 i v' k1))
    refine ⟨.mk { o with cleaned := some c' } l', n2, ?_, ⟨ownOk_like ht.1 hlike, s2⟩, ⟨?_, s3⟩, ⟨hdone, s4⟩, ?_, ?_⟩
    · rw [updateTree, hc]
      simp only
      rw [r1]
      simp only
      rw [s1]
    · intro i
      obtain ⟨k1, k2⟩ := r2 i
      exact ⟨(hfld i).2 k1, by show ∀ m, (hits (o.m.fs i).p n2).head? = _ → _; rw [(hfld i).1]; exact k2⟩
    · refine ⟨⟨some c', rfl, hlike⟩, fun i hni => ?_, ?_, fun hp hb => blank_tree (r6 hb.1) s8 hp hb hdone, FSubs.Ev.left (fun q hq => (hh q hq).1) s5⟩
      · rw [(hfld i).1]
        refine r3.other _ (ht.1.field i).good ?_
        rintro p ⟨j, v, hj, rfl⟩
        exact ht.1.part j i (fun e => by subst e; exact hni v hj)
      · exact (r3.mono (fun p hp => .inl (hown p hp))).trans (s6.mono (fun p hp => .inr hp))
    · intro hd
      have e := r6 hd.1
      rw [s7 (by rw [e]; exact hd.2), e]
theorem updateTrees_run (heng : EngineOk eng) (l : FSubs A) {M} (hl : FSubs.Ok l M) {a s n} (hs : Node.get a s = some n) (hi : FSubs.Inv l n) :
    ∃ l' n', updateTrees eng l a s = (.ok (), l', s.modify a (fun _ => n')) ∧ FSubs.Ok l' M ∧ FSubs.Inv l' n' ∧ FSubs.Done l' n' ∧ FSubs.Ev l n l' n' ∧
      Frame (fun q => FSubs.Has q l) n n' ∧ (FSubs.Done l n → n' = n) ∧ Kept l n l' n' :=
  match l, hl, hi with
  | .nil, _, _ => ⟨.nil, n, by rw [Node.modify_id hs rfl]; rfl, trivial, trivial, trivial, trivial, Frame.refl _ _, fun _ => rfl, Kept.refl _ _⟩
  | .cons h (some v) f rest, hl, hi => by
    obtain ⟨⟨i1, i2, i3, i4, i5⟩, i6⟩ := hi
    have hg := hop_none heng hl.1 hs i1 i2
    obtain ⟨f', v', f1, f2, f3, f4, f5, f6⟩ := updateTree_run heng f hl.2.2.2.2.1 (a := []) (s := v) (n := v) rfl i4
    have e := f6 i5
    subst e
    obtain ⟨l', n2, s1, s2, s3, s4, s5, s6, s7, s8⟩ := updateTrees_run heng rest hl.2.2.2.2.2 hs i6
    obtain ⟨k1, k2⟩ := frame_head hl s6
    refine ⟨.cons h (some v') f' l', n2, ?_, ?_, ?_, ?_, ?_, ?_, ?_, ?_⟩
    · rw [updateTrees, hg]
      simp only
      rw [f1]
      simp only
      have ha : attachFull eng h a none v' s = (.ok (), some v', s) := by
        unfold attachFull
        rw [if_neg (by rw [i3]; simp), if_neg (by simp)]
      rw [show Node.modify [] (fun _ => v') v' = v' from rfl, ha]
      simp only
      rw [s1]
    · exact ⟨hl.1, hl.2.1, fun q hq => hl.2.2.1 q ((FSubs.Ev.has s5 q).mp hq), by rw [f5.own]; exact hl.2.2.2.1, f2, s2⟩
    · exact ⟨⟨k2 i1, by rw [elems_hits k1]; exact i2, i3, f3, f4⟩, s3⟩
    · exact ⟨⟨i3, f4⟩, s4⟩
    · exact ⟨rfl, ⟨v', v', rfl, rfl, f5⟩, s5⟩
    · exact s6.mono (fun q hq => .inr hq)
    · exact fun hd => s7 hd.2
    · exact fun hp hb => s8 hp.2.2 hb
  | .cons h none f rest, hl, hi => by
    obtain ⟨⟨i1, m, i2, i4⟩, i6⟩ := hi
    obtain ⟨b, hg, hb, hput⟩ := hop_some heng hl.1 hs i1 i2
    obtain ⟨f', m', f1, f2, f3, f4, f5, f6⟩ := updateTree_run heng f hl.2.2.2.2.1 (a := b) (s := s) (n := m) hb i4
    obtain ⟨p1, p2, p3⟩ := hop_put hl.1 i1 i2 (FSubs.Ok.under hl) f5.frame
    have hb1 : (s.modify b (fun _ => m')).get b = some m' := get_modify_here hb
    -- after the removal of an empty element
    have hdrop : ∃ n2, dropEmpty eng h a b (s.modify b (fun _ => m')) = (.ok (), (if isEmpty m' then some m' else none), s.modify a (fun _ => n2)) ∧
        Local h.p n n2 ∧ Uniq h.p n2 ∧ elems h.p n2 = (if isEmpty m' then [] else [m']) ∧ (isEmpty m' = false → n2 = chg h.p (fun _ => m') n) ∧
        ∀ q, h.p = [.child q []] → (n2.attrs = n.attrs ∧ n2.text = n.text ∧ n2.tail = n.tail) ∧ ∀ c ∈ n2.children, c ∈ n.children ∨ c = m' := by
      unfold dropEmpty
      rw [Fields.nodeAt_run hb1]
      simp only
      by_cases he : isEmpty m' = true
      · rw [if_pos he, if_pos he, if_pos he]
        obtain ⟨n2, d1, d2, d3, d4, d5⟩ := hop_remove heng hl.1 (s := s.modify b (fun _ => m')) (n := chg h.p (fun _ => m') n) (a := a)
          (by rw [hput]; exact get_modify_here hs) p3
        refine ⟨n2, ?_, ⟨d2.tag.trans p1.tag, fun t h => (d2.attr t h).trans (p1.attr t h), fun g h1 h2 => (d2.other g h1 h2).trans (p1.other g h1 h2),
          fun g h1 h2 hu => d2.uniq g h1 h2 (p1.uniq g h1 h2 hu)⟩, d3, d4, (fun h0 => by rw [he] at h0; cases h0), fun q hq => ?_⟩
        · rw [d1]
          simp only
          rw [hput, modify_twice]
        · have hg1 := hl.1.good
          rw [hq] at i1 i2 d5 p3 hg1
          obtain ⟨⟨a1, a2, a3⟩, a4⟩ := put_one (m' := m') i1 i2
          obtain ⟨⟨b1, b2, b3⟩, b4⟩ := remove_one hg1 p3
          rw [d5]
          exact ⟨⟨b1.trans a1, b2.trans a2, b3.trans a3⟩, fun c hc => a4 c (b4 c hc)⟩
      · rw [if_neg he, if_neg he, if_neg he]
        refine ⟨_, by rw [hput], p1, p3, p2, fun _ => rfl, fun q hq => ?_⟩
        rw [hq] at i1 i2 ⊢
        exact put_one i1 i2
    obtain ⟨n2, d1, d2, d3, d4, d5, d6⟩ := hdrop
    have hlast : lastOk h.p m' := lastOk_elems hl.1.2.2 (n := chg h.p (fun _ => m') n) (by rw [p2]; simp)
    obtain ⟨l', n3, s1, s2, s3, s4, s5, s6, s7, s8⟩ := updateTrees_run heng rest hl.2.2.2.2.2 (s := s.modify a (fun _ => n2)) (get_modify_here hs)
      (FSubs.Inv.keep (local_has hl d2) i6)
    rw [modify_twice] at s1
    obtain ⟨k1, k2⟩ := frame_head hl s6
    have hel := (elems_hits k1).trans d4
    refine ⟨.cons h (if isEmpty m' then some m' else none) f' l', n3, ?_, ?_, ?_, ?_, ?_, ?_, ?_, ?_⟩
    · rw [updateTrees, hg]
      simp only
      rw [f1]
      simp only
      rw [d1]
      simp only
      rw [s1]
    · exact ⟨hl.1, hl.2.1, fun q hq => hl.2.2.1 q ((FSubs.Ev.has s5 q).mp hq), by rw [f5.own]; exact hl.2.2.2.1, f2, s2⟩
    · by_cases he : isEmpty m' = true
      · rw [if_pos he] at hel ⊢
        exact ⟨⟨k2 d3, hel, he, f3, f4⟩, s3⟩
      · rw [if_neg he] at hel ⊢
        exact ⟨⟨k2 d3, m', hel, f3⟩, s3⟩
    · by_cases he : isEmpty m' = true
      · rw [if_pos he]
        exact ⟨⟨he, f4⟩, s4⟩
      · rw [if_neg he] at hel ⊢
        refine ⟨fun x hx => ?_, s4⟩
        rw [hel, List.mem_singleton] at hx
        subst hx
        exact ⟨by simpa using he, f4⟩
    · refine ⟨rfl, ⟨m, m', by simp [cur, i2], ?_, f5⟩, FSubs.Ev.left (fun q hq => (local_has hl d2 q hq).1) s5⟩
      by_cases he : isEmpty m' = true
      · rw [if_pos he]; rfl
      · rw [if_neg he] at hel ⊢
        simp [cur, hel]
    · exact (frame_of (P := fun q => FSubs.Has q (.cons h none f rest)) (.inl rfl) d2).trans (s6.mono (fun q hq => .inr hq))
    · intro hd
      obtain ⟨e1, e2⟩ := hd.1 m (by rw [i2]; simp)
      have e := f6 e2
      subst e
      have e3 := d5 e1
      rw [chg_same hl.1.2.2 i1 i2] at e3
      subst e3
      exact s7 hd.2
    · refine kept_cons (n2 := n2) (m' := m') i2 s8 (fun q hq => (local_has hl d2 q hq).1) f5.blank (elems_hits k1) ?_ d6 hlast
      rw [d4]
      by_cases he : isEmpty m' = true
      · rw [if_pos he, if_pos he, if_neg (by simp)]
      · rw [if_neg he, if_neg he, if_pos rfl]
end

mutual
theorem validTree_run (heng : EngineOk eng) (t : FTree A) (ht : FTree.Ok t) {a s n} (hs : Node.get a s = some n) (hi : FTree.Inv t n) :
    ∃ r t' n', validTree eng t a s = (.ok r, t', s.modify a (fun _ => n')) ∧ FTree.Ok t' ∧ FTree.Inv t' n' ∧ (r = true → FTree.Done t' n') ∧ FTree.Ev t n t' n' ∧
      (FTree.Done t n → n' = n ∧ FTree.Done t' n') ∧ (r = true → FTree.AllValid t ∧ (FTree.own t).schemaValid n' = true) ∧ (FTree.AllValid t → FTree.NoSchema t → r = true) :=
  match t, ht, hi with
  | .mk o subs, ht, hi => by
    by_cases hv : o.valid = false
    · refine ⟨false, .mk o subs, n, ?_, ht, hi, (by intro h; cases h), FTree.Ev.refl' hi, fun hd => ⟨rfl, hd⟩, (by intro h; cases h), fun h => ?_⟩
      · rw [validTree, if_pos hv, Node.modify_id hs rfl]
      · rw [h.1] at hv; cases hv
    obtain ⟨r, l', n1, v1, v2, v3, v5, v6, v7, v8, v9, v10⟩ := validTrees_run heng subs ht.2 hs hi.2
    have hfld : ∀ i, hits (o.m.fs i).p n1 = hits (o.m.fs i).p n ∧ (Uniq (o.m.fs i).p n → Uniq (o.m.fs i).p n1) := by
      intro i
      have hp : ∀ q, FSubs.Has q subs → Part q (o.m.fs i).p := fun q hq => ((FSubs.Ok.has ht.2 hq).2.2.2 _ ⟨i, rfl⟩).symm
      exact ⟨v6.other _ (ht.1.field i).good hp, v6.uniq _ (ht.1.field i).good hp⟩
    have ht1 : FTree.Ok (.mk o l') := ⟨ht.1, v2⟩
    have hi1 : FTree.Inv (.mk o l') n1 := by
      refine ⟨fun i => ?_, v3⟩
      obtain ⟨k1, k2⟩ := hi.1 i
      exact ⟨(hfld i).2 k1, by rw [(hfld i).1]; exact k2⟩
    have hev1 : FTree.Ev (.mk o subs) n (.mk o l') n1 :=
      ⟨⟨o.cleaned, rfl, CleanLike.refl _⟩, fun i _ => (hfld i).1, v6.mono (fun p hp => .inr hp),
        fun hp hb => blank_tree (c' := o.cleaned) rfl v10 hp hb (fun i v hv => inElem_hits (m := o.m) (hfld i).1 (hb.1 i v hv)), v5⟩
    have hv' : ¬ o.valid = false := hv
    have hvt : o.valid = true := by simpa using hv
    cases r with
    | false =>
      refine ⟨false, .mk o l', n1, ?_, ht1, hi1, (by intro h; cases h), hev1, fun hd => ?_, (by intro h; cases h), fun h1 h2 => v9 h1.2 h2.2⟩
      · rw [validTree, if_neg hv', v1]
      · obtain ⟨e, hd'⟩ := v7 hd.2
        subst e
        exact ⟨rfl, hd.1, hd'⟩
    | true =>
      obtain ⟨t', n2, u1, u2, u3, u4, u5, u6⟩ := updateTree_run heng (.mk o l') ht1 (s := s.modify a (fun _ => n1)) (get_modify_here hs) hi1
      rw [modify_twice] at u1
      refine ⟨o.schemaValid n2, t', n2, ?_, u2, u3, fun _ => u4, hev1.trans u5, fun hd => ?_, fun h => ⟨⟨hvt, v8 rfl⟩, h⟩, fun _ h2 => h2.1 n2⟩
      · rw [validTree, if_neg hv', v1]
        simp only
        rw [u1]
        simp only
        rw [get_modify_here hs]
        rfl
      · obtain ⟨e, hd'⟩ := v7 hd.2
        subst e
        exact ⟨u6 ⟨hd.1, hd'⟩, u4⟩
theorem validTrees_run (heng : EngineOk eng) (l : FSubs A) {M} (hl : FSubs.Ok l M) {a s n} (hs : Node.get a s = some n) (hi : FSubs.Inv l n) :
    ∃ r l' n', validTrees eng l a s = (.ok r, l', s.modify a (fun _ => n')) ∧ FSubs.Ok l' M ∧ FSubs.Inv l' n' ∧ FSubs.Ev l n l' n' ∧
      Frame (fun q => FSubs.Has q l) n n' ∧ (FSubs.Done l n → n' = n ∧ FSubs.Done l' n') ∧ (r = true → FSubs.AllValid l) ∧ (FSubs.AllValid l → FSubs.NoSchema l → r = true) ∧
      Kept l n l' n' :=
  match l, hl, hi with
  | .nil, _, _ => ⟨true, .nil, n, by rw [Node.modify_id hs rfl]; rfl, trivial, trivial, trivial, Frame.refl _ _, fun _ => ⟨rfl, trivial⟩, fun _ => trivial, fun _ _ => rfl, Kept.refl _ _⟩
  | .cons h (some v) f rest, hl, hi => by
    obtain ⟨⟨i1, i2, i3, i4, i5⟩, i6⟩ := hi
    have hg := hop_none heng hl.1 hs i1 i2
    obtain ⟨r, f', v', f1, f2, f3, f4, f5, f6, f7, f8⟩ := validTree_run heng f hl.2.2.2.2.1 (a := []) (s := v) (n := v) rfl i4
    obtain ⟨e, fd⟩ := f6 i5
    subst e
    rw [show Node.modify [] (fun _ => v') v' = v' from rfl] at f1
    cases r with
    | false =>
      refine ⟨false, .cons h (some v') f' rest, n, ?_, ?_, ?_, ?_, Frame.refl _ _, fun hd => ⟨rfl, ⟨⟨i3, fd⟩, hd.2⟩⟩, (by intro h; cases h),
        fun h1 h2 => f8 h1.1 h2.1, fun hp hb => Kept.refl rest n hp.2.2 hb⟩
      · rw [validTrees, hg]
        simp only
        rw [f1]
        simp only
        rw [Node.modify_id hs rfl]
      · exact ⟨hl.1, hl.2.1, hl.2.2.1, by rw [f5.own]; exact hl.2.2.2.1, f2, hl.2.2.2.2.2⟩
      · exact ⟨⟨i1, i2, i3, f3, fd⟩, i6⟩
      · exact ⟨rfl, ⟨v', v', rfl, rfl, f5⟩, FSubs.Ev.refl' i6⟩
    | true =>
      obtain ⟨r2, l', n2, s1, s2, s3, s5, s6, s7, s8, s9, s10⟩ := validTrees_run heng rest hl.2.2.2.2.2 hs i6
      obtain ⟨k1, k2⟩ := frame_head hl s6
      refine ⟨r2, .cons h (some v') f' l', n2, ?_, ?_, ?_, ?_, ?_, ?_, ?_, ?_, ?_⟩
      · rw [validTrees, hg]
        simp only
        rw [f1]
        simp only
        rw [s1]
      · exact ⟨hl.1, hl.2.1, fun q hq => hl.2.2.1 q ((FSubs.Ev.has s5 q).mp hq), by rw [f5.own]; exact hl.2.2.2.1, f2, s2⟩
      · exact ⟨⟨k2 i1, by rw [elems_hits k1]; exact i2, i3, f3, fd⟩, s3⟩
      · exact ⟨rfl, ⟨v', v', rfl, rfl, f5⟩, s5⟩
      · exact s6.mono (fun q hq => .inr hq)
      · intro hd
        obtain ⟨e1, e2⟩ := s7 hd.2
        exact ⟨e1, ⟨i3, fd⟩, e2⟩
      · exact fun h => ⟨(f7 rfl).1, s8 h⟩
      · exact fun h1 h2 => s9 h1.2 h2.2
      · exact fun hp hb => s10 hp.2.2 hb
  | .cons h none f rest, hl, hi => by
    obtain ⟨⟨i1, m, i2, i4⟩, i6⟩ := hi
    obtain ⟨b, hg, hb, hput⟩ := hop_some heng hl.1 hs i1 i2
    obtain ⟨r, f', m', f1, f2, f3, f4, f5, f6, f7, f8⟩ := validTree_run heng f hl.2.2.2.2.1 (a := b) (s := s) (n := m) hb i4
    obtain ⟨p1, p2, p3⟩ := hop_put hl.1 i1 i2 (FSubs.Ok.under hl) f5.frame
    rw [hput] at f1
    have hi1 := FSubs.Inv.keep (local_has hl p1) i6
    have hlast : lastOk h.p m' := lastOk_elems hl.1.2.2 (n := chg h.p (fun _ => m') n) (by rw [p2]; simp)
    have hone : ∀ q, h.p = [.child q []] → ((chg h.p (fun _ => m') n).attrs = n.attrs ∧ (chg h.p (fun _ => m') n).text = n.text ∧ (chg h.p (fun _ => m') n).tail = n.tail) ∧
        ∀ c ∈ (chg h.p (fun _ => m') n).children, c ∈ n.children ∨ c = m' := by
      intro q hq
      rw [hq] at i1 i2 ⊢
      exact put_one i1 i2
    have hsame : FSubs.Done (.cons h none f rest) n → chg h.p (fun _ => m') n = n ∧ isEmpty m' = false ∧ FTree.Done f' m' := by
      intro hd
      obtain ⟨e1, e2⟩ := hd.1 m (by rw [i2]; simp)
      obtain ⟨e, hd'⟩ := f6 e2
      subst e
      exact ⟨chg_same hl.1.2.2 i1 i2, e1, hd'⟩
    cases r with
    | false =>
      refine ⟨false, .cons h none f' rest, chg h.p (fun _ => m') n, ?_, ?_, ⟨⟨p3, m', p2, f3⟩, hi1⟩, ?_, frame_of (P := fun q => FSubs.Has q (.cons h none f rest)) (.inl rfl) p1,
        ?_, (by intro h; cases h), fun h1 h2 => f8 h1.1 h2.1,
        kept_cons i2 (Kept.refl _ _) (fun q hq => (local_has hl p1 q hq).1) f5.blank rfl (by rw [if_pos rfl]; exact p2) hone hlast⟩
      · rw [validTrees, hg]
        simp only
        rw [f1]
      · exact ⟨hl.1, hl.2.1, hl.2.2.1, by rw [f5.own]; exact hl.2.2.2.1, f2, hl.2.2.2.2.2⟩
      · exact ⟨rfl, ⟨m, m', by simp [cur, i2], by simp [cur, p2], f5⟩, FSubs.Ev.left (fun q hq => (local_has hl p1 q hq).1) (FSubs.Ev.refl' hi1)⟩
      · intro hd
        obtain ⟨e1, e2, e3⟩ := hsame hd
        refine ⟨e1, fun x hx => ?_, FSubs.Done.keep (fun q hq => (local_has hl p1 q hq).1) hd.2⟩
        rw [p2, List.mem_singleton] at hx
        subst hx; exact ⟨e2, e3⟩
    | true =>
      obtain ⟨r2, l', n3, s1, s2, s3, s5, s6, s7, s8, s9, s10⟩ := validTrees_run heng rest hl.2.2.2.2.2 (s := s.modify a (fun _ => chg h.p (fun _ => m') n)) (get_modify_here hs) hi1
      rw [modify_twice] at s1
      obtain ⟨k1, k2⟩ := frame_head hl s6
      have hel := (elems_hits k1).trans p2
      refine ⟨r2, .cons h none f' l', n3, ?_, ?_, ⟨⟨k2 p3, m', hel, f3⟩, s3⟩, ?_, ?_, ?_, ?_, ?_,
        kept_cons i2 s10 (fun q hq => (local_has hl p1 q hq).1) f5.blank (elems_hits k1) (by rw [if_pos rfl]; exact p2) hone hlast⟩
      · rw [validTrees, hg]
        simp only
        rw [f1]
        simp only
        rw [s1]
      · exact ⟨hl.1, hl.2.1, fun q hq => hl.2.2.1 q ((FSubs.Ev.has s5 q).mp hq), by rw [f5.own]; exact hl.2.2.2.1, f2, s2⟩
      · exact ⟨rfl, ⟨m, m', by simp [cur, i2], by simp [cur, hel], f5⟩, FSubs.Ev.left (fun q hq => (local_has hl p1 q hq).1) s5⟩
      · exact (frame_of (P := fun q => FSubs.Has q (.cons h none f rest)) (.inl rfl) p1).trans (s6.mono (fun q hq => .inr hq))
      · intro hd
        obtain ⟨e1, e2, e3⟩ := hsame hd
        obtain ⟨e4, e5⟩ := s7 (FSubs.Done.keep (fun q hq => (local_has hl p1 q hq).1) hd.2)
        refine ⟨e4.trans e1, fun x hx => ?_, e5⟩
        rw [hel, List.mem_singleton] at hx
        subst hx; exact ⟨e2, e3⟩
      · exact fun h => ⟨(f7 rfl).1, s8 h⟩
      · exact fun h1 h2 => s9 h1.2 h2.2
end

mutual
/-- A blank element that is to stay is empty. -/
theorem blank_done {t : FTree A} {n : Node} (hp : FTree.Plain t) (hi : FTree.Inv t n) (hb : FTree.Blank t n) (hd : FTree.Done t n) : isEmpty n = true :=
  match t, hp, hi, hb, hd with
  | .mk o subs, hp, hi, hb, hd => by
    obtain ⟨-, ⟨b1, b2, b3⟩, b4, b5⟩ := hb
    have hc : n.children = [] := by
      refine List.eq_nil_iff_forall_not_mem.mpr (fun c hc => ?_)
      obtain ⟨q, q1, -⟩ := b4 c hc
      exact blank_dead hp hi.2 b5 hd.2 q q1
    simp [isEmpty, hc, b1, b2, b3]
theorem blank_dead {l : FSubs A} {n : Node} (hp : FSubs.Plain l) (hi : FSubs.Inv l n) (hb : FSubs.Blank l n) (hd : FSubs.Done l n) (q : QName) (hq : FSubs.Live q l) : False :=
  match l, hp, hi, hb, hd, hq with
  | .cons h (some v) f rest, hp, hi, hb, hd, hq => blank_dead hp.2.2 hi.2 hb hd.2 q hq
  | .cons h none f rest, hp, hi, hb, hd, hq => by
    rcases hq with hq | hq
    · obtain ⟨⟨-, m, i2, i3⟩, -⟩ := hi
      obtain ⟨d1, d2⟩ := hd.1 m (by rw [i2]; simp)
      have := blank_done hp.2.1 i3 (hb.1 m (by rw [i2]; simp)) d2
      rw [d1] at this; cases this
    · exact blank_dead hp.2.2 hi.2 hb.2 hd.2 q hq
end

mutual
/-- The form has been initialized with `n`, which made `n0` of it. -/
def FTree.Ini (t : FTree A) (n n0 : Node) : Prop := match t with
  | .mk o subs => (∀ i, hits (o.m.fs i).p n0 = hits (o.m.fs i).p n) ∧ Frame (FTree.Paths (.mk o subs)) n n0 ∧ FSubs.Ini subs n n0
def FSubs.Ini (l : FSubs A) (n n0 : Node) : Prop := match l with
  | .nil => True
  | .cons h _ f rest => (∃ x0, elems h.p n0 = [x0] ∧ FTree.Ini f ((elems h.p n).head?.getD (newAt h.p)) x0 ∧
      (elems h.p n = [] → (∃ q, h.p = [.child q []]) → FTree.Plain f → FTree.Null f → FTree.Blank f x0)) ∧ FSubs.Ini rest n n0
end

mutual
def FTree.Fit (t : FTree A) (n : Node) : Prop := match t with
  | .mk o subs => (∀ i, FU (o.m.fs i) n) ∧ FSubs.Fit subs n
def FSubs.Fit (l : FSubs A) (n : Node) : Prop := match l with
  | .nil => True
  | .cons h _ f rest => (Uniq h.p n ∧ ∀ m ∈ elems h.p n, FTree.Fit f m) ∧ FSubs.Fit rest n
end

theorem FTree.Ini.frame : ∀ {t : FTree A} {n n' : Node}, FTree.Ini t n n' → Frame (FTree.Paths t) n n'
  | .mk _ _, _, _, h => h.2.1

theorem FSubs.Ini.left {n n1 n2 : Node} : ∀ {l : FSubs A}, (∀ q, FSubs.Has q l → hits q n1 = hits q n) → FSubs.Ini l n1 n2 → FSubs.Ini l n n2
  | .nil, _, _ => trivial
  | .cons h out f rest, hh, hi => by
    obtain ⟨⟨x, k1, k2, k4⟩, k3⟩ := hi
    exact ⟨⟨x, k1, by rw [← elems_hits (hh _ (.inl rfl))]; exact k2, by rw [← elems_hits (hh _ (.inl rfl))]; exact k4⟩, FSubs.Ini.left (fun q hq => hh q (.inr hq)) k3⟩

theorem FSubs.Fit.keep {n n' : Node} : ∀ {l : FSubs A}, (∀ q, FSubs.Has q l → hits q n' = hits q n ∧ (Uniq q n → Uniq q n')) → FSubs.Fit l n → FSubs.Fit l n'
  | .nil, _, _ => trivial
  | .cons h out f rest, hh, hi => by
    obtain ⟨k1, k2⟩ := hh _ (.inl rfl)
    obtain ⟨⟨i1, i2⟩, i4⟩ := hi
    exact ⟨⟨k2 i1, by rw [elems_hits k1]; exact i2⟩, FSubs.Fit.keep (fun q hq => hh q (.inr hq)) i4⟩

/-- A new element has nothing in it. -/
theorem newAt_bare {p r : List Step} (hp : p ≠ []) (ha : allChild p = true) (hg : Spec.good (p ++ r) = true) : Uniq r (newAt p) ∧ (r ≠ [] → hits r (newAt p) = []) := by
  obtain ⟨p, st, rfl⟩ := List.eq_nil_or_concat p |>.resolve_left hp
  simp only [List.concat_eq_append] at *
  rw [allChildApp, Bool.and_eq_true] at ha
  cases st with
  | attr => simp [allChild] at ha
  | text => simp [allChild] at ha
  | child q ps =>
    rw [List.append_assoc] at hg
    have hgr := good_right ha.1 hg
    simp only [newAt, List.getLast?_append, List.getLast?_singleton, Option.some_or]
    exact ⟨uniq_new hgr, hits_new hgr⟩

theorem new_subs {n : Node} : ∀ (l : FSubs A), (∀ q, FSubs.Has q l → Uniq q n ∧ hits q n = []) → FSubs.Fit l n
  | .nil, _ => trivial
  | .cons h out f rest, hh => by
    obtain ⟨k1, k2⟩ := hh _ (.inl rfl)
    refine ⟨⟨k1, fun m hm => ?_⟩, new_subs rest (fun q hq => hh q (.inr hq))⟩
    unfold elems at hm
    rw [k2] at hm
    simp at hm

theorem new_fit {M} {h : Hop} {out : Option Node} {f : FTree A} {rest : FSubs A} (hl : FSubs.Ok (.cons h out f rest) M) : FTree.Fit f (newAt h.p) := by
  have hu := FSubs.Ok.under hl
  cases f with
  | mk o subs =>
    refine ⟨fun i => ?_, new_subs subs (fun q hq => ?_)⟩
    · obtain ⟨k1, k2⟩ := newAt_bare hl.1.ne hl.1.2.2 (hu (o.m.fs i).p (.inl ⟨i, rfl⟩))
      exact ⟨k1, by rw [k2 (ne_nil_of_field (hl.2.2.2.2.1.1.field i).simple)]; simp⟩
    · obtain ⟨k1, k2⟩ := newAt_bare hl.1.ne hl.1.2.2 (hu q (.inr hq))
      exact ⟨k1, k2 (FSubs.Ok.has hl.2.2.2.2.1.2 hq).2.2.1⟩

mutual
theorem initTree_run (heng : EngineOk eng) (t : FTree A) (ht : FTree.Ok t) (hn : FTree.New t) {a s n} (hs : Node.get a s = some n) (hi : FTree.Fit t n) :
    ∃ n0, initTree eng t a s = (.ok (), s.modify a (fun _ => n0)) ∧ FTree.Inv t n0 ∧ FTree.Ini t n n0 ∧
      (FTree.Plain t → FTree.Null t → (n.attrs = [] ∧ noText n.text = true ∧ noText n.tail = true ∧ n.children = []) → (∀ p, FTree.Paths t p → hits p n = []) → FTree.Blank t n0) :=
  match t, ht, hn, hi with
  | .mk o subs, ht, hn, hi => by
    obtain ⟨n0, r1, r2, r3, r4, r5⟩ := initSubs_run heng subs ht.2 hn hs hi.2
    have hfld : ∀ i, hits (o.m.fs i).p n0 = hits (o.m.fs i).p n ∧ (Uniq (o.m.fs i).p n → Uniq (o.m.fs i).p n0) := by
      intro i
      have hp : ∀ q, FSubs.Has q subs → Part q (o.m.fs i).p := fun q hq => ((FSubs.Ok.has ht.2 hq).2.2.2 _ ⟨i, rfl⟩).symm
      exact ⟨r4.other _ (ht.1.field i).good hp, r4.uniq _ (ht.1.field i).good hp⟩
    refine ⟨n0, by rw [initTree]; exact r1, ⟨fun i => ?_, r2⟩, ⟨fun i => (hfld i).1, r4.mono (fun q hq => .inr hq), r3⟩, fun hp hnull hbare hh => ?_⟩
    · obtain ⟨k1, k2⟩ := hi.1 i
      exact ⟨(hfld i).2 k1, by rw [(hfld i).1]; exact k2⟩
    · obtain ⟨k1, ⟨k2, k3, k4⟩, k5⟩ := r5 hp hnull.2 (fun q hq => hh q (.inr hq))
      refine ⟨fun i v hv => ?_, ⟨by rw [k2, hbare.1], by rw [k3, hbare.2.1], by rw [k4, hbare.2.2.1]⟩, fun c hc => ?_, k1⟩
      · obtain ⟨c, hc, hdat⟩ := ht.1.data
        obtain ⟨-, c', hc', hv'⟩ := id hv
        rw [hc] at hc'; cases hc'
        obtain ⟨j, hj, w, hw, hkw⟩ := hdat _ v hv'
        obtain rfl := model_inj o.m hj
        exact ⟨w, none, hw, hnull.1 j v w hv hw, hkw, (hfld j).1.trans (hh _ (.inl ⟨j, rfl⟩))⟩
      · rcases k5 c hc with h | h
        · rw [hbare.2.2.2] at h; simp at h
        · exact h
theorem initSubs_run (heng : EngineOk eng) (l : FSubs A) {M} (hl : FSubs.Ok l M) (hn : FSubs.New l) {a s n} (hs : Node.get a s = some n) (hi : FSubs.Fit l n) :
    ∃ n0, initSubs eng l a s = (.ok (), s.modify a (fun _ => n0)) ∧ FSubs.Inv l n0 ∧ FSubs.Ini l n n0 ∧ Frame (fun q => FSubs.Has q l) n n0 ∧
      (FSubs.Plain l → FSubs.Null l → (∀ q, FSubs.Has q l → hits q n = []) → FSubs.Blank l n0 ∧ (n0.attrs = n.attrs ∧ n0.text = n.text ∧ n0.tail = n.tail) ∧
        ∀ c ∈ n0.children, c ∈ n.children ∨ ∃ q, FSubs.Live q l ∧ okc q [] c = true) :=
  match l, hl, hn, hi with
  | .nil, _, _, _ => ⟨n, by rw [Node.modify_id hs rfl]; rfl, trivial, trivial, Frame.refl _ _, fun _ _ _ => ⟨trivial, ⟨rfl, rfl, rfl⟩, fun _ h => .inl h⟩⟩
  | .cons h out f rest, hl, hn, hi => by
    obtain ⟨e0, hnf, hnr⟩ := hn
    obtain ⟨⟨i1, i2⟩, i3⟩ := hi
    obtain ⟨n1, c1, c2, c3, c4, c5⟩ := hop_create heng hl.1 hs i1
    have hfit : FTree.Fit f ((elems h.p n).head?.getD (newAt h.p)) := by
      cases he : (elems h.p n).head? with
      | none => exact new_fit hl
      | some x => exact i2 x (List.mem_of_mem_head? he)
    obtain ⟨b, hg, hb, hput⟩ := hop_some heng hl.1 (s := s.modify a (fun _ => n1)) (get_modify_here hs) c3 c4
    obtain ⟨x0, f1, f2, f3, f4⟩ := initTree_run heng f hl.2.2.2.2.1 hnf hb hfit
    obtain ⟨p1, p2, p3⟩ := hop_put hl.1 c3 c4 (FSubs.Ok.under hl) f3.frame
    rw [hput, modify_twice] at f1
    have hloc : Local h.p n (chg h.p (fun _ => x0) n1) := ⟨p1.tag.trans c2.tag, fun t h => (p1.attr t h).trans (c2.attr t h), fun g h1 h2 => (p1.other g h1 h2).trans (c2.other g h1 h2),
          fun g h1 h2 hu => p1.uniq g h1 h2 (c2.uniq g h1 h2 hu)⟩
    obtain ⟨n0, s1, s2, s3, s4, s5⟩ := initSubs_run heng rest hl.2.2.2.2.2 hnr (s := s.modify a (fun _ => chg h.p (fun _ => x0) n1)) (get_modify_here hs)
      (FSubs.Fit.keep (local_has hl hloc) i3)
    rw [modify_twice] at s1
    obtain ⟨k1, k2⟩ := frame_head hl s4
    have hel := (elems_hits k1).trans p2
    have hblank : elems h.p n = [] → (∃ q, h.p = [.child q []]) → FTree.Plain f → FTree.Null f → FTree.Blank f x0 := by
      rintro he ⟨q, hq⟩ hp hnull
      refine f4 hp hnull ?_ ?_
      · rw [he]
        simp only [List.head?_nil, Option.getD_none, hq]
        exact ⟨rfl, rfl, rfl, rfl⟩
      · intro p hp
        rw [he]
        refine (newAt_bare hl.1.ne hl.1.2.2 (FSubs.Ok.under hl p hp)).2 ?_
        cases f with
        | mk o subs =>
          rcases hp with ⟨i, rfl⟩ | hp
          · exact ne_nil_of_field (hl.2.2.2.2.1.1.field i).simple
          · exact (FSubs.Ok.has hl.2.2.2.2.1.2 hp).2.2.1
    refine ⟨n0, ?_, ?_, ⟨⟨x0, hel, f3, hblank⟩, FSubs.Ini.left (fun q hq => (local_has hl hloc q hq).1) s3⟩, ?_, ?_⟩
    · rw [initSubs, bind_ok c1, bind_ok hg]
      simp only
      rw [bind_ok f1]
      exact s1
    · subst e0
      exact ⟨⟨k2 p3, x0, hel, f2⟩, s2⟩
    · exact (frame_of (P := fun q => FSubs.Has q (.cons h out f rest)) (.inl rfl) hloc).trans (s4.mono (fun q hq => .inr hq))
    · intro hp hnull hh
      subst e0
      obtain ⟨q, hq⟩ := hp.1
      have he : elems h.p n = [] := by unfold elems; rw [hh _ (.inl rfl)]; rfl
      obtain ⟨k1, ⟨k2, k3, k4⟩, k5⟩ := s5 hp.2.2 hnull.2 (fun q hq => by rw [(local_has hl hloc q hq).1]; exact hh q (.inr hq))
      have hmk := c5 he
      have hch : (n1.attrs = n.attrs ∧ n1.text = n.text ∧ n1.tail = n.tail) ∧ n1.children = n.children ++ [newElem q []] := by
        have h0 : ∀ x ∈ n.children, okc q [] x = false := fun x hx => not_selected (by rw [← hq]; exact he) hx
        rw [hmk, hq]
        simp only [mk]
        rw [updFirst_none h0]
        exact ⟨⟨by simp, by simp, by simp⟩, by simp⟩
      have hput1 := put_one (q := q) (n := n1) (m' := x0) (by rw [← hq]; exact c3) (by rw [← hq]; exact c4)
      rw [← hq] at hput1
      have hokx : okc q [] x0 = true := by
        have : lastOk h.p x0 := lastOk_elems hl.1.2.2 (n := chg h.p (fun _ => x0) n1) (by rw [p2]; simp)
        rw [hq] at this; exact this
      refine ⟨⟨fun m hm => ?_, k1⟩, ⟨by rw [k2, hput1.1.1, hch.1.1], by rw [k3, hput1.1.2.1, hch.1.2.1], by rw [k4, hput1.1.2.2, hch.1.2.2]⟩, fun c hc => ?_⟩
      · rw [hel, List.mem_singleton] at hm
        subst hm
        exact hblank he hp.1 hp.2.1 hnull.1
      · rcases k5 c hc with h1 | ⟨x, h1, h2⟩
        · rcases hput1.2 c h1 with h2 | rfl
          · rw [hch.2, List.mem_append, List.mem_singleton] at h2
            rcases h2 with h2 | rfl
            · exact .inl h2
            · exact .inr ⟨q, .inl hq, okc_new rfl⟩
          · exact .inr ⟨q, .inl hq, hokx⟩
        · exact .inr ⟨x, .inr h1, h2⟩
end

theorem fieldVal_hits {f : RField} {ctx : Ctx} (hf : f.Ok ctx) {n : Node} (hu : Uniq f.p n) : fieldVal f n = f.toPython ((hits f.p n).head?.map hitItem) := by
  unfold fieldVal; rw [seen_hits hf.good hu]

theorem subElem_elems {h : Hop} (hh : HopOk h) {n : Node} (hu : Uniq h.p n) : subElem h.p n = (elems h.p n).head? := by
  unfold subElem
  rcases elems_cases hh.2.2 hu with he | ⟨m, he⟩
  · rw [none_of hh.2.2 hh.good hu he, he]; rfl
  · obtain ⟨b, h1, h2, -⟩ := addr_of hh.2.2 hu he
    rw [h1, he]
    exact h2

mutual
theorem FTree.Fits.fit {t : FTree A} (ht : FTree.Ok t) {n : Node} (h : FTree.Fits t n) : FTree.Fit t n := match t, ht, h with
  | .mk o subs, ht, h => by
    refine ⟨fun i => ?_, FSubs.Fits.fit ht.2 h.2⟩
    have hg := (ht.1.field i).good
    have hu := uniq_of_single hg (h.1 i).1
    exact ⟨hu, (writable_hits hg (ne_nil_of_field (ht.1.field i).simple) hu).mp (h.1 i).2⟩
theorem FSubs.Fits.fit {l : FSubs A} {M} (hl : FSubs.Ok l M) {n : Node} (h : FSubs.Fits l n) : FSubs.Fit l n := match l, hl, h with
  | .nil, _, _ => trivial
  | .cons h out f rest, hl, hf => by
    have hu := uniq_of_single hl.1.good hf.1
    refine ⟨⟨hu, fun m hm => ?_⟩, FSubs.Fits.fit hl.2.2.2.2.2 hf.2.2⟩
    refine FTree.Fits.fit hl.2.2.2.2.1 (hf.2.1 m ?_)
    rw [subElem_elems hl.1 hu]
    rcases elems_cases hl.1.2.2 hu with he | ⟨x, he⟩
    · rw [he] at hm; simp at hm
    · rw [he] at hm ⊢
      simp only [List.mem_singleton] at hm
      subst hm; rfl
end

mutual
theorem saved_of {t t' : FTree A} (ht : FTree.Ok t) (hn : FTree.New t) {n n0 n' : Node} (hfit : FTree.Fit t n) (hini : FTree.Ini t n n0) (hev : FTree.Ev t n0 t' n') (hi' : FTree.Inv t' n')
    (hd' : FTree.Done t' n') : FTree.Saved t n n' := match t, t', ht, hn, hfit, hini, hev, hi', hd' with
  | .mk o subs, .mk o' subs', ht, hn, hfit, hini, hev, hi', hd' => by
    obtain ⟨⟨c', e, hlike⟩, ev2, ev3, -, ev4⟩ := hev
    subst e
    refine ⟨fun i v hv => ?_, fun i hv => ?_, fun g ctx hg hsi hp1 hp2 => ?_, savedSubs_of ht.2 hn hfit.2 hini.2.2 ev4 hi'.2 hd'.2⟩
    · obtain ⟨v', hv', e⟩ := submits_like' hlike hv
      obtain ⟨w, x, k1, k2, k3, k4⟩ : InElem o.m i v n' := inElem_like (m := o.m) e (hd'.1 i v' hv')
      rw [fieldVal_hits (ht.1.field i) (hi'.1 i).1, hitIs_value k2 k3 k4]
      simp only [Except.map, o.m.take_show i _ w k1]
    · rw [fieldVal_hits (ht.1.field i) (hi'.1 i).1, fieldVal_hits (ht.1.field i) (hfit.1 i).1]
      rw [ev2 i hv, hini.1 i]
    · have hp : ∀ p, FTree.Paths (.mk o subs) p → Part p g.p := by
        rintro p (⟨i, rfl⟩ | hp)
        · exact hp1 i
        · exact hp2 p hp
      have hu := uniq_of_single hg.good hsi
      have hu0 := hini.2.1.uniq _ hg.good hp hu
      rw [fieldVal_hits hg (ev3.uniq _ hg.good hp hu0), fieldVal_hits hg hu, ev3.other _ hg.good hp, hini.2.1.other _ hg.good hp]
theorem savedSubs_of {l l' : FSubs A} {M} (hl : FSubs.Ok l M) (hn : FSubs.New l) {n n0 n' : Node} (hfit : FSubs.Fit l n) (hini : FSubs.Ini l n n0) (hev : FSubs.Ev l n0 l' n') (hi' : FSubs.Inv l' n')
    (hd' : FSubs.Done l' n') : FSubs.Saved l n n' := match l, l', hl, hn, hfit, hini, hev, hi', hd' with
  | .nil, .nil, _, _, _, _, _, _, _ => trivial
  | .nil, .cons _ _ _ _, _, _, _, _, h, _, _ => h.elim
  | .cons _ _ _ _, .nil, _, _, _, _, h, _, _ => h.elim
  | .cons h out f rest, .cons h' out' f' rest', hl, hn, hfit, hini, hev, hi', hd' => by
    obtain ⟨e, ⟨x, x', c1, c2, c3⟩, ev2⟩ := hev
    subst e
    obtain ⟨⟨x0, i1, i2, i4⟩, i3⟩ := hini
    have hx : FTree.Fit f ((elems h'.p n).head?.getD (newAt h'.p)) := by
      cases he : (elems h'.p n).head? with
      | none => exact new_fit hl
      | some x => exact hfit.1.2 x (List.mem_of_mem_head? he)
    have hxx : x = x0 := by
      rw [hn.1] at c1
      simpa [cur, i1, eq_comm] using c1
    subst hxx
    match out', c2, hi', hd' with
    | none, c2, hi', hd' =>
      obtain ⟨⟨k1, m, k2, k3⟩, k4⟩ := hi'
      have hm : m = x' := by simpa [cur, k2] using c2
      subst hm
      obtain ⟨d1, d2⟩ := hd'.1 m (by rw [k2]; simp)
      refine ⟨⟨m, ?_, ?_⟩, fun hno hq hp hnull => ?_, savedSubs_of hl.2.2.2.2.2 hn.2.2 hfit.2 i3 ev2 k4 hd'.2⟩
      · rw [subElem_elems hl.1 hfit.1.1]
        exact saved_of hl.2.2.2.2.1 hn.2.1 hx i2 c3 k3 d2
      · rw [subElem_elems hl.1 k1, k2, if_neg (by rw [d1]; simp)]; rfl
      · exfalso
        rw [subElem_elems hl.1 hfit.1.1] at hno
        have := blank_done (c3.plain hp) k3 (c3.blank hp (i4 (List.head?_eq_none_iff.mp hno) hq hp hnull)) d2
        rw [d1] at this; cases this
    | some v, c2, hi', hd' =>
      obtain ⟨⟨k1, k2, k3, k4, k5⟩, k6⟩ := hi'
      have hm : v = x' := by simpa [cur] using c2
      subst hm
      refine ⟨⟨v, ?_, ?_⟩, fun _ _ _ _ => by rw [subElem_elems hl.1 k1, k2]; rfl, savedSubs_of hl.2.2.2.2.2 hn.2.2 hfit.2 i3 ev2 k6 hd'.2⟩
      · rw [subElem_elems hl.1 hfit.1.1]
        exact saved_of hl.2.2.2.2.1 hn.2.1 hx i2 c3 k4 k5
      · rw [subElem_elems hl.1 k1, k2, if_pos k3]; rfl
end

end
end Props
