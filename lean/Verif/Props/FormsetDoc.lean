import Verif.Forms.FormsetDocProofs
import Verif.Props.Formsets
/-
Property C88: the formset of a NodeListField, on the document.

Model: Verif/Forms/FormsetDoc.lean.  Fields with one child step, with attribute predicates.
-/
namespace Props
open XPath Xml Spec Fields Forms

/-- The element that form `i` of the formset of a list with the members `ms` begins with: the member `i`, or a new one. -/
def formElem (ms : List Node) (new : Node) (i : Nat) : Node := (ms[i]?).getD new

/-- The members of the list that remain, as updated by their forms: those whose forms are not marked for deletion. -/
def keptMembers (upd : Nat → Node → Node) (canDelete : Bool) (ms : List Node) (subs : List Submitted) : List Node :=
  ((ms.zip subs).zipIdx.filter (fun x => !(canDelete && x.1.2.deleted))).map (fun x => upd x.2 x.1.1)

/-- The new members: one for each changed form behind those of the members. -/
def newMembers (upd : Nat → Node → Node) (new : Node) (ms : List Node) (subs : List Submitted) : List Node :=
  ((subs.zipIdx.drop ms.length).filter (fun x => x.1.changed)).map (fun x => upd x.2 new)

/-- The forms that count: those of members, and changed ones, that are not marked for deletion. -/
def counting (canDelete : Bool) (ms : List Node) (subs : List Submitted) : List Nat :=
  (subs.zipIdx.filter (fun x => (decide (x.2 < ms.length) || x.1.changed) && !(canDelete && x.1.deleted))).map Prod.snd

/-- No element of a form marked for deletion is like another member of the list, as the forms change it. -/
def Apart (upd : Nat → Node → Node) (canDelete : Bool) (ms : List Node) (new : Node) (subs : List Submitted) : Prop :=
  ∀ i d, subs[i]? = some d → canDelete = true → d.deleted = true → ∀ j m e, ms[j]? = some m → subs[j]? = some e → j ≠ i →
    (if e.deleted = true then m else upd j m) ≠ formElem ms new i

/-- Form `i` comes not after form `j`, by the submitted order; without order comes last. -/
def OrderedBy (subs : List Submitted) (i j : Nat) : Prop := ∀ d e, subs[i]? = some d → subs[j]? = some e → ∀ y, e.order = some y → ∃ x, d.order = some x ∧ x ≤ y

section
variable {q : QName} {ps : List Pred}

theorem boundForms_eq (N : Nat) (subs : List Submitted) :
    boundForms N subs = subs.zipIdx.map (fun x => ⟨x.2, decide (x.2 < N), x.1.changed, x.1.deleted, x.1.order⟩) := by
  unfold boundForms
  rw [List.mapIdx_eq_zipIdx_map]

theorem boundForms_inst (N : Nat) (subs : List Submitted) : (boundForms N subs).map MForm.inst = List.range subs.length := by
  rw [boundForms_eq, List.map_map]
  show subs.zipIdx.map (fun x => x.2) = _
  rw [List.range_eq_range', ← List.zipIdx_map_snd 0 subs]

theorem mem_boundForms {N : Nat} {subs : List Submitted} {f : MForm Nat} :
    f ∈ boundForms N subs ↔ ∃ d, subs[f.inst]? = some d ∧ f = ⟨f.inst, decide (f.inst < N), d.changed, d.deleted, d.order⟩ := by
  rw [boundForms_eq, List.mem_map]
  constructor
  · rintro ⟨⟨d, i⟩, h, rfl⟩
    exact ⟨d, (List.mem_zipIdx_iff_getElem?.1 h), rfl⟩
  · rintro ⟨d, h, e⟩
    exact ⟨(d, f.inst), List.mem_zipIdx_iff_getElem?.2 h, e.symm⟩

/-- The state before the update: the forms' elements are the members, and new ones. -/
def startElems (ms : List Node) (new : Node) : Elems Nat Node := ⟨List.range ms.length, formElem ms new⟩

theorem filter_lt_zipIdx {α : Type} (l : List α) : ∀ (k N : Nat), (l.zipIdx k).filter (fun x => decide (x.2 < N)) = (l.zipIdx k).take (N - k) := by
  induction l with
  | nil => intro k N; simp
  | cons a l ih =>
    intro k N
    rw [List.zipIdx_cons, List.filter_cons]
    by_cases h : k < N
    · rw [if_pos (by simpa using h), ih, show N - k = (N - (k + 1)) + 1 by omega, List.take_succ_cons]
    · rw [if_neg (by simpa using h), ih, show N - k = 0 by omega, show N - (k + 1) = 0 by omega, List.take_zero, List.take_zero]

theorem filter_ge_zipIdx {α : Type} (l : List α) : ∀ (k N : Nat), (l.zipIdx k).filter (fun x => !decide (x.2 < N)) = (l.zipIdx k).drop (N - k) := by
  induction l with
  | nil => intro k N; simp
  | cons a l ih =>
    intro k N
    rw [List.zipIdx_cons, List.filter_cons]
    by_cases h : k < N
    · rw [if_neg (by simpa using h), ih, show N - k = (N - (k + 1)) + 1 by omega, List.drop_succ_cons]
    · rw [if_pos (by simpa using h), ih, show N - k = 0 by omega, show N - (k + 1) = 0 by omega, List.drop_zero, List.drop_zero]

theorem start_fits {ms : List Node} {new : Node} {subs : List Submitted} (hlen : ms.length ≤ subs.length) : Fits (boundForms ms.length subs) (startElems ms new) := by
  constructor
  · show _ = List.range ms.length
    rw [boundForms_eq, List.filter_map, List.map_map]
    show ((subs.zipIdx.filter (fun x => decide (x.2 < ms.length))).map (fun x => x.2)) = _
    have h : (subs.zipIdx.filter (fun x => decide (x.2 < ms.length))) = subs.zipIdx.take ms.length := filter_lt_zipIdx subs 0 ms.length
    rw [h, List.map_take]
    show (subs.zipIdx.map Prod.snd).take _ = _
    rw [List.zipIdx_map_snd, ← List.range_eq_range', List.take_range, Nat.min_eq_left hlen]
  · rw [boundForms_inst]; exact List.nodup_range

theorem start_apart {upd : Nat → Node → Node} {cd : Bool} {ms : List Node} {new : Node} {subs : List Submitted} (h : Apart upd cd ms new subs) :
    DeletedApart upd cd (boundForms ms.length subs) (startElems ms new) := by
  intro f hf hcd hdl g hg hgi hne
  obtain ⟨d, h1, h2⟩ := mem_boundForms.1 hf
  obtain ⟨e, k1, k2⟩ := mem_boundForms.1 hg
  rw [h2] at hdl
  rw [k2] at hgi
  simp only [decide_eq_true_eq] at hdl hgi
  have := h f.inst d h1 hcd hdl g.inst _ e (List.getElem?_eq_getElem hgi) k1 hne
  unfold submittedContent
  have hgd : g.deleted = e.deleted := by rw [k2]
  have hform : formElem ms new g.inst = ms[g.inst] := by unfold formElem; rw [List.getElem?_eq_getElem hgi]; rfl
  simp only [startElems, hcd, hgd, hform, Bool.true_and]
  exact this

theorem kept_list (upd : Nat → Node → Node) (cd : Bool) (new : Node) (subs : List Submitted) : ∀ (ms : List Node) (k : Nat) (c : Nat → Node), (∀ j m, ms[j]? = some m → c (k + j) = m) →
    (((ms.zip subs).zipIdx k).filter (fun x => !(cd && x.1.2.deleted))).map (fun x => upd x.2 x.1.1)
      = ((subs.zipIdx k).filter (fun x => decide (x.2 < k + ms.length) && !(cd && x.1.deleted))).map (fun x => upd x.2 (c x.2)) := by
  induction subs with
  | nil => intro ms k c _; simp
  | cons d subs ih =>
    intro ms k c h
    cases ms with
    | nil =>
      rw [List.zip_nil_left]
      show [] = _
      symm
      rw [List.map_eq_nil_iff, List.filter_eq_nil_iff]
      rintro ⟨x, i⟩ hx
      have := (List.mem_zipIdx hx).1
      simp only [List.length_nil, Nat.add_zero, Bool.and_eq_true, decide_eq_true_eq, not_and]
      intro hlt
      omega
    | cons m ms =>
      have h0 : c k = m := by simpa using h 0 m rfl
      have hih := ih ms (k + 1) c (fun j m' hj => by rw [show k + 1 + j = k + (j + 1) by omega]; exact h (j + 1) m' (by simpa using hj))
      rw [show k + 1 + ms.length = k + (m :: ms).length by simp; omega] at hih
      rw [List.zip_cons_cons, List.zipIdx_cons, List.zipIdx_cons, List.filter_cons, List.filter_cons]
      have hk : decide (k < k + (m :: ms).length) = true := by simp
      simp only [hk, Bool.true_and]
      cases hdd : (cd && d.deleted) with
      | true => simpa [hdd] using hih
      | false =>
        simp only [Bool.not_false, if_true, List.map_cons, h0]
        rw [hih]

end

section
variable [PyUnicode] {eng : Engine} {ctx : Ctx} {xp : Str} {e : Expr} {q : QName} {ps : List Pred} {a : Node.Addr} {s n : Node}

/-- The forms of a new formset have the elements of the list, and new ones. -/
theorem start_sim (heng : EngineOk eng) (hf : SimpleField ctx xp e [.child q ps]) (hs : s.get a = some n) (new : Node) :
    Sim q ps a s n ⟨s, constructForm eng ctx xp (.elem a) new s⟩ (startElems (members q ps n) new) := by
  obtain ⟨ax, t, es, rfl⟩ := res_single hf.path
  have hget : ∀ i : Nat, (listGet eng ctx nodeItem xp (.elem a) i s).1 = pyGet (members q ps n) i := by
    intro i
    rw [listGet_run heng hf.parse hf.path (nodeItem_ok q ps) hs (holds_members rfl)]
  refine ⟨⟨n, ?_, ?_, same_refl _⟩, List.nodup_range, ?_, ?_⟩
  · rw [Node.modify_id hs rfl]
  · apply List.ext_getElem?
    intro i
    by_cases h : i < (members q ps n).length
    · simp [startElems, formElem, h]
    · simp [startElems, formElem, h]
  · intro k i hk
    obtain ⟨h1, h2⟩ := List.getElem?_eq_some_iff.mp hk
    simp only [startElems, List.getElem_range, List.length_range] at h1 h2
    subst h2
    show constructForm eng ctx xp (.elem a) new s k = _
    unfold constructForm
    rw [hget, pyGet_pos, pos_nat h1]
    simp [h1]
  · intro i hi
    simp only [startElems, List.mem_range] at hi
    show constructForm eng ctx xp (.elem a) new s i = _
    unfold constructForm
    rw [hget, pyGet_pos]
    have hp : pos (members q ps n).length (i : Int) = none := by
      unfold pos
      rw [if_neg (by omega), if_neg (by omega)]
    rw [hp]
    simp [startElems, formElem, List.getElem?_eq_none (Nat.le_of_not_lt hi)]

/-- The forms turn the elements they begin with into elements of the list, and change nothing the second time. -/
structure Steady (q : QName) (ps : List Pred) (ms : List Node) (new : Node) (upd : Nat → Node → Node) : Prop where
  member : ∀ i, isMember q ps (upd i (formElem ms new i)) = true
  again : ∀ i, upd i (upd i (formElem ms new i)) = upd i (formElem ms new i)

omit [PyUnicode] in
theorem Steady.fine {ms : List Node} {new : Node} {upd : Nat → Node → Node} (h : Steady q ps ms new upd) :
    Fine q ps upd (fun i c => c = formElem ms new i ∨ c = upd i (formElem ms new i)) := by
  intro i c hc
  rcases hc with rfl | rfl
  · exact ⟨.inr rfl, h.member i⟩
  · rw [h.again]; exact ⟨.inr rfl, h.member i⟩

theorem saveFormset_run (heng : EngineOk eng) (hf : SimpleField ctx xp e [.child q ps]) (hs : s.get a = some n) (new : Node) (upd : Nat → Node → Node) (hm : Steady q ps (members q ps n) new upd)
    (canDelete canOrder : Bool) (subs : List Submitted) :
    let el := formsetUpdate upd canDelete canOrder (boundForms (members q ps n).length subs) (startElems (members q ps n) new)
    ∃ n', saveFormset eng ctx xp e (.elem a) new upd canDelete canOrder (members q ps n).length subs s = .ok (s.modify a (fun _ => n')) ∧
      members q ps n' = el.list.map el.content ∧ SameButMembers q ps n n' := by
  have hsim := start_sim heng hf hs new
  obtain ⟨ax, t, es, rfl⟩ := res_single hf.path
  have hok := pathOk_single hf.ok
  have hP : ∀ i, (startElems (members q ps n) new).content i = formElem (members q ps n) new i ∨ (startElems (members q ps n) new).content i = upd i (formElem (members q ps n) new i) :=
    fun _ => .inl rfl
  obtain ⟨st', h1, h2, -⟩ := sim_formset heng hf.parse hf.path hok hs hm.fine
    canDelete canOrder (boundForms (members q ps n).length subs) hsim hP
  obtain ⟨n', k1, k2, k3⟩ := h2.doc
  refine ⟨n', ?_, k2, k3⟩
  unfold saveFormset
  rw [h1]
  show Except.ok st'.doc = _
  rw [k1]

omit [PyUnicode] in
/-- The list of the abstract formset without order. -/
theorem unordered_list {upd : Nat → Node → Node} {ms : List Node} {new : Node} (hm : Steady q ps ms new upd) (canDelete : Bool) (subs : List Submitted) (hlen : ms.length ≤ subs.length)
    (ha : Apart upd canDelete ms new subs) :
    let el := formsetUpdate upd canDelete false (boundForms ms.length subs) (startElems ms new)
    el.list.map el.content = keptMembers upd canDelete ms subs ++ newMembers upd new ms subs := by
  intro el
  obtain ⟨k1, k2⟩ := C52_unordered upd canDelete (boundForms ms.length subs) (startElems ms new) hm.again (start_fits hlen) (start_apart ha)
  show List.map (formsetUpdate upd canDelete false (boundForms ms.length subs) (startElems ms new)).content (formsetUpdate upd canDelete false (boundForms ms.length subs) (startElems ms new)).list = _
  rw [k1, List.map_append, List.map_map, List.map_map]
  congr 1
  · unfold keptMembers
    rw [kept_list upd canDelete new subs ms 0 (formElem ms new) (fun j m hj => by simp [formElem, hj])]
    have e1 : ∀ f ∈ (boundForms ms.length subs).filter (fun f => f.initial && !(canDelete && f.deleted)),
        (formsetUpdate upd canDelete false (boundForms ms.length subs) (startElems ms new)).content f.inst = upd f.inst (formElem ms new f.inst) := by
      intro f hfm
      obtain ⟨l1, l2⟩ := List.mem_filter.1 hfm
      rw [Bool.and_eq_true, Bool.not_eq_true'] at l2
      exact k2 f l1 (.inl l2.2)
    rw [List.map_congr_left (g := fun f => upd f.inst (formElem ms new f.inst)) e1, boundForms_eq, List.filter_map, List.map_map]
    simp only [Nat.zero_add]
    rfl
  · unfold newMembers
    have e1 : ∀ f ∈ (boundForms ms.length subs).filter (fun f => !f.initial && f.changed),
        (formsetUpdate upd canDelete false (boundForms ms.length subs) (startElems ms new)).content f.inst = upd f.inst new := by
      intro f hfm
      obtain ⟨l1, l2⟩ := List.mem_filter.1 hfm
      rw [Bool.and_eq_true, Bool.not_eq_true'] at l2
      obtain ⟨d, d1, d2⟩ := mem_boundForms.1 l1
      have hi := l2.1
      rw [d2] at hi
      have hge : ms.length ≤ f.inst := by simpa using hi
      have hn : formElem ms new f.inst = new := by unfold formElem; rw [List.getElem?_eq_none hge]; rfl
      rw [k2 f l1 (.inr l2.2)]
      show upd f.inst (formElem ms new f.inst) = _
      rw [hn]
    rw [List.map_congr_left (g := fun f => upd f.inst new) e1, boundForms_eq, List.filter_map, List.map_map]
    have hdrop := filter_ge_zipIdx subs 0 ms.length
    rw [Nat.sub_zero] at hdrop
    rw [← hdrop, List.filter_filter]
    have hfil : (subs.zipIdx.filter ((fun f : MForm Nat => !f.initial && f.changed) ∘ fun x => ⟨x.2, decide (x.2 < ms.length), x.1.changed, x.1.deleted, x.1.order⟩))
        = subs.zipIdx.filter (fun x => x.1.changed && !decide (x.2 < ms.length)) := by
      apply List.filter_congr
      intro x _
      simp only [Function.comp]
      rw [Bool.and_comm]
    rw [hfil]
    rfl

/-- A formset without order: the members of the list are then those whose forms are not marked for deletion, in order, as their forms update them, and behind them one new
element for each changed additional form; nothing else in the document changes. -/
theorem C88_unordered (heng : EngineOk eng) (hf : SimpleField ctx xp e [.child q ps]) (hs : s.get a = some n) (new : Node) (upd : Nat → Node → Node) (hm : Steady q ps (members q ps n) new upd)
    (canDelete : Bool) (subs : List Submitted) (hlen : (members q ps n).length ≤ subs.length)
    (ha : Apart upd canDelete (members q ps n) new subs) :
    ∃ n', saveFormset eng ctx xp e (.elem a) new upd canDelete false (members q ps n).length subs s = .ok (s.modify a (fun _ => n')) ∧
      members q ps n' = keptMembers upd canDelete (members q ps n) subs ++ newMembers upd new (members q ps n) subs ∧ SameButMembers q ps n n' := by
  obtain ⟨n', h1, h2, h3⟩ := saveFormset_run heng hf hs new upd hm canDelete false subs
  exact ⟨n', h1, by rw [h2]; exact unordered_list hm canDelete subs hlen ha, h3⟩

theorem counting_eq (canDelete : Bool) (ms : List Node) (subs : List Submitted) :
    ((boundForms ms.length subs).filter (fun f => (f.initial || f.changed) && !(canDelete && f.deleted))).map MForm.inst = counting canDelete ms subs := by
  rw [boundForms_eq, List.filter_map, List.map_map]
  rfl

omit [PyUnicode] in
/-- The list of the abstract formset with order. -/
theorem ordered_list {upd : Nat → Node → Node} {ms : List Node} {new : Node} (hm : Steady q ps ms new upd) (canDelete : Bool) (subs : List Submitted) (hlen : ms.length ≤ subs.length)
    (ha : Apart upd canDelete ms new subs)
    (hdist : ∀ i ∈ counting canDelete ms subs, ∀ j ∈ counting canDelete ms subs, j ≠ i → upd j (formElem ms new j) ≠ upd i (formElem ms new i)) :
    ∃ order : List Nat, order.Perm (counting canDelete ms subs) ∧ order.Pairwise (OrderedBy subs) ∧
      (∀ i j d e, [i, j].Sublist (counting canDelete ms subs) → subs[i]? = some d → subs[j]? = some e → d.order = e.order → [i, j].Sublist order) ∧
      (formsetUpdate upd canDelete true (boundForms ms.length subs) (startElems ms new)).list.map (formsetUpdate upd canDelete true (boundForms ms.length subs) (startElems ms new)).content
        = order.map (fun i => upd i (formElem ms new i)) := by
  refine ⟨(orderedForms canDelete (boundForms ms.length subs)).map MForm.inst, ?_, ?_, ?_, ?_⟩
  · rw [← counting_eq]
    exact (C52_order canDelete _).1.map _
  · rw [List.pairwise_map]
    refine List.Pairwise.imp_of_mem ?_ (C52_order canDelete _).2.1
    intro f g hfm hgm hle d e hd he y hy
    have hf' := (List.mem_filter.1 ((C52_order canDelete _).1.mem_iff.1 hfm)).1
    have hg' := (List.mem_filter.1 ((C52_order canDelete _).1.mem_iff.1 hgm)).1
    obtain ⟨d', d1, d2⟩ := mem_boundForms.1 hf'
    obtain ⟨e', e1, e2⟩ := mem_boundForms.1 hg'
    rw [hd] at d1
    rw [he] at e1
    injection d1 with d1
    injection e1 with e1
    subst d1 e1
    have ho : f.order = d.order := by rw [d2]
    have ho' : g.order = e.order := by rw [e2]
    rw [← ho]
    exact hle y (ho'.trans hy)
  · intro i j d e hsub hd he ho
    rw [← counting_eq] at hsub
    obtain ⟨l', hl', hml⟩ := List.sublist_map_iff.1 hsub
    match l', hml with
    | [f, g], hml =>
      simp only [List.map_cons, List.map_nil, List.cons.injEq, and_true] at hml
      obtain ⟨rfl, rfl⟩ := hml
      have hf' := (List.mem_filter.1 (hl'.subset (List.mem_cons_self))).1
      have hg' := (List.mem_filter.1 (hl'.subset (List.mem_cons_of_mem _ List.mem_cons_self))).1
      obtain ⟨d', d1, d2⟩ := mem_boundForms.1 hf'
      obtain ⟨e', e1, e2⟩ := mem_boundForms.1 hg'
      rw [hd] at d1
      rw [he] at e1
      injection d1 with d1
      injection e1 with e1
      subst d1 e1
      exact ((C52_order canDelete _).2.2 f g hl' (by rw [d2, e2]; exact ho)).map MForm.inst
    | [], hml => simp at hml
    | [f], hml => simp at hml
    | f :: g :: h :: l, hml => simp at hml
  · have hin : ∀ f ∈ orderedForms canDelete (boundForms ms.length subs), f.inst ∈ counting canDelete ms subs := by
      intro f hfm
      rw [← counting_eq]
      exact List.mem_map.2 ⟨f, (C52_order canDelete _).1.mem_iff.1 hfm, rfl⟩
    obtain ⟨k1, k2⟩ := C52_ordered upd canDelete (boundForms ms.length subs) (startElems ms new) hm.again (start_fits hlen) (start_apart ha)
      (fun f hfm g hgm hne => hdist f.inst (hin f hfm) g.inst (hin g hgm) hne)
    rw [k1, List.map_map, List.map_map]
    exact List.map_congr_left (fun f hfm => k2 f hfm)

/-- A formset with order: the members of the list are then the elements of the forms that count, as these update them, by increasing order, those without order last, and
those with the same order as in the formset; nothing else in the document changes.  All these elements have to be different. -/
theorem C88_ordered (heng : EngineOk eng) (hf : SimpleField ctx xp e [.child q ps]) (hs : s.get a = some n) (new : Node) (upd : Nat → Node → Node) (hm : Steady q ps (members q ps n) new upd)
    (canDelete : Bool) (subs : List Submitted) (hlen : (members q ps n).length ≤ subs.length)
    (ha : Apart upd canDelete (members q ps n) new subs)
    (hdist : ∀ i ∈ counting canDelete (members q ps n) subs, ∀ j ∈ counting canDelete (members q ps n) subs, j ≠ i →
      upd j (formElem (members q ps n) new j) ≠ upd i (formElem (members q ps n) new i)) :
    ∃ n' order, saveFormset eng ctx xp e (.elem a) new upd canDelete true (members q ps n).length subs s = .ok (s.modify a (fun _ => n')) ∧
      order.Perm (counting canDelete (members q ps n) subs) ∧ order.Pairwise (OrderedBy subs) ∧
      (∀ i j d e, [i, j].Sublist (counting canDelete (members q ps n) subs) → subs[i]? = some d → subs[j]? = some e → d.order = e.order → [i, j].Sublist order) ∧
      members q ps n' = order.map (fun i => upd i (formElem (members q ps n) new i)) ∧ SameButMembers q ps n n' := by
  obtain ⟨n', h1, h2, h3⟩ := saveFormset_run heng hf hs new upd hm canDelete true subs
  obtain ⟨order, k1, k2, k3, k4⟩ := ordered_list hm canDelete subs hlen ha hdist
  exact ⟨n', order, h1, k1, k2, k3, by rw [h2]; exact k4, h3⟩

/-- The list field shows the members, in order. -/
theorem C88_list_shows (heng : EngineOk eng) (hf : SimpleField ctx xp e [.child q ps]) (hs : s.get a = some n) (n' : Node) :
    listData eng ctx nodeItem xp (.elem a) (s.modify a (fun _ => n')) = (.ok (members q ps n'), s.modify a (fun _ => n')) := by
  obtain ⟨ax, t, es, rfl⟩ := res_single hf.path
  exact listData_run heng hf.parse hf.path (nodeItem_ok q ps) (by rw [Node.get_modify, hs]; rfl) (holds_members rfl)

omit [PyUnicode] in
/-- The second update of the abstract formset without order. -/
theorem unordered_twice {upd : Nat → Node → Node} {ms : List Node} {new : Node} (hm : Steady q ps ms new upd) (canDelete : Bool) (subs : List Submitted) (hlen : ms.length ≤ subs.length)
    (ha : Apart upd canDelete ms new subs) {el el2 : Elems Nat Node} (hel : el = formsetUpdate upd canDelete false (boundForms ms.length subs) (startElems ms new))
    (hel2 : el2 = formsetUpdate upd canDelete false (boundForms ms.length subs) el)
    (hnew : ∀ i d, subs[i]? = some d → canDelete = true → d.deleted = true →
      ∀ m ∈ el.list.map el.content, m ≠ if d.changed = true then upd i (formElem ms new i) else formElem ms new i) :
    el2.list.map el2.content = el.list.map el.content := by
  subst hel2
  subst hel
  have hfit : Fits (boundForms ms.length subs) (startElems ms new) := start_fits hlen
  obtain ⟨t1, t2⟩ := C52_twice_unordered upd canDelete _ _ hm.again hfit (start_apart ha) (by
    intro f hfm hcd hdl y hy
    obtain ⟨d, d1, d2⟩ := mem_boundForms.1 hfm
    have hd' : d.deleted = true := by rw [d2] at hdl; exact hdl
    have hne := hnew f.inst d d1 hcd hd' _ (List.mem_map.2 ⟨y, hy, rfl⟩)
    have hch : f.changed = d.changed := by rw [d2]
    rw [← hch] at hne
    have hcore := core_unordered upd canDelete (boundForms ms.length subs) (validated upd canDelete (boundForms ms.length subs) (startElems ms new))
      ⟨hfit.initial, hfit.distinct⟩ (apart_core hfit (start_apart ha))
    have hcf := hcore.2 f hfm
    rw [← update_eq_core canDelete false hfit.distinct _ hm.again, validated_content hfit.distinct hfm,
      if_pos (show (canDelete && f.deleted) = true by rw [hcd, hdl]; rfl)] at hcf
    rw [hcf]
    exact hne)
  rw [t1]
  refine List.map_congr_left (fun x hx => ?_)
  have hxi : x ∈ (boundForms ms.length subs).map MForm.inst := by
    obtain ⟨c1, -⟩ := C52_unordered upd canDelete _ _ hm.again hfit (start_apart ha)
    rw [c1, List.mem_append] at hx
    rcases hx with hx | hx
    · exact List.map_subset _ (List.filter_subset' _) hx
    · exact List.map_subset _ (List.filter_subset' _) hx
  obtain ⟨f, hfm, rfl⟩ := List.mem_map.1 hxi
  exact t2 f hfm

theorem removeDeleted_content {I C : Type} [DecidableEq I] [DecidableEq C] : ∀ (fs : List (MForm I)) (s : Elems I C), (removeDeleted s fs).content = s.content
  | [], _ => rfl
  | f :: fs, s => by
    rw [removeDeleted, removeDeleted_content fs]
    split <;> rfl

theorem validateForms_other {I C : Type} [DecidableEq I] [DecidableEq C] (upd : I → C → C) {x : I} : ∀ (fs : List (MForm I)) (s : Elems I C), x ∉ fs.map MForm.inst →
    (validateForms upd s fs).content x = s.content x
  | [], _, _ => rfl
  | f :: fs, s, h => by
    simp only [List.map_cons, List.mem_cons, not_or] at h
    rw [validateForms, validateForms_other upd fs _ h.2]
    simp only [Elems.update, if_neg h.1]

theorem reorder_other {I C : Type} [DecidableEq I] [DecidableEq C] (upd : I → C → C) {x : I} : ∀ (fs : List (MForm I)) (s : Elems I C), x ∉ fs.map MForm.inst →
    (reorder upd s fs).content x = s.content x
  | [], _, _ => rfl
  | f :: fs, s, h => by
    simp only [List.map_cons, List.mem_cons, not_or] at h
    rw [reorder, reorder_other upd fs _ h.2]
    simp only [Elems.update, Elems.append, if_neg h.1]
    split <;> rfl

theorem deleted_content {I C : Type} [DecidableEq I] [DecidableEq C] (upd : I → C → C) {cd : Bool} {forms : List (MForm I)} {s : Elems I C} (hd : (forms.map MForm.inst).Nodup) {f : MForm I}
    (hfm : f ∈ forms) (hdel : (cd && f.deleted) = true) : (formsetUpdate upd cd true forms s).content f.inst = s.content f.inst := by
  have hr : f.inst ∉ (remainingForms cd forms).map MForm.inst := by
    unfold remainingForms
    rw [mem_filter_inst hd hfm]
    simp [hdel]
  have ho : f.inst ∉ (orderedForms cd forms).map MForm.inst := by
    rw [ordered_mem]
    rintro ⟨g, hg, -, h2, h3⟩
    have : g = f := List.inj_on_of_nodup_map hd hg hfm h3
    subst this
    rw [hdel] at h2; cases h2
  unfold formsetUpdate
  simp only [if_true]
  rw [reorder_other upd _ _ ho, validateForms_other upd _ _ hr, removeDeleted_content, validateForms_other upd _ _ hr]

omit [PyUnicode] in
/-- The second update of the abstract formset with order. -/
theorem ordered_twice {upd : Nat → Node → Node} {ms : List Node} {new : Node} (hm : Steady q ps ms new upd) (canDelete : Bool) (subs : List Submitted) (hlen : ms.length ≤ subs.length)
    (ha : Apart upd canDelete ms new subs)
    (hdist : ∀ i ∈ counting canDelete ms subs, ∀ j ∈ counting canDelete ms subs, j ≠ i → upd j (formElem ms new j) ≠ upd i (formElem ms new i))
    {el el2 : Elems Nat Node} (hel : el = formsetUpdate upd canDelete true (boundForms ms.length subs) (startElems ms new))
    (hel2 : el2 = formsetUpdate upd canDelete true (boundForms ms.length subs) el)
    (hnew : ∀ i d, subs[i]? = some d → canDelete = true → d.deleted = true → ∀ m ∈ el.list.map el.content, m ≠ formElem ms new i) :
    el2.list.map el2.content = el.list.map el.content := by
  subst hel2
  subst hel
  have hfit : Fits (boundForms ms.length subs) (startElems ms new) := start_fits hlen
  have hin : ∀ f ∈ orderedForms canDelete (boundForms ms.length subs), f.inst ∈ counting canDelete ms subs := by
    intro f hfm
    rw [← counting_eq]
    exact List.mem_map.2 ⟨f, (C52_order canDelete _).1.mem_iff.1 hfm, rfl⟩
  have hdist' : ∀ f ∈ orderedForms canDelete (boundForms ms.length subs), ∀ g ∈ orderedForms canDelete (boundForms ms.length subs), g.inst ≠ f.inst →
      upd g.inst ((startElems ms new).content g.inst) ≠ upd f.inst ((startElems ms new).content f.inst) :=
    fun f hfm g hgm hne => hdist f.inst (hin f hfm) g.inst (hin g hgm) hne
  obtain ⟨k1, k2⟩ := C52_ordered upd canDelete (boundForms ms.length subs) (startElems ms new) hm.again hfit (start_apart ha) hdist'
  obtain ⟨t1, t2⟩ := C52_twice_ordered upd canDelete _ _ hm.again hfit (start_apart ha) hdist' (by
    intro f hfm hcd hdl g hgm
    obtain ⟨d, d1, d2⟩ := mem_boundForms.1 hfm
    have hd' : d.deleted = true := by rw [d2] at hdl; exact hdl
    rw [deleted_content upd hfit.distinct hfm (by rw [hcd, hdl]; rfl), ← k2 g hgm]
    exact hnew f.inst d d1 hcd hd' _ (List.mem_map.2 ⟨g.inst, by rw [k1]; exact List.mem_map.2 ⟨g, hgm, rfl⟩, rfl⟩))
  rw [t1]
  refine List.map_congr_left (fun x hx => ?_)
  rw [k1] at hx
  obtain ⟨f, hfm, rfl⟩ := List.mem_map.1 hx
  exact t2 f hfm

/-- Two updates on the document are two of the abstract formset. -/
theorem update_twice (heng : EngineOk eng) (hf : SimpleField ctx xp e [.child q ps]) (hs : s.get a = some n) (new : Node) (upd : Nat → Node → Node) (hm : Steady q ps (members q ps n) new upd)
    (canDelete canOrder : Bool) (subs : List Submitted) :
    ∃ st st' n' n'', let update := docFormsetUpdate eng ctx xp e (.elem a) upd canDelete canOrder (boundForms (members q ps n).length subs)
      let el := formsetUpdate upd canDelete canOrder (boundForms (members q ps n).length subs) (startElems (members q ps n) new)
      let el2 := formsetUpdate upd canDelete canOrder (boundForms (members q ps n).length subs) el
      update ⟨s, constructForm eng ctx xp (.elem a) new s⟩ = .ok st ∧ st.doc = s.modify a (fun _ => n') ∧ update st = .ok st' ∧ st'.doc = s.modify a (fun _ => n'') ∧
      members q ps n' = el.list.map el.content ∧ members q ps n'' = el2.list.map el2.content ∧ SameButMembers q ps n n' ∧ SameButMembers q ps n n'' := by
  have hsim := start_sim heng hf hs new
  obtain ⟨ax, t, es, rfl⟩ := res_single hf.path
  have hok := pathOk_single hf.ok
  have hP : ∀ i, (startElems (members q ps n) new).content i = formElem (members q ps n) new i ∨ (startElems (members q ps n) new).content i = upd i (formElem (members q ps n) new i) :=
    fun _ => .inl rfl
  have hF := hm.fine
  obtain ⟨st, h1, h2, h2'⟩ := sim_formset heng hf.parse hf.path hok hs hF canDelete canOrder (boundForms (members q ps n).length subs) hsim hP
  obtain ⟨n', k1, k2, k3⟩ := h2.doc
  obtain ⟨st', g1, g2, -⟩ := sim_formset heng hf.parse hf.path hok hs hF canDelete canOrder (boundForms (members q ps n).length subs) h2 h2'
  obtain ⟨n'', l1, l2, l3⟩ := g2.doc
  exact ⟨st, st', n', n'', h1, k1, g1, l1, k2, l2, k3, l3⟩

/-- Updating a second time, as by `is_valid()` and then `update_instance()`: the members stay as they are, provided that none of them is like an element that was to be deleted. -/
theorem C88_twice (heng : EngineOk eng) (hf : SimpleField ctx xp e [.child q ps]) (hs : s.get a = some n) (new : Node) (upd : Nat → Node → Node) (hm : Steady q ps (members q ps n) new upd)
    (canDelete : Bool) (subs : List Submitted) (hlen : (members q ps n).length ≤ subs.length)
    (ha : Apart upd canDelete (members q ps n) new subs)
    (hnew : ∀ i d, subs[i]? = some d → canDelete = true → d.deleted = true →
      ∀ m ∈ keptMembers upd canDelete (members q ps n) subs ++ newMembers upd new (members q ps n) subs,
        m ≠ if d.changed = true then upd i (formElem (members q ps n) new i) else formElem (members q ps n) new i) :
    ∃ st st' n' n'', let update := docFormsetUpdate eng ctx xp e (.elem a) upd canDelete false (boundForms (members q ps n).length subs)
      update ⟨s, constructForm eng ctx xp (.elem a) new s⟩ = .ok st ∧ st.doc = s.modify a (fun _ => n') ∧ update st = .ok st' ∧ st'.doc = s.modify a (fun _ => n'') ∧
      members q ps n' = keptMembers upd canDelete (members q ps n) subs ++ newMembers upd new (members q ps n) subs ∧
      members q ps n'' = members q ps n' ∧ SameButMembers q ps n n' ∧ SameButMembers q ps n n'' := by
  obtain ⟨st, st', n', n'', h1, h2, h3, h4, h5, h6, h7, h8⟩ := update_twice heng hf hs new upd hm canDelete false subs
  have hl := unordered_list hm canDelete subs hlen ha
  refine ⟨st, st', n', n'', h1, h2, h3, h4, h5.trans hl, ?_, h7, h8⟩
  rw [h5, h6]
  exact unordered_twice hm canDelete subs hlen ha rfl rfl (fun i d h1 h2 h3 m hmem => hnew i d h1 h2 h3 m (by rw [← hl]; exact hmem))

/-- The same for a formset with order: the members, which are given by `C88_ordered`, stay as they are. -/
theorem C88_twice_ordered (heng : EngineOk eng) (hf : SimpleField ctx xp e [.child q ps]) (hs : s.get a = some n) (new : Node) (upd : Nat → Node → Node) (hm : Steady q ps (members q ps n) new upd)
    (canDelete : Bool) (subs : List Submitted) (hlen : (members q ps n).length ≤ subs.length)
    (ha : Apart upd canDelete (members q ps n) new subs)
    (hdist : ∀ i ∈ counting canDelete (members q ps n) subs, ∀ j ∈ counting canDelete (members q ps n) subs, j ≠ i →
      upd j (formElem (members q ps n) new j) ≠ upd i (formElem (members q ps n) new i))
    (hnew : ∀ i d, subs[i]? = some d → canDelete = true → d.deleted = true → ∀ j ∈ counting canDelete (members q ps n) subs,
      upd j (formElem (members q ps n) new j) ≠ formElem (members q ps n) new i) :
    ∃ st st' n' n'', let update := docFormsetUpdate eng ctx xp e (.elem a) upd canDelete true (boundForms (members q ps n).length subs)
      update ⟨s, constructForm eng ctx xp (.elem a) new s⟩ = .ok st ∧ st.doc = s.modify a (fun _ => n') ∧ update st = .ok st' ∧ st'.doc = s.modify a (fun _ => n'') ∧
      saveFormset eng ctx xp e (.elem a) new upd canDelete true (members q ps n).length subs s = .ok st.doc ∧
      members q ps n'' = members q ps n' ∧ SameButMembers q ps n n' ∧ SameButMembers q ps n n'' := by
  obtain ⟨st, st', n', n'', h1, h2, h3, h4, h5, h6, h7, h8⟩ := update_twice heng hf hs new upd hm canDelete true subs
  obtain ⟨order, k1, -, -, k4⟩ := ordered_list hm canDelete subs hlen ha hdist
  refine ⟨st, st', n', n'', h1, h2, h3, h4, ?_, ?_, h7, h8⟩
  · unfold saveFormset
    rw [h1]; rfl
  · rw [h5, h6]
    refine ordered_twice hm canDelete subs hlen ha hdist rfl rfl (fun i d g1 g2 g3 m hmem => ?_)
    rw [k4] at hmem
    obtain ⟨j, hj, rfl⟩ := List.mem_map.1 hmem
    exact hnew i d g1 g2 g3 j (k1.mem_iff.1 hj)

end

/-! A document with two elements `a` and another one; a form sets the text of its element. -/

def textItem (t : Str) : Node := (Node.empty ⟨none, c%"a"⟩).setText (some t)
def formDoc : Node := bare.withChildren [textItem c%"1", Node.empty ⟨none, c%"b"⟩, textItem c%"2"]
def newItem : Node := Node.empty ⟨none, c%"a"⟩
/-- The forms set these texts. -/
def setTexts (ts : List Str) (i : Nat) (m : Node) : Node := m.setText (some ((ts[i]?).getD []))

theorem setTexts_idem (ts : List Str) (i : Nat) (m : Node) : setTexts ts i (setTexts ts i m) = setTexts ts i m := by cases m; rfl
theorem setTexts_steady (ts : List Str) (n : Node) : Steady ⟨none, c%"a"⟩ [] (members ⟨none, c%"a"⟩ [] n) newItem (setTexts ts) := by
  refine ⟨fun i => ?_, fun i => setTexts_idem ts i _⟩
  have : isMember ⟨none, c%"a"⟩ [] (formElem (members ⟨none, c%"a"⟩ [] n) newItem i) = true := by
    unfold formElem
    cases h : (members ⟨none, c%"a"⟩ [] n)[i]? with
    | none => rfl
    | some m => exact (List.mem_filter.1 (List.mem_of_getElem? h)).2
  generalize formElem (members ⟨none, c%"a"⟩ [] n) newItem i = c at this
  cases c; exact this

/-- The first element is deleted, the second one gets another text, and a third one is new: the elements are then "3" and "4". -/
example : ∃ n', saveFormset refEngine sampleCtx c%"a" (ast c%"a") (.elem []) newItem (setTexts [c%"1", c%"3", c%"4", c%"5"]) true false 2
      [⟨true, true, none⟩, ⟨true, false, none⟩, ⟨true, false, none⟩, ⟨false, false, none⟩] formDoc = .ok n' ∧
    members ⟨none, c%"a"⟩ [] n' = [textItem c%"3", textItem c%"4"] := by
  obtain ⟨n', h1, h2, -⟩ := C88_unordered refEngine_ok subField (s := formDoc) (n := formDoc) (a := []) rfl newItem (setTexts [c%"1", c%"3", c%"4", c%"5"]) (setTexts_steady _ _)
    true [⟨true, true, none⟩, ⟨true, false, none⟩, ⟨true, false, none⟩, ⟨false, false, none⟩] (by decide) (by
      intro i d hd _ hdl j m e hm he hne
      match i, hd with
      | 0, hd =>
        match j, hm with
        | 0, _ => exact absurd rfl hne
        | 1, hm =>
          simp [formDoc, members, bare] at he hm
          subst he
          simp only [Bool.false_eq_true, if_false]
          have hm2 : some m = some (textItem c%"2") := by rw [← hm]; decide
          rw [Option.some.inj hm2]
          decide
        | (k + 2), hm => exact absurd hm (by rw [List.getElem?_eq_none (by rw [show (members ⟨none, c%"a"⟩ [] formDoc).length = 2 by decide]; omega)]; simp)
      | 1, hd => injection hd with hd; subst hd; exact absurd hdl (by decide)
      | 2, hd => injection hd with hd; subst hd; exact absurd hdl (by decide)
      | 3, hd => injection hd with hd; subst hd; exact absurd hdl (by decide)
      | (k + 4), hd => simp at hd)
  exact ⟨_, h1, by rw [show (Node.modify [] (fun _ => n') formDoc) = n' from rfl, h2]; decide⟩

/-- By their order, the second one first; the first one and a new one have none. -/
example : ∃ n', saveFormset refEngine sampleCtx c%"a" (ast c%"a") (.elem []) newItem (setTexts [c%"1", c%"3", c%"4"]) true true 2
      [⟨false, false, none⟩, ⟨true, false, some 1⟩, ⟨true, false, none⟩] formDoc = .ok n' ∧ (members ⟨none, c%"a"⟩ [] n').length = 3 := by
  obtain ⟨n', order, h1, h2, -, -, h5, -⟩ := C88_ordered refEngine_ok subField (s := formDoc) (n := formDoc) (a := []) rfl newItem (setTexts [c%"1", c%"3", c%"4"]) (setTexts_steady _ _)
    true [⟨false, false, none⟩, ⟨true, false, some 1⟩, ⟨true, false, none⟩] (by decide) (by
      intro i d hd _ hdl
      match i, hd with
      | 0, hd => injection hd with hd; subst hd; exact absurd hdl (by decide)
      | 1, hd => injection hd with hd; subst hd; exact absurd hdl (by decide)
      | 2, hd => injection hd with hd; subst hd; exact absurd hdl (by decide)
      | (k + 3), hd => simp at hd) (by decide)
  refine ⟨_, h1, ?_⟩
  show (members _ _ n').length = 3
  rw [h5, List.length_map, h2.length_eq]
  decide

/-- Counterexample: the form was displayed without elements (INITIAL_FORMS is 0), and another user has added one since: the submitted new element overwrites it. -/
theorem C88_counterexample_stale :
    saveFormset refEngine sampleCtx c%"a" (ast c%"a") (.elem []) newItem (setTexts [c%"mine"]) true false 0 [⟨true, false, none⟩] (bare.withChildren [textItem c%"other"])
      = .ok (bare.withChildren [textItem c%"mine"]) := by decide +kernel

/-- Counterexample: two new forms of an ordered formset are filled in alike: one element is added. -/
theorem C88_counterexample_alike :
    saveFormset refEngine sampleCtx c%"a" (ast c%"a") (.elem []) newItem (setTexts [c%"x", c%"x"]) true true 0 [⟨true, false, some 1⟩, ⟨true, false, some 2⟩] bare
      = .ok (bare.withChildren [textItem c%"x"]) := by decide +kernel

/-- Counterexample: the first element, "1", is deleted, and the second one gets its text: the first update does so, and the second one, which follows `is_valid()`, removes
the remaining element. -/
theorem C88_counterexample_twice :
    let update := docFormsetUpdate refEngine sampleCtx c%"a" (ast c%"a") (.elem []) (setTexts [c%"1", c%"1"]) true false (boundForms 2 [⟨true, true, none⟩, ⟨true, false, none⟩])
    let doc := bare.withChildren [textItem c%"1", textItem c%"2"]
    let once := update ⟨doc, constructForm refEngine sampleCtx c%"a" (.elem []) newItem doc⟩
    (once.map FSt.doc) = .ok (bare.withChildren [textItem c%"1"]) ∧ ((once.bind update).map FSt.doc) = .ok bare := by decide +kernel

/-- Counterexample: of three elements "1", "2" and "1" the last one is deleted: "1" and "2" should remain, in this order. -/
theorem C88_counterexample_equal :
    saveFormset refEngine sampleCtx c%"a" (ast c%"a") (.elem []) newItem (setTexts [c%"1", c%"2", c%"1"]) true false 3 [⟨false, false, none⟩, ⟨false, false, none⟩, ⟨true, true, none⟩]
        (bare.withChildren [textItem c%"1", textItem c%"2", textItem c%"1"])
      = .ok (bare.withChildren [textItem c%"2", textItem c%"1"]) := by decide +kernel

end Props
