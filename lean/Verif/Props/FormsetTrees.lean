import Verif.Forms.FormsetTreesProofs
/-
Property C119: formsets whose forms have subforms, on the document.

Model: Verif/Forms/FormsetTrees.lean.
-/
namespace Props
open XPath Xml Spec Fields Forms Core Py

section
variable {A : Type}

mutual
/-- The forms are of one class: they have the same NodeFields, at any depth. -/
def FTree.Like (t t' : FTree A) : Prop := match t, t' with
  | .mk _ l, .mk _ l' => FSubs.Like l l'
def FSubs.Like (l l' : FSubs A) : Prop := match l, l' with
  | .nil, .nil => True
  | .cons h _ f rest, .cons h' _ f' rest' => h = h' ∧ FTree.Like f f' ∧ FSubs.Like rest rest'
  | .nil, .cons _ _ _ _ => False
  | .cons _ _ _ _, .nil => False
end

variable [PyUnicode] {eng : Engine}

mutual
theorem FTree.Like.init {t t' : FTree A} (h : FTree.Like t t') (a : Node.Addr) : initTree eng t a = initTree eng t' a := match t, t', h with
  | .mk _ l, .mk _ l', h => by
    rw [initTree, initTree]
    exact FSubs.Like.init h a
theorem FSubs.Like.init {l l' : FSubs A} (h : FSubs.Like l l') (a : Node.Addr) : initSubs eng l a = initSubs eng l' a := match l, l', h with
  | .nil, .nil, _ => rfl
  | .nil, .cons _ _ _ _, h => h.elim
  | .cons _ _ _ _, .nil, h => h.elim
  | .cons hp out f rest, .cons hp' out' f' rest', h => by
    obtain ⟨rfl, h2, h3⟩ := h
    have e2 := fun b => FTree.Like.init h2 b
    have e3 := FSubs.Like.init h3 a
    rw [initSubs, initSubs, e3]
    simp only [e2]
end

/-- The forms of a formset, `forms i` for each number `i`, fit the list field `[.child q ps]` and its members: each one is as in C85, with the data that were submitted for it, valid, and without a
schema; they are of one class; the attributes that the predicates of the list field compare are not fields of the forms; and the members, and the element of a new object, which has
to be one that the list field finds, fit the forms. -/
structure TreesFit (forms : Nat → FTree A) (q : QName) (ps : List Pred) (ms : List Node) (new : Node) : Prop where
  form : ∀ i, FTree.Ok (forms i)
  fresh : ∀ i, FTree.New (forms i)
  valid : ∀ i, FTree.AllValid (forms i)
  schema : ∀ i, FTree.NoSchema (forms i)
  alike : ∀ i, FTree.Like (forms i) (forms 0)
  preds : attrPreds [.child q ps] = true
  under : ∀ i j, pathOk (.child q ps :: ((FTree.own (forms i)).m.fs j).p) = true
  fits : ∀ i m, ms[i]? = some m → FTree.Fits (forms i) m
  fitsNew : ∀ i, FTree.Fits (forms i) new
  member : isMember q ps new = true

/-- The members after the forms have been made: the elements of the subforms are there. -/
def openMembers (eng : Engine) (forms : Nat → FTree A) (ms : List Node) : List Node := ms.mapIdx (fun i m => opened eng (forms i) m)

variable {ctx : Ctx} {xp : Str} {e : Expr} {q : QName} {ps : List Pred} {a : Node.Addr} {s n new : Node} {U : Nat → FTree A}

theorem openMembers_length (ms : List Node) : (openMembers eng U ms).length = ms.length := by simp [openMembers]

/-- What a form changes leaves the element a member of the list. -/
theorem frame_member {t : FTree A} (ht : FTree.Ok t) (hp : attrPreds [.child q ps] = true) (hu : ∀ j, pathOk (.child q ps :: ((FTree.own t).m.fs j).p) = true)
    (hq : Spec.good [.child q ps] = true) {m m' : Node} (hfr : Frame (FTree.Paths t) m m') (hm : isMember q ps m = true) : isMember q ps m' = true := by
  obtain ⟨o, l⟩ := t
  have hl : lastOk [.child q ps] m' := by
    refine lastOk_keep (p := [.child q ps]) (by simp) rfl hq hfr.tag ?_ (show lastOk [.child q ps] m from hm)
    intro x hx
    refine hfr.attr x ?_
    rintro r (⟨i, hr⟩ | hr)
    · have hfi := ht.1.field i
      refine hx r ?_
      have hr : Step.attr x :: r = (o.m.fs i).p := hr
      rw [hr]
      refine good_of (hu i) ?_ ?_
      · have h2 : attrPreds (o.m.fs i).p = true := hfi.preds
        unfold attrPreds at hp h2 ⊢
        rw [List.singleton_append, List.all_cons, h2, Bool.and_true]
        simpa using hp
      · rw [List.getLast?_append_of_ne_nil _ (ne_nil_of_field hfi.simple)]
        exact hfi.noText
    · have := (FSubs.Ok.has ht.2 hr).2.1
      simp [allChild] at this
  exact hl

theorem opened_like {t t' : FTree A} (h : FTree.Like t t') (m : Node) : opened eng t m = opened eng t' m := by
  unfold opened
  rw [FTree.Like.init h]

/-- The elements that the forms begin with, once they have been made. -/
theorem formElem_open (h : ∀ i, FTree.Like (U i) (U 0)) (ms : List Node) (i : Nat) :
    formElem (openMembers eng U ms) (opened eng (U 0) new) i = opened eng (U i) (formElem ms new i) := by
  unfold formElem openMembers
  rw [List.getElem?_mapIdx]
  cases ms[i]? with
  | none => exact (opened_like (h i) new).symm
  | some m => rfl

/-- The forms as they are made, one after the other. -/
def openedTo (eng : Engine) (U : Nat → FTree A) (ms : List Node) (new : Node) (k : Nat) : Elems Nat Node :=
  ⟨List.range ms.length, fun i => if i < k ∨ ms.length ≤ i then formElem (openMembers eng U ms) (opened eng (U 0) new) i else formElem ms new i⟩

theorem openForms_run (heng : EngineOk eng) (hf : SimpleField ctx xp e [.child q ps]) (hs : s.get a = some n) (hfit : TreesFit U q ps (members q ps n) new) :
    ∀ (m k : Nat) (ts : TSt A), ts.forms = U → Sim q ps a s n ts.st (openedTo eng U (members q ps n) new k) →
      ∃ ts', openForms eng ctx xp (.elem a) new ts (List.range' k m) = .ok ts' ∧ ts'.forms = U ∧ Sim q ps a s n ts'.st (openedTo eng U (members q ps n) new (k + m)) := by
  intro m
  induction m with
  | zero => intro k ts h1 h2; exact ⟨ts, rfl, h1, h2⟩
  | succ m ih =>
    intro k ts h1 h2
    obtain ⟨ax, t, es, rfl⟩ := res_single hf.path
    have hq := good_step hf hfit.preds
    have hel := formElem_open (eng := eng) (new := new) hfit.alike (members q ps n)
    have hfk : FTree.Fits (U k) (formElem (members q ps n) new k) := by
      unfold formElem
      cases hk : (members q ps n)[k]? with
      | none => exact hfit.fitsNew k
      | some x => exact hfit.fits k x hk
    have hmk : isMember q ps (formElem (members q ps n) new k) = true := by
      unfold formElem
      cases hk : (members q ps n)[k]? with
      | none => exact hfit.member
      | some x => exact (List.mem_filter.1 (List.mem_of_getElem? hk)).2
    obtain ⟨r1, -, -, r4⟩ := first_run heng (hfit.form k) (hfit.fresh k) hfk (hfit.valid k) (hfit.schema k)
    rw [List.range'_succ]
    by_cases hk : k < (members q ps n).length
    · have hmem : k ∈ (openedTo eng U (members q ps n) new k).list := List.mem_range.2 hk
      have hinst : ts.st.inst k = .member k := h2.there k k (by simp [openedTo, hk])
      have hcont : (openedTo eng U (members q ps n) new k).content k = formElem (members q ps n) new k := by
        show (if k < k ∨ (members q ps n).length ≤ k then _ else _) = _
        rw [if_neg (by omega)]
      have he := sim_elem heng hf.parse hf.path hs h2 k
      rw [hcont] at he
      obtain ⟨st', p1, p2⟩ := put_const heng hf.parse hf.path hs h2 k (opened eng (U k) (formElem (members q ps n) new k)) (frame_member (hfit.form k) hfit.preds (hfit.under k) hq r4 hmk)
      have hnext : (openedTo eng U (members q ps n) new k).update (fun _ _ => opened eng (U k) (formElem (members q ps n) new k)) k = openedTo eng U (members q ps n) new (k + 1) := by
        unfold Elems.update openedTo
        congr 1
        funext j
        by_cases hj : j = k
        · subst hj
          rw [if_pos rfl, if_pos (by omega), hel]
        · rw [if_neg hj]
          show (if j < k ∨ (members q ps n).length ≤ j then _ else _) = _
          by_cases hj2 : j < k ∨ (members q ps n).length ≤ j
          · rw [if_pos hj2, if_pos (by omega)]
          · rw [if_neg hj2, if_neg (by omega)]
      have hsim := p2 (fun _ _ => opened eng (U k) (formElem (members q ps n) new k)) rfl
      rw [hnext] at hsim
      obtain ⟨ts', q1, q2, q3⟩ := ih (k + 1) ⟨st', ts.forms⟩ h1 hsim
      refine ⟨ts', ?_, q2, by rw [show k + (m + 1) = k + 1 + m by omega]; exact q3⟩
      rw [openForms]
      simp only [hinst, he, h1]
      have e1 : initTree eng (U k) [] (formElem (members q ps n) new k) = (.ok (), opened eng (U k) (formElem (members q ps n) new k)) := Prod.ext r1 rfl
      simp only [e1, p1]
      rw [h1] at q1
      exact q1
    · have hinst := h2.away k (by simpa [openedTo] using Nat.le_of_not_lt hk)
      have hnew : formElem (members q ps n) new k = new := by simp [formElem, List.getElem?_eq_none (Nat.le_of_not_lt hk)]
      rw [hnew] at r1
      have hnext : openedTo eng U (members q ps n) new k = openedTo eng U (members q ps n) new (k + 1) := by
        unfold openedTo
        congr 1
        funext j
        by_cases hj2 : j < k ∨ (members q ps n).length ≤ j
        · rw [if_pos hj2, if_pos (by omega)]
        · rw [if_neg hj2, if_neg (by omega)]
      rw [hnext] at h2
      obtain ⟨ts', q1, q2, q3⟩ := ih (k + 1) ts h1 h2
      refine ⟨ts', ?_, q2, by rw [show k + (m + 1) = k + 1 + m by omega]; exact q3⟩
      rw [openForms]
      have e1 : initTree eng (U k) [] new = (.ok (), opened eng (U k) new) := Prod.ext r1 rfl
      simp only [hinst, h1, e1]
      exact q1

/-- All the forms are made. -/
theorem open_all (heng : EngineOk eng) (hf : SimpleField ctx xp e [.child q ps]) (hs : s.get a = some n) (hfit : TreesFit U q ps (members q ps n) new) (N : Nat)
    (hN : (members q ps n).length ≤ N) : ∃ ts, openForms eng ctx xp (.elem a) new ⟨⟨s, openHandle eng ctx xp (.elem a) new U s⟩, U⟩ (List.range N) = .ok ts ∧ ts.forms = U ∧
      Sim q ps a s n ts.st (startElems (openMembers eng U (members q ps n)) (opened eng (U 0) new)) := by
  have hopen : openHandle eng ctx xp (.elem a) new U s = constructForm eng ctx xp (.elem a) (opened eng (U 0) new) s := by
    funext i
    unfold openHandle constructForm
    rw [opened_like (hfit.alike i)]
    rfl
  have h0 := start_sim heng hf hs (opened eng (U 0) new)
  rw [← hopen] at h0
  have e0 : startElems (members q ps n) (opened eng (U 0) new) = openedTo eng U (members q ps n) new 0 := by
    unfold startElems openedTo
    congr 1
    funext j
    by_cases hj : (members q ps n).length ≤ j
    · rw [if_pos (by omega)]
      unfold formElem openMembers
      rw [List.getElem?_eq_none hj, List.getElem?_eq_none (by simpa using hj)]
    · rw [if_neg (by omega)]
      unfold formElem
      rw [List.getElem?_eq_getElem (by omega)]
      rfl
  rw [e0] at h0
  obtain ⟨ts, h1, h2, h3⟩ := openForms_run heng hf hs hfit N 0 ⟨⟨s, openHandle eng ctx xp (.elem a) new U s⟩, U⟩ rfl h0
  refine ⟨ts, by rw [List.range_eq_range']; exact h1, h2, ?_⟩
  have e1 : startElems (openMembers eng U (members q ps n)) (opened eng (U 0) new) = openedTo eng U (members q ps n) new (0 + N) := by
    unfold startElems openedTo
    rw [openMembers_length]
    congr 1
    funext j
    rw [if_pos (by omega)]
  rw [e1]
  exact h3

/-- What the forms do, one by one. -/
theorem trees_runs (heng : EngineOk eng) (hf : SimpleField ctx xp e [.child q ps]) (hfit : TreesFit U q ps (members q ps n) new) (R : Nat → Prop) :
    ∃ saved : Nat → Node, FirstRuns eng q ps U (formElem (openMembers eng U (members q ps n)) (opened eng (U 0) new)) saved R ∧
      ∀ i, FTree.Saved (U i) (formElem (members q ps n) new i) (saved i) := by
  classical
  have hq := good_step hf hfit.preds
  have key : ∀ i, ∃ sv, isMember q ps sv = true ∧ FTree.Saved (U i) (formElem (members q ps n) new i) sv ∧
      (R i → ∃ t', validTree eng (U i) [] (opened eng (U i) (formElem (members q ps n) new i)) = (.ok true, t', sv) ∧ Settled t' sv) ∧
      (¬ R i → ∃ t', updateTree eng (U i) [] (opened eng (U i) (formElem (members q ps n) new i)) = (.ok (), t', sv) ∧ Settled t' sv) := by
    intro i
    have hfk : FTree.Fits (U i) (formElem (members q ps n) new i) := by
      unfold formElem
      cases hk : (members q ps n)[i]? with
      | none => exact hfit.fitsNew i
      | some x => exact hfit.fits i x hk
    have hmk : isMember q ps (formElem (members q ps n) new i) = true := by
      unfold formElem
      cases hk : (members q ps n)[i]? with
      | none => exact hfit.member
      | some x => exact (List.mem_filter.1 (List.mem_of_getElem? hk)).2
    obtain ⟨-, ⟨tu, nu, u1, u2, u3, u4⟩, ⟨tv, nv, v1, v2, v3, v4⟩, -⟩ := first_run heng (hfit.form i) (hfit.fresh i) hfk (hfit.valid i) (hfit.schema i)
    by_cases hR : R i
    · exact ⟨nv, frame_member (hfit.form i) hfit.preds (hfit.under i) hq v4 hmk, v3, fun _ => ⟨tv, v1, v2⟩, fun h => absurd hR h⟩
    · exact ⟨nu, frame_member (hfit.form i) hfit.preds (hfit.under i) hq u4 hmk, u3, fun h => absurd h hR, fun _ => ⟨tu, u1, u2⟩⟩
  choose sv k1 k2 k3 k4 using key
  refine ⟨sv, ⟨k1, fun i hi => ?_, fun i hi => ?_⟩, k2⟩
  · rw [formElem_open hfit.alike]; exact k3 i hi
  · rw [formElem_open hfit.alike]; exact k4 i hi

/-- The whole run, in terms of the abstract formset. -/
theorem saveTrees_run (heng : EngineOk eng) (hf : SimpleField ctx xp e [.child q ps]) (hs : s.get a = some n) (hfit : TreesFit U q ps (members q ps n) new)
    (canDelete canOrder : Bool) (subs : List Submitted) (hlen : (members q ps n).length ≤ subs.length) :
    ∃ saved : Nat → Node, (∀ i, FTree.Saved (U i) (formElem (members q ps n) new i) (saved i)) ∧
      let op := formElem (openMembers eng U (members q ps n)) (opened eng (U 0) new)
      Steady q ps (openMembers eng U (members q ps n)) (opened eng (U 0) new) (onceUpd op saved) ∧ (∀ i, onceUpd op saved i (op i) = saved i) ∧
      let el := formsetUpdate (onceUpd op saved) canDelete canOrder (boundForms (members q ps n).length subs) (startElems (openMembers eng U (members q ps n)) (opened eng (U 0) new))
      ∃ n', saveTreeFormset eng ctx xp e (.elem a) new U canDelete canOrder (members q ps n).length subs s = .ok (s.modify a (fun _ => n')) ∧
        members q ps n' = el.list.map el.content ∧ SameButMembers q ps n n' := by
  obtain ⟨saved, hF, hsv⟩ := trees_runs heng hf hfit (fun j => ∃ f ∈ remainingForms canDelete (boundForms (members q ps n).length subs), f.inst = j)
  refine ⟨saved, hsv, ⟨fun i => by rw [once_op]; exact hF.member i, fun i => by rw [once_op, once_sv]⟩, fun i => once_op _ _ i, ?_⟩
  obtain ⟨ts, h1, h2, h3⟩ := open_all heng hf hs hfit subs.length hlen
  obtain ⟨ax, t, es, rfl⟩ := res_single hf.path
  obtain ⟨ts', k1, k2⟩ := tree_formset heng hf.parse hf.path hs hF (pathOk_single hf.ok) canDelete canOrder (boundForms (members q ps n).length subs)
    (fun j => Iff.rfl) h3 (fun j => .inl ⟨by rw [h2], rfl⟩)
  obtain ⟨n', l1, l2, l3⟩ := k2.doc
  refine ⟨n', ?_, l2, l3⟩
  unfold saveTreeFormset
  simp only [h1, k1, l1]

omit [PyUnicode] in
theorem kept_length (g : Nat → Node) (cd : Bool) (subs : List Submitted) {ms ms' : List Node} (h : ms.length = ms'.length) :
    keptMembers (fun i _ => g i) cd ms subs = keptMembers (fun i _ => g i) cd ms' subs := by
  unfold keptMembers
  have key : ∀ (ms ms' : List Node) (subs : List Submitted) (k : Nat), ms.length = ms'.length →
      (((ms.zip subs).zipIdx k).filter (fun x => !(cd && x.1.2.deleted))).map (fun x => g x.2) = (((ms'.zip subs).zipIdx k).filter (fun x => !(cd && x.1.2.deleted))).map (fun x => g x.2) := by
    intro ms
    induction ms with
    | nil => intro ms' subs k h; cases ms' with
      | nil => rfl
      | cons => simp at h
    | cons m ms ih =>
      intro ms' subs k h
      cases ms' with
      | nil => simp at h
      | cons m' ms' =>
        cases subs with
        | nil => simp
        | cons d subs =>
          have := ih ms' subs (k + 1) (by simpa using h)
          simp only [List.zip_cons_cons, List.zipIdx_cons, List.filter_cons]
          split_ifs
          · simp only [List.map_cons, this]
          · exact this
  exact key ms ms' subs 0 h

/-- C119.  A formset whose forms have subforms, without order: each form is saved on its element with all its subforms as in C85; the members of the list are then those whose
forms are not marked for deletion, in order, and behind them one new element for each changed additional form; nothing else in the document changes.  No element of a form marked
for deletion may be like another member. -/
theorem C119_unordered (heng : EngineOk eng) (hf : SimpleField ctx xp e [.child q ps]) (hs : s.get a = some n) (new : Node) (forms : Nat → FTree A)
    (hfit : TreesFit forms q ps (members q ps n) new) (canDelete : Bool) (subs : List Submitted) (hlen : (members q ps n).length ≤ subs.length) :
    ∃ saved : Nat → Node,
      (∀ i, FTree.Saved (forms i) (formElem (members q ps n) new i) (saved i)) ∧
      (Apart (fun i _ => saved i) canDelete (openMembers eng forms (members q ps n)) (opened eng (forms 0) new) subs → ∃ n' : Node,
        saveTreeFormset eng ctx xp e (.elem a) new forms canDelete false (members q ps n).length subs s = .ok (s.modify a (fun _ => n')) ∧
        members q ps n' = keptMembers (fun i _ => saved i) canDelete (members q ps n) subs ++ newMembers (fun i _ => saved i) new (members q ps n) subs ∧ SameButMembers q ps n n') := by
  obtain ⟨saved, h1, h2, h3, n', h4, h5, h6⟩ := saveTrees_run heng hf hs hfit canDelete false subs hlen
  have hfun : (fun (i : Nat) (_ : Node) => onceUpd (formElem (openMembers eng forms (members q ps n)) (opened eng (forms 0) new)) saved i (formElem (openMembers eng forms (members q ps n)) (opened eng (forms 0) new) i))
      = fun i _ => saved i := by
    funext i _
    exact h3 i
  refine ⟨saved, h1, fun ha => ⟨n', h4, ?_, h6⟩⟩
  have hl := unordered_list h2 canDelete subs (by rw [openMembers_length]; exact hlen) (apart_saved (by rw [hfun]; exact ha))
  rw [openMembers_length] at hl
  rw [h5, hl, kept_saved _ _ _ (opened eng (forms 0) new), new_saved, hfun]
  rw [kept_length saved canDelete subs (openMembers_length (eng := eng) (U := forms) (members q ps n))]
  unfold newMembers
  rw [openMembers_length]

/-- C119.  A formset whose forms have subforms, with order: each form is saved on its element with all its subforms as in C85; the members of the list are then the elements of the forms
that count, by increasing order, those without order last, and those with the same order as in the formset; nothing else in the document changes.  All these elements have to be
different. -/
theorem C119_ordered (heng : EngineOk eng) (hf : SimpleField ctx xp e [.child q ps]) (hs : s.get a = some n) (new : Node) (forms : Nat → FTree A)
    (hfit : TreesFit forms q ps (members q ps n) new) (canDelete : Bool) (subs : List Submitted) (hlen : (members q ps n).length ≤ subs.length) :
    ∃ saved : Nat → Node,
      (∀ i, FTree.Saved (forms i) (formElem (members q ps n) new i) (saved i)) ∧
      (Apart (fun i _ => saved i) canDelete (openMembers eng forms (members q ps n)) (opened eng (forms 0) new) subs →
        (∀ i ∈ counting canDelete (members q ps n) subs, ∀ j ∈ counting canDelete (members q ps n) subs, j ≠ i → saved j ≠ saved i) → ∃ (n' : Node) (order : List Nat),
        saveTreeFormset eng ctx xp e (.elem a) new forms canDelete true (members q ps n).length subs s = .ok (s.modify a (fun _ => n')) ∧
        order.Perm (counting canDelete (members q ps n) subs) ∧ order.Pairwise (OrderedBy subs) ∧
        (∀ i j d e, [i, j].Sublist (counting canDelete (members q ps n) subs) → subs[i]? = some d → subs[j]? = some e → d.order = e.order → [i, j].Sublist order) ∧
        members q ps n' = order.map saved ∧ SameButMembers q ps n n') := by
  obtain ⟨saved, h1, h2, h3, n', h4, h5, h6⟩ := saveTrees_run heng hf hs hfit canDelete true subs hlen
  have hfun : (fun (i : Nat) (_ : Node) => onceUpd (formElem (openMembers eng forms (members q ps n)) (opened eng (forms 0) new)) saved i (formElem (openMembers eng forms (members q ps n)) (opened eng (forms 0) new) i))
      = fun i _ => saved i := by
    funext i _
    exact h3 i
  refine ⟨saved, h1, fun ha hdist => ?_⟩
  have hcount : counting canDelete (openMembers eng forms (members q ps n)) subs = counting canDelete (members q ps n) subs := by
    unfold counting
    rw [openMembers_length]
  obtain ⟨order, o1, o2, o3, o4⟩ := ordered_list h2 canDelete subs (by rw [openMembers_length]; exact hlen) (apart_saved (by rw [hfun]; exact ha))
    (by rw [hcount]; intro i hi j hj hne; rw [h3, h3]; exact hdist i hi j hj hne)
  rw [hcount] at o1 o3
  rw [openMembers_length] at o4
  refine ⟨n', order, h4, o1, o2, o3, ?_, h6⟩
  rw [h5, o4]
  exact List.map_congr_left (fun i _ => h3 i)

end

/-! ### an example

People with a family name and a role, which is an object of its own; the first one is deleted, the second one gets another name and another role, and a third one is new. -/

/-- ```
class Role(XmlObject): roleTerm        class Person(XmlObject): family, role (NodeField)
```
The form for a person, with these values. -/
def personForm (v r : Str) : FTree Plain2 := .mk (oneForm c%"family" v) (.cons (oneHop c%"role") none (.mk (oneForm c%"roleTerm" r) .nil) .nil)

theorem personForm_ok (v r : Str) (hv : xmlOk v = true) (hr : xmlOk r = true) : FTree.Ok (personForm v r) := by
  refine ⟨oneForm_ok _ _ ⟨⟨by decide, by rfl, by decide, by decide⟩, by decide, by intro h; cases h⟩ (by decide) hv,
    ⟨⟨by decide, by rfl, by decide, by decide⟩, rfl, rfl⟩, ?_, (by rintro q ⟨⟩), fun _ => by rfl,
    ⟨oneForm_ok _ _ ⟨⟨by decide, by rfl, by decide, by decide⟩, by decide, by intro h; cases h⟩ (by decide) hr, trivial⟩, trivial⟩
  rintro q ⟨i, rfl⟩
  exact .inl (C69_apart_names (by decide) _ _)

def leafElem (x v : Str) : Node := (Node.empty ⟨none, x⟩).setText (some v)
def roleElem (r : Str) : Node := (Node.empty ⟨none, c%"role"⟩).withChildren [leafElem c%"roleTerm" r]
def fullPerson (v r : Str) : Node := newItem.withChildren [leafElem c%"family" v, roleElem r]
def castDoc : Node := bare.withChildren [person c%"Doe", Node.empty ⟨none, c%"b"⟩, fullPerson c%"Poe" c%"cook"]
def castForms (i : Nat) : FTree Plain2 := match i with
  | 0 => personForm c%"Doe" []
  | 1 => personForm c%"Roe" c%"king"
  | 2 => personForm c%"Moe" c%"poet"
  | _ => personForm [] []

theorem castForms_are (i : Nat) : ∃ v r, xmlOk v = true ∧ xmlOk r = true ∧ castForms i = personForm v r := by
  match i with
  | 0 => exact ⟨_, _, by decide, by decide, rfl⟩
  | 1 => exact ⟨_, _, by decide, by decide, rfl⟩
  | 2 => exact ⟨_, _, by decide, by decide, rfl⟩
  | _ + 3 => exact ⟨_, _, by decide, by decide, rfl⟩

theorem cast_fit : TreesFit castForms ⟨none, c%"a"⟩ [] (members ⟨none, c%"a"⟩ [] castDoc) newItem where
  form := fun i => by obtain ⟨v, r, h1, h2, h3⟩ := castForms_are i; rw [h3]; exact personForm_ok v r h1 h2
  fresh := fun i => by obtain ⟨v, r, h1, h2, h3⟩ := castForms_are i; rw [h3]; exact ⟨rfl, trivial, trivial⟩
  valid := fun i => by obtain ⟨v, r, h1, h2, h3⟩ := castForms_are i; rw [h3]; exact ⟨rfl, ⟨rfl, trivial⟩, trivial⟩
  schema := fun i => by obtain ⟨v, r, h1, h2, h3⟩ := castForms_are i; rw [h3]; exact ⟨fun _ => rfl, ⟨fun _ => rfl, trivial⟩, trivial⟩
  alike := fun i => by obtain ⟨v, r, h1, h2, h3⟩ := castForms_are i; rw [h3]; exact ⟨rfl, trivial, trivial⟩
  preds := rfl
  under := fun i j => by obtain ⟨v, r, h1, h2, h3⟩ := castForms_are i; revert j; rw [h3]; intro j; rfl
  fits := by
    intro i m hm
    have hm : [person c%"Doe", fullPerson c%"Poe" c%"cook"][i]? = some m := hm
    have hsi : (Step.matches [.child ⟨none, c%"role"⟩ []] m).length ≤ 1 → Single [.child ⟨none, c%"role"⟩ []] m := by
      intro h k
      match k with
      | 0 => exact Nat.le_refl 1
      | k + 1 => simpa using h
    match i, hm with
    | 0, hm =>
      cases hm
      refine ⟨C69_tidy_check _ _ (fun _ => by rfl), hsi (by decide), ?_, trivial⟩
      intro m h; have h : (none : Option Node) = some m := h; cases h
    | 1, hm =>
      cases hm
      refine ⟨C69_tidy_check _ _ (fun _ => by rfl), hsi (by decide), ?_, trivial⟩
      intro m h
      have h : some (roleElem c%"cook") = some m := h
      cases h
      exact ⟨C69_tidy_check _ _ (fun _ => by rfl), trivial⟩
    | _ + 2, hm => cases hm
  fitsNew := by
    intro i
    obtain ⟨v, r, h1, h2, h3⟩ := castForms_are i
    rw [h3]
    refine ⟨C69_tidy_check _ _ (fun _ => by rfl), ?_, ?_, trivial⟩
    · intro k
      match k with
      | 0 => exact Nat.le_refl 1
      | k + 1 => exact Nat.zero_le 1
    · intro m h; have h : (none : Option Node) = some m := h; cases h
  member := rfl

/-- Each form is saved, with its subform, and the members are the updated second one and the new one. -/
example : ∃ saved : Nat → Node, (∀ i, FTree.Saved (castForms i) (formElem (members ⟨none, c%"a"⟩ [] castDoc) newItem i) (saved i)) ∧
    (saved 1 ≠ (person c%"Doe").withChildren [leafElem c%"family" c%"Doe", Node.empty ⟨none, c%"role"⟩] →
      ∃ n', saveTreeFormset refEngine sampleCtx c%"a" (ast c%"a") (.elem []) newItem castForms true false 2
      [⟨true, true, none⟩, ⟨true, false, none⟩, ⟨true, false, none⟩] castDoc = .ok n' ∧ members ⟨none, c%"a"⟩ [] n' = [saved 1, saved 2]) := by
  obtain ⟨saved, h1, h3⟩ := C119_unordered refEngine_ok subField (s := castDoc) (n := castDoc) (a := []) rfl newItem castForms cast_fit
    true [⟨true, true, none⟩, ⟨true, false, none⟩, ⟨true, false, none⟩] (by decide)
  refine ⟨saved, h1, fun hne => ?_⟩
  obtain ⟨n', k1, k2, -⟩ := h3 (by
    intro i d hd _ hdl j m e hm he hji
    match i, hd with
    | 0, hd =>
      match j, hm, he with
      | 0, _, _ => exact absurd rfl hji
      | 1, hm, he =>
        injection he with he
        subst he
        have : formElem (openMembers refEngine castForms (members ⟨none, c%"a"⟩ [] castDoc)) (opened refEngine (castForms 0) newItem) 0 =
          (person c%"Doe").withChildren [leafElem c%"family" c%"Doe", Node.empty ⟨none, c%"role"⟩] := by decide +kernel
        rw [this]
        exact hne
      | 2, hm, he =>
        rw [List.getElem?_eq_none (by rw [openMembers_length]; decide)] at hm
        cases hm
      | (k + 3), _, he => cases he
    | 1, hd => injection hd with hd; subst hd; exact absurd hdl (by decide)
    | 2, hd => injection hd with hd; subst hd; exact absurd hdl (by decide)
    | (k + 3), hd => simp at hd)
  exact ⟨n', k1, k2⟩

/-- The new person: the element of the subform is made first. -/
def newPerson : Node := newItem.withChildren [roleElem c%"poet", leafElem c%"family" c%"Moe"]

/-- Evaluated. -/
example : saveTreeFormset refEngine sampleCtx c%"a" (ast c%"a") (.elem []) newItem castForms true false 2
      [⟨true, true, none⟩, ⟨true, false, none⟩, ⟨true, false, none⟩] castDoc
    = .ok (bare.withChildren [Node.empty ⟨none, c%"b"⟩, fullPerson c%"Roe" c%"king", newPerson]) := by decide +kernel

/-- Evaluated, with order: the new one first. -/
example : saveTreeFormset refEngine sampleCtx c%"a" (ast c%"a") (.elem []) newItem castForms true true 2
      [⟨true, true, none⟩, ⟨true, false, some 2⟩, ⟨true, false, some 1⟩] castDoc
    = .ok (bare.withChildren [Node.empty ⟨none, c%"b"⟩, newPerson, fullPerson c%"Roe" c%"king"]) := by decide +kernel

/-- Counterexample: data submitted only for the subform of an additional form.  Django takes the form as unchanged, since only its own fields count, and the data are lost, although
every form is valid. -/
theorem C119_counterexample_subform_only :
    TreesFit (fun _ => personForm [] c%"poet") ⟨none, c%"a"⟩ [] (members ⟨none, c%"a"⟩ [] bare) newItem ∧
    saveTreeFormset refEngine sampleCtx c%"a" (ast c%"a") (.elem []) newItem (fun _ => personForm [] c%"poet") true false 0 [⟨false, false, none⟩] bare = .ok bare := by
  refine ⟨⟨fun _ => personForm_ok _ _ (by decide) (by decide), fun _ => ⟨rfl, trivial, trivial⟩, fun _ => ⟨rfl, ⟨rfl, trivial⟩, trivial⟩,
    fun _ => ⟨fun _ => rfl, ⟨fun _ => rfl, trivial⟩, trivial⟩, fun _ => ⟨rfl, trivial, trivial⟩, rfl, fun _ _ => by rfl, fun i m hm => ?_, fun i => ?_, rfl⟩, by decide +kernel⟩
  · have hm : ([] : List Node)[i]? = some m := hm
    cases hm
  · refine ⟨C69_tidy_check _ _ (fun _ => by rfl), ?_, ?_, trivial⟩
    · intro k
      match k with
      | 0 => exact Nat.le_refl 1
      | k + 1 => exact Nat.zero_le 1
    · intro m h; have h : (none : Option Node) = some m := h; cases h

/-- Counterexample: a formset that is made, and not used, changes the members of the list: each gets the elements of the subforms. -/
theorem C119_counterexample_opened : ∃ ts, openForms refEngine sampleCtx c%"a" (.elem []) newItem
      ⟨⟨people, openHandle refEngine sampleCtx c%"a" (.elem []) newItem castForms people⟩, castForms⟩ (List.range 2) = .ok ts ∧ ts.st.doc ≠ people ∧
    members ⟨none, c%"a"⟩ [] ts.st.doc = [newItem.withChildren [leafElem c%"family" c%"Doe", Node.empty ⟨none, c%"role"⟩],
      newItem.withChildren [leafElem c%"family" c%"Poe", Node.empty ⟨none, c%"role"⟩]] := by
  have hx : ∃ ts, openForms refEngine sampleCtx c%"a" (.elem []) newItem
      ⟨⟨people, openHandle refEngine sampleCtx c%"a" (.elem []) newItem castForms people⟩, castForms⟩ (List.range 2) = .ok ts ∧
      ts.st.doc = bare.withChildren [newItem.withChildren [leafElem c%"family" c%"Doe", Node.empty ⟨none, c%"role"⟩], Node.empty ⟨none, c%"b"⟩,
        newItem.withChildren [leafElem c%"family" c%"Poe", Node.empty ⟨none, c%"role"⟩]] := by
    exact ⟨_, by rfl, by decide +kernel⟩
  obtain ⟨ts, h1, h2⟩ := hx
  exact ⟨ts, h1, by rw [h2]; decide, by rw [h2]; decide⟩

end Props
