import Verif.Forms.FormsetForms
import Verif.Props.FormsetDoc
import Verif.Props.FormTree
/-
Property C89: formsets of forms, on the document.

Model: Verif/Forms/FormsetForms.lean.
-/
namespace Props
open XPath Xml Spec Fields Forms Core Py

section
variable [PyUnicode] {eng : Engine} {A : Type} {ctx : Ctx} {xp : Str} {e : Expr} {q : QName} {ps : List Pred} {a : Node.Addr} {s n : Node}

/-- The forms of a formset fit the list field `[.child q ps]` and its members: each one is as in C85, with the data that were submitted for it; the attributes that the
predicates of the list field compare are not fields of the forms; and the members, and the element of a new object, which has to be one that the list field finds, have
at most one value for each field. -/
structure FormsFit (o : Forms.Own A) (data : List (Dict Str (CVal A))) (q : QName) (ps : List Pred) (ms : List Node) (new : Node) : Prop where
  form : ∀ d ∈ data, OwnOk { o with cleaned := some d }
  preds : attrPreds [.child q ps] = true
  under : ∀ i, pathOk (.child q ps :: (o.m.fs i).p) = true
  tidy : ∀ m ∈ ms, Tidy o.m.fs m
  tidyNew : Tidy o.m.fs new
  member : isMember q ps new = true

theorem okc_isMember (q : QName) (ps : List Pred) (m : Node) : okc q ps m = isMember q ps m := rfl

/-- A form updates an element: it is saved there, the element is still a member of the list, and a second update changes nothing. -/
theorem formUpd_run (heng : EngineOk eng) {o : Forms.Own A} {d : Dict Str (CVal A)} (ho : OwnOk { o with cleaned := some d }) (hp : attrPreds [.child q ps] = true)
    (hu : ∀ i, pathOk (.child q ps :: (o.m.fs i).p) = true) {m : Node} (ht : Tidy o.m.fs m) (hm : isMember q ps m = true) (hq : Spec.good [.child q ps] = true) :
    ∃ t' m', updateTree eng (formOf o d) [] m = (.ok (), t', m') ∧ FTree.Saved (formOf o d) m m' ∧ isMember q ps m' = true ∧
      ∃ t'', updateTree eng (formOf o d) [] m' = (.ok (), t'', m') := by
  have hok : FTree.Ok (formOf o d) := ⟨ho, trivial⟩
  have hfit : FTree.Fit (formOf o d) m := FTree.Fits.fit hok ⟨ht, trivial⟩
  have hinv : FTree.Inv (formOf o d) m := ⟨hfit.1, trivial⟩
  obtain ⟨c', m', r1, r2, r3, r4, r5, -⟩ := own_run heng ho (o := { o with cleaned := some d }) rfl (a := []) (s := m) (n := m) rfl hfit.1
  have hrun : updateTree eng (formOf o d) [] m = (.ok (), .mk { o with cleaned := some c' } .nil, m') := by
    unfold formOf
    rw [updateTree]
    simp only [r1]
    rw [updateTrees]
    rfl
  obtain ⟨t', n', u1, u2, u3, u4, u5, -⟩ := updateTree_run heng (formOf o d) hok (a := []) (s := m) (n := m) rfl hinv
  have e1 : n' = m' ∧ t' = .mk { o with cleaned := some c' } .nil := by
    rw [hrun] at u1
    injection u1 with _ u1
    injection u1 with u1 u1'
    exact ⟨u1'.symm, u1.symm⟩
  obtain ⟨rfl, rfl⟩ := e1
  obtain ⟨c'', n'', w1, w2, w3, w4, w5, w6⟩ := own_run heng ho (o := { o with cleaned := some d }) rfl (a := []) (s := n') (n := n') rfl r2
  obtain rfl := w6 r4
  refine ⟨_, n'', hrun, saved_of hok trivial hfit ⟨fun _ => rfl, Frame.refl _ _, trivial⟩ u5 u3 u4, ?_, .mk { o with cleaned := some c'' } .nil, ?_⟩
  · have hl : lastOk [.child q ps] n'' := by
      refine lastOk_keep (p := [.child q ps]) (by simp) rfl hq r3.tag ?_ (show lastOk [.child q ps] m from hm)
      intro t ht'
      refine r3.attr t ?_
      rintro r ⟨i, v, -, hr⟩
      have hfi := ho.field i
      refine ht' r ?_
      rw [hr]
      refine good_of (hu i) ?_ ?_
      · have h2 : attrPreds (o.m.fs i).p = true := hfi.preds
        unfold attrPreds at hp h2 ⊢
        rw [List.singleton_append, List.all_cons, h2, Bool.and_true]
        simpa using hp
      · rw [List.getLast?_append_of_ne_nil _ (ne_nil_of_field hfi.simple)]
        exact hfi.noText
    exact hl
  · unfold formOf
    rw [updateTree]
    simp only [w1]
    rw [updateTrees]
    rfl

theorem FormsFit.elem {o : Forms.Own A} {data : List (Dict Str (CVal A))} {n new : Node} (h : FormsFit o data q ps (members q ps n) new) (i : Nat) :
    Tidy o.m.fs (formElem (members q ps n) new i) ∧ isMember q ps (formElem (members q ps n) new i) = true := by
  unfold formElem
  cases hi : (members q ps n)[i]? with
  | none => exact ⟨h.tidyNew, h.member⟩
  | some m =>
    have := List.mem_of_getElem? hi
    exact ⟨h.tidy m this, (List.mem_filter.1 this).2⟩

theorem good_step (hf : SimpleField ctx xp e [.child q ps]) (hp : attrPreds [.child q ps] = true) : Spec.good [.child q ps] = true := good_of hf.ok hp (by simp)

/-- What each form does to its element. -/
theorem formUpd_saved (heng : EngineOk eng) (hf : SimpleField ctx xp e [.child q ps]) {o : Forms.Own A} {data : List (Dict Str (CVal A))} {n new : Node} (h : FormsFit o data q ps (members q ps n) new)
    (i : Nat) (d : Dict Str (CVal A)) (hd : data[i]? = some d) : ∃ t', updateTree eng (formOf o d) [] (formElem (members q ps n) new i) = (.ok (), t', formUpd eng o data i (formElem (members q ps n) new i)) ∧
      FTree.Saved (formOf o d) (formElem (members q ps n) new i) (formUpd eng o data i (formElem (members q ps n) new i)) := by
  obtain ⟨k1, k2⟩ := h.elem i
  obtain ⟨t', m', h1, h2, -, -⟩ := formUpd_run heng (h.form d (List.mem_of_getElem? hd)) h.preds h.under k1 k2 (good_step hf h.preds)
  have e1 : formUpd eng o data i (formElem (members q ps n) new i) = m' := by
    unfold formUpd
    rw [hd]
    simp only [h1]
  rw [e1]
  exact ⟨t', h1, h2⟩

theorem formUpd_steady (heng : EngineOk eng) (hf : SimpleField ctx xp e [.child q ps]) {o : Forms.Own A} {data : List (Dict Str (CVal A))} {n new : Node} (h : FormsFit o data q ps (members q ps n) new) :
    Steady q ps (members q ps n) new (formUpd eng o data) := by
  have key : ∀ i, isMember q ps (formUpd eng o data i (formElem (members q ps n) new i)) = true ∧
      formUpd eng o data i (formUpd eng o data i (formElem (members q ps n) new i)) = formUpd eng o data i (formElem (members q ps n) new i) := by
    intro i
    obtain ⟨k1, k2⟩ := h.elem i
    cases hd : data[i]? with
    | none => simp only [formUpd, hd]; exact ⟨k2, trivial⟩
    | some d =>
      obtain ⟨t', m', h1, h2, h3, t'', h4⟩ := formUpd_run heng (h.form d (List.mem_of_getElem? hd)) h.preds h.under k1 k2 (good_step hf h.preds)
      simp only [formUpd, hd, h1, h4]
      exact ⟨h3, trivial⟩
  exact ⟨fun i => (key i).1, fun i => (key i).2⟩

omit [PyUnicode] in
theorem kept_saved (upd : Nat → Node → Node) (cd : Bool) (ms : List Node) (new : Node) (subs : List Submitted) :
    keptMembers upd cd ms subs = keptMembers (fun i _ => upd i (formElem ms new i)) cd ms subs := by
  unfold keptMembers
  refine List.map_congr_left ?_
  rintro ⟨⟨m, d⟩, i⟩ hx
  have hz := List.mem_zipIdx_iff_getElem?.1 (List.mem_filter.1 hx).1
  simp only at hz ⊢
  have hm : ms[i]? = some m := by
    rw [List.getElem?_zip_eq_some] at hz
    exact hz.1
  simp only [formElem, hm, Option.getD_some]

omit [PyUnicode] in
theorem new_saved (upd : Nat → Node → Node) (ms : List Node) (new : Node) (subs : List Submitted) :
    newMembers upd new ms subs = newMembers (fun i _ => upd i (formElem ms new i)) new ms subs := by
  unfold newMembers
  refine List.map_congr_left ?_
  rintro ⟨d, i⟩ hx
  have h4 := (List.mem_filter.1 hx).1
  have hge : ms.length ≤ i := by
    have hd := filter_ge_zipIdx subs 0 ms.length
    rw [Nat.sub_zero] at hd
    rw [← hd] at h4
    have := (List.mem_filter.1 h4).2
    simpa using this
  simp only [formElem, List.getElem?_eq_none hge, Option.getD_none]

omit [PyUnicode] in
theorem apart_saved {upd : Nat → Node → Node} {cd : Bool} {ms : List Node} {new : Node} {subs : List Submitted}
    (h : Apart (fun i _ => upd i (formElem ms new i)) cd ms new subs) : Apart upd cd ms new subs := by
  intro i d hd hcd hdl j m e hm he hne
  have := h i d hd hcd hdl j m e hm he hne
  simp only [formElem, hm, Option.getD_some] at this ⊢
  exact this

/-- C89.  A formset of forms, without order: each form is saved on its element as in C85 (the submitted fields, and these only); the members of the list are then those whose
forms are not marked for deletion, in order, and behind them one new element for each changed additional form; nothing else in the document changes.  No element of a form marked
for deletion may be like another member. -/
theorem C89_unordered (heng : EngineOk eng) (hf : SimpleField ctx xp e [.child q ps]) (hs : s.get a = some n) (new : Node) (o : Forms.Own A) (data : List (Dict Str (CVal A)))
    (hfit : FormsFit o data q ps (members q ps n) new) (canDelete : Bool) (subs : List Submitted) (hlen : (members q ps n).length ≤ subs.length) :
    ∃ saved : Nat → Node,
      (∀ i d, data[i]? = some d → FTree.Saved (formOf o d) (formElem (members q ps n) new i) (saved i)) ∧
      (∀ i, data[i]? = none → saved i = formElem (members q ps n) new i) ∧
      (Apart (fun i _ => saved i) canDelete (members q ps n) new subs → ∃ n' : Node,
        saveFormset eng ctx xp e (.elem a) new (formUpd eng o data) canDelete false (members q ps n).length subs s = .ok (s.modify a (fun _ => n')) ∧
        members q ps n' = keptMembers (fun i _ => saved i) canDelete (members q ps n) subs ++ newMembers (fun i _ => saved i) new (members q ps n) subs ∧ SameButMembers q ps n n') := by
  refine ⟨fun i => formUpd eng o data i (formElem (members q ps n) new i), fun i d hd => ?_, fun i hi => by simp only [formUpd, hi], fun ha => ?_⟩
  · obtain ⟨-, -, k⟩ := formUpd_saved heng hf hfit i d hd
    exact k
  · obtain ⟨n', h1, h2, h3⟩ := C88_unordered heng hf hs new _ (formUpd_steady heng hf hfit) canDelete subs hlen (apart_saved ha)
    refine ⟨n', h1, ?_, h3⟩
    rw [h2, kept_saved, new_saved]

/-- C89.  A formset of forms, with order: each form is saved on its element as in C85; the members of the list are then the elements of the forms that count, by increasing order, those
without order last, and those with the same order as in the formset; nothing else in the document changes.  All these elements have to be different. -/
theorem C89_ordered (heng : EngineOk eng) (hf : SimpleField ctx xp e [.child q ps]) (hs : s.get a = some n) (new : Node) (o : Forms.Own A) (data : List (Dict Str (CVal A)))
    (hfit : FormsFit o data q ps (members q ps n) new) (canDelete : Bool) (subs : List Submitted) (hlen : (members q ps n).length ≤ subs.length) :
    ∃ saved : Nat → Node,
      (∀ i d, data[i]? = some d → FTree.Saved (formOf o d) (formElem (members q ps n) new i) (saved i)) ∧
      (∀ i, data[i]? = none → saved i = formElem (members q ps n) new i) ∧
      (Apart (fun i _ => saved i) canDelete (members q ps n) new subs →
        (∀ i ∈ counting canDelete (members q ps n) subs, ∀ j ∈ counting canDelete (members q ps n) subs, j ≠ i → saved j ≠ saved i) → ∃ (n' : Node) (order : List Nat),
        saveFormset eng ctx xp e (.elem a) new (formUpd eng o data) canDelete true (members q ps n).length subs s = .ok (s.modify a (fun _ => n')) ∧
        order.Perm (counting canDelete (members q ps n) subs) ∧ order.Pairwise (OrderedBy subs) ∧
        (∀ i j d e, [i, j].Sublist (counting canDelete (members q ps n) subs) → subs[i]? = some d → subs[j]? = some e → d.order = e.order → [i, j].Sublist order) ∧
        members q ps n' = order.map saved ∧ SameButMembers q ps n n') := by
  refine ⟨fun i => formUpd eng o data i (formElem (members q ps n) new i), fun i d hd => ?_, fun i hi => by simp only [formUpd, hi], fun ha hdist => ?_⟩
  · obtain ⟨-, -, k⟩ := formUpd_saved heng hf hfit i d hd
    exact k
  · obtain ⟨n', order, h1, h2, h3, h4, h5, h6⟩ := C88_ordered heng hf hs new _ (formUpd_steady heng hf hfit) canDelete subs hlen (apart_saved ha) hdist
    exact ⟨n', order, h1, h2, h3, h4, h5, h6⟩

/-- C89.  No form of such a formset fails to update its element. -/
theorem C89_updates (heng : EngineOk eng) (hf : SimpleField ctx xp e [.child q ps]) (new : Node) (o : Forms.Own A) (data : List (Dict Str (CVal A)))
    (hfit : FormsFit o data q ps (members q ps n) new) (i : Nat) (d : Dict Str (CVal A)) (hd : data[i]? = some d) :
    (updateTree eng (formOf o d) [] (formElem (members q ps n) new i)).1 = .ok () := by
  obtain ⟨t', k, -⟩ := formUpd_saved heng hf hfit i d hd
  rw [k]

end

/-! People with a family name; the first one is deleted, the second one gets another name, and a third one is new. -/

def person (v : Str) : Node := newItem.withChildren [(Node.empty ⟨none, c%"family"⟩).setText (some v)]
def people : Node := bare.withChildren [person c%"Doe", Node.empty ⟨none, c%"b"⟩, person c%"Poe"]
def peopleData : List (Dict Str (CVal Plain2)) := [[(c%"family", .str c%"Doe")], [(c%"family", .str c%"Roe")], [(c%"family", .str c%"Moe")]]

theorem people_fit : FormsFit (oneForm c%"family" []) peopleData ⟨none, c%"a"⟩ [] (members ⟨none, c%"a"⟩ [] people) newItem where
  form := by
    intro d hd
    have hx : ∃ v, xmlOk v = true ∧ d = [(c%"family", .str v)] := by
      simp only [peopleData, List.mem_cons, List.not_mem_nil, or_false] at hd
      rcases hd with rfl | rfl | rfl
      · exact ⟨_, by decide, rfl⟩
      · exact ⟨_, by decide, rfl⟩
      · exact ⟨_, by decide, rfl⟩
    obtain ⟨v, hv, rfl⟩ := hx
    exact oneForm_ok c%"family" v ⟨⟨by decide, by rfl, by decide, by decide⟩, by decide, by intro h; cases h⟩ (by decide) hv
  preds := rfl
  under := fun _ => by rfl
  tidy := by
    intro m hm
    have hm : m ∈ [person c%"Doe", person c%"Poe"] := hm
    simp only [List.mem_cons, List.not_mem_nil, or_false] at hm
    rcases hm with rfl | rfl
    · exact C69_tidy_check _ _ (fun _ => by rfl)
    · exact C69_tidy_check _ _ (fun _ => by rfl)
  tidyNew := C69_tidy_check _ _ (fun _ => by rfl)
  member := rfl

/-- Each form is saved, and the members are the updated second one and the new one. -/
example : ∃ saved : Nat → Node, (∀ i d, peopleData[i]? = some d → FTree.Saved (formOf (oneForm c%"family" []) d) (formElem (members ⟨none, c%"a"⟩ [] people) newItem i) (saved i)) ∧
    (saved 1 ≠ person c%"Doe" → ∃ n', saveFormset refEngine sampleCtx c%"a" (ast c%"a") (.elem []) newItem (formUpd refEngine (oneForm c%"family" []) peopleData) true false 2
      [⟨true, true, none⟩, ⟨true, false, none⟩, ⟨true, false, none⟩] people = .ok n' ∧ members ⟨none, c%"a"⟩ [] n' = [saved 1, saved 2]) := by
  obtain ⟨saved, h1, -, h3⟩ := C89_unordered refEngine_ok subField (s := people) (n := people) (a := []) rfl newItem (oneForm c%"family" []) peopleData people_fit
    true [⟨true, true, none⟩, ⟨true, false, none⟩, ⟨true, false, none⟩] (by decide)
  refine ⟨saved, h1, fun hne => ?_⟩
  obtain ⟨n', k1, k2, -⟩ := h3 (by
    intro i d hd _ hdl j m e hm he hji
    match i, hd with
    | 0, hd =>
      match j, hm, he with
      | 0, _, _ => exact absurd rfl hji
      | 1, hm, he =>
        injection he with he
        subst he
        exact hne
      | (k + 2), hm, _ => exact absurd hm (by rw [List.getElem?_eq_none (by rw [show (members ⟨none, c%"a"⟩ [] people).length = 2 by decide]; omega)]; simp)
    | 1, hd => injection hd with hd; subst hd; exact absurd hdl (by decide)
    | 2, hd => injection hd with hd; subst hd; exact absurd hdl (by decide)
    | (k + 3), hd => simp at hd)
  exact ⟨n', k1, k2⟩

/-- Evaluated. -/
example : saveFormset refEngine sampleCtx c%"a" (ast c%"a") (.elem []) newItem (formUpd refEngine (oneForm c%"family" []) peopleData) true false 2
      [⟨true, true, none⟩, ⟨true, false, none⟩, ⟨true, false, none⟩] people
    = .ok (bare.withChildren [Node.empty ⟨none, c%"b"⟩, person c%"Roe", person c%"Moe"]) := by decide +kernel

/-- Counterexample: a list field with a predicate, `a[@type='x']`.  The new element has no such attribute: it is added to the document, but it is not a member of the list. -/
theorem C89_counterexample_predicate : ∃ n', saveFormset refEngine sampleCtx c%"a[@type='x']" (ast c%"a[@type='x']") (.elem []) newItem
      (formUpd refEngine (oneForm c%"family" []) [[(c%"family", .str c%"Moe")]]) true false 0 [⟨true, false, none⟩] bare = .ok n' ∧
    n'.children = [person c%"Moe"] ∧ members ⟨none, c%"a"⟩ [.attr ⟨none, c%"type"⟩ (some (.str c%"x"))] n' = [] := by
  refine ⟨bare.withChildren [person c%"Moe"], by decide +kernel, by rfl, by decide +kernel⟩

end Props
