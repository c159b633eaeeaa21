import Verif.Spec.WholeSubmit
import Verif.Props.SetSubmit
import Verif.Props.Whole
/-
Property C103: a form with subforms, at any depth, and formsets is shown, edited in the browser, and sent back.

Model: `showWhole`, `bindWhole`, `submitWhole` (Verif/Forms/WholeSubmit.lean).  Specification: Verif/Spec/WholeSubmit.lean.
-/
namespace Props
open XPath Xml Spec Fields Core Forms Py

section
variable [PyUnicode] {eng : Engine} {number : Str → XNum} {dj : Django} {ctx : Ctx} {a : Node.Addr} {s n n0 : Node} {pfx : Option Str} {post : Dict Str Str}

theorem shows_value {w : WSet} {q : QName} {ps : List Pred} {ms : List Node} {new : Node} (hfit : SetFit w q ps ms new)
    (hr : ∀ m ∈ ms, ∀ x f j, (x, f) ∈ w.inputs → w.own.m.name j = x → ∃ v, fieldVal (w.own.m.fs j) m = .ok v) : ShowsSet w ms (setValue w ms) := by
  constructor
  · intro i m hm x f hx
    obtain ⟨j, rfl⟩ := (hfit.inputs x f hx).1
    obtain ⟨v, hv⟩ := hr m (List.mem_of_getElem? hm) _ f j hx rfl
    refine ⟨j, rfl, ?_⟩
    unfold setValue
    rw [hm, hv]
    simp only [Except.map]
    rw [valueOf_read hv]
  · intro i hi x
    unfold setValue
    rw [List.getElem?_eq_none hi]

theorem counts_unique {p : Str} {t t' : Int} (h : Counts dj post p t) (h' : Counts dj post p t') : t = t' := by
  have h1 := formCount_iff.2 h
  rw [formCount_iff.2 h'] at h1
  exact (Option.some.inj h1).symm

/-! ### the formsets -/

/-- What the formset with the data has to do with the data. -/
structure Bound (number : Str → XNum) (dj : Django) (ctx : Ctx) (post : Dict Str Str) (pfx : Option Str) (n : Node) (set : WebSet) (f : FSet Plain2) : Prop where
  ok : FSet.Ok number ctx n f
  q : f.q = set.q
  ps : f.ps = set.ps
  valid : FSet.Valid f ↔ WebSet.Valid dj post pfx n set
  schema : WebSet.NoSchema set → FSet.NoSchema f
  after : ∀ n', FSet.Valid f → FSet.Saved n n' f → WebSet.After number dj post pfx n n' set

theorem bind_nodes (heng : EngineOk eng) (hs : s.get a = some n0) {name xp : Str} {e : Expr} {q : QName} {ps : List Pred} {new : Node} {w : WSet}
    (hok : WebSet.Ok number n ctx (.nodes name xp e q ps new w)) (hm : members q ps n0 = members q ps n) {absMax : Nat}
    (hsent : WebSet.Sent dj post pfx n absMax (.nodes name xp e q ps new w)) :
    ∃ f, bindWebSet eng number dj ctx a absMax post pfx s (.nodes name xp e q ps new w) = .ok (some f) ∧ Bound number dj ctx post pfx n (.nodes name xp e q ps new w) f := by
  obtain ⟨hf, hfit, hr⟩ := hok
  obtain ⟨t, hc, hk, hle, hge, hkeep⟩ := hsent
  have hv := shows_value hfit hr
  have hread := readForms_run (dj := dj) (post := post) (pfx := setPrefix pfx name) (value := setValue w (members q ps n)) heng hf hs hfit.field (by rw [hm]; exact hv) (members q ps n).length (List.range t)
  have hff := forms_fit hfit hkeep
  have hdata : ((List.range t).map (fun i => readForm dj w post (setPrefix pfx name) (members q ps n).length i (initsAt w (setValue w (members q ps n)) i))).map SForm.data =
      dataOf dj w post (setPrefix pfx name) (members q ps n).length (setValue w (members q ps n)) t := by rw [List.map_map]; rfl
  have hsubs : ∀ subs, SubmittedAs dj w post (setPrefix pfx name) (members q ps n).length (setValue w (members q ps n)) t subs →
      ((List.range t).map (fun i => readForm dj w post (setPrefix pfx name) (members q ps n).length i (initsAt w (setValue w (members q ps n)) i))).map SForm.sub = subs := by
    intro subs h
    rw [submitted_eq h, List.map_map]; rfl
  refine ⟨.nodes (sentNodes xp e q ps new w (members q ps n).length
    ((List.range t).map (fun i => readForm dj w post (setPrefix pfx name) (members q ps n).length i (initsAt w (setValue w (members q ps n)) i)))), ?_, ?_⟩
  · unfold bindWebSet
    simp only
    rw [formCounts_iff.2 ⟨hc, hk⟩]
    simp only
    rw [if_neg (show ¬((t : Int) > (absMax : Int) ∨ ((members q ps n).length : Int) < 0) by omega), show ((members q ps n).length : Int).toNat = (members q ps n).length from rfl,
      show (t : Int).toNat = t from rfl, hread]
  · refine ⟨⟨hf, ?_, rfl, ?_⟩, rfl, rfl, ?_, fun h => h, ?_⟩
    · show FormsFit w.own _ q ps (members q ps n) new
      rw [show (sentNodes xp e q ps new w _ _).data = _ from hdata]
      exact hff
    · show (members q ps n).length ≤ (List.map _ _).length
      simpa using hge
    · constructor
      · rintro ⟨-, h⟩ t' ht' i hi hd hb
        have e1 : t' = t := by have := counts_unique ht' hc; omega
        subst e1
        have := h i ((readForm dj w post (setPrefix pfx name) (members q ps n).length i (initsAt w (setValue w (members q ps n)) i)).sub)
          (by show (List.map _ _)[i]? = _; rw [List.map_map, List.getElem?_map, List.getElem?_range hi]; rfl) (by
            cases hx : (w.canDelete && (readForm dj w post (setPrefix pfx name) (members q ps n).length i (initsAt w (setValue w (members q ps n)) i)).sub.deleted) with
            | false => exact hx
            | true =>
              rw [Bool.and_eq_true] at hx
              exact absurd ((readForm_sub _ i).2.1.1 hx.2) hd)
        have h2 : (List.map _ (List.range t'))[i]?.all SForm.valid = true := this
        rw [List.getElem?_map, List.getElem?_range hi] at h2
        exact formValid_iff.1 h2 hb
      · intro h
        refine ⟨rfl, fun i d hd hdel => ?_⟩
        have hi : i < t := by
          have := (List.getElem?_eq_some_iff.1 hd).1
          have h2 : i < (List.map _ (List.map _ (List.range t))).length := this
          simpa using h2
        have hd' : (List.map SForm.sub (List.map _ (List.range t)))[i]? = some d := hd
        rw [List.map_map, List.getElem?_map, List.getElem?_range hi] at hd'
        cases hd'
        show (List.map _ (List.range t))[i]?.all SForm.valid = true
        rw [List.getElem?_map, List.getElem?_range hi]
        refine formValid_iff.2 (fun hb => h t hc i hi (fun hdf => ?_) hb)
        have h3 := (readForm_sub (dj := dj) (w := w) (post := post) (pfx := setPrefix pfx name) (value := setValue w (members q ps n)) (members q ps n).length i).2.1.2 hdf
        have hdel' : (w.canDelete && (readForm dj w post (setPrefix pfx name) (members q ps n).length i (initsAt w (setValue w (members q ps n)) i)).sub.deleted) = false := hdel
        rw [hdf.1, h3] at hdel'
        cases hdel'
    · rintro n' - ⟨saved, h1, -, h3⟩ t' ht'
      have e1 : t' = t := by have := counts_unique ht' hc; omega
      subst e1
      refine ⟨saved, fun i hi hb => ?_, fun subs hsub ha => ?_⟩
      · have hd := dataOf_get (dj := dj) (w := w) (post := post) (pfx := setPrefix pfx name) (value := setValue w (members q ps n)) (k := (members q ps n).length) hi
        rw [readForm_filled hb] at hd
        have hs := h1 i _ (by rw [show (sentNodes xp e q ps new w _ _).data = _ from hdata]; exact hd)
        exact formAfter_of hfit hs
      · have := h3 (by
          rw [show (sentNodes xp e q ps new w _ _).subs = _ from hsubs subs hsub]
          exact ha)
        rw [show (sentNodes xp e q ps new w _ _).subs = _ from hsubs subs hsub] at this
        exact this

/-- The list field at the element, whatever else is in it. -/
theorem list_at {f : LField} (heng : EngineOk eng) (hnum : NumberOk number) (hf : LField.Ok number ctx f) (hs : s.get a = some n0) (hm : members f.q f.ps n0 = members f.q f.ps n)
    (hfits : ∀ m ∈ members f.q f.ps n, f.V.fits m) : ListAt eng number ctx f.xp f.e f.q f.ps f.k f.V a s n0 :=
  ⟨heng, hnum, hf.field, hf.kind, hs, by rw [hm]; exact hfits⟩

theorem bind_strings (heng : EngineOk eng) (hnum : NumberOk number) (hs : s.get a = some n0) {name xp : Str} {e : Expr} {q : QName} {ps : List Pred}
    (hok : WebSet.Ok number n ctx (.strings name xp e q ps)) (hm : members q ps n0 = members q ps n) {absMax : Nat}
    (hsent : WebSet.Sent dj post pfx n absMax (.strings name xp e q ps)) :
    ∃ f, bindWebSet eng number dj ctx a absMax post pfx s (.strings name xp e q ps) = .ok (some f) ∧ Bound number dj ctx post pfx n (.strings name xp e q ps) f := by
  obtain ⟨hf, hfits⟩ := hok
  obtain ⟨t, hc, hle, hx⟩ := hsent
  have hat := list_at (f := strList ctx xp e q ps) heng hnum hf hs hm hfits
  obtain ⟨m, hlen⟩ := len_run hat
  have hvs := itemValues_some (dj := dj) (post := post) (pfx := setPrefix pfx name) (inp := strInput) (n := m) (is := List.range t.toNat) (fun i _ => itemValue_str m i)
  refine ⟨.values (strList ctx xp e q ps) strInput.truthy ((List.range t.toNat).map
    (fun i => if m ≤ i ∧ dj.strip (sentText post (setPrefix pfx name) i) = [] then none else some (dj.strip (sentText post (setPrefix pfx name) i)))) true, ?_, ?_⟩
  · unfold bindWebSet
    simp only
    rw [show listLen eng ctx (strKind ctx e).read xp (.elem a) s = _ from hlen, formCount_iff.2 hc]
    simp only
    rw [if_neg (show ¬ (t > (absMax : Int)) by omega), hvs]
    rfl
  · refine ⟨⟨hf, hfits, ?_⟩, rfl, rfl, ⟨fun _ => trivial, fun _ => rfl⟩, fun _ => trivial, ?_⟩
    · show ∀ v : Option Str, v ∈ (List.range t.toNat).map (fun i => if m ≤ i ∧ dj.strip (sentText post (setPrefix pfx name) i) = [] then none else some (dj.strip (sentText post (setPrefix pfx name) i))) →
        strInput.truthy v = true → strView.storable v
      intro v hv hv'
      obtain ⟨i, hi, rfl⟩ := List.mem_map.1 hv
      split_ifs at hv' ⊢
      · simp [strInput, strTruthy] at hv'
      · exact ⟨_, rfl, hx i (List.mem_range.1 hi)⟩
    · intro n' _ hsv t' ht'
      have e1 := counts_unique ht' hc
      subst e1
      have hsv' : (members q ps n').map strView.item = ((List.range t'.toNat).map
        (fun i => if m ≤ i ∧ dj.strip (sentText post (setPrefix pfx name) i) = [] then none else some (dj.strip (sentText post (setPrefix pfx name) i)))).filter strInput.truthy := hsv
      rw [hsv', List.filter_map, List.filter_map, List.map_map]
      have : ∀ i, ((strInput.truthy ∘ fun i => if m ≤ i ∧ dj.strip (sentText post (setPrefix pfx name) i) = [] then none else some (dj.strip (sentText post (setPrefix pfx name) i))) i) =
          (((fun t : Str => decide (t ≠ [])) ∘ fun i => dj.strip (sentText post (setPrefix pfx name) i)) i) := by
        intro i
        by_cases hi : dj.strip (sentText post (setPrefix pfx name) i) = []
        · simp only [Function.comp, hi, and_true]
          split_ifs <;> simp [strInput, strTruthy]
        · simp [Function.comp, hi, strInput, strTruthy]
      rw [funext this]
      refine List.map_congr_left ?_
      intro i hi
      have := (List.mem_filter.1 hi).2
      simp only [Function.comp, decide_eq_true_eq] at this
      simp [this]

/-- The value of a form of a list of integers. -/
def intSent (dj : Django) (post : Dict Str Str) (p : Str) (i : Nat) : Option Int := if sentText post p i = [] then none else dj.int (sentText post p i)

theorem bind_integers (heng : EngineOk eng) (hnum : NumberOk number) (hs : s.get a = some n0) {name xp : Str} {e : Expr} {q : QName} {ps : List Pred}
    (hok : WebSet.Ok number n ctx (.integers name xp e q ps)) (hm : members q ps n0 = members q ps n) {absMax : Nat}
    (hsent : WebSet.Sent dj post pfx n absMax (.integers name xp e q ps)) :
    ∃ f, bindWebSet eng number dj ctx a absMax post pfx s (.integers name xp e q ps) = .ok (some f) ∧ Bound number dj ctx post pfx n (.integers name xp e q ps) f := by
  obtain ⟨hf, hfits⟩ := hok
  obtain ⟨t, hc, hle, hx⟩ := hsent
  have hat := list_at (f := intList number ctx xp e q ps) heng hnum hf hs hm hfits
  obtain ⟨m, hlen⟩ := len_run hat
  by_cases hall : ∀ i < t.toNat, sentText post (setPrefix pfx name) i = [] ∨ ∃ x, dj.int (sentText post (setPrefix pfx name) i) = some x
  · have hvs : itemValues intInput dj m post (setPrefix pfx name) (List.range t.toNat) = some ((List.range t.toNat).map (intSent dj post (setPrefix pfx name))) := by
      refine itemValues_some (fun i hi => ?_)
      rw [itemValue_int]
      unfold intSent
      by_cases h0 : sentText post (setPrefix pfx name) i = []
      · rw [if_pos h0, if_pos h0]
      · rw [if_neg h0, if_neg h0]
        rcases hall i (List.mem_range.1 hi) with h | ⟨x, h⟩
        · exact absurd h h0
        · rw [h]; rfl
    refine ⟨.values (intList number ctx xp e q ps) intInput.truthy ((List.range t.toNat).map (intSent dj post (setPrefix pfx name))) true, ?_, ?_⟩
    · unfold bindWebSet
      simp only
      rw [show listLen eng ctx (intKind number ctx e).read xp (.elem a) s = _ from hlen, formCount_iff.2 hc]
      simp only
      rw [if_neg (show ¬ (t > (absMax : Int)) by omega), hvs]
      rfl
    · refine ⟨⟨hf, hfits, ?_⟩, rfl, rfl, ⟨fun _ t' ht' => ?_, fun _ => rfl⟩, fun _ => trivial, ?_⟩
      · show ∀ v : Option Int, v ∈ (List.range t.toNat).map (intSent dj post (setPrefix pfx name)) → intInput.truthy v = true → (intView number).storable v
        intro v hv hv'
        obtain ⟨i, hi, rfl⟩ := List.mem_map.1 hv
        unfold intSent at hv' ⊢
        split_ifs at hv' ⊢ with h0
        · simp [intInput, intTruthy] at hv'
        · rcases hall i (List.mem_range.1 hi) with h | ⟨x, h⟩
          · exact absurd h h0
          · exact ⟨x, h, hx i (List.mem_range.1 hi) x h0 h⟩
      · have e1 := counts_unique ht' hc
        subst e1
        exact hall
      · intro n' _ hsv t' ht'
        have e1 := counts_unique ht' hc
        subst e1
        refine ⟨intSent dj post (setPrefix pfx name), fun i hi => ?_, ?_⟩
        · unfold intSent
          by_cases h0 : sentText post (setPrefix pfx name) i = []
          · exact .inl ⟨h0, if_pos h0⟩
          · rcases hall i hi with h | ⟨x, h⟩
            · exact absurd h h0
            · exact .inr ⟨h0, x, h, by rw [if_neg h0, h]⟩
        · have hsv' : (members q ps n').map (intView number).item = ((List.range t'.toNat).map (intSent dj post (setPrefix pfx name))).filter intInput.truthy := hsv
          rw [hsv']
          congr 1
          funext v
          cases v with
          | none => rfl
          | some x => by_cases hx : x = 0 <;> simp [intInput, intTruthy, hx]
  · have hbad : ∃ i < t.toNat, sentText post (setPrefix pfx name) i ≠ [] ∧ dj.int (sentText post (setPrefix pfx name) i) = none := by
      by_contra hno
      refine hall (fun i hi => ?_)
      by_contra hb
      refine hno ⟨i, hi, fun h0 => hb (.inl h0), ?_⟩
      cases hx : dj.int (sentText post (setPrefix pfx name) i) with
      | none => rfl
      | some x => exact absurd (.inr ⟨x, hx⟩) hb
    obtain ⟨i, hi, h1, h2⟩ := hbad
    have hvs : itemValues intInput dj m post (setPrefix pfx name) (List.range t.toNat) = none :=
      itemValues_none (i := i) (by rw [itemValue_int, if_neg h1, h2]; rfl) (List.mem_range.2 hi)
    refine ⟨.values (intList number ctx xp e q ps) intInput.truthy [] false, ?_, ?_⟩
    · unfold bindWebSet
      simp only
      rw [show listLen eng ctx (intKind number ctx e).read xp (.elem a) s = _ from hlen, formCount_iff.2 hc]
      simp only
      rw [if_neg (show ¬ (t > (absMax : Int)) by omega), hvs]
    · refine ⟨⟨hf, hfits, fun v hv => by cases hv⟩, rfl, rfl, ⟨fun h => (by cases h), fun h => ?_⟩, fun _ => trivial, fun n' h => (by cases h)⟩
      rcases h t hc i hi with h | ⟨x, h⟩
      · exact absurd h h1
      · rw [h2] at h; cases h

theorem bind_set (heng : EngineOk eng) (hnum : NumberOk number) (hs : s.get a = some n0) {set : WebSet} (hok : WebSet.Ok number n ctx set)
    (hm : members set.q set.ps n0 = members set.q set.ps n) {absMax : Nat} (hsent : WebSet.Sent dj post pfx n absMax set) :
    ∃ f, bindWebSet eng number dj ctx a absMax post pfx s set = .ok (some f) ∧ Bound number dj ctx post pfx n set f := by
  cases set with
  | nodes => exact bind_nodes heng hs hok hm hsent
  | strings => exact bind_strings heng hnum hs hok hm hsent
  | integers => exact bind_integers heng hnum hs hok hm hsent

theorem bind_sets (heng : EngineOk eng) (hnum : NumberOk number) (hs : s.get a = some n0) {absMax : Nat} : ∀ {sets : List WebSet}, (∀ set ∈ sets, WebSet.Ok number n ctx set) →
    (∀ set ∈ sets, members set.q set.ps n0 = members set.q set.ps n) → (∀ set ∈ sets, WebSet.Sent dj post pfx n absMax set) →
    ∃ fs, bindWebSets eng number dj ctx a absMax post pfx s sets = .ok (some fs) ∧ List.Forall₂ (Bound number dj ctx post pfx n) sets fs
  | [], _, _, _ => ⟨[], rfl, .nil⟩
  | set :: sets, hok, hm, hsent => by
    obtain ⟨f, h1, h2⟩ := bind_set heng hnum hs (hok _ List.mem_cons_self) (hm _ List.mem_cons_self) (hsent _ List.mem_cons_self)
    obtain ⟨fs, h3, h4⟩ := bind_sets heng hnum hs (sets := sets) (fun x hx => hok x (List.mem_cons_of_mem _ hx)) (fun x hx => hm x (List.mem_cons_of_mem _ hx)) (fun x hx => hsent x (List.mem_cons_of_mem _ hx))
    refine ⟨f :: fs, ?_, .cons h2 h4⟩
    simp only [bindWebSets, h1, h3]

/-! ### saving -/

theorem forall2_left {α β : Type _} {R : α → β → Prop} {xs : List α} {ys : List β} (h : List.Forall₂ R xs ys) {x : α} (hx : x ∈ xs) : ∃ y ∈ ys, R x y := by
  induction h with
  | nil => cases hx
  | cons h1 _ ih =>
    rcases List.mem_cons.1 hx with rfl | hx
    · exact ⟨_, List.mem_cons_self, h1⟩
    · obtain ⟨y, h2, h3⟩ := ih hx
      exact ⟨y, List.mem_cons_of_mem _ h2, h3⟩

theorem forall2_right {α β : Type _} {R : α → β → Prop} {xs : List α} {ys : List β} (h : List.Forall₂ R xs ys) {y : β} (hy : y ∈ ys) : ∃ x ∈ xs, R x y := by
  induction h with
  | nil => cases hy
  | cons h1 _ ih =>
    rcases List.mem_cons.1 hy with rfl | hy
    · exact ⟨_, List.mem_cons_self, h1⟩
    · obtain ⟨x, h2, h3⟩ := ih hy
      exact ⟨x, List.mem_cons_of_mem _ h2, h3⟩

theorem bound_apart {sets : List WebSet} {fs : List (FSet Plain2)} (h : List.Forall₂ (Bound number dj ctx post pfx n) sets fs) (hp : sets.Pairwise (fun x y => Spec.Apart x.q x.ps y.q y.ps)) :
    fs.Pairwise (fun x y => Spec.Apart x.q x.ps y.q y.ps) := by
  induction h with
  | nil => exact .nil
  | cons h1 h2 ih =>
    rw [List.pairwise_cons] at hp ⊢
    refine ⟨fun y hy => ?_, ih hp.2⟩
    obtain ⟨x, hx, hxy⟩ := forall2_right h2 hy
    rw [h1.q, h1.ps, hxy.q, hxy.ps]
    exact hp.1 x hx

theorem bound_paths (post : Dict Str Str) (w : WForm) (pfx : Option Str) (p : List Step) : FTree.Paths (bindForm dj post w pfx) p ↔ FTree.Paths (WForm.bare w) p := by
  cases w with
  | mk o inputs subs => exact or_congr Iff.rfl (bindSubs_has post pfx p subs)

/-- C103.  Any data whatsoever are such as in the theorems below: they come from the page, with the edits that say what has been sent for each input. -/
theorem C103_any_data (post : Dict Str Str) (page : List (Str × Option Str)) : Back (sentData post) post page := fun _ _ _ => rfl

theorem WebSet.Ok.good {set : WebSet} (h : WebSet.Ok number n ctx set) : Spec.good [.child set.q set.ps] = true := by
  cases set with
  | nodes => exact good_of h.1.ok h.2.1.preds (by simp)
  | strings => exact good_of h.1.field.ok (by have h1 := h.1.preds; simp only [attrPreds, Step.preds, List.all_cons, List.all_nil, Bool.and_true]; exact h1) (by simp)
  | integers => exact good_of h.1.field.ok (by have h1 := h.1.preds; simp only [attrPreds, Step.preds, List.all_cons, List.all_nil, Bool.and_true]; exact h1) (by simp)

/-- The form is made again, with data. -/
theorem bind_whole (heng : EngineOk eng) (hnum : NumberOk number) (w : WForm) (sets : List WebSet) (ht : FTree.Ok (WForm.bare w)) (hff : WForm.ForFields w) (hap : WebApart w sets)
    (hs : s.get a = some n) (hfit : FTree.Fits (WForm.bare w) n) (hr : WForm.All Readable w pfx n) (hsets : ∀ set ∈ sets, WebSet.Ok number n (formCtx w) set)
    {edits : Str → Option (Option Str)} (hb : Back edits post (WForm.page w pfx n)) (ha : WForm.All (Acceptable dj edits) w pfx n) {absMax : Nat}
    (hsent : ∀ set ∈ sets, WebSet.Sent dj post pfx n absMax set) :
    ∃ fs, List.Forall₂ (Bound number dj (formCtx w) post pfx n) sets fs ∧ NoOverlap (bindForm dj post w pfx) fs ∧
      ∀ wh s0, initWhole eng a (bindForm dj post w pfx) fs s = .ok (wh, s0) → bindWhole eng number dj a absMax post w sets pfx s = .ok (some (wh, s0)) := by
  have ht' := bindForm_ok (dj := dj) w pfx hb ht hff hr ha
  have hf' := FTree.Fits.fit ht' (bindForm_fits post w pfx hfit)
  obtain ⟨n0, r1, -, r3, -⟩ := initTree_run heng (bindForm dj post w pfx) ht' (bindForm_new post w pfx) hs hf'
  have hfr := r3.frame
  obtain ⟨fs, h1, h2⟩ := bind_sets (pfx := pfx) (post := post) (dj := dj) heng hnum (get_modify_here hs) hsets (fun set hset => members_of_hits (hfr.other [.child set.q set.ps] (hsets set hset).good
    (fun p hp => hap.tree set hset p ((bound_paths post w pfx p).1 hp)))) hsent
  refine ⟨fs, h2, ⟨bound_apart h2 hap.lists, fun f hf p hp => ?_⟩, fun wh s0 hi => ?_⟩
  · obtain ⟨set, hset, hb⟩ := forall2_right h2 hf
    unfold FSet.path
    rw [hb.q, hb.ps]
    exact hap.tree set hset p ((bound_paths post w pfx p).1 hp)
  · cases w with
    | mk o inputs subs =>
      unfold bindWhole
      rw [r1]
      simp only
      rw [h1]
      simp only
      rw [bindForm] at hi r1 ⊢
      unfold initWhole at hi
      simp only at hi
      rw [r1] at hi
      simp only [Except.ok.injEq, Prod.mk.injEq] at hi
      obtain ⟨rfl, rfl⟩ := hi
      rfl

/-- C103.  For the object at `a`, the form with its subforms and formsets is made with the data that have been sent, whatever they are (see `C103_any_data`), as long as the values that are to be stored can be
stored, and the numbers of forms are there; and is validated.  Then this succeeds; if everything is valid and the schemas accept everything, the result is that the form is valid; and if it is, all that
has been sent is valid, and is in the document: in the fields, in the subforms, and in the lists. -/
theorem C103_saved (heng : EngineOk eng) (number : Str → XNum) (hnum : NumberOk number) (w : WForm) (sets : List WebSet) (pfx : Option Str) (ht : FTree.Ok (WForm.bare w)) (hn : PForm.Named (WForm.toPage w))
    (hff : WForm.ForFields w) (hap : WebApart w sets) (a : Node.Addr) (s n : Node) (hs : s.get a = some n) (hfit : FTree.Fits (WForm.bare w) n) (hr : WForm.All Readable w pfx n)
    (hsets : ∀ set ∈ sets, WebSet.Ok number n (formCtx w) set) (post : Dict Str Str) (edits : Str → Option (Option Str)) (hb : Back edits post (WForm.page w pfx n))
    (ha : WForm.All (Acceptable dj edits) w pfx n) (absMax : Nat)
    (hsent : ∀ set ∈ sets, WebSet.Sent dj post pfx n absMax set) :
    ∃ r n', submitWhole eng number dj a absMax post w sets pfx s = .ok (r, s.modify a (fun _ => n')) ∧
      (r = true → WForm.All (ValidInput dj edits) w pfx n ∧ (∀ set ∈ sets, WebSet.Valid dj post pfx n set) ∧ WholeAfter number dj post pfx n edits w sets n') ∧
      (WForm.All (ValidInput dj edits) w pfx n → (∀ set ∈ sets, WebSet.Valid dj post pfx n set) → FTree.NoSchema (WForm.bare w) → (∀ set ∈ sets, WebSet.NoSchema set) → r = true) := by
  obtain ⟨fs, h1, h2, h3⟩ := bind_whole (absMax := absMax) heng hnum w sets ht hff hap hs hfit hr hsets hb ha hsent
  have ht' := bindForm_ok (dj := dj) w pfx hb ht hff hr ha
  obtain ⟨wh, s0, r, w', n', c1, c2, c3, c4⟩ := C90_valid heng number hnum (bindForm dj post w pfx) fs ht' (bindForm_new post w pfx) a s n hs (bindForm_fits post w pfx hfit)
    (fun f hf => by
      obtain ⟨set, -, hbd⟩ := forall2_right h1 hf
      have := hbd.ok
      cases w
      exact this) h2
  refine ⟨r, n', ?_, fun hrt => ?_, fun v1 v2 v3 v4 => c4 ((bindForm_valid w pfx hb hff hr).2 v1) (fun f hf => ?_) (bindForm_noSchema post w pfx v3) (fun f hf => ?_)⟩
  · unfold submitWhole
    rw [h3 wh s0 c1]
    simp only
    rw [c2]
  · obtain ⟨k1, k2, -, k3, -⟩ := c3 hrt
    have hv := (bindForm_valid w pfx hb hff hr).1 k1
    refine ⟨hv, fun set hset => ?_, ?_⟩
    · obtain ⟨f, hf, hbd⟩ := forall2_left h1 hset
      exact hbd.valid.1 (k2 f hf)
    · cases w with
      | mk o inputs subs =>
        rw [bindForm] at k3
        rw [WForm.toPage] at hn
        obtain ⟨s1, s2, s3, s4, s5⟩ := k3
        refine ⟨?_, fun i hi => ?_, fun g ctx g1 g2 g3 g4 => s3 g ctx g1 g2 (fun p hp => g3 p ?_) (fun f hf => ?_),
          bindSubs_after subs pfx (fun x o h => hb x o (by rw [WForm.page]; exact List.mem_append_right _ h)) hn.2.2.2.2.1 hff.2 hr.2 hv.2 s4, fun set hset => ?_⟩
        · rintro x f i hx rfl
          obtain ⟨c, u, hu, hc⟩ := hv.1 _ f i hx rfl
          have hc' : cleans dj f (post.get? (addPrefix pfx (o.m.name i))) = some c := by rw [back_own hb hx hu]; exact hc
          refine ⟨c, ⟨u, hu, hc⟩, s1 i c ⟨(hff.1 _ f hx).2, _, rfl, ?_⟩⟩
          have hnd : (inputs.map (·.1)).Nodup := hn.1
          rw [show (cleanOwn dj pfx post inputs).get? (o.m.name i) = _ from cleanOwn_get hnd hx, hc']
        · refine s2 i ?_
          rintro v ⟨-, c, hc, hv'⟩
          cases hc
          obtain ⟨f, h1, -⟩ := cleanOwn_mem hv'
          exact hi (List.mem_map.mpr ⟨_, h1, rfl⟩)
        · exact (bound_paths post (.mk o inputs subs) pfx p).1 (by rw [bindForm]; exact hp)
        · obtain ⟨set, hset, hbd⟩ := forall2_right h1 hf
          unfold FSet.path
          rw [hbd.q, hbd.ps]
          exact g4 set hset
        · obtain ⟨f, hf, hbd⟩ := forall2_left h1 hset
          exact hbd.after n' (k2 f hf) (s5 f hf)
  · obtain ⟨set, hset, hbd⟩ := forall2_right h1 hf
    exact hbd.valid.2 (v2 set hset)
  · obtain ⟨set, hset, hbd⟩ := forall2_right h1 hf
    exact hbd.schema (v4 set hset)

/-- C103.  If something that has been sent is not valid, for the form, one of its subforms or formsets, the form is not valid, and the fields of the object itself have not changed, nor has anything
apart from the elements of the subforms and the members of the lists. -/
theorem C103_invalid (heng : EngineOk eng) (number : Str → XNum) (hnum : NumberOk number) (w : WForm) (sets : List WebSet) (pfx : Option Str) (ht : FTree.Ok (WForm.bare w))
    (hff : WForm.ForFields w) (hap : WebApart w sets) (a : Node.Addr) (s n : Node) (hs : s.get a = some n) (hfit : FTree.Fits (WForm.bare w) n) (hr : WForm.All Readable w pfx n)
    (hsets : ∀ set ∈ sets, WebSet.Ok number n (formCtx w) set) (post : Dict Str Str) (edits : Str → Option (Option Str)) (hb : Back edits post (WForm.page w pfx n))
    (ha : WForm.All (Acceptable dj edits) w pfx n) (absMax : Nat)
    (hsent : ∀ set ∈ sets, WebSet.Sent dj post pfx n absMax set)
    (hbad : ¬ WForm.All (ValidInput dj edits) w pfx n ∨ ∃ set ∈ sets, ¬ WebSet.Valid dj post pfx n set) :
    ∃ n', submitWhole eng number dj a absMax post w sets pfx s = .ok (false, s.modify a (fun _ => n')) ∧
      (∀ i, fieldVal ((FTree.own (WForm.bare w)).m.fs i) n' = fieldVal ((FTree.own (WForm.bare w)).m.fs i) n) ∧
      ∀ g ctx, g.Ok ctx → Single g.p n → (∀ p, FTree.Paths (WForm.bare w) p → Part p g.p) → (∀ set ∈ sets, Part [.child set.q set.ps] g.p) → fieldVal g n' = fieldVal g n := by
  obtain ⟨fs, h1, h2, h3⟩ := bind_whole (absMax := absMax) heng hnum w sets ht hff hap hs hfit hr hsets hb ha hsent
  have ht' := bindForm_ok (dj := dj) w pfx hb ht hff hr ha
  obtain ⟨wh, s0, w', n', c1, c2, c3, c4⟩ := C90_invalid heng number hnum (bindForm dj post w pfx) fs ht' (bindForm_new post w pfx) a s n hs (bindForm_fits post w pfx hfit)
    (fun f hf => by
      obtain ⟨set, -, hbd⟩ := forall2_right h1 hf
      have := hbd.ok
      cases w
      exact this) h2 (by
      rcases hbad with h | ⟨set, hset, h⟩
      · exact .inl (fun h' => h ((bindForm_valid w pfx hb hff hr).1 h'))
      · obtain ⟨f, hf, hbd⟩ := forall2_left h1 hset
        exact .inr ⟨f, hf, fun h' => h (hbd.valid.1 h')⟩)
  refine ⟨n', ?_, ?_, fun g ctx g1 g2 g3 g4 => c4 g ctx g1 g2 (fun p hp => g3 p ((bound_paths post w pfx p).1 hp)) (fun f hf => ?_)⟩
  · unfold submitWhole
    rw [h3 wh s0 c1]
    simp only
    rw [c2]
  · rw [bindForm_own] at c3
    exact c3
  · obtain ⟨set, hset, hbd⟩ := forall2_right h1 hf
    unfold FSet.path
    rw [hbd.q, hbd.ps]
    exact g4 set hset

/-! ### showing -/

theorem readList_at {α : Type} [DecidableEq α] {xp : Str} {e : Expr} {q : QName} {ps : List Pred} {k : ListKind α} {V : ListView α} (h : ListAt eng number ctx xp e q ps k V a s n0) :
    readList eng ctx k xp a s = (.ok ((members q ps n0).map V.item), s) := by
  obtain ⟨put, hS⟩ := h.kind.store_ok h.num
  obtain ⟨ax, t, es, rfl⟩ := res_single h.field.path
  exact listData_run h.engine h.field.parse h.field.path hS h.node ⟨h.fits, rfl⟩

theorem show_set (heng : EngineOk eng) (hnum : NumberOk number) (hs : s.get a = some n0) {set : WebSet} (hok : WebSet.Ok number n ctx set)
    (hm : members set.q set.ps n0 = members set.q set.ps n) : showWebSet eng number ctx a pfx s set = .ok (WebSet.page number pfx n set) := by
  cases set with
  | nodes name xp e q ps new w =>
    obtain ⟨hf, hfit, hr⟩ := hok
    have hm' : members q ps n0 = members q ps n := hm
    have := C102_shown heng hf hs w new (by rw [hm']; exact hfit) (setValue w (members q ps n)) (by rw [hm']; exact shows_value hfit hr) (setPrefix pfx name)
    rw [hm'] at this
    exact this
  | strings name xp e q ps =>
    obtain ⟨hf, hfits⟩ := hok
    have hat := list_at (f := strList ctx xp e q ps) heng hnum hf hs hm hfits
    have hm' : members q ps n0 = members q ps n := hm
    have := C101_shown_strings hat _ (readList_at hat) (setPrefix pfx name)
    rw [show members (strList ctx xp e q ps).q (strList ctx xp e q ps).ps n0 = _ from hm'] at this
    show (showListSet eng ctx (strKind ctx e).read strInput (setPrefix pfx name) xp (.elem a) s).1 = _
    rw [show showListSet eng ctx (strKind ctx e).read strInput (setPrefix pfx name) xp (.elem a) s = _ from this, List.map_map]
    rfl
  | integers name xp e q ps =>
    obtain ⟨hf, hfits⟩ := hok
    have hat := list_at (f := intList number ctx xp e q ps) heng hnum hf hs hm hfits
    have hm' : members q ps n0 = members q ps n := hm
    have := C101_shown_integers hat _ (readList_at hat) (setPrefix pfx name)
    rw [show members (intList number ctx xp e q ps).q (intList number ctx xp e q ps).ps n0 = _ from hm'] at this
    show (showListSet eng ctx (intKind number ctx e).read intInput (setPrefix pfx name) xp (.elem a) s).1 = _
    rw [show showListSet eng ctx (intKind number ctx e).read intInput (setPrefix pfx name) xp (.elem a) s = _ from this, List.map_map]
    rfl

theorem show_sets (heng : EngineOk eng) (hnum : NumberOk number) (hs : s.get a = some n0) : ∀ {sets : List WebSet}, (∀ set ∈ sets, WebSet.Ok number n ctx set) →
    (∀ set ∈ sets, members set.q set.ps n0 = members set.q set.ps n) → showWebSets eng number ctx a pfx s sets = .ok (sets.flatMap (WebSet.page number pfx n))
  | [], _, _ => rfl
  | set :: sets, hok, hm => by
    have h1 := show_set (pfx := pfx) heng hnum hs (hok _ List.mem_cons_self) (hm _ List.mem_cons_self)
    have h2 := show_sets heng hnum hs (sets := sets) (fun x hx => hok x (List.mem_cons_of_mem _ hx)) (fun x hx => hm x (List.mem_cons_of_mem _ hx))
    simp only [showWebSets, h1, h2, List.flatMap_cons]

/-- C103.  The page of the form: an input for each field of the form and its subforms, at any depth, with what the field reads; and those of the formsets. -/
theorem C103_shown (heng : EngineOk eng) (number : Str → XNum) (hnum : NumberOk number) (w : WForm) (sets : List WebSet) (pfx : Option Str) (ht : FTree.Ok (WForm.bare w)) (hap : WebApart w sets)
    (a : Node.Addr) (s n : Node) (hs : s.get a = some n) (hfit : FTree.Fits (WForm.bare w) n) (hr : WForm.All Readable w pfx n) (hsets : ∀ set ∈ sets, WebSet.Ok number n (formCtx w) set) :
    showWhole eng number a w sets pfx s = .ok (wholePage number w sets pfx n) := by
  obtain ⟨n0, h1, h2⟩ := showForm_run heng w pfx ht hs (FTree.Fits.fit ht hfit) hr
  have h3 := show_sets (pfx := pfx) heng hnum (get_modify_here (n' := n0) hs) hsets (fun set hset => members_of_hits (h2.other [.child set.q set.ps] (hsets set hset).good (hap.tree set hset)))
  unfold showWhole
  rw [h1]
  simp only
  rw [h3]
  rfl

/-! ### what comes back -/

/-- The names of the inputs in each form of a formset. -/
def WebSet.rows : WebSet → List Str
  | .nodes _ _ _ _ _ _ w => rowNames w
  | .strings _ _ _ _ _ => [c%"val"]
  | .integers _ _ _ _ _ => [c%"val"]

omit [PyUnicode] in
theorem set_names (set : WebSet) : (WebSet.page number pfx n set).map (·.1) =
    managementFields.map (countName (setPrefix pfx set.name)) ++ (List.range (WebSet.shown n set)).flatMap (fun i => (WebSet.rows set).map (formName (setPrefix pfx set.name) i)) := by
  have key : ∀ (p : Str) (l : List Str), (listPage p l).map (·.1) = managementFields.map (countName p) ++ (List.range (shownCount l.length)).flatMap (fun i => [c%"val"].map (formName p i)) := by
    intro p l
    unfold listPage
    rw [List.map_append, List.map_map]
    congr 1
    induction List.range (shownCount l.length) with
    | nil => rfl
    | cons i is ih => rw [List.map_cons, List.flatMap_cons, ih]; rfl
  cases set with
  | nodes name xp e q ps new w =>
    show (setPage w _ _ _).map (·.1) = _
    unfold setPage
    rw [List.map_append, List.map_flatMap]
    simp only [formRow_names]
    rfl
  | strings name xp e q ps =>
    refine (key _ _).trans ?_
    rw [List.length_map]
    rfl
  | integers name xp e q ps =>
    refine (key _ _).trans ?_
    rw [List.length_map]
    rfl

/-- Forms with these fields. -/
def sameForms (fields : List Str) : Nat → PForms
  | 0 => .nil
  | k + 1 => .cons (.mk fields .nil .nil) (sameForms fields k)

/-- The formsets, as in C86. -/
def setsToPage (n : Node) : List WebSet → PSets
  | [] => .nil
  | set :: sets => .cons set.name none [] (sameForms (WebSet.rows set) (WebSet.shown n set)) (setsToPage n sets)

/-- The form, as in C86. -/
def wholeToPage (n : Node) (sets : List WebSet) : WForm → PForm
  | .mk _ inputs subs => .mk (inputs.map (·.1)) (WSubs.toPage subs) (setsToPage n sets)

omit [PyUnicode] in
theorem sameForms_inputs (fields : List Str) (p : Str) : ∀ (k i : Nat), PForms.inputs p i (sameForms fields k) = (List.range' i k).flatMap (fun i => fields.map (formName p i))
  | 0, _ => rfl
  | k + 1, i => by
    rw [sameForms, PForms.inputs, sameForms_inputs fields p k (i + 1), List.range'_succ, List.flatMap_cons, PForm.inputs, PSubs.inputs, PSets.inputs, List.append_nil, List.append_nil]
    rfl

omit [PyUnicode] in
theorem sets_inputs : ∀ sets : List WebSet, (sets.flatMap (WebSet.page number pfx n)).map (·.1) = PSets.inputs pfx (setsToPage n sets)
  | [] => rfl
  | set :: sets => by
    rw [List.flatMap_cons, List.map_append, sets_inputs sets, set_names, setsToPage, PSets.inputs, sameForms_inputs, ← List.range_eq_range']
    rfl

omit [PyUnicode] in
theorem sets_names : ∀ sets : List WebSet, PSets.names (setsToPage n sets) = sets.map WebSet.name
  | [] => rfl
  | set :: sets => by rw [setsToPage, PSets.names, sets_names sets]; rfl

omit [PyUnicode] in
theorem sameForms_named {fields : List Str} (h1 : fields.Nodup) (h2 : ∀ x ∈ fields, PyName x) : ∀ k, PForms.Named (sameForms fields k)
  | 0 => trivial
  | k + 1 => by
    rw [sameForms]
    refine ⟨⟨h1, h2, ?_, ?_, trivial, trivial⟩, sameForms_named h1 h2 k⟩
    · exact List.nodup_nil
    · intro x hx; cases hx

omit [PyUnicode] in
theorem rowNames_py {w : WSet} (h : ∀ x ∈ w.inputs.map (·.1), PyName x) : ∀ x ∈ rowNames w, PyName x := by
  intro x hx
  unfold rowNames at hx
  rcases List.mem_append.1 hx with hx | hx
  · rcases List.mem_append.1 hx with hx | hx
    · exact h x hx
    · split_ifs at hx
      · rw [List.mem_singleton.1 hx]; exact ⟨by decide, by decide, by decide⟩
      · cases hx
  · split_ifs at hx
    · rw [List.mem_singleton.1 hx]; exact ⟨by decide, by decide, by decide⟩
    · cases hx

omit [PyUnicode] in
theorem sets_named : ∀ {sets : List WebSet}, (∀ name xp e q ps new ws, WebSet.nodes name xp e q ps new ws ∈ sets →
    (ws.inputs.map (·.1)).Nodup ∧ ∀ x ∈ ws.inputs.map (·.1), PyName x ∧ x ≠ c%"ORDER" ∧ x ≠ c%"DELETE") → PSets.Named (setsToPage n sets)
  | [], _ => trivial
  | set :: sets, h => by
    rw [setsToPage]
    refine ⟨?_, sets_named (fun name xp e q ps new ws hm => h name xp e q ps new ws (List.mem_cons_of_mem _ hm))⟩
    cases set with
    | nodes name xp e q ps new w =>
      obtain ⟨h1, h2⟩ := h name xp e q ps new w List.mem_cons_self
      exact sameForms_named (rowNames_nodup h1 (fun x hx => (h2 x hx).2)) (rowNames_py (fun x hx => (h2 x hx).1)) _
    | strings => exact sameForms_named (List.nodup_singleton _) (fun x hx => by rw [List.mem_singleton.1 hx]; exact ⟨by decide, by decide, by decide⟩) _
    | integers => exact sameForms_named (List.nodup_singleton _) (fun x hx => by rw [List.mem_singleton.1 hx]; exact ⟨by decide, by decide, by decide⟩) _

omit [PyUnicode] in
/-- C103.  The inputs of the page have different names. -/
theorem C103_distinct (number : Str → XNum) (w : WForm) (sets : List WebSet) (pfx : Option Str) (n : Node) (hn : WholeNamed w sets) : ((wholePage number w sets pfx n).map (·.1)).Nodup := by
  have e : (wholePage number w sets pfx n).map (·.1) = PForm.inputs pfx (wholeToPage n sets w) := by
    cases w with
    | mk o inputs subs =>
      unfold wholePage wholeToPage
      rw [List.map_append, sets_inputs, WForm.page_names, WForm.toPage, PForm.inputs, PForm.inputs, PSets.inputs, List.append_nil]
  rw [e]
  refine C86_distinct pfx _ ?_
  cases w with
  | mk o inputs subs =>
    have h1 := hn.form
    have h2 := hn.parts o inputs subs rfl
    rw [WForm.toPage] at h1
    unfold wholeToPage
    refine ⟨h1.1, h1.2.1, by rw [sets_names]; exact h2, ?_, h1.2.2.2.2.1, sets_named hn.fields⟩
    intro x hx
    rcases List.mem_append.1 hx with hx | hx
    · exact h1.2.2.2.1 x (List.mem_append_left _ hx)
    · rw [sets_names] at hx
      obtain ⟨set, hset, rfl⟩ := List.mem_map.1 hx
      exact hn.setNames set hset

omit [PyUnicode] in
/-- C103.  What is received for each input of the page: what has been entered there, or what it showed; whatever else there is on the page. -/
theorem C103_sent (number : Str → XNum) (w : WForm) (sets : List WebSet) (pfx : Option Str) (n : Node) (hn : WholeNamed w sets) (edits : Str → Option (Option Str)) :
    Back edits (submission edits (wholePage number w sets pfx n)) (wholePage number w sets pfx n) :=
  fun _ _ h => submission_get (C103_distinct number w sets pfx n hn) h

omit [PyUnicode] in
theorem back_set {edits : Str → Option (Option Str)} {w : WForm} {sets : List WebSet} (hb : Back edits post (wholePage number w sets pfx n)) {set : WebSet} (hset : set ∈ sets) :
    Back edits post (WebSet.page number pfx n set) :=
  fun x o h => hb x o (List.mem_append_right _ (List.mem_flatMap.2 ⟨set, hset, h⟩))

omit [PyUnicode] in
/-- C103.  If the user does not edit the counts of a formset, they are sent as they were shown. -/
theorem C103_counts (hd : DjangoOk dj) (number : Str → XNum) (w : WForm) (sets : List WebSet) (pfx : Option Str) (n : Node) (edits : Str → Option (Option Str)) (post : Dict Str Str)
    (hb : Back edits post (wholePage number w sets pfx n)) (set : WebSet) (hset : set ∈ sets) (hk : KeepsCounts (setPrefix pfx set.name) edits) :
    Counts dj post (setPrefix pfx set.name) (WebSet.shown n set) ∧ NumberSent dj post (countName (setPrefix pfx set.name) c%"INITIAL_FORMS") (members set.q set.ps n).length := by
  have h := back_set hb hset
  have key : ∀ (p : Str) (l : List Str), KeepsCounts p edits → Back edits post (listPage p l) →
      Counts dj post p (shownCount l.length) ∧ NumberSent dj post (countName p c%"INITIAL_FORMS") l.length := by
    intro p l hk h
    refine ⟨(list_sent hd h hk).1, natStr l.length, ?_, (natStr_spec _).1, ?_⟩
    · rw [h _ (some (natStr l.length)) (by simp [listPage, countInputs])]
      unfold received
      rw [hk _ (by decide)]; rfl
    · have := hd.int l.length
      unfold intStr at this
      rw [if_neg (by omega), Int.natAbs_natCast] at this
      exact this
  cases set with
  | nodes name xp e q ps new w =>
    obtain ⟨h1, h2, -⟩ := set_sent hd h hk
    exact ⟨h1, h2⟩
  | strings name xp e q ps =>
    obtain ⟨h1, h2⟩ := key _ _ hk h
    rw [List.length_map] at h1 h2
    exact ⟨h1, h2⟩
  | integers name xp e q ps =>
    obtain ⟨h1, h2⟩ := key _ _ hk h
    rw [List.length_map] at h1 h2
    exact ⟨h1, h2⟩

/-! ### a page that nobody has touched -/

/-- A formset that nobody has touched. -/
theorem set_same (hd : DjangoOk dj) {set : WebSet} {absMax : Nat} (hok : WebSet.Ok number n ctx set) (hg : WebSet.Given number dj n absMax set)
    (hb : Back untouched post (WebSet.page number pfx n set)) :
    WebSet.Sent dj post pfx n absMax set ∧ WebSet.Valid dj post pfx n set ∧ ∀ n', WebSet.After number dj post pfx n n' set → WebSet.Same number n n' set := by
  cases set with
  | nodes name xp e q ps new w =>
    obtain ⟨hf, hfit, hr⟩ := hok
    obtain ⟨hg, hmax⟩ := hg
    have hv := shows_value hfit hr
    have hb : Back untouched post (setPage w (setPrefix pfx name) (members q ps n).length (setValue w (members q ps n))) := hb
    obtain ⟨hc1, hc2, hsent⟩ := set_sent hd hb (fun _ _ => rfl)
    obtain ⟨hblank, hdel, hclean, hkeep, hvalid⟩ := untouched_facts hd hfit hv hg hb
    have hcge := count_ge w (members q ps n).length
    have ht : ∀ t : Nat, Counts dj post (setPrefix pfx name) t → t = w.count (members q ps n).length := fun t h => by have := counts_unique h hc1; omega
    refine ⟨⟨_, hc1, hc2, hmax, hcge, hkeep⟩, ?_, ?_⟩
    · intro t h i hi _ hnb
      obtain rfl := ht t h
      exact hvalid i (by
        by_contra hlt
        exact hnb ((hblank i hi).2 (Nat.le_of_not_lt hlt)))
    · intro n' h
      obtain ⟨saved, h1, h2⟩ := h _ hc1
      refine ⟨saved, fun i m hm => ?_, fun hdist => ?_⟩
      · have hil := (List.getElem?_eq_some_iff.1 hm).1
        have := h1 i (by omega) (fun hb => by have := (hblank i (by omega)).1 hb; omega)
        rw [show formElem (members q ps n) new i = m by unfold formElem; rw [hm]; rfl] at this
        exact alike_of_after hv hm (hclean i hil) this
      · obtain ⟨subs, hsub⟩ := submitted_exists dj w post (setPrefix pfx name) (members q ps n).length (setValue w (members q ps n)) (w.count (members q ps n).length)
        have hsubd : ∀ d ∈ subs, d.deleted = false ∧ d.changed = false := by
          intro d hdm
          obtain ⟨i, hi⟩ := List.getElem?_of_mem hdm
          have hlt : i < w.count (members q ps n).length := by rw [← hsub.1]; exact (List.getElem?_eq_some_iff.1 hi).1
          obtain ⟨r1, r2, -⟩ := hsub.2 i d hi
          refine ⟨?_, ?_⟩
          · cases hb : d.deleted with
            | false => rfl
            | true => exact absurd (r2.1 hb) (hdel i hlt)
          · cases hb' : d.changed with
            | false => rfl
            | true => exact absurd (r1.1 hb') (untouched_unchanged hd hfit hv hg hb hlt)
        obtain ⟨k1, k2⟩ := h2 subs hsub (by
          intro i d hdi _ hdd
          rw [(hsubd d (List.mem_of_getElem? hdi)).1] at hdd
          cases hdd)
        cases ho : w.canOrder with
        | false => rw [k1 ho, kept_all saved (by rw [hsub.1]; exact hcge) (fun d h => (hsubd d h).1), new_none _ _ (fun d h => (hsubd d h).2), List.append_nil]
        | true =>
          have hcount := counting_all (cd := w.canDelete) (ms := members q ps n) (subs := subs) (by rw [hsub.1]; exact hcge) (fun d h => (hsubd d h).1) (fun d h => (hsubd d h).2)
          rw [hcount] at k2
          obtain ⟨order, p1, p2, -, p4⟩ := k2 ho (fun i hi j hj hne => hdist ho i (List.mem_range.1 hi) j (List.mem_range.1 hj) hne)
          rw [p4, order_range p1 p2]
          intro i hi
          have hl : i < subs.length := by rw [hsub.1]; omega
          refine ⟨_, List.getElem?_eq_getElem hl, ?_⟩
          refine ((hsub.2 i _ (List.getElem?_eq_getElem hl)).2.2 _).2 ⟨ho, fun hb => by have := (hblank i (by omega)).1 hb; omega, ?_⟩
          have h2 := (hsent i (by omega)).2.1 ho
          change _ = some (if i < (members q ps n).length then natStr (i + 1) else []) at h2
          rw [if_pos hi] at h2
          exact order_sent hd h2
  | strings name xp e q ps =>
    obtain ⟨hg, hmax, hle⟩ := hg
    have hb : Back untouched post (listPage (setPrefix pfx name) ((members q ps n).map (fun m => strText (strView.item m)))) := hb
    obtain ⟨hc, hs⟩ := list_sent hd hb (fun _ _ => rfl)
    rw [List.length_map] at hc hs
    have hrec : ∀ i < shownCount (members q ps n).length, dj.strip (sentText post (setPrefix pfx name) i) = ((members q ps n).map (fun m => strText (strView.item m)))[i]?.getD [] ∧
        xmlOk (((members q ps n).map (fun m => strText (strView.item m)))[i]?.getD []) = true := by
      intro i hi
      rw [hs i hi]
      show dj.strip (oneLine _) = _ ∧ _
      rw [List.getElem?_map]
      cases hm : (members q ps n)[i]? with
      | none => exact ⟨hd.strip, rfl⟩
      | some m =>
        cases hv : strView.item m with
        | none => simp only [Option.map_some, Option.getD_some, hv]; exact ⟨hd.strip, rfl⟩
        | some t =>
          obtain ⟨g1, g2, g3⟩ := hg m (List.mem_of_getElem? hm) t hv
          simp only [Option.map_some, Option.getD_some, hv, strText]
          exact ⟨by rw [g1, g2], g3⟩
    refine ⟨⟨_, hc, ?_, fun i hi => ?_⟩, trivial, fun n' h => ?_⟩
    · have := shownCount_le (absMax := absMax) (m := (members q ps n).length) (by unfold maxNum; omega) hle
      omega
    · obtain ⟨h1, h2⟩ := hrec i (by simpa using hi)
      rw [h1]; exact h2
    · have := h _ hc
      rw [Int.toNat_natCast, List.map_congr_left (g := fun i => ((members q ps n).map (fun m => strText (strView.item m)))[i]?.getD []) (fun i hi => (hrec i (List.mem_range.1 hi)).1)] at this
      have e := map_range_shown (members q ps n) (fun m => strText (strView.item m)) (shownCount_cases _)
      show (members q ps n').map strView.item = _
      rw [this, e, List.filter_map, List.filter_map, List.map_map]
      have e2 : ∀ m, ((fun t : Str => decide (t ≠ [])) ∘ fun m => strText (strView.item m)) m = ((fun v : Option Str => decide (v ≠ none ∧ v ≠ some [])) ∘ strView.item) m := by
        intro m
        simp only [Function.comp]
        rw [decide_eq_decide]
        cases strView.item m with
        | none => simp [strText]
        | some t => simp [strText]
      rw [funext e2]
      refine List.map_congr_left (fun m hm => ?_)
      have := (List.mem_filter.1 hm).2
      simp only [Function.comp, decide_eq_true_eq] at this ⊢
      cases hv : strView.item m with
      | none => exact absurd hv this.1
      | some t => rfl
  | integers name xp e q ps =>
    obtain ⟨hg, hmax, hle⟩ := hg
    have hb : Back untouched post (listPage (setPrefix pfx name) ((members q ps n).map (fun m => intText ((intView number).item m)))) := hb
    obtain ⟨hc, hs⟩ := list_sent hd hb (fun _ _ => rfl)
    rw [List.length_map] at hc hs
    have hrec : ∀ i < shownCount (members q ps n).length, (sentText post (setPrefix pfx name) i = [] ∧ ((members q ps n)[i]?.map (intView number).item).join = none) ∨
        ∃ x, sentText post (setPrefix pfx name) i ≠ [] ∧ dj.int (sentText post (setPrefix pfx name) i) = some x ∧ ((members q ps n)[i]?.map (intView number).item).join = some x ∧ x.natAbs ≤ 2 ^ 53 := by
      intro i hi
      rw [hs i hi]
      unfold receivedText
      rw [List.getElem?_map]
      cases hm : (members q ps n)[i]? with
      | none => exact .inl ⟨rfl, rfl⟩
      | some m =>
        cases hv : (intView number).item m with
        | none => refine .inl ⟨?_, ?_⟩ <;> simp [hv, received, untouched, intText, oneLine]
        | some x =>
          refine .inr ⟨x, ?_, ?_, ?_, hg m (List.mem_of_getElem? hm) x hv⟩
          · simp [hv, received, untouched, intText, oneLine_id (intStr_shape x).1, (intStr_shape x).2]
          · simp [hv, received, untouched, intText, oneLine_id (intStr_shape x).1, hd.int]
          · simp [hv]
    have hcu : ∀ t : Int, Counts dj post (setPrefix pfx name) t → t = shownCount (members q ps n).length := fun t h => counts_unique h hc
    refine ⟨⟨_, hc, ?_, fun i hi x hne hx => ?_⟩, fun t ht i hi => ?_, fun n' h => ?_⟩
    · have := shownCount_le (absMax := absMax) (m := (members q ps n).length) (by unfold maxNum; omega) hle
      omega
    · rcases hrec i (by simpa using hi) with ⟨h1, -⟩ | ⟨y, -, h2, -, h4⟩
      · exact absurd h1 hne
      · rw [hx] at h2; cases h2; exact h4
    · rw [hcu t ht] at hi
      rcases hrec i (by simpa using hi) with ⟨h1, -⟩ | ⟨y, -, h2, -⟩
      · exact .inl h1
      · exact .inr ⟨y, h2⟩
    · obtain ⟨f, h1, h2⟩ := h _ hc
      rw [Int.toNat_natCast] at h1 h2
      have hf : ∀ i < shownCount (members q ps n).length, f i = ((members q ps n)[i]?.map (intView number).item).join := by
        intro i hi
        rcases hrec i hi with ⟨e1, e2⟩ | ⟨x, e1, e2, e3, -⟩
        · rcases h1 i hi with ⟨-, g2⟩ | ⟨g1, -⟩
          · rw [g2, e2]
          · exact absurd e1 g1
        · rcases h1 i hi with ⟨g1, -⟩ | ⟨-, y, g2, g3⟩
          · exact absurd g1 e1
          · rw [e2] at g2; cases g2; rw [g3, e3]
      show (members q ps n').map (intView number).item = _
      rw [h2, List.map_congr_left (fun i hi => hf i (List.mem_range.1 hi))]
      have e : (List.range (members q ps n).length).map (fun i => ((members q ps n)[i]?.map (intView number).item).join) = (members q ps n).map (intView number).item := by
        refine List.ext_getElem (by simp) (fun i h1 h2 => ?_)
        simp at h1 h2
        simp [h1]
      rcases shownCount_cases (members q ps n).length with hk | hk
      · rw [hk, e]
      · rw [hk, List.range_succ, List.map_append, e, List.filter_append]
        simp

/-- C103.  The form is shown, with its subforms and formsets, and sent back, and nobody has touched an input.  If the form fields give back what they show, the form is valid (as far as
the schemas allow), and saving it changes nothing that can be read: the objects are the `Same`, as in C94, and so are the lists, as in C101 and C102. -/
theorem C103_untouched (heng : EngineOk eng) (hd : DjangoOk dj) (number : Str → XNum) (hnum : NumberOk number) (w : WForm) (sets : List WebSet) (pfx : Option Str) (ht : FTree.Ok (WForm.bare w))
    (hn : WholeNamed w sets) (hff : WForm.ForFields w) (hap : WebApart w sets) (a : Node.Addr) (s n : Node) (hs : s.get a = some n) (hfit : FTree.Fits (WForm.bare w) n)
    (hg : WForm.All (Given dj) w pfx n) (hbl : WForm.Blanks dj w pfx n) (hsets : ∀ set ∈ sets, WebSet.Ok number n (formCtx w) set) (absMax : Nat)
    (hgs : ∀ set ∈ sets, WebSet.Given number dj n absMax set) (hsch : FTree.NoSchema (WForm.bare w)) (hsch' : ∀ set ∈ sets, WebSet.NoSchema set) :
    ∃ page n', showWhole eng number a w sets pfx s = .ok page ∧ submitWhole eng number dj a absMax (submission untouched page) w sets pfx s = .ok (true, s.modify a (fun _ => n')) ∧
      WForm.Same w n n' ∧ ∀ set ∈ sets, WebSet.Same number n n' set := by
  have hr : WForm.All Readable w pfx n := WForm.All.imp (fun o n x f i h => ⟨h.choose, h.choose_spec.1⟩) w pfx hg
  have ha : WForm.All (Acceptable dj untouched) w pfx n := WForm.All.imp (fun o n x f i h => by
    obtain ⟨v, c, h1, h2, -, h4⟩ := given_cleaned hd h
    intro c' hc'
    rw [(h4 c').1 hc']; exact h2) w pfx hg
  have hv : WForm.All (ValidInput dj untouched) w pfx n := WForm.All.imp (fun o n x f i h => by
    obtain ⟨v, c, h1, h2, -, h4⟩ := given_cleaned hd h
    exact ⟨c, (h4 c).2 rfl⟩) w pfx hg
  have hb := C103_sent number w sets pfx n hn untouched
  have hset := fun set hset => set_same (ctx := formCtx w) hd (hsets set hset) (hgs set hset) (back_set hb hset)
  obtain ⟨r, n', c1, c2, c3⟩ := C103_saved heng number hnum w sets pfx ht hn.form hff hap a s n hs hfit hr hsets (submission untouched (wholePage number w sets pfx n)) untouched
    (fun x o h => hb x o (List.mem_append_left _ h)) ha absMax (fun set h => (hset set h).1)
  obtain rfl := c3 hv (fun set h => (hset set h).2.1) hsch hsch'
  obtain ⟨-, -, k⟩ := c2 rfl
  refine ⟨_, n', C103_shown heng number hnum w sets pfx ht hap a s n hs hfit hr hsets, c1, ?_⟩
  cases w with
  | mk o inputs subs =>
    obtain ⟨k1, k2, -, k4, k5⟩ := k
    exact ⟨⟨own_same hd hg.1 k1 k2, afters_same hd subs pfx hg.2 hbl k4⟩, fun set h => (hset set h).2.2 n' (k5 set h)⟩

/-- C103.  If the total of a formset is missing from the data, or is not a number, the form is never saved: the submission is not valid, and the document is as it was (or an XPath has raised). -/
theorem C103_missing_counts (eng : Engine) (number : Str → XNum) (dj : Django) (w : WForm) (sets : List WebSet) (pfx : Option Str) (a : Node.Addr) (s : Node) (post : Dict Str Str) (absMax : Nat)
    (set : WebSet) (hset : set ∈ sets) (hne : set.name ≠ []) (hmiss : ∀ t, post.get? (setPrefix pfx set.name ++ c%"-TOTAL_FORMS") = some t → t = [] ∨ dj.int t = none) (r : Bool × Node)
    (h : submitWhole eng number dj a absMax post w sets pfx s = .ok r) : r = (false, s) := by
  have hcount : formCount dj post (setPrefix pfx set.name) = none := by
    have hx : cleans dj ⟨.integer, [], true⟩ (post.get? (countName (setPrefix pfx set.name) c%"TOTAL_FORMS")) = none := by
      rw [countName_eq (by cases pfx <;> simp [setPrefix, hne])]
      unfold cleans
      cases hg : post.get? (setPrefix pfx set.name ++ '-' :: c%"TOTAL_FORMS") with
      | none => rfl
      | some t =>
        rcases hmiss t hg with rfl | ht
        · rfl
        · simp only [Option.getD_some, ht, Option.map_none, if_true, ite_self]
    unfold formCount
    rw [hx]
  have hone : ∀ s f, bindWebSet eng number dj (formCtx w) a absMax post pfx s set ≠ .ok (some f) := by
    intro s f
    cases set with
    | nodes name xp e q ps new w =>
      have : formCounts dj post (setPrefix pfx name) = none := by
        unfold formCounts
        rw [show formCount dj post (setPrefix pfx name) = none from hcount]
      simp only [bindWebSet, this]
      intro h; cases h
    | strings name xp e q ps =>
      simp only [bindWebSet, show formCount dj post (setPrefix pfx name) = none from hcount]
      split <;> intro h <;> simp_all
    | integers name xp e q ps =>
      simp only [bindWebSet, show formCount dj post (setPrefix pfx name) = none from hcount]
      split <;> intro h <;> simp_all
  have hall : ∀ (l : List WebSet), set ∈ l → ∀ s fs, bindWebSets eng number dj (formCtx w) a absMax post pfx s l ≠ .ok (some fs) := by
    intro l
    induction l with
    | nil => intro h; cases h
    | cons x l ih =>
      intro hx s fs
      unfold bindWebSets
      cases h1 : bindWebSet eng number dj (formCtx w) a absMax post pfx s x with
      | error e => intro h; cases h
      | ok o => cases o with
        | none => intro h; cases h
        | some f =>
          rcases List.mem_cons.1 hx with rfl | hx
          · exact absurd h1 (hone s f)
          · cases h2 : bindWebSets eng number dj (formCtx w) a absMax post pfx s l with
            | error e => intro h; simp only at h; cases h
            | ok o => cases o with
              | none => intro h; simp only at h; cases h
              | some fs' => exact absurd h2 (ih hx s fs')
  unfold submitWhole at h
  have hb : ∀ y, bindWhole eng number dj a absMax post w sets pfx s ≠ .ok (some y) := by
    intro y
    unfold bindWhole
    split
    · intro h; cases h
    · rename_i s' _
      cases h2 : bindWebSets eng number dj (formCtx w) a absMax post pfx s' sets with
      | error e => intro h; simp only at h; cases h
      | ok o => cases o with
        | none => intro h; simp only at h; cases h
        | some fs => exact absurd h2 (hall sets hset s' fs)
  cases hbw : bindWhole eng number dj a absMax post w sets pfx s with
  | error e => rw [hbw] at h; cases h
  | ok o => cases o with
    | none =>
      rw [hbw] at h
      simp only [Except.ok.injEq] at h
      exact h.symm
    | some y => exact absurd hbw (hb y)

end

/-! ### an example -/

/-- A form with a title, a subform for a name, and formsets for people, tags and numbers. -/
def recForm : WForm := .mk (webOwn (oneModel c%"title") c%"title") [(c%"title", ⟨.char, [], true⟩)]
  (.cons c%"name" (oneHop c%"name") (.mk (webOwn (oneModel c%"family") c%"family") [(c%"family", ⟨.char, [], false⟩)] .nil) .nil)

def recSets : List WebSet :=
  [.nodes c%"people" c%"a" (ast c%"a") ⟨none, c%"a"⟩ [] newItem (peopleSet true), .strings c%"tags" c%"tag" (ast c%"tag") ⟨none, c%"tag"⟩ [],
   .integers c%"nums" c%"num" (ast c%"num") ⟨none, c%"num"⟩ []]

def textElem (x t : Str) : Node := .mk (.elem ⟨none, x⟩) [] (some t) [] none

/-- The record: a title, two people, a tag and a number. -/
def recDoc : Node := bare.withChildren [textElem c%"title" c%"old", person c%"Doe", textElem c%"tag" c%"t1", person c%"Poe", textElem c%"num" c%"7"]

def recPage : List (Str × Option Str) :=
  [(c%"title", some c%"old"), (c%"name-family", some []),
   (c%"people-TOTAL_FORMS", some c%"3"), (c%"people-INITIAL_FORMS", some c%"2"), (c%"people-MIN_NUM_FORMS", some c%"0"), (c%"people-MAX_NUM_FORMS", some c%"1000"),
   (c%"people-0-family", some c%"Doe"), (c%"people-0-ORDER", some c%"1"), (c%"people-0-DELETE", none), (c%"people-1-family", some c%"Poe"), (c%"people-1-ORDER", some c%"2"),
   (c%"people-1-DELETE", none), (c%"people-2-family", some []), (c%"people-2-ORDER", some []), (c%"people-2-DELETE", none),
   (c%"tags-TOTAL_FORMS", some c%"2"), (c%"tags-INITIAL_FORMS", some c%"1"), (c%"tags-MIN_NUM_FORMS", some c%"0"), (c%"tags-MAX_NUM_FORMS", some c%"1000"), (c%"tags-0-val", some c%"t1"), (c%"tags-1-val", some []),
   (c%"nums-TOTAL_FORMS", some c%"2"), (c%"nums-INITIAL_FORMS", some c%"1"), (c%"nums-MIN_NUM_FORMS", some c%"0"), (c%"nums-MAX_NUM_FORMS", some c%"1000"), (c%"nums-0-val", some c%"7"), (c%"nums-1-val", some [])]

/-- The page. -/
example : showWhole refEngine xpathNumber [] recForm recSets none recDoc = .ok recPage := by decide +kernel


/-- Nothing is edited: the people have been stored one after the other, all else is as it was. -/
example : submitWhole refEngine xpathNumber djangoNow [] 2000 (submission untouched recPage) recForm recSets none recDoc =
    .ok (true, bare.withChildren [textElem c%"title" c%"old", person c%"Doe", person c%"Poe", textElem c%"tag" c%"t1", textElem c%"num" c%"7"]) := by decide +kernel

/-- A new title, a family; the first one of the people is deleted, the second one renamed, a third one is to come first; the tag is removed and one added; there is a second number. -/
def recEdits : Str → Option (Option Str) := fun x =>
  if x = c%"title" then some (some c%" New ") else if x = c%"name-family" then some (some c%"Fam") else if x = c%"people-0-DELETE" then some (some c%"on") else if x = c%"people-1-family" then some (some c%"Roe")
  else if x = c%"people-2-family" then some (some c%"Moe") else if x = c%"people-2-ORDER" then some (some c%"0") else if x = c%"tags-0-val" then some (some []) else if x = c%"tags-1-val" then some (some c%"t2")
  else if x = c%"nums-1-val" then some (some c%"12") else none

example : submitWhole refEngine xpathNumber djangoNow [] 2000 (submission recEdits recPage) recForm recSets none recDoc =
    .ok (true, bare.withChildren [textElem c%"title" c%"New", person c%"Moe", person c%"Roe", (Node.empty ⟨none, c%"name"⟩).withChildren [textElem c%"family" c%"Fam"],
      textElem c%"tag" c%"t2", textElem c%"num" c%"7", textElem c%"num" c%"12"]) := by decide +kernel

/-- With a number that is none the submission is not valid, and neither the title nor the lists change; but validating has changed one of the people, and made an element for the subform. -/
example : submitWhole refEngine xpathNumber djangoNow [] 2000 (submission (fun x => if x = c%"nums-0-val" then some (some c%"x") else recEdits x) recPage) recForm recSets none recDoc =
    .ok (false, bare.withChildren [textElem c%"title" c%"old", person c%"Doe", textElem c%"tag" c%"t1", person c%"Roe", textElem c%"num" c%"7",
      (Node.empty ⟨none, c%"name"⟩).withChildren [textElem c%"family" c%"Fam"]]) := by decide +kernel

/-- Without the total of the tags nothing is saved. -/
example : submitWhole refEngine xpathNumber djangoNow [] 2000 (submission (fun x => if x = c%"tags-TOTAL_FORMS" then some none else recEdits x) recPage) recForm recSets none recDoc = .ok (false, recDoc) := by
  decide +kernel

theorem recForm_ok : FTree.Ok (WForm.bare recForm) := by
  refine ⟨webOwn_ok _ ⟨⟨by decide, by rfl, by decide, by decide⟩, by decide, by intro h; cases h⟩ (by decide), ⟨⟨by decide, by rfl, by decide, by decide⟩, rfl, rfl⟩, ?_, (by rintro q ⟨⟩), fun _ => by rfl,
    ⟨webOwn_ok _ ⟨⟨by decide, by rfl, by decide, by decide⟩, by decide, by intro h; cases h⟩ (by decide), trivial⟩, trivial⟩
  rintro q ⟨i, rfl⟩
  exact .inl (C69_apart_names (by decide) _ _)

theorem recForm_fits : FTree.Fits (WForm.bare recForm) recDoc := by
  have hsi : ∀ x : Str, (Step.matches [.child ⟨none, x⟩ []] recDoc).length ≤ 1 → Single [.child ⟨none, x⟩ []] recDoc := by
    intro x h k
    match k with
    | 0 => exact Nat.le_refl 1
    | k + 1 => simpa using h
  refine ⟨C69_tidy_check _ _ (fun i => by cases i; decide), hsi _ (by decide), ?_, trivial⟩
  intro m h; have h : (none : Option Node) = some m := h; cases h

theorem pyNames (l : List Str) (h : l.all (fun x => !x.isEmpty && !x.contains '-' && !(x.head?.any isDigit)) = true) : ∀ x ∈ l, PyName x := by
  intro x hx
  have := List.all_eq_true.mp h x hx
  simp only [Bool.and_eq_true, Bool.not_eq_true', List.isEmpty_eq_false_iff, List.contains_eq_mem, decide_eq_false_iff_not] at this
  refine ⟨this.1.1, this.1.2, fun c hc => ?_⟩
  have h2 := this.2
  rw [show x.head? = some c from hc] at h2
  exact h2

theorem recForm_named : WholeNamed recForm recSets where
  form := by
    simp only [recForm, WForm.toPage, WSubs.toPage, PForm.Named, PSubs.Named, PSets.Named, PSubs.names, PSets.names]
    exact ⟨by decide, pyNames _ (by decide), by decide, pyNames _ (by decide), ⟨⟨by decide, pyNames _ (by decide), by decide, pyNames _ (by decide), trivial, trivial⟩, trivial⟩, trivial⟩
  parts := by
    intro o inputs subs h
    injection h with _ _ h
    subst h
    decide
  setNames := fun set hset => pyNames (recSets.map WebSet.name) (by decide) _ (List.mem_map.2 ⟨set, hset, rfl⟩)
  fields := by
    intro name xp e q ps new ws h
    simp only [recSets, List.mem_cons, reduceCtorEq, List.not_mem_nil, or_false, WebSet.nodes.injEq] at h
    obtain ⟨-, -, -, -, -, -, rfl⟩ := h
    exact ⟨by decide, fun x hx => ⟨pyNames _ (by decide) x hx, peopleSet_names true x hx⟩⟩

theorem recForm_fields : WForm.ForFields recForm := by
  refine ⟨?_, ⟨?_, trivial⟩, trivial⟩
  · intro x f h
    obtain ⟨rfl, -⟩ := Prod.mk.injEq .. ▸ List.mem_singleton.1 h
    exact ⟨⟨(), rfl⟩, List.mem_singleton.2 rfl, fun l hl => by cases hl⟩
  · intro x f h
    obtain ⟨rfl, -⟩ := Prod.mk.injEq .. ▸ List.mem_singleton.1 h
    exact ⟨⟨(), rfl⟩, List.mem_singleton.2 rfl, fun l hl => by cases hl⟩

theorem recSets_apart : WebApart recForm recSets where
  lists := by
    simp only [recSets, List.pairwise_cons, List.mem_cons, List.not_mem_nil, or_false, forall_eq_or_imp, forall_eq, false_imp_iff, implies_true, List.Pairwise.nil, and_true]
    exact ⟨⟨C69_apart_names (by decide) _ _, C69_apart_names (by decide) _ _⟩, C69_apart_names (by decide) _ _⟩
  tree := by
    intro set hset p hp
    simp only [recSets, List.mem_cons, List.not_mem_nil, or_false] at hset
    rcases hset with rfl | rfl | rfl
    all_goals
      rcases hp with ⟨i, rfl⟩ | rfl | h
      · exact .inl (C69_apart_names (by decide) _ _)
      · exact .inl (C69_apart_names (by decide) _ _)
      · exact h.elim

theorem rec_members : members ⟨none, c%"a"⟩ [] recDoc = members ⟨none, c%"a"⟩ [] people := by decide

theorem recSets_ok : ∀ set ∈ recSets, WebSet.Ok xpathNumber recDoc (formCtx recForm) set := by
  intro set hset
  simp only [recSets, List.mem_cons, List.not_mem_nil, or_false] at hset
  rcases hset with rfl | rfl | rfl
  · refine ⟨subField, by rw [rec_members]; exact peopleSet_fit true, ?_⟩
    rw [rec_members, people_members]
    intro m hm x f j h hj
    simp only [List.mem_cons, List.not_mem_nil, or_false] at hm
    rcases hm with rfl | rfl
    · exact ⟨(some c%"Doe" : Option Str), rfl⟩
    · exact ⟨(some c%"Poe" : Option Str), rfl⟩
  · refine ⟨⟨⟨by decide, by rfl, by decide, by decide⟩, .str rfl, rfl⟩, ?_⟩
    intro m hm
    obtain rfl : m = textElem c%"tag" c%"t1" := List.mem_singleton.1 hm
    rfl
  · refine ⟨⟨⟨by decide, by rfl, by decide, by decide⟩, .int rfl, rfl⟩, ?_⟩
    intro m hm
    obtain rfl : m = textElem c%"num" c%"7" := List.mem_singleton.1 hm
    exact ⟨rfl, fun b => by cases b <;> decide⟩

/-- The hypotheses of C103_untouched hold for this form, and so do those of C103_saved for the data that are sent. -/
example : ∃ page n', showWhole refEngine xpathNumber [] recForm recSets none recDoc = .ok page ∧
    submitWhole refEngine xpathNumber djangoNow [] 2000 (submission untouched page) recForm recSets none recDoc = .ok (true, n') ∧ WForm.Same recForm recDoc n' ∧
    ∀ set ∈ recSets, WebSet.Same xpathNumber recDoc n' set := by
  have hname : Given djangoNow (webOwn (oneModel c%"family") c%"family") (newAt (oneHop c%"name").p) c%"name-family" ⟨.char, [], false⟩ () :=
    ⟨(none : Option Str), by rfl, rfl, (none : Option Str), rfl, C69_keeps_string _ _ _ _ (fun v hv => by cases hv)⟩
  have h := C103_untouched (dj := djangoNow) refEngine_ok djangoNow_ok xpathNumber xpathNumber_ok recForm recSets none recForm_ok recForm_named recForm_fields recSets_apart [] recDoc recDoc rfl recForm_fits
    (by
      refine ⟨?_, ⟨?_, trivial⟩, trivial⟩
      · intro x f i h hi
        obtain ⟨rfl, rfl⟩ := Prod.mk.injEq .. ▸ List.mem_singleton.1 h
        exact ⟨(some c%"old" : Option Str), rfl, ⟨rfl, by decide, by decide⟩, (some c%"old" : Option Str), rfl, C69_keeps_string _ _ _ _ (fun u hu => by cases hu; decide)⟩
      · intro x f i h hi
        obtain ⟨rfl, rfl⟩ := Prod.mk.injEq .. ▸ List.mem_singleton.1 h
        exact hname)
    ⟨⟨⟨_, rfl⟩, trivial, fun x f i h hi => by
      obtain ⟨rfl, rfl⟩ := Prod.mk.injEq .. ▸ List.mem_singleton.1 h
      rintro c ⟨v, hv, hc⟩ w hw
      obtain rfl : v = (none : Option Str) := Except.ok.inj (hv.symm.trans (by rfl))
      obtain rfl : c = .str [] := (Option.some.inj hc).symm
      cases hw
      rfl, trivial⟩, trivial⟩
    recSets_ok 2000 (by
      intro set hset
      simp only [recSets, List.mem_cons, List.not_mem_nil, or_false] at hset
      rcases hset with rfl | rfl | rfl
      · refine ⟨?_, ?_⟩
        · rw [rec_members]
          have := peopleSet_given true
          refine ⟨fun i hi x f j h hj => ?_, this.2⟩
          have k := this.1 i hi x f j h hj
          rw [people_members] at hi ⊢
          simp only [peopleSet, List.mem_singleton, Prod.mk.injEq] at h
          obtain ⟨rfl, rfl⟩ := h
          match i, hi with
          | 0, _ => exact k
          | 1, _ => exact k
        · decide
      · refine ⟨?_, by decide, by decide⟩
        intro m hm t ht
        obtain rfl : m = textElem c%"tag" c%"t1" := List.mem_singleton.1 hm
        cases ht
        decide +kernel
      · refine ⟨?_, by decide, by decide⟩
        intro m hm t ht
        obtain rfl : m = textElem c%"num" c%"7" := List.mem_singleton.1 hm
        obtain rfl : (7 : Int) = t := Option.some.inj ht
        decide)
    ⟨fun _ => rfl, ⟨fun _ => rfl, trivial⟩, trivial⟩ (by
      intro set hset
      simp only [recSets, List.mem_cons, List.not_mem_nil, or_false] at hset
      rcases hset with rfl | rfl | rfl
      · exact fun _ => rfl
      · trivial
      · trivial)
  exact h

end Props
