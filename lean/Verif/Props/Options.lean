import Verif.Forms.OptionsProofs
import Verif.Spec.Words
/-
Properties C91, C92, C93: form classes with their options: the inner class `Meta` and `xmlobjectform_factory`, the options of formsets; labels, help texts and widgets;
declared fields and subforms, and inheritance.

Model: Verif/Forms/Options.lean.
-/
namespace Props
open Forms Py

/-! ### specification -/

/-- A table of fields as in `ModelOk`. -/
structure DModelOk (m : DModel) : Prop where
  wf : m.Wf
  nodot : ∀ x ∈ Dict.keys m, '.' ∉ x
  counters : (m.map (fun p => p.2.base.counter)).Nodup

/-- Bodies of classes and tables of declared fields are Python dictionaries. -/
structure BodyOk (bases : List RForm) (body : ClassBody) : Prop where
  own : body.own.Wf
  bases : ∀ b ∈ bases, Dict.Wf b.declared

/-- The form class that a body declares for a subform or formset, -/
def declaredClass (body : ClassBody) (x : Str) : Option RForm := match body.own.get? x with
  | some (.subform c _ _ _) => c
  | _ => none
/-- and the label declared with it. -/
def declaredLabel (body : ClassBody) (x : Str) : Option Str := match body.own.get? x with
  | some (.subform _ l _ _) => l
  | _ => none

/-- The last of the base classes that declares the field `x` declares it as `v`. -/
def LastDeclares (bases : List RForm) (x : Str) (v : RField) : Prop :=
  ∃ l b r, bases = l ++ b :: r ∧ b.declared.get? x = some v ∧ ∀ b' ∈ r, Dict.get? b'.declared x = none

/-- The label of an xmlmap field: its `verbose_name`, or else one made from its name. -/
def shownName (x : Str) (f : DField) : Str := f.verbose.getD (fieldLabel x)

/-- What a dictionary `widgets` has for a name. -/
def widgetOf : Option WArg → Str → Option WArg
  | some (.dict l), x => Dict.get? l x
  | _, _ => none

/-! ### lemmas -/

theorem plain_ok {m : DModel} (h : DModelOk m) : ModelOk m.plain := by
  refine ⟨?_, ?_, ?_⟩
  · have : Dict.keys (DModel.plain m) = Dict.keys m := by simp [DModel.plain, mapVals, Dict.keys]
    unfold Dict.Wf; rw [this]; exact h.wf
  · have : Dict.keys (DModel.plain m) = Dict.keys m := by simp [DModel.plain, mapVals, Dict.keys]
    rw [this]; exact h.nodot
  · have : (DModel.plain m).map (fun p => p.2.counter) = m.map (fun p => p.2.base.counter) := by simp [DModel.plain, mapVals]
    rw [this]; exact h.counters

/-- The last entry for a key counts. -/
theorem update_append {α : Type} (d a b : Dict Str α) : d.update (a ++ b) = (d.update a).update b := by
  simp [Dict.update, List.foldl_append]

theorem decls_get? (bases : List RForm) (hb : ∀ b ∈ bases, Dict.Wf b.declared) (d : Dict Str Decl) (x : Str) :
    Dict.get? (d.update (bases.flatMap (fun b => b.declared.map (fun p => (p.1, Decl.field p.2))))) x = some o ↔
      (∃ v, o = .field v ∧ LastDeclares bases x v) ∨ ((∀ b ∈ bases, Dict.get? b.declared x = none) ∧ d.get? x = some o) := by
  induction bases generalizing d with
  | nil => simp [Dict.update, LastDeclares]
  | cons b bs ih =>
    rw [List.flatMap_cons, update_append, ih (fun b' h => hb b' (by simp [h]))]
    have e : b.declared.map (fun p => (p.1, Decl.field p.2)) = mapVals Decl.field b.declared := rfl
    have hw : Dict.Wf (mapVals Decl.field b.declared) := by
      have : Dict.keys (mapVals Decl.field b.declared) = Dict.keys b.declared := by simp [mapVals, Dict.keys]
      unfold Dict.Wf; rw [this]; exact hb b (by simp)
    rw [e, Dict.get?_update _ hw, mapVals_get?]
    constructor
    · rintro (⟨v, rfl, l, b', r, rfl, h1, h2⟩ | ⟨h1, h2⟩)
      · exact .inl ⟨v, rfl, b :: l, b', r, rfl, h1, h2⟩
      · cases hx : Dict.get? b.declared x with
        | none =>
          rw [hx] at h2
          refine .inr ⟨fun b' hb' => ?_, h2⟩
          rcases List.mem_cons.1 hb' with rfl | hb'
          · exact hx
          · exact h1 b' hb'
        | some v =>
          rw [hx] at h2
          simp only [Option.map_some, Option.some_or, Option.some.injEq] at h2
          exact .inl ⟨v, h2.symm, [], b, bs, rfl, hx, h1⟩
    · rintro (⟨v, rfl, l, b', r, e', h1, h2⟩ | ⟨h1, h2⟩)
      · cases l with
        | nil =>
          simp only [List.nil_append, List.cons.injEq] at e'
          obtain ⟨rfl, rfl⟩ := e'
          exact .inr ⟨h2, by rw [h1]; rfl⟩
        | cons z l =>
          simp only [List.cons_append, List.cons.injEq] at e'
          obtain ⟨rfl, rfl⟩ := e'
          exact .inl ⟨v, rfl, l, b', r, rfl, h1, h2⟩
      · exact .inr ⟨fun b' hb' => h1 b' (by simp [hb']), by rw [h1 b (by simp)]; exact h2⟩

theorem allDecls_get? {bases : List RForm} {body : ClassBody} (hb : BodyOk bases body) (x : Str) (o : Decl) :
    Dict.get? (allDecls bases body.own) x = some o ↔ body.own.get? x = some o ∨ (body.own.get? x = none ∧ ∃ v, o = .field v ∧ LastDeclares bases x v) := by
  unfold allDecls
  rw [update_append, Dict.get?_update _ hb.own]
  cases h : body.own.get? x with
  | some o' => simp
  | none =>
    rw [Option.none_or, decls_get? bases hb.bases]
    simp [Dict.get?]

theorem allDecls_wf (bases : List RForm) (own : Dict Str Decl) : Dict.Wf (allDecls bases own) := Dict.Wf.update (by simp [Dict.Wf, Dict.keys]) _

theorem sortDecls_keys {d : List (Str × Decl)} {fs ss ls} (h : sortDecls d = .ok (fs, ss, ls)) :
    (∀ x v, (x, v) ∈ fs ↔ (x, Decl.field v) ∈ d) ∧ (∀ x c, (x, c) ∈ ss ↔ ∃ l a b, (x, Decl.subform (some c) l a b) ∈ d) ∧
    (∀ x t, (x, t) ∈ ls ↔ ∃ c l a b, (x, Decl.subform (some c) l a b) ∈ d ∧ l.or c.label = some t) ∧
    List.Sublist (Dict.keys fs) (Dict.keys d) ∧ List.Sublist (Dict.keys ss) (Dict.keys d) ∧ List.Sublist (Dict.keys ls) (Dict.keys d) := by
  induction d generalizing fs ss ls with
  | nil => simp [sortDecls] at h; obtain ⟨rfl, rfl, rfl⟩ := h; simp [Dict.keys]
  | cons p d ih =>
    obtain ⟨y, o⟩ := p
    match o with
    | .field f =>
      rw [sortDecls] at h
      cases hr : sortDecls d with
      | error e => rw [hr] at h; simp at h
      | ok r =>
        obtain ⟨fs', ss', ls'⟩ := r
        rw [hr] at h
        simp only [Except.ok.injEq, Prod.mk.injEq] at h
        obtain ⟨rfl, rfl, rfl⟩ := h
        obtain ⟨h1, h2, h3, h4, h5, h6⟩ := ih hr
        refine ⟨fun x v => ?_, fun x c => ?_, fun x t => ?_, h4.cons₂ y, h5.cons y, h6.cons y⟩
        · simp [h1 x v]
        · simp [h2 x c]
        · simp [h3 x t]
    | .subform none _ _ _ => rw [sortDecls] at h; simp at h
    | .subform (some c0) l0 a0 b0 =>
      rw [sortDecls] at h
      cases hr : sortDecls d with
      | error e => rw [hr] at h; simp at h
      | ok r =>
        obtain ⟨fs', ss', ls'⟩ := r
        rw [hr] at h
        simp only [Except.ok.injEq, Prod.mk.injEq] at h
        obtain ⟨rfl, rfl, rfl⟩ := h
        obtain ⟨h1, h2, h3, h4, h5, h6⟩ := ih hr
        refine ⟨fun x v => ?_, fun x c => ?_, fun x t => ?_, h4.cons y, h5.cons₂ y, ?_⟩
        · simp [h1 x v]
        · rw [List.mem_cons, h2 x c]
          constructor
          · rintro (e | ⟨l, a, b, hm⟩)
            · simp only [Prod.mk.injEq] at e; obtain ⟨rfl, rfl⟩ := e; exact ⟨l0, a0, b0, by simp⟩
            · exact ⟨l, a, b, by simp [hm]⟩
          · rintro ⟨l, a, b, hm⟩
            rcases List.mem_cons.1 hm with e | hm
            · simp at e; exact .inl (by simp [e])
            · exact .inr ⟨l, a, b, hm⟩
        · have step : (∃ c l a b, (x, Decl.subform (some c) l a b) ∈ (y, Decl.subform (some c0) l0 a0 b0) :: d ∧ l.or c.label = some t) ↔
              (x = y ∧ l0.or c0.label = some t) ∨ ∃ c l a b, (x, Decl.subform (some c) l a b) ∈ d ∧ l.or c.label = some t := by
            constructor
            · rintro ⟨c, l, a, b, hm, ht⟩
              rcases List.mem_cons.1 hm with e | hm
              · simp at e; obtain ⟨rfl, rfl, rfl, rfl, rfl⟩ := e; exact .inl ⟨rfl, ht⟩
              · exact .inr ⟨c, l, a, b, hm, ht⟩
            · rintro (⟨rfl, ht⟩ | ⟨c, l, a, b, hm, ht⟩)
              · exact ⟨c0, l0, a0, b0, by simp, ht⟩
              · exact ⟨c, l, a, b, by simp [hm], ht⟩
          rw [step, ← h3 x t]
          cases ht : l0.or c0.label with
          | none => simp
          | some t' => simp [Prod.ext_iff, eq_comm]
        · cases ht : l0.or c0.label with
          | none => exact h6.cons y
          | some t' => exact h6.cons₂ y

theorem get?_iff_mem {α : Type} {d : Dict Str α} (hd : d.Wf) (x : Str) (v : α) : d.get? x = some v ↔ (x, v) ∈ d := ⟨Dict.mem_of_get?, Dict.get?_of_mem hd⟩

/-- The declarations of a class, by kind. -/
theorem sorted_get? {bases : List RForm} {body : ClassBody} {fs ss ls} (hb : BodyOk bases body) (h : sortDecls (allDecls bases body.own) = .ok (fs, ss, ls)) (x : Str) :
    (∀ v, fs.get? x = some v ↔ body.own.get? x = some (.field v) ∨ (body.own.get? x = none ∧ LastDeclares bases x v)) ∧
    ss.get? x = declaredClass body x ∧ (∀ t, ls.get? x = some t ↔ ∃ d, declaredClass body x = some d ∧ (declaredLabel body x).or d.label = some t) ∧ fs.Wf ∧ ls.Wf := by
  have hw := allDecls_wf bases body.own
  obtain ⟨h1, h2, h3, h4, h5, h6⟩ := sortDecls_keys h
  have w1 : fs.Wf := h4.nodup hw
  have w2 : ss.Wf := h5.nodup hw
  have w3 : ls.Wf := h6.nodup hw
  refine ⟨fun v => ?_, ?_, fun t => ?_, w1, w3⟩
  · rw [get?_iff_mem w1, h1, ← get?_iff_mem hw, allDecls_get? hb]
    simp
  · apply Option.ext
    intro c
    rw [get?_iff_mem w2, h2]
    unfold declaredClass
    constructor
    · rintro ⟨l, a, b, hm⟩
      rw [← get?_iff_mem hw, allDecls_get? hb] at hm
      rcases hm with hm | ⟨_, v, hv, _⟩
      · rw [hm]
      · simp at hv
    · intro hc
      cases ho : body.own.get? x with
      | none => rw [ho] at hc; simp at hc
      | some o =>
        rw [ho] at hc
        match o with
        | .field f => simp at hc
        | .subform c' l a b =>
          simp only at hc
          subst hc
          exact ⟨l, a, b, (get?_iff_mem hw _ _).1 ((allDecls_get? hb _ _).2 (.inl ho))⟩
  · rw [get?_iff_mem w3, h3]
    unfold declaredClass declaredLabel
    constructor
    · rintro ⟨c, l, a, b, hm, ht⟩
      rw [← get?_iff_mem hw, allDecls_get? hb] at hm
      rcases hm with hm | ⟨_, v, hv, _⟩
      · rw [hm]; exact ⟨c, rfl, ht⟩
      · simp at hv
    · rintro ⟨d, hc, ht⟩
      cases ho : body.own.get? x with
      | none => rw [ho] at hc; simp at hc
      | some o =>
        rw [ho] at hc ht
        match o with
        | .field f => simp at hc
        | .subform c' l a b =>
          simp only at hc ht
          subst hc
          exact ⟨d, l, a, b, (get?_iff_mem hw _ _).1 ((allDecls_get? hb _ _).2 (.inl ho)), ht⟩

/-- The list that is used: the one that is given (as names, or parsed), or else another one. -/
def listOr (includeParents : Bool) (l : ListArg) (other : Option PFL) : Option PFL := match l with
  | .none => other
  | .names l => some (parseFieldList l includeParents)
  | .parsed l => some l

/-! ### C91: options -/

section
variable {models : Nat → DModel} {n cls : Nat}

/-- `xmlobjectform_factory`: an option that is given counts, and one that is not (None) is that of the form class it is made from. -/
theorem C91_factory {gen : Gen} {form : RForm} {args : FactoryArgs} {c : RForm} (h : factory gen models cls form args = .ok c) :
    c.opts.model = some cls ∧ c.opts.fields = listOr true args.fields form.opts.fields ∧ c.opts.exclude = listOr false args.exclude form.opts.exclude ∧
    c.opts.widgets = args.widgets.or form.opts.widgets ∧ c.opts.maxNum = args.maxNum.or form.opts.maxNum ∧ c.opts.extra = args.extra.getD form.opts.extra ∧
    c.opts.canDelete = args.canDelete.getD form.opts.canDelete ∧ c.opts.canOrder = args.canOrder.getD form.opts.canOrder ∧ c.label = args.label := by
  obtain ⟨h1, h2⟩ := factory_opts h
  unfold RForm.opts RForm.label
  rw [h1, h2]
  obtain ⟨af, ae, aw, am, al, ad, ax, ao⟩ := args
  cases hm : form.meta? with
  | none =>
    refine ⟨rfl, ?_, ?_, ?_, ?_, ?_, ?_, ?_, ?_⟩
    · cases af <;> rfl
    · cases ae <;> rfl
    · cases aw <;> rfl
    · cases am <;> rfl
    · cases ax <;> rfl
    · cases ad <;> rfl
    · cases ao <;> rfl
    · cases al <;> rfl
  | some m =>
    obtain ⟨b1, b2, b3, b4, b5, b6, b7, b8⟩ := m
    refine ⟨rfl, ?_, ?_, ?_, ?_, ?_, ?_, ?_, ?_⟩
    · cases af <;> simp [optsOf, MetaAttrs.over, givenList, listOr, parsedOf]
    · cases ae <;> simp [optsOf, MetaAttrs.over, givenList, listOr, parsedOf]
    · cases aw <;> simp [optsOf, MetaAttrs.over]
    · cases am <;> simp [optsOf, MetaAttrs.over]
    · cases ax <;> simp [optsOf, MetaAttrs.over]
    · cases ad <;> simp [optsOf, MetaAttrs.over]
    · cases ao <;> simp [optsOf, MetaAttrs.over]
    · cases al <;> simp

theorem inherited_none {α : Type} (g : RForm → Option α) : ∀ bases : List RForm, (∀ b ∈ bases, g b = none) → inherited g bases = none
  | [], _ => rfl
  | b :: bs, h => by
    show (g b).or _ = _
    rw [h b (by simp)]
    exact inherited_none g bs (fun b' hb' => h b' (by simp [hb']))

/-- A class statement without an inner class `Meta` has the options of its first base class that has one; with one, those of it; where an option is missing: no list, no
widgets, no maximum, one extra form, deletion and no ordering. -/
theorem C91_statement {gen : Gen} {bases : List RForm} {body : ClassBody} {c : RForm} (h : classStatement gen models bases body = .ok c) :
    (∀ m, body.opts = some m → c.opts = ⟨m.model, listOr true (m.fields.getD .none) none, listOr false (m.exclude.getD .none) none, m.widgets.join, m.maxNum.join, m.canDelete.getD true,
      m.canOrder.getD false, m.extra.getD 1⟩) ∧
    (body.opts = none → (∀ b ∈ bases, b.meta? = none) → c.opts = ⟨none, none, none, none, none, true, false, 1⟩) ∧
    (body.opts = none → ∀ l b r, bases = l ++ b :: r → (∀ b' ∈ l, b'.meta? = none) → b.meta? ≠ none → c.opts = b.opts) := by
  obtain ⟨_, _, _, _, h1, _⟩ := classStatement_ok h
  unfold RForm.opts
  rw [h1]
  have inh : ∀ (l : List RForm) b r, (∀ b' ∈ l, b'.meta? = none) → b.meta? ≠ none → inherited RForm.meta? (l ++ b :: r) = b.meta? := by
    intro l b r hl hb
    induction l with
    | nil =>
      show (b.meta?).or _ = _
      cases hm : b.meta? with
      | none => exact absurd hm hb
      | some m => rfl
    | cons z l ih =>
      show (z.meta?).or _ = _
      rw [hl z (by simp)]
      exact ih (fun b' hb' => hl b' (by simp [hb']))
  refine ⟨fun m hm => ?_, fun hn hb => ?_, fun hn l b r e hl hb => ?_⟩
  · rw [hm]
    obtain ⟨a1, a2, a3, a4, a5, a6, a7, a8⟩ := m
    show optsOf (some _) = _
    simp only [optsOf]
    have e1 : parsedOf true a2 = listOr true (a2.getD .none) none := by
      cases a2 with
      | none => rfl
      | some l => cases l <;> rfl
    have e2 : parsedOf false a3 = listOr false (a3.getD .none) none := by
      cases a3 with
      | none => rfl
      | some l => cases l <;> rfl
    rw [e1, e2]
  · rw [hn]
    rw [inherited_none _ _ hb]; rfl
  · rw [hn, e, inh l b r hl hb]; rfl

/-- Which fields, subforms and formsets a class has does not depend on widgets, labels and the options of formsets: they are those of C48 and C68. -/
theorem C91_same_parts {bases : List RForm} {body : ClassBody} {c : RForm} (hb : BodyOk bases body) (h : classStatement (subFactory models n) models bases body = .ok c)
    (hc : c.opts.model = some cls) (fields exclude : Option (List Str)) (hf : c.opts.fields = parsedFields fields) (he : c.opts.exclude = parsedExclude exclude) :
    ∃ ds : Dict Str FormClass, (∀ x, ds.get? x = (declaredClass body x).map RForm.plain) ∧
      formStatement (fun k => (models k).plain) n cls fields exclude (mapVals RField.base c.declared) ds = .ok c.plain := by
  obtain ⟨fs, ss, ls, hs, _, _, hd, _⟩ := classStatement_ok h
  obtain ⟨c', h1, h2⟩ := classStatement_plain (subFactory_plain models n) h hc hs
  refine ⟨mapVals RForm.plain ss, fun x => ?_, ?_⟩
  · rw [mapVals_get?, (sorted_get? hb hs x).2.1]
  · unfold formStatement
    rw [hf, he] at h1
    rw [h1, h2, hd]

theorem partOf_formset {gen : Gen} {declared : Dict Str RForm} {fl ex : Option PFL} {w : Option WArg} {x : Str} {f : DField} {o : SetOpts} {d : RForm}
    (h : richPart gen declared fl ex w x f = .ok (.formset o d)) :
    f.base.choices = [] ∧
    ((∃ cls, f.base.type = .nodeList cls ∧ o = ⟨d.opts.maxNum, d.opts.canDelete, d.opts.extra, d.opts.canOrder, labelOf x f⟩ ∧
        (declared.get? x = some d ∨ declared.get? x = none ∧ ∃ wd, widgetFor w x = .ok wd ∧ gen cls (subList fl x) (subList ex x) wd (labelOf x f) = .ok d)) ∨
      (f.base.type = .stringList ∧ o = listSetOpts (labelOf x f) ∧ d = .listForm false) ∨ (f.base.type = .integerList ∧ o = listSetOpts (labelOf x f) ∧ d = .listForm true)) := by
  unfold richPart at h
  cases hw : widgetFor w x with
  | error e => rw [hw] at h; simp at h
  | ok wd =>
    rw [hw] at h
    simp only at h
    by_cases hc : f.base.choices ≠ []
    · rw [if_pos hc] at h; simp at h
    · rw [if_neg hc] at h
      refine ⟨by simpa using hc, ?_⟩
      cases ht : f.base.type with
      | nodeList cls =>
        rw [ht] at h; simp only at h
        refine .inl ⟨cls, rfl, ?_⟩
        cases hd : declared.get? x with
        | some c =>
          rw [hd] at h; simp only at h
          have := formsetOf_ok h
          simp only [RPart.formset.injEq] at this
          obtain ⟨rfl, rfl⟩ := this
          exact ⟨rfl, .inl rfl⟩
        | none =>
          rw [hd] at h; simp only at h
          cases hg : gen cls (subList fl x) (subList ex x) wd (labelOf x f) with
          | error e => rw [hg] at h; simp at h
          | ok c =>
            rw [hg] at h; simp only at h
            have := formsetOf_ok h
            simp only [RPart.formset.injEq] at this
            obtain ⟨rfl, rfl⟩ := this
            exact ⟨rfl, .inr ⟨rfl, wd, rfl, hg⟩⟩
      | node cls =>
        rw [ht] at h; simp only at h
        cases hd : declared.get? x with
        | some c => rw [hd] at h; simp at h
        | none =>
          rw [hd] at h; simp only at h
          cases hg : gen cls (subList fl x) (subList ex x) wd (labelOf x f) <;> rw [hg] at h <;> simp [Except.map] at h
      | stringList =>
        rw [ht] at h; simp only [Except.ok.injEq, RPart.formset.injEq] at h
        exact .inr (.inl ⟨rfl, h.1.symm, h.2.symm⟩)
      | integerList =>
        rw [ht] at h; simp only [Except.ok.injEq, RPart.formset.injEq] at h
        exact .inr (.inr ⟨rfl, h.1.symm, h.2.symm⟩)
      | string => rw [ht] at h; simp at h
      | integer => rw [ht] at h; simp at h
      | date => rw [ht] at h; simp at h
      | simpleBoolean => rw [ht] at h; simp at h
      | other => rw [ht] at h; simp at h

theorem partOf_subform {gen : Gen} {declared : Dict Str RForm} {fl ex : Option PFL} {w : Option WArg} {x : Str} {f : DField} {d : RForm}
    (h : richPart gen declared fl ex w x f = .ok (.subform d)) :
    f.base.choices = [] ∧ ∃ cls, f.base.type = .node cls ∧
      (declared.get? x = some d ∨ declared.get? x = none ∧ ∃ wd, widgetFor w x = .ok wd ∧ gen cls (subList fl x) (subList ex x) wd (labelOf x f) = .ok d) := by
  unfold richPart at h
  cases hw : widgetFor w x with
  | error e => rw [hw] at h; simp at h
  | ok wd =>
    rw [hw] at h
    simp only at h
    by_cases hc : f.base.choices ≠ []
    · rw [if_pos hc] at h; simp at h
    · rw [if_neg hc] at h
      refine ⟨by simpa using hc, ?_⟩
      cases ht : f.base.type with
      | node cls =>
        rw [ht] at h; simp only at h
        refine ⟨cls, rfl, ?_⟩
        cases hd : declared.get? x with
        | some c => rw [hd] at h; simp at h; exact .inl (by rw [h])
        | none =>
          rw [hd] at h; simp only at h
          cases hg : gen cls (subList fl x) (subList ex x) wd (labelOf x f) with
          | error e => rw [hg] at h; simp [Except.map] at h
          | ok c => rw [hg] at h; simp [Except.map] at h; subst h; exact .inr ⟨rfl, wd, rfl, hg⟩
      | nodeList cls =>
        rw [ht] at h; simp only at h
        cases hd : declared.get? x with
        | some c => rw [hd] at h; simp only at h; have := formsetOf_ok h; simp at this
        | none =>
          rw [hd] at h; simp only at h
          cases hg : gen cls (subList fl x) (subList ex x) wd (labelOf x f) with
          | error e => rw [hg] at h; simp at h
          | ok c => rw [hg] at h; simp only at h; have := formsetOf_ok h; simp at this
      | stringList => rw [ht] at h; simp at h
      | integerList => rw [ht] at h; simp at h
      | string => rw [ht] at h; simp at h
      | integer => rw [ht] at h; simp at h
      | date => rw [ht] at h; simp at h
      | simpleBoolean => rw [ht] at h; simp at h
      | other => rw [ht] at h; simp at h

theorem partOf_field {gen : Gen} {declared : Dict Str RForm} {fl ex : Option PFL} {w : Option WArg} {x : Str} {f : DField} {v : RField}
    (h : richPart gen declared fl ex w x f = .ok (.field v)) : v.label = labelOf x f ∧ v.help = f.help ∧ widgetFor w x = .ok v.widget := by
  unfold richPart at h
  cases hw : widgetFor w x with
  | error e => rw [hw] at h; simp at h
  | ok wd =>
    rw [hw] at h
    simp only at h
    by_cases hc : f.base.choices ≠ []
    · rw [if_pos hc] at h; simp only [Except.ok.injEq, RPart.field.injEq] at h; subst h; exact ⟨rfl, rfl, rfl⟩
    · rw [if_neg hc] at h
      cases ht : f.base.type with
      | node cls =>
        rw [ht] at h; simp only at h
        cases hd : declared.get? x with
        | some c => rw [hd] at h; simp at h
        | none =>
          rw [hd] at h; simp only at h
          cases hg : gen cls (subList fl x) (subList ex x) wd (labelOf x f) <;> rw [hg] at h <;> simp [Except.map] at h
      | nodeList cls =>
        rw [ht] at h; simp only at h
        cases hd : declared.get? x with
        | some c => rw [hd] at h; simp only at h; have := formsetOf_ok h; simp at this
        | none =>
          rw [hd] at h; simp only at h
          cases hg : gen cls (subList fl x) (subList ex x) wd (labelOf x f) with
          | error e => rw [hg] at h; simp at h
          | ok c => rw [hg] at h; simp only at h; have := formsetOf_ok h; simp at this
      | stringList => rw [ht] at h; simp at h
      | integerList => rw [ht] at h; simp at h
      | other => rw [ht] at h; simp at h
      | string => rw [ht] at h; simp only [Except.ok.injEq, RPart.field.injEq] at h; subst h; exact ⟨rfl, rfl, rfl⟩
      | integer => rw [ht] at h; simp only [Except.ok.injEq, RPart.field.injEq] at h; subst h; exact ⟨rfl, rfl, rfl⟩
      | date => rw [ht] at h; simp only [Except.ok.injEq, RPart.field.injEq] at h; subst h; exact ⟨rfl, rfl, rfl⟩
      | simpleBoolean => rw [ht] at h; simp only [Except.ok.injEq, RPart.field.injEq] at h; subst h; exact ⟨rfl, rfl, rfl⟩

/-- What is generated for a class of sub-objects: its options and label. -/
theorem generated_opts {k : Nat} {fl ex : Option PFL} {w : Option WArg} {l : Str} {d : RForm} (h : subFactory models n k fl ex w l = .ok d) :
    d.opts = ⟨some k, fl, ex, w, none, true, false, 1⟩ ∧ d.label = some l := by
  cases n with
  | zero => simp [subFactory] at h
  | succ n =>
    rw [subFactory] at h
    obtain ⟨h1, h2, h3, h4, h5, h6, h7, h8, h9⟩ := C91_factory h
    refine ⟨?_, h9⟩
    have e : d.opts = ⟨d.opts.model, d.opts.fields, d.opts.exclude, d.opts.widgets, d.opts.maxNum, d.opts.canDelete, d.opts.canOrder, d.opts.extra⟩ := rfl
    rw [e, h1, h2, h3, h4, h5, h6, h7, h8]
    cases fl <;> cases ex <;> cases w <;> rfl

section
variable {bases : List RForm} {body : ClassBody} {c : RForm}

/-- The entries of a class with a model. -/
theorem class_get? (hm : DModelOk (models cls)) (hb : BodyOk bases body) {gen : Gen} (h : classStatement gen models bases body = .ok c) (hc : c.opts.model = some cls) (x : Str) :
    ∃ ss : Dict Str RForm, ss.get? x = declaredClass body x ∧
      (∀ v, c.fields.get? x = some v ↔ c.declared.get? x = some v ∨
        (c.declared.get? x = none ∧ ∃ f, (models cls).get? x = some f ∧ skip c.opts.fields c.opts.exclude x = false ∧ richPart gen ss c.opts.fields c.opts.exclude c.opts.widgets x f = .ok (.field v))) ∧
      (∀ v, c.subforms.get? x = some v ↔ ∃ f, (models cls).get? x = some f ∧ skip c.opts.fields c.opts.exclude x = false ∧
        richPart gen ss c.opts.fields c.opts.exclude c.opts.widgets x f = .ok (.subform v)) ∧
      (∀ o v, c.formsets.get? x = some (o, v) ↔ ∃ f, (models cls).get? x = some f ∧ skip c.opts.fields c.opts.exclude x = false ∧
        richPart gen ss c.opts.fields c.opts.exclude c.opts.widgets x f = .ok (.formset o v)) ∧
      (∀ t, c.subformLabels.get? x = some t ↔ (∃ d, declaredClass body x = some d ∧ (declaredLabel body x).or d.label = some t) ∨
        ((∀ d, declaredClass body x = some d → (declaredLabel body x).or d.label = none) ∧ (nodeLabels c.opts.fields c.opts.exclude (models cls)).get? x = some t)) := by
  obtain ⟨fs, ss, ls, hs, _, _, hd, _, h2⟩ := classStatement_ok h
  obtain ⟨g, h3, h4⟩ := h2 cls hc
  obtain ⟨s1, s2, s3, w1, w3⟩ := sorted_get? hb hs x
  obtain ⟨g1, g2, g3, g4⟩ := richFields_get? hm.wf hm.counters h3 x
  have ef : c.fields = Dict.update g.fields fs := by conv_lhs => rw [h4]
                                                     rfl
  have es : c.subforms = g.subforms := by conv_lhs => rw [h4]
                                          rfl
  have et : c.formsets = g.formsets := by conv_lhs => rw [h4]
                                          rfl
  have el : c.subformLabels = Dict.update g.labels ls := by conv_lhs => rw [h4]
                                                            rfl
  refine ⟨ss, s2, fun v => ?_, fun v => ?_, fun o v => ?_, fun t => ?_⟩
  · rw [ef, Dict.get?_update _ w1, hd, ← g1 v]
    cases Dict.get? fs x <;> simp
  · rw [es]; exact g2 v
  · rw [et]; exact g3 o v
  · rw [el, Dict.get?_update _ w3, g4]
    cases hl : Dict.get? ls x with
    | some t' =>
      obtain ⟨d, d1, d2⟩ := (s3 t').1 hl
      rw [Option.some_or]
      constructor
      · intro e; rw [← e]; exact .inl ⟨d, d1, d2⟩
      · rintro (⟨d', e1, e2⟩ | ⟨hno, _⟩)
        · rw [d1] at e1; injection e1 with e1; subst e1; rw [d2] at e2; exact e2
        · rw [hno d d1] at d2; simp at d2
    | none =>
      rw [Option.none_or]
      have hno : ∀ d, declaredClass body x = some d → (declaredLabel body x).or d.label = none := by
        intro d hd
        cases hx : (declaredLabel body x).or d.label with
        | none => rfl
        | some t' => rw [(s3 t').2 ⟨d, hd, hx⟩] at hl; simp at hl
      constructor
      · intro e; exact .inr ⟨hno, e⟩
      · rintro (⟨d, e1, e2⟩ | ⟨_, e⟩)
        · rw [hno d e1] at e2; simp at e2
        · exact e

/-- The options of formsets: those of the class of their forms, as for a declared one; for a generated one no maximum, deletion, one extra form, no ordering.  Formsets for lists of
strings or integers have neither deletion nor ordering, and one extra form. -/
theorem C91_formsets (hm : DModelOk (models cls)) (hb : BodyOk bases body) (h : classStatement (subFactory models n) models bases body = .ok c) (hc : c.opts.model = some cls)
    (x : Str) (o : SetOpts) (d : RForm) (hx : c.formsets.get? x = some (o, d)) : ∃ f, (models cls).get? x = some f ∧
      ((∃ k, f.base.type = .nodeList k) → (∀ d', declaredClass body x = some d' → d = d') ∧ o.maxNum = d.opts.maxNum ∧ o.canDelete = d.opts.canDelete ∧ o.extra = d.opts.extra ∧
        o.canOrder = d.opts.canOrder ∧ (declaredClass body x = none → o.maxNum = none ∧ o.canDelete = true ∧ o.extra = 1 ∧ o.canOrder = false)) ∧
      (f.base.type = .stringList ∨ f.base.type = .integerList → o.maxNum = none ∧ o.canDelete = false ∧ o.extra = 1 ∧ o.canOrder = false) := by
  obtain ⟨ss, e0, _, _, e3, _⟩ := class_get? hm hb h hc x
  obtain ⟨f, f1, _, f3⟩ := (e3 o d).1 hx
  refine ⟨f, f1, ?_, ?_⟩
  · rintro ⟨k, hk⟩
    rcases (partOf_formset f3).2 with ⟨k', _, rfl, hd⟩ | ⟨ht, _⟩ | ⟨ht, _⟩
    · refine ⟨fun d' hd' => ?_, rfl, rfl, rfl, rfl, fun hn => ?_⟩
      · rw [e0, hd'] at hd
        rcases hd with hd | ⟨hd, _⟩
        · injection hd with hd; exact hd.symm
        · simp at hd
      · rw [e0, hn] at hd
        rcases hd with hd | ⟨_, wd, _, hg⟩
        · simp at hd
        · rw [(generated_opts hg).1]; exact ⟨rfl, rfl, rfl, rfl⟩
    · rw [hk] at ht; simp at ht
    · rw [hk] at ht; simp at ht
  · intro ht
    rcases (partOf_formset f3).2 with ⟨k', hk, _⟩ | ⟨_, rfl, _⟩ | ⟨_, rfl, _⟩
    · rw [hk] at ht; simp at ht
    · exact ⟨rfl, rfl, rfl, rfl⟩
    · exact ⟨rfl, rfl, rfl, rfl⟩

/-- Only declarations change the class of a subform. -/
theorem C93_subform_classes (hm : DModelOk (models cls)) (hb : BodyOk bases body) (h : classStatement (subFactory models n) models bases body = .ok c) (hc : c.opts.model = some cls)
    (x : Str) (d : RForm) (hx : c.subforms.get? x = some d ∨ ∃ o k f, (models cls).get? x = some f ∧ f.base.type = .nodeList k ∧ c.formsets.get? x = some (o, d)) :
    (∀ d', declaredClass body x = some d' → d = d') ∧
    (declaredClass body x = none → ∃ f k, (models cls).get? x = some f ∧ (f.base.type = .node k ∨ f.base.type = .nodeList k) ∧
      subFactory models n k (subList c.opts.fields x) (subList c.opts.exclude x) (widgetOf c.opts.widgets x) (shownName x f) = .ok d) := by
  obtain ⟨ss, e0, _, e2, e3, _⟩ := class_get? hm hb h hc x
  have hw : ∀ wd, widgetFor c.opts.widgets x = .ok wd → wd = widgetOf c.opts.widgets x := by
    intro wd hwd
    match hv : c.opts.widgets with
    | none => rw [hv] at hwd; simp [widgetFor] at hwd; exact hwd.symm
    | some (.dict l) => rw [hv] at hwd; simp [widgetFor] at hwd; exact hwd.symm
    | some (.widget w) => rw [hv] at hwd; simp [widgetFor] at hwd
  have key : ∃ f k, (models cls).get? x = some f ∧ (f.base.type = .node k ∨ f.base.type = .nodeList k) ∧
      (ss.get? x = some d ∨ ss.get? x = none ∧ ∃ wd, widgetFor c.opts.widgets x = .ok wd ∧
        subFactory models n k (subList c.opts.fields x) (subList c.opts.exclude x) wd (labelOf x f) = .ok d) := by
    rcases hx with hx | ⟨o, k, f, hf, hk, hx⟩
    · obtain ⟨f, f1, _, f3⟩ := (e2 d).1 hx
      obtain ⟨_, k, hk, hd⟩ := partOf_subform f3
      exact ⟨f, k, f1, .inl hk, hd⟩
    · obtain ⟨f', f1, _, f3⟩ := (e3 o d).1 hx
      rw [hf] at f1
      injection f1 with f1
      subst f1
      rcases (partOf_formset f3).2 with ⟨k', hk', _, hd⟩ | ⟨ht, _⟩ | ⟨ht, _⟩
      · exact ⟨f, k', hf, .inr hk', hd⟩
      · rw [hk] at ht; simp at ht
      · rw [hk] at ht; simp at ht
  obtain ⟨f, k, f1, f2, hd⟩ := key
  refine ⟨fun d' hd' => ?_, fun hn => ?_⟩
  · rw [e0, hd'] at hd
    rcases hd with hd | ⟨hd, _⟩
    · injection hd with hd; exact hd.symm
    · simp at hd
  · rw [e0, hn] at hd
    rcases hd with hd | ⟨_, wd, hwd, hg⟩
    · simp at hd
    · rw [hw wd hwd] at hg; exact ⟨f, k, f1, f2, hg⟩

/-! ### C92: labels, help texts, widgets -/

/-- A generated form field: the label is the `verbose_name`, or else made from the name; the help text is that of the xmlmap field; the widget that of the option `widgets`. -/
theorem C92_fields (hm : DModelOk (models cls)) (hb : BodyOk bases body) (h : classStatement (subFactory models n) models bases body = .ok c) (hc : c.opts.model = some cls)
    (x : Str) (v : RField) (hx : c.fields.get? x = some v) (hd : c.declared.get? x = none) :
    ∃ f, (models cls).get? x = some f ∧ v.label = f.verbose.getD (fieldLabel x) ∧ v.help = f.help ∧ v.widget = widgetOf c.opts.widgets x := by
  obtain ⟨ss, _, e1, _⟩ := class_get? hm hb h hc x
  rcases (e1 v).1 hx with h1 | ⟨_, f, f1, _, f3⟩
  · rw [hd] at h1; simp at h1
  · obtain ⟨p1, p2, p3⟩ := partOf_field f3
    refine ⟨f, f1, p1, p2, ?_⟩
    match hv : c.opts.widgets with
    | none => rw [hv] at p3; simp [widgetFor] at p3; exact p3.symm
    | some (.dict l) => rw [hv] at p3; simp [widgetFor] at p3; exact p3.symm
    | some (.widget w) => rw [hv] at p3; simp [widgetFor] at p3

/-- The label shown with a subform: that of its form class; else the one declared with it; else the `verbose_name` of the NodeField; else one made from the name of the field.  So every
subform has a label. -/
theorem C92_subforms (hm : DModelOk (models cls)) (hb : BodyOk bases body) (h : classStatement (subFactory models n) models bases body = .ok c) (hc : c.opts.model = some cls)
    (x : Str) (d : RForm) (hx : c.subforms.get? x = some d) :
    ∃ f, (models cls).get? x = some f ∧ subformLabel c x d = some (d.label.getD ((declaredLabel body x).getD (f.verbose.getD (fieldLabel x)))) ∧
      (declaredClass body x = none → d.label = some (f.verbose.getD (fieldLabel x))) := by
  obtain ⟨ss, e0, _, e2, _, e4⟩ := class_get? hm hb h hc x
  obtain ⟨f, f1, f2, f3⟩ := (e2 d).1 hx
  obtain ⟨hch, k, hk, hd⟩ := partOf_subform f3
  refine ⟨f, f1, ?_, fun hn => ?_⟩
  · unfold subformLabel
    cases hl : d.label with
    | some t => simp
    | none =>
      rw [Option.none_or, Option.getD_none, e4]
      have hdc : declaredClass body x = some d := by
        rw [e0] at hd
        rcases hd with hd | ⟨_, wd, _, hg⟩
        · exact hd
        · rw [(generated_opts hg).2] at hl; simp at hl
      cases ht : declaredLabel body x with
      | some t => exact .inl ⟨d, hdc, rfl⟩
      | none =>
        refine .inr ⟨fun d' hd' => ?_, ?_⟩
        · rw [hdc] at hd'; injection hd' with hd'; subst hd'; rw [hl]; rfl
        · have hw : Dict.Wf (nodeLabels c.opts.fields c.opts.exclude (models cls)) := by
            refine List.Sublist.nodup ?_ hm.wf
            have : ∀ m : DModel, List.Sublist (Dict.keys (nodeLabels c.opts.fields c.opts.exclude m)) (Dict.keys m) := by
              intro m
              induction m with
              | nil => exact List.Sublist.refl _
              | cons p m ih =>
                unfold nodeLabels at ih ⊢
                rw [List.filterMap_cons]
                by_cases hp : (!skip c.opts.fields c.opts.exclude p.1 && isNodeField p.2) = true
                · rw [if_pos hp]; exact ih.cons₂ p.1
                · rw [if_neg hp]; exact ih.cons p.1
            exact this _
          apply Dict.get?_of_mem hw
          refine List.mem_filterMap.2 ⟨(x, f), Dict.mem_of_get? f1, ?_⟩
          rw [if_pos (by simp [f2, isNodeField, hch, hk])]
          rfl
  · rw [e0, hn] at hd
    rcases hd with hd | ⟨_, wd, _, hg⟩
    · simp at hd
    · exact (generated_opts hg).2

theorem nodeLabels_get? {fl ex : Option PFL} {m : DModel} (hw : m.Wf) (x t : Str) : (nodeLabels fl ex m).get? x = some t ↔
    ∃ f, m.get? x = some f ∧ skip fl ex x = false ∧ f.base.choices = [] ∧ ((∃ k, f.base.type = .node k) ∨ ∃ k, f.base.type = .nodeList k) ∧ t = f.verbose.getD (fieldLabel x) := by
  have hsub : ∀ m : DModel, List.Sublist (Dict.keys (nodeLabels fl ex m)) (Dict.keys m) := by
    intro m
    induction m with
    | nil => exact List.Sublist.refl _
    | cons p m ih =>
      unfold nodeLabels at ih ⊢
      rw [List.filterMap_cons]
      by_cases hp : (!skip fl ex p.1 && isNodeField p.2) = true
      · rw [if_pos hp]; exact ih.cons₂ p.1
      · rw [if_neg hp]; exact ih.cons p.1
  have hw' : Dict.Wf (nodeLabels fl ex m) := (hsub m).nodup hw
  have hnode : ∀ f : DField, isNodeField f = true ↔ f.base.choices = [] ∧ ((∃ k, f.base.type = .node k) ∨ ∃ k, f.base.type = .nodeList k) := by
    intro f
    unfold isNodeField
    rw [Bool.and_eq_true, List.isEmpty_iff]
    refine and_congr_right (fun _ => ?_)
    cases f.base.type <;> simp
  constructor
  · intro h
    obtain ⟨⟨y, f⟩, h1, h2⟩ := List.mem_filterMap.1 (Dict.mem_of_get? h)
    by_cases hp : (!skip fl ex y && isNodeField f) = true
    · rw [if_pos hp] at h2
      simp only [Option.some.injEq, Prod.mk.injEq] at h2
      obtain ⟨rfl, rfl⟩ := h2
      simp only [Bool.and_eq_true, Bool.not_eq_true'] at hp
      obtain ⟨k1, k2⟩ := (hnode f).1 hp.2
      exact ⟨f, Dict.get?_of_mem hw h1, hp.1, k1, k2, rfl⟩
    · rw [if_neg hp] at h2; cases h2
  · rintro ⟨f, h1, h2, h3, h4, rfl⟩
    refine Dict.get?_of_mem hw' (List.mem_filterMap.2 ⟨(x, f), Dict.mem_of_get? h1, ?_⟩)
    rw [if_pos (by rw [Bool.and_eq_true, Bool.not_eq_true']; exact ⟨h2, (hnode f).2 ⟨h3, h4⟩⟩)]
    rfl

/-- C92.  `subform_labels` of a form class: for a name with a declared class, the label of the SubformField, or else that of the class; else, for each NodeField and NodeListField that is not left out,
the `verbose_name`, or else the label made from the name. -/
theorem C92_subform_labels (hm : DModelOk (models cls)) (hb : BodyOk bases body) {gen : Gen} (h : classStatement gen models bases body = .ok c) (hc : c.opts.model = some cls) (x t : Str) :
    c.subformLabels.get? x = some t ↔ (∃ d, declaredClass body x = some d ∧ (declaredLabel body x).or d.label = some t) ∨
      ((∀ d, declaredClass body x = some d → (declaredLabel body x).or d.label = none) ∧ ∃ f, (models cls).get? x = some f ∧ (∀ l, c.opts.fields = some l → x ∈ l.fields) ∧ (∀ l, c.opts.exclude = some l → x ∉ l.fields) ∧
        f.base.choices = [] ∧ ((∃ k, f.base.type = .node k) ∨ ∃ k, f.base.type = .nodeList k) ∧ t = f.verbose.getD (fieldLabel x)) := by
  obtain ⟨ss, _, _, _, _, e4⟩ := class_get? hm hb h hc x
  rw [e4 t, nodeLabels_get? hm.wf]
  have hs : skip c.opts.fields c.opts.exclude x = false ↔ (∀ l, c.opts.fields = some l → x ∈ l.fields) ∧ (∀ l, c.opts.exclude = some l → x ∉ l.fields) := by
    unfold skip
    rw [Bool.or_eq_false_iff]
    cases c.opts.fields <;> cases c.opts.exclude <;> simp
  simp only [hs, and_assoc]

/-- The label shown with a formset that has forms: that of the class of its forms; else the `verbose_name` of the list field; else one made from the name of the field. -/
theorem C92_formsets (hm : DModelOk (models cls)) (hb : BodyOk bases body) (h : classStatement (subFactory models n) models bases body = .ok c) (hc : c.opts.model = some cls)
    (x : Str) (o : SetOpts) (d : RForm) (hx : c.formsets.get? x = some (o, d)) :
    ∃ f, (models cls).get? x = some f ∧ formsetLabel o d = d.label.getD (f.verbose.getD (fieldLabel x)) ∧
      (declaredClass body x = none → formsetLabel o d = f.verbose.getD (fieldLabel x)) := by
  obtain ⟨ss, e0, _, _, e3, _⟩ := class_get? hm hb h hc x
  obtain ⟨f, f1, _, f3⟩ := (e3 o d).1 hx
  refine ⟨f, f1, ?_, ?_⟩
  · rcases (partOf_formset f3).2 with ⟨k', _, rfl, hd⟩ | ⟨_, rfl, rfl⟩ | ⟨_, rfl, rfl⟩ <;> rfl
  · intro hn
    rcases (partOf_formset f3).2 with ⟨k', _, rfl, hd⟩ | ⟨_, rfl, rfl⟩ | ⟨_, rfl, rfl⟩
    · rw [e0, hn] at hd
      rcases hd with hd | ⟨_, wd, _, hg⟩
      · simp at hd
      · unfold formsetLabel; rw [(generated_opts hg).2]; rfl
    · rfl
    · rfl

/-! ### C93: declarations and inheritance -/

/-- The declared fields of a class: its own, and of others the one of the last base class that declares it, unless the class declares a subform of that name.  They are fields of the
form, whatever the lists in `Meta` say. -/
theorem C93_declared {gen : Gen} (hb : BodyOk bases body) (h : classStatement gen models bases body = .ok c) (x : Str) (v : RField) :
    (c.declared.get? x = some v ↔ body.own.get? x = some (.field v) ∨ (body.own.get? x = none ∧ LastDeclares bases x v)) ∧
    (c.declared.get? x = some v → c.fields.get? x = some v) := by
  obtain ⟨fs, ss, ls, hs, _, _, hd, h0, h2⟩ := classStatement_ok h
  obtain ⟨s1, _, _, w1, _⟩ := sorted_get? hb hs x
  refine ⟨by rw [hd]; exact s1 v, fun hv => ?_⟩
  rw [hd] at hv
  cases hc : c.opts.model with
  | none => rw [(h0 hc).1]; exact hv
  | some cls =>
    obtain ⟨g, _, h4⟩ := h2 cls hc
    have ef : c.fields = Dict.update g.fields fs := by conv_lhs => rw [h4]
                                                       rfl
    rw [ef, Dict.get?_update _ w1, hv]
    rfl

theorem update_nil_self {α : Type} (d : Dict Str α) (hd : d.Wf) : Dict.update [] d = d := by
  have : ∀ (e d : Dict Str α), Dict.Wf (e ++ d) → Dict.update e d = e ++ d := by
    intro e d
    induction d generalizing e with
    | nil => intro _; simp [Dict.update]
    | cons p d ih =>
      intro hw
      have hs : Dict.set e p.1 p.2 = e ++ [p] := by
        have hnot : p.1 ∉ Dict.keys e := by
          unfold Dict.Wf Dict.keys at hw
          rw [List.map_append, List.nodup_append] at hw
          intro hin
          exact hw.2.2 p.1 hin p.1 (by simp) rfl
        clear hw ih
        induction e with
        | nil => rfl
        | cons q e ih =>
          obtain ⟨k, w⟩ := q
          have h1 : p.1 ≠ k := fun e' => hnot (by simp [Dict.keys, e'])
          show (if p.1 = k then _ else _) = _
          rw [if_neg h1, ih (fun hin => hnot (by simp only [Dict.keys, List.map_cons, List.mem_cons]; exact .inr hin))]
          rfl
      show Dict.update (Dict.set e p.1 p.2) d = _
      rw [hs, ih (e ++ [p]) (by simpa using hw)]
      simp
  simpa using this [] d hd

/-- A subclass with nothing of its own is the same form class, if the base class declares no subforms: the declared fields, `Meta` and the label are inherited. -/
theorem C93_subclass {gen : Gen} (hb : BodyOk bases body) (h : classStatement gen models bases body = .ok c) (hs : ∀ x, declaredClass body x = none) :
    classStatement gen models [c] ⟨[], none, none⟩ = .ok c := by
  obtain ⟨fs, ss, ls, hsd, h1, h1', hd, h0, h2⟩ := classStatement_ok h
  have w1 : fs.Wf := (sorted_get? hb hsd []).2.2.2.1
  have hss : ss = [] := by
    cases ss with
    | nil => rfl
    | cons p ss =>
      have := (sorted_get? hb hsd p.1).2.1
      rw [hs] at this
      simp [Dict.get?] at this
  have hls : ls = [] := by
    cases ls with
    | nil => rfl
    | cons p ls =>
      have := ((sorted_get? hb hsd p.1).2.2.1 p.2).1 (by simp [Dict.get?])
      obtain ⟨d, hd, _⟩ := this
      rw [hs] at hd; simp at hd
  subst hss hls
  have ea : allDecls [c] [] = fs.map (fun p => (p.1, Forms.Decl.field p.2)) := by
    unfold allDecls
    simp only [List.flatMap_cons, List.flatMap_nil, List.append_nil, hd]
    apply update_nil_self
    have : Dict.keys (fs.map (fun p => (p.1, Forms.Decl.field p.2))) = Dict.keys fs := by simp [Dict.keys]
    unfold Dict.Wf; rw [this]; exact w1
  have es : ∀ l : Dict Str RField, sortDecls (l.map (fun p => (p.1, Forms.Decl.field p.2))) = .ok (l, [], []) := by
    intro l
    induction l with
    | nil => rfl
    | cons p l ih => rw [List.map_cons, sortDecls, ih]
  have em : (none : Option MetaAttrs).or (inherited RForm.meta? [c]) = c.meta? := by
    show (c.meta?).or none = _
    cases c.meta? <;> rfl
  have el : (none : Option (Option Str)).or (inherited RForm.labelAttr [c]) = c.labelAttr := by
    show (c.labelAttr).or none = _
    cases c.labelAttr <;> rfl
  unfold classStatement
  simp only [ea, es, em, el]
  cases hc : c.opts.model with
  | none =>
    have hc' := hc
    unfold RForm.opts at hc'
    rw [hc']
    obtain ⟨k1, k2, k3, k4⟩ := h0 hc
    cases c with
    | form m l dd f s t u =>
      simp only [RForm.fields, RForm.subforms, RForm.formsets, RForm.subformLabels, RForm.declared] at k1 k2 k3 k4 hd
      subst k1 k2 k3 k4 hd
      rfl
    | listForm b =>
      simp only [classStatement, hsd] at h
      split at h <;> (try simp at h)
      split at h <;> simp at h
  | some cls =>
    have hc' := hc
    unfold RForm.opts at hc'
    rw [hc']
    obtain ⟨g, h3, h4⟩ := h2 cls hc
    simp only
    have h3' : richFields gen [] (optsOf c.meta?).fields (optsOf c.meta?).exclude (optsOf c.meta?).widgets (models cls) = .ok g := h3
    rw [h3']
    simp only [Except.ok.injEq]
    exact h4.symm

end
end

/-! ### labels made from names -/

/-- The words of a name: its parts between underscores. -/
def nameWords (x : Str) : List Str := (x.splitOnP (· == '_')).filter (fun w => w ≠ [])

/-- With a capital letter first, and small letters else. -/
def capital : Str → Str
  | [] => []
  | c :: s => c.toUpper :: s.map Char.toLower

theorem pySplit_spec (s cur : Str) : pySplit cur s = (List.modifyHead (cur.reverse ++ ·) (s.splitOnP pySpace)).filter (fun w => w ≠ []) := by
  induction s generalizing cur with
  | nil =>
    rw [pySplit, List.splitOnP_nil]
    by_cases h : cur = []
    · subst h; rfl
    · rw [if_neg h]; simp [h]
  | cons c s ih =>
    rw [pySplit, List.splitOnP_cons_eq_if_modifyHead]
    obtain ⟨h0, t0, e0⟩ := List.exists_cons_of_ne_nil (List.splitOnP_ne_nil pySpace s)
    by_cases h : pySpace c = true
    · rw [if_pos h, if_pos h, ih]
      by_cases hc : cur = []
      · subst hc; rw [if_pos rfl, e0]; simp
      · rw [if_neg hc, e0]; simp [hc]
    · rw [if_neg h, if_neg h, ih, e0]; simp

theorem splitOnP_map {p q : Char → Bool} {r : Char → Char} : ∀ {s : Str}, (∀ c ∈ s, p (r c) = q c ∧ (q c = false → r c = c)) → (s.map r).splitOnP p = s.splitOnP q
  | [], _ => by rw [List.map_nil, List.splitOnP_nil, List.splitOnP_nil]
  | c :: s, h => by
    obtain ⟨h1, h2⟩ := h c (by simp)
    have ih := splitOnP_map (p := p) (q := q) (r := r) (s := s) (fun c hc => h c (by simp [hc]))
    rw [List.map_cons, List.splitOnP_cons_eq_if_modifyHead, List.splitOnP_cons_eq_if_modifyHead, h1, ih]
    by_cases hq : q c = true
    · rw [if_pos hq, if_pos hq]
    · rw [if_neg hq, if_neg hq, h2 (by simpa using hq)]

theorem joinBlank_eq (ws : List Str) : joinBlank ws = [' '].intercalate ws := by
  induction ws with
  | nil => rfl
  | cons w ws ih =>
    cases ws with
    | nil => simp [joinBlank, List.intercalate]
    | cons v ws => rw [joinBlank, ih]; simp [List.intercalate]

theorem capitalize_eq (w : Str) : capitalize w = capital w := by cases w <;> rfl

theorem fieldLabel_words (x : Str) (h : ∀ c ∈ x, pySpace c = false) : fieldLabel x = [' '].intercalate ((nameWords x).map capital) := by
  unfold fieldLabel nameWords
  rw [joinBlank_eq, pySplit_spec, splitOnP_map (q := (· == '_'))]
  · obtain ⟨h0, t0, e0⟩ := List.exists_cons_of_ne_nil (List.splitOnP_ne_nil (· == '_') x)
    rw [e0]
    simp [funext capitalize_eq]
  · intro c hc
    by_cases h1 : c = '_'
    · subst h1; decide
    · refine ⟨?_, fun _ => by simp [h1]⟩
      simp [h1, h c hc]

/-- The label made from a name without white space: its words, with capital letters first, with blanks between them. -/
theorem C92_label (x : Str) (h : ∀ c ∈ x, pySpace c = false) : fieldLabel x = Spec.unwords ((nameWords x).map capital) := fieldLabel_words x h

theorem upper_nat (c : Char) : (97 ≤ c.toNat ∧ c.toNat ≤ 122 ∧ c.toUpper.toNat = c.toNat - 32) ∨ (¬ (97 ≤ c.toNat ∧ c.toNat ≤ 122) ∧ c.toUpper = c) := by
  have e : ('a'.val ≤ c.val ∧ c.val ≤ 'z'.val) ↔ (97 ≤ c.toNat ∧ c.toNat ≤ 122) := by
    rw [UInt32.le_iff_toNat_le, UInt32.le_iff_toNat_le]; rfl
  unfold Char.toUpper
  by_cases h : 'a'.val ≤ c.val ∧ c.val ≤ 'z'.val
  · rw [dif_pos h]
    obtain ⟨h1, h2⟩ := e.1 h
    refine .inl ⟨h1, h2, ?_⟩
    show (c.val + ('A'.val - 'a'.val)).toNat = c.val.toNat - 32
    have hc : c.val.toNat = c.toNat := rfl
    rw [UInt32.toNat_add]
    have : ('A'.val - 'a'.val).toNat = 4294967264 := by decide
    rw [this]
    omega
  · rw [dif_neg h]
    exact .inr ⟨fun h' => h (e.2 h'), rfl⟩

theorem lower_nat (c : Char) : (65 ≤ c.toNat ∧ c.toNat ≤ 90 ∧ c.toLower.toNat = c.toNat + 32) ∨ (¬ (65 ≤ c.toNat ∧ c.toNat ≤ 90) ∧ c.toLower = c) := by
  have e : (c.val ≥ 'A'.val ∧ c.val ≤ 'Z'.val) ↔ (65 ≤ c.toNat ∧ c.toNat ≤ 90) := by
    rw [ge_iff_le, UInt32.le_iff_toNat_le, UInt32.le_iff_toNat_le]; rfl
  unfold Char.toLower
  by_cases h : c.val ≥ 'A'.val ∧ c.val ≤ 'Z'.val
  · rw [dif_pos h]
    obtain ⟨h1, h2⟩ := e.1 h
    refine .inl ⟨h1, h2, ?_⟩
    show (c.val + ('a'.val - 'A'.val)).toNat = c.val.toNat + 32
    have hc : c.val.toNat = c.toNat := rfl
    rw [UInt32.toNat_add]
    have : ('a'.val - 'A'.val).toNat = 32 := by decide
    rw [this]
    omega
  · rw [dif_neg h]
    exact .inr ⟨fun h' => h (e.2 h'), rfl⟩

/-- Neither an underscore nor white space. -/
def wordChar (c : Char) : Prop := pySpace c = false ∧ c ≠ '_'

theorem char_toNat_inj {c d : Char} (h : c.toNat = d.toNat) : c = d := Char.ext (UInt32.toNat_inj.1 h)

theorem wordChar_letter {c : Char} (h : (65 ≤ c.toNat ∧ c.toNat ≤ 90) ∨ (97 ≤ c.toNat ∧ c.toNat ≤ 122)) : wordChar c := by
  constructor
  · unfold pySpace
    simp only [Bool.or_eq_false_iff, beq_eq_false_iff_ne]
    refine ⟨⟨⟨⟨⟨⟨⟨⟨⟨?_, ?_⟩, ?_⟩, ?_⟩, ?_⟩, ?_⟩, ?_⟩, ?_⟩, ?_⟩, ?_⟩ <;>
      (rintro rfl; revert h; decide)
  · rintro rfl; revert h; decide

theorem wordChar_upper {c : Char} (h : wordChar c) : wordChar c.toUpper := by
  rcases upper_nat c with ⟨h1, h2, h3⟩ | ⟨_, h3⟩
  · exact wordChar_letter (.inl (by omega))
  · rw [h3]; exact h
theorem wordChar_lower {c : Char} (h : wordChar c) : wordChar c.toLower := by
  rcases lower_nat c with ⟨h1, h2, h3⟩ | ⟨_, h3⟩
  · exact wordChar_letter (.inr (by omega))
  · rw [h3]; exact h
theorem upper_upper (c : Char) : c.toUpper.toUpper = c.toUpper := by
  rcases upper_nat c with ⟨h1, h2, h3⟩ | ⟨_, h3⟩
  · rcases upper_nat c.toUpper with ⟨g1, g2, g3⟩ | ⟨_, g3⟩
    · omega
    · exact g3
  · rw [h3, h3]
theorem lower_lower (c : Char) : c.toLower.toLower = c.toLower := by
  rcases lower_nat c with ⟨h1, h2, h3⟩ | ⟨_, h3⟩
  · rcases lower_nat c.toLower with ⟨g1, g2, g3⟩ | ⟨_, g3⟩
    · omega
    · exact g3
  · rw [h3, h3]

theorem capital_capital (w : Str) : capital (capital w) = capital w := by
  cases w with
  | nil => rfl
  | cons c s => simp only [capital, upper_upper, List.map_map, List.cons.injEq, true_and]; apply List.map_congr_left; intro c _; exact lower_lower c
theorem wordChar_capital {w : Str} (h : ∀ c ∈ w, wordChar c) : ∀ c ∈ capital w, wordChar c := by
  cases w with
  | nil => exact h
  | cons a s =>
    intro c hc
    rcases List.mem_cons.1 hc with rfl | hc
    · exact wordChar_upper (h a (by simp))
    · obtain ⟨d, hd, rfl⟩ := List.mem_map.1 hc
      exact wordChar_lower (h d (by simp [hd]))

/-- Words of a text that was made of words. -/
theorem pySplit_word (w : Str) (hw : ∀ c ∈ w, wordChar c) (cur s : Str) : pySplit cur (w ++ s) = pySplit (w.reverse ++ cur) s := by
  induction w generalizing cur with
  | nil => rfl
  | cons c w ih =>
    show pySplit cur (c :: (w ++ s)) = _
    rw [pySplit, if_neg (by rw [(hw c (by simp)).1]; simp), ih (fun d hd => hw d (by simp [hd]))]
    simp
theorem pySplit_join (ws : List Str) (hw : ∀ w ∈ ws, w ≠ [] ∧ ∀ c ∈ w, wordChar c) : pySplit [] (joinBlank ws) = ws := by
  induction ws with
  | nil => rfl
  | cons w ws ih =>
    obtain ⟨h1, h2⟩ := hw w (by simp)
    cases ws with
    | nil =>
      have := pySplit_word w h2 [] []
      rw [List.append_nil] at this
      rw [joinBlank, this, pySplit]; simp [h1]
    | cons v ws =>
      rw [joinBlank, pySplit_word w h2, pySplit, if_pos (by decide)]
      rw [if_neg (by simp [h1])]
      rw [ih (fun w' hw' => hw w' (by simp [hw']))]
      simp

theorem joinBlank_chars (ws : List Str) (hw : ∀ w ∈ ws, ∀ c ∈ w, wordChar c) : ∀ c ∈ joinBlank ws, c ≠ '_' := by
  induction ws with
  | nil => intro c hc; simp [joinBlank] at hc
  | cons w ws ih =>
    cases ws with
    | nil => intro c hc; exact (hw w (by simp) c hc).2
    | cons v ws =>
      intro c hc
      rw [joinBlank] at hc
      rcases List.mem_append.1 hc with hc | hc
      · exact (hw w (by simp) c hc).2
      · rcases List.mem_cons.1 hc with rfl | hc
        · decide
        · exact ih (fun w' hw' => hw w' (by simp [hw'])) c hc

theorem mem_splitOnP {p : Char → Bool} {s w : Str} (h : w ∈ s.splitOnP p) : ∀ c ∈ w, c ∈ s ∧ p c = false := by
  induction s generalizing w with
  | nil => rw [List.splitOnP_nil] at h; simp at h; subst h; simp
  | cons a s ih =>
    rw [List.splitOnP_cons_eq_if_modifyHead] at h
    intro c hc
    by_cases ha : p a = true
    · rw [if_pos ha] at h
      rcases List.mem_cons.1 h with rfl | h
      · simp at hc
      · obtain ⟨h1, h2⟩ := ih h c hc; exact ⟨by simp [h1], h2⟩
    · rw [if_neg ha] at h
      obtain ⟨h0, t0, e0⟩ := List.exists_cons_of_ne_nil (List.splitOnP_ne_nil p s)
      rw [e0, List.modifyHead_cons] at h
      rcases List.mem_cons.1 h with rfl | h
      · rcases List.mem_cons.1 hc with rfl | hc
        · exact ⟨by simp, by simpa using ha⟩
        · obtain ⟨h1, h2⟩ := ih (by rw [e0]; simp) c hc; exact ⟨by simp [h1], h2⟩
      · obtain ⟨h1, h2⟩ := ih (by rw [e0]; simp [h]) c hc; exact ⟨by simp [h1], h2⟩

/-- In headings of sections, `fieldname_to_label` is used again on the label (xmlobject.py:709-710): a label that was made from any name stays as it is. -/
theorem C92_label_again (x : Str) : fieldLabel (fieldLabel x) = fieldLabel x := by
  have hws : ∀ w ∈ (pySplit [] (x.map (fun c => if c = '_' then ' ' else c))), w ≠ [] ∧ ∀ c ∈ w, wordChar c := by
    intro w hw
    rw [pySplit_spec] at hw
    obtain ⟨h1, h2⟩ := List.mem_filter.1 hw
    refine ⟨by simpa using h2, ?_⟩
    obtain ⟨h0, t0, e0⟩ := List.exists_cons_of_ne_nil (List.splitOnP_ne_nil pySpace (x.map (fun c => if c = '_' then ' ' else c)))
    rw [e0] at h1
    have h1' : w ∈ (x.map (fun c => if c = '_' then ' ' else c)).splitOnP pySpace := by rw [e0]; simpa using h1
    intro c hc
    obtain ⟨g1, g2⟩ := mem_splitOnP h1' c hc
    refine ⟨g2, ?_⟩
    obtain ⟨d, _, rfl⟩ := List.mem_map.1 g1
    by_cases hd : d = '_'
    · rw [if_pos hd]; decide
    · rw [if_neg hd]; exact hd
  generalize hW : pySplit [] (x.map (fun c => if c = '_' then ' ' else c)) = ws at hws
  have hl : fieldLabel x = joinBlank (ws.map capital) := by unfold fieldLabel; rw [hW, funext capitalize_eq]
  have hcap : ∀ w ∈ ws.map capital, w ≠ [] ∧ ∀ c ∈ w, wordChar c := by
    intro w hw
    obtain ⟨v, hv, rfl⟩ := List.mem_map.1 hw
    obtain ⟨h1, h2⟩ := hws v hv
    refine ⟨?_, wordChar_capital h2⟩
    cases v with
    | nil => exact absurd rfl h1
    | cons a v => simp [capital]
  rw [hl]
  unfold fieldLabel
  have hrep : (joinBlank (ws.map capital)).map (fun c => if c = '_' then ' ' else c) = joinBlank (ws.map capital) := by
    conv_rhs => rw [← List.map_id (joinBlank (ws.map capital))]
    apply List.map_congr_left
    intro c hc
    rw [if_neg (joinBlank_chars _ (fun w hw => (hcap w hw).2) c hc)]
    rfl
  rw [hrep, pySplit_join _ hcap, List.map_map, funext capitalize_eq]
  congr 1
  apply List.map_congr_left
  intro w _
  exact capital_capital w

/-! ### cases -/

/-- A model: a title, a name (a sub-object with an id), and a list of parts (the same class). -/
def shopModels : Nat → DModel
  | 0 => [(c%"main_title", ⟨⟨.string, [], none, 0⟩, none, some c%"help"⟩), (c%"name", ⟨⟨.node 1, [], none, 1⟩, none, none⟩), (c%"parts", ⟨⟨.nodeList 1, [], none, 2⟩, some c%"PART list", none⟩),
      (c%"tags", ⟨⟨.stringList, [], none, 3⟩, none, none⟩)]
  | _ => [(c%"id", ⟨⟨.string, [], none, 4⟩, some c%"MODS id", none⟩)]

/-- A `Meta` with a model and nothing else. -/
def bareMeta (k : Nat) : MetaAttrs := ⟨some k, none, none, none, none, none, none, none⟩

/-- `class PartForm(XmlObjectForm)` with model, `can_delete = False`, `can_order = True`, and a label. -/
def partForm : Except PyErr RForm :=
  classStatement (subFactory shopModels 2) shopModels [rootForm] ⟨[], some { bareMeta 1 with canDelete := some false, canOrder := some true, extra := some 3 }, some (some c%"A part")⟩

/-- What is seen of a class: the labels of the fields, of the subforms, and the options and labels of the formsets. -/
def classSeen (c : RForm) : List (Str × Str) × List (Str × Option Str) × List (Str × SetOpts × Str) :=
  (c.fields.map (fun p => (p.1, p.2.label)), c.subforms.map (fun p => (p.1, subformLabel c p.1 p.2)), c.formsets.map (fun p => (p.1, p.2.1, formsetLabel p.2.1 p.2.2)))

theorem shopModels_ok : DModelOk (shopModels 0) := by
  refine ⟨by decide, ?_, by decide⟩
  decide

/-- A form for the model with nothing declared, -/
example : (classStatement (subFactory shopModels 2) shopModels [rootForm] ⟨[], some (bareMeta 0), none⟩).map classSeen = .ok
    ([(c%"main_title", c%"Main Title")], [(c%"name", some c%"Name")], [(c%"parts", ⟨none, true, 1, false, c%"PART list"⟩, c%"PART list"), (c%"tags", ⟨none, false, 1, false, c%"Tags"⟩, c%"Tags")]) := by
  rfl

/-- and with a declared class for the parts, whose options the formset has. -/
example : (partForm.bind (fun d => classStatement (subFactory shopModels 2) shopModels [rootForm] ⟨[(c%"parts", .subform (some d) none true false)], some (bareMeta 0), none⟩)).map classSeen = .ok
    ([(c%"main_title", c%"Main Title")], [(c%"name", some c%"Name")], [(c%"parts", ⟨none, false, 3, true, c%"PART list"⟩, c%"A part"), (c%"tags", ⟨none, false, 1, false, c%"Tags"⟩, c%"Tags")]) := by
  rfl

/-- The bodies of the classes above are fine. -/
example : BodyOk [rootForm] ⟨[], some (bareMeta 0), none⟩ := ⟨by decide, by simp [rootForm, RForm.declared, Dict.Wf, Dict.keys]⟩

/-- `xmlobjectform_factory` with its default arguments does not keep `can_delete` and `can_order` of the form class it is given: their defaults are True and False, not None. -/
theorem C91_counterexample_factory_delete : (partForm.map (fun d => (d.opts.canDelete, d.opts.canOrder, d.opts.extra)) = .ok (false, true, 3)) ∧
    (partForm.bind (fun d => factory (subFactory shopModels 2) shopModels 1 d {})).map (fun c => (c.opts.canDelete, c.opts.canOrder, c.opts.extra)) = .ok (true, false, 3) := ⟨rfl, rfl⟩

/-- A Django form that is no XmlObjectForm can be declared for a NodeField, but not for a NodeListField: the class statement raises AttributeError. -/
theorem C91_counterexample_plain_form (i : Bool) :
    (classStatement (subFactory shopModels 2) shopModels [rootForm] ⟨[(c%"name", .subform (some (.listForm i)) none true false)], some (bareMeta 0), none⟩).map
      (fun c => (c.subforms.get? c%"name").isSome) = .ok true ∧
    (classStatement (subFactory shopModels 2) shopModels [rootForm] ⟨[(c%"parts", .subform (some (.listForm i)) none true false)], some (bareMeta 0), none⟩).map classSeen =
      .error .attributeError := by cases i <;> exact ⟨rfl, rfl⟩

/-- `can_delete` and `can_order` of a SubformField are not used. -/
theorem C91_counterexample_subformfield (a b : Bool) :
    (classStatement (subFactory shopModels 2) shopModels [rootForm] ⟨[], some (bareMeta 1), none⟩).bind (fun d => (classStatement (subFactory shopModels 2) shopModels [rootForm]
      ⟨[(c%"parts", .subform (some d) none a b)], some (bareMeta 0), none⟩).map (fun c => (c.formsets.get? c%"parts").map (fun q => (q.1.canDelete, q.1.canOrder)))) = .ok (some (true, false)) := rfl

/-- The label of a SubformField is not shown if the class of the subform has one of its own, -/
theorem C92_counterexample_declared_label :
    (partForm.bind (fun d => classStatement (subFactory shopModels 2) shopModels [rootForm] ⟨[(c%"name", .subform (some d) (some c%"Person") true false)], some (bareMeta 0), none⟩)).map
      (fun c => ((c.subforms.get? c%"name").map (subformLabel c c%"name"), c.subformLabels.get? c%"name")) = .ok (some (some c%"A part"), some c%"Person") := rfl

/-- and never for a formset. -/
theorem C92_counterexample_formset_label :
    (classStatement (subFactory shopModels 2) shopModels [rootForm] ⟨[], some (bareMeta 1), none⟩).bind (fun d => (classStatement (subFactory shopModels 2) shopModels [rootForm]
      ⟨[(c%"parts", .subform (some d) (some c%"Pieces") true false)], some (bareMeta 0), none⟩).map (fun c => (c.formsets.get? c%"parts").map (fun q => formsetLabel q.1 q.2))) =
      .ok (some c%"PART list") := rfl

/-- A label that was given is not shown as it is in the heading of a section, where it is treated like a name. -/
theorem C92_counterexample_heading : fieldLabel c%"PART list" = c%"Part List" := by decide

/-- A plain form field. -/
def charField (label : Str) : RField := ⟨⟨.char, [], true⟩, label, none, none⟩

/-- Of two base classes that declare the same field the last one counts, other than for everything else in Python, -/
theorem C93_counterexample_bases (m : MetaAttrs) :
    (classStatement (subFactory shopModels 2) shopModels [.form none none [(c%"x", charField c%"first")] [] [] [] [], .form none none [(c%"x", charField c%"last")] [] [] [] []]
      ⟨[], some { m with model := none }, none⟩).map (fun c => (c.fields.get? c%"x").map RField.label) = .ok (some c%"last") := rfl

/-- and declared subforms are not inherited. -/
theorem C93_counterexample_subforms :
    (partForm.bind (fun d => classStatement (subFactory shopModels 2) shopModels [rootForm] ⟨[(c%"name", .subform (some d) none true false)], some (bareMeta 0), none⟩)).map
      (fun c => (c.subforms.get? c%"name").map RForm.label) = .ok (some (some c%"A part")) ∧
    ((partForm.bind (fun d => classStatement (subFactory shopModels 2) shopModels [rootForm] ⟨[(c%"name", .subform (some d) none true false)], some (bareMeta 0), none⟩)).bind
      (fun b => classStatement (subFactory shopModels 2) shopModels [b] ⟨[], none, none⟩)).map (fun c => (c.subforms.get? c%"name").map RForm.label) = .ok (some (some c%"Name")) := ⟨rfl, rfl⟩

end Props
