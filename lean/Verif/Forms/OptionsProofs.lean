import Verif.Forms.Options
import Verif.Props.FormClass
/-
Proofs about the model of form classes with options (Verif/Forms/Options.lean): what a class statement makes of each field.
-/
namespace Forms
open Py Core Props

section
variable {gen : Gen} {declared : Dict Str RForm} {fl ex : Option PFL} {w : Option WArg}

theorem richParts_names {m : List (Str × DField)} {ps : List (Str × Nat × RPart)} (h : richParts gen declared fl ex w m = .ok ps) :
    ps.map (fun p => (p.1, p.2.1)) = (m.filter (fun p => !skip fl ex p.1)).map (fun p => (p.1, p.2.base.counter)) := by
  induction m generalizing ps with
  | nil => simp [richParts] at h; subst h; rfl
  | cons q m ih =>
    obtain ⟨x, f⟩ := q
    rw [richParts] at h
    by_cases hs : skip fl ex x = true
    · rw [if_pos hs] at h
      rw [List.filter_cons, if_neg (by simp [hs])]
      exact ih h
    · rw [if_neg hs] at h
      rw [List.filter_cons, if_pos (by simp [hs])]
      cases hp : richPart gen declared fl ex w x f with
      | error e => rw [hp] at h; simp at h
      | ok p =>
        rw [hp] at h
        cases hc : richParts gen declared fl ex w m with
        | error e => rw [hc] at h; simp at h
        | ok ps' =>
          rw [hc] at h
          simp at h; subst h
          rw [List.map_cons, List.map_cons, ih hc]

theorem richParts_mem {m : List (Str × DField)} {ps : List (Str × Nat × RPart)} (h : richParts gen declared fl ex w m = .ok ps) (x : Str) (p : RPart) :
    (∃ k, (x, k, p) ∈ ps) ↔ ∃ f, (x, f) ∈ m ∧ skip fl ex x = false ∧ richPart gen declared fl ex w x f = .ok p := by
  induction m generalizing ps with
  | nil => simp [richParts] at h; subst h; simp
  | cons q m ih =>
    obtain ⟨y, g⟩ := q
    rw [richParts] at h
    by_cases hs : skip fl ex y = true
    · rw [if_pos hs] at h
      rw [ih h]
      constructor
      · rintro ⟨f, h1, h2⟩; exact ⟨f, by simp [h1], h2⟩
      · rintro ⟨f, h1, h2, h3⟩
        rcases List.mem_cons.1 h1 with h1 | h1
        · simp at h1; rw [h1.1, hs] at h2; simp at h2
        · exact ⟨f, h1, h2, h3⟩
    · rw [if_neg hs] at h
      cases hp : richPart gen declared fl ex w y g with
      | error e => rw [hp] at h; simp at h
      | ok p' =>
        rw [hp] at h
        cases hc : richParts gen declared fl ex w m with
        | error e => rw [hc] at h; simp at h
        | ok ps' =>
          rw [hc] at h
          simp at h; subst h
          constructor
          · rintro ⟨k, hk⟩
            rcases List.mem_cons.1 hk with hk | hk
            · simp only [Prod.mk.injEq] at hk
              obtain ⟨rfl, rfl, rfl⟩ := hk
              exact ⟨g, by simp, by simpa using hs, hp⟩
            · obtain ⟨f, h1, h2⟩ := (ih hc).1 ⟨k, hk⟩
              exact ⟨f, by simp [h1], h2⟩
          · rintro ⟨f, h1, h2, h3⟩
            rcases List.mem_cons.1 h1 with h1 | h1
            · simp only [Prod.mk.injEq] at h1
              obtain ⟨rfl, rfl⟩ := h1
              rw [hp] at h3; simp at h3; subst h3
              exact ⟨_, List.mem_cons_self⟩
            · obtain ⟨k, hk⟩ := (ih hc).2 ⟨f, h1, h2, h3⟩
              exact ⟨k, by simp [hk]⟩

theorem richPick_get? {α : Type} (g : RPart → Option α) {ps : List (Str × Nat × RPart)} (hn : (ps.map (·.1)).Nodup) (x : Str) (v : α) :
    (richPick g ps).get? x = some v ↔ ∃ k p, (x, k, p) ∈ ps ∧ g p = some v := by
  have hkeys : (Dict.keys (richPick g ps)).Sublist (ps.map (·.1)) := by
    unfold richPick Dict.keys
    clear hn
    induction ps with
    | nil => simp
    | cons q ps ih =>
      rw [List.filterMap_cons]
      cases hg : g q.2.2 with
      | none => simpa using ih.trans (List.sublist_cons_self _ _)
      | some w => simpa using ih.cons₂ q.1
  have hwf : Dict.Wf (richPick g ps) := hkeys.nodup hn
  constructor
  · intro h
    have := Dict.mem_of_get? h
    obtain ⟨⟨y, k, p⟩, hq, e⟩ := List.mem_filterMap.1 this
    cases hg : g p with
    | none => simp [hg] at e
    | some w =>
      simp [hg] at e
      obtain ⟨rfl, rfl⟩ := e
      exact ⟨k, p, hq, hg⟩
  · rintro ⟨k, p, hq, hg⟩
    apply Dict.get?_of_mem hwf
    exact List.mem_filterMap.2 ⟨_, hq, by simp [hg]⟩

theorem mem_richOrder {m : DModel} {ps : List (Str × Nat × RPart)} (hm : (m.map (fun p => p.2.base.counter)).Nodup)
    (h : richParts gen declared fl ex w m = .ok ps) {x : Str} {f : DField} (hx : (x, f) ∈ m) (hs : skip fl ex x = false) : x ∈ richOrder fl ps := by
  unfold richOrder
  cases fl with
  | some l =>
    simp only
    simp only [skip, Bool.or_eq_false_iff, decide_eq_false_iff_not, not_not] at hs
    exact hs.1
  | none =>
    simp only
    have hn := richParts_names h
    have hnd : ((ps.map (fun p => (p.1, p.2.1))).map (·.2)).Nodup := by
      rw [hn, List.map_map]
      refine List.Sublist.nodup ?_ hm
      exact List.filter_sublist.map _
    obtain ⟨sel, h1, h2⟩ := exists_sorted _ hnd
    rw [defaultOrder_eq h1 h2]
    have : (x, f.base.counter) ∈ ps.map (fun p => (p.1, p.2.1)) := by
      rw [hn]
      exact List.mem_map.2 ⟨(x, f), by simp [hx, hs], rfl⟩
    exact List.mem_map.2 ⟨_, h2.mem_iff.1 this, rfl⟩

/-- The entries that `formfields_for_xmlobject` returns. -/
theorem richFields_get? {m : DModel} (hw : m.Wf) (hm : (m.map (fun p => p.2.base.counter)).Nodup) {c : Generated}
    (h : richFields gen declared fl ex w m = .ok c) (x : Str) :
    (∀ v, c.fields.get? x = some v ↔ ∃ f, m.get? x = some f ∧ skip fl ex x = false ∧ richPart gen declared fl ex w x f = .ok (.field v)) ∧
    (∀ v, c.subforms.get? x = some v ↔ ∃ f, m.get? x = some f ∧ skip fl ex x = false ∧ richPart gen declared fl ex w x f = .ok (.subform v)) ∧
    (∀ o v, c.formsets.get? x = some (o, v) ↔ ∃ f, m.get? x = some f ∧ skip fl ex x = false ∧ richPart gen declared fl ex w x f = .ok (.formset o v)) ∧
    c.labels = nodeLabels fl ex m := by
  unfold richFields at h
  cases hc : richParts gen declared fl ex w m with
  | error e => rw [hc] at h; simp at h
  | ok ps =>
    rw [hc] at h
    simp only [Except.ok.injEq] at h
    subst h
    have hnd : (ps.map (·.1)).Nodup := by
      have : ps.map (·.1) = (m.filter (fun p => !skip fl ex p.1)).map (·.1) := by
        have := congrArg (List.map (·.1)) (richParts_names hc)
        simpa [List.map_map, Function.comp_def] using this
      rw [this]
      exact (List.filter_sublist.map _).nodup hw
    have key : ∀ {α : Type} (g : RPart → Option α) (mk : α → RPart), (∀ p v, g p = some v ↔ p = mk v) → ∀ v, (orderedDict (richOrder fl ps) (richPick g ps)).get? x = some v ↔
        ∃ f, m.get? x = some f ∧ skip fl ex x = false ∧ richPart gen declared fl ex w x f = .ok (mk v) := by
      intro α g mk hg v
      rw [orderedDict_get?]
      constructor
      · intro h
        by_cases ho : x ∈ richOrder fl ps
        · rw [if_pos ho] at h
          obtain ⟨k, p, hp, hgp⟩ := (richPick_get? g hnd x v).1 h
          rw [(hg p v).1 hgp] at hp
          obtain ⟨f, h1, h2, h3⟩ := (richParts_mem hc x (mk v)).1 ⟨k, hp⟩
          exact ⟨f, Dict.get?_of_mem hw h1, h2, h3⟩
        · rw [if_neg ho] at h; simp at h
      · rintro ⟨f, h1, h2, h3⟩
        have hmem := Dict.mem_of_get? h1
        rw [if_pos (mem_richOrder hm hc hmem h2)]
        obtain ⟨k, hk⟩ := (richParts_mem hc x (mk v)).2 ⟨f, hmem, h2, h3⟩
        exact (richPick_get? g hnd x v).2 ⟨k, _, hk, (hg _ _).2 rfl⟩
    refine ⟨key RPart.asField .field (by intro p v; cases p <;> simp [RPart.asField]),
      key RPart.asSubform .subform (by intro p v; cases p <;> simp [RPart.asSubform]),
      fun o v => ?_, rfl⟩
    exact key RPart.asFormset (fun q => .formset q.1 q.2) (by intro p v; cases p <;> simp [RPart.asFormset, Prod.ext_iff, eq_comm]) (o, v)

end

/-! ### the form without options -/

/-- The values of a dictionary, changed. -/
def mapVals {α β : Type} (g : α → β) (d : Dict Str α) : Dict Str β := d.map (fun p => (p.1, g p.2))

theorem mapVals_get? {α β : Type} (g : α → β) (d : Dict Str α) (x : Str) : (mapVals g d).get? x = (d.get? x).map g := by
  induction d with
  | nil => rfl
  | cons p d ih =>
    obtain ⟨k, v⟩ := p
    show Dict.get? ((k, g v) :: mapVals g d) x = _
    rw [Dict.get?_cons, Dict.get?_cons]
    by_cases h : x = k
    · rw [if_pos h, if_pos h]; rfl
    · rw [if_neg h, if_neg h]; exact ih

theorem mapVals_set {α β : Type} (g : α → β) (d : Dict Str α) (k : Str) (v : α) : mapVals g (d.set k v) = (mapVals g d).set k (g v) := by
  induction d with
  | nil => rfl
  | cons p d ih =>
    obtain ⟨k', v'⟩ := p
    show mapVals g (if k = k' then (k', v) :: d else (k', v') :: Dict.set d k v) = if k = k' then (k', g v) :: mapVals g d else (k', g v') :: Dict.set (mapVals g d) k (g v)
    by_cases h : k = k'
    · rw [if_pos h, if_pos h]; rfl
    · rw [if_neg h, if_neg h, ← ih]; rfl

theorem mapVals_update {α β : Type} (g : α → β) (e d : Dict Str α) : mapVals g (d.update e) = (mapVals g d).update (mapVals g e) := by
  induction e generalizing d with
  | nil => rfl
  | cons p e ih =>
    show mapVals g (Dict.update (d.set p.1 p.2) e) = Dict.update ((mapVals g d).set p.1 (g p.2)) (mapVals g e)
    rw [ih, mapVals_set]

theorem mapVals_ordered {α β : Type} (g : α → β) (names : List Str) (d : Dict Str α) : mapVals g (orderedDict names d) = orderedDict names (mapVals g d) := by
  unfold orderedDict
  rw [mapVals_update]
  congr 1
  simp only [mapVals, List.map_filterMap]
  apply List.filterMap_congr
  intro n _
  have := mapVals_get? g d n
  rw [mapVals] at this
  rw [this]
  cases Dict.get? d n <;> rfl

/- The form class without options. -/
mutual
def RForm.plain : RForm → FormClass
  | .form _ _ _ f s ss _ => .form (mapVals RField.base f) (plainSubs s) (plainSets ss)
  | .listForm b => .listForm b
def plainSubs : List (Str × RForm) → List (Str × FormClass)
  | [] => []
  | (n, c) :: l => (n, c.plain) :: plainSubs l
def plainSets : List (Str × SetOpts × RForm) → List (Str × FormClass)
  | [] => []
  | (n, _, c) :: l => (n, c.plain) :: plainSets l
end

theorem plainSubs_eq (l : List (Str × RForm)) : plainSubs l = mapVals RForm.plain l := by
  induction l with
  | nil => rw [plainSubs]; rfl
  | cons p l ih => obtain ⟨n, c⟩ := p; rw [plainSubs, ih]; rfl
theorem plainSets_eq (l : List (Str × SetOpts × RForm)) : plainSets l = mapVals (fun q => q.2.plain) l := by
  induction l with
  | nil => rw [plainSets]; rfl
  | cons p l ih => obtain ⟨n, o, c⟩ := p; rw [plainSets, ih]; rfl

/-- A part without options. -/
def RPart.plain : RPart → Part
  | .field f => .field f.base
  | .subform c => .subform c.plain
  | .formset _ c => .formset c.plain

/-- The table of fields without labels. -/
def DModel.plain (m : DModel) : Model := mapVals DField.base m

section
variable {gen : Gen} {gen' : Nat → Option PFL → Option PFL → Except PyErr FormClass} {declared : Dict Str RForm} {fl ex : Option PFL} {w : Option WArg}

theorem formsetOf_ok {label : Str} {c : RForm} {p : RPart} (h : formsetOf label c = .ok p) :
    p = .formset ⟨c.opts.maxNum, c.opts.canDelete, c.opts.extra, c.opts.canOrder, label⟩ c := by
  cases c with
  | listForm b => simp [formsetOf] at h
  | form => simpa [formsetOf, eq_comm] using h

theorem richPart_plain (hg : ∀ cls fl ex w l c, gen cls fl ex w l = .ok c → gen' cls fl ex = .ok c.plain) {x : Str} {f : DField} {p : RPart}
    (h : richPart gen declared fl ex w x f = .ok p) : partFor gen' (mapVals RForm.plain declared) fl ex x f.base = .ok p.plain := by
  unfold richPart at h
  cases hw : widgetFor w x with
  | error e => rw [hw] at h; simp at h
  | ok wd =>
    rw [hw] at h
    unfold partFor
    simp only at h
    by_cases hc : f.base.choices ≠ []
    · rw [if_pos hc] at h ⊢; simp only [Except.ok.injEq] at h; subst h; rfl
    · rw [if_neg hc] at h ⊢
      cases ht : f.base.type with
      | node cls =>
        rw [ht] at h; simp only at h ⊢
        rw [mapVals_get?]
        cases hd : declared.get? x with
        | some c => rw [hd] at h; simp only [Except.ok.injEq] at h; subst h; rfl
        | none =>
          rw [hd] at h
          simp only [Option.map_none] at h ⊢
          cases hgc : gen cls (subList fl x) (subList ex x) wd (labelOf x f) with
          | error e => rw [hgc] at h; simp [Except.map] at h
          | ok c => rw [hgc] at h; simp only [Except.map, Except.ok.injEq] at h; subst h; rw [hg _ _ _ _ _ _ hgc]; rfl
      | nodeList cls =>
        rw [ht] at h; simp only at h ⊢
        rw [mapVals_get?]
        cases hd : declared.get? x with
        | some c => rw [hd] at h; simp only at h; rw [formsetOf_ok h]; rfl
        | none =>
          rw [hd] at h
          simp only [Option.map_none] at h ⊢
          cases hgc : gen cls (subList fl x) (subList ex x) wd (labelOf x f) with
          | error e => rw [hgc] at h; simp at h
          | ok c => rw [hgc] at h; simp only at h; rw [hg _ _ _ _ _ _ hgc, formsetOf_ok h]; rfl
      | other => rw [ht] at h; simp at h
      | string => rw [ht] at h; simp only [Except.ok.injEq] at h; subst h; rfl
      | integer => rw [ht] at h; simp only [Except.ok.injEq] at h; subst h; rfl
      | date => rw [ht] at h; simp only [Except.ok.injEq] at h; subst h; rfl
      | simpleBoolean => rw [ht] at h; simp only [Except.ok.injEq] at h; subst h; rfl
      | stringList => rw [ht] at h; simp only [Except.ok.injEq] at h; subst h; rfl
      | integerList => rw [ht] at h; simp only [Except.ok.injEq] at h; subst h; rfl

theorem richParts_plain (hg : ∀ cls fl ex w l c, gen cls fl ex w l = .ok c → gen' cls fl ex = .ok c.plain) {m : DModel} {ps : List (Str × Nat × RPart)}
    (h : richParts gen declared fl ex w m = .ok ps) :
    collectParts gen' (mapVals RForm.plain declared) fl ex m.plain = .ok (ps.map (fun p => (p.1, p.2.1, p.2.2.plain))) := by
  induction m generalizing ps with
  | nil => simp [richParts] at h; subst h; rfl
  | cons q m ih =>
    obtain ⟨x, f⟩ := q
    show collectParts gen' _ fl ex ((x, f.base) :: DModel.plain m) = _
    rw [richParts] at h
    rw [collectParts]
    by_cases hs : skip fl ex x = true
    · rw [if_pos hs] at h ⊢; exact ih h
    · rw [if_neg hs] at h ⊢
      cases hp : richPart gen declared fl ex w x f with
      | error e => rw [hp] at h; simp at h
      | ok p =>
        rw [hp] at h
        cases hc : richParts gen declared fl ex w m with
        | error e => rw [hc] at h; simp at h
        | ok ps' =>
          rw [hc] at h
          simp only [Except.ok.injEq] at h; subst h
          rw [richPart_plain hg hp, ih hc]
          rfl

theorem richPick_plain {α β : Type} (g : RPart → Option α) (g' : Part → Option β) (k : α → β) (hk : ∀ p, g' p.plain = (g p).map k) (ps : List (Str × Nat × RPart)) :
    pick g' (ps.map (fun p => (p.1, p.2.1, p.2.2.plain))) = mapVals k (richPick g ps) := by
  simp only [pick, richPick, mapVals, List.map_filterMap, List.filterMap_map]
  apply List.filterMap_congr
  intro p _
  simp only [Function.comp_apply, hk]
  cases g p.2.2 <;> rfl

theorem richFields_plain (hg : ∀ cls fl ex w l c, gen cls fl ex w l = .ok c → gen' cls fl ex = .ok c.plain) {m : DModel} {g : Generated}
    (h : richFields gen declared fl ex w m = .ok g) :
    formFields gen' (mapVals RForm.plain declared) fl ex m.plain = .ok (.form (mapVals RField.base g.fields) (mapVals RForm.plain g.subforms) (mapVals (fun q => q.2.plain) g.formsets)) := by
  unfold richFields at h
  cases hc : richParts gen declared fl ex w m with
  | error e => rw [hc] at h; simp at h
  | ok ps =>
    rw [hc] at h
    simp only [Except.ok.injEq] at h
    subst h
    unfold formFields
    rw [richParts_plain hg hc]
    have ho : orderOf fl (ps.map (fun p => (p.1, p.2.1, p.2.2.plain))) = richOrder fl ps := by
      cases fl with
      | some l => rfl
      | none => simp only [orderOf, richOrder, List.map_map, Function.comp_def]
    simp only [ho, mapVals_ordered]
    rw [richPick_plain RPart.asField Part.asField RField.base (by intro p; cases p <;> rfl),
      richPick_plain RPart.asSubform Part.asSubform RForm.plain (by intro p; cases p <;> rfl),
      richPick_plain RPart.asFormset Part.asFormset (fun q => q.2.plain) (by intro p; cases p <;> rfl)]

end

/-- What a class statement with a model makes: the declarations sorted, and the parts. -/
theorem classStatement_ok {gen : Gen} {models : Nat → DModel} {bases : List RForm} {body : ClassBody} {c : RForm} (h : classStatement gen models bases body = .ok c) :
    ∃ fs ss ls, sortDecls (allDecls bases body.own) = .ok (fs, ss, ls) ∧ c.meta? = body.opts.or (inherited RForm.meta? bases) ∧
      c.labelAttr = body.label.or (inherited RForm.labelAttr bases) ∧ c.declared = fs ∧
      (c.opts.model = none → c.fields = fs ∧ c.subforms = [] ∧ c.formsets = [] ∧ c.subformLabels = []) ∧
      ∀ cls, c.opts.model = some cls → ∃ g, richFields gen ss c.opts.fields c.opts.exclude c.opts.widgets (models cls) = .ok g ∧
        c = .form c.meta? c.labelAttr fs (Dict.update g.fields fs) g.subforms g.formsets (Dict.update g.labels ls) := by
  unfold classStatement at h
  cases hs : sortDecls (allDecls bases body.own) with
  | error e => rw [hs] at h; simp at h
  | ok r =>
    obtain ⟨fs, ss, ls⟩ := r
    rw [hs] at h
    simp only at h
    refine ⟨fs, ss, ls, rfl, ?_⟩
    cases hm : (optsOf (body.opts.or (inherited RForm.meta? bases))).model with
    | none =>
      rw [hm] at h
      simp only [Except.ok.injEq] at h
      subst h
      exact ⟨rfl, rfl, rfl, fun _ => ⟨rfl, rfl, rfl, rfl⟩, fun cls hc => by rw [RForm.opts, RForm.meta?, hm] at hc; simp at hc⟩
    | some cls =>
      rw [hm] at h
      simp only at h
      cases hf : richFields gen ss (optsOf (body.opts.or (inherited RForm.meta? bases))).fields (optsOf (body.opts.or (inherited RForm.meta? bases))).exclude
          (optsOf (body.opts.or (inherited RForm.meta? bases))).widgets (models cls) with
      | error e => rw [hf] at h; simp at h
      | ok g =>
        rw [hf] at h
        simp only [Except.ok.injEq] at h
        subst h
        refine ⟨rfl, rfl, rfl, fun hc => by rw [RForm.opts, RForm.meta?, hm] at hc; simp at hc, fun cls' hc => ?_⟩
        rw [RForm.opts, RForm.meta?, hm] at hc
        simp only [Option.some.injEq] at hc
        subst hc
        exact ⟨g, hf, rfl⟩

/-- The parts of a class do not depend on the options: they are those of Verif/Forms/FormClass.lean. -/
theorem classStatement_plain {gen : Gen} {gen' : Nat → Option PFL → Option PFL → Except PyErr FormClass} {models : Nat → DModel} {bases : List RForm} {body : ClassBody} {c : RForm} {cls : Nat}
    (hg : ∀ cls fl ex w l c, gen cls fl ex w l = .ok c → gen' cls fl ex = .ok c.plain) (h : classStatement gen models bases body = .ok c) (hc : c.opts.model = some cls)
    {fs ss ls} (hs : sortDecls (allDecls bases body.own) = .ok (fs, ss, ls)) :
    ∃ c', formFields gen' (mapVals RForm.plain ss) c.opts.fields c.opts.exclude (models cls).plain = .ok c' ∧
      c.plain = .form (Dict.update c'.fields (mapVals RField.base fs)) c'.subforms c'.formsets := by
  obtain ⟨fs', ss', ls', h1, _, _, _, _, h2⟩ := classStatement_ok h
  rw [hs] at h1
  simp only [Except.ok.injEq, Prod.mk.injEq] at h1
  obtain ⟨rfl, rfl, rfl⟩ := h1
  obtain ⟨g, h3, h4⟩ := h2 cls hc
  refine ⟨_, richFields_plain hg h3, ?_⟩
  conv_lhs => rw [h4]
  rw [RForm.plain, plainSubs_eq, plainSets_eq, mapVals_update]
  rfl

theorem factory_opts {gen : Gen} {models : Nat → DModel} {cls : Nat} {form : RForm} {args : FactoryArgs} {c : RForm} (h : factory gen models cls form args = .ok c) :
    c.meta? = some (MetaAttrs.over ⟨some cls, givenList args.fields, givenList args.exclude, args.widgets.map some, args.maxNum.map some, args.canDelete, args.extra, args.canOrder⟩ form.meta?) ∧
    c.labelAttr = some args.label := by
  unfold factory at h
  obtain ⟨_, _, _, _, h1, h2, _⟩ := classStatement_ok h
  exact ⟨h1, h2⟩

theorem subFactory_plain (models : Nat → DModel) : ∀ (n cls : Nat) (fl ex : Option PFL) (w : Option WArg) (l : Str) (c : RForm), subFactory models n cls fl ex w l = .ok c →
    formFactory (fun k => (models k).plain) n cls fl ex = .ok c.plain
  | 0, _, _, _, _, _, _, h => by simp [subFactory] at h
  | n + 1, cls, fl, ex, w, l, c, h => by
    rw [subFactory] at h
    have hm := (factory_opts h).1
    have hcls : c.opts.model = some cls := by rw [RForm.opts, hm]; rfl
    have hfl : c.opts.fields = fl := by rw [RForm.opts, hm]; cases fl <;> rfl
    have hex : c.opts.exclude = ex := by rw [RForm.opts, hm]; cases ex <;> rfl
    unfold factory at h
    obtain ⟨c', h1, h2⟩ := classStatement_plain (gen' := formFactory (fun k => (models k).plain) n) (subFactory_plain models n) h hcls (fs := []) (ss := []) (ls := []) rfl
    rw [hfl, hex] at h1
    rw [formFactory]
    show formFields _ (mapVals RForm.plain []) fl ex (models cls).plain = _
    rw [h1, h2]
    cases c' with
    | form a b d => rfl
    | listForm b =>
      unfold formFields at h1
      split at h1 <;> simp at h1

end Forms
