import Verif.Forms.Update
import Verif.Props.FieldList
/-
Properties C49 (update of the own fields of a form) and C53 (validity of forms).

Model: Verif/Forms/Update.lean.
-/
namespace Props
open Forms Py

/-! ### C49 -/

/-- What a form assigns for a cleaned value: the value, and nothing (`None`) for the empty string. -/
def stored {A : Type} : CVal A → CVal A
  | .str [] => .null
  | v => v

/-- The form assigns to field `x`: it is listed in `Meta.fields`, if there is such a list, and else a field of the model; it is not excluded. -/
def Assigns (fields exclude : Option (List Str)) (modelNames : List Str) (x : Str) : Prop :=
  (match fields with | some l => x ∈ l ∧ '.' ∉ x | none => x ∈ modelNames) ∧ (∀ l, exclude = some l → x ∉ l)

/-- A field list that is a list of names, or missing. -/
def metaList : Option (List Str) → MetaList
  | some l => .names l
  | none => .missing

/-- Attributes of instances: `setattr` succeeds, the attribute then has the value, and the other attributes keep theirs. -/
structure Attributes {A D : Type} (get : Str → D → CVal A) (setattr : Str → CVal A → D → Except PyErr Unit × D) : Prop where
  ok : ∀ x v d, (setattr x v d).1 = .ok ()
  same : ∀ x v d, get x (setattr x v d).2 = v
  other : ∀ x y v d, y ≠ x → get y (setattr x v d).2 = get y d

theorem stored_eq {A : Type} (v : CVal A) : (if v.isEmpty then .null else v) = stored v := by
  cases v with
  | null => rfl
  | str s => cases s <;> rfl
  | other a => rfl

theorem stored_stored {A : Type} (v : CVal A) : stored (stored v) = stored v := by
  cases v with
  | null => rfl
  | str s => cases s <;> rfl
  | other a => rfl

theorem updateLoop_get {A D : Type} {get : Str → D → CVal A} {setattr : Str → CVal A → D → Except PyErr Unit × D} (ha : Attributes get setattr)
    (fields exclude : MetaList) (names : List Str) (cleaned : Dict Str (CVal A)) (d : D) :
    let r := updateLoop fields exclude setattr names cleaned d
    r.1 = .ok () ∧ (∀ x, get x r.2.2 = if x ∈ names ∧ skipUpdate fields exclude x = false then (match cleaned.get? x with | some v => stored v | none => get x d) else get x d) ∧
      (∀ x, (r.2.1.get? x).map stored = (cleaned.get? x).map stored) ∧ r.2.1.keys = cleaned.keys := by
  induction names generalizing cleaned d with
  | nil => simp [updateLoop]
  | cons n names ih =>
    rw [updateLoop]
    by_cases hs : skipUpdate fields exclude n = true
    · rw [if_pos hs]
      obtain ⟨h1, h2, h3, h4⟩ := ih cleaned d
      refine ⟨h1, fun x => ?_, h3, h4⟩
      rw [h2 x]
      by_cases hx : x = n
      · subst hx; simp [hs]
      · simp [hx]
    · rw [if_neg hs]
      have hs' : skipUpdate fields exclude n = false := by simpa using hs
      cases hc : cleaned.get? n with
      | none =>
        simp only
        obtain ⟨h1, h2, h3, h4⟩ := ih cleaned d
        refine ⟨h1, fun x => ?_, h3, h4⟩
        rw [h2 x]
        by_cases hx : x = n
        · subst hx; simp [hc]
        · simp [hx]
      | some v =>
        simp only [stored_eq]
        have hok := ha.ok n (stored v) d
        have hsame := ha.same n (stored v) d
        have hoth := fun y hy => ha.other n y (stored v) d hy
        cases hsa : setattr n (stored v) d with
        | mk r d' =>
          rw [hsa] at hok hsame hoth
          simp only at hok hsame hoth
          subst hok
          simp only
          have hcl : ∀ x, ((if v.isEmpty = true then cleaned.set n .null else cleaned).get? x).map stored = (cleaned.get? x).map stored := by
            intro x
            by_cases he : v.isEmpty = true
            · rw [if_pos he, Dict.get?_set]
              by_cases hx : x = n
              · subst hx
                rw [if_pos rfl, hc]
                have : stored v = .null := by rw [← stored_eq, if_pos he]
                simp only [Option.map_some, this]; rfl
              · rw [if_neg hx]
            · rw [if_neg he]
          have hck : (if v.isEmpty = true then cleaned.set n .null else cleaned).keys = cleaned.keys := by
            by_cases he : v.isEmpty = true
            · rw [if_pos he, Dict.keys_set, if_pos]
              rw [← Dict.get?_isSome, hc]; rfl
            · rw [if_neg he]
          obtain ⟨h1, h2, h3, h4⟩ := ih (if v.isEmpty = true then cleaned.set n .null else cleaned) d'
          refine ⟨h1, fun x => ?_, fun x => (h3 x).trans (hcl x), h4.trans hck⟩
          rw [h2 x]
          have key : ∀ y : CVal A, (match (if v.isEmpty = true then cleaned.set n .null else cleaned).get? x with | some v => stored v | none => y) =
              (match cleaned.get? x with | some v => stored v | none => y) := by
            intro y
            have := hcl x
            cases h5 : (if v.isEmpty = true then cleaned.set n .null else cleaned).get? x <;> cases h6 : cleaned.get? x <;> rw [h5, h6] at this
            · simp at this
            · simp at this
            · simpa using this
          rw [key]
          by_cases hx : x = n
          · subst hx
            rw [hc]
            simp only [hs', List.mem_cons, true_or, and_true, if_true, hsame]
            by_cases hm : x ∈ names <;> simp [hm]
          · rw [hoth x hx]
            simp [hx]

theorem plain_nil : Plain [] := by intro c hc; simp at hc

theorem mem_parse_dotfree {names : List Str} {inc : Bool} {x : Str} (h : x ∈ (parseFieldList names inc).fields) : '.' ∉ x := by
  have hl : levelAt (parseFieldList names inc) [] = some (parseFieldList names inc) := rfl
  have hm : x ∈ firsts (parseFieldList names inc).fields := mem_firsts.2 h
  cases inc with
  | true =>
    rw [C47_order_parents names [] _ hl] at hm
    have hm := mem_firsts.1 hm
    obtain ⟨n, _, hn⟩ := List.mem_filterMap.1 hm
    simp only [headAt, List.length_nil, List.take_zero, if_true, List.drop_zero] at hn
    cases hs : n.splitOn '.' with
    | nil => simp at hs
    | cons a l =>
      rw [hs] at hn
      have hp := splitOn_plain n
      rw [hs] at hp
      have ha := hp a (by simp)
      cases l <;> simp at hn <;> (subst hn; exact ha)
  | false =>
    rw [C47_order names [] _ hl] at h
    obtain ⟨n, _, hn⟩ := List.mem_filterMap.1 h
    simp only [headAt, List.length_nil, List.take_zero, if_true, List.drop_zero] at hn
    cases hs : n.splitOn '.' with
    | nil => simp at hs
    | cons a l =>
      rw [hs] at hn
      have hp := splitOn_plain n
      rw [hs] at hp
      have ha := hp a (by simp)
      cases l with
      | nil => simp at hn; subst hn; exact ha
      | cons b l => simp at hn

theorem mem_parse {names : List Str} {inc : Bool} {x : Str} (hx : '.' ∉ x) : x ∈ (parseFieldList names inc).fields ↔ x ∈ names ∨ (inc = true ∧ ∃ n ∈ names, Below [x] n) := by
  have := C47_fields names inc [] plain_nil _ rfl x hx
  simpa [dotted] using this

theorem assigns_iff (fields exclude : Option (List Str)) (modelNames : List Str) (hm : ∀ x ∈ modelNames, '.' ∉ x) (names : List Str)
    (hn : fieldsInOrder (metaList fields) modelNames = .ok names) (x : Str) :
    (x ∈ names ∧ skipUpdate (metaList fields) (metaList exclude) x = false) ↔ Assigns fields exclude modelNames x := by
  have hex : '.' ∉ x → (((metaList exclude).truthy && decide (x ∈ (metaList exclude).parsedFields false)) = false ↔ ∀ l, exclude = some l → x ∉ l) := by
    intro hx
    cases exclude with
    | none => simp [metaList, MetaList.truthy]
    | some l =>
      simp only [metaList, MetaList.truthy, MetaList.parsedFields, Option.some.injEq, forall_eq']
      have := mem_parse (names := l) (inc := false) hx
      simp only [Bool.false_eq_true, false_and, or_false] at this
      cases l with
      | nil => simp
      | cons a l => simp [this]
  cases fields with
  | none =>
    simp only [metaList, fieldsInOrder, Except.ok.injEq] at hn
    subst hn
    simp only [skipUpdate, metaList, MetaList.truthy, Bool.false_and, Bool.false_or, Assigns]
    refine and_congr_right (fun h => ?_)
    exact hex (hm x h)
  | some l =>
    simp only [metaList, fieldsInOrder, Except.ok.injEq] at hn
    subst hn
    have hmem : x ∈ l ++ modelNames.filter (fun n => n ∈ l) ↔ x ∈ l := by simp
    rw [hmem]
    simp only [skipUpdate, Bool.or_eq_false_iff, Assigns]
    constructor
    · rintro ⟨h1, h2, h3⟩
      have hd : '.' ∉ x := by
        simp only [metaList, MetaList.truthy, MetaList.parsedFields, Bool.and_eq_false_iff] at h2
        rcases h2 with h2 | h2
        · simp at h2; rw [h2] at h1; simp at h1
        · exact mem_parse_dotfree (Decidable.not_not.1 (of_decide_eq_false h2))
      exact ⟨⟨h1, hd⟩, (hex hd).1 h3⟩
    · rintro ⟨⟨h1, hd⟩, h3⟩
      refine ⟨h1, ?_, (hex hd).2 h3⟩
      have : x ∈ (parseFieldList l true).fields := (mem_parse hd).2 (Or.inl h1)
      simp [metaList, MetaList.parsedFields, this]

/-- After the update, every field the form assigns to, and for which there is cleaned data, has the cleaned value (nothing for the empty string);
every other attribute is as before. -/
theorem C49_update {A D : Type} (get : Str → D → CVal A) (setattr : Str → CVal A → D → Except PyErr Unit × D) (ha : Attributes get setattr)
    (fields exclude : Option (List Str)) (modelNames : List Str) (hm : ∀ x ∈ modelNames, '.' ∉ x) (cleaned : Dict Str (CVal A)) (d : D) :
    ∃ cleaned' d', updateOwn (metaList fields) (metaList exclude) modelNames setattr cleaned d = (.ok (), cleaned', d') ∧
      (∀ x v, Assigns fields exclude modelNames x → cleaned.get? x = some v → get x d' = stored v) ∧
      (∀ x, ¬ (Assigns fields exclude modelNames x ∧ x ∈ cleaned.keys) → get x d' = get x d) := by
  have hok : ∃ names, fieldsInOrder (metaList fields) modelNames = .ok names := by cases fields <;> exact ⟨_, rfl⟩
  obtain ⟨names, hn⟩ := hok
  obtain ⟨h1, h2, h3, h4⟩ := updateLoop_get ha (metaList fields) (metaList exclude) names cleaned d
  unfold updateOwn
  rw [hn]
  simp only
  cases hr : updateLoop (metaList fields) (metaList exclude) setattr names cleaned d with
  | mk r q =>
    rw [hr] at h1 h2
    simp only at h1 h2
    subst h1
    refine ⟨q.1, q.2, rfl, fun x v hx hv => ?_, fun x hx => ?_⟩
    · rw [h2 x, if_pos ((assigns_iff fields exclude modelNames hm names hn x).2 hx), hv]
    · rw [h2 x]
      by_cases hc : x ∈ names ∧ skipUpdate (metaList fields) (metaList exclude) x = false
      · rw [if_pos hc]
        have : x ∉ cleaned.keys := fun hk => hx ⟨(assigns_iff fields exclude modelNames hm names hn x).1 hc, hk⟩
        rw [(Dict.get?_none cleaned x).2 this]
      · rw [if_neg hc]

/-- Which of the names in the order of assignments are assigned. -/
theorem filter_assigns (fields exclude : Option (List Str)) (modelNames : List Str) (hm : ∀ x ∈ modelNames, '.' ∉ x) (keys : List Str) (names : List Str)
    (hn : fieldsInOrder (metaList fields) modelNames = .ok names) :
    names.filter (fun x => !skipUpdate (metaList fields) (metaList exclude) x && decide (x ∈ keys)) =
      names.filter (fun x => decide ('.' ∉ x ∧ x ∉ exclude.getD [] ∧ x ∈ keys)) := by
  refine List.filter_congr (fun x hx => ?_)
  have h := assigns_iff fields exclude modelNames hm names hn x
  have hin : (match fields with | some l => x ∈ l | none => x ∈ modelNames) := by
    cases fields with
    | none => simp only [metaList, fieldsInOrder, Except.ok.injEq] at hn; subst hn; exact hx
    | some l =>
      simp only [metaList, fieldsInOrder, Except.ok.injEq] at hn; subst hn
      rcases List.mem_append.1 hx with h | h
      · exact h
      · exact of_decide_eq_true (List.mem_filter.1 h).2
  have hA : Assigns fields exclude modelNames x ↔ '.' ∉ x ∧ x ∉ exclude.getD [] := by
    unfold Assigns
    have he : (∀ l, exclude = some l → x ∉ l) ↔ x ∉ exclude.getD [] := by cases exclude <;> simp
    rw [he]
    refine and_congr_left (fun _ => ?_)
    cases fields with
    | none => exact ⟨fun h => hm x h, fun _ => hin⟩
    | some l => exact ⟨fun h => h.2, fun h => ⟨hin, h⟩⟩
  rw [hA] at h
  rw [Bool.eq_iff_iff, Bool.and_eq_true, Bool.not_eq_true', decide_eq_true_iff, decide_eq_true_iff]
  constructor
  · rintro ⟨h1, h2⟩
    have := h.1 ⟨hx, h1⟩
    exact ⟨this.1, this.2, h2⟩
  · rintro ⟨h1, h2, h3⟩
    exact ⟨(h.2 ⟨h1, h2⟩).2, h3⟩

/-- The sequence of assignments, when each succeeds: exactly those in the order of `Meta.fields` (each model field of it twice), or of the model. -/
theorem C49_trace {A : Type} (fields exclude : Option (List Str)) (modelNames : List Str) (hm : ∀ x ∈ modelNames, '.' ∉ x) (cleaned : Dict Str (CVal A)) (hc : cleaned.Wf) :
    let log := (updateOwn (metaList fields) (metaList exclude) modelNames (fun x v (l : List (Str × CVal A)) => (.ok (), l ++ [(x, v)])) cleaned []).2.2
    let order := match fields with | some l => l ++ modelNames.filter (fun n => n ∈ l) | none => modelNames
    log.map (·.1) = order.filter (fun x => decide ('.' ∉ x ∧ x ∉ exclude.getD [] ∧ x ∈ cleaned.keys)) ∧
      ∀ x v, (x, v) ∈ log → ∃ w, cleaned.get? x = some w ∧ v = stored w := by
  have key : ∀ (names : List Str) (cl : Dict Str (CVal A)) (l0 : List (Str × CVal A)), cl.keys = cleaned.keys → (∀ x, (cl.get? x).map stored = (cleaned.get? x).map stored) →
      let r := (updateLoop (metaList fields) (metaList exclude) (fun x v (l : List (Str × CVal A)) => (.ok (), l ++ [(x, v)])) names cl l0).2.2
      ∃ new, r = l0 ++ new ∧ new.map (·.1) = names.filter (fun x => !skipUpdate (metaList fields) (metaList exclude) x && decide (x ∈ cleaned.keys)) ∧
        ∀ x v, (x, v) ∈ new → ∃ w, cleaned.get? x = some w ∧ v = stored w := by
    intro names
    induction names with
    | nil => intro cl l0 _ _; exact ⟨[], by simp [updateLoop], rfl, by simp⟩
    | cons n names ih =>
      intro cl l0 hk hv
      rw [updateLoop]
      by_cases hs : skipUpdate (metaList fields) (metaList exclude) n = true
      · rw [if_pos hs]
        obtain ⟨new, h1, h2, h3⟩ := ih cl l0 hk hv
        exact ⟨new, h1, by rw [List.filter_cons, if_neg (by simp [hs])]; exact h2, h3⟩
      · rw [if_neg hs]
        cases hcn : cl.get? n with
        | none =>
          simp only
          obtain ⟨new, h1, h2, h3⟩ := ih cl l0 hk hv
          have : n ∉ cleaned.keys := by rw [← hk]; exact (Dict.get?_none cl n).1 hcn
          exact ⟨new, h1, by rw [List.filter_cons, if_neg (by simp [this])]; exact h2, h3⟩
        | some v =>
          simp only [stored_eq]
          have hmem : n ∈ cleaned.keys := by rw [← hk, ← Dict.get?_isSome, hcn]; rfl
          have hk' : (if v.isEmpty = true then cl.set n .null else cl).keys = cleaned.keys := by
            by_cases he : v.isEmpty = true
            · rw [if_pos he, Dict.keys_set, if_pos (by rw [hk]; exact hmem), hk]
            · rw [if_neg he, hk]
          have hv' : ∀ x, ((if v.isEmpty = true then cl.set n .null else cl).get? x).map stored = (cleaned.get? x).map stored := by
            intro x
            by_cases he : v.isEmpty = true
            · rw [if_pos he, Dict.get?_set]
              by_cases hx : x = n
              · subst hx
                rw [if_pos rfl, ← hv x, hcn]
                have : stored v = .null := by rw [← stored_eq, if_pos he]
                simp only [Option.map_some, this]; rfl
              · rw [if_neg hx]; exact hv x
            · rw [if_neg he]; exact hv x
          obtain ⟨new, h1, h2, h3⟩ := ih _ (l0 ++ [(n, stored v)]) hk' hv'
          refine ⟨(n, stored v) :: new, by rw [h1]; simp, ?_, ?_⟩
          · rw [List.filter_cons, if_pos (by simp [hs, hmem]), List.map_cons, h2]
          · intro x u hxu
            rcases List.mem_cons.1 hxu with e | hxu
            · simp only [Prod.mk.injEq] at e
              obtain ⟨rfl, rfl⟩ := e
              have := hv x
              rw [hcn] at this
              cases hcx : cleaned.get? x with
              | none => rw [hcx] at this; simp at this
              | some w => rw [hcx] at this; simp at this; exact ⟨w, rfl, this⟩
            · exact h3 x u hxu
  have := fun names => key names cleaned [] rfl (fun _ => rfl)
  cases fields with
  | none =>
    obtain ⟨new, h1, h2, h3⟩ := this modelNames
    simp only [List.nil_append] at h1
    simp only [updateOwn, metaList, fieldsInOrder] at h1 ⊢
    rw [h1]; exact ⟨h2.trans (filter_assigns none exclude modelNames hm cleaned.keys _ rfl), h3⟩
  | some l =>
    obtain ⟨new, h1, h2, h3⟩ := this (l ++ modelNames.filter (fun n => n ∈ l))
    simp only [List.nil_append] at h1
    simp only [updateOwn, metaList, fieldsInOrder] at h1 ⊢
    rw [h1]; exact ⟨h2.trans (filter_assigns (some l) exclude modelNames hm cleaned.keys _ rfl), h3⟩

/-- Attributes exist: dictionaries of values. -/
theorem attributes_dict : Attributes (A := Nat) (fun x (d : Str → CVal Nat) => d x) (fun x v d => (.ok (), fun y => if y = x then v else d y)) :=
  ⟨fun _ _ _ => rfl, fun _ _ _ => by simp, fun _ _ _ _ h => by simp [h]⟩

example : (updateOwn (metaList (some [c%"id", c%"title", c%"child.name"])) (metaList (some [c%"title"])) [c%"title", c%"id", c%"size"]
    (fun x v (l : List (Str × CVal Nat)) => (.ok (), l ++ [(x, v)])) [(c%"id", .str []), (c%"title", .str c%"t"), (c%"size", .other 3)] []).2.2 =
    [(c%"id", .null), (c%"id", .null)] := by decide
example : (updateOwn (metaList none) (metaList none) [c%"title", c%"id", c%"size"]
    (fun x v (l : List (Str × CVal Nat)) => (.ok (), l ++ [(x, v)])) [(c%"id", .str []), (c%"title", .str c%"t"), (c%"size", .other 3)] []).2.2 =
    [(c%"title", .str c%"t"), (c%"id", .null), (c%"size", .other 3)] := by decide

/-- Counterexample: the generated subform of a form whose list selects fields of that subform has a parsed list in its `Meta`, and its
`update_instance` raises `TypeError`, whatever the data; nothing is assigned. -/
theorem C49_counterexample_subform {A D : Type} (l : PFL) (exclude : MetaList) (modelNames : List Str) (setattr : Str → CVal A → D → Except PyErr Unit × D)
    (cleaned : Dict Str (CVal A)) (d : D) : updateOwn (.parsed l) exclude modelNames setattr cleaned d = (.error .typeError, cleaned, d) := rfl

/-- The generated subform of a form whose `exclude` names fields of that subform has a parsed list as `exclude`: it assigns to all fields of the class but those. -/
theorem C49_excluded_subform {A D : Type} (get : Str → D → CVal A) (setattr : Str → CVal A → D → Except PyErr Unit × D) (ha : Attributes get setattr)
    (l : PFL) (modelNames : List Str) (cleaned : Dict Str (CVal A)) (d : D) :
    ∃ cleaned' d', updateOwn .missing (.parsed l) modelNames setattr cleaned d = (.ok (), cleaned', d') ∧
      (∀ x v, x ∈ modelNames → x ∉ l.fields → cleaned.get? x = some v → get x d' = stored v) ∧
      (∀ x, (x ∉ modelNames ∨ x ∈ l.fields ∨ cleaned.get? x = none) → get x d' = get x d) := by
  obtain ⟨h1, h2, -, -⟩ := updateLoop_get ha .missing (.parsed l) modelNames cleaned d
  have hsk : ∀ x, skipUpdate .missing (.parsed l) x = decide (x ∈ l.fields) := fun x => by simp [skipUpdate, MetaList.truthy, MetaList.parsedFields]; try rfl
  refine ⟨_, _, Prod.ext h1 rfl, fun x v hx hl hv => ?_, fun x hx => ?_⟩
  · refine (h2 x).trans ?_
    rw [if_pos ⟨hx, by simp [hsk, hl]⟩, hv]
  · refine (h2 x).trans ?_
    by_cases hc : x ∈ modelNames ∧ skipUpdate .missing (.parsed l) x = false
    · rw [if_pos hc]
      rcases hx with hx | hx | hx
      · exact absurd hc.1 hx
      · simp [hsk, hx] at hc
      · rw [hx]
    · rw [if_neg hc]

/-- Of two fields, one is excluded. -/
example : (updateOwn .missing (.parsed (parseFieldList [c%"title"] false)) [c%"title", c%"id"]
    (fun x v (l : List (Str × CVal Nat)) => (.ok (), l ++ [(x, v)])) [(c%"id", .str c%"i"), (c%"title", .str c%"t")] []).2.2 = [(c%"id", .str c%"i")] := by decide

/-! ### C53 -/

/- A form and all its subforms, and the members of its formsets that are not deleted, have valid data, and the formsets no errors of their own. -/
mutual
def DataOk {D : Type} (w : World D) : Form → Prop
  | .mk id subs sets => w.ownValid id = true ∧ DataOks w subs ∧ SetsOk w sets
def DataOks {D : Type} (w : World D) : FormList → Prop
  | .nil => True
  | .cons f rest => DataOk w f ∧ DataOks w rest
def SetsOk {D : Type} (w : World D) : SetList → Prop
  | .nil => True
  | .cons id members rest => (DataOks w members ∧ w.setValid id = true) ∧ SetsOk w rest
end

/- The numbers of a form, its subforms, and the members of its formsets. -/
mutual
def formIds : Form → List Nat
  | .mk id subs sets => id :: (formsIds subs ++ setsIds sets)
def formsIds : FormList → List Nat
  | .nil => []
  | .cons f rest => formIds f ++ formsIds rest
def setsIds : SetList → List Nat
  | .nil => []
  | .cons _ members rest => formsIds members ++ setsIds rest
end

/-- Schema errors were reported for this form. -/
def Reported (id : Nat) (log : List Event) : Prop := ∃ n, Event.schemaErrors id n ∈ log

theorem hasSchemaErrors_iff (id : Nat) (log : List Event) : hasSchemaErrors id log = true ↔ Reported id log := by
  unfold hasSchemaErrors Reported
  rw [List.any_eq_true]
  constructor
  · rintro ⟨x, hx, h⟩
    cases x with
    | updated i => simp at h
    | schemaErrors i n => simp at h; subst h; exact ⟨n, hx⟩
  · rintro ⟨n, hn⟩; exact ⟨_, hn, by simp⟩

/-- The form an event is about. -/
def evId : Event → Nat
  | .updated i => i
  | .schemaErrors i _ => i

/-- From `s` to `s'` events about the forms `ids` were added. -/
def Adds {D : Type} (ids : List Nat) (s s' : St D) : Prop := ∃ new, s'.log = s.log ++ new ∧ ∀ e ∈ new, evId e ∈ ids
/-- The same, and no schema errors among them. -/
def AddsUpd {D : Type} (ids : List Nat) (s s' : St D) : Prop := ∃ new, s'.log = s.log ++ new ∧ ∀ e ∈ new, ∃ i ∈ ids, e = .updated i

section
variable {D : Type} {w : World D}

theorem AddsUpd.refl {ids : List Nat} {s : St D} : AddsUpd ids s s := ⟨[], by simp⟩
theorem AddsUpd.of_log {ids : List Nat} {s s' : St D} (h : s'.log = s.log) : AddsUpd ids s s' := ⟨[], by simp [h]⟩
theorem AddsUpd.trans {ids : List Nat} {s s' s'' : St D} (h : AddsUpd ids s s') (h' : AddsUpd ids s' s'') : AddsUpd ids s s'' := by
  obtain ⟨n, h1, h2⟩ := h
  obtain ⟨n', h3, h4⟩ := h'
  refine ⟨n ++ n', by rw [h3, h1, List.append_assoc], fun e he => ?_⟩
  rcases List.mem_append.1 he with h | h
  · exact h2 e h
  · exact h4 e h
theorem AddsUpd.mono {ids ids' : List Nat} {s s' : St D} (h : AddsUpd ids s s') (hs : ∀ i ∈ ids, i ∈ ids') : AddsUpd ids' s s' := by
  obtain ⟨n, h1, h2⟩ := h
  exact ⟨n, h1, fun e he => by obtain ⟨i, hi, h⟩ := h2 e he; exact ⟨i, hs i hi, h⟩⟩
theorem AddsUpd.adds {ids : List Nat} {s s' : St D} (h : AddsUpd ids s s') : Adds ids s s' := by
  obtain ⟨n, h1, h2⟩ := h
  exact ⟨n, h1, fun e he => by obtain ⟨i, hi, rfl⟩ := h2 e he; exact hi⟩
theorem AddsUpd.reported {ids : List Nat} {s s' : St D} (h : AddsUpd ids s s') (i : Nat) : Reported i s'.log ↔ Reported i s.log := by
  obtain ⟨n, h1, h2⟩ := h
  unfold Reported
  rw [h1]
  constructor
  · rintro ⟨m, hm⟩
    rcases List.mem_append.1 hm with h | h
    · exact ⟨m, h⟩
    · obtain ⟨j, _, hj⟩ := h2 _ h; cases hj
  · rintro ⟨m, hm⟩; exact ⟨m, List.mem_append_left _ hm⟩

theorem Adds.refl {ids : List Nat} {s : St D} : Adds ids s s := ⟨[], by simp⟩
theorem Adds.trans {ids : List Nat} {s s' s'' : St D} (h : Adds ids s s') (h' : Adds ids s' s'') : Adds ids s s'' := by
  obtain ⟨n, h1, h2⟩ := h
  obtain ⟨n', h3, h4⟩ := h'
  refine ⟨n ++ n', by rw [h3, h1, List.append_assoc], fun e he => ?_⟩
  rcases List.mem_append.1 he with h | h
  · exact h2 e h
  · exact h4 e h
theorem Adds.mono {ids ids' : List Nat} {s s' : St D} (h : Adds ids s s') (hs : ∀ i ∈ ids, i ∈ ids') : Adds ids' s s' := by
  obtain ⟨n, h1, h2⟩ := h
  exact ⟨n, h1, fun e he => hs _ (h2 e he)⟩
theorem Adds.reported {ids : List Nat} {s s' : St D} (h : Adds ids s s') {i : Nat} (hr : Reported i s.log) : Reported i s'.log := by
  obtain ⟨n, h1, _⟩ := h
  obtain ⟨m, hm⟩ := hr
  exact ⟨m, by rw [h1]; exact List.mem_append_left _ hm⟩

theorem updateSets_log (w : World D) : ∀ (l : SetList) (s : St D), (updateSets w l s).log = s.log
  | .nil, s => rfl
  | .cons id m r, s => by rw [updateSets, updateSets_log w r]

theorem finishSub_log (w : World D) (id : Nat) (old : Bool) (s : St D) : (finishSub w id old s).log = s.log := by
  unfold finishSub
  simp only
  split <;> split <;> rfl

mutual
theorem updateForm_adds (w : World D) : ∀ (f : Form) (s : St D), AddsUpd (formIds f) s (updateForm w f s)
  | .mk id subs sets, s => by
    rw [updateForm]
    refine AddsUpd.trans ?_ (AddsUpd.of_log (updateSets_log w sets _))
    refine AddsUpd.trans (s' := { doc := w.assign id s.doc, log := s.log ++ [.updated id] }) ⟨[.updated id], rfl, ?_⟩ ((updateSubs_adds w subs _).mono ?_)
    · intro e he; simp at he; exact ⟨id, by simp [formIds], he⟩
    · intro i hi; simp [formIds, hi]
theorem updateSubs_adds (w : World D) : ∀ (l : FormList) (s : St D), AddsUpd (formsIds l) s (updateSubs w l s)
  | .nil, s => by rw [updateSubs]; exact AddsUpd.refl
  | .cons f rest, s => by
    rw [updateSubs]
    refine AddsUpd.trans ?_ ((updateSubs_adds w rest _).mono (by intro i hi; simp [formsIds, hi]))
    refine AddsUpd.trans ((updateForm_adds w f s).mono (by intro i hi; simp [formsIds, hi])) (AddsUpd.of_log (finishSub_log w _ _ _))
end

/-- What a validity check of forms `ids` (with `ok`: their data are valid) from `s` says and does. -/
structure Checks (ids : List Nat) (ok : Prop) (s : St D) (r : Bool × St D) : Prop where
  adds : Adds ids s r.2
  yes : r.1 = true → ok ∧ AddsUpd ids s r.2 ∧ ∀ i ∈ ids, ¬ Reported i s.log
  no : r.1 = false → ok → ∃ i ∈ ids, Reported i r.2.log

mutual
theorem isValid_checks (w : World D) : ∀ (f : Form) (s : St D), Checks (formIds f) (DataOk w f) s (isValid w f s)
  | .mk id subs sets, s => by
    rw [isValid]
    by_cases hc : (w.ownValid id && !hasSchemaErrors id s.log) = true
    · rw [if_pos hc]
      rw [Bool.and_eq_true, Bool.not_eq_true'] at hc
      obtain ⟨ho, hr⟩ := hc
      have hr' : ¬ Reported id s.log := by rw [← hasSchemaErrors_iff, hr]; simp
      have h1 := allValid_checks w subs s
      have hsub : ∀ i ∈ formsIds subs, i ∈ formIds (.mk id subs sets) := by intro i hi; simp [formIds, hi]
      have hset : ∀ i ∈ setsIds sets, i ∈ formIds (.mk id subs sets) := by intro i hi; simp [formIds, hi]
      cases ha : allValid w subs s with
      | mk b s1 =>
        rw [ha] at h1
        cases b with
        | false =>
          simp only
          refine ⟨h1.adds.mono hsub, by simp, fun _ hok => ?_⟩
          obtain ⟨i, hi, hri⟩ := h1.no rfl hok.2.1
          exact ⟨i, hsub i hi, hri⟩
        | true =>
          simp only
          have h2 := allSetsValid_checks w sets s1
          obtain ⟨d1, a1, n1⟩ := h1.yes rfl
          simp only at d1 a1 n1
          cases hb : allSetsValid w sets s1 with
          | mk b s2 =>
            rw [hb] at h2
            cases b with
            | false =>
              simp only
              refine ⟨(h1.adds.mono hsub).trans (h2.adds.mono hset), by simp, fun _ hok => ?_⟩
              obtain ⟨i, hi, hri⟩ := h2.no rfl hok.2.2
              exact ⟨i, hset i hi, hri⟩
            | true =>
              simp only
              obtain ⟨d2, a2, n2⟩ := h2.yes rfl
              simp only at d2 a2 n2
              have a3 := updateForm_adds w (.mk id subs sets) s2
              have a := ((a1.mono hsub).trans (a2.mono hset)).trans a3
              cases he : w.schemaErrors id (updateForm w (.mk id subs sets) s2).doc with
              | none =>
                simp only
                refine ⟨a.adds, fun _ => ⟨⟨ho, d1, d2⟩, a, ?_⟩, by simp⟩
                intro i hi
                simp only [formIds, List.mem_cons, List.mem_append] at hi
                rcases hi with rfl | hi | hi
                · exact hr'
                · exact n1 i hi
                · intro hri; exact n2 i hi (a1.adds.reported hri)
              | some n =>
                simp only
                refine ⟨Adds.trans a.adds ⟨[.schemaErrors id (n + 1)], rfl, ?_⟩, by simp, fun _ _ => ⟨id, by simp [formIds], n + 1, by simp⟩⟩
                intro e he; simp at he; subst he; simp [evId, formIds]
    · rw [if_neg hc]
      refine ⟨Adds.refl, by simp, fun _ hok => ?_⟩
      have : Reported id s.log := by
        rw [← hasSchemaErrors_iff]
        simpa [hok.1] using hc
      exact ⟨id, by simp [formIds], this⟩
theorem allValid_checks (w : World D) : ∀ (l : FormList) (s : St D), Checks (formsIds l) (DataOks w l) s (allValid w l s)
  | .nil, s => by
    rw [allValid]
    exact ⟨Adds.refl, fun _ => ⟨trivial, AddsUpd.refl, by simp [formsIds]⟩, by simp⟩
  | .cons f rest, s => by
    rw [allValid]
    have h1 := isValid_checks w f s
    have hf : ∀ i ∈ formIds f, i ∈ formsIds (.cons f rest) := by intro i hi; simp [formsIds, hi]
    have hre : ∀ i ∈ formsIds rest, i ∈ formsIds (.cons f rest) := by intro i hi; simp [formsIds, hi]
    cases ha : isValid w f s with
    | mk b s1 =>
      rw [ha] at h1
      cases b with
      | false =>
        simp only
        refine ⟨h1.adds.mono hf, by simp, fun _ hok => ?_⟩
        obtain ⟨i, hi, hri⟩ := h1.no rfl hok.1
        exact ⟨i, hf i hi, hri⟩
      | true =>
        simp only
        have h2 := allValid_checks w rest s1
        obtain ⟨d1, a1, n1⟩ := h1.yes rfl
        simp only at d1 a1 n1
        refine ⟨(h1.adds.mono hf).trans (h2.adds.mono hre), fun hy => ?_, fun hn hok => ?_⟩
        · obtain ⟨d2, a2, n2⟩ := h2.yes hy
          refine ⟨⟨d1, d2⟩, (a1.mono hf).trans (a2.mono hre), fun i hi => ?_⟩
          simp only [formsIds, List.mem_append] at hi
          rcases hi with hi | hi
          · exact n1 i hi
          · intro hri; exact n2 i hi (a1.adds.reported hri)
        · obtain ⟨i, hi, hri⟩ := h2.no hn hok.2
          exact ⟨i, hre i hi, hri⟩
theorem membersValid_checks (w : World D) : ∀ (l : FormList) (s : St D), Checks (formsIds l) (DataOks w l) s (membersValid w l s)
  | .nil, s => by
    rw [membersValid]
    exact ⟨Adds.refl, fun _ => ⟨trivial, AddsUpd.refl, by simp [formsIds]⟩, by simp⟩
  | .cons f rest, s => by
    rw [membersValid]
    have h1 := isValid_checks w f s
    have h2 := membersValid_checks w rest (isValid w f s).2
    have hf : ∀ i ∈ formIds f, i ∈ formsIds (.cons f rest) := by intro i hi; simp [formsIds, hi]
    have hre : ∀ i ∈ formsIds rest, i ∈ formsIds (.cons f rest) := by intro i hi; simp [formsIds, hi]
    refine ⟨(h1.adds.mono hf).trans (h2.adds.mono hre), fun hy => ?_, fun hn hok => ?_⟩
    · simp only [Bool.and_eq_true] at hy
      obtain ⟨d1, a1, n1⟩ := h1.yes hy.1
      obtain ⟨d2, a2, n2⟩ := h2.yes hy.2
      refine ⟨⟨d1, d2⟩, (a1.mono hf).trans (a2.mono hre), fun i hi => ?_⟩
      simp only [formsIds, List.mem_append] at hi
      rcases hi with hi | hi
      · exact n1 i hi
      · intro hri; exact n2 i hi (a1.adds.reported hri)
    · simp only [Bool.and_eq_false_iff] at hn
      rcases hn with hn | hn
      · obtain ⟨i, hi, hri⟩ := h1.no hn hok.1
        exact ⟨i, hf i hi, h2.adds.reported hri⟩
      · obtain ⟨i, hi, hri⟩ := h2.no hn hok.2
        exact ⟨i, hre i hi, hri⟩
theorem allSetsValid_checks (w : World D) : ∀ (l : SetList) (s : St D), Checks (setsIds l) (SetsOk w l) s (allSetsValid w l s)
  | .nil, s => by
    rw [allSetsValid]
    exact ⟨Adds.refl, fun _ => ⟨trivial, AddsUpd.refl, by simp [setsIds]⟩, by simp⟩
  | .cons id members rest, s => by
    rw [allSetsValid]
    have h1 := membersValid_checks w members s
    have hf : ∀ i ∈ formsIds members, i ∈ setsIds (.cons id members rest) := by intro i hi; simp [setsIds, hi]
    have hre : ∀ i ∈ setsIds rest, i ∈ setsIds (.cons id members rest) := by intro i hi; simp [setsIds, hi]
    cases ha : membersValid w members s with
    | mk b s1 =>
      rw [ha] at h1
      simp only
      by_cases hc : (b && w.setValid id) = true
      · rw [if_pos hc]
        rw [Bool.and_eq_true] at hc
        obtain ⟨rfl, hv⟩ := hc
        have h2 := allSetsValid_checks w rest s1
        obtain ⟨d1, a1, n1⟩ := h1.yes rfl
        simp only at d1 a1 n1
        refine ⟨(h1.adds.mono hf).trans (h2.adds.mono hre), fun hy => ?_, fun hn hok => ?_⟩
        · obtain ⟨d2, a2, n2⟩ := h2.yes hy
          refine ⟨⟨⟨d1, hv⟩, d2⟩, (a1.mono hf).trans (a2.mono hre), fun i hi => ?_⟩
          simp only [setsIds, List.mem_append] at hi
          rcases hi with hi | hi
          · exact n1 i hi
          · intro hri; exact n2 i hi (a1.adds.reported hri)
        · obtain ⟨i, hi, hri⟩ := h2.no hn hok.2
          exact ⟨i, hre i hi, hri⟩
      · rw [if_neg hc]
        refine ⟨h1.adds.mono hf, by simp, fun _ hok => ?_⟩
        have hb : b = false := by simpa [hok.1.2] using hc
        subst hb
        obtain ⟨i, hi, hri⟩ := h1.no rfl hok.1.1
        exact ⟨i, hf i hi, hri⟩
end

/-- A form is valid exactly if all data in it are valid and no schema errors were reported on a form in it, then or earlier. -/
theorem C53_iff (w : World D) (f : Form) (s : St D) :
    (isValid w f s).1 = true ↔ DataOk w f ∧ ∀ i ∈ formIds f, ¬ Reported i (isValid w f s).2.log := by
  have h := isValid_checks w f s
  constructor
  · intro hy
    obtain ⟨d, a, n⟩ := h.yes hy
    exact ⟨d, fun i hi hr => n i hi ((a.reported i).1 hr)⟩
  · rintro ⟨d, n⟩
    cases hb : (isValid w f s).1 with
    | true => rfl
    | false => obtain ⟨i, hi, hr⟩ := h.no hb d; exact absurd hr (n i hi)

/-- Without schema errors (for instance, without a schema) a form is valid exactly if all data in it are valid. -/
theorem C53_no_schema (w : World D) (hw : ∀ i d, w.schemaErrors i d = none) (f : Form) (d : D) : (isValid w f ⟨d, []⟩).1 = true ↔ DataOk w f := by
  have key : ∀ (f : Form), ∀ s : St D, AddsUpd (formIds f) s (isValid w f s).2 := by
    intro f
    refine Form.rec (motive_1 := fun f => ∀ s : St D, AddsUpd (formIds f) s (isValid w f s).2)
      (motive_2 := fun l => ∀ s : St D, AddsUpd (formsIds l) s (allValid w l s).2 ∧ AddsUpd (formsIds l) s (membersValid w l s).2)
      (motive_3 := fun l => ∀ s : St D, AddsUpd (setsIds l) s (allSetsValid w l s).2) ?_ ?_ ?_ ?_ ?_ f
    · intro id subs sets h1 h2 s
      rw [isValid]
      have hsub : ∀ i ∈ formsIds subs, i ∈ formIds (.mk id subs sets) := by intro i hi; simp [formIds, hi]
      have hset : ∀ i ∈ setsIds sets, i ∈ formIds (.mk id subs sets) := by intro i hi; simp [formIds, hi]
      split
      · have a1 := (h1 s).1
        cases ha : allValid w subs s with
        | mk b s1 =>
          rw [ha] at a1
          cases b with
          | false => exact a1.mono hsub
          | true =>
            simp only
            have a2 := h2 s1
            cases hb : allSetsValid w sets s1 with
            | mk b s2 =>
              rw [hb] at a2
              cases b with
              | false => exact (a1.mono hsub).trans (a2.mono hset)
              | true => simp only [hw]; exact ((a1.mono hsub).trans (a2.mono hset)).trans (updateForm_adds w _ s2)
      · exact AddsUpd.refl
    · intro s; rw [allValid, membersValid]; exact ⟨AddsUpd.refl, AddsUpd.refl⟩
    · intro f rest h1 h2 s
      have hf : ∀ i ∈ formIds f, i ∈ formsIds (.cons f rest) := by intro i hi; simp [formsIds, hi]
      have hre : ∀ i ∈ formsIds rest, i ∈ formsIds (.cons f rest) := by intro i hi; simp [formsIds, hi]
      rw [allValid, membersValid]
      refine ⟨?_, ((h1 s).mono hf).trans ((h2 _).2.mono hre)⟩
      have a1 := h1 s
      cases ha : isValid w f s with
      | mk b s1 =>
        rw [ha] at a1
        cases b with
        | false => exact a1.mono hf
        | true => exact (a1.mono hf).trans ((h2 _).1.mono hre)
    · intro s; rw [allSetsValid]; exact AddsUpd.refl
    · intro id members rest h1 h2 s
      have hf : ∀ i ∈ formsIds members, i ∈ setsIds (.cons id members rest) := by intro i hi; simp [setsIds, hi]
      have hre : ∀ i ∈ setsIds rest, i ∈ setsIds (.cons id members rest) := by intro i hi; simp [setsIds, hi]
      rw [allSetsValid]
      have a1 := (h1 s).2
      cases ha : membersValid w members s with
      | mk b s1 =>
        rw [ha] at a1
        simp only
        split
        · exact (a1.mono hf).trans ((h2 _).mono hre)
        · exact a1.mono hf
  rw [C53_iff]
  refine and_iff_left ?_
  intro i _ hr
  have := ((key f ⟨d, []⟩).reported i).1 hr
  obtain ⟨n, hn⟩ := this
  simp at hn

/-- If a form is valid, its instance has been updated with the data, and is schema-valid as it is then. -/
theorem C53_valid_updated (w : World D) (f : Form) (s : St D) (h : (isValid w f s).1 = true) :
    w.schemaErrors f.id (isValid w f s).2.doc = none ∧ ∃ s', (isValid w f s).2 = updateForm w f s' := by
  cases f with
  | mk id subs sets =>
    rw [isValid] at h ⊢
    split at h
    · rename_i hc
      rw [if_pos hc]
      cases ha : allValid w subs s with
      | mk b s1 =>
        rw [ha] at h
        cases b with
        | false => simp at h
        | true =>
          simp only at h ⊢
          cases hb : allSetsValid w sets s1 with
          | mk b s2 =>
            rw [hb] at h
            cases b with
            | false => simp at h
            | true =>
              simp only at h ⊢
              cases he : w.schemaErrors id (updateForm w (.mk id subs sets) s2).doc with
              | none => simp only; exact ⟨he, s2, rfl⟩
              | some n => rw [he] at h; simp at h
    · simp at h

/-- If all data are valid but the form is not, the reason is a schema error: of a form in it whose instance, updated with its data, is not schema-valid,
and there is a message for each schema error and one before them; or it was there before. -/
theorem C53_schema_messages (w : World D) (f : Form) (s : St D) (i m : Nat) (h : Event.schemaErrors i m ∈ (isValid w f s).2.log) :
    Event.schemaErrors i m ∈ s.log ∨ ∃ f' s' n, f'.id = i ∧ w.schemaErrors i (updateForm w f' s').doc = some n ∧ m = n + 1 := by
  have hup : ∀ f' (t : St D), Event.schemaErrors i m ∈ (updateForm w f' t).log → Event.schemaErrors i m ∈ t.log := by
    intro f' t ht
    obtain ⟨new, h1, h2⟩ := updateForm_adds w f' t
    rw [h1] at ht
    rcases List.mem_append.1 ht with h | h
    · exact h
    · obtain ⟨j, _, hj⟩ := h2 _ h; cases hj
  revert s
  refine Form.rec (motive_1 := fun f => ∀ s : St D, Event.schemaErrors i m ∈ (isValid w f s).2.log → Event.schemaErrors i m ∈ s.log ∨ ∃ f' s' n, f'.id = i ∧ w.schemaErrors i (updateForm w f' s').doc = some n ∧ m = n + 1)
      (motive_2 := fun l => ∀ s : St D, (Event.schemaErrors i m ∈ (allValid w l s).2.log → Event.schemaErrors i m ∈ s.log ∨ ∃ f' s' n, f'.id = i ∧ w.schemaErrors i (updateForm w f' s').doc = some n ∧ m = n + 1) ∧
        (Event.schemaErrors i m ∈ (membersValid w l s).2.log → Event.schemaErrors i m ∈ s.log ∨ ∃ f' s' n, f'.id = i ∧ w.schemaErrors i (updateForm w f' s').doc = some n ∧ m = n + 1))
      (motive_3 := fun l => ∀ s : St D, Event.schemaErrors i m ∈ (allSetsValid w l s).2.log → Event.schemaErrors i m ∈ s.log ∨ ∃ f' s' n, f'.id = i ∧ w.schemaErrors i (updateForm w f' s').doc = some n ∧ m = n + 1) ?_ ?_ ?_ ?_ ?_ f
  · intro id subs sets h1 h2 s h
    rw [isValid] at h
    split at h
    · have a1 := (h1 s).1
      cases ha : allValid w subs s with
      | mk b s1 =>
        rw [ha] at a1 h
        cases b with
        | false => exact a1 h
        | true =>
          simp only at h
          have a2 := h2 s1
          cases hb : allSetsValid w sets s1 with
          | mk b s2 =>
            rw [hb] at a2 h
            have back : Event.schemaErrors i m ∈ s2.log → Event.schemaErrors i m ∈ s.log ∨ ∃ f' s' n, f'.id = i ∧ w.schemaErrors i (updateForm w f' s').doc = some n ∧ m = n + 1 := by
              intro h
              rcases a2 h with h | h
              · exact a1 h
              · exact Or.inr h
            cases b with
            | false => exact back h
            | true =>
              simp only at h
              cases he : w.schemaErrors id (updateForm w (.mk id subs sets) s2).doc with
              | none => rw [he] at h; exact back (hup _ _ h)
              | some n =>
                rw [he] at h
                rcases List.mem_append.1 h with h | h
                · exact back (hup _ _ h)
                · simp at h
                  obtain ⟨rfl, rfl⟩ := h
                  exact Or.inr ⟨.mk i subs sets, s2, n, rfl, he, rfl⟩
    · exact Or.inl h
  · intro s; rw [allValid, membersValid]; exact ⟨Or.inl, Or.inl⟩
  · intro f rest h1 h2 s
    rw [allValid, membersValid]
    refine ⟨fun h => ?_, fun h => ?_⟩
    · have a1 := h1 s
      cases ha : isValid w f s with
      | mk b s1 =>
        rw [ha] at a1 h
        cases b with
        | false => exact a1 h
        | true =>
          rcases (h2 _).1 h with h | h
          · exact a1 h
          · exact Or.inr h
    · rcases (h2 _).2 h with h | h
      · exact h1 s h
      · exact Or.inr h
  · intro s h; rw [allSetsValid] at h; exact Or.inl h
  · intro id members rest h1 h2 s h
    rw [allSetsValid] at h
    have a1 := (h1 s).2
    cases ha : membersValid w members s with
    | mk b s1 =>
      rw [ha] at a1 h
      simp only at h
      split at h
      · rcases h2 _ h with h | h
        · exact a1 h
        · exact Or.inr h
      · exact a1 h

/-- If the data of the form itself are not valid, nothing happens: no instance is touched, nothing else is checked. -/
theorem C53_own_invalid (w : World D) (f : Form) (s : St D) (h : w.ownValid f.id = false) : isValid w f s = (false, s) := by
  cases f with
  | mk id subs sets => rw [isValid]; simp only [Form.id] at h; simp [h]

/-- If any data in the form are not valid, the fields of the instance of the form itself are not assigned. -/
theorem C53_not_updated (w : World D) (f : Form) (s : St D) (hf : ¬ DataOk w f) (hn : (formIds f).Nodup) :
    (isValid w f s).2.log.count (.updated f.id) = s.log.count (.updated f.id) := by
  have hcount : ∀ {ids : List Nat} {s s' : St D}, Adds ids s s' → f.id ∉ ids → s'.log.count (.updated f.id) = s.log.count (.updated f.id) := by
    rintro ids s s' ⟨new, h1, h2⟩ hi
    have : new.count (.updated f.id) = 0 := List.count_eq_zero.2 (fun h => hi (h2 _ h))
    rw [h1, List.count_append, this, Nat.add_zero]
  cases f with
  | mk id subs sets =>
    simp only [formIds, List.nodup_cons, List.mem_append, not_or] at hn
    simp only [Form.id] at hcount ⊢
    rw [isValid]
    by_cases hc : (w.ownValid id && !hasSchemaErrors id s.log) = true
    · rw [if_pos hc]
      rw [Bool.and_eq_true] at hc
      have h1 := allValid_checks w subs s
      cases ha : allValid w subs s with
      | mk b s1 =>
        rw [ha] at h1
        cases b with
        | false => exact hcount h1.adds hn.1.1
        | true =>
          simp only
          have h2 := allSetsValid_checks w sets s1
          cases hb : allSetsValid w sets s1 with
          | mk b s2 =>
            rw [hb] at h2
            cases b with
            | false => simp only; rw [hcount h2.adds hn.1.2]; exact hcount h1.adds hn.1.1
            | true => exact absurd ⟨hc.1, (h1.yes rfl).1, (h2.yes rfl).1⟩ hf
    · rw [if_neg hc]

/-- Once schema errors have been reported on a form it stays invalid, and asking again changes nothing. -/
theorem C53_stays_invalid (w : World D) (f : Form) (s : St D) (h : Reported f.id s.log) : isValid w f s = (false, s) := by
  cases f with
  | mk id subs sets =>
    rw [isValid]
    simp only [Form.id] at h
    rw [(hasSchemaErrors_iff id s.log).2 h]
    simp

end

/-- A form 0 with subform 1 and formset 2 with member form 3; the document is the number of assignments. -/
def sampleForm : Form := .mk 0 (.cons (.mk 1 .nil .nil) .nil) (.cons 2 (.cons (.mk 3 .nil .nil) .nil) .nil)
def sampleWorld (own sets : Nat → Bool) (errs : Nat → Nat → Option Nat) : World Nat :=
  { ownValid := own, setValid := sets, assign := fun _ d => d + 1, present := fun _ _ => true, isEmpty := fun _ _ => false, attach := fun _ d => d, detach := fun _ d => d,
    setUpdate := fun _ d => d + 1, schemaErrors := errs }

example : isValid (sampleWorld (fun _ => true) (fun _ => true) (fun _ _ => none)) sampleForm ⟨0, []⟩ = (true, ⟨5, [.updated 1, .updated 3, .updated 0, .updated 1]⟩) := rfl
example : isValid (sampleWorld (fun _ => true) (fun _ => true) (fun i _ => if i = 0 then some 2 else none)) sampleForm ⟨0, []⟩ =
    (false, ⟨5, [.updated 1, .updated 3, .updated 0, .updated 1, .schemaErrors 0 3]⟩) := rfl
example : (isValid (sampleWorld (fun i => i != 3) (fun _ => true) (fun _ _ => none)) sampleForm ⟨0, []⟩).1 = false := rfl

/-- Counterexample: an invalid form can have changed the document, when a valid subform comes before what is not valid: the subform has updated its own instance. -/
theorem C53_counterexample_touched : isValid (sampleWorld (fun _ => true) (fun _ => false) (fun _ _ => none)) sampleForm ⟨0, []⟩ = (false, ⟨2, [.updated 1, .updated 3]⟩) := rfl

/-! ### the theorems applied to the sample form -/

example := C49_update _ _ attributes_dict (some [c%"id", c%"title"]) (some [c%"title"]) [c%"title", c%"id", c%"size"] (by decide)
  [(c%"id", .other 4), (c%"title", .str c%"t")] (fun _ => .null)
example := C53_no_schema (sampleWorld (fun _ => true) (fun i => i != 3) (fun _ _ => none)) (fun _ _ => rfl) sampleForm 0
example := C53_valid_updated (sampleWorld (fun _ => true) (fun _ => true) (fun _ _ => none)) sampleForm ⟨0, []⟩ rfl
example := C53_schema_messages (sampleWorld (fun _ => true) (fun _ => true) (fun i _ => if i = 0 then some 2 else none)) sampleForm ⟨0, []⟩ 0 3 (by decide)
example := C53_own_invalid (sampleWorld (fun i => i != 0) (fun _ => true) (fun _ _ => none)) sampleForm ⟨0, []⟩ rfl
example := C53_not_updated (sampleWorld (fun i => i != 3) (fun _ => true) (fun _ _ => none)) sampleForm ⟨0, []⟩
  (fun h => by have := (C53_no_schema _ (fun _ _ => rfl) sampleForm 0).2 h; revert this; decide) (by decide)

end Props
