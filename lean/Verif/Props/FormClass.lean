import Verif.Forms.FormClass
import Verif.Props.FieldList
import Verif.Props.Schema
/-
Properties C48, C68: which fields a generated form has, in which order, and the same for nested forms.

Model: Verif/Forms/FormClass.lean.
-/
namespace Props
open Forms Py Core

/-! ### specification -/

/-- The field lists of a form let `x` through: it is listed (or something below it), if there is a list, and it is not excluded. -/
def Selected (fields exclude : Option (List Str)) (x : Str) : Prop :=
  (∀ names, fields = some names → x ∈ names ∨ ∃ n ∈ names, Below [x] n) ∧ (∀ names, exclude = some names → x ∉ names)

/-- A table of fields: names are different from each other and have no dots (they are Python identifiers), and the fields were created one after
the other. -/
structure ModelOk (m : Model) : Prop where
  wf : m.Wf
  nodot : ∀ x ∈ Dict.keys m, '.' ∉ x
  counters : (m.map (fun p => p.2.counter)).Nodup

/-- What becomes of an xmlmap field in a form: fields with choices become choice fields; strings, integers, dates and booleans a form field; a single
sub-object a subform; lists of sub-objects, strings or integers a formset. -/
def IsField (f : MField) : Prop := f.choices ≠ [] ∨ f.type = .string ∨ f.type = .integer ∨ f.type = .date ∨ f.type = .simpleBoolean
def IsSubform (f : MField) : Prop := f.choices = [] ∧ ∃ cls, f.type = .node cls
def IsFormset (f : MField) : Prop := f.choices = [] ∧ ((∃ cls, f.type = .nodeList cls) ∨ f.type = .stringList ∨ f.type = .integerList)

/-! ### lemmas -/

theorem keys_update_aux (e : Dict Str α) (d : Dict Str α) : (Dict.update d e).keys = d.keys ++ (firsts e.keys).filter (fun a => a ∉ d.keys) := by
  induction e generalizing d with
  | nil => simp [Dict.update, Dict.keys, firsts]
  | cons p e ih =>
    have h0 : Dict.update d (p :: e) = Dict.update (d.set p.1 p.2) e := rfl
    rw [h0, ih, Dict.keys_set]
    have hk : Dict.keys (p :: e) = p.1 :: Dict.keys e := rfl
    rw [hk, firsts]
    by_cases h : p.1 ∈ d.keys
    · rw [if_pos h, List.filter_cons, if_neg (by simp [h]), List.filter_filter]
      congr 1
      apply List.filter_congr
      intro b _
      by_cases hb : b = p.1
      · subst hb; simp [h]
      · simp [hb]
    · rw [if_neg h, List.filter_cons, if_pos (by simp [h]), List.filter_filter, List.append_assoc]
      congr 1
      simp only [List.singleton_append]
      congr 1
      apply List.filter_congr
      intro b _
      by_cases h1 : b = p.1 <;> by_cases h2 : b ∈ d.keys <;> simp [h1, h2]

theorem keys_update_nil (e : Dict Str α) : (Dict.update [] e).keys = firsts e.keys := by
  rw [keys_update_aux]
  simp only [Dict.keys, List.map_nil, List.not_mem_nil, not_false_eq_true, decide_true, List.nil_append]
  exact List.filter_eq_self.2 (fun _ _ => rfl)

theorem filterMap_filter_keys {α : Type} (names : List Str) (d : Dict Str α) :
    Dict.keys (names.filterMap (fun n => (d.get? n).map (fun v => (n, v)))) = names.filter (fun n => n ∈ d.keys) := by
  induction names with
  | nil => rfl
  | cons n names ih =>
    rw [List.filterMap_cons, List.filter_cons]
    cases h : d.get? n with
    | none =>
      rw [if_neg (by simpa using (Dict.get?_none d n).1 h)]
      exact ih
    | some v =>
      rw [if_pos (by have := (Dict.get?_isSome d n).1 (by rw [h]; rfl); simpa using this)]
      simp only [Option.map_some]
      rw [← ih]; rfl

theorem firsts_filter (q : Str → Bool) (l : List Str) : firsts (l.filter q) = (firsts l).filter q := by
  induction l with
  | nil => rfl
  | cons a l ih =>
    rw [List.filter_cons]
    by_cases h : q a = true
    · rw [if_pos h, firsts, firsts, ih, List.filter_cons, if_pos h, List.filter_filter, List.filter_filter]
      congr 1
      apply List.filter_congr
      intro b _; rw [Bool.and_comm]
    · rw [if_neg h, ih, firsts, List.filter_cons, if_neg h, List.filter_filter]
      apply List.filter_congr
      intro b _
      by_cases hb : b = a
      · subst hb; simp [h]
      · simp [hb]

theorem orderedDict_keys {α : Type} (names : List Str) (d : Dict Str α) : (orderedDict names d).keys = (firsts names).filter (fun n => n ∈ d.keys) := by
  rw [orderedDict, keys_update_nil, filterMap_filter_keys, firsts_filter]

/-- `update` with the same value for the same key. -/
theorem get?_update_fun {α : Type} (g : Str → Option α) (e : Dict Str α) (he : ∀ p ∈ e, g p.1 = some p.2) (d : Dict Str α) (x : Str) :
    (Dict.update d e).get? x = if x ∈ e.keys then g x else d.get? x := by
  induction e generalizing d with
  | nil => simp [Dict.update, Dict.keys]
  | cons p e ih =>
    have h0 : Dict.update d (p :: e) = Dict.update (d.set p.1 p.2) e := rfl
    rw [h0, ih (fun q hq => he q (by simp [hq])), Dict.get?_set]
    have hk : Dict.keys (p :: e) = p.1 :: Dict.keys e := rfl
    rw [hk]
    by_cases h1 : x ∈ Dict.keys e
    · rw [if_pos h1, if_pos (by simp [h1])]
    · rw [if_neg h1]
      by_cases h2 : x = p.1
      · rw [if_pos h2, if_pos (by simp [h2]), h2, he p (by simp)]
      · rw [if_neg h2, if_neg (by simp [h1, h2])]

theorem orderedDict_get? {α : Type} (names : List Str) (d : Dict Str α) (x : Str) : (orderedDict names d).get? x = if x ∈ names then d.get? x else none := by
  rw [orderedDict, get?_update_fun (fun n => d.get? n)]
  · rw [filterMap_filter_keys]
    by_cases h : x ∈ names
    · rw [if_pos h]
      by_cases h2 : x ∈ d.keys
      · rw [if_pos (by simp [h, h2])]
      · rw [if_neg (by simp [h2]), (Dict.get?_none d x).2 h2]; rfl
    · rw [if_neg h, if_neg (by simp [h])]; rfl
  · intro p hp
    obtain ⟨n, _, h⟩ := List.mem_filterMap.1 hp
    cases hn : d.get? n with
    | none => rw [hn] at h; simp at h
    | some v => rw [hn] at h; simp at h; subst h; exact hn

section
variable {gen : Nat → Option PFL → Option PFL → Except PyErr FormClass} {declared : Dict Str FormClass} {fl ex : Option PFL}

theorem collectParts_names {m : List (Str × MField)} {ps : List (Str × Nat × Part)} (h : collectParts gen declared fl ex m = .ok ps) :
    ps.map (fun p => (p.1, p.2.1)) = (m.filter (fun p => !skip fl ex p.1)).map (fun p => (p.1, p.2.counter)) := by
  induction m generalizing ps with
  | nil => simp [collectParts] at h; subst h; rfl
  | cons q m ih =>
    obtain ⟨x, f⟩ := q
    rw [collectParts] at h
    by_cases hs : skip fl ex x = true
    · rw [if_pos hs] at h
      rw [List.filter_cons, if_neg (by simp [hs])]
      exact ih h
    · rw [if_neg hs] at h
      rw [List.filter_cons, if_pos (by simp [hs])]
      cases hp : partFor gen declared fl ex x f with
      | error e => rw [hp] at h; simp at h
      | ok p =>
        rw [hp] at h
        cases hc : collectParts gen declared fl ex m with
        | error e => rw [hc] at h; simp at h
        | ok ps' =>
          rw [hc] at h
          simp at h; subst h
          rw [List.map_cons, List.map_cons, ih hc]

theorem collectParts_mem {m : List (Str × MField)} {ps : List (Str × Nat × Part)} (h : collectParts gen declared fl ex m = .ok ps) (x : Str) (p : Part) :
    (∃ k, (x, k, p) ∈ ps) ↔ ∃ f, (x, f) ∈ m ∧ skip fl ex x = false ∧ partFor gen declared fl ex x f = .ok p := by
  induction m generalizing ps with
  | nil => simp [collectParts] at h; subst h; simp
  | cons q m ih =>
    obtain ⟨y, g⟩ := q
    rw [collectParts] at h
    by_cases hs : skip fl ex y = true
    · rw [if_pos hs] at h
      rw [ih h]
      constructor
      · rintro ⟨f, h1, h2⟩; exact ⟨f, by simp [h1], h2⟩
      · rintro ⟨f, h1, h2, h3⟩
        rcases List.mem_cons.1 h1 with h1 | h1
        · simp at h1; rw [h1.1, hs] at h2; simp at h2
        · exact ⟨f, h1, h2, h3⟩
    · rw [if_neg hs] at h
      cases hp : partFor gen declared fl ex y g with
      | error e => rw [hp] at h; simp at h
      | ok p' =>
        rw [hp] at h
        cases hc : collectParts gen declared fl ex m with
        | error e => rw [hc] at h; simp at h
        | ok ps' =>
          rw [hc] at h
          simp at h; subst h
          constructor
          · rintro ⟨k, hk⟩
            rcases List.mem_cons.1 hk with hk | hk
            · simp only [Prod.mk.injEq] at hk
              obtain ⟨rfl, rfl, rfl⟩ := hk
              exact ⟨g, by simp, by simpa using hs, hp⟩
            · obtain ⟨f, h1, h2⟩ := (ih hc).1 ⟨k, hk⟩
              exact ⟨f, by simp [h1], h2⟩
          · rintro ⟨f, h1, h2, h3⟩
            rcases List.mem_cons.1 h1 with h1 | h1
            · simp only [Prod.mk.injEq] at h1
              obtain ⟨rfl, rfl⟩ := h1
              rw [hp] at h3; simp at h3; subst h3
              exact ⟨_, List.mem_cons_self⟩
            · obtain ⟨k, hk⟩ := (ih hc).2 ⟨f, h1, h2, h3⟩
              exact ⟨k, by simp [hk]⟩

theorem pick_get? {α : Type} (g : Part → Option α) {ps : List (Str × Nat × Part)} (hn : (ps.map (·.1)).Nodup) (x : Str) (v : α) :
    (pick g ps).get? x = some v ↔ ∃ k p, (x, k, p) ∈ ps ∧ g p = some v := by
  have hkeys : (Dict.keys (pick g ps)).Sublist (ps.map (·.1)) := by
    unfold pick Dict.keys
    clear hn
    induction ps with
    | nil => simp
    | cons q ps ih =>
      rw [List.filterMap_cons]
      cases hg : g q.2.2 with
      | none => simpa using ih.trans (List.sublist_cons_self _ _)
      | some w => simpa using ih.cons₂ q.1
  have hwf : Dict.Wf (pick g ps) := hkeys.nodup hn
  constructor
  · intro h
    have := Dict.mem_of_get? h
    obtain ⟨⟨y, k, p⟩, hq, e⟩ := List.mem_filterMap.1 this
    cases hg : g p with
    | none => simp [hg] at e
    | some w =>
      simp [hg] at e
      obtain ⟨rfl, rfl⟩ := e
      exact ⟨k, p, hq, hg⟩
  · rintro ⟨k, p, hq, hg⟩
    apply Dict.get?_of_mem hwf
    exact List.mem_filterMap.2 ⟨_, hq, by simp [hg]⟩

/-- The table ordered by counters. -/
theorem exists_sorted (t : Dict Str Nat) (h : (t.map (·.2)).Nodup) : ∃ sel : Dict Str Nat, (sel.map (·.2)).Pairwise (· < ·) ∧ t.Perm sel := by
  have tot : Std.Total (fun a b : Str × Nat => a.2 ≤ b.2) := ⟨fun a b => by omega⟩
  have tr : IsTrans (Str × Nat) (fun a b => a.2 ≤ b.2) := ⟨fun a b c h1 h2 => Nat.le_trans h1 h2⟩
  refine ⟨t.insertionSort (fun a b => a.2 ≤ b.2), ?_, (List.perm_insertionSort _ _).symm⟩
  have h1 := List.pairwise_insertionSort (fun a b : Str × Nat => a.2 ≤ b.2) t
  have h2 : ((t.insertionSort (fun a b => a.2 ≤ b.2)).map (·.2)).Nodup := (((List.perm_insertionSort _ t).map (·.2)).nodup_iff).2 h
  rw [List.pairwise_map]
  rw [List.nodup_iff_pairwise_ne, List.pairwise_map] at h2
  refine (h1.and h2).imp ?_
  rintro a b ⟨h3, h4⟩
  omega

theorem mem_orderOf {m : Model} {ps : List (Str × Nat × Part)} (hm : (m.map (fun p => p.2.counter)).Nodup)
    (h : collectParts gen declared fl ex m = .ok ps) {x : Str} {f : MField} (hx : (x, f) ∈ m) (hs : skip fl ex x = false) : x ∈ orderOf fl ps := by
  unfold orderOf
  cases fl with
  | some l =>
    simp only
    simp only [skip, Bool.or_eq_false_iff, decide_eq_false_iff_not, not_not] at hs
    exact hs.1
  | none =>
    simp only
    have hn := collectParts_names h
    have hnd : ((ps.map (fun p => (p.1, p.2.1))).map (·.2)).Nodup := by
      rw [hn, List.map_map]
      refine List.Sublist.nodup ?_ hm
      exact List.filter_sublist.map _
    obtain ⟨sel, h1, h2⟩ := exists_sorted _ hnd
    rw [defaultOrder_eq h1 h2]
    have : (x, f.counter) ∈ ps.map (fun p => (p.1, p.2.1)) := by
      rw [hn]
      exact List.mem_map.2 ⟨(x, f), by simp [hx, hs], rfl⟩
    exact List.mem_map.2 ⟨_, h2.mem_iff.1 this, rfl⟩

/-- The entries of a generated form. -/
theorem formFields_get? {m : Model} (hw : m.Wf) (hm : (m.map (fun p => p.2.counter)).Nodup) {c : FormClass}
    (h : formFields gen declared fl ex m = .ok c) (x : Str) :
    (∀ v, c.fields.get? x = some v ↔ ∃ f, m.get? x = some f ∧ skip fl ex x = false ∧ partFor gen declared fl ex x f = .ok (.field v)) ∧
    (∀ v, c.subforms.get? x = some v ↔ ∃ f, m.get? x = some f ∧ skip fl ex x = false ∧ partFor gen declared fl ex x f = .ok (.subform v)) ∧
    (∀ v, c.formsets.get? x = some v ↔ ∃ f, m.get? x = some f ∧ skip fl ex x = false ∧ partFor gen declared fl ex x f = .ok (.formset v)) := by
  unfold formFields at h
  cases hc : collectParts gen declared fl ex m with
  | error e => rw [hc] at h; simp at h
  | ok ps =>
    rw [hc] at h
    simp only [Except.ok.injEq] at h
    subst h
    have hnd : (ps.map (·.1)).Nodup := by
      have : ps.map (·.1) = (m.filter (fun p => !skip fl ex p.1)).map (·.1) := by
        have := congrArg (List.map (·.1)) (collectParts_names hc)
        simpa [List.map_map, Function.comp_def] using this
      rw [this]
      exact (List.filter_sublist.map _).nodup hw
    have key : ∀ {α : Type} (g : Part → Option α) (mk : α → Part), (∀ p v, g p = some v ↔ p = mk v) → ∀ v, (orderedDict (orderOf fl ps) (pick g ps)).get? x = some v ↔
        ∃ f, m.get? x = some f ∧ skip fl ex x = false ∧ partFor gen declared fl ex x f = .ok (mk v) := by
      intro α g mk hg v
      rw [orderedDict_get?]
      constructor
      · intro h
        by_cases ho : x ∈ orderOf fl ps
        · rw [if_pos ho] at h
          obtain ⟨k, p, hp, hgp⟩ := (pick_get? g hnd x v).1 h
          rw [(hg p v).1 hgp] at hp
          obtain ⟨f, h1, h2, h3⟩ := (collectParts_mem hc x (mk v)).1 ⟨k, hp⟩
          exact ⟨f, Dict.get?_of_mem hw h1, h2, h3⟩
        · rw [if_neg ho] at h; simp at h
      · rintro ⟨f, h1, h2, h3⟩
        have hmem := Dict.mem_of_get? h1
        rw [if_pos (mem_orderOf hm hc hmem h2)]
        obtain ⟨k, hk⟩ := (collectParts_mem hc x (mk v)).2 ⟨f, hmem, h2, h3⟩
        exact (pick_get? g hnd x v).2 ⟨k, _, hk, (hg _ _).2 rfl⟩
    exact ⟨key Part.asField .field (by intro p v; cases p <;> simp [Part.asField]),
      key Part.asSubform .subform (by intro p v; cases p <;> simp [Part.asSubform]),
      key Part.asFormset .formset (by intro p v; cases p <;> simp [Part.asFormset])⟩

/-- In a generated form, every selected field of the model has a part. -/
theorem formFields_part {m : Model} (hw : m.Wf) {c : FormClass} (h : formFields gen declared fl ex m = .ok c) {x : Str} {f : MField} (hx : m.get? x = some f)
    (hs : skip fl ex x = false) : ∃ p, partFor gen declared fl ex x f = .ok p := by
  unfold formFields at h
  cases hc : collectParts gen declared fl ex m with
  | error e => rw [hc] at h; simp at h
  | ok ps =>
    have hmem := Dict.mem_of_get? hx
    have hn := collectParts_names hc
    have h1 : (x, f.counter) ∈ ps.map (fun p => (p.1, p.2.1)) := by
      rw [hn]; exact List.mem_map.2 ⟨(x, f), by simp [hmem, hs], rfl⟩
    obtain ⟨⟨y, k, p⟩, hq, e⟩ := List.mem_map.1 h1
    simp only [Prod.mk.injEq] at e
    obtain ⟨rfl, rfl⟩ := e
    obtain ⟨g, hg, _, h3⟩ := (collectParts_mem hc y p).1 ⟨_, hq⟩
    have := Dict.get?_of_mem hw hg
    rw [hx] at this
    simp at this
    subst this
    exact ⟨p, h3⟩

theorem partFor_field {x : Str} {f : MField} {v : FormField} (h : partFor gen declared fl ex x f = .ok (.field v)) : IsField f := by
  unfold partFor at h
  by_cases hc : f.choices ≠ []
  · exact Or.inl hc
  · rw [if_neg hc] at h
    cases ht : f.type with
    | node cls => rw [ht] at h; simp only at h; cases hd : declared.get? x <;> simp only [hd] at h <;> first | (cases hg : gen cls (subList fl x) (subList ex x) <;> simp [hg, Except.map] at h) | simp at h
    | nodeList cls => rw [ht] at h; simp only at h; cases hd : declared.get? x <;> simp only [hd] at h <;> first | (cases hg : gen cls (subList fl x) (subList ex x) <;> simp [hg, Except.map] at h) | simp at h
    | string => simp [IsField, ht]
    | integer => simp [IsField, ht]
    | date => simp [IsField, ht]
    | simpleBoolean => simp [IsField, ht]
    | stringList => simp [ht] at h
    | integerList => simp [ht] at h
    | other => simp [ht] at h

theorem partFor_subform {x : Str} {f : MField} {v : FormClass} (h : partFor gen declared fl ex x f = .ok (.subform v)) : IsSubform f := by
  unfold partFor at h
  by_cases hc : f.choices ≠ []
  · rw [if_pos hc] at h; simp at h
  · rw [if_neg hc] at h
    refine ⟨by simpa using hc, ?_⟩
    cases ht : f.type with
    | node cls => exact ⟨cls, rfl⟩
    | nodeList cls => rw [ht] at h; simp only at h; cases hd : declared.get? x <;> simp only [hd] at h <;> first | (cases hg : gen cls (subList fl x) (subList ex x) <;> simp [hg, Except.map] at h) | simp at h
    | string => simp [ht] at h
    | integer => simp [ht] at h
    | date => simp [ht] at h
    | simpleBoolean => simp [ht] at h
    | stringList => simp [ht] at h
    | integerList => simp [ht] at h
    | other => simp [ht] at h

theorem partFor_formset {x : Str} {f : MField} {v : FormClass} (h : partFor gen declared fl ex x f = .ok (.formset v)) : IsFormset f := by
  unfold partFor at h
  by_cases hc : f.choices ≠ []
  · rw [if_pos hc] at h; simp at h
  · rw [if_neg hc] at h
    refine ⟨by simpa using hc, ?_⟩
    cases ht : f.type with
    | node cls => rw [ht] at h; simp only at h; cases hd : declared.get? x <;> simp only [hd] at h <;> first | (cases hg : gen cls (subList fl x) (subList ex x) <;> simp [hg, Except.map] at h) | simp at h
    | nodeList cls => exact Or.inl ⟨cls, rfl⟩
    | string => simp [ht] at h
    | integer => simp [ht] at h
    | date => simp [ht] at h
    | simpleBoolean => simp [ht] at h
    | stringList => simp
    | integerList => simp
    | other => simp [ht] at h

theorem isField_excl {f : MField} : (IsField f → ¬ IsSubform f ∧ ¬ IsFormset f) ∧ (IsSubform f → ¬ IsFormset f) := by
  refine ⟨fun h => ⟨?_, ?_⟩, ?_⟩
  · rintro ⟨h1, cls, h2⟩; rcases h with h | h | h | h | h <;> simp_all
  · rintro ⟨h1, ⟨cls, h2⟩ | h2 | h2⟩ <;> rcases h with h | h | h | h | h <;> simp_all
  · rintro ⟨h1, cls, h2⟩ ⟨h3, ⟨cls', h4⟩ | h4 | h4⟩ <;> simp_all
end

theorem skip_iff {fields exclude : Option (List Str)} {x : Str} (hx : '.' ∉ x) : skip (parsedFields fields) (parsedExclude exclude) x = false ↔ Selected fields exclude x := by
  have hp : Plain [] := by intro c hc; simp at hc
  have e1 : ∀ names inc, x ∈ (parseFieldList names inc).fields ↔ x ∈ names ∨ (inc = true ∧ ∃ n ∈ names, Below [x] n) := by
    intro names inc
    have := C47_fields names inc [] hp _ rfl x hx
    simpa [dotted] using this
  unfold skip Selected parsedFields parsedExclude
  rw [Bool.or_eq_false_iff]
  refine and_congr ?_ ?_
  · cases fields with
    | none => simp
    | some names =>
      simp only [Option.map_some, decide_eq_false_iff_not, not_not, e1, true_and, Option.some.injEq, forall_eq']
  · cases exclude with
    | none => simp
    | some names =>
      simp only [Option.map_some, decide_eq_false_iff_not, e1, Bool.false_eq_true, false_and, or_false, Option.some.injEq, forall_eq']

theorem mem_keys_iff {α : Type} (d : Dict Str α) (x : Str) : x ∈ d.keys ↔ ∃ v, d.get? x = some v := by
  rw [← Dict.get?_isSome, Option.isSome_iff_exists]

section
variable (models : Nat → Model) (n cls : Nat) (fields exclude : Option (List Str)) (declaredFields : Dict Str FormField) (declaredSubforms : Dict Str FormClass)

/-! ### C48 -/

theorem formStatement_ok {c : FormClass} (h : formStatement models n cls fields exclude declaredFields declaredSubforms = .ok c) :
    ∃ c0, formFields (formFactory models n) declaredSubforms (parsedFields fields) (parsedExclude exclude) (models cls) = .ok c0 ∧
      c.fields = Dict.update c0.fields declaredFields ∧ c.subforms = c0.subforms ∧ c.formsets = c0.formsets := by
  unfold formStatement at h
  cases hc : formFields (formFactory models n) declaredSubforms (parsedFields fields) (parsedExclude exclude) (models cls) with
  | error e => rw [hc] at h; simp at h
  | ok c0 =>
    rw [hc] at h
    simp only [Except.ok.injEq] at h
    subst h
    exact ⟨c0, rfl, rfl, rfl, rfl⟩

/-- The form has exactly the fields of the model that are selected: as form field, subform or formset according to their type (and the form fields
declared in the form class itself). -/
theorem C48_selection (hm : ModelOk (models cls)) (c : FormClass) (h : formStatement models n cls fields exclude declaredFields declaredSubforms = .ok c) (x : Str) :
    (x ∈ c.fields.keys ↔ x ∈ declaredFields.keys ∨ ∃ f, (models cls).get? x = some f ∧ Selected fields exclude x ∧ IsField f) ∧
    (x ∈ c.subforms.keys ↔ ∃ f, (models cls).get? x = some f ∧ Selected fields exclude x ∧ IsSubform f) ∧
    (x ∈ c.formsets.keys ↔ ∃ f, (models cls).get? x = some f ∧ Selected fields exclude x ∧ IsFormset f) := by
  obtain ⟨c0, h0, e1, e2, e3⟩ := formStatement_ok models n cls fields exclude declaredFields declaredSubforms h
  obtain ⟨g1, g2, g3⟩ := formFields_get? hm.wf hm.counters h0 x
  have hdot : ∀ f, (models cls).get? x = some f → '.' ∉ x := fun f hf => hm.nodot x ((mem_keys_iff _ x).2 ⟨f, hf⟩)
  have hpart : ∀ f, (models cls).get? x = some f → Selected fields exclude x → ∃ p, partFor (formFactory models n) declaredSubforms (parsedFields fields) (parsedExclude exclude) x f = .ok p :=
    fun f hf hs => formFields_part hm.wf h0 hf ((skip_iff (hdot f hf)).2 hs)
  rw [e1, e2, e3, Dict.mem_keys_update]
  refine ⟨or_congr Iff.rfl ?_, ?_, ?_⟩
  · rw [mem_keys_iff]
    constructor
    · rintro ⟨v, hv⟩
      obtain ⟨f, a1, a2, a3⟩ := (g1 v).1 hv
      exact ⟨f, a1, (skip_iff (hdot f a1)).1 a2, partFor_field a3⟩
    · rintro ⟨f, a1, a2, a3⟩
      obtain ⟨p, hp⟩ := hpart f a1 a2
      cases p with
      | field v => exact ⟨v, (g1 v).2 ⟨f, a1, (skip_iff (hdot f a1)).2 a2, hp⟩⟩
      | subform v => exact absurd (partFor_subform hp) (isField_excl.1 a3).1
      | formset v => exact absurd (partFor_formset hp) (isField_excl.1 a3).2
  · rw [mem_keys_iff]
    constructor
    · rintro ⟨v, hv⟩
      obtain ⟨f, a1, a2, a3⟩ := (g2 v).1 hv
      exact ⟨f, a1, (skip_iff (hdot f a1)).1 a2, partFor_subform a3⟩
    · rintro ⟨f, a1, a2, a3⟩
      obtain ⟨p, hp⟩ := hpart f a1 a2
      cases p with
      | field v => exact absurd a3 (isField_excl.1 (partFor_field hp)).1
      | subform v => exact ⟨v, (g2 v).2 ⟨f, a1, (skip_iff (hdot f a1)).2 a2, hp⟩⟩
      | formset v => exact absurd (partFor_formset hp) (isField_excl.2 a3)
  · rw [mem_keys_iff]
    constructor
    · rintro ⟨v, hv⟩
      obtain ⟨f, a1, a2, a3⟩ := (g3 v).1 hv
      exact ⟨f, a1, (skip_iff (hdot f a1)).1 a2, partFor_formset a3⟩
    · rintro ⟨f, a1, a2, a3⟩
      obtain ⟨p, hp⟩ := hpart f a1 a2
      cases p with
      | field v => exact absurd a3 (isField_excl.1 (partFor_field hp)).2
      | subform v => exact absurd a3 (isField_excl.2 (partFor_subform hp))
      | formset v => exact ⟨v, (g3 v).2 ⟨f, a1, (skip_iff (hdot f a1)).2 a2, hp⟩⟩

/-- Every selected field can be shown: the form class is not created if a selected field has a type that forms do not support. -/
theorem C48_supported (hm : ModelOk (models cls)) (c : FormClass) (h : formStatement models n cls fields exclude declaredFields declaredSubforms = .ok c) (x : Str) (f : MField)
    (hf : (models cls).get? x = some f) (hs : Selected fields exclude x) : IsField f ∨ IsSubform f ∨ IsFormset f := by
  obtain ⟨c0, h0, _⟩ := formStatement_ok models n cls fields exclude declaredFields declaredSubforms h
  obtain ⟨p, hp⟩ := formFields_part hm.wf h0 hf ((skip_iff (hm.nodot x ((mem_keys_iff _ x).2 ⟨f, hf⟩))).2 hs)
  cases p with
  | field v => exact Or.inl (partFor_field hp)
  | subform v => exact Or.inr (Or.inl (partFor_subform hp))
  | formset v => exact Or.inr (Or.inr (partFor_formset hp))

/-- The kind of form field for each xmlmap field (where the form class does not declare its own). -/
theorem C48_kinds (hm : ModelOk (models cls)) (c : FormClass) (h : formStatement models n cls fields exclude [] declaredSubforms = .ok c) (x : Str) (f : MField) (v : FormField)
    (hf : (models cls).get? x = some f) (hv : c.fields.get? x = some v) :
    (f.choices ≠ [] → v.kind = .choice ∧ (∀ s, s ∈ v.choices ↔ s ∈ f.choices ∨ (s = [] ∧ f.required = some false)) ∧ v.required = f.required.getD true) ∧
    (f.choices = [] → f.type = .string → v = ⟨.char, [], f.required.getD true⟩) ∧
    (f.choices = [] → f.type = .integer → v = ⟨.integer, [], f.required.getD true⟩) ∧
    (f.choices = [] → f.type = .date → v = ⟨.date, [], f.required.getD true⟩) ∧
    (f.choices = [] → f.type = .simpleBoolean → v = ⟨.boolean, [], false⟩) := by
  obtain ⟨c0, h0, e1, _⟩ := formStatement_ok models n cls fields exclude [] declaredSubforms h
  rw [e1] at hv
  obtain ⟨f', a1, _, a3⟩ := ((formFields_get? hm.wf hm.counters h0 x).1 v).1 hv
  rw [hf] at a1
  simp only [Option.some.injEq] at a1
  subst a1
  unfold partFor at a3
  refine ⟨fun hc => ?_, fun hc ht => ?_, fun hc ht => ?_, fun hc ht => ?_, fun hc ht => ?_⟩
  · rw [if_pos hc] at a3
    simp only [Except.ok.injEq, Part.field.injEq] at a3
    subst a3
    refine ⟨rfl, fun s => ?_, rfl⟩
    simp only [formChoices]
    by_cases hr : f.required = some false ∧ [] ∉ f.choices
    · rw [if_pos hr]; simp [hr.1, or_comm]
    · rw [if_neg hr]
      constructor
      · exact Or.inl
      · rintro (h | ⟨rfl, h2⟩)
        · exact h
        · by_contra hc2; exact hr ⟨h2, hc2⟩
  all_goals
    rw [if_neg (by simp [hc]), ht] at a3
    simp only [Except.ok.injEq, Part.field.injEq] at a3
    subst a3; rfl

/-- With a list of fields, fields, subforms and formsets come in the order of that list. -/
theorem C48_order_listed (names : List Str) (c : FormClass) (h : formStatement models n cls (some names) exclude [] declaredSubforms = .ok c) :
    let listed := firsts (names.map (fun nm => (nm.splitOn '.').headD []))
    c.fields.keys = listed.filter (fun x => x ∈ c.fields.keys) ∧ c.subforms.keys = listed.filter (fun x => x ∈ c.subforms.keys) ∧
    c.formsets.keys = listed.filter (fun x => x ∈ c.formsets.keys) := by
  obtain ⟨c0, h0, e1, e2, e3⟩ := formStatement_ok models n cls (some names) exclude [] declaredSubforms h
  have ho : firsts (parseFieldList names true).fields = firsts (names.map (fun nm => (nm.splitOn '.').headD [])) := by
    rw [C47_order_parents names [] _ rfl]
    congr 1
    rw [← List.filterMap_eq_map]
    apply filterMap_congr
    intro nm _
    simp only [headAt, List.length_nil, List.take_zero, if_true, List.drop_zero, Function.comp_apply]
    cases hs : nm.splitOn '.' with
    | nil => simp at hs
    | cons a l => cases l <;> rfl
  rw [e1, e2, e3]
  show _ ∧ _
  have hu : Dict.update c0.fields ([] : Dict Str FormField) = c0.fields := rfl
  rw [hu]
  unfold formFields at h0
  cases hc : collectParts (formFactory models n) declaredSubforms (parsedFields (some names)) (parsedExclude exclude) (models cls) with
  | error e => rw [hc] at h0; simp at h0
  | ok ps =>
    rw [hc] at h0
    simp only [Except.ok.injEq] at h0
    subst h0
    have key : ∀ {α : Type} (d : Dict Str α), (orderedDict (orderOf (parsedFields (some names)) ps) d).keys =
        (firsts (names.map (fun nm => (nm.splitOn '.').headD []))).filter (fun x => x ∈ (orderedDict (orderOf (parsedFields (some names)) ps) d).keys) := by
      intro α d
      have hk : (orderedDict (orderOf (parsedFields (some names)) ps) d).keys = (firsts (names.map (fun nm => (nm.splitOn '.').headD []))).filter (fun x => x ∈ d.keys) := by
        rw [orderedDict_keys]; exact congrArg _ ho
      conv_lhs => rw [hk]
      apply List.filter_congr
      intro y hy
      rw [decide_eq_decide, hk, List.mem_filter, decide_eq_true_eq]
      exact ⟨fun h => ⟨hy, h⟩, fun h => h.2⟩
    exact ⟨key _, key _, key _⟩

/-- Without a list, they come in the order in which the fields were created. -/
theorem C48_order_default (hm : ModelOk (models cls)) (c : FormClass) (h : formStatement models n cls none exclude [] declaredSubforms = .ok c) :
    let before := fun x y : Str => ∀ f g, (models cls).get? x = some f → (models cls).get? y = some g → f.counter < g.counter
    c.fields.keys.Pairwise before ∧ c.subforms.keys.Pairwise before ∧ c.formsets.keys.Pairwise before := by
  intro before
  obtain ⟨c0, h0, e1, e2, e3⟩ := formStatement_ok models n cls none exclude [] declaredSubforms h
  rw [e1, e2, e3]
  show (Dict.keys c0.fields).Pairwise before ∧ _
  unfold formFields at h0
  cases hc : collectParts (formFactory models n) declaredSubforms (parsedFields none) (parsedExclude exclude) (models cls) with
  | error e => rw [hc] at h0; simp at h0
  | ok ps =>
    rw [hc] at h0
    simp only [Except.ok.injEq] at h0
    subst h0
    have hn := collectParts_names hc
    have hnd : ((ps.map (fun p => (p.1, p.2.1))).map (·.2)).Nodup := by
      rw [hn, List.map_map]
      exact (List.filter_sublist.map _).nodup hm.counters
    obtain ⟨sel, s1, s2⟩ := exists_sorted _ hnd
    have hsel : ∀ p ∈ sel, ∀ f, (models cls).get? p.1 = some f → f.counter = p.2 := by
      intro p hp f hf
      have := s2.mem_iff.2 hp
      rw [hn] at this
      obtain ⟨⟨y, g⟩, hq, e⟩ := List.mem_map.1 this
      have hg := Dict.get?_of_mem hm.wf (List.mem_filter.1 hq).1
      subst e
      simp only at hf
      rw [hg] at hf
      simp at hf; subst hf; rfl
    have hpw : (sel.map (·.1)).Pairwise before := by
      rw [List.pairwise_map] at s1 ⊢
      refine (List.pairwise_iff_forall_sublist.2 ?_)
      intro p q hpq f g hf hg
      have h1 := List.pairwise_iff_forall_sublist.1 s1 hpq
      rw [hsel p (hpq.subset (by simp)) f hf, hsel q (hpq.subset (by simp)) g hg]
      exact h1
    have hfs : ∀ l : List Str, (firsts l).Sublist l := by
      intro l
      induction l with
      | nil => exact List.Sublist.refl _
      | cons a l ih => exact (List.filter_sublist.trans ih).cons₂ a
    have key : ∀ {α : Type} (d : Dict Str α), (orderedDict (orderOf (parsedFields none) ps) d).keys.Pairwise before := by
      intro α d
      rw [orderedDict_keys]
      have : orderOf (parsedFields none) ps = sel.map (·.1) := by
        simp only [orderOf, parsedFields, Option.map_none]
        exact defaultOrder_eq s1 s2
      rw [this]
      exact hpw.sublist (List.filter_sublist.trans (hfs _))
    exact ⟨key _, key _, key _⟩
end

/-- A model with all sorts of fields, one that forms do not support, and a class of sub-objects. -/
def sampleModels : Nat → Model
  | 0 => [(c%"id", ⟨.string, [], none, 4⟩), (c%"kind", ⟨.string, [c%"a", c%"b"], some false, 5⟩), (c%"size", ⟨.integer, [], none, 3⟩),
          (c%"when", ⟨.other, [], none, 6⟩), (c%"child", ⟨.node 1, [], none, 7⟩), (c%"parts", ⟨.nodeList 1, [], none, 8⟩), (c%"notes", ⟨.stringList, [], none, 9⟩)]
  | _ => [(c%"name", ⟨.string, [], none, 1⟩), (c%"age", ⟨.integer, [], some false, 2⟩)]

theorem sampleModels_ok (k : Nat) : ModelOk (sampleModels k) := by
  match k with
  | 0 => exact ⟨by decide, by decide, by decide⟩
  | k + 1 =>
    have : sampleModels (k + 1) = sampleModels 1 := rfl
    rw [this]; exact ⟨by decide, by decide, by decide⟩

/-- The names of the fields, subforms and formsets. -/
def FormClass.names : Except PyErr FormClass → Option (List Str × List Str × List Str)
  | .ok c => some (c.fields.keys, c.subforms.keys, c.formsets.keys)
  | .error _ => none

example : FormClass.names (formStatement sampleModels 1 0 none (some [c%"when"]) [] []) =
    some ([c%"size", c%"id", c%"kind"], [c%"child"], [c%"parts", c%"notes"]) := by decide
example : FormClass.names (formStatement sampleModels 1 0 (some [c%"parts.age", c%"kind", c%"id", c%"child"]) (some [c%"kind"]) [] []) =
    some ([c%"id"], [c%"child"], [c%"parts"]) := by decide
example : formStatement sampleModels 5 0 none none [] [] = .error .exception := by rfl

/-! ### C68: nested forms -/

/-- The form, or a form nested in it, has a field with this path. -/
def FormClass.Has (c : FormClass) : List Str → Prop
  | [] => True
  | x :: p => (p = [] ∧ x ∈ c.fields.keys) ∨ ∃ c', (c.subforms.get? x = some c' ∨ c.formsets.get? x = some c') ∧ FormClass.Has c' p

/-- The class, or a class of its sub-objects, has a field with this path. -/
def ModelHas (models : Nat → Model) (cls : Nat) : List Str → Prop
  | [] => True
  | x :: p => ∃ f, (models cls).get? x = some f ∧
      (p = [] ∨ ∃ cls', f.choices = [] ∧ (f.type = .node cls' ∨ f.type = .nodeList cls') ∧ ModelHas models cls' p)

/-- The parsed list for the level `q`, if any. -/
def lvl (l : Option PFL) (q : List Str) : Option PFL := l.bind (fun l => levelAt l q)

theorem lvl_cons (l : Option PFL) (x : Str) (q : List Str) : lvl l (x :: q) = lvl (subList l x) q := by
  cases l with
  | none => rfl
  | some l =>
    simp only [lvl, subList, Option.bind_some, levelAt]
    cases l.subfields.get? x <;> rfl

theorem skip_false_iff (fl ex : Option PFL) (x : Str) : skip fl ex x = false ↔ (∀ l, fl = some l → x ∈ l.fields) ∧ (∀ l, ex = some l → x ∉ l.fields) := by
  unfold skip
  rw [Bool.or_eq_false_iff]
  refine and_congr ?_ ?_
  · cases fl <;> simp
  · cases ex <;> simp

theorem partFor_isNode {gen : Nat → Option PFL → Option PFL → Except PyErr FormClass} {fl ex : Option PFL} {x : Str} {f : MField} {cls : Nat}
    (hc : f.choices = []) (ht : f.type = .node cls ∨ f.type = .nodeList cls) :
    (f.type = .node cls → partFor gen [] fl ex x f = (gen cls (subList fl x) (subList ex x)).map .subform) ∧
    (f.type = .nodeList cls → partFor gen [] fl ex x f = (gen cls (subList fl x) (subList ex x)).map .formset) := by
  constructor
  · intro h; simp [partFor, hc, h, Dict.get?]
  · intro h; simp [partFor, hc, h, Dict.get?]

theorem has_iff (models : Nat → Model) (hm : ∀ k, ModelOk (models k)) : ∀ (path : List Str), path ≠ [] → ∀ (n cls : Nat) (fl ex : Option PFL) (c : FormClass),
    formFactory models n cls fl ex = .ok c →
    (FormClass.Has c path ↔ ModelHas models cls path ∧
      ∀ q x r, path = q ++ x :: r → (∀ l, lvl fl q = some l → x ∈ l.fields) ∧ (∀ l, lvl ex q = some l → x ∉ l.fields))
  | [], h, _, _, _, _, _, _ => absurd rfl h
  | x :: p, _, 0, cls, fl, ex, c, h => by simp [formFactory] at h
  | x :: p, _, n + 1, cls, fl, ex, c, h => by
    rw [formFactory] at h
    obtain ⟨g1, g2, g3⟩ := formFields_get? (hm cls).wf (hm cls).counters h x
    have hsplit : (∀ q y r, x :: p = q ++ y :: r → (∀ l, lvl fl q = some l → y ∈ l.fields) ∧ (∀ l, lvl ex q = some l → y ∉ l.fields)) ↔
        skip fl ex x = false ∧ ∀ q y r, p = q ++ y :: r → (∀ l, lvl (subList fl x) q = some l → y ∈ l.fields) ∧ (∀ l, lvl (subList ex x) q = some l → y ∉ l.fields) := by
      have l0 : ∀ o : Option PFL, lvl o [] = o := by intro o; cases o <;> rfl
      rw [skip_false_iff]
      constructor
      · intro hq
        refine ⟨?_, ?_⟩
        · have := hq [] x p rfl
          rwa [l0, l0] at this
        · intro q y r e
          have := hq (x :: q) y r (by rw [e]; rfl)
          rwa [lvl_cons, lvl_cons] at this
      · rintro ⟨h0, h1⟩ q y r e
        cases q with
        | nil =>
          simp only [List.nil_append, List.cons.injEq] at e
          obtain ⟨rfl, rfl⟩ := e
          rw [l0, l0]; exact h0
        | cons z q =>
          simp only [List.cons_append, List.cons.injEq] at e
          obtain ⟨rfl, e⟩ := e
          rw [lvl_cons, lvl_cons]; exact h1 q y r e
    rw [hsplit]
    by_cases hp : p = []
    · subst hp
      simp only [FormClass.Has, ModelHas, true_and, true_or, and_true, List.nil_eq, List.append_eq_nil_iff, reduceCtorEq, and_false, IsEmpty.forall_iff, implies_true]
      rw [mem_keys_iff]
      constructor
      · rintro (⟨v, hv⟩ | ⟨c', hv | hv⟩)
        · obtain ⟨f, a1, a2, _⟩ := (g1 v).1 hv; exact ⟨⟨f, a1⟩, a2⟩
        · obtain ⟨f, a1, a2, _⟩ := (g2 c').1 hv; exact ⟨⟨f, a1⟩, a2⟩
        · obtain ⟨f, a1, a2, _⟩ := (g3 c').1 hv; exact ⟨⟨f, a1⟩, a2⟩
      · rintro ⟨⟨f, a1⟩, a2⟩
        obtain ⟨pt, hpt⟩ := formFields_part (hm cls).wf h a1 a2
        cases pt with
        | field v => exact Or.inl ⟨v, (g1 v).2 ⟨f, a1, a2, hpt⟩⟩
        | subform v => exact Or.inr ⟨v, Or.inl ((g2 v).2 ⟨f, a1, a2, hpt⟩)⟩
        | formset v => exact Or.inr ⟨v, Or.inr ((g3 v).2 ⟨f, a1, a2, hpt⟩)⟩
    · have ih := has_iff models hm p hp n
      simp only [FormClass.Has, ModelHas, hp, false_and, false_or]
      constructor
      · rintro ⟨c', hv, hh⟩
        have hex : ∃ f cls', (models cls).get? x = some f ∧ skip fl ex x = false ∧ f.choices = [] ∧ (f.type = .node cls' ∨ f.type = .nodeList cls') ∧
            formFactory models n cls' (subList fl x) (subList ex x) = .ok c' := by
          rcases hv with hv | hv
          · obtain ⟨f, a1, a2, a3⟩ := (g2 c').1 hv
            obtain ⟨b1, cls', b2⟩ := partFor_subform a3
            rw [(partFor_isNode b1 (Or.inl b2)).1 b2] at a3
            cases hg : formFactory models n cls' (subList fl x) (subList ex x) with
            | error e => rw [hg] at a3; simp [Except.map] at a3
            | ok c2 => rw [hg] at a3; simp [Except.map] at a3; subst a3; exact ⟨f, cls', a1, a2, b1, Or.inl b2, hg⟩
          · obtain ⟨f, a1, a2, a3⟩ := (g3 c').1 hv
            obtain ⟨b1, b2⟩ := partFor_formset a3
            rcases b2 with ⟨cls', b2⟩ | b2 | b2
            · rw [(partFor_isNode b1 (Or.inr b2)).2 b2] at a3
              cases hg : formFactory models n cls' (subList fl x) (subList ex x) with
              | error e => rw [hg] at a3; simp [Except.map] at a3
              | ok c2 => rw [hg] at a3; simp [Except.map] at a3; subst a3; exact ⟨f, cls', a1, a2, b1, Or.inr b2, hg⟩
            · exfalso
              simp [partFor, b1, b2] at a3; subst a3
              cases p with
              | nil => exact hp rfl
              | cons y p => simp [FormClass.Has, FormClass.fields, FormClass.subforms, FormClass.formsets, Dict.keys, Dict.get?] at hh
            · exfalso
              simp [partFor, b1, b2] at a3; subst a3
              cases p with
              | nil => exact hp rfl
              | cons y p => simp [FormClass.Has, FormClass.fields, FormClass.subforms, FormClass.formsets, Dict.keys, Dict.get?] at hh
        obtain ⟨f, cls', a1, a2, b1, b2, hg⟩ := hex
        obtain ⟨k1, k2⟩ := (ih cls' _ _ c' hg).1 hh
        exact ⟨⟨f, a1, cls', b1, b2, k1⟩, a2, k2⟩
      · rintro ⟨⟨f, a1, cls', b1, b2, k1⟩, a2, k2⟩
        obtain ⟨pt, hpt⟩ := formFields_part (hm cls).wf h a1 a2
        obtain ⟨q1, q2⟩ := partFor_isNode (gen := formFactory models n) (fl := fl) (ex := ex) (x := x) b1 b2
        rcases b2 with b2 | b2
        · have e := q1 b2
          rw [hpt] at e
          cases hg : formFactory models n cls' (subList fl x) (subList ex x) with
          | error er => rw [hg] at e; simp [Except.map] at e
          | ok c2 =>
            rw [hg] at e; simp [Except.map] at e; subst e
            exact ⟨c2, Or.inl ((g2 c2).2 ⟨f, a1, a2, hpt⟩), (ih cls' _ _ c2 hg).2 ⟨k1, k2⟩⟩
        · have e := q2 b2
          rw [hpt] at e
          cases hg : formFactory models n cls' (subList fl x) (subList ex x) with
          | error er => rw [hg] at e; simp [Except.map] at e
          | ok c2 =>
            rw [hg] at e; simp [Except.map] at e; subst e
            exact ⟨c2, Or.inr ((g3 c2).2 ⟨f, a1, a2, hpt⟩), (ih cls' _ _ c2 hg).2 ⟨k1, k2⟩⟩

theorem modelHas_plain (models : Nat → Model) (hm : ∀ k, ModelOk (models k)) : ∀ (path : List Str) (cls : Nat), ModelHas models cls path → Plain path
  | [], _, _ => by intro c hc; simp at hc
  | x :: p, cls, h => by
    obtain ⟨f, h1, h2⟩ := h
    intro c hc
    rcases List.mem_cons.1 hc with rfl | hc
    · exact (hm cls).nodot _ ((mem_keys_iff _ _).2 ⟨f, h1⟩)
    · rcases h2 with rfl | ⟨cls', _, _, h3⟩
      · simp at hc
      · exact modelHas_plain models hm p cls' h3 c hc

/-- A form with nested forms has exactly the fields of the model and its sub-objects that are selected on every level: a level is restricted if
something below it is listed, and then the next name must be listed or have something listed below it; no name on the way may be excluded. -/
theorem C68_nested (models : Nat → Model) (hm : ∀ k, ModelOk (models k)) (n cls : Nat) (fields exclude : Option (List Str)) (c : FormClass)
    (h : formStatement models n cls fields exclude [] [] = .ok c) (path : List Str) (hpath : path ≠ []) :
    FormClass.Has c path ↔ ModelHas models cls path ∧ ∀ q x r, path = q ++ x :: r →
      (∀ names, fields = some names → q = [] ∨ (∃ nm ∈ names, Below q nm) → dotted (q ++ [x]) ∈ names ∨ ∃ nm ∈ names, Below (q ++ [x]) nm) ∧
      (∀ names, exclude = some names → dotted (q ++ [x]) ∉ names) := by
  have h' : formFactory models (n + 1) cls (parsedFields fields) (parsedExclude exclude) = .ok c := by
    obtain ⟨c0, h0, e1, e2, e3⟩ := formStatement_ok models n cls fields exclude [] [] h
    unfold formStatement at h
    rw [h0] at h
    rw [formFactory, h0]
    simp only [Except.ok.injEq] at h ⊢
    subst h
    unfold formFields at h0
    cases hc : collectParts (formFactory models n) [] (parsedFields fields) (parsedExclude exclude) (models cls) with
    | error e => rw [hc] at h0; simp at h0
    | ok ps => rw [hc] at h0; simp only [Except.ok.injEq] at h0; subst h0; rfl
  rw [has_iff models hm path hpath (n + 1) cls _ _ c h']
  refine and_congr_right (fun hmod => ?_)
  have hplain := modelHas_plain models hm path cls hmod
  refine forall_congr' (fun q => forall_congr' (fun x => forall_congr' (fun r => imp_congr_right (fun e => ?_))))
  have hq : Plain q := fun c hc => hplain c (by rw [e]; simp [hc])
  have hx : '.' ∉ x := hplain x (by rw [e]; simp)
  refine and_congr ?_ ?_
  · cases fields with
    | none => simp [parsedFields, lvl]
    | some names =>
      simp only [parsedFields, Option.map_some, lvl, Option.bind_some, Option.some.injEq, forall_eq']
      have hl := C47_levels names true q hq
      constructor
      · intro h1 h2
        obtain ⟨l, hl'⟩ := Option.isSome_iff_exists.1 (hl.2 h2)
        simpa using (C47_fields names true q hq l hl' x hx).1 (h1 l hl')
      · intro h1 l hl'
        exact (C47_fields names true q hq l hl' x hx).2 (by simpa using h1 (hl.1 (by rw [hl']; rfl)))
  · cases exclude with
    | none => simp [parsedExclude, lvl]
    | some names =>
      simp only [parsedExclude, Option.map_some, lvl, Option.bind_some, Option.some.injEq, forall_eq']
      have hl := C47_levels names false q hq
      constructor
      · intro h1 h2
        by_cases hlev : q = [] ∨ ∃ nm ∈ names, Below q nm
        · obtain ⟨l, hl'⟩ := Option.isSome_iff_exists.1 (hl.2 hlev)
          exact h1 l hl' ((C47_fields names false q hq l hl' x hx).2 (Or.inl h2))
        · apply hlev
          by_cases hq0 : q = []
          · exact Or.inl hq0
          · refine Or.inr ⟨_, h2, ⟨dotted [x], ?_⟩⟩
            rw [dotted_append hq0 (by simp)]; simp
      · intro h1 l hl' h2
        rcases (C47_fields names false q hq l hl' x hx).1 h2 with h3 | h3
        · exact h1 h3
        · simp at h3

/-- The result does not depend on the bound of the nesting. -/
theorem collectParts_mono {g1 g2 : Nat → Option PFL → Option PFL → Except PyErr FormClass} (hg : ∀ k fl ex c, g1 k fl ex = .ok c → g2 k fl ex = .ok c)
    (declared : Dict Str FormClass) (fl ex : Option PFL) (m : List (Str × MField)) (ps : List (Str × Nat × Part))
    (h : collectParts g1 declared fl ex m = .ok ps) : collectParts g2 declared fl ex m = .ok ps := by
  induction m generalizing ps with
  | nil => exact h
  | cons q m ih =>
    obtain ⟨x, f⟩ := q
    rw [collectParts] at h ⊢
    by_cases hs : skip fl ex x = true
    · rw [if_pos hs] at h ⊢; exact ih ps h
    · rw [if_neg hs] at h ⊢
      cases hp : partFor g1 declared fl ex x f with
      | error e => rw [hp] at h; simp at h
      | ok p =>
        have hp2 : partFor g2 declared fl ex x f = .ok p := by
          unfold partFor at hp ⊢
          by_cases hc : f.choices ≠ []
          · rw [if_pos hc] at hp ⊢; exact hp
          · rw [if_neg hc] at hp ⊢
            cases ht : f.type with
            | node k =>
              rw [ht] at hp; simp only at hp ⊢
              cases hd : declared.get? x with
              | some c => rw [hd] at hp; exact hp
              | none =>
                rw [hd] at hp; simp only at hp ⊢
                cases hgk : g1 k (subList fl x) (subList ex x) with
                | error e => rw [hgk] at hp; simp [Except.map] at hp
                | ok c => rw [hg _ _ _ c hgk]; rw [hgk] at hp; exact hp
            | nodeList k =>
              rw [ht] at hp; simp only at hp ⊢
              cases hd : declared.get? x with
              | some c => rw [hd] at hp; exact hp
              | none =>
                rw [hd] at hp; simp only at hp ⊢
                cases hgk : g1 k (subList fl x) (subList ex x) with
                | error e => rw [hgk] at hp; simp [Except.map] at hp
                | ok c => rw [hg _ _ _ c hgk]; rw [hgk] at hp; exact hp
            | string => rw [ht] at hp; exact hp
            | integer => rw [ht] at hp; exact hp
            | date => rw [ht] at hp; exact hp
            | simpleBoolean => rw [ht] at hp; exact hp
            | stringList => rw [ht] at hp; exact hp
            | integerList => rw [ht] at hp; exact hp
            | other => rw [ht] at hp; exact hp
        rw [hp] at h
        rw [hp2]
        cases hc : collectParts g1 declared fl ex m with
        | error e => rw [hc] at h; simp at h
        | ok ps' => rw [hc] at h; rw [ih ps' hc]; exact h

theorem formFactory_mono (models : Nat → Model) : ∀ (n : Nat) (cls : Nat) (fl ex : Option PFL) (c : FormClass), formFactory models n cls fl ex = .ok c →
    formFactory models (n + 1) cls fl ex = .ok c
  | 0, _, _, _, _, h => by simp [formFactory] at h
  | n + 1, cls, fl, ex, c, h => by
    rw [formFactory] at h ⊢
    unfold formFields at h ⊢
    cases hc : collectParts (formFactory models n) [] fl ex (models cls) with
    | error e => rw [hc] at h; simp at h
    | ok ps =>
      rw [collectParts_mono (fun k fl ex c => formFactory_mono models n k fl ex c) [] fl ex _ ps hc]
      rw [hc] at h; exact h

/-- If a form class can be created, a greater recursion limit does not change it. -/
theorem C68_limit_irrelevant (models : Nat → Model) (n k cls : Nat) (fields exclude : Option (List Str)) (df : Dict Str FormField) (ds : Dict Str FormClass) (c : FormClass)
    (h : formStatement models n cls fields exclude df ds = .ok c) : formStatement models (n + k) cls fields exclude df ds = .ok c := by
  induction k with
  | zero => exact h
  | succ k ih =>
    rw [← Nat.add_assoc]
    unfold formStatement formFields at ih ⊢
    cases hc : collectParts (formFactory models (n + k)) ds (parsedFields fields) (parsedExclude exclude) (models cls) with
    | error e => rw [hc] at ih; simp at ih
    | ok ps =>
      rw [collectParts_mono (formFactory_mono models (n + k)) ds _ _ _ ps hc]
      rw [hc] at ih; exact ih

/-- Field selection reaches into subforms and formsets. -/
example : ∃ c, formStatement sampleModels 1 0 (some [c%"id", c%"child.age", c%"parts"]) (some [c%"parts.name"]) [] [] = .ok c ∧
    FormClass.Has c [c%"child", c%"age"] ∧ ¬ FormClass.Has c [c%"child", c%"name"] ∧ FormClass.Has c [c%"parts", c%"age"] ∧ ¬ FormClass.Has c [c%"parts", c%"name"] := by
  refine ⟨_, rfl, ?_, ?_, ?_, ?_⟩
  · exact Or.inr ⟨_, Or.inl rfl, Or.inl ⟨rfl, by decide⟩⟩
  · rintro (⟨h, _⟩ | ⟨c', h, h2⟩)
    · simp at h
    · rcases h with h | h
      · change some _ = some c' at h
        simp only [Option.some.injEq] at h; subst h
        rcases h2 with ⟨_, h2⟩ | ⟨c2, h2, _⟩
        · revert h2; decide
        · rcases h2 with h2 | h2 <;> cases h2
      · cases h
  · exact Or.inr ⟨_, Or.inr rfl, Or.inl ⟨rfl, by decide⟩⟩
  · rintro (⟨h, _⟩ | ⟨c', h, h2⟩)
    · simp at h
    · rcases h with h | h
      · cases h
      · change some _ = some c' at h
        simp only [Option.some.injEq] at h; subst h
        rcases h2 with ⟨_, h2⟩ | ⟨c2, h2, _⟩
        · revert h2; decide
        · rcases h2 with h2 | h2 <;> cases h2

/-- A class with a field of its own class. -/
def treeModels : Nat → Model := fun _ => [(c%"name", ⟨.string, [], none, 0⟩), (c%"child", ⟨.node 0, [], none, 1⟩)]

/-- No form class can be created for it, whatever the recursion limit, unless the recursive field is left out. -/
theorem C68_counterexample_recursive : (∀ n, formStatement treeModels n 0 none none [] [] = .error .runtimeError) ∧
    FormClass.names (formStatement treeModels 0 0 none (some [c%"child"]) [] []) = some ([c%"name"], [], []) := by
  refine ⟨?_, by decide⟩
  have hf : ∀ n, formFactory treeModels n 0 none none = .error .runtimeError := by
    intro n
    induction n with
    | zero => rfl
    | succ n ih => simp [formFactory, formFields, treeModels, collectParts, skip, partFor, Dict.get?, subList, Except.map, ih]
  intro n
  simp [formStatement, formFields, treeModels, collectParts, skip, partFor, Dict.get?, subList, Except.map, hf, parsedFields, parsedExclude]

/-- Counterexamples to "a list field becomes a formset": one with choices becomes a single choice. -/
theorem C48_counterexample_choice_list : FormClass.names (formStatement (fun _ => [(c%"tags", ⟨.stringList, [c%"a", c%"b"], none, 0⟩)]) 0 0 none none [] []) = some ([c%"tags"], [], []) := by
  decide

/-- Counterexample for direct calls: a parsed field list makes `formfields_for_xmlobject` forget its `exclude` argument. -/
theorem C48_counterexample_exclude_ignored : chosenExclude none (.parsed (parseFieldList [c%"a", c%"b"] true)) (.names [c%"a"]) = .ok none := rfl

/-! ### the other theorems applied to the sample model -/

example := C48_selection (models := sampleModels) (n := 1) (cls := 0) (fields := none) (exclude := some [c%"when"]) (declaredFields := []) (declaredSubforms := []) (sampleModels_ok 0) _ rfl c%"size"
example := C48_supported (models := sampleModels) (n := 1) (cls := 0) (fields := none) (exclude := some [c%"when"]) (declaredFields := []) (declaredSubforms := []) (sampleModels_ok 0) _ rfl c%"size" _ rfl ⟨fun _ h => by simp at h, fun _ h => by simp only [Option.some.injEq] at h; subst h; decide⟩
example := C48_kinds (models := sampleModels) (n := 1) (cls := 0) (fields := none) (exclude := some [c%"when"]) (declaredSubforms := []) (sampleModels_ok 0) _ rfl c%"size" _ _ rfl rfl
example := C48_order_listed (models := sampleModels) (n := 1) (cls := 0) (exclude := none) (declaredSubforms := []) [c%"parts.age", c%"kind", c%"id", c%"child"] _ rfl

end Props
