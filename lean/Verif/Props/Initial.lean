import Verif.Forms.Initial
import Verif.XPath.NumLemmas
import Verif.Py.Dict
/-
Property C50: the keys of the initial data of a form.

Model: Verif/Forms/Initial.lean.
-/
namespace Props
open Forms Py XPath

/-! ### specification -/

/-- The fields of an object itself, with what they are. -/
inductive FVal (V : Type) where
  | scalar (v : V)
  | absent
  | node (sub : Obj V)
  | list (items : List (Obj V))

def items {V : Type} : Objs V → List (Obj V)
  | .nil => []
  | .cons o r => o :: items r

def fieldsOf {V : Type} : Obj V → List (Str × FVal V)
  | .nil => []
  | .scalar n v r => (n, .scalar v) :: fieldsOf r
  | .absent n r => (n, .absent) :: fieldsOf r
  | .node n s r => (n, .node s) :: fieldsOf r
  | .list n l r => (n, .list (items l)) :: fieldsOf r

/-- The values in a tree of objects, each with the way to it: names of fields, and positions in lists.  A NodeField has a value itself too. -/
inductive Value {V : Type} : Obj V → List Str → Stored V → Prop
  | scalar {o n v} : (n, FVal.scalar v) ∈ fieldsOf o → Value o [n] (.scalar v)
  | absent {o n} : (n, FVal.absent) ∈ fieldsOf o → Value o [n] .none
  | object {o n sub} : (n, FVal.node sub) ∈ fieldsOf o → Value o [n] (.obj sub)
  | node {o n sub p v} : (n, FVal.node sub) ∈ fieldsOf o → Value sub p v → Value o (n :: p) v
  | item {o n l i sub p v} : (n, FVal.list l) ∈ fieldsOf o → l[i]? = some sub → Value sub p v → Value o (n :: natStr i :: p) v

/-- The key for a way: the parts joined with `-`. -/
def dashed (path : List Str) : Str := ['-'].intercalate path

/-- Names in the tree are different from each other in each object, not empty, and have no `-` (as Python identifiers). -/
inductive Good {V : Type} : Obj V → Prop
  | mk {o : Obj V} : ((fieldsOf o).map (·.1)).Nodup → (∀ n ∈ (fieldsOf o).map (·.1), n ≠ [] ∧ '-' ∉ n) →
      (∀ n sub, (n, FVal.node sub) ∈ fieldsOf o → Good sub) → (∀ n l, (n, FVal.list l) ∈ fieldsOf o → ∀ sub ∈ l, Good sub) → Good o

/-! ### lemmas -/

theorem digit_ne_dash {i : Nat} : '-' ∉ natStr i := by
  intro h
  have := (natStr_spec i).2.1 '-' h
  revert this; decide

theorem natStr_inj {i j : Nat} (h : natStr i = natStr j) : i = j := by
  rw [← (natStr_spec i).2.2.1, ← (natStr_spec j).2.2.1, h]

theorem value_ne_nil {V : Type} {o : Obj V} {p : List Str} {v : Stored V} (h : Value o p v) : p ≠ [] := by cases h <;> simp

theorem value_plain {V : Type} {o : Obj V} {p : List Str} {v : Stored V} (h : Value o p v) (hg : Good o) : ∀ c ∈ p, '-' ∉ c := by
  induction h with
  | scalar h => cases hg with | mk a b c d => simp; exact (b _ (List.mem_map_of_mem (f := (·.1)) h)).2
  | absent h => cases hg with | mk a b c d => simp; exact (b _ (List.mem_map_of_mem (f := (·.1)) h)).2
  | object h => cases hg with | mk a b c d => simp; exact (b _ (List.mem_map_of_mem (f := (·.1)) h)).2
  | node h _ ih =>
    cases hg with | mk a b c d =>
    intro x hx
    rcases List.mem_cons.1 hx with rfl | hx
    · exact (b _ (List.mem_map_of_mem (f := (·.1)) h)).2
    · exact ih (c _ _ h) x hx
  | item h hi _ ih =>
    cases hg with | mk a b c d =>
    intro x hx
    rcases List.mem_cons.1 hx with rfl | hx
    · exact (b _ (List.mem_map_of_mem (f := (·.1)) h)).2
    · rcases List.mem_cons.1 hx with rfl | hx
      · exact digit_ne_dash
      · exact ih (d _ _ h _ (List.mem_of_getElem? hi)) x hx

theorem dashed_inj {p q : List Str} (hp : ∀ c ∈ p, '-' ∉ c) (hq : ∀ c ∈ q, '-' ∉ c) (hp0 : p ≠ []) (hq0 : q ≠ []) (h : dashed p = dashed q) : p = q := by
  have h1 := List.splitOn_intercalate '-' hp hp0
  have h2 := List.splitOn_intercalate '-' hq hq0
  unfold dashed at h
  rw [← h1, ← h2, h]

theorem field_unique {V : Type} {o : Obj V} (h : ((fieldsOf o).map (·.1)).Nodup) {n : Str} {a b : FVal V} (ha : (n, a) ∈ fieldsOf o) (hb : (n, b) ∈ fieldsOf o) : a = b := by
  have h1 := Dict.get?_of_mem (d := fieldsOf o) h ha
  have h2 := Dict.get?_of_mem (d := fieldsOf o) h hb
  rw [h1] at h2
  simpa using h2

theorem value_unique {V : Type} {o : Obj V} {p : List Str} {v w : Stored V} (h : Value o p v) (hg : Good o) (h' : Value o p w) : v = w := by
  induction h generalizing w with
  | scalar h =>
    cases hg with | mk a b c d =>
    cases h' with
    | scalar h2 => have := field_unique a h h2; simp at this; rw [this]
    | absent h2 => have := field_unique a h h2; simp at this
    | object h2 => have := field_unique a h h2; simp at this
    | node h2 h3 => exact absurd rfl (value_ne_nil h3)
  | absent h =>
    cases hg with | mk a b c d =>
    cases h' with
    | scalar h2 => have := field_unique a h h2; simp at this
    | absent h2 => rfl
    | object h2 => have := field_unique a h h2; simp at this
    | node h2 h3 => exact absurd rfl (value_ne_nil h3)
  | object h =>
    cases hg with | mk a b c d =>
    cases h' with
    | scalar h2 => have := field_unique a h h2; simp at this
    | absent h2 => have := field_unique a h h2; simp at this
    | object h2 => have := field_unique a h h2; simp at this; rw [this]
    | node h2 h3 => exact absurd rfl (value_ne_nil h3)
  | node h h1 ih =>
    cases hg with | mk a b c d =>
    cases h' with
    | scalar h2 => exact absurd rfl (value_ne_nil h1)
    | absent h2 => exact absurd rfl (value_ne_nil h1)
    | object h2 => exact absurd rfl (value_ne_nil h1)
    | node h2 h3 =>
      have := field_unique a h h2
      simp at this; subst this
      exact ih (c _ _ h) h3
    | item h2 _ h3 => have := field_unique a h h2; simp at this
  | item h hi h1 ih =>
    cases hg with | mk a b c d =>
    generalize hq : (_ :: _ :: _ : List Str) = q at h'
    cases h' with
    | scalar h2 => simp at hq
    | absent h2 => simp at hq
    | object h2 => simp at hq
    | node h2 h3 =>
      simp only [List.cons.injEq] at hq
      obtain ⟨rfl, _⟩ := hq
      have := field_unique a h h2; simp at this
    | item h2 hj h3 =>
      simp only [List.cons.injEq] at hq
      obtain ⟨rfl, e1, rfl⟩ := hq
      have := field_unique a h h2
      simp at this; subst this
      have := natStr_inj e1
      subst this
      rw [hi] at hj
      simp at hj; subst hj
      exact ih (d _ _ h _ (List.mem_of_getElem? hi)) h3

theorem dashed_cons {n : Str} {p : List Str} (hp : p ≠ []) : dashed (n :: p) = n ++ '-' :: dashed p := by
  unfold dashed
  rw [List.intercalate_cons_of_ne_nil hp]; simp

/-- `res` is `data` with the values of `o` under their keys. -/
structure Holds {V : Type} (o : Obj V) (pre : Str) (data res : Dict Str (Stored V)) : Prop where
  wf : res.Wf
  new : ∀ path v, Value o path v → res.get? (pre ++ dashed path) = some v
  old : ∀ k, (∀ path v, Value o path v → k ≠ pre ++ dashed path) → res.get? k = data.get? k

theorem value_split {V : Type} {o a r : Obj V} (h : fieldsOf o = fieldsOf a ++ fieldsOf r) {p : List Str} {v : Stored V} : Value o p v ↔ Value a p v ∨ Value r p v := by
  constructor
  · intro hv
    cases hv with
    | scalar h1 => rw [h] at h1; rcases List.mem_append.1 h1 with h1 | h1; exacts [Or.inl (.scalar h1), Or.inr (.scalar h1)]
    | absent h1 => rw [h] at h1; rcases List.mem_append.1 h1 with h1 | h1; exacts [Or.inl (.absent h1), Or.inr (.absent h1)]
    | object h1 => rw [h] at h1; rcases List.mem_append.1 h1 with h1 | h1; exacts [Or.inl (.object h1), Or.inr (.object h1)]
    | node h1 h2 => rw [h] at h1; rcases List.mem_append.1 h1 with h1 | h1; exacts [Or.inl (.node h1 h2), Or.inr (.node h1 h2)]
    | item h1 h2 h3 => rw [h] at h1; rcases List.mem_append.1 h1 with h1 | h1; exacts [Or.inl (.item h1 h2 h3), Or.inr (.item h1 h2 h3)]
  · intro hv
    rcases hv with hv | hv
    · have hm : ∀ x ∈ fieldsOf a, x ∈ fieldsOf o := fun x hx => by rw [h]; simp [hx]
      cases hv with
      | scalar h1 => exact .scalar (hm _ h1)
      | absent h1 => exact .absent (hm _ h1)
      | object h1 => exact .object (hm _ h1)
      | node h1 h2 => exact .node (hm _ h1) h2
      | item h1 h2 h3 => exact .item (hm _ h1) h2 h3
    · have hm : ∀ x ∈ fieldsOf r, x ∈ fieldsOf o := fun x hx => by rw [h]; simp [hx]
      cases hv with
      | scalar h1 => exact .scalar (hm _ h1)
      | absent h1 => exact .absent (hm _ h1)
      | object h1 => exact .object (hm _ h1)
      | node h1 h2 => exact .node (hm _ h1) h2
      | item h1 h2 h3 => exact .item (hm _ h1) h2 h3

theorem good_rest {V : Type} {o a r : Obj V} (h : fieldsOf o = fieldsOf a ++ fieldsOf r) (hg : Good o) : Good r := by
  cases hg with | mk g1 g2 g3 g4 =>
  have hm : ∀ x ∈ fieldsOf r, x ∈ fieldsOf o := fun x hx => by rw [h]; simp [hx]
  refine ⟨?_, fun n hn => ?_, fun n s hs => g3 n s (hm _ hs), fun n l hl => g4 n l (hm _ hl)⟩
  · rw [h, List.map_append] at g1; exact (List.nodup_append.1 g1).2.1
  · obtain ⟨x, hx, rfl⟩ := List.mem_map.1 hn
    exact g2 _ (List.mem_map_of_mem (hm x hx))

theorem Holds.combine {V : Type} {o a r : Obj V} (h : fieldsOf o = fieldsOf a ++ fieldsOf r) (hg : Good o) {pre : Str} {data mid res : Dict Str (Stored V)}
    (h1 : Holds a pre data mid) (h2 : Holds r pre mid res) : Holds o pre data res := by
  refine ⟨h2.wf, fun path v hv => ?_, fun k hk => ?_⟩
  · rcases (value_split h).1 hv with hv1 | hv1
    · by_cases hx : ∃ path' v', Value r path' v' ∧ pre ++ dashed path = pre ++ dashed path'
      · obtain ⟨path', v', hv', e⟩ := hx
        have ho := (value_split h).2 (Or.inr hv')
        have e := dashed_inj (value_plain hv hg) (value_plain ho hg) (value_ne_nil hv) (value_ne_nil ho) (List.append_cancel_left e)
        subst e
        rw [h2.new path v' hv', value_unique hv hg ho]
      · rw [h2.old _ (fun path' v' hv' e => hx ⟨path', v', hv', e⟩)]
        exact h1.new path v hv1
    · exact h2.new path v hv1
  · rw [h2.old k (fun p v hv => hk p v ((value_split h).2 (Or.inr hv))), h1.old k (fun p v hv => hk p v ((value_split h).2 (Or.inl hv)))]

theorem holds_set {V : Type} {a : Obj V} {n : Str} {w : Stored V} (ha : ∀ p v, Value a p v ↔ p = [n] ∧ v = w) {pre : Str} {data : Dict Str (Stored V)} (hd : data.Wf) :
    Holds a pre data (data.set (pre ++ n) w) := by
  have e : dashed [n] = n := List.intercalate_singleton
  refine ⟨hd.set _ _, fun p v hv => ?_, fun k hk => ?_⟩
  · obtain ⟨rfl, rfl⟩ := (ha p v).1 hv
    rw [e, Dict.get?_set, if_pos rfl]
  · have := hk [n] w ((ha _ _).2 ⟨rfl, rfl⟩)
    rw [e] at this
    rw [Dict.get?_set, if_neg this]

/-- The loop over the items of a list. -/
structure HoldsItems {V : Type} (l : Objs V) (pre : Str) (i : Nat) (data res : Dict Str (Stored V)) : Prop where
  wf : res.Wf
  new : ∀ j sub path v, (items l)[j]? = some sub → Value sub path v → res.get? (pre ++ '-' :: dashed (natStr (i + j) :: path)) = some v
  old : ∀ k, (∀ j sub path v, (items l)[j]? = some sub → Value sub path v → k ≠ pre ++ '-' :: dashed (natStr (i + j) :: path)) → res.get? k = data.get? k

mutual
theorem dictLoop_holds {V : Type} : ∀ (o : Obj V) (pre : Str) (data : Dict Str (Stored V)), Good o → data.Wf → Holds o pre data (dictLoop o pre data)
  | .nil, pre, data, _, hd => by
    refine ⟨hd, fun p v hv => ?_, fun k hk => rfl⟩
    cases hv with
    | scalar h => simp [fieldsOf] at h
    | absent h => simp [fieldsOf] at h
    | object h => simp [fieldsOf] at h
    | node h => simp [fieldsOf] at h
    | item h => simp [fieldsOf] at h
  | .scalar n v rest, pre, data, hg, hd => by
    have hf : fieldsOf (.scalar n v rest) = fieldsOf (.scalar n v .nil) ++ fieldsOf rest := rfl
    refine Holds.combine hf hg (holds_set (n := n) (w := .scalar v) ?_ hd) (dictLoop_holds rest pre _ (good_rest hf hg) (hd.set _ _))
    intro p w
    constructor
    · intro hv
      cases hv with
      | scalar h => simp [fieldsOf] at h; obtain ⟨rfl, rfl⟩ := h; exact ⟨rfl, rfl⟩
      | absent h => simp [fieldsOf] at h
      | object h => simp [fieldsOf] at h
      | node h => simp [fieldsOf] at h
      | item h => simp [fieldsOf] at h
    · rintro ⟨rfl, rfl⟩; exact .scalar (by simp [fieldsOf])
  | .absent n rest, pre, data, hg, hd => by
    have hf : fieldsOf (.absent n rest) = fieldsOf (.absent n .nil : Obj V) ++ fieldsOf rest := rfl
    refine Holds.combine hf hg (holds_set (n := n) (w := .none) ?_ hd) (dictLoop_holds rest pre _ (good_rest hf hg) (hd.set _ _))
    intro p w
    constructor
    · intro hv
      cases hv with
      | scalar h => simp [fieldsOf] at h
      | absent h => simp [fieldsOf] at h; subst h; exact ⟨rfl, rfl⟩
      | object h => simp [fieldsOf] at h
      | node h => simp [fieldsOf] at h
      | item h => simp [fieldsOf] at h
    · rintro ⟨rfl, rfl⟩; exact .absent (by simp [fieldsOf])
  | .node n sub rest, pre, data, hg, hd => by
    have hf : fieldsOf (.node n sub rest) = fieldsOf (.node n sub .nil) ++ fieldsOf rest := rfl
    have hmem : (n, FVal.node sub) ∈ fieldsOf (.node n sub rest) := by simp [fieldsOf]
    have hgs : Good sub := by cases hg with | mk _ _ g3 _ => exact g3 _ _ hmem
    have hn : n ≠ [] ∧ '-' ∉ n := by cases hg with | mk _ g2 _ _ => exact g2 n (List.mem_map_of_mem (f := (·.1)) hmem)
    have hc : combining (pre ++ n) = pre ++ n ++ ['-'] := by simp [combining, hn.1]
    have ih := dictLoop_holds sub (combining (pre ++ n)) [] hgs (by simp [Dict.Wf, Dict.keys])
    rw [hc] at ih
    have hw1 : (data.update (dictLoop sub (combining (pre ++ n)) [])).Wf := hd.update _
    refine Holds.combine hf hg ?_ (dictLoop_holds rest pre _ (good_rest hf hg) (hw1.set _ _))
    rw [hc] at hw1 ⊢
    have key : ∀ p : List Str, p ≠ [] → pre ++ dashed (n :: p) = pre ++ n ++ ['-'] ++ dashed p := fun p hp => by rw [dashed_cons hp]; simp
    refine ⟨hw1.set _ _, fun p v hv => ?_, fun k hk => ?_⟩
    · have hv0 := (value_split hf).2 (Or.inl hv)
      cases hv with
      | scalar h => simp [fieldsOf] at h
      | absent h => simp [fieldsOf] at h
      | object h =>
        simp [fieldsOf] at h; obtain ⟨rfl, rfl⟩ := h
        rw [show dashed [_] = _ from List.intercalate_singleton, Dict.get?_set, if_pos rfl]
      | @node _ n' sub' p' _ h h2 =>
        simp [fieldsOf] at h; obtain ⟨rfl, rfl⟩ := h
        have hp' := value_ne_nil h2
        rw [Dict.get?_set, if_neg, Dict.get?_update _ ih.wf, key p' hp', ih.new _ _ h2]; rfl
        intro e
        have e2 : dashed (n' :: p') = dashed [n'] := by rw [show dashed [n'] = n' from List.intercalate_singleton]; exact List.append_cancel_left e
        have := dashed_inj (value_plain hv0 hg) (by simpa using hn.2) (by simp) (by simp) e2
        simp at this; exact hp' this
      | item h => simp [fieldsOf] at h
    · have h1 : k ≠ pre ++ n := by
        have := hk [n] (.obj sub) (.object (by simp [fieldsOf]))
        rwa [show dashed [n] = n from List.intercalate_singleton] at this
      rw [Dict.get?_set, if_neg h1, Dict.get?_update _ ih.wf, ih.old k]
      · rfl
      · intro p v hv
        have := hk (n :: p) v (.node (by simp [fieldsOf]) hv)
        rwa [key p (value_ne_nil hv)] at this
  | .list n l rest, pre, data, hg, hd => by
    have hf : fieldsOf (.list n l rest) = fieldsOf (.list n l .nil) ++ fieldsOf rest := rfl
    have hmem : (n, FVal.list (items l)) ∈ fieldsOf (.list n l rest) := by simp [fieldsOf]
    have hgs : ∀ sub ∈ items l, Good sub := by cases hg with | mk _ _ _ g4 => exact g4 _ _ hmem
    have ih := itemsLoop_holds l (pre ++ n) 0 data hgs hd
    refine Holds.combine hf hg ?_ (dictLoop_holds rest pre _ (good_rest hf hg) ih.wf)
    have key : ∀ (q : List Str), q ≠ [] → pre ++ dashed (n :: q) = pre ++ n ++ '-' :: dashed q := fun q hq => by rw [dashed_cons hq]; simp
    refine ⟨ih.wf, fun p v hv => ?_, fun k hk => ?_⟩
    · cases hv with
      | scalar h => simp [fieldsOf] at h
      | absent h => simp [fieldsOf] at h
      | object h => simp [fieldsOf] at h
      | node h => simp [fieldsOf] at h
      | item h h1 h2 =>
        simp [fieldsOf] at h; obtain ⟨rfl, rfl⟩ := h
        rw [key _ (by simp)]
        have := ih.new _ _ _ _ h1 h2
        rwa [Nat.zero_add] at this
    · refine ih.old k (fun j sub p v h1 h2 => ?_)
      have := hk _ v (.item (by simp [fieldsOf]; rfl) h1 h2)
      rwa [key _ (by simp), ← Nat.zero_add j] at this
theorem itemsLoop_holds {V : Type} : ∀ (l : Objs V) (pre : Str) (i : Nat) (data : Dict Str (Stored V)), (∀ sub ∈ items l, Good sub) → data.Wf →
    HoldsItems l pre i data (itemsLoop l pre i data)
  | .nil, pre, i, data, _, hd => ⟨hd, fun j sub p v h => by simp [items] at h, fun k _ => rfl⟩
  | .cons o l, pre, i, data, hg, hd => by
    have hgo : Good o := hg o (by simp [items])
    have hc : combining (pre ++ '-' :: natStr i) = pre ++ '-' :: natStr i ++ ['-'] := by simp [combining]
    have ih1 := dictLoop_holds o (combining (pre ++ '-' :: natStr i)) [] hgo (by simp [Dict.Wf, Dict.keys])
    have ih2 := itemsLoop_holds l pre (i + 1) (data.update (dictLoop o (combining (pre ++ '-' :: natStr i)) [])) (fun s hs => hg s (by simp [items, hs])) (hd.update _)
    rw [itemsLoop]
    rw [hc] at ih1 ih2 ⊢
    have key : ∀ p : List Str, p ≠ [] → pre ++ '-' :: dashed (natStr i :: p) = pre ++ '-' :: natStr i ++ ['-'] ++ dashed p := fun p hp => by rw [dashed_cons hp]; simp
    have pl : ∀ (a : Nat) (p : List Str), (∀ c ∈ p, '-' ∉ c) → ∀ c ∈ natStr a :: p, '-' ∉ c := by
      intro a p hp c hc
      rcases List.mem_cons.1 hc with rfl | hc
      · exact digit_ne_dash
      · exact hp c hc
    refine ⟨ih2.wf, fun j sub p v h1 h2 => ?_, fun k hk => ?_⟩
    · cases j with
      | zero =>
        simp [items] at h1; subst h1
        simp only [Nat.add_zero]
        rw [ih2.old, Dict.get?_update _ ih1.wf, key p (value_ne_nil h2), ih1.new p v h2]; rfl
        intro j sub' p' v' h1' h2' e
        have hgs : Good sub' := hg sub' (by simp only [items]; exact List.mem_cons_of_mem _ (List.mem_of_getElem? h1'))
        have := dashed_inj (pl _ _ (value_plain h2 hgo)) (pl _ _ (value_plain h2' hgs)) (by simp) (by simp) (by simpa using List.append_cancel_left e)
        simp at this
        have := natStr_inj this.1
        omega
      | succ j =>
        have := ih2.new j sub p v (by simpa [items] using h1) h2
        rwa [show i + 1 + j = i + (j + 1) by omega] at this
    · rw [ih2.old k, Dict.get?_update _ ih1.wf, ih1.old k]
      · rfl
      · intro p v hv
        have := hk 0 o p v (by simp [items]) hv
        rwa [Nat.add_zero, key p (value_ne_nil hv)] at this
      · intro j sub p v h1 h2
        have := hk (j + 1) sub p v (by simpa [items] using h1) h2
        rwa [show i + 1 + j = i + (j + 1) by omega]
end

theorem filterTop_fields {V : Type} (fields exclude : List Str) : ∀ o : Obj V, fieldsOf (filterTop fields exclude o) = (fieldsOf o).filter (fun p => filterTop.keep fields exclude p.1)
  | .nil => rfl
  | .scalar n v r => by
    have := filterTop_fields fields exclude r
    simp only [filterTop, fieldsOf, List.filter_cons]
    by_cases h : filterTop.keep fields exclude n = true
    · simp only [if_pos h, fieldsOf, this]
    · simp only [if_neg h, this]
  | .absent n r => by
    have := filterTop_fields fields exclude r
    simp only [filterTop, fieldsOf, List.filter_cons]
    by_cases h : filterTop.keep fields exclude n = true
    · simp only [if_pos h, fieldsOf, this]
    · simp only [if_neg h, this]
  | .node n s r => by
    have := filterTop_fields fields exclude r
    simp only [filterTop, fieldsOf, List.filter_cons]
    by_cases h : filterTop.keep fields exclude n = true
    · simp only [if_pos h, fieldsOf, this]
    · simp only [if_neg h, this]
  | .list n s r => by
    have := filterTop_fields fields exclude r
    simp only [filterTop, fieldsOf, List.filter_cons]
    by_cases h : filterTop.keep fields exclude n = true
    · simp only [if_pos h, fieldsOf, this]
    · simp only [if_neg h, this]

theorem filterTop_good {V : Type} (fields exclude : List Str) {o : Obj V} (hg : Good o) : Good (filterTop fields exclude o) := by
  cases hg with | mk g1 g2 g3 g4 =>
  have hf := filterTop_fields fields exclude o
  have hsub : (fieldsOf (filterTop fields exclude o)).Sublist (fieldsOf o) := by rw [hf]; exact List.filter_sublist
  exact ⟨(hsub.map _).nodup g1, fun n hn => g2 n ((hsub.map _).subset hn), fun n s hs => g3 n s (hsub.subset hs), fun n l hl => g4 n l (hsub.subset hl)⟩

/-- The arguments `fields` and `exclude` let a top-level field through. -/
def Shown (fields exclude : List Str) (n : Str) : Prop := (fields ≠ [] → n ∈ fields) ∧ n ∉ exclude

theorem keep_iff (fields exclude : List Str) (n : Str) : filterTop.keep fields exclude n = true ↔ Shown fields exclude n := by
  unfold filterTop.keep Shown
  by_cases h1 : fields = [] <;> by_cases h2 : exclude = [] <;> simp [h1, h2]

theorem filterTop_value {V : Type} (fields exclude : List Str) {o : Obj V} {p : List Str} {v : Stored V} :
    Value (filterTop fields exclude o) p v ↔ Value o p v ∧ ∃ n q, p = n :: q ∧ Shown fields exclude n := by
  have hm : ∀ n f, (n, f) ∈ fieldsOf (filterTop fields exclude o) ↔ (n, f) ∈ fieldsOf o ∧ Shown fields exclude n := by
    intro n f; rw [filterTop_fields, List.mem_filter, keep_iff]
  constructor
  · intro h
    cases h with
    | scalar h => exact ⟨.scalar ((hm _ _).1 h).1, _, _, rfl, ((hm _ _).1 h).2⟩
    | absent h => exact ⟨.absent ((hm _ _).1 h).1, _, _, rfl, ((hm _ _).1 h).2⟩
    | object h => exact ⟨.object ((hm _ _).1 h).1, _, _, rfl, ((hm _ _).1 h).2⟩
    | node h h2 => exact ⟨.node ((hm _ _).1 h).1 h2, _, _, rfl, ((hm _ _).1 h).2⟩
    | item h h2 h3 => exact ⟨.item ((hm _ _).1 h).1 h2 h3, _, _, rfl, ((hm _ _).1 h).2⟩
  · rintro ⟨h, n, q, e, hs⟩
    cases h with
    | scalar h => simp at e; obtain ⟨rfl, _⟩ := e; exact .scalar ((hm _ _).2 ⟨h, hs⟩)
    | absent h => simp at e; obtain ⟨rfl, _⟩ := e; exact .absent ((hm _ _).2 ⟨h, hs⟩)
    | object h => simp at e; obtain ⟨rfl, _⟩ := e; exact .object ((hm _ _).2 ⟨h, hs⟩)
    | node h h2 => simp at e; obtain ⟨rfl, _⟩ := e; exact .node ((hm _ _).2 ⟨h, hs⟩) h2
    | item h h2 h3 => simp at e; obtain ⟨rfl, _⟩ := e; exact .item ((hm _ _).2 ⟨h, hs⟩) h2 h3

/-! ### C50 -/

/-- The dictionary has exactly the values of the object tree (of the fields that are let through), each under the key made of its way, after the
prefix. -/
theorem C50_keys {V : Type} (o : Obj V) (hg : Good o) (fields exclude : List Str) (pre : Str) (k : Str) (v : Stored V) :
    (xmlobjectToDict o fields exclude pre).get? k = some v ↔
      ∃ n q, Value o (n :: q) v ∧ Shown fields exclude n ∧ k = (if pre = [] then dashed (n :: q) else pre ++ '-' :: dashed (n :: q)) := by
  have hpre : ∀ s, combining pre ++ s = if pre = [] then s else pre ++ '-' :: s := by
    intro s
    by_cases h : pre = [] <;> simp [combining, h]
  have hh := dictLoop_holds (filterTop fields exclude o) (combining pre) [] (filterTop_good fields exclude hg) (by simp [Dict.Wf, Dict.keys])
  unfold xmlobjectToDict
  constructor
  · intro h
    by_cases hx : ∃ path w, Value (filterTop fields exclude o) path w ∧ k = combining pre ++ dashed path
    · obtain ⟨path, w, h1, rfl⟩ := hx
      rw [hh.new path w h1] at h
      simp only [Option.some.injEq] at h; subst h
      obtain ⟨h2, n, q, rfl, h3⟩ := (filterTop_value fields exclude).1 h1
      exact ⟨n, q, h2, h3, hpre _⟩
    · rw [hh.old k (fun p w h1 e => hx ⟨p, w, h1, e⟩)] at h
      simp [Dict.get?] at h
  · rintro ⟨n, q, h1, h2, rfl⟩
    rw [← hpre]
    exact hh.new _ _ ((filterTop_value fields exclude).2 ⟨h1, n, q, rfl, h2⟩)

/-- No two values share a key. -/
theorem C50_unambiguous {V : Type} (o : Obj V) (hg : Good o) (p q : List Str) (v w : Stored V) (hp : Value o p v) (hq : Value o q w) (h : dashed p = dashed q) : p = q ∧ v = w := by
  have := dashed_inj (value_plain hp hg) (value_plain hq hg) (value_ne_nil hp) (value_ne_nil hq) h
  subst this
  exact ⟨rfl, value_unique hp hg hq⟩

/-- A tree with a sub-object and a list. -/
def sampleObj : Obj Nat := .scalar c%"id" 7 (.node c%"child" (.scalar c%"id" 8 .nil) (.absent c%"other" (.list c%"parts" (.cons (.scalar c%"id" 9 .nil) (.cons (.scalar c%"id" 10 .nil) .nil)) .nil)))

theorem good_single (n : Str) (v : Nat) (h1 : n ≠ []) (h2 : '-' ∉ n) : Good (Obj.scalar n v .nil) :=
  ⟨by simp [fieldsOf], by simp [fieldsOf, h1, h2], by simp [fieldsOf], by simp [fieldsOf]⟩

theorem sampleObj_good : Good sampleObj := by
  have h := fun v => good_single c%"id" v (by decide) (by decide)
  refine ⟨by decide, ?_, ?_, ?_⟩
  · intro n hn
    change n ∈ [c%"id", c%"child", c%"other", c%"parts"] at hn
    revert n; decide
  · intro n sub hs
    simp only [sampleObj, fieldsOf, List.mem_cons, Prod.mk.injEq, reduceCtorEq, and_false, FVal.node.injEq, false_or, List.not_mem_nil, or_false] at hs
    rw [hs.2]; exact h 8
  · intro n l hl sub hs
    simp only [sampleObj, fieldsOf, List.mem_cons, Prod.mk.injEq, reduceCtorEq, and_false, FVal.list.injEq, false_or, List.not_mem_nil, or_false] at hl
    rw [hl.2] at hs
    simp only [items, List.mem_cons, List.not_mem_nil, or_false] at hs
    rcases hs with rfl | rfl
    · exact h 9
    · exact h 10

example : (xmlobjectToDict sampleObj [] [] []).keys = [c%"id", c%"child-id", c%"child", c%"other", c%"parts-0-id", c%"parts-1-id"] := by decide
example : (xmlobjectToDict sampleObj [c%"child", c%"id"] [c%"id"] c%"x").keys = [c%"x-child-id", c%"x-child"] := by decide

/-- Counterexample with a `-` in a name: two values share a key, and one is lost. -/
theorem C50_counterexample_dash : (xmlobjectToDict (V := Nat) (.scalar c%"a-b" 1 (.node c%"a" (.scalar c%"b" 2 .nil) .nil)) [] [] []).keys = [c%"a-b", c%"a"] := by decide

/-- C50 applied to the sample object. -/
example := C50_keys sampleObj sampleObj_good [c%"child", c%"id"] [c%"id"] c%"x" c%"x-child-id"

end Props
