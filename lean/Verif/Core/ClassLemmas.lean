import Verif.Core.Classes
import Mathlib.Data.List.Induction
/-
Class creation: what holds of every class of a running program.
-/
namespace Core
open Py

/-! ### C3 -/

theorem pick_spec {all : List (List Nat)} : ∀ {ls : List (List Nat)} {h : Nat}, pick all ls = some h → (∀ l ∈ all, h ∉ l.tail) ∧ ∃ t, (h :: t) ∈ ls
  | [], h, hp => by simp [pick] at hp
  | [] :: ls, h, hp => by
    rw [pick] at hp
    obtain ⟨h1, t, h2⟩ := pick_spec hp
    exact ⟨h1, t, List.mem_cons_of_mem _ h2⟩
  | (x :: t) :: ls, h, hp => by
    rw [pick] at hp
    by_cases hc : (all.any fun l => l.tail.contains x) = true
    · rw [if_pos hc] at hp
      obtain ⟨h1, t', h2⟩ := pick_spec hp
      exact ⟨h1, t', List.mem_cons_of_mem _ h2⟩
    · rw [if_neg hc] at hp
      simp only [Option.some.injEq] at hp
      subst hp
      refine ⟨?_, t, by simp⟩
      intro l hl hx
      apply hc
      rw [List.any_eq_true]
      exact ⟨l, hl, by simpa using hx⟩

theorem merge_spec : ∀ {k : Nat} {ls : List (List Nat)} {r : List Nat}, merge k ls = some r →
    (∀ l ∈ ls, l.Sublist r) ∧ (∀ x ∈ r, ∃ l ∈ ls, x ∈ l) ∧ r.Nodup
  | 0, ls, r, h => by simp [merge] at h
  | k + 1, ls, r, h => by
    rw [merge] at h
    by_cases he : (ls.all List.isEmpty) = true
    · rw [if_pos he] at h
      simp only [Option.some.injEq] at h
      subst h
      refine ⟨fun l hl => ?_, by simp, List.nodup_nil⟩
      have := List.all_eq_true.1 he l hl
      simp only [List.isEmpty_iff] at this
      subst this; exact List.Sublist.slnil
    · rw [if_neg he] at h
      cases hp : pick ls ls with
      | none => rw [hp] at h; simp at h
      | some a =>
        rw [hp] at h
        simp only [Option.map_eq_some_iff] at h
        obtain ⟨r', hr', rfl⟩ := h
        obtain ⟨h1, t, h2⟩ := pick_spec hp
        obtain ⟨i1, i2, i3⟩ := merge_spec hr'
        have hsub : ∀ l ∈ ls, (if l.head? = some a then l.tail else l) ∈ dropHead a ls := fun l hl => List.mem_map.2 ⟨l, hl, rfl⟩
        refine ⟨fun l hl => ?_, fun x hx => ?_, ?_⟩
        · have := i1 _ (hsub l hl)
          by_cases hh : l.head? = some a
          · rw [if_pos hh] at this
            cases l with
            | nil => simp at hh
            | cons b l =>
              simp only [List.head?_cons, Option.some.injEq] at hh
              subst hh
              exact this.cons_cons b
          · rw [if_neg hh] at this
            exact this.cons a
        · rcases List.mem_cons.1 hx with rfl | hx
          · exact ⟨_, h2, by simp⟩
          · obtain ⟨l', hl', hx'⟩ := i2 x hx
            obtain ⟨l, hl, rfl⟩ := List.mem_map.1 hl'
            refine ⟨l, hl, ?_⟩
            by_cases hh : l.head? = some a
            · rw [if_pos hh] at hx'; exact List.mem_of_mem_tail hx'
            · rwa [if_neg hh] at hx'
        · rw [List.nodup_cons]
          refine ⟨fun ha => ?_, i3⟩
          obtain ⟨l', hl', hx'⟩ := i2 a ha
          obtain ⟨l, hl, rfl⟩ := List.mem_map.1 hl'
          by_cases hh : l.head? = some a
          · rw [if_pos hh] at hx'; exact h1 l hl hx'
          · rw [if_neg hh] at hx'
            cases l with
            | nil => simp at hx'
            | cons b l =>
              rcases List.mem_cons.1 hx' with rfl | hx'
              · simp at hh
              · exact h1 _ hl hx'

theorem find?_sublist {p : Nat → Bool} {l r : List Nat} (hs : l.Sublist r) (hn : r.Nodup) {d : Nat} (hf : r.find? p = some d) (hd : d ∈ l) :
    l.find? p = some d := by
  induction hs with
  | slnil => simp at hd
  | cons a hs ih =>
    rw [List.nodup_cons] at hn
    rw [List.find?_cons] at hf
    cases hp : p a with
    | true =>
      rw [hp] at hf
      simp only [Option.some.injEq] at hf
      subst hf
      exact absurd (hs.subset hd) hn.1
    | false => rw [hp] at hf; exact ih hn.2 hf hd
  | cons_cons a hs ih =>
    rw [List.nodup_cons] at hn
    rw [List.find?_cons] at hf ⊢
    cases hp : p a with
    | true => rw [hp] at hf; exact hf
    | false =>
      rw [hp] at hf
      simp only at hf ⊢
      rcases List.mem_cons.1 hd with rfl | hd
      · have := List.find?_some hf; rw [hp] at this; simp at this
      · exact ih hn.2 hf hd

/-! ### the fields of the bases -/

/-- `_fields` of a class, or nothing. -/
def fieldsOf (env : Env) (c : Nat) : Option (Dict Str Fld) := (env[c]?).bind Cls.fields

/-- A field in `_fields`. -/
def tableGet (env : Env) (c : Nat) (x : Str) : Option Fld := (fieldsOf env c).bind (fun d => d.get? x)

theorem baseFields_append (env : Env) (bs : List Nat) (b : Nat) :
    baseFields env (bs ++ [b]) = match fieldsOf env b with | some f => (baseFields env bs).update f | none => baseFields env bs := by
  unfold baseFields fieldsOf
  rw [List.foldl_append]
  rfl

theorem baseFields_wf (env : Env) (hw : ∀ c F, fieldsOf env c = some F → F.Wf) : ∀ bs, (baseFields env bs).Wf := by
  intro bs
  induction bs using List.reverseRecOn with
  | nil => exact List.nodup_nil
  | append_singleton bs b ih =>
    rw [baseFields_append]
    cases h : fieldsOf env b with
    | none => exact ih
    | some f => exact ih.update f

/-- The last base that has the field wins. -/
theorem baseFields_get (env : Env) (hw : ∀ c F, fieldsOf env c = some F → F.Wf) (x : Str) : ∀ bs,
    (baseFields env bs).get? x = bs.reverse.findSome? (fun b => tableGet env b x) := by
  intro bs
  induction bs using List.reverseRecOn with
  | nil => rfl
  | append_singleton bs b ih =>
    rw [baseFields_append, List.reverse_append, List.reverse_singleton, List.singleton_append, List.findSome?_cons]
    cases h : fieldsOf env b with
    | none =>
      have : tableGet env b x = none := by unfold tableGet; rw [h]; rfl
      rw [this]; exact ih
    | some f =>
      have : tableGet env b x = f.get? x := by unfold tableGet; rw [h]; rfl
      rw [this]
      simp only
      rw [Dict.get?_update _ (hw b f h), ih]
      cases f.get? x <;> rfl

/-! ### one class statement -/

/-- The field that a declaration gives. -/
def declared (lib : SchemaLib) (own base : Option Slot) (name : Str) (self : Nat) (f0 : Fld) : Except PyErr Fld :=
  match resolveSchema lib own base f0 with
  | .error e => .error e
  | .ok f1 => resolveNodeClass name self f1

theorem addAttrs_fields {lib own base name self} : ∀ {attrs : List (Str × Attr)} {use fields use' fields'}, Dict.Wf attrs →
    addAttrs lib own base name self attrs use fields = .ok (use', fields') → (fields.Wf → fields'.Wf) ∧ ∀ x,
    match Dict.get? attrs x with
    | some (.field f0) => ∃ f, declared lib own base name self f0 = .ok f ∧ fields'.get? x = some f
    | _ => fields'.get? x = fields.get? x
  | [], use, fields, use', fields', _, h => by
    simp only [addAttrs, Except.ok.injEq, Prod.mk.injEq] at h
    obtain ⟨rfl, rfl⟩ := h
    exact ⟨id, fun x => rfl⟩
  | (y, a) :: rest, use, fields, use', fields', hw, h => by
    have hw' : y ∉ Dict.keys rest ∧ Dict.Wf rest := by simpa [Dict.Wf, Dict.keys] using hw
    cases a with
    | field f0 =>
      rw [addAttrs] at h
      cases h1 : resolveSchema lib own base f0 with
      | error e => rw [h1] at h; simp at h
      | ok f1 =>
        rw [h1] at h
        simp only at h
        cases h2 : resolveNodeClass name self f1 with
        | error e => rw [h2] at h; simp at h
        | ok f =>
          rw [h2] at h
          obtain ⟨k1, k2⟩ := addAttrs_fields hw'.2 h
          refine ⟨fun hf => k1 (hf.set y f), fun x => ?_⟩
          have := k2 x
          rw [Dict.get?_cons]
          by_cases hx : x = y
          · subst hx
            rw [if_pos rfl]
            rw [(Dict.get?_none rest x).2 hw'.1] at this
            refine ⟨f, by unfold declared; rw [h1]; exact h2, ?_⟩
            rw [this, Dict.get?_set, if_pos rfl]
          · rw [if_neg hx]
            rw [Dict.get?_set, if_neg hx] at this
            exact this
    | str s =>
      rw [addAttrs] at h
      · obtain ⟨k1, k2⟩ := addAttrs_fields hw'.2 h
        refine ⟨k1, fun x => ?_⟩
        rw [Dict.get?_cons]
        by_cases hx : x = y
        · subst hx
          have := k2 x
          rw [(Dict.get?_none rest x).2 hw'.1] at this
          rw [if_pos rfl]; exact this
        · rw [if_neg hx]; exact k2 x
      · simp
    | none =>
      rw [addAttrs] at h
      · obtain ⟨k1, k2⟩ := addAttrs_fields hw'.2 h
        refine ⟨k1, fun x => ?_⟩
        rw [Dict.get?_cons]
        by_cases hx : x = y
        · subst hx
          have := k2 x
          rw [(Dict.get?_none rest x).2 hw'.1] at this
          rw [if_pos rfl]; exact this
        · rw [if_neg hx]; exact k2 x
      · simp
    | other k =>
      rw [addAttrs] at h
      · obtain ⟨k1, k2⟩ := addAttrs_fields hw'.2 h
        refine ⟨k1, fun x => ?_⟩
        rw [Dict.get?_cons]
        by_cases hx : x = y
        · subst hx
          have := k2 x
          rw [(Dict.get?_none rest x).2 hw'.1] at this
          rw [if_pos rfl]; exact this
        · rw [if_neg hx]; exact k2 x
      · simp

/-- `use` after one attribute other than a field. -/
theorem addAttrs_use {lib own base name self} {x : Str} (hx : ¬ c%"create_" <+: x) : ∀ {attrs : List (Str × Attr)} {use fields use' fields'}, Dict.Wf attrs →
    addAttrs lib own base name self attrs use fields = .ok (use', fields') →
    match Dict.get? attrs x with
    | some (.field f0) => ∃ f, declared lib own base name self f0 = .ok f ∧ use'.get? x = some (.desc f)
    | some a => use'.get? x = some (.value a)
    | none => use'.get? x = use.get? x
  | [], use, fields, use', fields', _, h => by
    simp only [addAttrs, Except.ok.injEq, Prod.mk.injEq] at h
    obtain ⟨rfl, rfl⟩ := h
    rfl
  | (y, a) :: rest, use, fields, use', fields', hw, h => by
    have hw' : y ∉ Dict.keys rest ∧ Dict.Wf rest := by simpa [Dict.Wf, Dict.keys] using hw
    have hplain : ∀ a : Attr, (∀ f, a ≠ .field f) → addAttrs lib own base name self rest (use.set y (.value a)) fields = .ok (use', fields') →
        match Dict.get? ((y, a) :: rest) x with
        | some (.field f0) => ∃ f, declared lib own base name self f0 = .ok f ∧ use'.get? x = some (.desc f)
        | some a => use'.get? x = some (.value a)
        | none => use'.get? x = use.get? x := by
      intro a ha h
      have := addAttrs_use hx hw'.2 h
      rw [Dict.get?_cons]
      by_cases hxy : x = y
      · subst hxy
        rw [if_pos rfl]
        rw [(Dict.get?_none rest x).2 hw'.1] at this
        simp only [Dict.get?_set, if_true] at this
        cases a with
        | field f => exact absurd rfl (ha f)
        | str s => exact this
        | none => exact this
        | other k => exact this
      · rw [if_neg hxy]
        rw [Dict.get?_set, if_neg hxy] at this
        exact this
    cases a with
    | field f0 =>
      rw [addAttrs] at h
      cases h1 : resolveSchema lib own base f0 with
      | error e => rw [h1] at h; simp at h
      | ok f1 =>
        rw [h1] at h
        simp only at h
        cases h2 : resolveNodeClass name self f1 with
        | error e => rw [h2] at h; simp at h
        | ok f =>
          rw [h2] at h
          have := addAttrs_use hx hw'.2 h
          rw [Dict.get?_cons]
          have hc : x ≠ c%"create_" ++ y := by rintro rfl; exact hx (List.prefix_append _ _)
          have hset : (if f.creates = true then (use.set y (.desc f)).set (c%"create_" ++ y) (.create f) else use.set y (.desc f)).get? x
              = if x = y then some (.desc f) else use.get? x := by
            by_cases hn : f.creates = true
            · rw [if_pos hn, Dict.get?_set, if_neg hc, Dict.get?_set]
            · rw [if_neg hn, Dict.get?_set]
          rw [hset] at this
          by_cases hxy : x = y
          · subst hxy
            rw [if_pos rfl]
            rw [(Dict.get?_none rest x).2 hw'.1, if_pos rfl] at this
            exact ⟨f, by unfold declared; rw [h1]; exact h2, this⟩
          · rw [if_neg hxy]
            rw [if_neg hxy] at this
            exact this
    | str s => rw [addAttrs] at h; exact hplain _ (by simp) h; simp
    | none => rw [addAttrs] at h; exact hplain _ (by simp) h; simp
    | other k => rw [addAttrs] at h; exact hplain _ (by simp) h; simp

/-- What `create_x` is after the attributes, if the class body does not say. -/
def createSlot (f : Fld) (old : Option Slot) : Option Slot := if f.creates then some (.create f) else old

/-- The `create_` method of a field. -/
theorem addAttrs_create {lib own base name self} {x : Str} : ∀ {attrs : List (Str × Attr)} {use fields use' fields'}, Dict.Wf attrs →
    Dict.get? attrs (c%"create_" ++ x) = none → addAttrs lib own base name self attrs use fields = .ok (use', fields') →
    match Dict.get? attrs x with
    | some (.field f0) => ∃ f, declared lib own base name self f0 = .ok f ∧ use'.get? (c%"create_" ++ x) = createSlot f (use.get? (c%"create_" ++ x))
    | _ => use'.get? (c%"create_" ++ x) = use.get? (c%"create_" ++ x)
  | [], use, fields, use', fields', _, _, h => by
    simp only [addAttrs, Except.ok.injEq, Prod.mk.injEq] at h
    obtain ⟨rfl, rfl⟩ := h
    rfl
  | (y, a) :: rest, use, fields, use', fields', hw, hn, h => by
    have hw' : y ∉ Dict.keys rest ∧ Dict.Wf rest := by simpa [Dict.Wf, Dict.keys] using hw
    rw [Dict.get?_cons] at hn
    have hcy : c%"create_" ++ x ≠ y := by intro he; rw [if_pos he] at hn; cases hn
    rw [if_neg hcy] at hn
    have hplain : ∀ a : Attr, (∀ f, a ≠ .field f) → addAttrs lib own base name self rest (use.set y (.value a)) fields = .ok (use', fields') →
        match Dict.get? ((y, a) :: rest) x with
        | some (.field f0) => ∃ f, declared lib own base name self f0 = .ok f ∧ use'.get? (c%"create_" ++ x) = createSlot f (use.get? (c%"create_" ++ x))
        | _ => use'.get? (c%"create_" ++ x) = use.get? (c%"create_" ++ x) := by
      intro a ha h
      have := addAttrs_create hw'.2 hn h
      rw [Dict.get?_set, if_neg hcy] at this
      rw [Dict.get?_cons]
      by_cases hxy : x = y
      · subst hxy
        rw [if_pos rfl]
        rw [(Dict.get?_none rest x).2 hw'.1] at this
        cases a with
        | field f => exact absurd rfl (ha f)
        | str s => exact this
        | none => exact this
        | other k => exact this
      · rw [if_neg hxy]
        exact this
    cases a with
    | field f0 =>
      rw [addAttrs] at h
      cases h1 : resolveSchema lib own base f0 with
      | error e => rw [h1] at h; simp at h
      | ok f1 =>
        rw [h1] at h
        simp only at h
        cases h2 : resolveNodeClass name self f1 with
        | error e => rw [h2] at h; simp at h
        | ok f =>
          rw [h2] at h
          have := addAttrs_create hw'.2 hn h
          rw [Dict.get?_cons]
          have hset : (if f.creates = true then (use.set y (.desc f)).set (c%"create_" ++ y) (.create f) else use.set y (.desc f)).get? (c%"create_" ++ x)
              = if x = y then createSlot f (use.get? (c%"create_" ++ x)) else use.get? (c%"create_" ++ x) := by
            unfold createSlot
            by_cases hxy : x = y
            · subst hxy
              by_cases hn : f.creates = true
              · rw [if_pos hn, Dict.get?_set, if_pos rfl, if_pos rfl, if_pos hn]
              · rw [if_neg hn, Dict.get?_set, if_neg hcy, if_pos rfl, if_neg hn]
            · have hne : c%"create_" ++ x ≠ c%"create_" ++ y := fun he => hxy (List.append_cancel_left he)
              by_cases hn : f.creates = true
              · rw [if_pos hn, Dict.get?_set, if_neg hne, Dict.get?_set, if_neg hcy, if_neg hxy]
              · rw [if_neg hn, Dict.get?_set, if_neg hcy, if_neg hxy]
          rw [hset] at this
          by_cases hxy : x = y
          · subst hxy
            rw [if_pos rfl]
            rw [(Dict.get?_none rest x).2 hw'.1, if_pos rfl] at this
            exact ⟨f, by unfold declared; rw [h1]; exact h2, this⟩
          · rw [if_neg hxy]
            rw [if_neg hxy] at this
            exact this
    | str s => rw [addAttrs] at h; exact hplain _ (by simp) h; simp
    | none => rw [addAttrs] at h; exact hplain _ (by simp) h; simp
    | other k => rw [addAttrs] at h; exact hplain _ (by simp) h; simp

/-! ### every class of a running program -/

/-- The field that a class body defines, as the class has it. -/
def ownField (body : Dict Str Attr) (F : Dict Str Fld) (x : Str) : Option Fld := match body.get? x with
  | some (.field _) => F.get? x
  | _ => none

/-- What holds of class number `c`. -/
structure ClsOk (lib : SchemaLib) (env : Env) (c : Nat) (k : Cls) : Prop where
  bases_lt : ∀ b ∈ k.bases, b < c
  mro : ∃ r, k.mro = c :: r ∧ r.Nodup ∧ (∀ b ∈ k.bases, ∃ kb, env[b]? = some kb ∧ kb.mro.Sublist r) ∧
    (∀ x ∈ r, ∃ b ∈ k.bases, ∃ kb, env[b]? = some kb ∧ x ∈ kb.mro)
  plain : k.fields = none → ∀ b ∈ k.bases, fieldsOf env b = none
  wf : ∀ F, k.fields = some F → F.Wf
  fields : ∀ F, k.fields = some F → ∀ x, (∃ f0 f, k.body.get? x = some (.field f0) ∧ F.get? x = some f ∧
      (¬ c%"create_" <+: x → k.dict.get? x = some (.desc f)) ∧
      ∃ name, declared lib ((k.body.get? c%"XSD_SCHEMA").map Slot.value) (baseXsd env k.bases) name c f0 = .ok f) ∨
    ((∀ f, k.body.get? x ≠ some (.field f)) ∧ F.get? x = (baseFields env k.bases).get? x)
  dict : ∀ x, ¬ c%"create_" <+: x → k.body.get? x = none → k.dict.get? x = none
  value : ∀ x, ¬ c%"create_" <+: x → ∀ a, k.body.get? x = some a → (∀ f, a ≠ .field f) → k.dict.get? x = some (.value a)
  bodyWf : k.body.Wf
  creates : ∀ F, k.fields = some F → ∀ x, k.body.get? (c%"create_" ++ x) = none → k.dict.get? (c%"create_" ++ x) =
    (ownField k.body F x).bind (fun f => createSlot f none)

theorem get?_append_lt {env : Env} {c : Cls} {b : Nat} (h : b < env.length) : (env ++ [c])[b]? = env[b]? := List.getElem?_append_left h

theorem fieldsOf_append {env : Env} {c : Cls} {b : Nat} (h : b < env.length) : fieldsOf (env ++ [c]) b = fieldsOf env b := by
  unfold fieldsOf; rw [get?_append_lt h]

theorem baseFields_env {env : Env} {c : Cls} {bs : List Nat} (h : ∀ b ∈ bs, b < env.length) : baseFields (env ++ [c]) bs = baseFields env bs := by
  induction bs using List.reverseRecOn with
  | nil => rfl
  | append_singleton bs b ih =>
    rw [baseFields_append, baseFields_append, fieldsOf_append (h b (by simp)), ih (fun x hx => h x (by simp [hx]))]

theorem lookupIn_env {env : Env} {c : Cls} {mro : List Nat} (h : ∀ d ∈ mro, d < env.length) (x : Str) : lookupIn (env ++ [c]) mro x = lookupIn env mro x := by
  unfold lookupIn
  induction mro with
  | nil => rfl
  | cons d r ih =>
    rw [List.findSome?_cons, List.findSome?_cons, get?_append_lt (h d (by simp)), ih (fun x hx => h x (by simp [hx]))]

theorem lookup_env {env : Env} {c : Cls} {b : Nat} (hb : b < env.length) (h : ∀ kb, env[b]? = some kb → ∀ d ∈ kb.mro, d < env.length) (x : Str) :
    lookup (env ++ [c]) b x = lookup env b x := by
  unfold lookup
  rw [get?_append_lt hb]
  cases he : env[b]? with
  | none => rfl
  | some kb => exact lookupIn_env (h kb he) x

theorem baseXsd_env {env : Env} {c : Cls} {bs : List Nat} (h : ∀ b ∈ bs, b < env.length)
    (hm : ∀ b ∈ bs, ∀ kb, env[b]? = some kb → ∀ d ∈ kb.mro, d < env.length) : baseXsd (env ++ [c]) bs = baseXsd env bs := by
  unfold baseXsd
  cases hl : bs.getLast? with
  | none => rfl
  | some b =>
    have hb := List.mem_of_getLast? hl
    exact lookup_env (h b hb) (hm b hb) _

theorem ClsOk.mono {lib env c k k'} (h : ClsOk lib env c k) (hc : c < env.length)
    (hm : ∀ b, b < env.length → ∀ kb, env[b]? = some kb → ∀ d ∈ kb.mro, d < env.length) : ClsOk lib (env ++ [k']) c k where
  bases_lt := h.bases_lt
  mro := by
    obtain ⟨r, h1, h2, h3, h4⟩ := h.mro
    refine ⟨r, h1, h2, fun b hb => ?_, fun x hx => ?_⟩
    · rw [get?_append_lt (by have := h.bases_lt b hb; omega)]; exact h3 b hb
    · obtain ⟨b, hb, kb, h5, h6⟩ := h4 x hx
      exact ⟨b, hb, kb, by rw [get?_append_lt (by have := h.bases_lt b hb; omega)]; exact h5, h6⟩
  plain := fun hf b hb => by rw [fieldsOf_append (by have := h.bases_lt b hb; omega)]; exact h.plain hf b hb
  wf := h.wf
  fields := fun F hF x => by
    rw [baseFields_env (fun b hb => by have := h.bases_lt b hb; omega), baseXsd_env (fun b hb => by have := h.bases_lt b hb; omega)]
    · exact h.fields F hF x
    · intro b hb kb hkb d hd
      exact hm b (by have := h.bases_lt b hb; omega) kb hkb d hd
  dict := h.dict
  value := h.value
  bodyWf := h.bodyWf
  creates := h.creates

theorem mroOf_spec {env bases r} (hb : ∀ b ∈ bases, b < env.length) (h : mroOf env bases = .ok r) :
    ∃ r', r = env.length :: r' ∧ r'.Nodup ∧ (∀ b ∈ bases, ∃ kb, env[b]? = some kb ∧ kb.mro.Sublist r') ∧
      (∀ x ∈ r', (∃ b ∈ bases, ∃ kb, env[b]? = some kb ∧ x ∈ kb.mro) ∨ x ∈ bases) := by
  unfold mroOf at h
  simp only at h
  split at h
  · rename_i r' hm
    simp only [Except.ok.injEq] at h
    obtain ⟨h1, h2, h3⟩ := merge_spec hm
    refine ⟨r', h.symm, h3, fun b hbm => ?_, fun x hx => ?_⟩
    · have hlt := hb b hbm
      refine ⟨env[b], List.getElem?_eq_getElem hlt, ?_⟩
      apply h1
      rw [List.mem_append]
      left
      rw [List.mem_map]
      exact ⟨b, hbm, by rw [List.getElem?_eq_getElem hlt]; rfl⟩
    · obtain ⟨l, hl, hxl⟩ := h2 x hx
      rw [List.mem_append] at hl
      rcases hl with hl | hl
      · obtain ⟨b, hbm, rfl⟩ := List.mem_map.1 hl
        have hlt := hb b hbm
        rw [List.getElem?_eq_getElem hlt] at hxl
        exact .inl ⟨b, hbm, env[b], List.getElem?_eq_getElem hlt, hxl⟩
      · simp only [List.mem_singleton] at hl
        subst hl
        exact .inr hxl
  · simp at h

/-- The invariant. -/
theorem reach_ok {lib env} (h : Reach lib env) : ∀ c k, env[c]? = some k → ClsOk lib env c k := by
  induction h with
  | nil => intro c k h; simp at h
  | @step env useMeta name bases attrs cls hr hb hw hs ih =>
    intro c k hk
    have hmlt : ∀ b, b < env.length → ∀ kb, env[b]? = some kb → ∀ d ∈ kb.mro, d < env.length := by
      intro b
      induction b using Nat.strongRecOn with
      | _ b ihb =>
        intro hb' kb hkb d hd
        have okb := ih b kb hkb
        obtain ⟨r, h1, -, -, h4⟩ := okb.mro
        rw [h1] at hd
        rcases List.mem_cons.1 hd with rfl | hd
        · exact hb'
        · obtain ⟨b2, hb2, kb2, h5, h6⟩ := h4 d hd
          have := okb.bases_lt b2 hb2
          exact ihb b2 this (by omega) kb2 h5 d h6
    by_cases hc : c < env.length
    · rw [get?_append_lt hc] at hk
      exact (ih c k hk).mono hc hmlt
    · have hlen : c < (env ++ [cls]).length := (List.getElem?_eq_some_iff.1 hk).1
      have hce : c = env.length := by simp at hlen; omega
      subst hce
      have hk' : cls = k := by simpa using hk
      subst hk'
      -- facts about bases
      have hself : ∀ b ∈ bases, ∀ kb, env[b]? = some kb → b ∈ kb.mro := by
        intro b hbm kb hkb
        obtain ⟨r, h1, -⟩ := (ih b kb hkb).mro
        rw [h1]; simp
      have hmroGen : ∀ mro, mroOf env bases = .ok mro → ∃ r, mro = env.length :: r ∧ r.Nodup ∧
          (∀ b ∈ bases, ∃ kb, (env ++ [cls])[b]? = some kb ∧ kb.mro.Sublist r) ∧
          (∀ x ∈ r, ∃ b ∈ bases, ∃ kb, (env ++ [cls])[b]? = some kb ∧ x ∈ kb.mro) := by
        intro mro hm
        obtain ⟨r, h1, h2, h3, h4⟩ := mroOf_spec hb hm
        refine ⟨r, h1, h2, fun b hbm => ?_, fun x hx => ?_⟩
        · rw [get?_append_lt (hb b hbm)]; exact h3 b hbm
        · rcases h4 x hx with ⟨b, hbm, kb, h5, h6⟩ | hxb
          · exact ⟨b, hbm, kb, by rw [get?_append_lt (hb b hbm)]; exact h5, h6⟩
          · have hlt := hb x hxb
            exact ⟨x, hxb, env[x], by rw [get?_append_lt hlt]; exact List.getElem?_eq_getElem hlt, hself x hxb _ (List.getElem?_eq_getElem hlt)⟩
      have hwfEnv : ∀ b F, fieldsOf env b = some F → F.Wf := by
        intro b F hF
        unfold fieldsOf at hF
        cases he : env[b]? with
        | none => rw [he] at hF; simp at hF
        | some kb => rw [he] at hF; exact (ih b kb he).wf F hF
      unfold classStmt at hs
      by_cases hm : useMeta = true ∨ bases.any (isXml env) = true
      · rw [if_pos hm] at hs
        unfold newXmlClass at hs
        cases ha : addAttrs lib ((Dict.get? attrs c%"XSD_SCHEMA").map Slot.value) (baseXsd env bases) name env.length attrs [] (baseFields env bases) with
        | error e => rw [ha] at hs; simp at hs
        | ok p =>
          obtain ⟨use, fields⟩ := p
          rw [ha] at hs
          simp only at hs
          cases hmro : mroOf env bases with
          | error e => rw [hmro] at hs; simp at hs
          | ok mro =>
            rw [hmro] at hs
            simp only [Except.ok.injEq] at hs
            obtain ⟨f1, f2⟩ := addAttrs_fields hw ha
            obtain hmr := hmroGen mro hmro
            subst hs
            refine ⟨hb, hmr, by simp, ?_, ?_, ?_, ?_, hw, ?_⟩
            · intro F hF
              simp only [Option.some.injEq] at hF
              subst hF
              exact f1 (baseFields_wf env hwfEnv bases)
            · intro F hF x
              simp only [Option.some.injEq] at hF
              subst hF
              simp only
              rw [baseFields_env hb, baseXsd_env hb (fun b hbm => hmlt b (hb b hbm))]
              have := f2 x
              cases hx : Dict.get? attrs x with
              | none => rw [hx] at this; exact .inr ⟨by simp [hx], this⟩
              | some a =>
                rw [hx] at this
                cases a with
                | field f0 =>
                  obtain ⟨f, hf1, hf2⟩ := this
                  refine .inl ⟨f0, f, rfl, hf2, fun hn => ?_, _, hf1⟩
                  have hu := addAttrs_use hn hw ha
                  rw [hx] at hu
                  obtain ⟨f', hf1', hf2'⟩ := hu
                  rw [hf1] at hf1'
                  simp only [Except.ok.injEq] at hf1'
                  subst hf1'
                  exact hf2'
                | str s => exact .inr ⟨by simp [hx], this⟩
                | none => exact .inr ⟨by simp [hx], this⟩
                | other j => exact .inr ⟨by simp [hx], this⟩
            · intro x hn hx
              have hu := addAttrs_use hn hw ha
              rw [hx] at hu
              exact hu
            · intro x hn a hx hne
              have hu := addAttrs_use hn hw ha
              have hx : Dict.get? attrs x = some a := hx
              rw [hx] at hu
              cases a with
              | field f => exact absurd rfl (hne f)
              | str s => exact hu
              | none => exact hu
              | other j => exact hu
            · intro F hF x hn
              simp only [Option.some.injEq] at hF
              subst hF
              have hn : Dict.get? attrs (c%"create_" ++ x) = none := hn
              have hu := addAttrs_create hw hn ha
              have h2 := f2 x
              show use.get? _ = (ownField attrs fields x).bind _
              unfold ownField
              cases hx : Dict.get? attrs x with
              | none => rw [hx] at hu; exact hu
              | some a =>
                rw [hx] at hu h2
                cases a with
                | field f0 =>
                  obtain ⟨f, hf1, hf2⟩ := h2
                  obtain ⟨f', hf1', hf2'⟩ := hu
                  rw [hf1] at hf1'
                  simp only [Except.ok.injEq] at hf1'
                  subst hf1'
                  simp only [hf2, Option.bind_some]
                  rw [hf2']; rfl
                | str s => exact hu
                | none => exact hu
                | other j => exact hu
      · rw [if_neg hm] at hs
        unfold newPlainClass at hs
        cases hmro : mroOf env bases with
        | error e => rw [hmro] at hs; simp at hs
        | ok mro =>
          rw [hmro] at hs
          simp only [Except.ok.injEq] at hs
          obtain hmr := hmroGen mro hmro
          subst hs
          refine ⟨hb, hmr, ?_, by simp, by simp, ?_, ?_, hw, by simp⟩
          · intro _ b hbm
            rw [fieldsOf_append (hb b hbm)]
            cases hf : fieldsOf env b with
            | none => rfl
            | some F =>
              exfalso
              apply hm
              right
              rw [List.any_eq_true]
              refine ⟨b, hbm, ?_⟩
              unfold isXml
              unfold fieldsOf at hf
              rw [hf]; rfl
          · intro x _ hx
            have hx : Dict.get? attrs x = none := hx
            show Dict.get? (attrs.map fun p => (p.1, Slot.value p.2)) x = none
            rw [Dict.get?_none] at hx ⊢
            simpa [Dict.keys] using hx
          · intro x _ a hx _
            have hx : Dict.get? attrs x = some a := hx
            show Dict.get? (attrs.map fun p => (p.1, Slot.value p.2)) x = some (.value a)
            clear * - hx
            induction attrs with
            | nil => simp [Dict.get?] at hx
            | cons p attrs ih =>
              obtain ⟨y, b⟩ := p
              rw [Dict.get?_cons] at hx
              rw [List.map_cons, Dict.get?_cons]
              by_cases hxy : x = y
              · rw [if_pos hxy] at hx ⊢; simp only [Option.some.injEq] at hx; rw [hx]
              · rw [if_neg hxy] at hx ⊢; exact ih hx

end Core
