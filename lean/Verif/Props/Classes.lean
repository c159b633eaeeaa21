import Verif.Core.ClassLemmas
/-
Properties C37, C65, C66: the field table of a class, schema fields, self-referential fields.

Model: Verif/Core/Classes.lean.
-/
namespace Props
open Core Py

/-- Class `c` was created by a class statement whose body declares `x` to be a field. -/
def declaresField (env : Env) (c : Nat) (x : Str) : Prop := ∃ k f, env[c]? = some k ∧ k.fields ≠ none ∧ k.body.get? x = some (.field f)

/-- `d` is `c` itself or one of its base classes, at any distance. -/
inductive Ancestor (env : Env) : Nat → Nat → Prop
  | self {c} : Ancestor env c c
  | base {c k b d} : env[c]? = some k → b ∈ k.bases → Ancestor env b d → Ancestor env c d

theorem tableGet_eq {env : Env} {c : Nat} {k : Cls} (h : env[c]? = some k) (x : Str) : tableGet env c x = k.fields.bind (fun d => d.get? x) := by
  unfold tableGet fieldsOf; rw [h]; rfl

theorem wfEnv {lib env} (h : Reach lib env) : ∀ c F, fieldsOf env c = some F → Dict.Wf F := by
  intro b F hF
  unfold fieldsOf at hF
  cases he : env[b]? with
  | none => rw [he] at hF; simp at hF
  | some kb => rw [he] at hF; exact (reach_ok h b kb he).wf F hF

/-- C37.  The field table of a class contains exactly the names that the class or one of its base classes (at any distance) declares to be fields. -/
theorem C37_table_is_complete (lib : SchemaLib) (env : Env) (h : Reach lib env) (x : Str) : ∀ c k, env[c]? = some k →
    ((tableGet env c x).isSome = true ↔ ∃ d, Ancestor env c d ∧ declaresField env d x) := by
  intro c
  induction c using Nat.strongRecOn with
  | _ c ih =>
    intro k hk
    have ok := reach_ok h c k hk
    rw [tableGet_eq hk]
    have bases : ∀ b ∈ k.bases, (tableGet env b x).isSome = true ↔ ∃ d, Ancestor env b d ∧ declaresField env d x := by
      intro b hb
      obtain ⟨r, -, -, h3, -⟩ := ok.mro
      obtain ⟨kb, hkb, -⟩ := h3 b hb
      exact ih b (ok.bases_lt b hb) kb hkb
    have split : (∃ d, Ancestor env c d ∧ declaresField env d x) ↔ declaresField env c x ∨ ∃ b ∈ k.bases, (tableGet env b x).isSome = true := by
      constructor
      · rintro ⟨d, hd, hx⟩
        cases hd with
        | self => exact .inl hx
        | base hk' hb hd =>
          rw [hk] at hk'
          simp only [Option.some.injEq] at hk'
          subst hk'
          exact .inr ⟨_, hb, (bases _ hb).2 ⟨d, hd, hx⟩⟩
      · rintro (hx | ⟨b, hb, hx⟩)
        · exact ⟨c, .self, hx⟩
        · obtain ⟨d, hd, hdx⟩ := (bases b hb).1 hx
          exact ⟨d, .base hk hb hd, hdx⟩
    rw [split]
    cases hF : k.fields with
    | none =>
      simp only [Option.bind_none, Option.isSome_none, Bool.false_eq_true, false_iff, not_or, not_exists, not_and]
      refine ⟨?_, ?_⟩
      · rintro ⟨k', f, hk', hne, -⟩
        rw [hk] at hk'; simp only [Option.some.injEq] at hk'; subst hk'
        exact hne hF
      · intro b hb
        unfold tableGet
        rw [ok.plain hF b hb]; simp
    | some F =>
      simp only [Option.bind_some]
      rcases ok.fields F hF x with ⟨f0, f, h1, h2, -⟩ | ⟨h1, h2⟩
      · rw [h2]
        simp only [Option.isSome_some, true_iff]
        exact .inl ⟨k, f0, hk, by simp [hF], h1⟩
      · rw [h2, baseFields_get env (wfEnv h)]
        have hno : ¬ declaresField env c x := by
          rintro ⟨k', f, hk', -, hf⟩
          rw [hk] at hk'; simp only [Option.some.injEq] at hk'; subst hk'
          exact h1 f hf
        simp only [hno, false_or]
        rw [List.findSome?_isSome_iff]
        simp

/-- C37.  A field that the class declares itself overrides all inherited ones, and its table entry comes from its own declaration. -/
theorem C37_own_fields_win (lib : SchemaLib) (env : Env) (h : Reach lib env) (c : Nat) (k : Cls) (hk : env[c]? = some k) (hx : k.fields ≠ none)
    (x : Str) (f0 : Fld) (hf : k.body.get? x = some (.field f0)) :
    ∃ f name, tableGet env c x = some f ∧
      declared lib ((k.body.get? c%"XSD_SCHEMA").map Slot.value) (baseXsd env k.bases) name c f0 = .ok f ∧ (¬ c%"create_" <+: x → lookup env c x = some (.desc f)) := by
  have ok := reach_ok h c k hk
  cases hF : k.fields with
  | none => exact absurd hF hx
  | some F =>
    rcases ok.fields F hF x with ⟨f0', f, h1, h2, h3, name, h4⟩ | ⟨h1, h2⟩
    · rw [hf] at h1
      simp only [Option.some.injEq, Attr.field.injEq] at h1
      subst h1
      refine ⟨f, name, by rw [tableGet_eq hk, hF]; exact h2, h4, fun hn => ?_⟩
      obtain ⟨r, hr, -⟩ := ok.mro
      unfold lookup lookupIn
      rw [hk, Option.bind_some, hr, List.findSome?_cons, hk, Option.bind_some, h3 hn]
    · exact absurd hf (h1 f0)

/-- C37.  The method `create_x`: a class has it itself exactly if its body defines a field `x` that can create its node (a NodeField; not a NodeListField), and then it is for
the field of the table; what the class body itself calls `create_x` is left alone (and is excluded here). -/
theorem C37_create_method (lib : SchemaLib) (env : Env) (h : Reach lib env) (c : Nat) (k : Cls) (hk : env[c]? = some k) (hx : k.fields ≠ none)
    (x : Str) (hn : k.body.get? (c%"create_" ++ x) = none) :
    (∀ f0 f, k.body.get? x = some (.field f0) → tableGet env c x = some f → f.creates = true → lookup env c (c%"create_" ++ x) = some (.create f)) ∧
    ((∀ f0, k.body.get? x ≠ some (.field f0)) ∨ (∃ f, tableGet env c x = some f ∧ f.creates = false) → k.dict.get? (c%"create_" ++ x) = none) := by
  have ok := reach_ok h c k hk
  cases hF : k.fields with
  | none => exact absurd hF hx
  | some F =>
    have hc := ok.creates F hF x hn
    have ht : tableGet env c x = F.get? x := by rw [tableGet_eq hk, hF]; rfl
    constructor
    · intro f0 f h0 hf hcr
      rw [ownField, h0] at hc
      simp only at hc
      rw [← ht, hf, Option.bind_some, createSlot, if_pos hcr] at hc
      obtain ⟨r, hr, -⟩ := ok.mro
      unfold lookup lookupIn
      rw [hk, Option.bind_some, hr, List.findSome?_cons, hk, Option.bind_some, hc]
    · rintro (h0 | ⟨f, hf, hcr⟩)
      · rw [hc, ownField]
        split
        · rename_i f0 hb; exact absurd hb (h0 f0)
        · rfl
      · rw [hc, ownField]
        split
        · rw [← ht, hf, Option.bind_some, createSlot, hcr]; rfl
        · rfl

theorem findSome?_eq_find? {α : Type} (f : Nat → Option α) (l : List Nat) : l.findSome? f = (l.find? (fun d => (f d).isSome)).bind f := by
  induction l with
  | nil => rfl
  | cons a l ih =>
    rw [List.findSome?_cons, List.find?_cons]
    cases h : f a with
    | none => simp only [Option.isSome_none]; exact ih
    | some v => simp [h]

/-- No class gives the name another meaning: a class body that defines `x` defines a field, in a class made by the metaclass. -/
def OnlyField (env : Env) (x : Str) : Prop := ∀ (c : Nat) (k : Cls) (a : Attr), env[c]? = some k → k.body.get? x = some a → k.fields ≠ none ∧ ∃ f, a = .field f

/-- Wherever several bases of a class have the field `x`, it is the same field. -/
def BasesAgree (env : Env) (x : Str) : Prop := ∀ (c : Nat) (k : Cls) (b b' : Nat) (f f' : Fld), env[c]? = some k → b ∈ k.bases → b' ∈ k.bases →
  tableGet env b x = some f → tableGet env b' x = some f' → f = f'

/-- C37.  The table agrees with attribute access (along Python's method resolution order): `obj.x` uses the field that the table has for `x`, and there is no
such attribute if the table has none.  Needed: no class hides the field by something else, and several bases with the field share it (always so with single
inheritance); names that start with `create_` are used for generated methods. -/
theorem C37_table_agrees_with_lookup (lib : SchemaLib) (env : Env) (h : Reach lib env) (x : Str) (hx : ¬ c%"create_" <+: x) (ho : OnlyField env x)
    (ha : BasesAgree env x) : ∀ c k, env[c]? = some k → lookup env c x = (tableGet env c x).map Slot.desc := by
  intro c
  induction c using Nat.strongRecOn with
  | _ c ih =>
    intro k hk
    have ok := reach_ok h c k hk
    obtain ⟨r, hr, hn, h3, h4⟩ := ok.mro
    have hbase : ∀ b ∈ k.bases, ∃ kb, env[b]? = some kb ∧ kb.mro.Sublist r ∧ lookupIn env kb.mro x = (tableGet env b x).map Slot.desc := by
      intro b hb
      obtain ⟨kb, hkb, hs⟩ := h3 b hb
      refine ⟨kb, hkb, hs, ?_⟩
      have := ih b (ok.bases_lt b hb) kb hkb
      unfold lookup at this
      rw [hkb] at this
      exact this
    cases hd : k.body.get? x with
    | some a =>
      obtain ⟨hne, f0, rfl⟩ := ho c k a hk hd
      obtain ⟨f, -, h5, -, h6⟩ := C37_own_fields_win lib env h c k hk hne x f0 hd
      rw [h5, h6 hx]; rfl
    | none =>
      have hdict := ok.dict x hx hd
      have hlk : lookup env c x = lookupIn env r x := by
        unfold lookup lookupIn
        rw [hk, Option.bind_some, hr, List.findSome?_cons, hk, Option.bind_some, hdict]
      rw [hlk]
      -- the table
      have htab : (tableGet env c x = none ∧ ∀ b ∈ k.bases, tableGet env b x = none) ∨
          ∃ f, tableGet env c x = some f ∧ ∃ b ∈ k.bases, tableGet env b x = some f := by
        rw [tableGet_eq hk]
        cases hF : k.fields with
        | none =>
          refine .inl ⟨rfl, fun b hb => ?_⟩
          unfold tableGet; rw [ok.plain hF b hb]; rfl
        | some F =>
          simp only [Option.bind_some]
          rcases ok.fields F hF x with ⟨f0, f, h1, -⟩ | ⟨h1, h2⟩
          · rw [hd] at h1; simp at h1
          · rw [h2, baseFields_get env (wfEnv h)]
            cases hfs : k.bases.reverse.findSome? (fun b => tableGet env b x) with
            | none =>
              rw [List.findSome?_eq_none_iff] at hfs
              exact .inl ⟨rfl, fun b hb => hfs b (by simpa using hb)⟩
            | some f =>
              obtain ⟨b, hb, hbf⟩ := List.exists_of_findSome?_eq_some hfs
              exact .inr ⟨f, rfl, b, by simpa using hb, hbf⟩
      rcases htab with ⟨ht, hall⟩ | ⟨f, ht, b, hb, hbf⟩
      · rw [ht]
        show lookupIn env r x = none
        unfold lookupIn
        rw [List.findSome?_eq_none_iff]
        intro d hdr
        obtain ⟨b, hb, kb, hkb, hdb⟩ := h4 d hdr
        obtain ⟨kb', hkb', -, hl⟩ := hbase b hb
        rw [hkb] at hkb'
        simp only [Option.some.injEq] at hkb'
        subst hkb'
        rw [hall b hb] at hl
        unfold lookupIn at hl
        rw [Option.map_none, List.findSome?_eq_none_iff] at hl
        exact hl d hdb
      · rw [ht]
        -- some class in r has it
        obtain ⟨kb, hkb, hs, hl⟩ := hbase b hb
        rw [hbf] at hl
        unfold lookupIn at hl ⊢
        rw [findSome?_eq_find?] at hl ⊢
        cases hfind : r.find? (fun d => ((env[d]?).bind (fun c => c.dict.get? x)).isSome) with
        | none =>
          exfalso
          rw [List.find?_eq_none] at hfind
          have : kb.mro.find? (fun d => ((env[d]?).bind (fun c => c.dict.get? x)).isSome) = none :=
            List.find?_eq_none.2 (fun d hd => hfind d (hs.subset hd))
          rw [this] at hl
          simp at hl
        | some d =>
          have hdr := List.mem_of_find?_eq_some hfind
          obtain ⟨b', hb', kb', hkb', hdb'⟩ := h4 d hdr
          obtain ⟨kb'', hkb'', hs', hl'⟩ := hbase b' hb'
          rw [hkb'] at hkb''
          simp only [Option.some.injEq] at hkb''
          subst hkb''
          have hfind' := find?_sublist hs' hn hfind hdb'
          unfold lookupIn at hl'
          rw [findSome?_eq_find?, hfind', Option.bind_some] at hl'
          rw [Option.bind_some, hl']
          cases hb'f : tableGet env b' x with
          | none =>
            exfalso
            rw [hb'f] at hl'
            have := List.find?_some hfind
            rw [hl'] at this
            simp at this
          | some f' => rw [ha c k b b' f f' hk hb hb' hbf hb'f]

/-- With single inheritance bases always agree. -/
theorem single_inheritance_agrees (env : Env) (x : Str) (h : ∀ (c : Nat) (k : Cls), env[c]? = some k → k.bases.length ≤ 1) : BasesAgree env x := by
  intro c k b b' f f' hk hb hb' h1 h2
  have := h c k hk
  match hbs : k.bases, this with
  | [], _ => rw [hbs] at hb; simp at hb
  | [b0], _ =>
    rw [hbs] at hb hb'
    simp only [List.mem_singleton] at hb hb'
    subst hb hb'
    rw [h1] at h2
    simpa using h2

/-- A library without schemas. -/
def noSchemas : SchemaLib := ⟨Unit, fun _ => .error .ioError, fun _ f => .ok f⟩

/-- Run class statements. -/
def run (stmts : List (Bool × Str × List Nat × Dict Str Attr)) : Env :=
  stmts.foldl (fun env s => match classStmt noSchemas env s.1 s.2.1 s.2.2.1 s.2.2.2 with
    | .ok c => env ++ [c]
    | .error _ => env) []

/-- XmlObject; A(XmlObject) with x, y; B(A) overriding x. -/
def sampleEnv : Env := run [(true, c%"XmlObject", [], []), (false, c%"A", [0], [(c%"x", .field ⟨1, 1, none, none, false⟩), (c%"y", .field ⟨2, 2, none, none, false⟩)]),
  (false, c%"B", [1], [(c%"x", .field ⟨3, 3, none, none, false⟩)])]

/-- `run` reaches environments. -/
theorem run_reach (stmts : List (Bool × Str × List Nat × Dict Str Attr)) (hw : ∀ s ∈ stmts, Dict.Wf s.2.2.2)
    (hb : ∀ i s, stmts[i]? = some s → ∀ b ∈ s.2.2.1, b < (run (stmts.take i)).length) : Reach noSchemas (run stmts) := by
  induction stmts using List.reverseRecOn with
  | nil => exact .nil
  | append_singleton ss s ih =>
    have hrun : run (ss ++ [s]) = match classStmt noSchemas (run ss) s.1 s.2.1 s.2.2.1 s.2.2.2 with
        | .ok c => run ss ++ [c]
        | .error _ => run ss := by
      unfold run; rw [List.foldl_append]; rfl
    have ih' := ih (fun t ht => hw t (by simp [ht])) (fun i t ht b hbt => by
      have hlt : i < ss.length := (List.getElem?_eq_some_iff.1 ht).1
      have := hb i t (by rw [List.getElem?_append_left hlt]; exact ht) b hbt
      rwa [List.take_append_of_le_length (by omega)] at this)
    rw [hrun]
    cases hc : classStmt noSchemas (run ss) s.1 s.2.1 s.2.2.1 s.2.2.2 with
    | error e => exact ih'
    | ok c =>
      refine .step ih' ?_ (hw s (by simp)) hc
      have := hb ss.length s (by simp)
      rwa [List.take_left] at this

theorem sampleEnv_reach : Reach noSchemas sampleEnv := by
  apply run_reach
  · decide
  · intro i s hi b hb
    match i, hi with
    | 0, hi => simp at hi; subst hi; simp at hb
    | 1, hi => simp at hi; subst hi; simp at hb; subst hb; decide
    | 2, hi => simp at hi; subst hi; simp at hb; subst hb; decide
    | i + 3, hi => simp at hi

/-- The hypotheses can be met: B has its own x and the y of A. -/
example : lookup sampleEnv 2 c%"x" = some (.desc ⟨3, 3, none, none, false⟩) ∧ lookup sampleEnv 2 c%"y" = some (.desc ⟨2, 2, none, none, false⟩) ∧
    (∀ k, sampleEnv[2]? = some k → lookup sampleEnv 2 c%"x" = (tableGet sampleEnv 2 c%"x").map Slot.desc) := by
  refine ⟨by decide, by decide, fun k hk => ?_⟩
  refine C37_table_agrees_with_lookup noSchemas sampleEnv sampleEnv_reach c%"x" (by decide) ?_ (single_inheritance_agrees _ _ ?_) 2 k hk
  · intro c k a hk ha
    match c, hk with
    | 0, hk =>
      have : k = sampleEnv[0]'(by decide) := by rw [← Option.some.injEq, ← hk]; exact List.getElem?_eq_getElem _
      subst this
      have h1 : (sampleEnv[0]'(by decide)).body.get? c%"x" = none := by decide
      rw [h1] at ha; simp at ha
    | 1, hk =>
      have : k = sampleEnv[1]'(by decide) := by rw [← Option.some.injEq, ← hk]; exact List.getElem?_eq_getElem _
      subst this
      have h1 : (sampleEnv[1]'(by decide)).body.get? c%"x" = some (.field ⟨1, 1, none, none, false⟩) := by decide
      rw [h1] at ha; simp only [Option.some.injEq] at ha
      refine ⟨by decide, _, ha.symm⟩
    | 2, hk =>
      have : k = sampleEnv[2]'(by decide) := by rw [← Option.some.injEq, ← hk]; exact List.getElem?_eq_getElem _
      subst this
      have h1 : (sampleEnv[2]'(by decide)).body.get? c%"x" = some (.field ⟨3, 3, none, none, false⟩) := by decide
      rw [h1] at ha; simp only [Option.some.injEq] at ha
      refine ⟨by decide, _, ha.symm⟩
    | c + 3, hk => 
      have : sampleEnv[c + 3]? = none := List.getElem?_eq_none (by have : sampleEnv.length = 3 := by decide
                                                                   omega)
      rw [this] at hk; simp at hk
  · intro c k hk
    match c, hk with
    | 0, hk => 
      have : k = sampleEnv[0]'(by decide) := by rw [← Option.some.injEq, ← hk]; exact List.getElem?_eq_getElem _
      subst this; decide
    | 1, hk =>
      have : k = sampleEnv[1]'(by decide) := by rw [← Option.some.injEq, ← hk]; exact List.getElem?_eq_getElem _
      subst this; decide
    | 2, hk =>
      have : k = sampleEnv[2]'(by decide) := by rw [← Option.some.injEq, ← hk]; exact List.getElem?_eq_getElem _
      subst this; decide
    | c + 3, hk => 
      have : sampleEnv[c + 3]? = none := List.getElem?_eq_none (by have : sampleEnv.length = 3 := by decide
                                                                   omega)
      rw [this] at hk; simp at hk

/-- A NodeField and a NodeListField: only the first has a `create_` method, in the class and in subclasses. -/
example :
    let env := run [(true, c%"XmlObject", [], []), (false, c%"A", [0], [(c%"x", .field ⟨1, 1, some (.name c%"self"), none, true⟩), (c%"xs", .field ⟨2, 2, some (.name c%"self"), none, false⟩)]),
      (false, c%"B", [1], [])]
    lookup env 2 c%"create_x" = some (.create ⟨1, 1, some (.cls 1), none, true⟩) ∧ lookup env 2 c%"create_xs" = none ∧ (lookup env 2 c%"xs").isSome = true := by decide

/-- Counterexample with two bases: in the diamond D(B, C), B(A), C(A) with x in A overridden in B, attribute access uses the field of B (method resolution order
D, B, C, A), the table (and so a form) the one of A. -/
theorem C37_counterexample_diamond :
    let env := run [(true, c%"XmlObject", [], []), (false, c%"A", [0], [(c%"x", .field ⟨1, 1, none, none, false⟩)]), (false, c%"B", [1], [(c%"x", .field ⟨2, 2, none, none, false⟩)]),
      (false, c%"C", [1], []), (false, c%"D", [2, 3], [])]
    (env[4]?).map Cls.mro = some [4, 2, 3, 1, 0] ∧ lookup env 4 c%"x" = some (.desc ⟨2, 2, none, none, false⟩) ∧ tableGet env 4 c%"x" = some ⟨1, 1, none, none, false⟩ := by decide

/-- Counterexample with hiding: `x = None` in a subclass removes the attribute's field from the objects but not from the table. -/
theorem C37_counterexample_hidden :
    let env := run [(true, c%"XmlObject", [], []), (false, c%"A", [0], [(c%"x", .field ⟨1, 1, none, none, false⟩)]), (false, c%"B", [1], [(c%"x", .none)])]
    lookup env 2 c%"x" = some (.value .none) ∧ tableGet env 2 c%"x" = some ⟨1, 1, none, none, false⟩ := by decide

/-! ### C65: schema fields -/

/-- No schema is named: the attribute is missing, `None` or the empty string. -/
def noSchema (o : Option Slot) : Prop := o = none ∨ o = some (.value .none) ∨ o = some (.value (.str []))

theorem slotTruthy_iff (o : Option Slot) : slotTruthy o = false ↔ noSchema o := by
  unfold slotTruthy noSchema
  split <;> simp_all

/-- C65.  With a single base, a schema field is resolved with the schema that `XSD_SCHEMA` of the new class names (its own or the inherited one): if the class
statement succeeds, the schema was loaded and `get_field` gave the field that is used.  If no schema is named the field is used as it is. -/
theorem C65_schema_of_class (lib : SchemaLib) (env : Env) (h : Reach lib env) (c : Nat) (k : Cls) (hk : env[c]? = some k) (hx : k.fields ≠ none)
    (b : Nat) (hb : k.bases = [b]) (hnf : ∀ f, k.body.get? c%"XSD_SCHEMA" ≠ some (.field f))
    (x : Str) (f0 : Fld) (hf : k.body.get? x = some (.field f0)) (hs : f0.schemaType ≠ none) :
    ∃ f f1 name, tableGet env c x = some f ∧ resolveNodeClass name c f1 = .ok f ∧
      (∀ s, lookup env c c%"XSD_SCHEMA" = some s → ¬ noSchema (some s) → ∃ sch, lib.load s = .ok sch ∧ lib.getField sch f0 = .ok f1) ∧
      (k.body.get? c%"XSD_SCHEMA" = none → noSchema (lookup env c c%"XSD_SCHEMA") → f1 = f0) := by
  obtain ⟨f, name, h1, h2, -⟩ := C37_own_fields_win lib env h c k hk hx x f0 hf
  have ok := reach_ok h c k hk
  obtain ⟨r, hr, hn, h3, h4⟩ := ok.mro
  -- attribute access along a single base
  have hlook : lookup env c c%"XSD_SCHEMA" = ((k.body.get? c%"XSD_SCHEMA").map Slot.value).or (lookup env b c%"XSD_SCHEMA") := by
    obtain ⟨kb, hkb, hsub⟩ := h3 b (by rw [hb]; simp)
    have hall : ∀ d ∈ r, d ∈ kb.mro := by
      intro d hd
      obtain ⟨b', hb', kb', hkb', hd'⟩ := h4 d hd
      rw [hb] at hb'; simp only [List.mem_singleton] at hb'; subst hb'
      rw [hkb] at hkb'; simp only [Option.some.injEq] at hkb'; subst hkb'
      exact hd'
    have hr' : lookupIn env r c%"XSD_SCHEMA" = lookupIn env kb.mro c%"XSD_SCHEMA" := by
      unfold lookupIn
      rw [findSome?_eq_find?, findSome?_eq_find?]
      cases hfind : r.find? (fun d => ((env[d]?).bind (fun c => c.dict.get? c%"XSD_SCHEMA")).isSome) with
      | none =>
        rw [List.find?_eq_none] at hfind
        rw [List.find?_eq_none.2 (fun d hd => hfind d (hsub.subset hd))]
      | some d => rw [find?_sublist hsub hn hfind (hall d (List.mem_of_find?_eq_some hfind))]
    have hlb : lookup env b c%"XSD_SCHEMA" = lookupIn env kb.mro c%"XSD_SCHEMA" := by unfold lookup; rw [hkb]; rfl
    rw [hlb, ← hr']
    unfold lookup
    rw [hk, Option.bind_some, hr]
    unfold lookupIn
    rw [List.findSome?_cons, hk, Option.bind_some]
    cases hbody : k.body.get? c%"XSD_SCHEMA" with
    | none => rw [ok.dict _ (by decide) hbody]; rfl
    | some a =>
      rw [ok.value _ (by decide) a hbody (fun f ha => hnf f (by rw [hbody, ha]))]; rfl
  have hbx : baseXsd env k.bases = lookup env b c%"XSD_SCHEMA" := by unfold baseXsd; rw [hb]; rfl
  rw [hbx] at h2
  unfold declared at h2
  cases hres : resolveSchema lib ((k.body.get? c%"XSD_SCHEMA").map Slot.value) (lookup env b c%"XSD_SCHEMA") f0 with
  | error e => rw [hres] at h2; simp at h2
  | ok f1 =>
    rw [hres] at h2
    refine ⟨f, f1, name, h1, h2, ?_, ?_⟩
    · intro s hs1 hs2
      rw [← slotTruthy_iff, Bool.not_eq_false] at hs2
      unfold resolveSchema at hres
      cases hst : f0.schemaType with
      | none => exact absurd hst hs
      | some t =>
        rw [hst] at hres
        rw [hlook] at hs1
        have hcond : ((k.body.get? c%"XSD_SCHEMA").map Slot.value).isSome = true ∨ slotTruthy (lookup env b c%"XSD_SCHEMA") = true := by
          cases hbody : k.body.get? c%"XSD_SCHEMA" with
          | some a => exact .inl rfl
          | none => rw [hbody] at hs1; right; rw [show lookup env b c%"XSD_SCHEMA" = some s from hs1]; exact hs2
        simp only at hres
        rw [if_pos hcond, hs1] at hres
        simp only at hres
        cases hl : lib.load s with
        | error e => rw [hl] at hres; simp at hres
        | ok sch => rw [hl] at hres; exact ⟨sch, rfl, hres⟩
    · intro hbody hsl
      rw [← slotTruthy_iff] at hsl
      unfold resolveSchema at hres
      cases hst : f0.schemaType with
      | none => exact absurd hst hs
      | some t =>
        rw [hst] at hres
        rw [hlook, hbody] at hsl
        rw [hbody] at hres
        simp only at hres
        rw [if_neg (by simpa using hsl)] at hres
        simp only [Except.ok.injEq] at hres
        exact hres.symm

/-- The hypotheses can be met: A(XmlObject) has the schema, B(A) a schema field. -/
def schemaLib : SchemaLib := ⟨Unit, fun _ => .ok (), fun _ f => .ok { f with schemaType := none }⟩

example : (do
    let x ← classStmt schemaLib [] true c%"XmlObject" [] [(c%"XSD_SCHEMA", .none)]
    let a ← classStmt schemaLib [x] false c%"A" [0] [(c%"XSD_SCHEMA", .str c%"a.xsd")]
    let b ← classStmt schemaLib [x, a] false c%"B" [1] [(c%"f", .field ⟨5, 5, none, some c%"t", false⟩)]
    pure (lookup [x, a, b] 2 c%"XSD_SCHEMA", tableGet [x, a, b] 2 c%"f") : Except PyErr _)
    = .ok (some (.value (.str c%"a.xsd")), some ⟨5, 5, none, none, false⟩) := by rfl

/-- Counterexample with two bases: only the last base is asked, so the schema of the first is not found, although `XSD_SCHEMA` of the new class is the one of the
first; the schema field is left unresolved (it has no manager and cannot be used). -/
theorem C65_counterexample_two_bases (lib : SchemaLib) (f : Fld) :
    let env := run [(true, c%"XmlObject", [], [(c%"XSD_SCHEMA", .none)]), (false, c%"A", [0], [(c%"XSD_SCHEMA", .str c%"a.xsd")]), (false, c%"B", [0], []),
      (false, c%"D", [1, 2], [])]
    lookup env 3 c%"XSD_SCHEMA" = some (.value (.str c%"a.xsd")) ∧ resolveSchema lib none (baseXsd env [1, 2]) f = .ok f := by
  refine ⟨by decide, ?_⟩
  have : slotTruthy (baseXsd (run [(true, c%"XmlObject", [], [(c%"XSD_SCHEMA", .none)]), (false, c%"A", [0], [(c%"XSD_SCHEMA", .str c%"a.xsd")]), (false, c%"B", [0], []),
      (false, c%"D", [1, 2], [])]) [1, 2]) = false := by decide
  unfold resolveSchema
  rw [this]
  cases f.schemaType <;> simp

/-! ### C66: self-referential fields -/

/-- C66.  A node field whose class is given as `'self'` or by the name of its own class refers to the new class; another name makes the class statement fail with
ValueError; a field given a class keeps it. -/
theorem C66_self_reference (lib : SchemaLib) (env : Env) (h : Reach lib env) (c : Nat) (k : Cls) (hk : env[c]? = some k) (hx : k.fields ≠ none) (x : Str) (f0 : Fld)
    (hf : k.body.get? x = some (.field f0)) (hs : f0.schemaType = none) :
    ∃ f, tableGet env c x = some f ∧ (∀ s, f0.nodeClass = some (.name s) → f.nodeClass = some (.cls c)) ∧
      ((∀ s, f0.nodeClass ≠ some (.name s)) → f = f0) := by
  obtain ⟨f, name, h1, h2, -⟩ := C37_own_fields_win lib env h c k hk hx x f0 hf
  refine ⟨f, h1, ?_⟩
  unfold declared resolveSchema at h2
  rw [hs] at h2
  simp only at h2
  unfold resolveNodeClass at h2
  constructor
  · intro s hn
    rw [hn] at h2
    simp only at h2
    split at h2
    · simp only [Except.ok.injEq] at h2; rw [← h2]
    · simp at h2
  · intro hn
    cases hc : f0.nodeClass with
    | none => rw [hc] at h2; simp only [Except.ok.injEq] at h2; exact h2.symm
    | some n =>
      cases n with
      | name s => exact absurd hc (hn s)
      | cls j => rw [hc] at h2; simp only [Except.ok.injEq] at h2; exact h2.symm

theorem C66_wrong_name (name : Str) (self : Nat) (f : Fld) (s : Str) (hf : f.nodeClass = some (.name s)) (h1 : s ≠ c%"self") (h2 : s ≠ name) :
    resolveNodeClass name self f = .error .valueError := by
  unfold resolveNodeClass; rw [hf]; simp only; rw [if_neg (by simp [h1, h2])]

/-- A concrete case: `Node(XmlObject)` with `child = NodeField('x', 'self')`, and a wrong name. -/
example : tableGet (run [(true, c%"XmlObject", [], []), (false, c%"N", [0], [(c%"child", .field ⟨1, 1, some (.name c%"self"), none, true⟩)])]) 1 c%"child"
      = some ⟨1, 1, some (.cls 1), none, true⟩ ∧
    classStmt noSchemas (run [(true, c%"XmlObject", [], [])]) false c%"N" [0] [(c%"child", .field ⟨1, 1, some (.name c%"Other"), none, true⟩)] matches .error .valueError := by
  constructor
  · decide
  · rfl

/-! ### the other theorems applied to the sample classes -/

example := C37_table_is_complete noSchemas sampleEnv sampleEnv_reach c%"y" 2 _ rfl
example := C37_own_fields_win noSchemas sampleEnv sampleEnv_reach 2 _ rfl (by decide) c%"x" _ rfl
example := C37_create_method noSchemas sampleEnv sampleEnv_reach 2 _ rfl (by decide) c%"x" (by decide)
example := C66_self_reference noSchemas sampleEnv sampleEnv_reach 2 _ rfl (by decide) c%"x" _ rfl rfl

end Props
