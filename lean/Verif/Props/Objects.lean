import Verif.Core.Objects
import Mathlib.Data.List.Induction
/-
Properties C38-C43: namespace contexts, schema cache, validation, equality, emptiness, parser configuration.

Model: Verif/Core/Objects.lean.
-/
namespace Props
open Core Py Xml

/-! ### C38 -/

theorem get?_filter_prefix (d : Dict Prefix Str) (p : Prefix) :
    Dict.get? (d.filter (fun x => prefixTruthy x.1)) p = if prefixTruthy p then Dict.get? d p else none := by
  induction d with
  | nil => simp [Dict.get?]
  | cons x d ih =>
    obtain ⟨q, v⟩ := x
    by_cases hq : prefixTruthy q = true
    · rw [List.filter_cons, if_pos hq, Dict.get?_cons, Dict.get?_cons, ih]
      by_cases hp : p = q
      · subst hp; simp [hq]
      · simp [hp]
    · rw [List.filter_cons, if_neg hq, ih, Dict.get?_cons]
      by_cases hp : p = q
      · subst hp; simp [hq]
      · simp [hp]

/-- C38.  After construction the object's XPaths see, for each prefix: the namespace in `ROOT_NAMESPACES`; else the one in the dictionary the caller passed; if
none was passed, the one in scope at the node, except the default namespace. -/
theorem C38_namespaces (heap : Heap) (nsmap root : Dict Prefix Str) (hroot : root.Wf) (context : Option CallerCtx)
    (hc : ∀ r, context = some ⟨some r⟩ → r < heap.length) (p : Prefix) :
    nsOf (initContext heap nsmap context root).2 (initContext heap nsmap context root).1 p =
      (root.get? p).or (match context with
        | some ⟨some r⟩ => nsOf heap r p
        | _ => if p = none ∨ p = some [] then none else nsmap.get? p) := by
  have hpt : (if prefixTruthy p then nsmap.get? p else none) = (if p = none ∨ p = some [] then none else nsmap.get? p) := by
    match p with
    | none => rfl
    | some [] => rfl
    | some (c :: t) => rw [if_neg (show ¬(some (c :: t) = (none : Prefix) ∨ some (c :: t) = some []) by simp)]; rfl
  have key : ∀ r d, (heap ++ [nsmap.filter (fun x => prefixTruthy x.1)])[r]? = some d →
      nsOf ((heap ++ [nsmap.filter (fun x => prefixTruthy x.1)]).modify r (fun d => d.update root)) r p = (root.get? p).or (d.get? p) := by
    intro r d hd
    unfold nsOf
    rw [List.getElem?_modify, hd]
    simp only [if_true, Option.map_eq_map, Option.map_some, Option.bind_some]
    exact Dict.get?_update d hroot p
  have hnew : (heap ++ [nsmap.filter (fun x => prefixTruthy x.1)])[heap.length]? = some (nsmap.filter (fun x => prefixTruthy x.1)) := by simp
  unfold initContext
  simp only
  match context, hc with
  | none, _ => simp only; rw [key _ _ hnew, get?_filter_prefix, hpt]
  | some ⟨none⟩, _ => simp only; rw [key _ _ hnew, get?_filter_prefix, hpt]
  | some ⟨some r⟩, hc =>
    have hr := hc r rfl
    simp only
    rw [key r heap[r] (by rw [List.getElem?_append_left hr]; exact List.getElem?_eq_getElem hr)]
    unfold nsOf
    rw [List.getElem?_eq_getElem hr]; rfl

/-- C38.  The default namespace of the document (prefix `None` or empty) is never visible, unless `ROOT_NAMESPACES` or the caller binds it. -/
theorem C38_no_default_namespace (heap : Heap) (nsmap root : Dict Prefix Str) (hroot : root.Wf) (p : Prefix) (hp : p = none ∨ p = some [])
    (hrp : root.get? p = none) : nsOf (initContext heap nsmap none root).2 (initContext heap nsmap none root).1 p = none := by
  rw [C38_namespaces heap nsmap root hroot none (by simp)]
  simp [hp, hrp]

/-- One construction: node map, context, root namespaces. -/
abbrev Construction := Dict Prefix Str × Option CallerCtx × Dict Prefix Str

/-- The heap after a sequence of constructions. -/
def construct (heap : Heap) (cs : List Construction) : Heap := cs.foldl (fun h c => (initContext h c.1 c.2.1 c.2.2).2) heap

/-- C38.  What an object sees does not change when other objects are constructed, as long as they are not given its own dictionary as context. -/
theorem C38_stable (heap : Heap) (r : Nat) (hr : r < heap.length) (p : Prefix) (cs : List Construction) (hcs : ∀ c ∈ cs, c.2.1 ≠ some ⟨some r⟩) :
    nsOf (construct heap cs) r p = nsOf heap r p := by
  unfold construct
  induction cs generalizing heap with
  | nil => rfl
  | cons c cs ih =>
    rw [List.foldl_cons, ih _ _ (fun c' h => hcs c' (by simp [h]))]
    · have step : ∀ (q : Nat) (f : Dict Prefix Str → Dict Prefix Str) (x : Dict Prefix Str), q ≠ r →
          ((heap ++ [x]).modify q f)[r]? = heap[r]? := by
        intro q f x hq
        rw [List.getElem?_modify, List.getElem?_append_left hr]
        simp [hq]
      have hc := hcs c (by simp)
      obtain ⟨ns, ctx, root⟩ := c
      unfold nsOf initContext
      match ctx, hc with
      | none, _ => simp only; rw [step _ _ _ (by omega)]
      | some ⟨none⟩, _ => simp only; rw [step _ _ _ (by omega)]
      | some ⟨some r'⟩, hc => simp only; rw [step _ _ _ (by rintro rfl; exact hc rfl)]
    · unfold initContext; simp; omega

/-- C38.  If the dictionary is shared (passing `context=other.context`), then constructing an object whose class has ROOT_NAMESPACES overwrites what the other
object sees: exactly the prefixes in ROOT_NAMESPACES change. -/
theorem C38_sharing (heap : Heap) (r : Nat) (hr : r < heap.length) (nsmap root : Dict Prefix Str) (hroot : root.Wf) (p : Prefix) :
    nsOf (initContext heap nsmap (some ⟨some r⟩) root).2 r p = (root.get? p).or (nsOf heap r p) := by
  have := C38_namespaces heap nsmap root hroot (some ⟨some r⟩) (fun r' h => by simp at h; omega) p
  exact this

/-- Counterexample to stability under sharing: the prefix `m` of the first object changes its meaning. -/
theorem C38_counterexample_sharing : let heap : Heap := [[(some c%"m", c%"http://old")]]
    nsOf heap 0 (some c%"m") = some c%"http://old" ∧
    nsOf (initContext heap [] (some ⟨some 0⟩) [(some c%"m", c%"http://new")]).2 0 (some c%"m") = some c%"http://new" := by decide

/-- A concrete case: the root namespace wins, the default namespace is dropped. -/
example : let h := initContext [] [(none, c%"d"), (some c%"a", c%"1"), (some c%"b", c%"2")] none [(some c%"b", c%"3")]
    nsOf h.2 h.1 (some c%"a") = some c%"1" ∧ nsOf h.2 h.1 (some c%"b") = some c%"3" ∧ nsOf h.2 h.1 none = none := by decide

/-! ### C39 -/

/-- The first successful load of a URI among the requests. -/
def firstOk (qs : List Request) (uri : Str) : Option SchemaId :=
  qs.findSome? (fun q => if q.uri = uri then q.world.toOption else none)

theorem runLoads_append (cache : Dict Str SchemaId) (qs : List Request) (q : Request) : runLoads cache (qs ++ [q]) =
    ((runLoads cache qs).1 ++ [(loadSchema (runLoads cache qs).2 q.uri q.base q.world).1], (loadSchema (runLoads cache qs).2 q.uri q.base q.world).2) := by
  induction qs generalizing cache with
  | nil => rfl
  | cons q' qs ih => simp only [List.cons_append, runLoads, ih]

theorem firstOk_append (qs : List Request) (q : Request) (uri : Str) :
    firstOk (qs ++ [q]) uri = (firstOk qs uri).or (if q.uri = uri then q.world.toOption else none) := by
  unfold firstOk
  rw [List.findSome?_append]
  simp only [List.findSome?_cons, List.findSome?_nil]
  cases (if q.uri = uri then q.world.toOption else none) <;> rfl

/-- The cache after any history: for each URI, what its first successful load gave. -/
theorem cache_eq (qs : List Request) (uri : Str) : (runLoads [] qs).2.get? uri = firstOk qs uri := by
  induction qs using List.reverseRecOn with
  | nil => rfl
  | append_singleton qs q ih =>
    rw [runLoads_append, firstOk_append, ← ih]
    simp only
    unfold loadSchema
    by_cases hu : q.uri = uri
    · subst hu
      rw [if_pos rfl]
      cases hc : (runLoads [] qs).2.get? q.uri with
      | some s => simp only; rw [hc]; rfl
      | none =>
        simp only
        cases q.world with
        | ok s => simp only; rw [Dict.get?_set, if_pos rfl]; rfl
        | error e => simp only; rw [hc]; rfl
    · rw [if_neg hu, Option.or_none]
      cases hc : (runLoads [] qs).2.get? q.uri with
      | some s => rfl
      | none =>
        simp only
        cases q.world with
        | ok s => simp only; rw [Dict.get?_set, if_neg (Ne.symm hu)]
        | error e => rfl

/-- C39.  After any history of requests (any outcomes), a request for a URI that loaded before returns the object of its first successful load and loads nothing; any
other request loads once, and returns the new object or raises (IOError and XMLSchemaParseError with the URI and base URI in the message, others unchanged). -/
theorem C39_schema_cache (qs : List Request) (q : Request) :
    (loadSchema (runLoads [] qs).2 q.uri q.base q.world).1 = match firstOk qs q.uri with
      | some s => (.ok s, false)
      | none => (match q.world with
        | .ok s => .ok s
        | .error .io => .error (.ioError q.uri q.base)
        | .error .schemaParse => .error (.schemaParseError q.uri q.base)
        | .error .other => .error .original, true) := by
  unfold loadSchema
  rw [cache_eq]
  cases firstOk qs q.uri with
  | some s => rfl
  | none =>
    cases q.world with
    | ok s => rfl
    | error e => cases e <;> rfl

/-- C39.  Two requests that succeed for the same URI, at any two times, return the same object. -/
theorem C39_same_object (qs1 qs2 : List Request) (q1 q2 : Request) (s1 s2 : SchemaId) (hu : q1.uri = q2.uri)
    (h1 : (loadSchema (runLoads [] qs1).2 q1.uri q1.base q1.world).1.1 = .ok s1)
    (h2 : (loadSchema (runLoads [] (qs1 ++ q1 :: qs2)).2 q2.uri q2.base q2.world).1.1 = .ok s2) : s1 = s2 := by
  rw [C39_schema_cache] at h1 h2
  have hw : firstOk (qs1 ++ q1 :: qs2) q2.uri = some s1 := by
    unfold firstOk
    rw [List.findSome?_append, List.findSome?_cons, ← hu]
    change (firstOk qs1 q1.uri).or _ = _
    cases hf : firstOk qs1 q1.uri with
    | some s => rw [hf] at h1; simp only [Except.ok.injEq] at h1; rw [h1]; rfl
    | none =>
      rw [hf] at h1
      simp only at h1
      cases hq : q1.world with
      | error e => rw [hq] at h1; cases e <;> simp at h1
      | ok s => rw [hq] at h1; simp only [Except.ok.injEq] at h1; simp [Except.toOption, h1]
  rw [hw] at h2
  simpa using h2

/-- A concrete history: fails, loads, is cached. -/
example : (runLoads [] [⟨c%"a", none, .error .io⟩, ⟨c%"a", none, .ok 7⟩, ⟨c%"a", some c%"b", .ok 8⟩]).1
    = [(.error (.ioError c%"a" none), true), (.ok 7, true), (.ok 7, false)] := by decide

/-- Counterexample: the base URI is not part of the key, so the same relative name with another base gives the first schema. -/
theorem C39_counterexample_base_uri (uri base1 base2 : Str) : (runLoads [] [⟨uri, some base1, .ok 1⟩, ⟨uri, some base2, .ok 2⟩]).1 = [(.ok 1, true), (.ok 1, false)] := by
  simp [runLoads, loadSchema, Dict.get?, Dict.set]

/-! ### C40 -/

section
variable {Err Doc : Type} (V : Validator Err Doc)

/-- Loading from the cached or the outside schema. -/
theorem xmlschema_idem (o : VObj Doc) (st st' : VState Err) (s : SchemaId) (h : xmlschema V o st = (.ok (some s), st')) :
    st'.logs = st.logs ∧ ∀ st'' : VState Err, st''.cache = st'.cache → xmlschema V o st'' = (.ok (some s), st'') := by
  unfold xmlschema at h
  match hx : o.xsd with
  | none => rw [hx] at h; simp at h
  | some [] => rw [hx] at h; simp at h
  | some (c :: uri) =>
    rw [hx] at h
    simp only at h
    have hcache : st'.logs = st.logs ∧ st'.cache.get? (c :: uri) = some s := by
      unfold loadSchema at h
      cases hc : st.cache.get? (c :: uri) with
      | some s0 =>
        rw [hc] at h
        simp only [Prod.mk.injEq, Except.ok.injEq, Option.some.injEq] at h
        obtain ⟨h1, h2⟩ := h
        subst h1 h2
        exact ⟨rfl, hc⟩
      | none =>
        rw [hc] at h
        simp only at h
        cases hl : V.load (c :: uri) with
        | error e => rw [hl] at h; simp at h
        | ok s0 =>
          rw [hl] at h
          simp only [Prod.mk.injEq, Except.ok.injEq, Option.some.injEq] at h
          obtain ⟨h1, h2⟩ := h
          subst h1 h2
          exact ⟨rfl, by simp only; rw [Dict.get?_set, if_pos rfl]⟩
    refine ⟨hcache.1, fun st'' hst => ?_⟩
    unfold xmlschema
    rw [hx]
    simp only
    unfold loadSchema
    rw [hst, hcache.2]
    simp only
    rw [← hst]

/-- C40.  Whatever happened before (any state of cache and error logs): without a schema, or with validation switched off, the object is valid without errors; with
a schema the verdict is that of the validator for the object's document, and the errors are exactly those of this document; nothing accumulates. -/
theorem C40_verdict (o : VObj Doc) (st : VState Err) :
    (∀ st', xmlschema V o st = (.ok none, st') → (isValid V o st).1 = .ok true ∧ (validationErrors V o st).1 = .ok .empty) ∧
    (∀ s st', xmlschema V o st = (.ok (some s), st') →
      (isValid V o st).1 = .ok (!o.schemaValidate || (V.errors s o.doc).isEmpty) ∧
      (validationErrors V o st).1 = .ok (if o.schemaValidate = true ∧ V.errors s o.doc ≠ [] then .log (V.errors s o.doc) else .empty)) ∧
    (∀ e st', xmlschema V o st = (.error e, st') → (isValid V o st).1 = .error e ∧ (validationErrors V o st).1 = .error e) := by
  refine ⟨fun st' h => ?_, fun s st' h => ?_, fun e st' h => ?_⟩
  · have : validationErrors V o st = (.ok .empty, st') := by unfold validationErrors; rw [h]
    unfold isValid
    rw [this]; exact ⟨rfl, rfl⟩
  · obtain ⟨-, h2⟩ := xmlschema_idem V o st st' s h
    cases hv : o.schemaValidate with
    | false =>
      have : validationErrors V o st = (.ok .empty, st') := by unfold validationErrors; rw [h]; simp [hv]
      unfold isValid
      rw [this]; simp
    | true =>
      cases he : (V.errors s o.doc).isEmpty with
      | true =>
        have hs : schemaValid V o st' = (.ok true, { st' with logs := fun s' => if s' = s then [] ++ V.errors s o.doc else if s' = s then [] else st'.logs s' }) := by
          unfold schemaValid; rw [h2 st' rfl]; simp only [validate, he, if_true]
        have hve : (validationErrors V o st) = (.ok .empty, (schemaValid V o st').2) := by
          unfold validationErrors; rw [h]; simp only [hv, if_true]; rw [hs]
        have hne : V.errors s o.doc = [] := by simpa using he
        unfold isValid
        rw [hve]; simp [hne]
      | false =>
        have hs : ∃ st2, schemaValid V o st' = (.ok false, st2) ∧ st2.cache = st'.cache ∧ st2.logs s = V.errors s o.doc := by
          refine ⟨{ st' with logs := fun s' => if s' = s then [] ++ V.errors s o.doc else if s' = s then [] else st'.logs s' }, ?_, rfl, by simp⟩
          unfold schemaValid; rw [h2 st' rfl]; simp only [validate, he, if_true]
        obtain ⟨st2, hs1, hs2, hs3⟩ := hs
        have hse : schemaErrors V o st2 = (.ok (.log (V.errors s o.doc)), st2) := by
          unfold schemaErrors; rw [h2 st2 hs2]; simp only [hs3]
        have hve : (validationErrors V o st) = (.ok (.log (V.errors s o.doc)), st2) := by
          unfold validationErrors; rw [h]; simp only [hv, if_true]; rw [hs1]; exact hse
        have hne : V.errors s o.doc ≠ [] := by simpa using he
        unfold isValid
        rw [hve]; simp [hne]
  · have : validationErrors V o st = (.error e, st') := by unfold validationErrors; rw [h]
    unfold isValid
    rw [this]; exact ⟨rfl, rfl⟩

/-- C40.  `is_valid()` is true exactly if `validation_errors()` is empty. -/
theorem C40_valid_iff_no_errors (o : VObj Doc) (st : VState Err) : (isValid V o st).1 = .ok true ↔ (validationErrors V o st).1 = .ok .empty := by
  unfold isValid
  cases h : validationErrors V o st with
  | mk r st' =>
    match r with
    | .error e => simp
    | .ok .empty => simp
    | .ok (.log l) => simp

/-- The state after a history of validations, of any objects, from any start. -/
def runVs (st : VState Err) (ops : List (VOp Doc)) : VState Err := ops.foldl (runV V) st

theorem xmlschema_cached (o : VObj Doc) (st : VState Err) {uri : Str} {s : SchemaId} (hx : o.xsd = some uri) (hu : uri ≠ []) (hc : st.cache.get? uri = some s) :
    xmlschema V o st = (.ok (some s), st) := by
  unfold xmlschema
  rw [hx]
  match uri, hu with
  | c :: uri, _ => simp only; unfold loadSchema; rw [hc]

theorem xmlschema_keeps (o : VObj Doc) (st : VState Err) {uri : Str} {s : SchemaId} (hc : st.cache.get? uri = some s) :
    (xmlschema V o st).2.cache.get? uri = some s := by
  unfold xmlschema
  match o.xsd with
  | none => exact hc
  | some [] => exact hc
  | some (c :: u) =>
    simp only
    unfold loadSchema
    cases hc' : st.cache.get? (c :: u) with
    | some s' => exact hc
    | none =>
      simp only
      cases hl : V.load (c :: u) with
      | error e => exact hc
      | ok s' =>
        simp only
        rw [Dict.get?_set]
        by_cases he : uri = c :: u
        · subst he; rw [hc] at hc'; simp at hc'
        · rw [if_neg he]; exact hc

theorem runV_keeps (op : VOp Doc) (st : VState Err) {uri : Str} {s : SchemaId} (hc : st.cache.get? uri = some s) : (runV V st op).cache.get? uri = some s := by
  have hsv : ∀ (o : VObj Doc) (st : VState Err), st.cache.get? uri = some s → (schemaValid V o st).2.cache.get? uri = some s := by
    intro o st hc
    have := xmlschema_keeps V o st hc
    unfold schemaValid
    cases h : xmlschema V o st with
    | mk r st' =>
      rw [h] at this
      match r with
      | .error e => exact this
      | .ok none => exact this
      | .ok (some s) => exact this
  have hse : ∀ (o : VObj Doc) (st : VState Err), st.cache.get? uri = some s → (schemaErrors V o st).2.cache.get? uri = some s := by
    intro o st hc
    have := xmlschema_keeps V o st hc
    unfold schemaErrors
    cases h : xmlschema V o st with
    | mk r st' =>
      rw [h] at this
      match r with
      | .error e => exact this
      | .ok none => exact this
      | .ok (some s) => exact this
  have hve : ∀ (o : VObj Doc) (st : VState Err), st.cache.get? uri = some s → (validationErrors V o st).2.cache.get? uri = some s := by
    intro o st hc
    have := xmlschema_keeps V o st hc
    unfold validationErrors
    cases h : xmlschema V o st with
    | mk r st' =>
      rw [h] at this
      match r with
      | .error e => exact this
      | .ok none => exact this
      | .ok (some s') =>
        simp only
        by_cases hv : o.schemaValidate = true
        · rw [if_pos hv]
          have h2 := hsv o st' this
          cases h3 : schemaValid V o st' with
          | mk r2 st2 =>
            rw [h3] at h2
            match r2 with
            | .error e => exact h2
            | .ok true => exact h2
            | .ok false => exact hse o st2 h2
        · rw [if_neg hv]; exact this
  cases op with
  | isValid o =>
    have := hve o st hc
    simp only [runV]
    unfold isValid
    cases h : validationErrors V o st with
    | mk r st' =>
      rw [h] at this
      match r with
      | .error e => exact this
      | .ok .empty => exact this
      | .ok (.log l) => exact this
  | errors o => exact hve o st hc
  | schemaValid o => exact hsv o st hc
  | schemaErrors o => exact hse o st hc

/-- C40.  History independence: after any sequence of validations (of this or other objects), the verdict and the errors of an object are the ones it would have had
before the sequence. -/
theorem C40_history_independent (o : VObj Doc) (st : VState Err) (uri : Str) (hx : o.xsd = some uri) (hu : uri ≠ []) (s : SchemaId)
    (hc : st.cache.get? uri = some s) (ops : List (VOp Doc)) :
    (validationErrors V o (runVs V st ops)).1 = (validationErrors V o st).1 ∧ (isValid V o (runVs V st ops)).1 = (isValid V o st).1 := by
  have hc' : (runVs V st ops).cache.get? uri = some s := by
    unfold runVs
    induction ops generalizing st with
    | nil => exact hc
    | cons op ops ih => exact ih _ (runV_keeps V op st hc)
  obtain ⟨-, h1, -⟩ := C40_verdict V o st
  obtain ⟨-, h2, -⟩ := C40_verdict V o (runVs V st ops)
  obtain ⟨a1, a2⟩ := h1 s st (xmlschema_cached V o st hx hu hc)
  obtain ⟨b1, b2⟩ := h2 s _ (xmlschema_cached V o _ hx hu hc')
  exact ⟨by rw [a2, b2], by rw [a1, b1]⟩
end

/-- A concrete case: an invalid document, validated twice. -/
def sampleValidator : Validator Nat Nat := ⟨fun _ => .ok 1, fun _ d => List.replicate d 0⟩

example : (validationErrors sampleValidator ⟨some c%"x", true, 2⟩ (validationErrors sampleValidator ⟨some c%"x", true, 2⟩ ⟨[], fun _ => []⟩).2).1
    = .ok (.log [0, 0]) := by decide

/-- Counterexample: `schema_validation_errors()` alone reports the errors of whatever was validated last with the same schema, even of another object. -/
theorem C40_counterexample_shared_log :
    (schemaErrors sampleValidator ⟨some c%"x", true, 0⟩ (isValid sampleValidator ⟨some c%"x", true, 2⟩ ⟨[], fun _ => []⟩).2).1 = .ok (.log [0, 0]) := by decide

/-! ### C41 -/

/-- C41.  Two objects on elements are equal exactly if they serialize the same (in particular if they are on the same node). -/
theorem C41_equality_is_serialization (tostring : Nat → Node.Addr → List UInt8) (d d' : Nat) (a a' : Node.Addr) :
    objEq tostring (.elem d a) (.elem d' a') = .ok (decide (tostring d a = tostring d' a')) := by
  unfold objEq
  by_cases h : (ObjNode.elem d a) = .elem d' a'
  · rw [if_pos h]
    simp only [ObjNode.elem.injEq] at h
    rw [h.1, h.2]; simp
  · rw [if_neg h]; rfl

/-- C41.  On elements `==` is reflexive, symmetric and transitive, and `!=` is its negation. -/
theorem C41_equivalence (tostring : Nat → Node.Addr → List UInt8) :
    (∀ x, objEq tostring x x = .ok true) ∧
    (∀ x y, objEq tostring x y = .ok true → objEq tostring y x = .ok true) ∧
    (∀ x y z, objEq tostring x y = .ok true → objEq tostring y z = .ok true → objEq tostring x z = .ok true) ∧
    (∀ x y b, objEq tostring x y = .ok b ↔ objNe tostring x y = .ok (!b)) := by
  have key : ∀ x y, objEq tostring x y = .ok true ↔ x = y ∨ ∃ d a d' a', x = .elem d a ∧ y = .elem d' a' ∧ tostring d a = tostring d' a' := by
    intro x y
    constructor
    · intro h
      by_cases hxy : x = y
      · exact .inl hxy
      · right
        cases x with
        | str s => simp [objEq, hxy, serialize] at h
        | elem d a =>
          cases y with
          | str s => simp [objEq, serialize] at h
          | elem d' a' =>
            rw [C41_equality_is_serialization] at h
            exact ⟨d, a, d', a', rfl, rfl, by simpa using h⟩
    · rintro (rfl | ⟨d, a, d', a', rfl, rfl, h⟩)
      · simp [objEq]
      · rw [C41_equality_is_serialization, h]; simp
  refine ⟨fun x => by simp [objEq], fun x y h => ?_, fun x y z h1 h2 => ?_, fun x y b => ?_⟩
  · rw [key] at h ⊢
    rcases h with rfl | ⟨d, a, d', a', rfl, rfl, h⟩
    · exact .inl rfl
    · exact .inr ⟨d', a', d, a, rfl, rfl, h.symm⟩
  · rw [key] at h1 h2 ⊢
    rcases h1 with rfl | ⟨d, a, d', a', rfl, rfl, h1⟩
    · exact h2
    · rcases h2 with rfl | ⟨e, b, e', b', h3, rfl, h2⟩
      · exact .inr ⟨d, a, d', a', rfl, rfl, h1⟩
      · simp only [ObjNode.elem.injEq] at h3
        obtain ⟨rfl, rfl⟩ := h3
        exact .inr ⟨d, a, e', b', rfl, rfl, h1.trans h2⟩
  · unfold objNe
    cases objEq tostring x y with
    | error e => simp [Except.map]
    | ok c => simp [Except.map]

/-- Counterexample: comparing objects on two different strings (attribute values, text) raises TypeError instead of giving an answer. -/
theorem C41_counterexample_strings (tostring : Nat → Node.Addr → List UInt8) (s t : Str) (h : s ≠ t) : objEq tostring (.str s) (.str t) = .error .typeError := by
  unfold objEq
  rw [if_neg (by simpa using h)]; rfl

/-! ### C42 -/

/-- C42.  `is_empty` is true exactly for an element without any child (comments and processing instructions are children), without attributes, and with neither
text nor tail. -/
theorem C42_is_empty (n : Node) : isEmpty n = true ↔ n.children = [] ∧ n.attrs = [] ∧ (∀ t, n.text = some t → t = []) ∧ (∀ t, n.tail = some t → t = []) := by
  have key : ∀ o : Option Str, noText o = true ↔ ∀ t, o = some t → t = [] := by
    intro o; cases o <;> simp [noText]
  unfold isEmpty
  rw [Bool.and_eq_true, Bool.and_eq_true, Bool.and_eq_true, key, key]
  simp [and_assoc]

/-- C42.  An empty element has no text at all. -/
theorem C42_empty_has_no_text (n : Node) (h : isEmpty n = true) : n.strVal = [] := by
  obtain ⟨h1, -, h3, -⟩ := (C42_is_empty n).1 h
  cases n with
  | mk t a x c l =>
    simp only [Node.children] at h1
    subst h1
    simp only [Node.text] at h3
    cases x with
    | none => rfl
    | some x => rw [h3 x rfl]; rfl

/-- Both kinds exist. -/
example : isEmpty (Node.empty ⟨none, c%"a"⟩) = true ∧ isEmpty (.mk (.elem ⟨none, c%"a"⟩) [] (some c%" ") [] none) = false := by decide

/-- Counterexample to the documentation ("no child elements, no attributes, and no text"): a comment, or text behind the element, makes it not empty. -/
theorem C42_counterexample_comment_and_tail : isEmpty (.mk (.elem ⟨none, c%"a"⟩) [] none [.mk .comment [] (some c%"c") [] none] none) = false ∧
    isEmpty (.mk (.elem ⟨none, c%"a"⟩) [] none [] (some c%"\n")) = false := by decide

/-! ### C43 -/

/-- C43.  Without `validate` parsing never validates and does not collect IDs, whatever the class; with `validate`, the class's schema is used if it has one (the one
on the class, else the loaded one), otherwise DTD validation. -/
theorem C43_parser_configuration (xsd : Option Str) (preset : Option SchemaId) (cache : Dict Str SchemaId) (load : Str → Except LoadErr SchemaId) :
    xmlParser xsd preset false cache load = (.ok .noCollectIds, cache) ∧
    (xsd = none → xmlParser xsd preset true cache load = (.ok .dtdValidation, cache)) ∧
    (∀ uri, xsd = some uri → ∀ o c, xmlParser xsd preset true cache load = (.ok o, c) →
      ∃ s, o = .schema s ∧ (preset = some s ∨ (preset = none ∧ c.get? uri = some s))) ∧
    (∀ uri e, xsd = some uri → preset = none → cache.get? uri = none → load uri = .error e →
      xmlParser xsd preset true cache load = (.error (failure uri none e), cache)) := by
  refine ⟨rfl, fun h => by subst h; rfl, fun uri hu o c h => ?_, fun uri e hu hp hc hl => ?_⟩
  · subst hu
    unfold xmlParser at h
    simp only [if_true] at h
    cases preset with
    | some s => simp only [Prod.mk.injEq, Except.ok.injEq] at h; exact ⟨s, h.1.symm, .inl rfl⟩
    | none =>
      simp only at h
      unfold loadSchema at h
      cases hc : cache.get? uri with
      | some s =>
        rw [hc] at h
        simp only [Prod.mk.injEq, Except.ok.injEq] at h
        exact ⟨s, h.1.symm, .inr ⟨rfl, by rw [← h.2]; exact hc⟩⟩
      | none =>
        rw [hc] at h
        simp only at h
        cases hl : load uri with
        | error e => rw [hl] at h; simp at h
        | ok s =>
          rw [hl] at h
          simp only [Prod.mk.injEq, Except.ok.injEq] at h
          exact ⟨s, h.1.symm, .inr ⟨rfl, by rw [← h.2, Dict.get?_set, if_pos rfl]⟩⟩
  · subst hu hp
    simp [xmlParser, loadSchema, hc, hl]

example : xmlParser (some c%"a.xsd") none true [] (fun _ => .ok 3) = (.ok (.schema 3), [(c%"a.xsd", 3)]) := by rfl

/-! ### the other theorems applied to dictionaries -/

example := C38_namespaces [[(some c%"m", c%"http://old")]] [(none, c%"d")] [(some c%"b", c%"3")] (by decide) (some ⟨some 0⟩) (by simp) (some c%"m")
example := C38_no_default_namespace [] [(none, c%"d"), (some c%"a", c%"1")] [(some c%"b", c%"3")] (by decide) none (.inl rfl) (by decide)
example := C38_stable [[(some c%"m", c%"http://old")]] 0 (by decide) (some c%"m") [([], none, [(some c%"m", c%"http://new")])] (by decide)
example := C38_sharing [[(some c%"m", c%"http://old")]] 0 (by decide) [] [(some c%"m", c%"http://new")] (by decide) (some c%"m")

end Props
