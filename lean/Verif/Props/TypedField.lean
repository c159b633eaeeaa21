import Verif.Props.ListField
/-
Properties C31, C32: integer and boolean fields; reading and writing values through a mapper.

Model: mappers in Verif/XmlMap/Mappers.lean, `managerGet`, `managerSet` in Verif/XmlMap/Manager.lean.
-/
namespace Props
open XPath Xml Spec Fields

/-- Reading a single-value field with a mapper (`SingleNodeManager.get`, fields.py:620-625). -/
def readAs {α} [PyUnicode] (toPython : Option Item → Except PyErr α) (eng : Engine) (ctx : Ctx) (xp : Str) (e : Expr) (node : Ref) : M α :=
  managerGet eng ctx false (fun doc m => toPython (m.bind (itemOf doc))) xp e node

/-- Assigning to a single-value field with a mapper that gives text (`SingleNodeManager.set`, fields.py:627-645). -/
def writeAs [PyUnicode] (xvalue : Except PyErr (Option Str)) (eng : Engine) (ctx : Ctx) (xp : Str) (e : Expr) (node : Ref) : M Unit :=
  managerSet eng ctx (xvalue.map (Option.map XValue.str)) xp e node

/-- Does the path end in an attribute or `text()`? -/
def textual (p : List Step) : Bool := match p.getLast? with
  | some (.attr _) => true
  | some .text => true
  | _ => false

/-- What the mapper gets to see of a match: an element, or a string. -/
def seen (n : Node) : Ref → Option Item
  | .elem b => (n.get b).map .elem
  | x => (refText n x).map .str

theorem ofExcept_eq {α} (x : Except PyErr α) (s : Node) : ofExcept x s = (x, s) := by cases x <;> rfl

theorem readAs_run [PyUnicode] {α} {conv : Option Item → Except PyErr α} {eng : Engine} (heng : EngineOk eng) {ctx xp e p} (hf : SimpleField ctx xp e p)
    {a s n} (hs : Node.get a s = some n) :
    readAs conv eng ctx xp e (.elem a) s = (conv ((Step.matches p n).head?.bind (seen n)), s) := by
  unfold readAs managerGet
  rw [bind_ok (findNode_path heng hf.parse hf.path hs)]
  simp only [Bool.false_eq_true, and_false, if_false]
  rw [bind_ok (show getDoc s = (.ok s, s) from rfl), ofExcept_eq]
  cases hh : (Step.matches p n).head? with
  | none => rfl
  | some x =>
    obtain ⟨m, hm⟩ := get_of_match p n x (List.mem_of_mem_head? hh)
    have hg : s.get (a ++ x.addr) = some m := by rw [Node.get_append, hs]; exact hm
    cases x <;> simp only [Ref.addr] at hm hg <;>
      simp only [Option.map_some, Ref.under, itemOf, hg, Option.bind_some, refText, hm, seen, Option.map_some]

/-- After writing a text, a mapper gets to see it: as the text of an element without children, or as a string. -/
theorem write_then_item [PyUnicode] {α} {conv : Option Item → Except PyErr α} {eng : Engine} (heng : EngineOk eng) {ctx xp e p} (hf : SimpleField ctx xp e p)
    (hso : stringOk p = true) {v : Str} (hv : xmlOk v = true) {a s n} (hs : Node.get a s = some n) (hw : Writable p n) :
    ∃ s' it, writeAs (.ok (some v)) eng ctx xp e (.elem a) s = (.ok (), s') ∧ readAs conv eng ctx xp e (.elem a) s' = (conv (some it), s') ∧
      ((textual p = true ∧ it = .str v) ∨ (textual p = false ∧ ∃ m, it = .elem m ∧ m.strVal = v ∧ m.children = [])) := by
  obtain ⟨x, h1, h2, -, -, h5, h6⟩ := write_read (v := v) hf.ok hso (ne_nil_of_field hf) hw
  have hrd := readAs_run (conv := conv) heng hf (a := a) (s := s.modify a (write p v)) (n := write p v n) (by rw [Node.get_modify, hs]; rfl)
  rw [h1] at hrd
  obtain ⟨k1, k2, k3⟩ := matches_kind p _ x (List.mem_of_mem_head? h1)
  have hw' : writeAs (.ok (some v)) eng ctx xp e (.elem a) s = (.ok (), s.modify a (write p v)) :=
    managerSet_str heng hf.parse hf.path hf.canonical hf.ok hso hv hs hw
  cases x with
  | elem b =>
    cases hm : (write p v n).get b with
    | none => simp [refText, hm] at h2
    | some m =>
      refine ⟨_, .elem m, hw', ?_, .inr ⟨?_, m, rfl, ?_, h6 b m rfl hm⟩⟩
      · rw [hrd]; simp [seen, hm]
      · have := k3 b rfl
        have hl := allChild_last this
        unfold textual
        cases hp : p.getLast? with
        | none => rfl
        | some st =>
          cases st with
          | child => rfl
          | attr q => exact absurd hp (hl q)
          | text =>
            exfalso
            have hmem := List.mem_of_getLast? hp
            have hall : ∀ st ∈ p, st ≠ Step.text := by
              clear * - this
              induction p with
              | nil => simp
              | cons s p ih =>
                cases s with
                | child q ps =>
                  simp only [allChild] at this
                  intro st hst
                  rcases List.mem_cons.1 hst with rfl | hst
                  · simp
                  · exact ih this st hst
                | attr q => simp [allChild] at this
                | text => simp [allChild] at this
            exact hall _ hmem rfl
      · simpa [refText, hm] using h2
  | attr b q =>
    refine ⟨_, .str v, hw', ?_, .inl ⟨?_, rfl⟩⟩
    · rw [hrd]; simp only [Option.bind_some, seen, h2, Option.map_some]
    · unfold textual; rw [k1 b q rfl]
  | text b =>
    refine ⟨_, .str v, hw', ?_, .inl ⟨?_, rfl⟩⟩
    · rw [hrd]; simp only [Option.bind_some, seen, h2, Option.map_some]
    · unfold textual; rw [k2 b (.inl rfl)]
  | tail b => exact absurd rfl (h5 b)

/-! ### C31 -/

theorem isPySpace_digit {c : Char} (h : isDigit c = true) : isPySpace c = false := by
  simp only [isDigit, inRange, Bool.and_eq_true, decide_eq_true_eq] at h
  simp only [isPySpace, isXmlSpace, Bool.or_eq_false_iff, beq_eq_false_iff_ne, Bool.and_eq_false_iff, decide_eq_false_iff_not]
  have h1 : 48 ≤ c.toNat := by
    have := h.1
    first | exact this | simpa using this
  refine ⟨⟨⟨⟨⟨⟨?_, ?_⟩, ?_⟩, ?_⟩, by omega⟩, by omega⟩, .inr (by omega)⟩ <;> rintro rfl <;> revert h1 <;> decide

theorem pyStrip_noSpace {s : Str} (h : ∀ c ∈ s, isPySpace c = false) : pyStrip s = s := by
  have key : ∀ s : Str, (∀ c ∈ s, isPySpace c = false) → s.dropWhile isPySpace = s := by
    intro s h
    cases s with
    | nil => rfl
    | cons c s => rw [List.dropWhile_cons, if_neg (by simp [h c (by simp)])]
  unfold pyStrip
  rw [key s h, key s.reverse (by simpa using h), List.reverse_reverse]

theorem pyDigits_digits : ∀ {s : Str}, s ≠ [] → (∀ c ∈ s, isDigit c = true) → pyDigits s = some s
  | [], h, _ => absurd rfl h
  | [c], _, h => by rw [pyDigits, if_pos (h c (by simp))]
  | c :: d :: s, _, h => by
    have hd : d ≠ '_' := by
      rintro rfl
      have := h '_' (by simp)
      revert this; decide
    rw [pyDigits, if_pos (h c (by simp)), if_neg hd, pyDigits_digits (by simp) (fun x hx => h x (by simp [hx]))]
    rfl

/-- `int(str(n)) == n`. -/
theorem pyInt_intStr (n : Int) : pyInt (intStr n) = some n := by
  obtain ⟨h1, h2, h3, -⟩ := natStr_spec n.natAbs
  by_cases hn : n < 0
  · have hi : intStr n = '-' :: natStr n.natAbs := by unfold intStr; rw [if_pos hn]
    unfold pyInt
    rw [hi, pyStrip_noSpace (by
      intro c hc
      rcases List.mem_cons.1 hc with rfl | hc
      · decide
      · exact isPySpace_digit (h2 c hc))]
    simp only [if_true]
    rw [pyDigits_digits h1 h2, Option.map_some, h3]
    congr 1; omega
  · have hi : intStr n = natStr n.natAbs := by unfold intStr; rw [if_neg hn]
    unfold pyInt
    rw [hi, pyStrip_noSpace (fun c hc => isPySpace_digit (h2 c hc))]
    cases hs : natStr n.natAbs with
    | nil => exact absurd hs h1
    | cons c r =>
      have hc := h2 c (by rw [hs]; simp)
      have c1 : c ≠ '-' := by rintro rfl; revert hc; decide
      have c2 : c ≠ '+' := by rintro rfl; revert hc; decide
      simp only
      rw [if_neg c1, if_neg c2, ← hs, pyDigits_digits h1 h2, Option.map_some, h3]
      congr 1; omega

/-- C31.  Writing the integer `n` to a field and reading it back gives `n`: for every integer if the field is an attribute or `text()`, and for
integers up to 2^53 if it is an element (which is read by XPath's `number()`). -/
theorem C31_integer_round_trip [PyUnicode] (eng : Engine) (heng : EngineOk eng) (number : Str → XNum) (hnum : NumberOk number) (ctx : Ctx) (xp : Str)
    (e : Expr) (p : List Step) (hf : SimpleField ctx xp e p) (hso : stringOk p = true) (n : Int) (hn : textual p = true ∨ n.natAbs ≤ 2 ^ 53)
    (a : Node.Addr) (s m : Node) (hs : s.get a = some m) (hw : Writable p m) :
    ∃ s', writeAs (intToXml (some n)) eng ctx xp e (.elem a) s = (.ok (), s') ∧
      readAs (intToPython number) eng ctx xp e (.elem a) s' = (.ok (some n), s') := by
  obtain ⟨s', it, h1, h2, h3⟩ := write_then_item (conv := intToPython number) heng hf hso (intStr_xmlOk n) hs hw
  refine ⟨s', h1, ?_⟩
  rw [h2]
  rcases h3 with ⟨-, rfl⟩ | ⟨ht, m', rfl, hm', -⟩
  · simp only [intToPython, pyInt_intStr, orNone]
  · have hb : n.natAbs ≤ 2 ^ 53 := by
      rcases hn with h | h
      · rw [ht] at h; simp at h
      · exact h
    simp only [intToPython, hm', hnum.exact n hb, intOfNum, Nat.pow_zero, Nat.div_one, decide_eq_true_eq, orNone]
    congr 3
    split_ifs <;> omega

/-- The hypotheses can be met, by an element and by an attribute. -/
example : ∃ s', writeAs (intToXml (some (-42))) refEngine sampleCtx c%"m:a/@id" (ast c%"m:a/@id") (.elem []) sampleDoc = (.ok (), s') ∧
    readAs (intToPython xpathNumber) refEngine sampleCtx c%"m:a/@id" (ast c%"m:a/@id") (.elem []) s' = (.ok (some (-42)), s') :=
  C31_integer_round_trip refEngine refEngine_ok xpathNumber xpathNumber_ok _ _ _ [.child ⟨some c%"http://m", c%"a"⟩ [], .attr ⟨none, c%"id"⟩]
    { parse := by decide, path := by rfl, canonical := by decide, ok := by decide } (by decide) _ (.inl rfl) _ _ sampleDoc rfl (by trivial)

/-- C31: reading never gives a wrong kind of value: text that is not a number gives `None`, whatever it is; the only error is the one for infinite
numbers. -/
theorem C31_never_raises [PyUnicode] (eng : Engine) (heng : EngineOk eng) (number : Str → XNum) (ctx : Ctx) (xp : Str)
    (e : Expr) (p : List Step) (hf : SimpleField ctx xp e p) (a : Node.Addr) (s n : Node) (hs : s.get a = some n) :
    (∃ o, readAs (intToPython number) eng ctx xp e (.elem a) s = (.ok o, s)) ∨
    (textual p = false ∧ (∃ b m neg, (Step.matches p n).head? = some (.elem b) ∧ n.get b = some m ∧ number m.strVal = .inf neg) ∧
      readAs (intToPython number) eng ctx xp e (.elem a) s = (.error .overflowError, s)) := by
  rw [readAs_run heng hf hs]
  cases hh : (Step.matches p n).head? with
  | none => exact .inl ⟨none, rfl⟩
  | some x =>
    obtain ⟨m, hm⟩ := get_of_match p n x (List.mem_of_mem_head? hh)
    obtain ⟨-, -, k3⟩ := matches_kind p _ x (List.mem_of_mem_head? hh)
    cases x with
    | elem b =>
      simp only [Ref.addr] at hm
      simp only [Option.bind_some, seen, hm, Option.map_some, intToPython]
      cases hx : number m.strVal with
      | nan => exact .inl ⟨none, rfl⟩
      | dec neg v k => exact .inl ⟨_, rfl⟩
      | inf neg =>
        refine .inr ⟨?_, ⟨b, m, neg, rfl, hm, hx⟩, rfl⟩
        have hac := k3 b rfl
        clear * - hac
        unfold textual
        induction p with
        | nil => rfl
        | cons st p ih =>
          cases st with
          | child q ps =>
            simp only [allChild] at hac
            cases p with
            | nil => rfl
            | cons st' p => rw [List.getLast?_cons_cons]; exact ih hac
          | attr q => simp [allChild] at hac
          | text => simp [allChild] at hac
    | attr b q =>
      simp only [Option.bind_some, seen]
      cases refText n (.attr b q) with
      | none => exact .inl ⟨none, rfl⟩
      | some t => simp only [Option.map_some, intToPython]; cases pyInt t <;> exact .inl ⟨_, rfl⟩
    | text b =>
      simp only [Option.bind_some, seen]
      cases refText n (.text b) with
      | none => exact .inl ⟨none, rfl⟩
      | some t => simp only [Option.map_some, intToPython]; cases pyInt t <;> exact .inl ⟨_, rfl⟩
    | tail b =>
      simp only [Option.bind_some, seen]
      cases refText n (.tail b) with
      | none => exact .inl ⟨none, rfl⟩
      | some t => simp only [Option.map_some, intToPython]; cases pyInt t <;> exact .inl ⟨_, rfl⟩

/-- Counterexample to the unrestricted claim: with IEEE doubles `number('9007199254740993')` is 9007199254740992, so an element field gives back
another integer than the one written. -/
theorem C31_counterexample_precision (number : Str → XNum) (h : number c%"9007199254740993" = .dec false 9007199254740992 0) (m : Node)
    (hm : m.strVal = c%"9007199254740993") :
    intToXml (some 9007199254740993) = .ok (some c%"9007199254740993") ∧ intToPython number (some (.elem m)) = .ok (some 9007199254740992) := by
  constructor
  · decide
  · simp only [intToPython, hm, h]; rfl

/-! ### C32 -/

/-- C32.  Writing `True` to a boolean field reads back `True`, and writing `False` reads back `False` if the false value is a text different from the
true value. -/
theorem C32_boolean_round_trip [PyUnicode] (eng : Engine) (heng : EngineOk eng) (ctx : Ctx) (xp : Str) (e : Expr) (p : List Step)
    (hf : SimpleField ctx xp e p) (hso : stringOk p = true) (t f : Str) (htf : t ≠ f) (ht : xmlOk t = true) (hfx : xmlOk f = true) (fo : Option Str)
    (b : Bool) (hb : fo = some f ∨ (fo = none ∧ b = true)) (a : Node.Addr) (s n : Node) (hs : s.get a = some n) (hw : Writable p n) :
    ∃ s', writeAs (boolToXml t fo (some b)) eng ctx xp e (.elem a) s = (.ok (), s') ∧
      readAs (boolToPython t fo) eng ctx xp e (.elem a) s' = (.ok (some b), s') := by
  have key : ∀ v, xmlOk v = true → boolToXml t fo (some b) = .ok (some v) →
      (∀ it, it = .str v ∨ (∃ m, it = .elem m ∧ m.strVal = v) → boolToPython t fo (some it) = .ok (some b)) →
      ∃ s', writeAs (boolToXml t fo (some b)) eng ctx xp e (.elem a) s = (.ok (), s') ∧
        readAs (boolToPython t fo) eng ctx xp e (.elem a) s' = (.ok (some b), s') := by
    intro v hv h1 h2
    obtain ⟨s', it, k1, k2, k3⟩ := write_then_item (conv := boolToPython t fo) heng hf hso hv hs hw
    refine ⟨s', by rw [h1]; exact k1, ?_⟩
    rw [k2]
    congr 1
    apply h2
    rcases k3 with ⟨-, rfl⟩ | ⟨-, m, rfl, hm, -⟩
    · exact .inl rfl
    · exact .inr ⟨m, rfl, hm⟩
  cases b with
  | true =>
    apply key t ht rfl
    rintro it (rfl | ⟨m, rfl, hm⟩)
    · simp [boolToPython]
    · simp [boolToPython, hm]
  | false =>
    rcases hb with rfl | ⟨-, h⟩
    · apply key f hfx rfl
      rintro it (rfl | ⟨m, rfl, hm⟩)
      · simp [boolToPython, Ne.symm htf]
      · simp [boolToPython, hm, Ne.symm htf]
    · simp at h

/-- C32.  Without a false value, writing `False` is deleting; if nothing is left of the field, it reads `False`. -/
theorem C32_false_is_absent [PyUnicode] (eng : Engine) (heng : EngineOk eng) (ctx : Ctx) (xp : Str) (e : Expr) (p : List Step)
    (hf : SimpleField ctx xp e p) (t : Str) (a : Node.Addr) (s : Node) :
    writeAs (boolToXml t none (some false)) eng ctx xp e (.elem a) s = managerDelete eng ctx xp e (.elem a) s ∧
    ∀ s' n', s'.get a = some n' → Step.matches p n' = [] → readAs (boolToPython t none) eng ctx xp e (.elem a) s' = (.ok (some false), s') := by
  constructor
  · show managerSet eng ctx (.ok none) xp e (.elem a) s = _
    unfold managerSet managerDelete
    rw [bind_ok (ofExcept_run _ s)]
  · intro s' n' hs' hm
    rw [readAs_run heng hf hs', hm]
    rfl

/-- C32.  Reading is tri-state: a missing node reads `None` (`False` if there is no false value); a present one reads `True` or `False` exactly if its
text is the true or the false value, and raises otherwise. -/
theorem C32_tri_state [PyUnicode] (eng : Engine) (heng : EngineOk eng) (ctx : Ctx) (xp : Str) (e : Expr) (p : List Step)
    (hf : SimpleField ctx xp e p) (t : Str) (f : Option Str) (htf : f ≠ some t) (a : Node.Addr) (s n : Node) (hs : s.get a = some n) :
    let r := readAs (boolToPython t f) eng ctx xp e (.elem a) s
    (Step.matches p n = [] → r = (.ok (if f = none then some false else none), s)) ∧
    ∀ x txt, (Step.matches p n).head? = some x → refText n x = some txt →
      (r = (.ok (some true), s) ↔ txt = t) ∧ (r = (.ok (some false), s) ↔ some txt = f) ∧ (txt ≠ t → some txt ≠ f → r = (.error .exception, s)) := by
  intro r
  have hr : r = (boolToPython t f ((Step.matches p n).head?.bind (seen n)), s) := readAs_run heng hf hs
  refine ⟨?_, ?_⟩
  · intro h
    rw [hr, h]
    simp only [List.head?_nil, Option.bind_none, boolToPython]
    split_ifs <;> rfl
  · intro x txt hx htxt
    have hit : ∃ it, seen n x = some it ∧ boolToPython t f (some it)
        = if txt = t then .ok (some true) else if some txt = f then .ok (some false) else .error .exception := by
      cases x with
      | elem b =>
        simp only [refText, Option.map_eq_some_iff] at htxt
        obtain ⟨m, hm, rfl⟩ := htxt
        exact ⟨.elem m, by simp [seen, hm], rfl⟩
      | attr b q => exact ⟨.str txt, by simp only [seen, htxt, Option.map_some], rfl⟩
      | text b => exact ⟨.str txt, by simp only [seen, htxt, Option.map_some], rfl⟩
      | tail b => exact ⟨.str txt, by simp only [seen, htxt, Option.map_some], rfl⟩
    obtain ⟨it, h1, h2⟩ := hit
    rw [hr, hx, Option.bind_some, h1, h2]
    by_cases h3 : txt = t
    · rw [if_pos h3]
      subst h3
      refine ⟨by simp, ?_, fun h => absurd rfl h⟩
      constructor
      · intro h; simp at h
      · intro h; exact absurd h.symm htf
    · rw [if_neg h3]
      by_cases h4 : some txt = f
      · rw [if_pos h4]
        exact ⟨by simp [h3], by simp [h4], fun _ h => absurd h4 h⟩
      · rw [if_neg h4]
        exact ⟨by simp [h3], by simp [h4], fun _ _ => rfl⟩

/-- The hypotheses can be met. -/
example : ∃ s', writeAs (boolToXml c%"yes" (some c%"no") (some false)) refEngine sampleCtx c%"m:a/@id" (ast c%"m:a/@id") (.elem []) sampleDoc = (.ok (), s') ∧
    readAs (boolToPython c%"yes" (some c%"no")) refEngine sampleCtx c%"m:a/@id" (ast c%"m:a/@id") (.elem []) s' = (.ok (some false), s') :=
  C32_boolean_round_trip refEngine refEngine_ok _ _ _ [.child ⟨some c%"http://m", c%"a"⟩ [], .attr ⟨none, c%"id"⟩]
    { parse := by decide, path := by rfl, canonical := by decide, ok := by decide } (by decide) _ c%"no" (by decide) (by decide) (by decide) _ _ (.inl rfl) _ _
    sampleDoc rfl (by trivial)

/-- Why the values must differ: with equal values `False` reads back as `True`. -/
theorem C32_counterexample_equal_values (t : Str) : boolToXml t (some t) (some false) = .ok (some t) ∧
    boolToPython t (some t) (some (.str t)) = .ok (some true) := ⟨rfl, by simp [boolToPython]⟩

/-! ### the other theorems applied to the sample document -/

example := C31_never_raises refEngine refEngine_ok xpathNumber sampleCtx c%"m:a/@id" (ast c%"m:a/@id") (steps sampleCtx c%"m:a/@id")
  ⟨by decide, by rfl, by decide, by decide⟩ [] sampleDoc sampleDoc rfl
example := C32_false_is_absent refEngine refEngine_ok sampleCtx c%"m:a/@id" (ast c%"m:a/@id") (steps sampleCtx c%"m:a/@id")
  ⟨by decide, by rfl, by decide, by decide⟩ c%"yes" [] sampleDoc

end Props
