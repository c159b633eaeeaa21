import Verif.Props.FieldSet
import Verif.Props.ListField
/-
Property C75: a string that XML cannot carry is refused.

Model: `managerSet`, `managerCreate` (Verif/XmlMap/Manager.lean), `listSet` (Verif/XmlMap/NodeList.lean), `setInXml` (Verif/XmlMap/Fields.lean).
-/
namespace Props
open XPath Xml Spec Fields

/-- A character that no XML 1.0 document can contain: a control character other than tab, newline and carriage return, or U+FFFE, U+FFFF
(surrogates are not in `Char`). -/
def forbiddenChar (c : Char) : Prop := (c.toNat < 32 ∧ c ≠ '\t' ∧ c ≠ '\n' ∧ c ≠ '\r') ∨ c.toNat = 0xFFFE ∨ c.toNat = 0xFFFF

theorem xmlOk_false {v : Str} (h : ∃ c ∈ v, forbiddenChar c) : xmlOk v = false := by
  obtain ⟨c, hc, hf⟩ := h
  rw [xmlOk, ← Bool.not_eq_true, List.all_eq_true]
  intro hall
  have := hall c hc
  simp only [xmlChar, ne_eq, Bool.or_eq_true, Bool.and_eq_true, decide_eq_true_eq, beq_iff_eq] at this
  rcases hf with ⟨h1, h2, h3, h4⟩ | h | h
  · rcases this with ((h | h) | h) | h
    · omega
    · exact h2 h
    · exact h3 h
    · exact h4 h
  · rcases this with ((h' | h') | h') | h'
    · exact h'.1.2 h
    all_goals subst h'; revert h; decide
  · rcases this with ((h' | h') | h') | h'
    · exact h'.2 h
    all_goals subst h'; revert h; decide

theorem raise_run {α} (x : PyErr) (s : Node) : (raise x : M α) s = (.error x, s) := rfl

/-- Whatever is found: a forbidden value is not stored. -/
theorem setInXml_bad {ctx : Ctx} {v : Str} (hv : xmlOk v = false) (r : Ref) (step) (s : Node) : ∃ x, setInXml ctx (.ref r) (some v) step s = (.error x, s) := by
  have ht : ∀ a, setElemText a (some v) s = (.error .valueError, s) := by
    intro a
    unfold setElemText
    rw [if_pos (by exact hv)]
    rfl
  have hattr : ∀ a q, setAttrib a q (some v) s = (.error .valueError, s) := by
    intro a q
    unfold setAttrib
    simp only
    split
    · rfl
    · rfl
  have hrest : ∀ r : Ref, ∃ x, (if isTextTest step then setElemText r.addr (some v)
      else match step with
      | some (_, .name pfx nm) => setAttrib r.addr (attrName ctx pfx nm).1 (some v)
      | _ => raise .attributeError) s = (.error x, s) := by
    intro r
    split
    · exact ⟨_, ht _⟩
    · split
      · exact ⟨_, hattr _ _⟩
      · exact ⟨_, rfl⟩
  cases r with
  | elem a =>
    simp only [setInXml]
    cases hn : nodeAt a s with
    | mk o s1 =>
      have hs1 : s1 = s := by
        unfold nodeAt at hn
        cases hg : s.get a <;> simp [hg] at hn <;> exact hn.2.symm
      subst hs1
      cases o with
      | error x => exact ⟨x, by rw [bind_err hn]⟩
      | ok n =>
        rw [bind_ok hn]
        split
        · exact ⟨_, ht _⟩
        · exact ⟨_, rfl⟩
  | attr a q => exact hrest _
  | text a => exact hrest _
  | tail a => exact hrest _

/-- C75, for every XPath, engine and document: assigning a string with a forbidden character never succeeds.  It raises, and the document is
what `create_<field>()` leaves: unchanged if there was a match. -/
theorem C75_refused [PyUnicode] (eng : Engine) (ctx : Ctx) (v xp : Str) (e : Expr) (node : Ref) (s : Node)
    (hv : ∃ c ∈ v, forbiddenChar c)
    (hnode : ∀ o, (findNode eng ctx xp node s).1 = .ok (some o) → ∃ y, o = .ref y) :
    ∃ x, writeStr eng ctx v xp e node s = (.error x, (managerCreate eng ctx xp e node s).2) := by
  have hv := xmlOk_false hv
  unfold writeStr managerSet managerCreate
  rw [bind_ok (ofExcept_run _ s)]
  obtain ⟨o, ho⟩ := findNode_state (eng := eng) (ctx := ctx) xp node s
  cases o with
  | error x => exact ⟨x, by rw [bind_err ho, bind_err ho]⟩
  | ok o =>
    rw [bind_ok ho, bind_ok ho]
    cases o with
    | some f =>
      obtain ⟨y, rfl⟩ := hnode f (by rw [ho])
      exact setInXml_bad hv y _ s
    | none =>
      simp only
      cases hc : createNode eng ctx e node none s with
      | mk o s1 =>
        cases o with
        | error x => exact ⟨x, by rw [bind_err hc, bind_err hc]⟩
        | ok r =>
          rw [bind_ok hc, bind_ok hc]
          exact setInXml_bad hv r _ s1

/-- Where the empty string can be stored, a forbidden one is refused with `ValueError`. -/
theorem setInXml_valueError {ctx : Ctx} {v : Str} (hv : xmlOk v = false) (r : Ref) (step) (s s' : Node)
    (h : setInXml ctx (.ref r) (some []) step s = (.ok (), s')) : setInXml ctx (.ref r) (some v) step s = (.error .valueError, s) := by
  have ht : ∀ a, setElemText a (some v) s = (.error .valueError, s) := by
    intro a
    unfold setElemText
    rw [if_pos (by exact hv)]
    rfl
  have hattr : ∀ a q, setAttrib a q (some v) s = (.error .valueError, s) := by
    intro a q
    unfold setAttrib
    simp only
    split
    · rfl
    · rfl
  cases r with
  | elem a =>
    simp only [setInXml] at h ⊢
    cases hn : nodeAt a s with
    | mk o s1 =>
      have hs1 : s1 = s := by
        unfold nodeAt at hn
        cases hg : s.get a <;> simp [hg] at hn <;> exact hn.2.symm
      subst hs1
      cases o with
      | error x => rw [bind_err hn] at h; cases h
      | ok n =>
        rw [bind_ok hn] at h ⊢
        by_cases hc : n.children = []
        · rw [if_pos hc]; exact ht _
        · rw [if_neg hc] at h; cases h
  | attr a q =>
    simp only [setInXml] at h ⊢
    by_cases hi : isTextTest step = true
    · rw [if_pos hi]; exact ht _
    · rw [if_neg hi] at h ⊢
      split at h
      · exact hattr _ _
      · cases h
  | text a =>
    simp only [setInXml] at h ⊢
    by_cases hi : isTextTest step = true
    · rw [if_pos hi]; exact ht _
    · rw [if_neg hi] at h ⊢
      split at h
      · exact hattr _ _
      · cases h
  | tail a =>
    simp only [setInXml] at h ⊢
    by_cases hi : isTextTest step = true
    · rw [if_pos hi]; exact ht _
    · rw [if_neg hi] at h ⊢
      split at h
      · exact hattr _ _
      · cases h

/-- C75, the exception, for every XPath, engine and document: where the empty string can be assigned, a string with a forbidden character raises
`ValueError`. -/
theorem C75_value_error [PyUnicode] (eng : Engine) (ctx : Ctx) (v xp : Str) (e : Expr) (node : Ref) (s s' : Node)
    (hv : ∃ c ∈ v, forbiddenChar c)
    (hnode : ∀ o, (findNode eng ctx xp node s).1 = .ok (some o) → ∃ y, o = .ref y)
    (h : writeStr eng ctx [] xp e node s = (.ok (), s')) :
    (writeStr eng ctx v xp e node s).1 = .error .valueError := by
  have hv := xmlOk_false hv
  unfold writeStr managerSet at h ⊢
  rw [bind_ok (ofExcept_run _ s)] at h ⊢
  obtain ⟨o, ho⟩ := findNode_state (eng := eng) (ctx := ctx) xp node s
  cases o with
  | error x => rw [bind_err ho] at h; cases h
  | ok o =>
    rw [bind_ok ho] at h ⊢
    cases o with
    | some f =>
      obtain ⟨y, rfl⟩ := hnode f (by rw [ho])
      exact congrArg Prod.fst (setInXml_valueError hv y _ s _ h)
    | none =>
      simp only at h ⊢
      cases hc : createNode eng ctx e node none s with
      | mk o s1 =>
        cases o with
        | error x => rw [bind_err hc] at h; cases h
        | ok r =>
          rw [bind_ok hc] at h ⊢
          exact congrArg Prod.fst (setInXml_valueError hv r _ s1 _ h)

/-- C75 for simple paths: the assignment raises `ValueError`; the document is unchanged if there was a match, and is otherwise what
`create_<field>()` leaves. -/
theorem C75_simple [PyUnicode] (eng : Engine) (heng : EngineOk eng) (ctx : Ctx) (xp : Str) (e : Expr) (p : List Step)
    (hf : SimpleField ctx xp e p) (hso : stringOk p = true) (v : Str) (hv : ∃ c ∈ v, forbiddenChar c) (a : Node.Addr) (s n : Node)
    (hs : s.get a = some n) (hw : Writable p n) :
    writeStr eng ctx v xp e (.elem a) s = (.error .valueError, (managerCreate eng ctx xp e (.elem a) s).2) ∧
    (Step.matches p n ≠ [] → (managerCreate eng ctx xp e (.elem a) s).2 = s) := by
  have hfn := findNode_path heng hf.parse hf.path hs
  have hnode : ∀ o, (findNode eng ctx xp (.elem a) s).1 = .ok (some o) → ∃ y, o = .ref y := by
    intro o ho
    rw [hfn] at ho
    cases hh : (Step.matches p n).head? with
    | none => rw [hh] at ho; cases ho
    | some x => rw [hh] at ho; cases ho; exact ⟨_, rfl⟩
  obtain ⟨x, hx⟩ := C75_refused eng ctx v xp e (.elem a) s hv hnode
  have h0 : writeStr eng ctx [] xp e (.elem a) s = (.ok (), _) := managerSet_str heng hf.parse hf.path hf.canonical hf.ok hso (v := []) (by decide) hs hw
  have := C75_value_error eng ctx v xp e (.elem a) s _ hv hnode h0
  rw [hx] at this
  refine ⟨by rw [hx]; simp only at this; rw [this], ?_⟩
  intro hm
  cases hh : (Step.matches p n).head? with
  | none => exact absurd (List.head?_eq_none_iff.mp hh) hm
  | some y =>
    rw [hh] at hfn
    unfold managerCreate
    rw [bind_ok hfn]
    rfl

/-- C75 for lists (of strings, integers or any other kind that is stored as text): assigning an item that is written as a string with a
forbidden character never succeeds; the document is unchanged if the index is that of a member, else it has a new empty member at most. -/
theorem C75_list [PyUnicode] {α : Type} (eng : Engine) (ctx : Ctx) (toXml : α → Except PyErr (Option Str)) (xp : Str) (e : Expr)
    (node : Ref) (key : Int) (value : α) (w : Str) (hw : toXml value = .ok (some w)) (hv : ∃ c ∈ w, forbiddenChar c) (s : Node) (ms : List Ref)
    (hms : listMatches eng ctx xp node s = (.ok ms, s)) :
    ∃ x, (listSet eng ctx (storeText ctx toXml e) xp e node key value s).1 = .error x ∧
      (key < ms.length → (listSet eng ctx (storeText ctx toXml e) xp e node key value s).2 = s) := by
  have hv := xmlOk_false hv
  have hst : ∀ r s, ∃ x, storeText ctx toXml e r value s = (.error x, s) := by
    intro r s
    unfold storeText
    rw [hw, bind_ok (ofExcept_run _ s)]
    exact setInXml_bad hv r _ s
  unfold listSet
  rw [bind_ok hms]
  by_cases h1 : key = ms.length
  · rw [if_pos h1]
    have hlt : ¬ key < ms.length := by omega
    generalize hm : (do
      let idx ← appendIndex ms
      createNode eng ctx e node idx : M Ref) = mk
    cases hc : mk s with
    | mk o s1 =>
      cases o with
      | error x => exact ⟨x, by rw [bind_err hc], fun h => absurd h hlt⟩
      | ok r =>
        obtain ⟨x, hx⟩ := hst r s1
        exact ⟨x, by rw [bind_ok hc, hx], fun h => absurd h hlt⟩
  · rw [if_neg h1]
    by_cases h2 : key > ms.length
    · rw [if_pos h2]
      exact ⟨.indexError, rfl, fun _ => rfl⟩
    · rw [if_neg h2]
      cases hg : pyGet ms key with
      | error x => exact ⟨x, rfl, fun _ => rfl⟩
      | ok r =>
        obtain ⟨x, hx⟩ := hst r s
        refine ⟨x, ?_, fun _ => ?_⟩ <;> rw [bind_ok (ofExcept_run _ s), hx]

/-- The hypotheses can be met: an attribute that exists, and one whose element has to be created first - which stays. -/
example : writeStr refEngine sampleCtx ['a', Char.ofNat 0] c%"m:a/@id" (ast c%"m:a/@id") (.elem []) sampleDoc = (.error .valueError, sampleDoc) := by decide
example : ∃ c ∈ ['a', Char.ofNat 0], forbiddenChar c := ⟨Char.ofNat 0, by simp, .inl (by decide)⟩
example : let doc : Node := .mk (.elem ⟨none, c%"r"⟩) [] none [] none
    writeStr refEngine sampleCtx ['a', Char.ofNat 0] c%"m:a[@id='1']/b/@c" (ast c%"m:a[@id='1']/b/@c") (.elem []) doc = (.error .valueError,
      (managerCreate refEngine sampleCtx c%"m:a[@id='1']/b/@c" (ast c%"m:a[@id='1']/b/@c") (.elem []) doc).2) :=
  (C75_simple refEngine refEngine_ok sampleCtx _ _ (steps sampleCtx c%"m:a[@id='1']/b/@c") ⟨by decide, by rfl, by decide, by decide⟩ (by decide) _
    ⟨Char.ofNat 0, by simp, .inl (by decide)⟩ [] _ _ rfl (by
      intro h
      have := congrArg List.length h
      revert this
      decide)).1

/-! ### C75 applied to the sample document -/

theorem sample_hit : ∀ o, (findNode refEngine sampleCtx c%"m:a/@id" (.elem []) sampleDoc).1 = .ok (some o) → ∃ y, o = .ref y := by
  intro o h
  rw [show (findNode refEngine sampleCtx c%"m:a/@id" (.elem []) sampleDoc).1 = .ok (some (.ref (.attr [1] ⟨none, c%"id"⟩))) by decide] at h
  cases h; exact ⟨_, rfl⟩
example := C75_refused refEngine sampleCtx ['a', Char.ofNat 0] c%"m:a/@id" (ast c%"m:a/@id") (.elem []) sampleDoc ⟨Char.ofNat 0, by simp, .inl (by decide)⟩ sample_hit
example := C75_value_error refEngine sampleCtx ['a', Char.ofNat 0] c%"m:a/@id" (ast c%"m:a/@id") (.elem []) sampleDoc (writeStr refEngine sampleCtx [] c%"m:a/@id" (ast c%"m:a/@id") (.elem []) sampleDoc).2 ⟨Char.ofNat 0, by simp, .inl (by decide)⟩ sample_hit
  (Prod.ext (by decide) rfl)

end Props
