import Verif.Props.FieldDelete
import Verif.XmlMap.PeelLemmas
/-
Properties C16, C18, C19 for paths with any predicates of the fragment: children and paths in predicates, too.

Model: `managerDelete`, `managerSet` (Verif/XmlMap/Manager.lean).
Specification: Verif/Spec/Delete.lean, Verif/Spec/Pruned.lean.
-/
namespace Props
open XPath Xml Spec Fields

/-! ### sample data -/

/-- `<r><a x="1"><b>y<k/></b></a></r>` without `k` is what `a[@x='1'][b='y']/k` requires. -/
def deepDoc : Node := bare.withChildren [.mk (.elem ⟨none, c%"a"⟩) [(⟨none, c%"x"⟩, c%"1")] none
  [.mk (.elem ⟨none, c%"b"⟩) [] (some c%"y") [] none, .mk (.elem ⟨none, c%"k"⟩) [] (some c%"v") [] none] none]

/-- `a[@x='1'][b='y']/k` is a simple field. -/
theorem deepField : SimpleField sampleCtx c%"a[@x='1'][b='y']/k" (ast c%"a[@x='1'][b='y']/k")
    [.child ⟨none, c%"a"⟩ [.attr ⟨none, c%"x"⟩ (some (.str c%"1")), .child ⟨none, c%"b"⟩ [] (.here (some (.str c%"y")))], .child ⟨none, c%"k"⟩ []] where
  parse := by decide
  path := by rfl
  canonical := by decide
  ok := by decide

section
variable [PyUnicode] {eng : Engine} {ctx : Ctx}

theorem managerDelete_any (heng : EngineOk eng) {xp e p} (hf : SimpleField ctx xp e p) {a s n} (hs : Node.get a s = some n) {x} (hx : (Step.matches p n).head? = some x) :
    managerDelete eng ctx xp e (.elem a) s = ((voided (pathR true p.reverse n)).1, s.modify a (fun _ => (pathR true p.reverse n).2)) := by
  have hac : allChild p.dropLast = true := by
    obtain ⟨p1, st, rfl⟩ : ∃ r1 st, p = r1 ++ [st] := ⟨p.dropLast, p.getLast (ne_nil_of_field hf), (List.dropLast_concat_getLast _).symm⟩
    obtain ⟨h1, -, -⟩ := pathOk_append hf.ok (by simp)
    rw [List.dropLast_concat]; exact h1
  unfold managerDelete
  rw [bind_ok (findNode_path heng hf.parse hf.path hs), hx]
  simp only [Option.map_some]
  have := (remove_any (ctx := ctx) heng (sizeOf e)).1 e (Nat.le_refl _) p hf.path hf.canonical hac false a s n hs
  unfold onAt at this
  simp only [Bool.not_false] at this
  unfold voided
  simp only
  generalize pathR true p.reverse n = R at this ⊢
  obtain ⟨r, n'⟩ := R
  cases r with
  | error er => rw [bind_err this]; rfl
  | ok b => rw [bind_ok this]; rfl
end

/-! ### C16, C19 -/

/-- C16, C19, for any predicates.  Deleting a field removes its first match; then nothing more, or exactly one element `c` on the path; and then (after the match is removed) each element
from `c` down to the element that held the match has, besides the next one, nothing (attributes, children) but what the predicates of its step require with a value, and
what it has for a predicate holds nothing else.  If no predicate compares an attribute of a child (`b/@k='v'`), no exception is raised; in general, only `KeyError` can be
raised, and the document is as described then, too. -/
theorem C19_cleanup_any [PyUnicode] (eng : Engine) (heng : EngineOk eng) (ctx : Ctx) (xp : Str) (e : Expr) (p : List Step)
    (hf : SimpleField ctx xp e p) (a : Node.Addr) (s n : Node) (hs : s.get a = some n) (hal : Aligned p n)
    (x : Ref) (hx : (Step.matches p n).head? = some x) (hnt : ∀ b, x ≠ .tail b) :
    ∃ r n', managerDelete eng ctx xp e (.elem a) s = (r, s.modify a (fun _ => n')) ∧ (r = .ok () ∨ r = .error .keyError) ∧
      ((∀ st ∈ p, steadyAll st.preds = true) → r = .ok ()) ∧
      (n' = removeRef x n ∨ ∃ c, c ≠ [] ∧ c <+: Ref.holder x ∧ n' = removeAt c (removeRef x n) ∧
        ∀ d, c <+: d → d <+: Ref.holder x → ∀ m, (removeRef x n).get d = some m →
          ∃ st, p[d.length - 1]? = some st ∧ Leftover st.preds (without (Ref.holder x) d m)) := by
  refine ⟨_, _, managerDelete_any heng hf hs hx, ?_⟩
  obtain ⟨h1, h2, h3, h4⟩ := delete_split hf.ok (ne_nil_of_field hf) hal hx hnt
  have h1' : (pathR true p.reverse n).2 = (pathR false p.dropLast.reverse (removeRef x n)).2 := by simpa only [voided] using congrArg Prod.snd h1
  rw [h1, h1']
  have hac : allChild p.dropLast.reverse = true := allChild_iff.mpr (fun st hst => allChild_iff.mp h2 st (List.mem_reverse.mp hst))
  have herr : ∀ (E : PyErr → Prop), ((∀ st ∈ p, steadyAll st.preds = true) ∨ E .keyError) →
      ∀ e, (voided (pathR false p.dropLast.reverse (removeRef x n))).1 = .error e → E e := by
    intro E K e he
    refine pathR_err (E := E) p.dropLast.reverse false (fun st hst m e => test_err (E := E) (K.imp_left (fun h => h st
      (List.dropLast_subset p (List.mem_reverse.mp hst)))) m e) (.inl hac) (removeRef x n) e ?_
    unfold voided at he
    simp only at he
    generalize (pathR false p.dropLast.reverse (removeRef x n)).1 = r at he ⊢
    cases r with
    | error e' => simpa [Except.map] using he
    | ok x => simp [Except.map] at he
  refine ⟨?_, ?_, ?_⟩
  · generalize hr : (voided (pathR false p.dropLast.reverse (removeRef x n))).1 = r
    cases r with
    | error e => right; rw [herr (fun e => e = .keyError) (.inr rfl) e hr]
    | ok u => left; rfl
  · intro hst
    generalize hr : (voided (pathR false p.dropLast.reverse (removeRef x n))).1 = r
    cases r with
    | error e => exact (herr (fun _ => False) (.inl hst) e hr).elim
    | ok u => rfl
  · rcases chain_any p.dropLast _ _ h2 h3 h4 with h | ⟨c, hc1, hc2, hc3, hc4⟩
    · exact .inl h
    · refine .inr ⟨c, hc1, hc2, hc3, fun d hd hd' m hm => ?_⟩
      obtain ⟨st, hst, hlo⟩ := hc4 d hd hd' m hm
      refine ⟨st, ?_, hlo⟩
      obtain ⟨hi, h6⟩ := List.getElem?_eq_some_iff.mp hst
      rw [List.getElem_dropLast] at h6
      rw [← h6]
      exact List.getElem?_eq_getElem _

/-- C16, for any predicates: if the match was the only one (and the field is no `text()` field), the field reads `None` afterwards - even if `KeyError` was raised. -/
theorem C16_then_none_any [PyUnicode] (eng : Engine) (heng : EngineOk eng) (ctx : Ctx) (xp : Str) (e : Expr) (p : List Step)
    (hf : SimpleField ctx xp e p) (hl : p.getLast? ≠ some .text) (a : Node.Addr) (s n : Node)
    (hs : s.get a = some n) (hal : Aligned p n) (x : Ref) (hx : Step.matches p n = [x]) :
    ∃ r s', managerDelete eng ctx xp e (.elem a) s = (r, s') ∧ ((∀ st ∈ p, steadyAll st.preds = true) → r = .ok ()) ∧
      readStr eng ctx xp e (.elem a) s' = (.ok none, s') := by
  have hh : (Step.matches p n).head? = some x := by rw [hx]; rfl
  have hnt : ∀ b, x ≠ .tail b := by
    rintro b rfl
    exact hl ((matches_kind p n _ (List.mem_of_mem_head? hh)).2.1 b (.inr rfl))
  obtain ⟨r, n', hrun, -, hok, -⟩ := C19_cleanup_any eng heng ctx xp e p hf a s n hs hal x hh hnt
  refine ⟨r, _, hrun, hok, ?_⟩
  rw [managerDelete_any heng hf hs hh] at hrun
  rw [Prod.mk.injEq] at hrun
  rw [← hrun.2]
  rw [readStr_run heng hf (n := (pathR true p.reverse n).2) (by rw [Node.get_modify, hs]; rfl),
    delete_any_nomatch hf.ok (ne_nil_of_field hf) hl hx hal]
  rfl

/-- The hypotheses hold for `a[@x='1'][b='y']/k`: deleting it removes the whole `a`, since only what the predicates require is left in it, -/
example : managerDelete refEngine sampleCtx c%"a[@x='1'][b='y']/k" (ast c%"a[@x='1'][b='y']/k") (.elem []) deepDoc = (.ok (), bare) ∧
    ∃ r s', managerDelete refEngine sampleCtx c%"a[@x='1'][b='y']/k" (ast c%"a[@x='1'][b='y']/k") (.elem []) deepDoc = (r, s') ∧
      ((∀ st ∈ [Step.child ⟨none, c%"a"⟩ [.attr ⟨none, c%"x"⟩ (some (.str c%"1")), .child ⟨none, c%"b"⟩ [] (.here (some (.str c%"y")))], .child ⟨none, c%"k"⟩ []],
        steadyAll st.preds = true) → r = .ok ()) ∧
      readStr refEngine sampleCtx c%"a[@x='1'][b='y']/k" (ast c%"a[@x='1'][b='y']/k") (.elem []) s' = (.ok none, s') :=
  ⟨by decide +kernel, C16_then_none_any refEngine refEngine_ok _ _ _ _ deepField (by simp) _ _ deepDoc rfl
    (by intro x h; cases (Option.some.inj h); rfl) _ rfl⟩

/-- - but not if the child `b` has an attribute. -/
example :
    let doc := bare.withChildren [.mk (.elem ⟨none, c%"a"⟩) [(⟨none, c%"x"⟩, c%"1")] none
      [.mk (.elem ⟨none, c%"b"⟩) [(⟨none, c%"z"⟩, c%"")] (some c%"y") [] none, .mk (.elem ⟨none, c%"k"⟩) [] (some c%"v") [] none] none]
    (managerDelete refEngine sampleCtx c%"a[@x='1'][b='y']/k" (ast c%"a[@x='1'][b='y']/k") (.elem []) doc)
      = (.ok (), removeRef (.elem [0, 1]) doc) := by decide +kernel

/-- Counterexample: a predicate that compares an attribute of a child raises `KeyError` if another child of that name comes first, and the match is removed nevertheless. -/
theorem C16_counterexample_predicate_key_error :
    let doc := bare.withChildren [.mk (.elem ⟨none, c%"a"⟩) [] none
      [Node.empty ⟨none, c%"b"⟩, (Node.empty ⟨none, c%"b"⟩).setAttr ⟨none, c%"k"⟩ c%"v", Node.empty ⟨none, c%"c"⟩] none]
    managerDelete refEngine sampleCtx c%"a[b/@k='v']/c" (ast c%"a[b/@k='v']/c") (.elem []) doc = (.error .keyError, removeRef (.elem [0, 2]) doc) := by decide +kernel

/-! ### C18 -/

/-- C18, for any predicates that end in a value: setting a missing field to a string and deleting it again restores the document exactly, if the elements on the path that are there already
hold something besides what the predicates require.  (All predicates, also those inside of predicates, have to end in a value; in a predicate `b[c='x']/d='y'`, the inner predicate must not be about `d`;
and no predicate compares an attribute of a child.) -/
theorem C18_set_then_delete_any [PyUnicode] (eng : Engine) (heng : EngineOk eng) (ctx : Ctx) (xp : Str) (e : Expr) (p : List Step)
    (hf : SimpleField ctx xp e p) (hl : p.getLast? ≠ some .text) (hso : stringOk p = true) (hu : ∀ st ∈ p, undoAll st.preds = true)
    (hst : ∀ st ∈ p, steadyAll st.preds = true) (v : Str) (hv : xmlOk v = true)
    (a : Node.Addr) (s n : Node) (hs : s.get a = some n) (hno : Step.matches p n = []) (hne : NotLeftover p n) :
    ∃ s', writeStr eng ctx v xp e (.elem a) s = (.ok (), s') ∧ managerDelete eng ctx xp e (.elem a) s' = (.ok (), s) := by
  obtain ⟨h1, h2⟩ := undo_any hf.ok (ne_nil_of_field hf) hno v hl hu hst hne
  have hw : Writable p n := by
    unfold Writable
    rw [hno]
    intro hm
    exfalso
    obtain ⟨pre, hpre, -, hnn⟩ := missing_spec p n
    rw [hm] at hpre hnn
    exact hl (by rw [getLast?_of_suffix hpre (by simp)]; rfl)
  refine ⟨_, managerSet_str heng hf.parse hf.path hf.canonical hf.ok hso hv hs hw, ?_⟩
  have hs' : Node.get a (s.modify a (write p v)) = some (write p v n) := by rw [Node.get_modify, hs]; rfl
  obtain ⟨x, hx⟩ : ∃ x, (Step.matches p (write p v n)).head? = some x := by
    cases h : Step.matches p (write p v n) with
    | nil => exact absurd h h2
    | cons x l => exact ⟨x, rfl⟩
  rw [managerDelete_any heng hf hs' hx, h1, Node.modify_modify]
  have : (pathR true p.reverse (write p v n)).2 = n := by simpa only [voided] using congrArg Prod.snd h1
  rw [this]
  congr 1
  exact Node.modify_id hs rfl

/-- Nothing is left over if a child has a name that the predicates do not require. -/
theorem notLeftover_of {ps : List Pred} {m c : Node} (hc : c ∈ m.children) (h : ∀ q ∈ innerNames ps, c.isElem q = false) : ¬ Leftover ps m := by
  rintro ⟨m', hp, -, hch⟩
  cases hp with
  | mk _ _ _ _ _ hk =>
    have : ∀ l l', PrunedL ps l l' → c ∈ l → c ∈ l' := by
      intro l
      induction l with
      | nil => intro l' _ h; simp at h
      | cons d l ih =>
        intro l' hl hcl
        cases hl with
        | same r =>
          rcases List.mem_cons.mp hcl with rfl | hcl
          · simp
          · simp [ih _ r hcl]
        | inside h1 h2 h3 r =>
          rcases List.mem_cons.mp hcl with rfl | hcl
          · rw [h _ h2] at h1; simp at h1
          · simp [ih _ r hcl]
        | drop h1 h2 h3 h4 h5 r =>
          rcases List.mem_cons.mp hcl with rfl | hcl
          · rw [h _ h2] at h1; simp at h1
          · exact ih _ r hcl
    have := this _ _ hk hc
    rw [hch] at this
    simp at this

/-- The hypotheses hold for `a[@x='1'][b='y']/k` in an empty element: the whole `a` is created and removed again, -/
example : ∃ s', writeStr refEngine sampleCtx c%"v" c%"a[@x='1'][b='y']/k" (ast c%"a[@x='1'][b='y']/k") (.elem []) bare = (.ok (), s') ∧
    managerDelete refEngine sampleCtx c%"a[@x='1'][b='y']/k" (ast c%"a[@x='1'][b='y']/k") (.elem []) s' = (.ok (), bare) :=
  C18_set_then_delete_any refEngine refEngine_ok _ _ _ _ deepField (by simp) (by decide) (by decide) (by decide) _ (by decide) _ _ bare rfl rfl
    (by
      intro i st b m hi hm
      exfalso
      match i, hi with
      | 0, _ => have h : (none : Option Ref) = some (Ref.elem b) := hm; simp at h
      | 1, _ => have h : (none : Option Ref) = some (Ref.elem b) := hm; simp at h)

/-- - and where the `a` is there, with another child. -/
example :
    let doc := bare.withChildren [.mk (.elem ⟨none, c%"a"⟩) [(⟨none, c%"x"⟩, c%"1")] none
      [.mk (.elem ⟨none, c%"b"⟩) [] (some c%"y") [] none, Node.empty ⟨none, c%"z"⟩] none]
    ∃ s', writeStr refEngine sampleCtx c%"v" c%"a[@x='1'][b='y']/k" (ast c%"a[@x='1'][b='y']/k") (.elem []) doc = (.ok (), s') ∧
    managerDelete refEngine sampleCtx c%"a[@x='1'][b='y']/k" (ast c%"a[@x='1'][b='y']/k") (.elem []) s' = (.ok (), doc) :=
  C18_set_then_delete_any refEngine refEngine_ok _ _ _ _ deepField (by simp) (by decide) (by decide) (by decide) _ (by decide) _ _ _ rfl (by decide)
    (by
      intro i st b m hi hm hg
      match i, hi with
      | 0, hi =>
        cases (Option.some.inj hi)
        have h : some (Ref.elem [0]) = some (Ref.elem b) := hm
        cases h
        cases (Option.some.inj hg)
        exact notLeftover_of (c := Node.empty ⟨none, c%"z"⟩) (by simp) (by decide)
      | 1, _ => have h : (none : Option Ref) = some (Ref.elem b) := hm; simp at h)

/-- Counterexample: if a predicate inside of a predicate is about the step that follows it, the wrong child is taken for the required one, and the created elements stay. -/
theorem C18_counterexample_predicate_inside :
    let r := writeStr refEngine sampleCtx c%"v" c%"a[b[c='x']/c='y']/d" (ast c%"a[b[c='x']/c='y']/d") (.elem []) bare
    r.1 = .ok () ∧ (managerDelete refEngine sampleCtx c%"a[b[c='x']/c='y']/d" (ast c%"a[b[c='x']/c='y']/d") (.elem []) r.2).1 = .ok () ∧
      (managerDelete refEngine sampleCtx c%"a[b[c='x']/c='y']/d" (ast c%"a[b[c='x']/c='y']/d") (.elem []) r.2).2 ≠ bare := by decide +kernel

/-! ### `C19_cleanup_any` applied to this document -/

example := C19_cleanup_any refEngine refEngine_ok _ _ _ _ deepField [] deepDoc deepDoc rfl (by intro x h; cases (Option.some.inj h); rfl) _ rfl (by intro b h; cases h)

end Props
