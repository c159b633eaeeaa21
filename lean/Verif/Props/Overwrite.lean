import Verif.Props.ManyList
import Verif.Props.NegInsert
import Verif.Props.DeepList
import Verif.XmlMap.OverwriteLemmas
/-
Property C114: `insert` in front of the end on a list field whose XPath has several steps overwrites an item.

Model: `listInsert`, `createNode` (Verif/XmlMap).  Specification: `Spec.overOp` (Verif/Spec/Overwrite.lean).
-/
namespace Props
open XPath Xml Spec Fields

section
variable [PyUnicode] {eng : Engine} {number : Str → XNum} {ctx : Ctx} {xp : Str} {e : Expr} {p : List Step} {q : QName} {ps : List Pred} {α : Type} [DecidableEq α]
  {k : ListKind α} {V : ListView α} {o : Node.Addr} {s n : Node}

/-- C114.  Every sequence of operations with any indices on a list field with several steps and at least one parent, if the field can read a new element without content: the items of the
parents, the results and the errors are as `Spec.overOp` says.  Only members of the parents change; the parents stay where they are. -/
theorem C114_history (h : ManyListAt eng number ctx xp e p q ps k V o s n) (hnew : V.fits (newElem q ps)) (ops : List (ListOp α))
    (hops : ∀ op ∈ ops, ∀ v ∈ op.values, V.storable v) :
    ∃ n', listOps eng ctx k xp e o ops s = ((overOps (V.item (newElem q ps)) (itemsOf V p q ps n) ops).1, s.modify o (fun _ => n')) ∧
      itemsOf V p q ps n' = (overOps (V.item (newElem q ps)) (itemsOf V p q ps n) ops).2 ∧
      readList eng ctx k xp o (s.modify o (fun _ => n')) = (.ok (overOps (V.item (newElem q ps)) (itemsOf V p q ps n) ops).2.flatten, s.modify o (fun _ => n')) ∧
      OnlyMembers p q ps n n' ∧ Step.matches p n' = Step.matches p n ∧
      ∀ b m, .elem b ∈ Step.matches p n → n.get b = some m → ∃ m', n'.get b = some m' ∧ SameButMembers q ps m m' := by
  obtain ⟨put, hS⟩ := h.kind.store_ok h.num
  obtain ⟨lx, ax, t, es, rfl, hd⟩ := deep_of h.field h.several
  obtain ⟨bs, hne, hP⟩ := h.parents
  obtain ⟨n', h1, h2, h3⟩ := manyRunOps_any h.engine hd hS hne hnew ops h.node hP hops
  exact ⟨n', h1, items_eq h2, manyData h.engine hd hS (by rw [Node.get_modify, h.node]; rfl) h2, h3, OnlyMembers.keeps h.field.ok h3⟩

/-- C114.  With one parent: `obj.field.insert(i, v)` with `0 ≤ i < len` succeeds, but the field then shows the old list with `v` instead of the `i`-th item (which is lost) and a blank item
at the end. -/
theorem C114_one_parent (h : ManyListAt eng number ctx xp e p q ps k V o s n) (hone : (Step.matches p n).length = 1) (hnew : V.fits (newElem q ps)) (v : α) (hv : V.storable v)
    (i : Nat) (hi : i < (selected (p ++ [.child q ps]) n).length) :
    ∃ s', listOp eng ctx k xp e o (.insert i v) s = (.ok .unit, s') ∧
      readList eng ctx k xp o s' = (.ok (((selected (p ++ [.child q ps]) n).map V.item).set i v ++ [V.item (newElem q ps)]), s') := by
  obtain ⟨put, hS⟩ := h.kind.store_ok h.num
  obtain ⟨bs, hne, hP⟩ := h.parents
  have hall := hP.all
  have heach := hP.each
  obtain ⟨lx, ax, t, es, rfl, hd⟩ := deep_of h.field h.several
  have hsel := items_selected (V := V) (n := n) h.field.ok
  have hl1 : (itemsOf V p q ps n).length = 1 := by
    have := heach.length_eq
    rw [hall, List.length_map] at hone
    omega
  obtain ⟨g, hg⟩ := List.length_eq_one_iff.1 hl1
  rw [hg] at hsel
  simp only [List.flatten_cons, List.flatten_nil, List.append_nil] at hsel
  have hgl : i < g.length := by rw [hsel]; simpa using hi
  obtain ⟨n', h1, h2, h3⟩ := manyRunOp_any h.engine hd hS h.node hP (hP.ne hne) hnew (.insert i v) (by simpa [ListOp.values] using hv)
  refine ⟨s.modify o (fun _ => n'), ?_, ?_⟩
  · refine h1.trans ?_
    rw [overOp, hg]
    simp only [List.flatten_cons, List.flatten_nil, List.append_nil]
    rw [if_neg (by omega), if_neg (by omega)]
  · have hr := manyData h.engine hd hS (by rw [Node.get_modify, h.node]; rfl) h2
    refine hr.trans ?_
    congr 2
    rw [overOp, hg, ← hsel]
    simp only [List.flatten_cons, List.flatten_nil, List.append_nil, addFirst]
    rw [if_neg (by omega), if_neg (by omega)]
    simp only [Int.natCast_nonneg, if_true, Int.toNat_natCast, setIn]
    rw [if_pos (by simp; omega)]
    simp [List.set_append_left _ _ hgl]

/-- C114.  Without a parent the list is empty, and every `insert` but `insert(0, v)` raises `IndexError` and changes nothing (`insert(0, v)` is an `append`, see C83). -/
theorem C114_no_parent (h : DeepListAt eng number ctx xp e p q ps k V o s n) (hnone : Step.matches p n = []) (v : α) (i : Int) (hi : i ≠ 0) :
    listOp eng ctx k xp e o (.insert i v) s = (.error .indexError, s) := by
  obtain ⟨lx, ax, t, es, rfl, hd⟩ := deep_of h.field h.several
  have := (runOp_empty (mapper := k.read) (store := k.store) (e := .binary lx .slash (.step ax t es)) (absentMatches h.engine hd h.node hnone) (.insert i v) (by simp [creates, hi])).1
  refine this.trans ?_
  simp only [pyList]
  rw [if_neg (by simp; omega)]

end

/-! ### the hypotheses can be met -/

/-- Three parents with the items `1`; `2`, `3`; none: `insert(0, x)` overwrites `1` and puts a blank item behind it; `insert(-1, y)` overwrites the last; `insert(-9, z)` fails. -/
example : ∃ s', listOps refEngine sampleCtx (strKind sampleCtx (ast c%"b/a")) c%"b/a" (ast c%"b/a") []
      [.insert 0 (some c%"x"), .insert (-1) (some c%"y"), .insert (-9) (some c%"z"), .insert 1 (some c%"w")] threeParents
      = ([.ok .unit, .ok .unit, .error .indexError, .ok .unit], s') ∧
    readList refEngine sampleCtx (strKind sampleCtx (ast c%"b/a")) c%"b/a" [] s' = (.ok [some c%"x", some c%"w", some [], some [], some c%"2", some c%"y"], s') := by
  obtain ⟨n', h1, -, h2, -⟩ := C114_history manyListAt_three ((C108_blanks xpathNumber_ok _ _).1 rfl).1
    [.insert 0 (some c%"x"), .insert (-1) (some c%"y"), .insert (-9) (some c%"z"), .insert 1 (some c%"w")] (by
      intro op hop v hv
      simp only [List.mem_cons, List.not_mem_nil, or_false] at hop
      rcases hop with rfl | rfl | rfl | rfl <;> simp only [ListOp.values, List.mem_cons, List.not_mem_nil, or_false] at hv
      all_goals (subst hv; exact ⟨_, rfl, by decide⟩))
  exact ⟨_, h1, h2⟩

theorem manyListAt_one : ManyListAt refEngine xpathNumber sampleCtx c%"b/a" (ast c%"b/a") [.child ⟨none, c%"b"⟩ []] ⟨none, c%"a"⟩ []
    (strKind sampleCtx (ast c%"b/a")) strView [] oneParent oneParent where
  engine := refEngine_ok
  num := xpathNumber_ok
  field := { parse := by decide, path := by rfl, canonical := by decide, ok := by decide }
  several := by simp
  kind := .str (by decide)
  node := rfl
  parent := by decide
  fits := by
    have : ∀ m ∈ selected [.child ⟨none, c%"b"⟩ []] oneParent, ∀ c ∈ members ⟨none, c%"a"⟩ [] m, c.children = [] := by decide
    exact this

/-- `["1", "2"]` becomes `["1", "x", ""]` by `insert(1, "x")`. -/
example : ∃ s', listOp refEngine sampleCtx (strKind sampleCtx (ast c%"b/a")) c%"b/a" (ast c%"b/a") [] (.insert 1 (some c%"x")) oneParent = (.ok .unit, s') ∧
    readList refEngine sampleCtx (strKind sampleCtx (ast c%"b/a")) c%"b/a" [] s' = (.ok [some c%"1", some c%"x", some []], s') :=
  C114_one_parent manyListAt_one (by decide) ((C108_blanks xpathNumber_ok _ _).1 rfl).1 (some c%"x") ⟨_, rfl, by decide⟩ 1 (by decide)

/-- No parent: `insert(1, "x")` fails. -/
example : listOp refEngine sampleCtx (strKind sampleCtx (ast c%"b/a")) c%"b/a" (ast c%"b/a") [] (.insert 1 (some c%"x")) noParent = (.error .indexError, noParent) :=
  C114_no_parent deepListAt_none (by decide) _ 1 (by decide)

end Props
