import Verif.Spec.ListStmts
import Verif.Props.ListEnds
/-
Property C131: statements about a list field, with assignments and deletions of the whole list between its operations, and: however a list is emptied, the document is the same.

Model: `listOp`, `writeList`, `deleteList` (Verif/Props/ListField.lean, for Verif/XmlMap/NodeList.lean).  Specification: `ListStmt` (Verif/Spec/ListStmts.lean).
-/
namespace Props
open XPath Xml Spec Fields

section
variable [PyUnicode] {α : Type} [DecidableEq α] (eng : Engine) (ctx : Ctx) (k : ListKind α) (xp : Str) (e : Expr) (a : Node.Addr)

/-- A statement, executed. -/
def listStmt : ListStmt α → M (ListRes α)
  | .op o => listOp eng ctx k xp e a o
  | .assign vs => do
    writeList eng ctx k xp e a vs
    pure .unit
  | .delete => do
    deleteList eng ctx k xp a
    pure .unit

/-- One statement after the other; exceptions are caught. -/
def listStmts : List (ListStmt α) → Node → List (Except PyErr (ListRes α)) × Node
  | [], s => ([], s)
  | x :: xs, s => ((listStmt eng ctx k xp e a x s).1 :: (listStmts xs (listStmt eng ctx k xp e a x s).2).1, (listStmts xs (listStmt eng ctx k xp e a x s).2).2)

variable {eng ctx k xp e a} {number : Str → XNum} {q : QName} {ps : List Pred} {V : ListView α} {s n : Node}

/-- One statement. -/
theorem listStmt_run (h : ListAt eng number ctx xp e q ps k V a s n) (x : ListStmt α) (hx : x.allowed V.storable) :
    ∃ n', listStmt eng ctx k xp e a x s = ((x.python ((members q ps n).map V.item)).1, s.modify a (fun _ => n')) ∧
      (members q ps n').map V.item = (x.python ((members q ps n).map V.item)).2 ∧ SameButMembers q ps n n' ∧ ListAt eng number ctx xp e q ps k V a (s.modify a (fun _ => n')) n' := by
  obtain ⟨put, hS⟩ := h.kind.store_ok h.num
  obtain ⟨ax, t, es, rfl⟩ := res_single h.field.path
  have again : ∀ n', (∀ m ∈ members q ps n', V.fits m) → ListAt eng number ctx xp (.step ax t es) q ps k V a (s.modify a (fun _ => n')) n' := fun n' hf =>
    ⟨h.engine, h.num, h.field, h.kind, by rw [Node.get_modify, h.node]; rfl, hf⟩
  cases x with
  | op o =>
    obtain ⟨n', h1, h2, h3⟩ := runOp_run h.engine h.field.parse h.field.path (pathOk_single h.field.ok) hS h.node ⟨h.fits, rfl⟩ o hx.1 hx.2
    exact ⟨n', h1, h2.2, h3, again n' h2.1⟩
  | assign vs =>
    obtain ⟨n', h1, h2, h3⟩ := listAssign_run h.engine h.field.parse h.field.path (pathOk_single h.field.ok) hS vs h.node ⟨h.fits, rfl⟩ hx
    exact ⟨n', bind_ok h1, h2.2, h3, again n' h2.1⟩
  | delete =>
    obtain ⟨n', h1, h2, h3⟩ := listDeleteAll_run h.engine h.field.parse h.field.path hS h.node ⟨h.fits, rfl⟩
    exact ⟨n', bind_ok h1, h2.2, h3, again n' h2.1⟩

/-- C131.  Operations on a list field, assignments of the whole list and its deletion, in any order: each statement returns what it returns for a Python list, afterwards the field shows what the Python list is, and nothing but the members has changed. -/
theorem C131_history (h : ListAt eng number ctx xp e q ps k V a s n) (xs : List (ListStmt α)) (hxs : ∀ x ∈ xs, x.allowed V.storable) :
    ∃ n', listStmts eng ctx k xp e a xs s = ((ListStmt.pythonAll ((members q ps n).map V.item) xs).1, s.modify a (fun _ => n')) ∧
      readList eng ctx k xp a (s.modify a (fun _ => n')) = (.ok (ListStmt.pythonAll ((members q ps n).map V.item) xs).2, s.modify a (fun _ => n')) ∧
      (members q ps n').map V.item = (ListStmt.pythonAll ((members q ps n).map V.item) xs).2 ∧ SameButMembers q ps n n' := by
  induction xs generalizing s n with
  | nil =>
    obtain ⟨put, hS⟩ := h.kind.store_ok h.num
    refine ⟨n, ?_, ?_, rfl, same_refl n⟩
    · rw [Node.modify_id h.node rfl]; rfl
    · obtain ⟨ax, t, es, rfl⟩ := res_single h.field.path
      exact listData_run h.engine h.field.parse h.field.path hS (by rw [Node.get_modify, h.node]; rfl) ⟨h.fits, rfl⟩
  | cons x xs ih =>
    obtain ⟨n1, h1, h2, h3, h4⟩ := listStmt_run h x (hxs x List.mem_cons_self)
    obtain ⟨n2, g1, g2, g3, g4⟩ := ih h4 (fun y hy => hxs y (List.mem_cons_of_mem _ hy))
    rw [h2, Node.modify_modify] at g1
    rw [h2, Node.modify_modify] at g2
    rw [h2] at g3
    refine ⟨n2, ?_, g2, g3, same_trans h3 g4⟩
    show ((listStmt eng ctx k xp e a x s).1 :: (listStmts eng ctx k xp e a xs (listStmt eng ctx k xp e a x s).2).1, (listStmts eng ctx k xp e a xs (listStmt eng ctx k xp e a x s).2).2) = _
    rw [h1]
    show (_ :: (listStmts eng ctx k xp e a xs (s.modify a (fun _ => n1))).1, (listStmts eng ctx k xp e a xs (s.modify a (fun _ => n1))).2) = _
    rw [g1]
    rfl

omit [PyUnicode] [DecidableEq α] in
/-- An element without members, the same but for the members as another one, is that one without its members. -/
theorem emptied_eq {n n' : Node} (h : SameButMembers q ps n n') (hm : members q ps n' = []) : n' = n.withChildren (others q ps n) := by
  obtain ⟨h1, h2, h3, h4, h5⟩ := h
  have hc : n'.children = others q ps n' := by
    unfold others
    rw [List.filter_eq_self.mpr]
    intro c hc
    unfold members at hm
    rw [List.filter_eq_nil_iff] at hm
    simpa using hm c hc
  cases n; cases n'
  simp only [Node.tag, Node.attrs, Node.text, Node.tail, Node.children] at h1 h2 h3 h4 hc
  rw [← h5, ← hc, h1, h2, h3, h4]
  rfl

/-- C131.  However a list is emptied, the document is the same: the element without the members of the list, and everything else as it was. -/
theorem C131_emptied (h : ListAt eng number ctx xp e q ps k V a s n) (xs : List (ListStmt α)) (hxs : ∀ x ∈ xs, x.allowed V.storable)
    (hempty : (ListStmt.pythonAll ((members q ps n).map V.item) xs).2 = []) :
    (listStmts eng ctx k xp e a xs s).2 = s.modify a (fun _ => n.withChildren (others q ps n)) := by
  obtain ⟨n', h1, -, h3, h4⟩ := C131_history h xs hxs
  rw [hempty, List.map_eq_nil_iff] at h3
  rw [h1, emptied_eq h4 h3]

/-- C131.  Two sequences of statements that both leave the list empty lead to the same document: for example `del obj.list`, `obj.list = []`, or taking out one item after the other. -/
theorem C131_same (h : ListAt eng number ctx xp e q ps k V a s n) (xs ys : List (ListStmt α)) (hxs : ∀ x ∈ xs, x.allowed V.storable) (hys : ∀ x ∈ ys, x.allowed V.storable)
    (hx : (ListStmt.pythonAll ((members q ps n).map V.item) xs).2 = []) (hy : (ListStmt.pythonAll ((members q ps n).map V.item) ys).2 = []) :
    (listStmts eng ctx k xp e a xs s).2 = (listStmts eng ctx k xp e a ys s).2 := by
  rw [C131_emptied h xs hxs hx, C131_emptied h ys hys hy]

/-- C131.  `del obj.list` and `obj.list = []` do the same. -/
theorem C131_del_is_assign_nil (h : ListAt eng number ctx xp e q ps k V a s n) : deleteList eng ctx k xp a s = writeList eng ctx k xp e a [] s := by
  obtain ⟨put, hS⟩ := h.kind.store_ok h.num
  obtain ⟨ax, t, es, rfl⟩ := res_single h.field.path
  obtain ⟨n1, h1, h2, h3⟩ := listAssign_run h.engine h.field.parse h.field.path (pathOk_single h.field.ok) hS [] h.node ⟨h.fits, rfl⟩ (by simp)
  obtain ⟨n2, g1, g2, g3⟩ := listDeleteAll_run h.engine h.field.parse h.field.path hS h.node ⟨h.fits, rfl⟩
  show listDeleteAll _ _ _ _ _ _ = listAssign _ _ _ _ _ _ _ _ _
  rw [h1, g1, emptied_eq h3 (by simpa using h2.2), emptied_eq g3 (by simpa using g2.2)]

end

/-- The hypotheses are met: three ways to empty the list of the elements `a` with `n="1"`; the first one fills it before. -/
example : (listStmts refEngine sampleCtx (strKind sampleCtx (ast c%"a[@n='1']")) c%"a[@n='1']" (ast c%"a[@n='1']") [] [.assign [some c%"x", some c%"y", some c%"z"], .op (.pop none), .delete] listDoc).2 =
    (listStmts refEngine sampleCtx (strKind sampleCtx (ast c%"a[@n='1']")) c%"a[@n='1']" (ast c%"a[@n='1']") [] [.op (.del 0), .op (.remove (some c%"two"))] listDoc).2 :=
  C131_same listAt_str _ _ (by
    intro x hx
    simp only [List.mem_cons, List.not_mem_nil, or_false] at hx
    rcases hx with rfl | rfl | rfl
    · intro v hv
      simp only [List.mem_cons, List.not_mem_nil, or_false] at hv
      rcases hv with rfl | rfl | rfl <;> exact ⟨_, rfl, by decide⟩
    · exact ⟨rfl, fun v hv => by simp [ListOp.values] at hv⟩
    · trivial) (by
    intro x hx
    simp only [List.mem_cons, List.not_mem_nil, or_false] at hx
    rcases hx with rfl | rfl
    · exact ⟨rfl, fun v hv => by simp [ListOp.values] at hv⟩
    · exact ⟨rfl, fun v hv => by simp [ListOp.values] at hv⟩) (by decide) (by decide)

/-- C131 is false for other XPaths: with `a[1]`, `del obj.list` takes out the first `a` only, `obj.list = []` all of them. -/
theorem C131_counterexample_position :
    ((listDeleteAll headEngine sampleCtx readElem c%"a[1]" (.elem []) listDoc).2.children.map Node.tag = [.comment, .elem ⟨none, c%"b"⟩, .elem ⟨none, c%"a"⟩, .elem ⟨none, c%"a"⟩]) ∧
    ((listAssign headEngine sampleCtx readElem (storeText sampleCtx (fun v => .ok (some v)) (ast c%"a[1]")) c%"a[1]" (ast c%"a[1]") (.elem []) [] listDoc).2.children.map Node.tag = [.comment, .elem ⟨none, c%"b"⟩]) := ⟨rfl, rfl⟩

end Props
