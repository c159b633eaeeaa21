import Verif.Props.DeepList
import Verif.XmlMap.ManyListRun
/-
Property C100: list fields whose XPath has several steps, on documents where several elements can hold the members.

Model: Verif/XmlMap/NodeList.lean.  Specification: Verif/Spec/{PyList, ListField, ManyList}.lean; `selected` is in Verif/Spec/DeepList.lean.

The XPath of the field is `p/q[ps]`, all steps are child steps; the parent path `p` selects at least one element (C83 is about at most one).  `s` is the document, `o` the
address of the XmlObject's element `n` in it.
-/
namespace Props
open XPath Xml Spec Fields

/-- A list field with the XPath `p/q[ps]` on the element at `o` of the document `s`: its kind is covered (see C25), there is a parent, and the members it has now are such
that it can handle them. -/
structure ManyListAt [PyUnicode] (eng : Engine) (number : Str → XNum) (ctx : Ctx) (xp : Str) (e : Expr) (p : List Step) (q : QName) (ps : List Pred) {α : Type}
    (k : ListKind α) (V : ListView α) (o : Node.Addr) (s n : Node) : Prop where
  engine : EngineOk eng
  num : NumberOk number
  field : SimpleField ctx xp e (p ++ [.child q ps])
  several : p ≠ []
  kind : Covered number ctx e q ps k V
  node : s.get o = some n
  parent : Step.matches p n ≠ []
  fits : ∀ m ∈ selected p n, ∀ c ∈ members q ps m, V.fits c

/-- The items of the parents, in document order: one list for each parent. -/
def itemsOf {α : Type} (V : ListView α) (p : List Step) (q : QName) (ps : List Pred) (n : Node) : List (List α) :=
  (selected p n).map (fun m => (members q ps m).map V.item)

section
variable [PyUnicode] {eng : Engine} {number : Str → XNum} {ctx : Ctx} {xp : Str} {e : Expr} {p : List Step} {q : QName} {ps : List Pred} {α : Type} [DecidableEq α]
  {k : ListKind α} {V : ListView α} {o : Node.Addr} {s n : Node}

omit [DecidableEq α] in
theorem elems_of : ∀ {l : List Ref}, (∀ x ∈ l, ∃ b, x = .elem b) → ∃ bs : List Node.Addr, l = bs.map .elem
  | [], _ => ⟨[], rfl⟩
  | x :: l, h => by
    obtain ⟨b, rfl⟩ := h x (by simp)
    obtain ⟨bs, rfl⟩ := elems_of (fun y hy => h y (List.mem_cons_of_mem _ hy))
    exact ⟨b :: bs, rfl⟩

omit [DecidableEq α] in
theorem parents_of (hok : pathOk (p ++ [.child q ps]) = true) (hf : ∀ m ∈ selected p n, ∀ c ∈ members q ps m, V.fits c) :
    ∃ bs, Parents p q ps V.fits V.item n bs (itemsOf V p q ps n) := by
  obtain ⟨hac, hpok, -⟩ := pathOk_append hok (by simp)
  obtain ⟨bs, hbs⟩ := elems_of (l := Step.matches p n) (fun x hx => matches_allChild hac hx)
  refine ⟨bs, hbs, ?_⟩
  have hget : ∀ b ∈ bs, ∃ m, n.get b = some m := fun b hb => by
    obtain ⟨m, hm, -⟩ := matches_split p n b hpok (by rw [hbs]; exact List.mem_map_of_mem hb)
    exact ⟨m, hm⟩
  unfold itemsOf selected at *
  rw [hbs] at hf ⊢
  clear hbs
  induction bs with
  | nil => exact .nil
  | cons b bs ih =>
    obtain ⟨m, hm⟩ := hget b (by simp)
    have hm' : n.get (Ref.elem b).addr = some m := hm
    simp only [List.map_cons, List.filterMap_cons, hm'] at hf ⊢
    refine .cons ⟨m, hm, hf m (by simp), rfl⟩ (ih (fun m' h' => hf m' (List.mem_cons_of_mem _ h')) (fun b' hb' => hget b' (List.mem_cons_of_mem _ hb')))

omit [DecidableEq α] in
/-- The lists of the parents are the items of the parents. -/
theorem items_eq {bs : List Node.Addr} {ls : List (List α)} (h : Parents p q ps V.fits V.item n bs ls) : itemsOf V p q ps n = ls := by
  unfold itemsOf selected
  rw [h.all]
  have h2 := h.each
  clear h
  induction h2 with
  | nil => rfl
  | @cons b l bs ls hb _ ih =>
    obtain ⟨m, hm, hl⟩ := hb
    have hm' : n.get (Ref.elem b).addr = some m := hm
    simp only [List.map_cons, List.filterMap_cons, hm', List.cons.injEq]
    exact ⟨hl.2, ih⟩

omit [DecidableEq α] in
/-- All items together are those of the elements that the XPath of the field selects. -/
theorem items_selected (hok : pathOk (p ++ [.child q ps]) = true) : (itemsOf V p q ps n).flatten = (selected (p ++ [.child q ps]) n).map V.item := by
  obtain ⟨hac, hpok, -⟩ := pathOk_append hok (by simp)
  obtain ⟨bs, hbs⟩ := elems_of (l := Step.matches p n) (fun x hx => matches_allChild hac hx)
  have hget : ∀ b ∈ bs, ∃ m, n.get b = some m := fun b hb => by
    obtain ⟨m, hm, -⟩ := matches_split p n b hpok (by rw [hbs]; exact List.mem_map_of_mem hb)
    exact ⟨m, hm⟩
  unfold itemsOf selected
  rw [matches_append hac, hbs]
  clear hbs
  induction bs with
  | nil => rfl
  | cons b bs ih =>
    obtain ⟨m, hm⟩ := hget b (by simp)
    have hm' : n.get (Ref.elem b).addr = some m := hm
    simp only [List.map_cons, List.filterMap_cons, hm', List.flatten_cons, List.flatMap_cons, List.filterMap_append, List.map_append]
    rw [ih (fun b' hb' => hget b' (List.mem_cons_of_mem _ hb'))]
    congr 2
    simp only [below, hm]
    rw [matches_single]
    exact (filterMap_members hm).symm

omit [DecidableEq α] in
theorem ManyListAt.parents (h : ManyListAt eng number ctx xp e p q ps k V o s n) : ∃ bs, bs ≠ [] ∧ Parents p q ps V.fits V.item n bs (itemsOf V p q ps n) := by
  obtain ⟨bs, hP⟩ := parents_of h.field.ok h.fits
  refine ⟨bs, ?_, hP⟩
  rintro rfl
  exact h.parent hP.all

/-- C100.  The field shows the items of all parents, one parent after the other: the items of the elements that its XPath selects. -/
theorem C100_read (h : ManyListAt eng number ctx xp e p q ps k V o s n) :
    readList eng ctx k xp o s = (.ok (itemsOf V p q ps n).flatten, s) ∧
    (itemsOf V p q ps n).flatten = (selected (p ++ [.child q ps]) n).map V.item := by
  obtain ⟨put, hS⟩ := h.kind.store_ok h.num
  obtain ⟨lx, ax, t, es, rfl, hd⟩ := deep_of h.field h.several
  obtain ⟨bs, -, hP⟩ := h.parents
  exact ⟨manyData h.engine hd hS h.node hP, items_selected h.field.ok⟩

/-- C100.  Every sequence of operations without insertions in front of the end does to the items of the parents what `groupOp` says: items are found, set and taken out by
their position among all items, new items go to the end of the first parent.  Only members of the parents change; the parents stay where they are, none comes or goes. -/
theorem C100_operations (h : ManyListAt eng number ctx xp e p q ps k V o s n) (ops : List (ListOp α)) (hat : groupEnds (itemsOf V p q ps n) ops)
    (hops : ∀ op ∈ ops, ∀ v ∈ op.values, V.storable v) :
    ∃ n', listOps eng ctx k xp e o ops s = ((groupOps (itemsOf V p q ps n) ops).1, s.modify o (fun _ => n')) ∧
      itemsOf V p q ps n' = (groupOps (itemsOf V p q ps n) ops).2 ∧
      readList eng ctx k xp o (s.modify o (fun _ => n')) = (.ok (groupOps (itemsOf V p q ps n) ops).2.flatten, s.modify o (fun _ => n')) ∧
      OnlyMembers p q ps n n' ∧ Step.matches p n' = Step.matches p n ∧
      ∀ b m, .elem b ∈ Step.matches p n → n.get b = some m → ∃ m', n'.get b = some m' ∧ SameButMembers q ps m m' := by
  obtain ⟨put, hS⟩ := h.kind.store_ok h.num
  obtain ⟨lx, ax, t, es, rfl, hd⟩ := deep_of h.field h.several
  obtain ⟨bs, hne, hP⟩ := h.parents
  obtain ⟨n', h1, h2, h3⟩ := manyRunOps h.engine hd hS hne ops h.node hP hat hops
  refine ⟨n', h1, items_eq h2, manyData h.engine hd hS (by rw [Node.get_modify, h.node]; rfl) h2, h3, OnlyMembers.keeps h.field.ok h3⟩

omit [PyUnicode] in
theorem groupOps_py : ∀ (ops : List (ListOp α)) (gs : List (List α)), addNone gs.flatten ops →
    (groupOps gs ops).1 = (pyListAll gs.flatten ops).1 ∧ (groupOps gs ops).2.flatten = (pyListAll gs.flatten ops).2 ∧ groupEnds gs ops
  | [], gs, _ => ⟨rfl, rfl, trivial⟩
  | op :: ops, gs, h => by
    have hfl := groupOp_flatten gs op h.1
    have hins : op.atEnd gs.flatten := by
      have := h.1
      cases op <;> first | trivial | exact absurd this id
    have hres := groupOp_fst gs op hins
    have ih := groupOps_py ops (groupOp gs op).2 (by rw [hfl]; exact h.2)
    rw [hfl] at ih
    refine ⟨?_, ih.2.1, hins, ih.2.2⟩
    rw [groupOps, pyListAll, hres, ih.1]

/-- C100.  Every sequence of operations that puts no new item in the list gives the results and errors of the same sequence on the Python list of all items, and at the end the
field shows the list that Python has. -/
theorem C100_list_refinement (h : ManyListAt eng number ctx xp e p q ps k V o s n) (ops : List (ListOp α))
    (hadd : addNone ((selected (p ++ [.child q ps]) n).map V.item) ops) (hops : ∀ op ∈ ops, ∀ v ∈ op.values, V.storable v) :
    ∃ s', listOps eng ctx k xp e o ops s = ((pyListAll ((selected (p ++ [.child q ps]) n).map V.item) ops).1, s') ∧
      readList eng ctx k xp o s' = (.ok (pyListAll ((selected (p ++ [.child q ps]) n).map V.item) ops).2, s') := by
  rw [← items_selected h.field.ok] at hadd ⊢
  obtain ⟨g1, g2, g3⟩ := groupOps_py ops _ hadd
  obtain ⟨n', h1, -, h2, -⟩ := C100_operations h ops g3 hops
  exact ⟨_, by rw [← g1]; exact h1, by rw [← g2]; exact h2⟩

/-- C100.  The result or error of a single operation, also of one that adds items, is that of the Python list of all items. -/
theorem C100_results (h : ManyListAt eng number ctx xp e p q ps k V o s n) (op : ListOp α) (hat : op.atEnd ((selected (p ++ [.child q ps]) n).map V.item))
    (hv : ∀ v ∈ op.values, V.storable v) :
    (listOp eng ctx k xp e o op s).1 = (pyList ((selected (p ++ [.child q ps]) n).map V.item) op).1 := by
  obtain ⟨put, hS⟩ := h.kind.store_ok h.num
  obtain ⟨lx, ax, t, es, rfl, hd⟩ := deep_of h.field h.several
  obtain ⟨bs, hne, hP⟩ := h.parents
  rw [← items_selected h.field.ok] at hat ⊢
  obtain ⟨n', h1, -⟩ := manyRunOp h.engine hd hS h.node hP (hP.ne hne) op hat hv
  rw [← groupOp_fst _ op hat]
  exact congrArg Prod.fst h1

/-- C100.  `obj.field.append(v)` puts a new member that shows `v` at the end of the first parent; nothing else changes. -/
theorem C100_append_position (h : ManyListAt eng number ctx xp e p q ps k V o s n) (v : α) (hv : V.storable v) :
    ∃ b m c, (Step.matches p n).head? = some (.elem b) ∧ n.get b = some m ∧ isMember q ps c = true ∧ V.item c = v ∧
      listOp eng ctx k xp e o (.append v) s = (.ok .unit, s.modify (o ++ b) (fun _ => m.withChildren (m.children ++ [c]))) := by
  obtain ⟨put, hS⟩ := h.kind.store_ok h.num
  obtain ⟨lx, ax, t, es, rfl, hd⟩ := deep_of h.field h.several
  obtain ⟨bs, hne, hP⟩ := h.parents
  obtain ⟨g, gs, hgs⟩ := List.exists_cons_of_ne_nil (hP.ne hne)
  rw [hgs] at hP
  have hok : okAll ps = true := by
    have := (pathOk_append hd.ok (by simp)).2.2
    simp only [pathOk, Bool.and_eq_true] at this
    exact this.1.1
  have hnew : isMember q ps (newElem q ps) = true := by simp [isMember, newElem_isElem, newElem_sat hok]
  obtain ⟨b, m, h1, h2, h3, -⟩ := manySet_end h.engine hd hS h.node hP hv
  refine ⟨b, m, put v (newElem q ps), by rw [hP.all, List.head?_map, h1]; rfl, h2, hS.new.member hnew v hv, hS.new.value v hv, ?_⟩
  have : listAppend eng ctx k.read k.store xp (.binary lx .slash (.step ax t es)) (.elem o) v s
      = (.ok (), s.modify (o ++ b) (fun _ => m.withChildren (m.children ++ [put v (newElem q ps)]))) := by
    unfold listAppend
    rw [bind_ok (manyLen h.engine hd hS h.node hP)]
    exact h3
  show (listAppend eng ctx k.read k.store xp (.binary lx .slash (.step ax t es)) (.elem o) v >>= fun _ => pure ListRes.unit) s = _
  rw [bind_ok this]
  rfl

/-- C100.  An operation that fails on the Python list of all items raises the same error on the field and leaves the document as it was. -/
theorem C100_errors_change_nothing (h : ManyListAt eng number ctx xp e p q ps k V o s n) (op : ListOp α)
    (hat : op.atEnd ((selected (p ++ [.child q ps]) n).map V.item)) (er : PyErr)
    (her : (pyList ((selected (p ++ [.child q ps]) n).map V.item) op).1 = .error er) : listOp eng ctx k xp e o op s = (.error er, s) := by
  obtain ⟨put, hS⟩ := h.kind.store_ok h.num
  obtain ⟨lx, ax, t, es, rfl, hd⟩ := deep_of h.field h.several
  obtain ⟨bs, hne, hP⟩ := h.parents
  rw [← items_selected h.field.ok] at hat her
  rw [← groupOp_fst _ op hat] at her
  exact manyRunOp_error h.engine hd hS h.node hP op hat her

/-- C100.  After `obj.field = vs` with at most as many values as the list has items the field shows `vs`, and only members of the parents changed. -/
theorem C100_assign (h : ManyListAt eng number ctx xp e p q ps k V o s n) (vs : List α) (hvs : ∀ v ∈ vs, V.storable v)
    (hlen : vs.length ≤ (selected (p ++ [.child q ps]) n).length) :
    ∃ n', writeList eng ctx k xp e o vs s = (.ok (), s.modify o (fun _ => n')) ∧
      readList eng ctx k xp o (s.modify o (fun _ => n')) = (.ok vs, s.modify o (fun _ => n')) ∧ OnlyMembers p q ps n n' := by
  obtain ⟨put, hS⟩ := h.kind.store_ok h.num
  obtain ⟨lx, ax, t, es, rfl, hd⟩ := deep_of h.field h.several
  obtain ⟨bs, hne, hP⟩ := h.parents
  obtain ⟨ls', e1, n', h1, h2, h3⟩ := manyAssign_short h.engine hd hS hne vs h.node hP (by rw [items_selected h.field.ok, List.length_map]; exact hlen) hvs
  have hr := manyData h.engine hd hS (show (s.modify o (fun _ => n')).get o = some n' by rw [Node.get_modify, h.node]; rfl) h2
  exact ⟨n', h1, by rw [← e1]; exact hr, h3⟩

/-- C100.  After `obj.field = vs` with more values than the list has items, the values that are too many are shown behind the items of the first parent: the field shows `vs` in
another order, unless only the first parent has items. -/
theorem C100_assign_longer (h : ManyListAt eng number ctx xp e p q ps k V o s n) (vs : List α) (hvs : ∀ v ∈ vs, V.storable v)
    (g : List α) (gs : List (List α)) (hg : itemsOf V p q ps n = g :: gs) (hlen : g.length + gs.flatten.length ≤ vs.length) :
    ∃ n', writeList eng ctx k xp e o vs s = (.ok (), s.modify o (fun _ => n')) ∧
      readList eng ctx k xp o (s.modify o (fun _ => n'))
        = (.ok (vs.take g.length ++ vs.drop (g.length + gs.flatten.length) ++ (vs.drop g.length).take gs.flatten.length), s.modify o (fun _ => n')) ∧
      OnlyMembers p q ps n n' := by
  obtain ⟨put, hS⟩ := h.kind.store_ok h.num
  obtain ⟨lx, ax, t, es, rfl, hd⟩ := deep_of h.field h.several
  obtain ⟨bs, hne, hP⟩ := h.parents
  rw [hg] at hP
  have hfl : (g :: gs).flatten.length = g.length + gs.flatten.length := by rw [List.flatten_cons, List.length_append]
  obtain ⟨ls', e1, n', h1, h2, h3⟩ := manyAssign_long h.engine hd hS hne vs h.node hP (by omega) hvs
  have hr := manyData h.engine hd hS (show (s.modify o (fun _ => n')).get o = some n' by rw [Node.get_modify, h.node]; rfl) h2
  refine ⟨n', h1, ?_, h3⟩
  simp only at hr
  rw [e1, hfl, List.drop_take, Nat.add_sub_cancel_left] at hr
  exact hr

/-- C100.  `del obj.field` removes every member of every parent and nothing else; the field then shows the empty list. -/
theorem C100_delete (h : ManyListAt eng number ctx xp e p q ps k V o s n) :
    ∃ n', deleteList eng ctx k xp o s = (.ok (), s.modify o (fun _ => n')) ∧ Step.matches (p ++ [.child q ps]) n' = [] ∧
      readList eng ctx k xp o (s.modify o (fun _ => n')) = (.ok [], s.modify o (fun _ => n')) ∧ OnlyMembers p q ps n n' := by
  obtain ⟨put, hS⟩ := h.kind.store_ok h.num
  obtain ⟨lx, ax, t, es, rfl, hd⟩ := deep_of h.field h.several
  obtain ⟨bs, hne, hP⟩ := h.parents
  obtain ⟨ls', e1, n', h1, h2, h3⟩ := manyDelete h.engine hd hS hne h.node hP
  have hn : (s.modify o (fun _ => n')).get o = some n' := by rw [Node.get_modify, h.node]; rfl
  have hr := manyData h.engine hd hS hn h2
  refine ⟨n', h1, ?_, by rw [← e1]; exact hr, h3⟩
  have hac := (pathOk_append h.field.ok (by simp)).1
  have hl := refs_length (o := []) h2.each
  simp only [e1, List.length_nil, List.length_eq_zero_iff] at hl
  rw [matches_append hac, h2.all, List.flatMap_map]
  rw [List.flatMap_eq_nil_iff] at hl ⊢
  intro b hb
  have := hl b hb
  unfold refsAt at this
  simpa using this

end

/-! ### the hypotheses can be met -/

/-- `<r><b><a>1</a><c/></b><x/><b><a>2</a><a>3</a></b><b/></r>`: three parents, with one, two and no members. -/
def threeParents : Node := .mk (.elem ⟨none, c%"r"⟩) [] none
  [.mk (.elem ⟨none, c%"b"⟩) [] none [.mk (.elem ⟨none, c%"a"⟩) [] (some c%"1") [] none, .mk (.elem ⟨none, c%"c"⟩) [] none [] none] none,
   .mk (.elem ⟨none, c%"x"⟩) [] none [] none,
   .mk (.elem ⟨none, c%"b"⟩) [] none [.mk (.elem ⟨none, c%"a"⟩) [] (some c%"2") [] none, .mk (.elem ⟨none, c%"a"⟩) [] (some c%"3") [] none] none,
   .mk (.elem ⟨none, c%"b"⟩) [] none [] none] none

theorem manyListAt_three : ManyListAt refEngine xpathNumber sampleCtx c%"b/a" (ast c%"b/a") [.child ⟨none, c%"b"⟩ []] ⟨none, c%"a"⟩ []
    (strKind sampleCtx (ast c%"b/a")) strView [] threeParents threeParents where
  engine := refEngine_ok
  num := xpathNumber_ok
  field := { parse := by decide, path := by rfl, canonical := by decide, ok := by decide }
  several := by simp
  kind := .str (by decide)
  node := rfl
  parent := by decide
  fits := by
    have : ∀ m ∈ selected [.child ⟨none, c%"b"⟩ []] threeParents, ∀ c ∈ members ⟨none, c%"a"⟩ [] m, c.children = [] := by decide
    exact this

/-- The items of the three parents. -/
example : itemsOf strView [.child ⟨none, c%"b"⟩ []] ⟨none, c%"a"⟩ [] threeParents = [[some c%"1"], [some c%"2", some c%"3"], []] := by decide

/-- A history: the last item is set, the second taken out, one is added: it comes behind the items of the first parent. -/
example : ∃ s', listOps refEngine sampleCtx (strKind sampleCtx (ast c%"b/a")) c%"b/a" (ast c%"b/a") []
      [.set (-1) (some c%"z"), .pop (some 1), .append (some c%"x"), .get 7, .index (some c%"z")] threeParents
      = ([.ok .unit, .ok (.val (some c%"2")), .ok .unit, .error .indexError, .ok (.nat 2)], s') ∧
    readList refEngine sampleCtx (strKind sampleCtx (ast c%"b/a")) c%"b/a" [] s' = (.ok [some c%"1", some c%"x", some c%"z"], s') := by
  obtain ⟨n', h1, -, h2, -⟩ := C100_operations manyListAt_three
    [.set (-1) (some c%"z"), .pop (some 1), .append (some c%"x"), .get 7, .index (some c%"z")]
    (by exact ⟨trivial, trivial, trivial, trivial, trivial, trivial⟩) (by
      intro op hop v hv
      simp only [List.mem_cons, List.not_mem_nil, or_false] at hop
      rcases hop with rfl | rfl | rfl | rfl | rfl <;> simp only [ListOp.values, List.mem_cons, List.not_mem_nil, or_false] at hv
      · subst hv; exact ⟨_, rfl, by decide⟩
      · subst hv; exact ⟨_, rfl, by decide⟩)
  exact ⟨_, h1, h2⟩

/-- C100 without additions is a Python list. -/
example : addNone ((selected [.child ⟨none, c%"b"⟩ [], .child ⟨none, c%"a"⟩ []] threeParents).map strView.item)
    [.set 0 (some c%"x"), .del 2, .remove (some c%"2"), .pop none, .pop none] :=
  ⟨by show (0 : Int) ≠ _; decide, trivial, trivial, trivial, trivial, trivial⟩

/-- C100 is false for a list of all items if an item is added: after `append("x")` the last item is still "3", and "x" is the second. -/
theorem C100_counterexample_append :
    let k := strKind sampleCtx (ast c%"b/a")
    readList refEngine sampleCtx k c%"b/a" [] threeParents = (.ok [some c%"1", some c%"2", some c%"3"], threeParents) ∧
    (readList refEngine sampleCtx k c%"b/a" [] (listOp refEngine sampleCtx k c%"b/a" (ast c%"b/a") [] (.append (some c%"x")) threeParents).2).1 =
      .ok [some c%"1", some c%"x", some c%"2", some c%"3"] := by
  constructor <;> decide

/-- C100 is false for assigning a longer list: `obj.field = ["p", "q", "r", "s"]` shows p, s, q, r. -/
theorem C100_counterexample_assign :
    let k := strKind sampleCtx (ast c%"b/a")
    (readList refEngine sampleCtx k c%"b/a" []
      (writeList refEngine sampleCtx k c%"b/a" (ast c%"b/a") [] [some c%"p", some c%"q", some c%"r", some c%"s"] threeParents).2).1 =
      .ok [some c%"p", some c%"s", some c%"q", some c%"r"] := by
  decide

/-! ### C100 applied further -/

example := C100_read manyListAt_three
example := C100_list_refinement manyListAt_three [.set 0 (some c%"x"), .del 2, .remove (some c%"2"), .pop none, .pop none]
  ⟨by show (0 : Int) ≠ _; decide, trivial, trivial, trivial, trivial, trivial⟩ (by
    intro op hop v hv
    simp only [List.mem_cons, List.not_mem_nil, or_false] at hop
    rcases hop with rfl | rfl | rfl | rfl | rfl
    · rw [show v = (some c%"x" : Option Str) from (List.mem_singleton (α := Option Str)).mp hv]; exact ⟨_, rfl, by decide⟩
    all_goals cases hv)
example := C100_results manyListAt_three (.append (some c%"x")) trivial (fun v hv => by
  rw [show v = (some c%"x" : Option Str) from (List.mem_singleton (α := Option Str)).mp hv]; exact ⟨_, rfl, by decide⟩)
example := C100_append_position manyListAt_three (some c%"x") ⟨_, rfl, by decide⟩
example := C100_errors_change_nothing manyListAt_three (.pop (some 7)) trivial .indexError (by decide)
example := C100_assign manyListAt_three [some c%"x", some c%"y"] (by
  intro v hv
  simp only [List.mem_cons, List.not_mem_nil, or_false] at hv
  rcases hv with rfl | rfl <;> exact ⟨_, rfl, by decide⟩) (by decide)
example := C100_assign_longer manyListAt_three [some c%"x", some c%"y", some c%"z", some c%"w"] (by
  intro v hv
  simp only [List.mem_cons, List.not_mem_nil, or_false] at hv
  rcases hv with rfl | rfl | rfl | rfl <;> exact ⟨_, rfl, by decide⟩) [some c%"1"] [[some c%"2", some c%"3"], []] (by decide) (by decide)

end Props
