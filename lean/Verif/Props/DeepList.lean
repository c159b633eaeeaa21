import Verif.Props.ListField
import Verif.XmlMap.DeepListRun
/-
Property C83: list fields whose XPath has several steps.

Model: Verif/XmlMap/NodeList.lean.  Specification: Verif/Spec/{PyList, ListField, DeepList}.lean.

The XPath of the field is `p/q[ps]`, all steps are child steps; the parent path `p` selects at most one element.  `s` is the document, `o` the address of the
XmlObject's element `n` in it.
-/
namespace Props
open XPath Xml Spec Fields

/-- A list field with the XPath `p/q[ps]` on the element at `o` of the document `s`: its kind is covered (see C25), there is at most one parent, and the members it has
now are such that it can handle them. -/
structure DeepListAt [PyUnicode] (eng : Engine) (number : Str → XNum) (ctx : Ctx) (xp : Str) (e : Expr) (p : List Step) (q : QName) (ps : List Pred) {α : Type}
    (k : ListKind α) (V : ListView α) (o : Node.Addr) (s n : Node) : Prop where
  engine : EngineOk eng
  num : NumberOk number
  field : SimpleField ctx xp e (p ++ [.child q ps])
  several : p ≠ []
  kind : Covered number ctx e q ps k V
  node : s.get o = some n
  parent : (Step.matches p n).length ≤ 1
  fits : ∀ m ∈ selected (p ++ [.child q ps]) n, V.fits m

section
variable [PyUnicode] {eng : Engine} {number : Str → XNum} {ctx : Ctx} {xp : Str} {e : Expr} {p : List Step} {q : QName} {ps : List Pred} {α : Type} [DecidableEq α]
  {k : ListKind α} {V : ListView α} {o : Node.Addr} {s n : Node}

theorem filterMap_members {n m : Node} {b : Node.Addr} (hb : n.get b = some m) :
    (((idxs (isMember q ps) m.children).map (fun i => Ref.elem [i])).map (Ref.under b)).filterMap (fun r => n.get r.addr) = members q ps m := by
  have key : ∀ (cs pre : List Node), m.children = pre ++ cs →
      ((idxs (isMember q ps) cs).map (fun i => i + pre.length)).filterMap (fun i => n.get (b ++ [i])) = cs.filter (isMember q ps) := by
    intro cs
    induction cs with
    | nil => intro pre _; rfl
    | cons c cs ih =>
      intro pre hpre
      have h2 := ih (pre ++ [c]) (by simp [hpre])
      have hget : n.get (b ++ [pre.length]) = some c := by
        rw [Node.get_append, hb]
        simp [Node.get_cons, hpre]
      rw [idxs]
      split_ifs with hc
      · rw [List.map_cons, List.filterMap_cons, Nat.zero_add, hget]
        simp only
        rw [List.filter_cons, if_pos hc]
        congr 1
        rw [← h2]
        simp [List.map_map, Function.comp_def, Nat.add_comm, Nat.add_left_comm]
      · rw [List.filter_cons, if_neg hc, ← h2]
        simp [List.map_map, Function.comp_def, Nat.add_comm, Nat.add_left_comm]
  have := key m.children [] rfl
  simp only [List.length_nil, Nat.add_zero, List.map_id'] at this
  rw [members, ← this]
  simp [List.filterMap_map, Function.comp_def, Ref.under, Ref.addr]

theorem selected_there (hac : allChild p = true) {m : Node} {b : Node.Addr} (hb : Step.matches p n = [.elem b]) (hm : n.get b = some m) :
    selected (p ++ [.child q ps]) n = members q ps m := by
  unfold selected
  rw [matches_below hac hb hm, matches_single]
  exact filterMap_members hm

theorem selected_absent (hac : allChild p = true) (hb : Step.matches p n = []) : selected (p ++ [.child q ps]) n = [] := by
  unfold selected
  rw [matches_absent hac hb]
  rfl

theorem DeepListAt.holds (h : DeepListAt eng number ctx xp e p q ps k V o s n) :
    DeepHolds p q ps V.fits V.item n ((selected (p ++ [.child q ps]) n).map V.item) := by
  have hac := (pathOk_append h.field.ok (by simp)).1
  have hf := h.fits
  rcases hm : Step.matches p n with _ | ⟨x, r⟩
  · exact .inr ⟨hm, by rw [selected_absent hac hm]; rfl⟩
  · have h1 := h.parent
    rw [hm] at h1
    have hr : r = [] := by
      cases r with
      | nil => rfl
      | cons y r => simp at h1
    subst hr
    obtain ⟨b, rfl⟩ := matches_allChild hac (n := n) (x := x) (by rw [hm]; simp)
    obtain ⟨m, hb, -⟩ := matches_split p n b (pathOk_append h.field.ok (by simp)).2.1 (by rw [hm]; simp)
    rw [selected_there hac hm hb] at hf ⊢
    exact .inl ⟨b, m, hm, hb, hf, rfl⟩

/-- The items that a list shows are those of the elements that its XPath selects. -/
theorem holds_selected {l : List α} (hac : allChild p = true) (h : DeepHolds p q ps V.fits V.item n l) :
    (selected (p ++ [.child q ps]) n).map V.item = l := by
  rcases h with ⟨b, m, h1, h2, h3⟩ | ⟨h1, rfl⟩
  · rw [selected_there hac h1 h2]; exact h3.2
  · rw [selected_absent hac h1]; rfl

/-- C83.  Every sequence of operations without insertions in front of the end (`atEnds`) gives the results and errors of the same sequence on the Python list of the items,
and at the end the field shows the list that Python has. -/
theorem C83_list_refinement (h : DeepListAt eng number ctx xp e p q ps k V o s n) (ops : List (ListOp α))
    (hat : atEnds ((selected (p ++ [.child q ps]) n).map V.item) ops) (hops : ∀ op ∈ ops, ∀ v ∈ op.values, V.storable v) :
    ∃ s', listOps eng ctx k xp e o ops s = ((pyListAll ((selected (p ++ [.child q ps]) n).map V.item) ops).1, s') ∧
      readList eng ctx k xp o s' = (.ok (pyListAll ((selected (p ++ [.child q ps]) n).map V.item) ops).2, s') := by
  obtain ⟨put, hS⟩ := h.kind.store_ok h.num
  obtain ⟨lx, ax, t, es, rfl, hd⟩ := deep_of h.field h.several
  obtain ⟨n', h1, h2, -⟩ := deepRunOps h.engine hd hS ops h.node h.holds hat hops
  exact ⟨_, h1, deepData h.engine hd hS (by rw [Node.get_modify, h.node]; rfl) h2⟩

/-- C83.  Such a sequence changes only the members: the document outside of the XmlObject's element stays; this element stays or the single parent of the members, which is
created if it was not there, changes only in its members; and no second parent comes into being. -/
theorem C83_frame (h : DeepListAt eng number ctx xp e p q ps k V o s n) (ops : List (ListOp α))
    (hat : atEnds ((selected (p ++ [.child q ps]) n).map V.item) ops) (hops : ∀ op ∈ ops, ∀ v ∈ op.values, V.storable v) :
    ∃ n', (listOps eng ctx k xp e o ops s).2 = s.modify o (fun _ => n') ∧ DeepSame p q ps n n' ∧ (Step.matches p n').length ≤ 1 := by
  obtain ⟨put, hS⟩ := h.kind.store_ok h.num
  obtain ⟨lx, ax, t, es, rfl, hd⟩ := deep_of h.field h.several
  obtain ⟨n', h1, h2, h3⟩ := deepRunOps h.engine hd hS ops h.node h.holds hat hops
  refine ⟨n', congrArg Prod.snd h1, h3, ?_⟩
  rcases h2 with ⟨b, m, g, -⟩ | ⟨g, -⟩ <;> rw [g] <;> simp

/-- C83.  After `obj.field = vs` the field shows `vs`, whatever it showed before, and only members changed. -/
theorem C83_assign (h : DeepListAt eng number ctx xp e p q ps k V o s n) (vs : List α) (hvs : ∀ v ∈ vs, V.storable v) :
    ∃ n', writeList eng ctx k xp e o vs s = (.ok (), s.modify o (fun _ => n')) ∧
      readList eng ctx k xp o (s.modify o (fun _ => n')) = (.ok vs, s.modify o (fun _ => n')) ∧
      (selected (p ++ [.child q ps]) n').map V.item = vs ∧ DeepSame p q ps n n' := by
  obtain ⟨put, hS⟩ := h.kind.store_ok h.num
  obtain ⟨lx, ax, t, es, rfl, hd⟩ := deep_of h.field h.several
  obtain ⟨n', h1, h2, h3⟩ := deepAssign h.engine hd hS vs h.node h.holds hvs
  exact ⟨n', h1, deepData h.engine hd hS (by rw [Node.get_modify, h.node]; rfl) h2, holds_selected (pathOk_append h.field.ok (by simp)).1 h2, h3⟩

/-- C83.  `del obj.field` removes every member and nothing else: the parent stays, and none is created; the field then shows the empty list. -/
theorem C83_delete (h : DeepListAt eng number ctx xp e p q ps k V o s n) :
    ∃ n', deleteList eng ctx k xp o s = (.ok (), s.modify o (fun _ => n')) ∧ Step.matches (p ++ [.child q ps]) n' = [] ∧
      readList eng ctx k xp o (s.modify o (fun _ => n')) = (.ok [], s.modify o (fun _ => n')) ∧
      (n' = n ∨ ∃ b m m', Step.matches p n = [.elem b] ∧ n.get b = some m ∧ SameButMembers q ps m m' ∧ n' = n.modify b (fun _ => m')) := by
  obtain ⟨put, hS⟩ := h.kind.store_ok h.num
  obtain ⟨lx, ax, t, es, rfl, hd⟩ := deep_of h.field h.several
  have hac := (pathOk_append h.field.ok (by simp)).1
  obtain ⟨n', h1, h2, h3⟩ := deepDelete h.engine hd hS h.node h.holds
  have hnil : ∀ n' : Node, DeepHolds p q ps V.fits V.item n' [] → Step.matches (p ++ [.child q ps]) n' = [] := by
    rintro n' (⟨b, m, g1, g2, g3⟩ | ⟨g1, -⟩)
    · have : members q ps m = [] := by simpa using g3.2
      rw [matches_below hac g1 g2, matches_single]
      have : idxs (isMember q ps) m.children = [] := by
        rw [← List.length_eq_zero_iff, idxs_length]
        have this : m.children.filter (isMember q ps) = [] := this
        rw [this]; rfl
      rw [this]; rfl
    · exact matches_absent hac g1 _
  rcases hm : Step.matches p n with _ | ⟨x, r⟩
  · -- no parent: nothing happens
    have : deleteList eng ctx k xp o s = (.ok (), s) := by
      show listDeleteAll eng ctx k.read xp (.elem o) s = _
      unfold listDeleteAll
      rw [bind_ok (absentMatches h.engine hd h.node hm)]
      rfl
    have hs : s.modify o (fun _ => n) = s := Node.modify_id h.node rfl
    refine ⟨n, by rw [hs]; exact this, matches_absent hac hm _, ?_, .inl rfl⟩
    rw [hs]
    exact deepData h.engine hd hS h.node (.inr ⟨hm, rfl⟩)
  · refine ⟨n', h1, hnil n' h2, deepData h.engine hd hS (by rw [Node.get_modify, h.node]; rfl) h2, ?_⟩
    rcases h3 with rfl | ⟨b, m, m', g1, g2, g3, g4⟩
    · exact .inl rfl
    · have hr := h.parent
      rw [hm] at hr
      have : r = [] := by
        cases r with
        | nil => rfl
        | cons y r => simp at hr
      subst this
      obtain ⟨b', rfl⟩ := matches_allChild hac (n := n) (x := x) (by rw [hm]; simp)
      rw [ensure_there hm] at g1 g2 g4
      exact .inr ⟨b, m, m', by rw [← hm]; exact g1, g2, g3, g4⟩

/-- C83.  `obj.field.append(v)` puts a new member that shows `v` at the end of the parent, which is created if it is missing; nothing else changes. -/
theorem C83_append_position (h : DeepListAt eng number ctx xp e p q ps k V o s n) (v : α) (hv : V.storable v) :
    ∃ b m c, Step.matches p (ensure p n) = [.elem b] ∧ (ensure p n).get b = some m ∧ isMember q ps c = true ∧ V.item c = v ∧
      listOp eng ctx k xp e o (.append v) s
        = (.ok .unit, s.modify o (fun _ => (ensure p n).modify b (fun _ => m.withChildren (m.children ++ [c])))) := by
  obtain ⟨put, hS⟩ := h.kind.store_ok h.num
  obtain ⟨lx, ax, t, es, rfl, hd⟩ := deep_of h.field h.several
  have hok : okAll ps = true := by
    have := (pathOk_append hd.ok (by simp)).2.2
    simp only [pathOk, Bool.and_eq_true] at this
    exact this.1.1
  have hnew : isMember q ps (newElem q ps) = true := by simp [isMember, newElem_isElem, newElem_sat hok]
  have main : ∀ {s0 n0 m : Node} {b : Node.Addr} {l : List α}, There p o b s0 n0 m → Holds q ps V.fits V.item m l →
      runOp eng ctx k.read k.store xp (.binary lx .slash (.step ax t es)) (.elem o) (.append v) s0
        = (.ok .unit, s0.modify (o ++ b) (fun _ => m.withChildren (m.children ++ [put v (newElem q ps)]))) := by
    intro s0 n0 m b l hth hl
    have h1 := (deepSet_end h.engine hd hS hth hl hv).1
    have : listAppend eng ctx k.read k.store xp (.binary lx .slash (.step ax t es)) (.elem o) v s0
        = (.ok (), s0.modify (o ++ b) (fun _ => m.withChildren (m.children ++ [put v (newElem q ps)]))) := by
      unfold listAppend
      rw [bind_ok (deepLen h.engine hd hS hth.obj (.inl ⟨b, m, hth.one, hth.elem, hl⟩))]
      exact h1
    show (listAppend eng ctx k.read k.store xp (.binary lx .slash (.step ax t es)) (.elem o) v >>= fun _ => pure ListRes.unit) s0 = _
    rw [bind_ok this]
    rfl
  rcases h.holds with ⟨b, m, g1, g2, g3⟩ | ⟨g1, g2⟩
  · refine ⟨b, m, _, by rw [ensure_there g1]; exact g1, by rw [ensure_there g1]; exact g2, hS.new.member hnew v hv, hS.new.value v hv, ?_⟩
    rw [ensure_there g1]
    refine (main ⟨h.node, g1, g2⟩ g3).trans ?_
    congr 1
    rw [Node.modify_append]
    exact Node.modify_congr h.node rfl
  · obtain ⟨b, m, hth, hm, -⟩ := absent_create h.engine hd h.node g1
    refine ⟨b, m, _, hth.one, hth.elem, hS.new.member hnew v hv, hS.new.value v hv, ?_⟩
    refine (absentRunOp h.engine hd hS h.node g1 (.append v) rfl).trans ((main hth (l := []) ⟨by rw [hm]; simp, by rw [hm]; rfl⟩).trans ?_)
    congr 1
    rw [Node.modify_append, Node.modify_modify]
    exact Node.modify_congr h.node rfl

/-- C83.  An operation that fails on the Python list raises the same error on the field and leaves the document as it was. -/
theorem C83_errors_change_nothing (h : DeepListAt eng number ctx xp e p q ps k V o s n) (op : ListOp α)
    (hat : op.atEnd ((selected (p ++ [.child q ps]) n).map V.item)) (er : PyErr)
    (her : (pyList ((selected (p ++ [.child q ps]) n).map V.item) op).1 = .error er) : listOp eng ctx k xp e o op s = (.error er, s) := by
  obtain ⟨put, hS⟩ := h.kind.store_ok h.num
  obtain ⟨lx, ax, t, es, rfl, hd⟩ := deep_of h.field h.several
  exact deepRunOp_error h.engine hd hS h.node h.holds op hat her

end

/-! ### the hypotheses can be met -/

/-- `<r k="v"><x/><b>t<a>1</a><c/><a>2</a>u</b></r>`: one parent with two members. -/
def oneParent : Node := .mk (.elem ⟨none, c%"r"⟩) [(⟨none, c%"k"⟩, c%"v")] none
  [.mk (.elem ⟨none, c%"x"⟩) [] none [] none,
   .mk (.elem ⟨none, c%"b"⟩) [] (some c%"t") [.mk (.elem ⟨none, c%"a"⟩) [] (some c%"1") [] none, .mk (.elem ⟨none, c%"c"⟩) [] none [] none,
    .mk (.elem ⟨none, c%"a"⟩) [] (some c%"2") [] (some c%"u")] none] none

/-- `<r><x/></r>`: no parent. -/
def noParent : Node := .mk (.elem ⟨none, c%"r"⟩) [] none [.mk (.elem ⟨none, c%"x"⟩) [] none [] none] none

theorem deepListAt_one : DeepListAt refEngine xpathNumber sampleCtx c%"b/a" (ast c%"b/a") [.child ⟨none, c%"b"⟩ []] ⟨none, c%"a"⟩ []
    (strKind sampleCtx (ast c%"b/a")) strView [] oneParent oneParent where
  engine := refEngine_ok
  num := xpathNumber_ok
  field := { parse := by decide, path := by rfl, canonical := by decide, ok := by decide }
  several := by simp
  kind := .str (by decide)
  node := rfl
  parent := by decide
  fits := by
    have : ∀ m ∈ selected [.child ⟨none, c%"b"⟩ [], .child ⟨none, c%"a"⟩ []] oneParent, m.children = [] := by decide
    exact this

theorem deepListAt_none : DeepListAt refEngine xpathNumber sampleCtx c%"b/a" (ast c%"b/a") [.child ⟨none, c%"b"⟩ []] ⟨none, c%"a"⟩ []
    (strKind sampleCtx (ast c%"b/a")) strView [] noParent noParent where
  engine := refEngine_ok
  num := xpathNumber_ok
  field := { parse := by decide, path := by rfl, canonical := by decide, ok := by decide }
  several := by simp
  kind := .str (by decide)
  node := rfl
  parent := by decide
  fits := by
    have : ∀ m ∈ selected [.child ⟨none, c%"b"⟩ [], .child ⟨none, c%"a"⟩ []] noParent, m.children = [] := by decide
    exact this

/-- A history on the missing parent: pop fails, append and extend create the parent and three members, the middle one is deleted. -/
example : ∃ s', listOps refEngine sampleCtx (strKind sampleCtx (ast c%"b/a")) c%"b/a" (ast c%"b/a") []
      [.pop none, .append (some c%"x"), .extend [some c%"y", some c%"z"], .del 1, .insert 2 (some c%"w")] noParent
      = ([.error .indexError, .ok .unit, .ok .unit, .ok .unit, .ok .unit], s') ∧
    readList refEngine sampleCtx (strKind sampleCtx (ast c%"b/a")) c%"b/a" [] s' = (.ok [some c%"x", some c%"z", some c%"w"], s') := by
  obtain ⟨s', h1, h2⟩ := C83_list_refinement deepListAt_none
    [.pop none, .append (some c%"x"), .extend [some c%"y", some c%"z"], .del 1, .insert 2 (some c%"w")]
    (by refine ⟨trivial, trivial, trivial, trivial, ?_, trivial⟩; show ((2 : Nat) : Int) ≤ 2; decide) (by
      intro op hop v hv
      simp only [List.mem_cons, List.not_mem_nil, or_false] at hop
      rcases hop with rfl | rfl | rfl | rfl | rfl <;> simp only [ListOp.values, List.mem_cons, List.not_mem_nil, or_false] at hv
      · subst hv; exact ⟨_, rfl, by decide⟩
      · rcases hv with rfl | rfl <;> exact ⟨_, rfl, by decide⟩
      · subst hv; exact ⟨_, rfl, by decide⟩)
  refine ⟨s', ?_, ?_⟩
  · rw [h1]; congr 1
  · rw [h2]; congr 1

/-- C83 for a list with members: assign three values. -/
example : ∃ n', writeList refEngine sampleCtx (strKind sampleCtx (ast c%"b/a")) c%"b/a" (ast c%"b/a") [] [some c%"x", some c%"y", some c%"z"] oneParent = (.ok (), n') ∧
    readList refEngine sampleCtx (strKind sampleCtx (ast c%"b/a")) c%"b/a" [] n' = (.ok [some c%"x", some c%"y", some c%"z"], n') := by
  obtain ⟨n', h1, h2, -⟩ := C83_assign deepListAt_one [some c%"x", some c%"y", some c%"z"] (by
    intro v hv
    simp only [List.mem_cons, List.not_mem_nil, or_false] at hv
    rcases hv with rfl | rfl | rfl <;> exact ⟨_, rfl, by decide⟩)
  exact ⟨_, h1, h2⟩

/-- C83 is false for an insertion in front of the end: `insert(0, x)` on `b/a` overwrites the first item, and a new empty member appears at the end
(`_create_xml_node` ignores the position if the XPath has several steps). -/
theorem C83_counterexample_insert :
    let k := strKind sampleCtx (ast c%"b/a")
    readList refEngine sampleCtx k c%"b/a" [] oneParent = (.ok [some c%"1", some c%"2"], oneParent) ∧
    (readList refEngine sampleCtx k c%"b/a" [] (listOp refEngine sampleCtx k c%"b/a" (ast c%"b/a") [] (.insert 0 (some c%"x")) oneParent).2).1 =
      .ok [some c%"x", some c%"2", some []] := by
  constructor <;> decide

/-! ### C83 applied to the sample documents -/

example := C83_frame deepListAt_one [.append (some c%"x"), .pop none] ⟨trivial, trivial, trivial⟩ (by
  intro op hop v hv
  simp only [List.mem_cons, List.not_mem_nil, or_false] at hop
  rcases hop with rfl | rfl
  · rw [show v = (some c%"x" : Option Str) from (List.mem_singleton (α := Option Str)).mp hv]; exact ⟨_, rfl, by decide⟩
  · cases hv)
example := C83_delete deepListAt_one
example := C83_append_position deepListAt_none (some c%"x") ⟨_, rfl, by decide⟩

end Props
