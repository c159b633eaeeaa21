import Verif.Props.FieldDelete
/-
Property C22, continued: assigning an element of the same document to a NodeField (`obj.field = obj.other`).

Model: `managerSet`, `graftOwn` in Verif/XmlMap/Manager.lean.
-/
namespace Props
open XPath Xml Spec Fields

/-- Assigning an object whose element is at address `b` of the same document. -/
def writeOwn [PyUnicode] (eng : Engine) (ctx : Ctx) (b : Node.Addr) (xp : Str) (e : Expr) (node : Ref) : M Unit :=
  managerSet eng ctx (.ok (some (.elem (.own b)))) xp e node

/-- The field's element is created first if it is missing. -/
theorem own_split [PyUnicode] (eng : Engine) (heng : EngineOk eng) (ctx : Ctx) (xp : Str) (e : Expr) (p : List Step)
    (hf : SimpleField ctx xp e p) (hcs : childSteps p = true) (v : ElemVal) (a : Node.Addr) (s n : Node) (hs : s.get a = some n) :
    ∃ t s₁ m, managerCreate eng ctx xp e (.elem a) s = (.ok (.ref (.elem (a ++ t))), s₁) ∧ s₁.get (a ++ t) = some m ∧
      (Step.matches p n ≠ [] → s₁ = s) ∧
      managerSet eng ctx (.ok (some (.elem v))) xp e (.elem a) s = setValue ctx (.ref (.elem (a ++ t))) (.elem v) (findTerminalStep e) s₁ := by
  have hac := childSteps_allChild hcs
  have hnt : p.getLast? ≠ some .text := by
    intro h
    obtain ⟨p', rfl⟩ := getLast?_split h
    simp [childSteps] at hcs
  obtain ⟨r, s₁, n₁, h1, -, h3, ⟨x, h4, rfl⟩, h5⟩ := C21_create_idempotent eng heng ctx xp e p hf hnt a s n hs
  obtain ⟨b, rfl⟩ := matches_allChild hac (List.mem_of_mem_head? h4)
  obtain ⟨m, hm⟩ := get_of_match _ _ _ (List.mem_of_mem_head? h4)
  have hg : s₁.get (a ++ b) = some m := by rw [Node.get_append, h3]; exact hm
  refine ⟨b, s₁, m, h1, hg, h5, ?_⟩
  have hset : managerSet eng ctx (.ok (some (.elem v))) xp e (.elem a) s = (do
      let f ← managerCreate eng ctx xp e (.elem a)
      setValue ctx f (.elem v) (findTerminalStep e) : M Unit) s := by
    unfold managerSet managerCreate
    rw [bind_ok (ofExcept_run _ s)]
    obtain ⟨o, ho⟩ := findNode_state (eng := eng) (ctx := ctx) xp (.elem a) s
    cases o with
    | error er => rw [bind_err ho, bind_err (bind_err ho)]
    | ok o =>
      rw [bind_ok ho, bind_assoc', bind_ok ho]
      cases o with
      | some f => rfl
      | none =>
        simp only
        rw [bind_assoc']
        rfl
  rw [hset, bind_ok h1]
  rfl

/-- C22.  Assigning an element `v` of the same document that neither contains the field's element nor is contained in it: the children of `v` move (they are not
copied): the field's element gets the attributes, text and children of `v`, `v` keeps its own attributes and text and has no children any more; nothing
else changes. -/
theorem C22_move [PyUnicode] (eng : Engine) (heng : EngineOk eng) (ctx : Ctx) (xp : Str) (e : Expr) (p : List Step)
    (hf : SimpleField ctx xp e p) (hcs : childSteps p = true) (a : Node.Addr) (s n : Node) (hs : s.get a = some n)
    (t : Node.Addr) (s₁ m v : Node) (hc : managerCreate eng ctx xp e (.elem a) s = (.ok (.ref (.elem (a ++ t))), s₁)) (hm : s₁.get (a ++ t) = some m)
    (b : Node.Addr) (hb : s₁.get b = some v) (hv : (v.attrs.map Prod.fst).Nodup) (h1 : ¬ b <+: a ++ t) (h2 : ¬ a ++ t <+: b) :
    ∃ s', writeOwn eng ctx b xp e (.elem a) s = (.ok (), s') ∧
      s'.get (a ++ t) = some (.mk m.tag v.attrs v.text v.children none) ∧ s'.get b = some (.mk v.tag v.attrs v.text [] v.tail) ∧
      s' = (s₁.modify b (fun _ => .mk v.tag v.attrs v.text [] v.tail)).modify (a ++ t) (fun _ => .mk m.tag v.attrs v.text v.children none) := by
  obtain ⟨t', s₁', m', hc', hm', -, hw⟩ := own_split eng heng ctx xp e p hf hcs (.own b) a s n hs
  rw [hc] at hc'
  simp only [Prod.mk.injEq, Except.ok.injEq, Found.ref.injEq, Ref.elem.injEq, List.append_cancel_left_eq] at hc'
  obtain ⟨rfl, rfl⟩ := hc'
  have hne : a ++ t ≠ b := fun h => h1 (h ▸ List.prefix_refl _)
  have hrun : writeOwn eng ctx b xp e (.elem a) s = (.ok (), (s₁.modify b graftRest).modify (a ++ t) (graftOnto v)) := by
    unfold writeOwn
    rw [hw]
    show graftOwn (a ++ t) b s₁ = _
    unfold graftOwn
    rw [if_neg hne, if_neg h1, bind_ok (nodeAt_run hb), if_pos h2]
    rfl
  have e1 : s₁.modify b graftRest = s₁.modify b (fun _ => .mk v.tag v.attrs v.text [] v.tail) :=
    Node.modify_congr hb (by cases v; rfl)
  have hg : (s₁.modify b (fun _ => Node.mk v.tag v.attrs v.text [] v.tail)).get (a ++ t) = some m := by
    rw [Node.get_modify_other _ _ h1 h2, hm]
  have e2 : (s₁.modify b (fun _ => Node.mk v.tag v.attrs v.text [] v.tail)).modify (a ++ t) (graftOnto v)
      = (s₁.modify b (fun _ => .mk v.tag v.attrs v.text [] v.tail)).modify (a ++ t) (fun _ => .mk m.tag v.attrs v.text v.children none) :=
    Node.modify_congr hg (graftOnto_eq hv m)
  refine ⟨_, hrun, ?_, ?_, ?_⟩
  · rw [e1, e2, Node.get_modify, hg]; rfl
  · rw [e1, e2, Node.get_modify_other _ _ h2 h1, Node.get_modify, hb]; rfl
  · rw [e1, e2]

/-- `<r><a/><b x="1">t<c/></b></r>` -/
def movable : Node := bare.withChildren [Node.empty ⟨none, c%"a"⟩,
  .mk (.elem ⟨none, c%"b"⟩) [(⟨none, c%"x"⟩, c%"1")] (some c%"t") [Node.empty ⟨none, c%"c"⟩] none]

/-- `obj.a = obj.b` there; and `obj.n = obj.b` where `n` is missing. -/
example : (∃ s', writeOwn refEngine sampleCtx [1] c%"a" (ast c%"a") (.elem []) movable = (.ok (), s') ∧
      s'.get [0] = some (.mk (.elem ⟨none, c%"a"⟩) [(⟨none, c%"x"⟩, c%"1")] (some c%"t") [Node.empty ⟨none, c%"c"⟩] none) ∧
      s'.get [1] = some (.mk (.elem ⟨none, c%"b"⟩) [(⟨none, c%"x"⟩, c%"1")] (some c%"t") [] none)) ∧
    (∃ s', writeOwn refEngine sampleCtx [1] c%"n" (ast c%"n") (.elem []) movable = (.ok (), s') ∧
      s'.get [2] = some (.mk (.elem ⟨none, c%"n"⟩) [(⟨none, c%"x"⟩, c%"1")] (some c%"t") [Node.empty ⟨none, c%"c"⟩] none)) := by
  constructor
  · obtain ⟨s', h1, h2, h3, -⟩ := C22_move refEngine refEngine_ok sampleCtx c%"a" (ast c%"a") (steps sampleCtx c%"a")
      ⟨by decide, by rfl, by decide, by decide⟩ (by decide) [] movable movable rfl [0] movable (Node.empty ⟨none, c%"a"⟩) _ (by decide) (by rfl) [1] (by rfl)
      (by decide) (by decide) (by decide)
    exact ⟨s', h1, h2, h3⟩
  · obtain ⟨s', h1, h2, -, -⟩ := C22_move refEngine refEngine_ok sampleCtx c%"n" (ast c%"n") (steps sampleCtx c%"n")
      ⟨by decide, by rfl, by decide, by decide⟩ (by decide) [] movable movable rfl [2] (movable.withChildren (movable.children ++ [Node.empty ⟨none, c%"n"⟩]))
      (Node.empty ⟨none, c%"n"⟩) _ (by decide) (by rfl) [1] (by rfl) (by decide) (by decide) (by decide)
    exact ⟨s', h1, h2⟩

/-- C22.  Assigning an element `v` inside of the field's element: `v`'s attributes, text and children replace everything else in the field's element. -/
theorem C22_hoist [PyUnicode] (eng : Engine) (heng : EngineOk eng) (ctx : Ctx) (xp : Str) (e : Expr) (p : List Step)
    (hf : SimpleField ctx xp e p) (hcs : childSteps p = true) (a : Node.Addr) (s n : Node) (hs : s.get a = some n)
    (t : Node.Addr) (s₁ m v : Node) (hc : managerCreate eng ctx xp e (.elem a) s = (.ok (.ref (.elem (a ++ t))), s₁)) (hm : s₁.get (a ++ t) = some m)
    (k : Nat) (r : Node.Addr) (hb : s₁.get (a ++ t ++ k :: r) = some v) (hv : (v.attrs.map Prod.fst).Nodup) :
    writeOwn eng ctx (a ++ t ++ k :: r) xp e (.elem a) s = (.ok (), s₁.modify (a ++ t) (fun _ => .mk m.tag v.attrs v.text v.children none)) := by
  obtain ⟨t', s₁', m', hc', hm', -, hw⟩ := own_split eng heng ctx xp e p hf hcs (.own (a ++ t ++ k :: r)) a s n hs
  rw [hc] at hc'
  simp only [Prod.mk.injEq, Except.ok.injEq, Found.ref.injEq, Ref.elem.injEq, List.append_cancel_left_eq] at hc'
  obtain ⟨rfl, rfl⟩ := hc'
  have hp : a ++ t <+: a ++ t ++ k :: r := List.prefix_append _ _
  have hnp : ¬ a ++ t ++ k :: r <+: a ++ t := by
    intro h
    have := h.length_le
    simp at this
  have hne : a ++ t ≠ a ++ t ++ k :: r := fun h => hnp (h ▸ List.prefix_refl _)
  unfold writeOwn
  rw [hw]
  show graftOwn (a ++ t) (a ++ t ++ k :: r) s₁ = _
  unfold graftOwn
  rw [if_neg hne, if_neg hnp, bind_ok (nodeAt_run hb), if_neg (by simpa using hp)]
  show (Except.ok (), s₁.modify (a ++ t) (graftOnto v)) = _
  congr 1
  exact Node.modify_congr hm (graftOnto_eq hv m)

/-- `obj.b = obj.c` there, for `c` given by `b/c`. -/
example : writeOwn refEngine sampleCtx [1, 0] c%"b" (ast c%"b") (.elem []) movable
    = (.ok (), movable.modify [1] (fun _ => .mk (.elem ⟨none, c%"b"⟩) [] none [] none)) :=
  C22_hoist refEngine refEngine_ok sampleCtx c%"b" (ast c%"b") (steps sampleCtx c%"b")
      ⟨by decide, by rfl, by decide, by decide⟩ (by decide) [] movable movable rfl [1] movable
      (.mk (.elem ⟨none, c%"b"⟩) [(⟨none, c%"x"⟩, c%"1")] (some c%"t") [Node.empty ⟨none, c%"c"⟩] none) (Node.empty ⟨none, c%"c"⟩) (by decide) (by rfl) 0 [] (by rfl) (by decide)

/-- C22.  Assigning an element `v` that contains the field's element (in its child number `k`) raises `ValueError`, and the document is damaged: the field's
element, which stays in its branch, has lost its content and tail and got the text of `v` and the `k` children in front of the branch. -/
theorem C22_counterexample_ancestor [PyUnicode] (eng : Engine) (heng : EngineOk eng) (ctx : Ctx) (xp : Str) (e : Expr) (p : List Step)
    (hf : SimpleField ctx xp e p) (hcs : childSteps p = true) (a : Node.Addr) (s n : Node) (hs : s.get a = some n)
    (s₁ m v : Node) (b : Node.Addr) (k : Nat) (r : Node.Addr)
    (hc : managerCreate eng ctx xp e (.elem a) s = (.ok (.ref (.elem (b ++ k :: r))), s₁)) (hm : s₁.get (b ++ k :: r) = some m) (hb : s₁.get b = some v) :
    ∃ s' v', writeOwn eng ctx b xp e (.elem a) s = (.error .valueError, s') ∧
      s'.get (b ++ 0 :: r) = some (.mk m.tag [] v.text (v.children.take k) none) ∧
      s'.get b = some v' ∧ v'.attrs = v.attrs ∧ v'.text = v.text ∧ v'.children.tail = v.children.drop (k + 1) := by
  obtain ⟨t', s₁', m', hc', hm', -, hw⟩ := own_split eng heng ctx xp e p hf hcs (.own b) a s n hs
  rw [hc] at hc'
  simp only [Prod.mk.injEq, Except.ok.injEq, Found.ref.injEq, Ref.elem.injEq] at hc'
  obtain ⟨ht, rfl⟩ := hc'
  rw [← ht] at hw
  have hp : b <+: b ++ k :: r := List.prefix_append _ _
  have hne : b ++ k :: r ≠ b := by
    intro h
    have := congrArg List.length h
    simp at this
  have hk : v.children[k]?.bind (Node.get r) = some m := by
    rw [Node.get_append, hb] at hm
    simpa [Node.get_cons] using hm
  obtain ⟨c, hck, hcr⟩ := Option.bind_eq_some_iff.mp hk
  have hdrop : v.children.drop k = c :: v.children.drop (k + 1) := by
    obtain ⟨hlt, rfl⟩ := List.getElem?_eq_some_iff.mp hck
    exact List.drop_eq_getElem_cons hlt
  let f : Node → Node := fun v => v.withChildren ((v.children.drop k).modify 0
      (Node.modify r (fun n => (n.clear.setText v.text).withChildren (v.children.take k))))
  have hfv : f v = v.withChildren (c.modify r (fun n => (n.clear.setText v.text).withChildren (v.children.take k)) :: v.children.drop (k + 1)) := by
    show v.withChildren ((v.children.drop k).modify 0 _) = _
    rw [hdrop]; rfl
  have hrun : writeOwn eng ctx b xp e (.elem a) s = (.error .valueError, s₁.modify b f) := by
    unfold writeOwn
    rw [hw]
    show graftOwn (b ++ k :: r) b s₁ = _
    unfold graftOwn
    rw [if_neg hne, if_pos hp]
    simp only [List.drop_left', List.headD_cons, List.drop_one, List.tail_cons]
    rfl
  have hget : (s₁.modify b f).get b = some (f v) := by rw [Node.get_modify, hb]; rfl
  refine ⟨_, f v, hrun, ?_, hget, by rw [hfv]; cases v; rfl, by rw [hfv]; cases v; rfl, by rw [hfv]; cases v; rfl⟩
  rw [Node.get_append, hget]
  show Node.get (0 :: r) (f v) = _
  rw [Node.get_cons, hfv]
  have : (v.withChildren (c.modify r (fun n => (n.clear.setText v.text).withChildren (v.children.take k)) :: v.children.drop (k + 1))).children[0]?
      = some (c.modify r (fun n => (n.clear.setText v.text).withChildren (v.children.take k))) := by cases v; rfl
  rw [this]
  show Node.get r (c.modify r _) = _
  rw [Node.get_modify, hcr]
  cases m; rfl

/-- `obj.c = obj` there, for the field `b/c`. -/
example : ∃ s' v', writeOwn refEngine sampleCtx [] c%"b/c" (ast c%"b/c") (.elem []) movable = (.error .valueError, s') ∧
      s'.get ([] ++ 0 :: [0]) = some (.mk (.elem ⟨none, c%"c"⟩) [] none [Node.empty ⟨none, c%"a"⟩] none) ∧
      s'.get [] = some v' ∧ v'.attrs = [] ∧ v'.text = none ∧ v'.children.tail = [] :=
  C22_counterexample_ancestor refEngine refEngine_ok sampleCtx c%"b/c" (ast c%"b/c") (steps sampleCtx c%"b/c")
      ⟨by decide, by rfl, by decide, by decide⟩ (by decide) [] movable movable rfl movable (Node.empty ⟨none, c%"c"⟩) movable [] 1 [0] (by decide) (by rfl) (by rfl)

end Props
