import Verif.XmlMap.Fields
import Verif.XmlMap.BuildLemmas
/-
The model of node creation does what the specification says.
-/
namespace Fields
open Xml XPath Spec

theorem bind_ok {α β} {m : M α} {f : α → M β} {s s' : Node} {x : α} (h : m s = (.ok x, s')) : (m >>= f) s = f x s' := by
  show M.bind m f s = _
  simp [M.bind, h]

theorem bind_err {α β} {m : M α} {f : α → M β} {s s' : Node} {e} (h : m s = (.error e, s')) : (m >>= f) s = (.error e, s') := by
  show M.bind m f s = _
  simp [M.bind, h]

theorem pure_run {α} (x : α) (s : Node) : (pure x : M α) s = (.ok x, s) := rfl
theorem raise_run {α} (e) (s : Node) : (raise e : M α) s = (.error e, s) := rfl

theorem ofExcept_run {α} (x : α) (s : Node) : (ofExcept (.ok x) : M α) s = (.ok x, s) := rfl

theorem nodeAt_run {a s n} (h : s.get a = some n) : nodeAt a s = (.ok n, s) := by simp [nodeAt, h]

variable {ctx : Ctx}

theorem resName_child {pfx nm q} (h : resName ctx pfx nm = some q) : nm ≠ c%"*" ∧
    childName ctx pfx nm = .ok q := by
  unfold resName at h
  split_ifs at h with h1
  refine ⟨h1, ?_⟩
  unfold childName
  rcases pfx with _ | _ | ⟨c, cs⟩
  · simp only [Option.some.injEq] at h; simp only [truthyPfx]; cases ctx.namespaces <;> simp [h]
  · simp only [Option.some.injEq] at h; simp only [truthyPfx]; cases ctx.namespaces <;> simp [h]
  · simp only at h
    cases hn : ctx.namespaces with
    | none => simp [hn] at h
    | some nss =>
      simp only [hn] at h
      simp only [truthyPfx]
      cases hl : nss.lookup (c :: cs) with
      | none => simp [hl] at h
      | some uri => simp only [hl, Option.some.injEq] at h; simp [h]

theorem resName_attr {pfx nm q} (h : resName ctx pfx nm = some q) : attrName ctx pfx nm = (q, true) ∧ q.loc ≠ c%"*" ∧ q.loc = nm := by
  unfold resName at h
  split_ifs at h with h1
  rcases pfx with _ | _ | ⟨c, cs⟩
  · simp only [Option.some.injEq] at h; subst h; simp [attrName, truthyPfx, h1]
  · simp only [Option.some.injEq] at h; subst h; simp [attrName, truthyPfx, h1]
  · simp only at h
    cases hn : ctx.namespaces with
    | none => simp [hn] at h
    | some nss =>
      simp only [hn] at h
      cases hl : nss.lookup (c :: cs) with
      | none => simp [hl] at h
      | some uri => simp only [hl, Option.some.injEq] at h; subst h; simp [attrName, truthyPfx, hn, hl, h1]

theorem createChild_run {pfx nm q} (h : resName ctx pfx nm = some q) {a s n} (hs : s.get a = some n) :
    createChild ctx (.elem a) pfx nm none s
      = (.ok (.elem (a ++ [n.children.length])), s.modify a (Node.append (Node.empty q))) := by
  obtain ⟨h1, h2⟩ := resName_child h
  unfold createChild
  simp only [h2, h1, if_false]
  rw [bind_ok (nodeAt_run hs)]
  rfl

theorem createChild_insert {pfx nm q} (h : resName ctx pfx nm = some q) {a s n} (i : Nat) (hs : s.get a = some n) :
    createChild ctx (.elem a) pfx nm (some i) s
      = (.ok (.elem (a ++ [min i n.children.length])), s.modify a (Node.insertChild i (Node.empty q))) := by
  obtain ⟨h1, h2⟩ := resName_child h
  unfold createChild
  simp only [h2, h1, if_false]
  rw [bind_ok (nodeAt_run hs)]
  rfl

theorem setAttrib_run {a q v s} (hq : q.loc ≠ c%"*") (hv : xmlOk v = true) :
    setAttrib a q (some v) s = (.ok (), s.modify a (Node.setAttr q v)) := by
  simp [setAttrib, hq, hv, edit]

theorem createAttr_run {pfx nm q} (h : resName ctx pfx nm = some q) {a s} :
    createAttr ctx (.elem a) pfx nm s = (.ok (.attr a q), s.modify a (Node.setAttr q [])) := by
  obtain ⟨h1, h2, -⟩ := resName_attr h
  unfold createAttr
  simp only [h1]
  rw [bind_ok (setAttrib_run h2 (by rfl))]
  rfl

/-! ### what is constructible -/

/-- Child steps with good predicates, possibly ending in an attribute. -/
def conPath : List Step → Bool
  | [] => true
  | .child _ ps :: r => okAll ps && conPath r
  | .attr _ :: r => r.isEmpty
  | .text :: _ => false

/-- Only child steps. -/
def allChild : List Step → Bool
  | [] => true
  | .child _ _ :: r => allChild r
  | _ => false

theorem res_ne_nil : ∀ (e : Expr) {p c}, res ctx e = some (p, c) → p ≠ [] := by
  intro e
  induction e using Expr.rec (motive_2 := fun _ => True) with
  | step ax t ps =>
    intro p c h
    cases t with
    | name pfx nm =>
      simp only [res] at h
      split_ifs at h
      · split at h <;> simp at h; rw [← h.1]; simp
      · split at h <;> simp at h; rw [← h.1]; simp
    | type nm lit =>
      simp only [res] at h
      split_ifs at h
      simp at h; rw [← h.1]; simp
  | binary l op r ihl ihr =>
    intro p c h
    cases op <;> simp only [res] at h <;> try (cases h)
    · split at h <;> simp at h
      rename_i p' v hl _
      rw [← h.1]; exact ihl hl
    · split at h <;> simp at h
      rename_i p1 p2 hl hr
      rw [← h.1]; intro h0
      exact ihl hl (List.append_eq_nil_iff.mp h0).1
  | _ => first | trivial | (intro p c h; simp [res] at h)

theorem toPred_append {p1 p2 : List Step} {cmp : Option Lit} {p : Pred} (h : toPred (p1 ++ p2) cmp = some p) (h2 : p2 ≠ []) :
    allChild p1 = true ∧ ∃ p', toPred p2 cmp = some p' := by
  induction p1 generalizing p with
  | nil => exact ⟨rfl, p, h⟩
  | cons s p1 ih =>
    cases s with
    | child q ps =>
      simp only [List.cons_append, toPred] at h
      split at h <;> simp at h
      rename_i p' hp'
      exact ih hp'
    | attr q => cases p1 <;> cases p2 <;> simp_all [toPred]
    | text => simp [toPred] at h

theorem toPred_allChild {p1 : List Step} (h : allChild p1 = true) (cmp) : ∃ p, toPred p1 cmp = some p := by
  induction p1 with
  | nil => exact ⟨_, rfl⟩
  | cons s p1 ih =>
    cases s with
    | child q ps => obtain ⟨p, hp⟩ := ih h; exact ⟨_, by simp only [toPred, hp]; rfl⟩
    | attr => cases h
    | text => cases h

theorem resLit_constructible {r v} (h : resLit ctx r = some v) : isValue r = true := by
  cases r <;> simp [resLit, isValue] at h ⊢

mutual
theorem constructible_of_res : ∀ (e : Expr) {p c q}, res ctx e = some (p, c) → toPred p c = some q → isConstructible e = true
  | .step ax (.name pfx nm) ps, p, c, q, h, _ => by
    simp only [res] at h
    split_ifs at h with h1 h2 h3
    · split at h <;> simp at h
      rename_i hl
      have := allConstructible_of_res ps hl
      simp only [isConstructible, this]
      rcases h1 with rfl | rfl <;> simp
    · simp only [Bool.and_eq_true, List.isEmpty_iff] at h3
      rw [h3.1]
      simp only [isConstructible, isConstructible.allConstructible]
      rcases h2 with rfl | rfl <;> simp
  | .step ax (.type nm lit) ps, p, c, q, h, hq => by
    simp only [res] at h
    split_ifs at h
    simp only [Option.some.injEq, Prod.mk.injEq] at h
    rw [← h.1] at hq
    simp [toPred] at hq
  | .binary l .slash r, p, c, q, h, hq => by
    simp only [res] at h
    split at h <;> simp at h
    rename_i p1 p2 hl hr
    rw [← h.1] at hq
    obtain ⟨h1, p', h2⟩ := toPred_append hq (res_ne_nil r hr)
    obtain ⟨p'', h3⟩ := toPred_allChild h1 none
    rw [← h.2] at h2
    simp [isConstructible, constructible_of_res l hl h3, constructible_of_res r hr h2]
  | .binary l .eq r, p, c, q, h, hq => by
    simp only [res] at h
    split at h <;> simp at h
    rename_i p1 v hl hv
    have : ∃ q', toPred p1 none = some q' := toPred_any (h.1 ▸ hq) none
    obtain ⟨q', hq'⟩ := this
    simp only [isConstructible, constructible_of_res l hl hq', Bool.true_and]
    exact resLit_constructible hv
  | .binary l .or r, _, _, _, h, _ => by simp [res] at h
  | .binary l .and r, _, _, _, h, _ => by simp [res] at h
  | .binary l .ne r, _, _, _, h, _ => by simp [res] at h
  | .binary l .lt r, _, _, _, h, _ => by simp [res] at h
  | .binary l .le r, _, _, _, h, _ => by simp [res] at h
  | .binary l .gt r, _, _, _, h, _ => by simp [res] at h
  | .binary l .ge r, _, _, _, h, _ => by simp [res] at h
  | .binary l .plus r, _, _, _, h, _ => by simp [res] at h
  | .binary l .minus r, _, _, _, h, _ => by simp [res] at h
  | .binary l .mult r, _, _, _, h, _ => by simp [res] at h
  | .binary l .div r, _, _, _, h, _ => by simp [res] at h
  | .binary l .mod r, _, _, _, h, _ => by simp [res] at h
  | .binary l .union r, _, _, _, h, _ => by simp [res] at h
  | .binary l .dslash r, _, _, _, h, _ => by simp [res] at h
  | .lit _, _, _, _, h, _ => by simp [res] at h
  | .int _, _, _, _, h, _ => by simp [res] at h
  | .float _, _, _, _, h, _ => by simp [res] at h
  | .neg _, _, _, _, h, _ => by simp [res] at h
  | .pred _ _, _, _, _, h, _ => by simp [res] at h
  | .root, _, _, _, h, _ => by simp [res] at h
  | .abs _ _, _, _, _, h, _ => by simp [res] at h
  | .abbrev _, _, _, _, h, _ => by simp [res] at h
  | .var _ _, _, _, _, h, _ => by simp [res] at h
  | .call _ _ _, _, _, _, h, _ => by simp [res] at h
theorem allConstructible_of_res : ∀ (es : List Expr) {ps}, resPreds ctx es = some ps → isConstructible.allConstructible es = true
  | [], _, _ => rfl
  | e :: es, ps, h => by
    simp only [resPreds] at h
    split at h
    · rename_i p c he
      split at h <;> simp at h
      rename_i q qs hq hqs
      simp [isConstructible.allConstructible, constructible_of_res e he hq, allConstructible_of_res es hqs]
    · cases h
theorem toPred_any : ∀ {p : List Step} {c : Option Lit} {q}, toPred p c = some q → ∀ c', ∃ q', toPred p c' = some q'
  | [], c, q, _, c' => ⟨_, rfl⟩
  | .attr a :: r, c, q, h, c' => by
    simp only [toPred] at h ⊢
    split_ifs at h ⊢
    exact ⟨_, rfl⟩
  | .child a ps :: r, c, q, h, c' => by
    simp only [toPred] at h
    split at h <;> simp at h
    rename_i p' hp'
    obtain ⟨q', hq'⟩ := toPred_any hp' c'
    exact ⟨_, by simp only [toPred, hq']; rfl⟩
  | .text :: r, c, q, h, c' => by simp [toPred] at h
end


/-! ### running the construction -/

theorem allChild_append {p1 p2 : List Step} (h : allChild p1 = true) (k n) :
    buildPath (p1 ++ p2) k n = buildPath p1 (buildPath p2 k) n := by
  induction p1 generalizing n with
  | nil => rfl
  | cons s p1 ih => cases s <;> simp_all [allChild, buildPath]

theorem target_append {p1 p2 : List Step} (h : allChild p1 = true) (n) :
    target (p1 ++ p2) n = (target p2 (leafNode p1 n)).under (target p1 n).addr := by
  induction p1 generalizing n with
  | nil => simp [leafNode, target, Ref.addr, under_nil]
  | cons s p1 ih =>
    cases s with
    | child q ps =>
      simp only [List.cons_append, target, leafNode]
      rw [ih h, under_under]
      congr 1
      cases target p1 (newElem q ps) <;> rfl
    | attr => cases h
    | text => cases h

theorem leafNode_append {p1 p2 : List Step} (h : allChild p1 = true) (n) :
    leafNode (p1 ++ p2) n = leafNode p2 (leafNode p1 n) := by
  induction p1 generalizing n with
  | nil => rfl
  | cons s p1 ih => cases s <;> simp_all [allChild, leafNode]

theorem target_allChild {p1 : List Step} (h : allChild p1 = true) (n) : target p1 n = .elem (target p1 n).addr := by
  induction p1 generalizing n with
  | nil => rfl
  | cons s p1 ih =>
    cases s with
    | child q ps => simp only [target]; rw [ih h]; rfl
    | attr => cases h
    | text => cases h

theorem under_addr (a : Node.Addr) (r : Ref) : (r.under a).addr = a ++ r.addr := by cases r <;> rfl

/-- The element a built path ends in, in the whole document. -/
theorem get_built {a s n} (hs : Node.get a s = some n) (p : List Step) (k) :
    (s.modify a (buildPath p k)).get (a ++ (target p n).addr) = some (k (leafNode p n)) := by
  rw [Node.get_append, Node.get_modify, hs]
  simp [get_target]

theorem modify_built {a s n} (hs : Node.get a s = some n) (p : List Step) (k g) :
    (s.modify a (buildPath p k)).modify (a ++ (target p n).addr) g = s.modify a (buildPath p (g ∘ k)) := by
  rw [Node.modify_append, Node.modify_modify]
  apply Node.modify_congr hs
  simp [modify_target]

theorem conPath_of_toPred : ∀ {p : List Step} {c : Option Lit} {q : Pred}, toPred p c = some q → q.ok = true → conPath p = true
  | [], _, _, _, _ => rfl
  | .attr a :: r, c, q, h, _ => by
    simp only [toPred] at h
    split_ifs at h with h1
    simpa [conPath] using h1
  | .child a ps :: r, c, q, h, hok => by
    simp only [toPred] at h
    split at h <;> simp at h
    rename_i p' hp'
    subst h
    simp only [Pred.ok, Bool.and_eq_true] at hok
    simp only [conPath, hok.1.1, Bool.true_and]
    exact conPath_of_toPred hp' hok.1.2
  | .text :: r, c, q, h, _ => by simp [toPred] at h

theorem conPath_append {p1 p2 : List Step} (h : conPath (p1 ++ p2) = true) (h2 : p2 ≠ []) :
    allChild p1 = true ∧ conPath p1 = true ∧ conPath p2 = true := by
  induction p1 with
  | nil => exact ⟨rfl, rfl, h⟩
  | cons s p1 ih =>
    cases s with
    | child q ps =>
      simp only [List.cons_append, conPath, Bool.and_eq_true] at h
      obtain ⟨i1, i2, i3⟩ := ih h.2
      exact ⟨i1, by simp [conPath, h.1, i2], i3⟩
    | attr q => cases p1 <;> cases p2 <;> simp_all [conPath]
    | text => simp [conPath] at h

/-- What a comparison adds at the end of a path. -/
def cmpEdit (last : Option Step) : Option Lit → Node → Node
  | none => id
  | some v => match last with
    | some (.attr q) => Node.setAttr q (litText v)
    | _ => Node.setText (some (litText v))

theorem build_eq : ∀ {p : List Step} {c : Option Lit} {q : Pred}, toPred p c = some q →
    ∀ n, q.build n = buildPath p (cmpEdit p.getLast? c) n
  | [], c, q, h, n => by
    simp only [toPred, Option.some.injEq] at h
    subst h
    cases c <;> rfl
  | .attr a :: r, c, q, h, n => by
    simp only [toPred] at h
    split_ifs at h with h1
    simp only [List.isEmpty_iff] at h1
    subst h1
    simp only [Option.some.injEq] at h
    subst h
    cases c <;> simp [Pred.build, buildPath, cmpEdit]
  | .child a ps :: r, c, q, h, n => by
    simp only [toPred] at h
    split at h <;> simp at h
    rename_i p' hp'
    subst h
    have ih := build_eq hp' (buildAll ps (Node.empty a))
    simp only [Pred.build, buildPath]
    rw [ih]
    cases r with
    | nil => simp only [List.getLast?_nil, List.getLast?_singleton]; cases c <;> rfl
    | cons s r => rw [List.getLast?_cons_cons]; rfl
  | .text :: r, c, q, h, n => by simp [toPred] at h

theorem getLast?_append' {α} (l : List α) {l' : List α} (h : l' ≠ []) : (l ++ l').getLast? = l'.getLast? := by
  rw [List.getLast?_append]
  cases hl : l'.getLast? with
  | none => exact absurd (List.getLast?_eq_none_iff.mp hl) h
  | some x => rfl

theorem isDigit_range {c : Char} (h : isDigit c = true) : 48 ≤ c.toNat ∧ c.toNat ≤ 57 := by
  simpa [isDigit, inRange] using h

theorem natStr_xmlOk (n : Nat) : xmlOk (natStr n) = true := by
  obtain ⟨-, hd, -⟩ := natStr_spec n
  simp only [xmlOk, List.all_eq_true]
  intro c hc
  have := hd c hc
  have h2 : 48 ≤ c.toNat ∧ c.toNat ≤ 57 := isDigit_range this
  simp only [xmlChar, Bool.or_eq_true, Bool.and_eq_true, decide_eq_true_eq]
  left; left; left
  refine ⟨⟨by omega, by omega⟩, by omega⟩

theorem predValue_run {r v} (h : resLit ctx r = some v) : predValue ctx r = .ok (litText v) ∧ xmlOk (litText v) = true := by
  cases r with
  | lit s =>
    simp only [resLit] at h
    split_ifs at h with h1
    cases h
    exact ⟨rfl, h1⟩
  | int n => simp only [resLit, Option.some.injEq] at h; subst h; exact ⟨rfl, natStr_xmlOk n⟩
  | var pfx nm =>
    cases pfx with
    | some => simp [resLit] at h
    | none =>
      simp only [resLit] at h
      cases hl : ctx.vars.lookup nm with
      | none => simp [hl] at h
      | some w =>
        cases w with
        | str s =>
          simp only [hl] at h
          split_ifs at h with h1
          cases h
          exact ⟨by simp [predValue, hl, litText], h1⟩
        | num n =>
          simp only [hl, Option.some.injEq] at h
          subst h
          exact ⟨by simp [predValue, hl, litText], natStr_xmlOk n⟩
  | _ => simp [resLit] at h

/-- The terminal step of an AST of the fragment. -/
theorem terminal_of_res : ∀ (e : Expr) {p}, res ctx e = some (p, none) → ∃ ax t, findTerminalStep e = some (ax, t) ∧
    (∀ q, p.getLast? = some (.attr q) → ∃ pfx nm, t = .name pfx nm ∧ attrName ctx pfx nm = (q, true) ∧ nm ≠ c%"text" ∧ q.loc ≠ c%"*")
    ∧ (p.getLast? = some .text → ∃ lit, t = .type c%"text" lit) := by
  intro e
  induction e using Expr.rec (motive_2 := fun _ => True) with
  | step ax t ps =>
    intro p h
    cases t with
    | name pfx nm =>
      simp only [res] at h
      split_ifs at h with h1 h2 h3
      · split at h <;> simp at h
        subst h
        exact ⟨ax, _, rfl, by simp, by simp⟩
      · split at h <;> simp at h
        rename_i q hq
        subst h
        refine ⟨ax, _, rfl, ?_, by simp⟩
        intro q' hq'
        simp only [List.getLast?_singleton, Option.some.injEq, Step.attr.injEq] at hq'
        subst hq'
        obtain ⟨h5, h6, h7⟩ := resName_attr hq
        exact ⟨pfx, nm, rfl, h5, by simp at h3; exact h3.2, h6⟩
    | type nm lit =>
      simp only [res] at h
      split_ifs at h with h1
      simp only [Option.some.injEq, Prod.mk.injEq] at h
      rw [← h.1]
      exact ⟨ax, _, rfl, by simp, fun _ => ⟨lit, by rw [h1.2.1]⟩⟩
  | binary l op r ihl ihr =>
    intro p h
    cases op <;> simp only [res] at h <;> try (cases h)
    · split at h <;> simp at h
    · split at h <;> simp at h
      rename_i p1 p2 hl hr
      subst h
      obtain ⟨ax, t, h1, h2, h3⟩ := ihr hr
      refine ⟨ax, t, by simpa [findTerminalStep] using h1, ?_, ?_⟩
      · intro q hq; rw [getLast?_append' _ (res_ne_nil r hr)] at hq; exact h2 q hq
      · intro hq; rw [getLast?_append' _ (res_ne_nil r hr)] at hq; exact h3 hq
  | _ => first | trivial | (intro p h; simp [res] at h)

theorem setElemText_run {a v s} (hv : xmlOk v = true) : setElemText a (some v) s = (.ok (), s.modify a (Node.setText (some v))) := by
  simp [setElemText, hv, edit]

/-- Writing to the new node at the end of a created path. -/
theorem setInXml_new {e : Expr} {p : List Step} (he : res ctx e = some (p, none)) {a s n} {v : Str}
    (hv : xmlOk v = true) (hs : Node.get a s = some n)
    (hc : (∀ q, p.getLast? ≠ some (.attr q)) → (leafNode p n).children = [])
    (hcon : conPath p = true) :
    setInXml ctx (.ref ((target p n).under a)) (some v) (findTerminalStep e) (s.modify a (buildPath p id))
      = (.ok (), s.modify a (buildPath p (writeLast p v))) := by
  obtain ⟨ax, t, ht, h1, -⟩ := terminal_of_res e he
  have hmod := modify_built hs p id
  have hget := get_built hs p id
  have hu := under_addr a (target p n)
  by_cases hattr : ∃ q, p.getLast? = some (.attr q)
  · obtain ⟨q, hq⟩ := hattr
    obtain ⟨pfx, nm, rfl, h2, h3, h4⟩ := h1 q hq
    have htar : ∃ b, target p n = .attr b q := target_attr hcon hq n
    obtain ⟨b, hb⟩ := htar
    rw [ht, hb]
    have h5 : isTextTest (some (ax, .name pfx nm)) = false := by simp [isTextTest, h3]
    simp only [setInXml, Ref.under, h5, Bool.false_eq_true, if_false, h2, Ref.addr]
    rw [setAttrib_run h4 hv]
    rw [hb] at hmod
    simp only [Ref.addr] at hmod
    rw [hmod]
    simp [writeLast, hq]
  · have hattr' : ∀ q, p.getLast? ≠ some (.attr q) := fun q h => hattr ⟨q, h⟩
    have htar : target p n = .elem (target p n).addr := target_allChild (allChild_of hcon hattr') n
    rw [htar]
    simp only [setInXml, Ref.under]
    rw [bind_ok (nodeAt_run hget)]
    simp only [id, hc hattr', if_true]
    rw [setElemText_run hv, hmod]
    have : writeLast p v = Node.setText (some v) := by
      unfold writeLast
      split
      · rename_i q hq; exact absurd hq (hattr' q)
      · rfl
    rw [this]
    rfl
where
  target_attr : ∀ {p : List Step} {q}, conPath p = true → p.getLast? = some (.attr q) → ∀ n, ∃ b, target p n = .attr b q
    | [], q, _, h, _ => by simp at h
    | .attr q' :: r, q, hc, h, n => by
      simp only [conPath, List.isEmpty_iff] at hc
      subst hc
      simp only [List.getLast?_singleton, Option.some.injEq, Step.attr.injEq] at h
      subst h
      exact ⟨[], rfl⟩
    | .text :: r, q, hc, _, _ => by simp [conPath] at hc
    | .child q' ps :: r, q, hc, h, n => by
      simp only [conPath, Bool.and_eq_true] at hc
      cases r with
      | nil => simp at h
      | cons s r =>
        rw [List.getLast?_cons_cons] at h
        obtain ⟨b, hb⟩ := target_attr hc.2 h (newElem q' ps)
        exact ⟨[n.children.length] ++ b, by rw [target, hb]; rfl⟩
  allChild_of : ∀ {p : List Step}, conPath p = true → (∀ q, p.getLast? ≠ some (.attr q)) → allChild p = true
    | [], _, _ => rfl
    | .attr q' :: r, hc, h => by
      simp only [conPath, List.isEmpty_iff] at hc
      subst hc
      simp at h
    | .text :: r, hc, _ => by simp [conPath] at hc
    | .child q' ps :: r, hc, h => by
      simp only [conPath, Bool.and_eq_true] at hc
      cases r with
      | nil => rfl
      | cons s r =>
        exact allChild_of (p := s :: r) hc.2 (fun q hq => h q (by rw [List.getLast?_cons_cons]; exact hq))


theorem cmpEdit_some (p : List Step) (v : Lit) : cmpEdit p.getLast? (some v) = writeLast p (litText v) := by
  unfold cmpEdit writeLast
  rfl

theorem leafNode_children : ∀ (p : List Step) (q : Pred) (v : Lit) (n : Node), toPred p (some v) = some q → q.ok = true → p ≠ [] →
    (∀ q, p.getLast? ≠ some (.attr q)) → (leafNode p n).children = []
  | [], _, _, _, _, _, h, _ => absurd rfl h
  | .attr a :: r, q, v, n, h, _, _, hl => by
    simp only [toPred] at h
    split_ifs at h with h1
    simp only [List.isEmpty_iff] at h1
    subst h1
    simp at hl
  | .text :: r, q, v, n, h, _, _, _ => by simp [toPred] at h
  | .child a ps :: r, q, v, n, h, hok, _, hl => by
    simp only [toPred] at h
    split at h <;> simp at h
    rename_i p' hp'
    subst h
    simp only [Pred.ok, Bool.and_eq_true] at hok
    cases r with
    | nil =>
      simp only [toPred, Option.some.injEq] at hp'
      subst hp'
      simp only [leafNode, newElem]
      rw [buildAll_attrOnly _ _ (by simpa using hok.2)]
      rfl
    | cons s r =>
      rw [leafNode]
      exact leafNode_children (s :: r) p' v _ hp' hok.1.2 (by simp)
        (fun q hq => hl q (by rw [List.getLast?_cons_cons]; exact hq))

mutual
/-- `_construct_predicate` on a path without comparison. -/
theorem construct_path : ∀ (e : Expr) (p : List Step), res ctx e = some (p, none) → conPath p = true →
    ∀ a s n, Node.get a s = some n →
      construct ctx e (.elem a) s = (.ok (some ((target p n).under a)), s.modify a (buildPath p id))
  | .step ax (.name pfx nm) ps, p, h, hc, a, s, n, hs => by
    have hcons : isConstructible.allConstructible ps = true := by
      simp only [res] at h
      split_ifs at h with h1 h2 h3
      · split at h <;> simp at h
        rename_i hl
        exact allConstructible_of_res ps hl
      · simp only [Bool.and_eq_true, List.isEmpty_iff] at h3
        rw [h3.1]; rfl
    simp only [res] at h
    simp only [construct, createStep, hcons, Bool.true_eq_false, if_false]
    split_ifs at h with h1 h2 h3
    · split at h <;> simp at h
      rename_i q l hq hl
      subst h
      simp only [conPath, Bool.and_eq_true, and_true] at hc
      simp only [h1, if_true]
      rw [bind_ok (s' := s.modify a (buildPath [.child q l] id)) (x := .elem (a ++ [n.children.length]))]
      · simp [target, Ref.under, pure_run]
      · rw [bind_ok (createChild_run hq hs)]
        have hg : (s.modify a (Node.append (Node.empty q))).get (a ++ [n.children.length]) = some (Node.empty q) := by
          rw [Node.get_append, Node.get_modify, hs]
          simp [Node.get_cons]
        rw [bind_ok (construct_all ps l hl hc _ _ _ hg)]
        rw [Node.modify_append, Node.modify_modify]
        simp only [pure_run, Prod.mk.injEq, true_and]
        apply Node.modify_congr hs
        simp [Node.modify_cons, buildPath, modify_length_append, newElem, Node.append]
    · split at h <;> simp at h
      rename_i q hq
      subst h
      simp only [h1, if_false, h2, if_true]
      simp only [Bool.and_eq_true, List.isEmpty_iff] at h3
      rw [h3.1]
      rw [bind_ok (s' := s.modify a (buildPath [.attr q] id)) (x := .attr a q)]
      · simp [target, Ref.under, pure_run]
      · rw [bind_ok (createAttr_run hq)]
        simp only [constructAll]
        rw [bind_ok (pure_run _ _)]
        rfl
  | .step ax (.type nm lit) ps, p, h, hc, a, s, n, hs => by
    simp only [res] at h
    split_ifs at h
    simp only [Option.some.injEq, Prod.mk.injEq] at h
    rw [← h.1] at hc
    simp [conPath] at hc
  | .binary l .slash r, p, h, hc, a, s, n, hs => by
    simp only [res] at h
    split at h <;> simp at h
    rename_i p1 p2 hl hr
    subst h
    obtain ⟨h1, h2, h3⟩ := conPath_append hc (res_ne_nil r hr)
    simp only [construct]
    rw [bind_ok (construct_path l p1 hl h2 a s n hs)]
    rw [target_append h1, under_under]
    rw [show (target p1 n).under a = .elem (a ++ (target p1 n).addr) by rw [target_allChild h1]; rfl]
    simp only
    rw [construct_path r p2 hr h3 _ _ _ (get_built hs p1 id)]
    rw [modify_built hs p1 id]
    simp only [id, Prod.mk.injEq, true_and]
    apply Node.modify_congr hs
    simp [allChild_append h1]
  | .binary l .eq r, p, h, hc, a, s, n, hs => by
    simp only [res] at h
    split at h <;> simp at h
  | .binary l .or r, _, h, _, _, _, _, _ => by simp [res] at h
  | .binary l .and r, _, h, _, _, _, _, _ => by simp [res] at h
  | .binary l .ne r, _, h, _, _, _, _, _ => by simp [res] at h
  | .binary l .lt r, _, h, _, _, _, _, _ => by simp [res] at h
  | .binary l .le r, _, h, _, _, _, _, _ => by simp [res] at h
  | .binary l .gt r, _, h, _, _, _, _, _ => by simp [res] at h
  | .binary l .ge r, _, h, _, _, _, _, _ => by simp [res] at h
  | .binary l .plus r, _, h, _, _, _, _, _ => by simp [res] at h
  | .binary l .minus r, _, h, _, _, _, _, _ => by simp [res] at h
  | .binary l .mult r, _, h, _, _, _, _, _ => by simp [res] at h
  | .binary l .div r, _, h, _, _, _, _, _ => by simp [res] at h
  | .binary l .mod r, _, h, _, _, _, _, _ => by simp [res] at h
  | .binary l .union r, _, h, _, _, _, _, _ => by simp [res] at h
  | .binary l .dslash r, _, h, _, _, _, _, _ => by simp [res] at h
  | .lit _, _, h, _, _, _, _, _ => by simp [res] at h
  | .int _, _, h, _, _, _, _, _ => by simp [res] at h
  | .float _, _, h, _, _, _, _, _ => by simp [res] at h
  | .neg _, _, h, _, _, _, _, _ => by simp [res] at h
  | .pred _ _, _, h, _, _, _, _, _ => by simp [res] at h
  | .root, _, h, _, _, _, _, _ => by simp [res] at h
  | .abs _ _, _, h, _, _, _, _, _ => by simp [res] at h
  | .abbrev _, _, h, _, _, _, _, _ => by simp [res] at h
  | .var _ _, _, h, _, _, _, _, _ => by simp [res] at h
  | .call _ _ _, _, h, _, _, _, _, _ => by simp [res] at h
termination_by e => (sizeOf e, 0)
/-- `_construct_predicate` on a predicate. -/
theorem construct_pred : ∀ (e : Expr) (p : List Step) (c : Option Lit) (q : Pred), res ctx e = some (p, c) →
    toPred p c = some q → q.ok = true → ∀ a s n, Node.get a s = some n →
      construct ctx e (.elem a) s = (.ok (some ((target p n).under a)), s.modify a q.build)
  | e, p, none, q, h, hq, hok, a, s, n, hs => by
    rw [construct_path e p h (conPath_of_toPred hq hok) a s n hs]
    simp only [Prod.mk.injEq, true_and]
    apply Node.modify_congr hs
    rw [build_eq hq]
    rfl
  | e, p, some v, q, h, hq, hok, a, s, n, hs => by
    cases e with
    | binary l op r =>
      cases op <;> simp only [res] at h <;> try (cases h)
      · split at h <;> simp at h
        rename_i p1 v' hl hv
        obtain ⟨rfl, rfl⟩ := h
        have hcon := conPath_of_toPred hq hok
        simp only [construct]
        rw [bind_ok (construct_path l p1 hl hcon a s n hs)]
        obtain ⟨hpv, hxml⟩ := predValue_run hv
        simp only [hpv]
        rw [bind_ok (ofExcept_run _ _)]
        rw [bind_ok (setInXml_new hl hxml hs (leafNode_children p1 q v' n hq hok (res_ne_nil l hl)) hcon)]
        simp only [pure_run, Prod.mk.injEq, true_and]
        apply Node.modify_congr hs
        rw [build_eq hq, cmpEdit_some]
      · split at h <;> simp at h
    | step ax t ps =>
      cases t with
      | name pfx nm =>
        simp only [res] at h
        split_ifs at h
        · split at h <;> simp at h
        · split at h <;> simp at h
      | type => simp only [res] at h; split_ifs at h; simp at h
    | _ => simp [res] at h
termination_by e => (sizeOf e, 1)
/-- The loop over the predicates. -/
theorem construct_all : ∀ (es : List Expr) (ps : List Pred), resPreds ctx es = some ps → okAll ps = true →
    ∀ a s n, Node.get a s = some n → constructAll ctx es (.elem a) s = (.ok (), s.modify a (buildAll ps))
  | [], ps, h, _, a, s, n, hs => by
    simp only [resPreds, Option.some.injEq] at h
    subst h
    simp only [constructAll, pure_run, Prod.mk.injEq, true_and]
    exact (Node.modify_id hs rfl).symm
  | e :: es, ps, h, hok, a, s, n, hs => by
    simp only [resPreds] at h
    split at h
    · rename_i p c he
      split at h <;> simp at h
      rename_i q qs hq hqs
      subst h
      have hq1 := (okAll_mem hok (p := q) (by simp)).1
      simp only [okAll, Bool.and_eq_true] at hok
      simp only [constructAll]
      rw [bind_ok (construct_pred e p c q he hq hq1 a s n hs)]
      rw [construct_all es qs hqs hok.1.2 a _ (q.build n) (by rw [Node.get_modify, hs]; rfl)]
      rw [Node.modify_modify]
      rfl
    · cases h
termination_by es => (sizeOf es, 0)
end

end Fields
