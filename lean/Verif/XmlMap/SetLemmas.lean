import Verif.XmlMap.CreateLemmas
import Verif.XPath.RoundTripLex
/-
Running `_create_xml_node` on a simple path.
-/
namespace Fields
open Xml XPath Spec

set_option linter.unusedSectionVars false
variable [PyUnicode] {eng : Engine} {ctx : Ctx}

theorem parse0_ser {e : Expr} (h : e.canonical = true) : parse0 e.ser = .ok e := by
  have h1 := lex_ser h (last := none) (by simp [blocked])
  unfold parse0 parse
  simp only [h1, parse_toks e h]
  rfl

theorem findNode_path (heng : EngineOk eng) {xp e p} (hp : parse0 xp = .ok e) (hr : res ctx e = some (p, none)) {a s n}
    (hs : Node.get a s = some n) :
    findNode eng ctx xp (.elem a) s = (.ok ((Step.matches p n).head?.map (fun r => .ref (r.under a))), s) := by
  have h := heng.path ctx xp e p s n a hp (by simp [resPath, hr]) hs
  have h1 : evalXPath eng ctx xp (.elem a) s = (.ok (.nodes ((Step.matches p n).map (Ref.under a))), s) := by
    show (eng.xpath xp s a ctx, s) = _
    rw [h]
  unfold findNode
  rw [bind_ok h1, pure_run]
  generalize Step.matches p n = l
  cases l <;> rfl

theorem canonical_slash {l r : Expr} {p} (hc : (Expr.binary l .slash r).canonical = true) (hr : res ctx (.binary l .slash r) = some (p, none)) :
    l.canonical = true ∧ r.canonical = true ∧ ∃ ax t ps, r = .step ax t ps := by
  simp only [Expr.canonical, Bool.and_eq_true, Expr.lexSafe] at hc
  obtain ⟨h1, ⟨h2, h3⟩, -⟩ := hc
  simp only [Expr.shape, BinOp.prec] at h1
  simp only [res] at hr
  split at hr <;> simp at hr
  rename_i p1 p2 hl hr'
  split at h1
  · rename_i kl kr hkl hkr
    refine ⟨by simp [Expr.canonical, hkl, h2], by simp [Expr.canonical, hkr, h3], ?_⟩
    split_ifs at h1 with h4 h5
    · simp only [Bool.and_eq_true, beq_iff_eq] at h4
      obtain ⟨-, rfl⟩ := h4
      cases r with
      | step ax t ps => exact ⟨ax, t, ps, rfl⟩
      | binary a op b =>
        exfalso
        cases op <;> simp only [Expr.shape, BinOp.prec] at hkr <;> (repeat' split at hkr) <;> simp at hkr
      | _ => simp [res] at hr'
    · simp only [Bool.and_eq_true, beq_iff_eq] at h5
      obtain ⟨rfl, -⟩ := h5
      exfalso
      cases l with
      | step ax t ps => simp only [Expr.shape] at hkl; split_ifs at hkl; simp at hkl
      | binary a op b =>
        cases op <;> simp only [Expr.shape, BinOp.prec] at hkl <;> (repeat' split at hkl) <;> simp at hkl
      | _ => simp [res] at hl
    · simp at h1
  · simp at h1

/-- The node `_create_xml_node` returns for a created path: for `text()` it is the parent. -/
def created : List Step → Node → Ref
  | [], _ => .elem []
  | .child q ps :: r, n => (created r (newElem q ps)).under [n.children.length]
  | .attr q :: _, _ => .attr [] q
  | .text :: _, _ => .elem []

theorem created_addr : ∀ (p : List Step) (n : Node), (created p n).addr = (target p n).addr
  | [], _ => rfl
  | .attr _ :: _, _ => rfl
  | .text :: _, _ => rfl
  | .child q ps :: r, n => by rw [created, target, under_addr, under_addr, created_addr r]

theorem created_append {p1 p2 : List Step} (h : allChild p1 = true) (n) :
    created (p1 ++ p2) n = (created p2 (leafNode p1 n)).under (target p1 n).addr := by
  induction p1 generalizing n with
  | nil => simp [leafNode, target, Ref.addr, under_nil]
  | cons s p1 ih =>
    cases s with
    | child q ps =>
      simp only [List.cons_append, created, leafNode, target]
      rw [ih h, under_under, under_addr]
    | attr => cases h
    | text => cases h

theorem created_allChild {p1 : List Step} (h : allChild p1 = true) (n) : created p1 n = .elem (target p1 n).addr := by
  induction p1 generalizing n with
  | nil => rfl
  | cons s p1 ih =>
    cases s with
    | child q ps => simp only [created, target]; rw [ih h, under_addr]; rfl
    | attr => cases h
    | text => cases h

theorem pathOk_append {p1 p2 : List Step} (h : pathOk (p1 ++ p2) = true) (h2 : p2 ≠ []) :
    allChild p1 = true ∧ pathOk p1 = true ∧ pathOk p2 = true := by
  induction p1 with
  | nil => exact ⟨rfl, rfl, h⟩
  | cons s p1 ih =>
    cases s with
    | child q ps =>
      simp only [List.cons_append, pathOk, Bool.and_eq_true] at h
      obtain ⟨i1, i2, i3⟩ := ih h.2
      refine ⟨i1, ?_, i3⟩
      simp only [pathOk, Bool.and_eq_true]
      refine ⟨⟨h.1.1, ?_⟩, i2⟩
      cases p1 with
      | nil => rfl
      | cons s' p1 => cases s' <;> exact h.1.2
    | attr q => cases p1 <;> cases p2 <;> simp_all [pathOk]
    | text => cases p1 <;> cases p2 <;> simp_all [pathOk]

theorem res_step {ax t ps p} (h : res ctx (.step ax t ps) = some (p, none)) : ∃ st, p = [st] := by
  cases t with
  | name pfx nm =>
    simp only [res] at h
    split_ifs at h
    · split at h <;> simp at h; exact ⟨_, h.symm⟩
    · split at h <;> simp at h; exact ⟨_, h.symm⟩
  | type nm lit =>
    simp only [res] at h
    split_ifs at h
    simp at h; exact ⟨_, h.symm⟩

theorem createNode_step {ax t ps st} (h : res ctx (.step ax t ps) = some ([st], none)) (hok : pathOk [st] = true) {a s n}
    (hs : Node.get a s = some n) :
    createNode eng ctx (.step ax t ps) (.elem a) none s
      = (.ok ((created [st] n).under a), s.modify a (buildPath [st] id)) := by
  cases st with
  | text =>
    cases t with
    | name pfx nm =>
      simp only [res] at h
      split_ifs at h
      · split at h <;> simp at h
      · split at h <;> simp at h
    | type nm lit =>
      simp only [res] at h
      split_ifs at h with h1
      simp only [createNode, createStep, h1.2.1, if_true, pure_run, created, Ref.under, List.append_nil, buildPath,
        Prod.mk.injEq, true_and]
      exact (Node.modify_id hs rfl).symm
  | child q l =>
    have hc : conPath [.child q l] = true := by simpa [conPath, pathOk, nextOk] using hok
    have h1 := construct_path _ _ h hc a s n hs
    have h2 : construct ctx (.step ax t ps) (.elem a) s
        = (createStep ctx ax t ps (fun r => constructAll ctx ps r) (.elem a) none >>= fun r => pure (some r)) s := by
      rw [construct]
    rw [h2] at h1
    simp only [createNode]
    generalize hz : createStep ctx ax t ps (fun r => constructAll ctx ps r) (.elem a) none s = z at h1
    rcases z with ⟨_ | r, s'⟩
    · rw [bind_err hz] at h1; simp at h1
    · rw [bind_ok hz, pure_run] at h1
      simp only [Prod.mk.injEq, Except.ok.injEq, Option.some.injEq] at h1
      rw [h1.1, h1.2]
      rfl
  | attr q =>
    have h1 := construct_path _ _ h (by rfl) a s n hs
    have h2 : construct ctx (.step ax t ps) (.elem a) s
        = (createStep ctx ax t ps (fun r => constructAll ctx ps r) (.elem a) none >>= fun r => pure (some r)) s := by
      rw [construct]
    rw [h2] at h1
    simp only [createNode]
    generalize hz : createStep ctx ax t ps (fun r => constructAll ctx ps r) (.elem a) none s = z at h1
    rcases z with ⟨_ | r, s'⟩
    · rw [bind_err hz] at h1; simp at h1
    · rw [bind_ok hz, pure_run] at h1
      simp only [Prod.mk.injEq, Except.ok.injEq, Option.some.injEq] at h1
      rw [h1.1, h1.2]
      rfl

theorem matches_allChild {p : List Step} (h : allChild p = true) {n : Node} {x} (hx : x ∈ Step.matches p n) : ∃ b, x = .elem b := by
  induction p generalizing n x with
  | nil => simp [Step.matches] at hx; exact ⟨_, hx⟩
  | cons s p ih =>
    cases s with
    | child q ps =>
      obtain ⟨i, c, -, -, -, y, hy, rfl⟩ := mem_matches_child.mp hx
      obtain ⟨b, rfl⟩ := ih h hy
      exact ⟨_, rfl⟩
    | attr => cases h
    | text => cases h

theorem place_append {p1 r : List Step} {n : Node} : ∀ j, j < p1.length →
    place (p1 ++ r) n j = ((place p1 n j).1, (place p1 n j).2 ++ r)
  | 0, _ => rfl
  | j + 1, h => by
    have h1 : (p1 ++ r).take (j + 1) = p1.take (j + 1) := by rw [List.take_append_of_le_length (by omega)]
    have h2 : (p1 ++ r).drop (j + 1) = p1.drop (j + 1) ++ r := by rw [List.drop_append_of_le_length (by omega)]
    simp only [place, h1, h2]
    split
    · rfl
    · exact place_append j (by omega)

theorem place_spec (p : List Step) (n : Node) : ∀ j, ∃ i, i ≤ j ∧ (place p n j).2 = p.drop i ∧
    (Step.matches (p.take i) n).head? = some (.elem (place p n j).1)
  | 0 => ⟨0, by omega, by simp [place], by simp [place, Step.matches]⟩
  | j + 1 => by
    simp only [place]
    split
    · rename_i b hb; exact ⟨j + 1, by omega, rfl, hb⟩
    · obtain ⟨i, h1, h2, h3⟩ := place_spec p n j
      exact ⟨i, by omega, h2, h3⟩

/-- Where the missing nodes go exists, and is the first match of the part of the path that is there. -/
theorem missing_spec (p : List Step) (n : Node) : ∃ pre, p = pre ++ (missing p n).2 ∧
    (Step.matches pre n).head? = some (.elem (missing p n).1) ∧ (p ≠ [] → (missing p n).2 ≠ []) := by
  obtain ⟨i, h1, h2, h3⟩ := place_spec p n (p.length - 1)
  refine ⟨p.take i, ?_, h3, ?_⟩
  · unfold missing; rw [h2, List.take_append_drop]
  · intro hp
    unfold missing
    rw [h2]
    intro h0
    have := List.drop_eq_nil_iff.mp h0
    have : 0 < p.length := List.length_pos_iff.mpr hp
    omega

theorem missing_get {p : List Step} (hok : pathOk p = true) (n : Node) (hp : p ≠ []) : ∃ m, n.get (missing p n).1 = some m := by
  obtain ⟨pre, h1, h2, h3⟩ := missing_spec p n
  rw [h1] at hok
  obtain ⟨-, h4, -⟩ := pathOk_append hok (h3 hp)
  obtain ⟨m, hm, -⟩ := matches_split pre n _ h4 (List.mem_of_mem_head? h2)
  exact ⟨m, hm⟩

/-- `_create_xml_node` on a simple path creates exactly the missing steps. -/
theorem createNode_run (heng : EngineOk eng) : ∀ (e : Expr) (p : List Step), res ctx e = some (p, none) → pathOk p = true →
    e.canonical = true → ∀ a s n, Node.get a s = some n → (Step.matches p n = [] ∨ p.length = 1) → ∀ m, n.get (missing p n).1 = some m →
      createNode eng ctx e (.elem a) none s
        = (.ok ((created (missing p n).2 m).under (a ++ (missing p n).1)),
           s.modify (a ++ (missing p n).1) (buildPath (missing p n).2 id))
  | .step ax t ps, p, h, hok, hc, a, s, n, hs, _, m, hm => by
    obtain ⟨st, rfl⟩ := res_step h
    have : missing [st] n = ([], [st]) := rfl
    simp only [this, Node.get_nil, Option.some.injEq] at hm
    subst hm
    simp only [this, List.append_nil]
    exact createNode_step h hok hs
  | .binary l .slash r, p, h, hok, hc, a, s, n, hs, hnm, m, hm => by
    obtain ⟨hcl, hcr, ax, t, ps, rfl⟩ := canonical_slash hc h
    simp only [res] at h
    split at h <;> simp only [reduceCtorEq, Option.some.injEq, Prod.mk.injEq, and_true] at h
    rename_i p1 p2 hl hr
    subst h
    have hr : res ctx (.step ax t ps) = some (p2, none) := hr
    obtain ⟨st, rfl⟩ := res_step hr
    obtain ⟨h1, h2, h3⟩ := pathOk_append hok (by simp)
    have hne := res_ne_nil l hl
    have hlen : 0 < p1.length := List.length_pos_iff.mpr hne
    have hf := findNode_path heng (parse0_ser hcl) hl hs
    have hcn : createNode eng ctx (.binary l .slash (.step ax t ps)) (.elem a) none s
        = (findNode eng ctx l.ser (.elem a) >>= fun o => match o with
          | some f => foundRef f >>= fun left => createNode eng ctx (.step ax t ps) left none
          | none => createNode eng ctx l (.elem a) none >>= fun left => createNode eng ctx (.step ax t ps) left none) s := by
      rw [createNode]; rfl
    rw [hcn, bind_ok hf]
    cases hh : (Step.matches p1 n).head? with
    | some x =>
      obtain ⟨b, rfl⟩ := matches_allChild h1 (List.mem_of_mem_head? hh)
      have hmiss : missing (p1 ++ [st]) n = (b, [st]) := by
        unfold missing
        obtain ⟨k, hk⟩ : ∃ k, p1.length = k + 1 := ⟨p1.length - 1, by omega⟩
        have h5 : (p1 ++ [st]).take (k + 1) = p1 := by rw [← hk]; simp
        have h6 : (p1 ++ [st]).drop (k + 1) = [st] := by rw [← hk]; simp
        simp only [List.length_append, List.length_singleton, Nat.add_sub_cancel, hk, place, h5, hh, h6]
      rw [hmiss] at hm ⊢
      simp only [Option.map_some]
      rw [bind_ok (show foundRef (.ref ((Ref.elem b).under a)) s = (.ok (.elem (a ++ b)), s) from rfl)]
      have hg : Node.get (a ++ b) s = some m := by rw [Node.get_append, hs]; exact hm
      exact createNode_step hr h3 hg
    | none =>
      have hnil : Step.matches p1 n = [] := List.head?_eq_none_iff.mp hh
      have hmiss : missing (p1 ++ [st]) n = ((missing p1 n).1, (missing p1 n).2 ++ [st]) := by
        unfold missing
        obtain ⟨k, hk⟩ : ∃ k, p1.length = k + 1 := ⟨p1.length - 1, by omega⟩
        have h5 : (p1 ++ [st]).take (k + 1) = p1 := by rw [← hk]; simp
        simp only [List.length_append, List.length_singleton, Nat.add_sub_cancel, hk, place, h5, hh]
        exact place_append k (by omega)
      rw [hmiss] at hm ⊢
      simp only [Option.map_none]
      have ih := createNode_run heng l p1 hl h2 hcl a s n hs (.inl hnil) m hm
      rw [bind_ok ih]
      have hg : Node.get (a ++ (missing p1 n).1) s = some m := by rw [Node.get_append, hs]; exact hm
      obtain ⟨pre, hpre, -, -⟩ := missing_spec p1 n
      have hac : allChild (missing p1 n).2 = true := by
        rw [hpre] at h1
        exact allChild_right h1
      rw [created_allChild hac]
      rw [show (Ref.elem (target (missing p1 n).2 m).addr).under (a ++ (missing p1 n).1)
        = .elem (a ++ (missing p1 n).1 ++ (target (missing p1 n).2 m).addr) from rfl]
      rw [createNode_step hr h3 (get_built hg (missing p1 n).2 id)]
      rw [modify_built hg, created_append hac, under_under]
      simp only [id, Prod.mk.injEq, true_and]
      apply Node.modify_congr hg
      rw [allChild_append hac]
      rfl
  | .binary l .eq r, _, h, _, _, _, _, _, _, _, _, _ => by
    simp only [res] at h
    split at h <;> simp at h
  | .binary l .or r, _, h, _, _, _, _, _, _, _, _, _ => by simp [res] at h
  | .binary l .and r, _, h, _, _, _, _, _, _, _, _, _ => by simp [res] at h
  | .binary l .ne r, _, h, _, _, _, _, _, _, _, _, _ => by simp [res] at h
  | .binary l .lt r, _, h, _, _, _, _, _, _, _, _, _ => by simp [res] at h
  | .binary l .le r, _, h, _, _, _, _, _, _, _, _, _ => by simp [res] at h
  | .binary l .gt r, _, h, _, _, _, _, _, _, _, _, _ => by simp [res] at h
  | .binary l .ge r, _, h, _, _, _, _, _, _, _, _, _ => by simp [res] at h
  | .binary l .plus r, _, h, _, _, _, _, _, _, _, _, _ => by simp [res] at h
  | .binary l .minus r, _, h, _, _, _, _, _, _, _, _, _ => by simp [res] at h
  | .binary l .mult r, _, h, _, _, _, _, _, _, _, _, _ => by simp [res] at h
  | .binary l .div r, _, h, _, _, _, _, _, _, _, _, _ => by simp [res] at h
  | .binary l .mod r, _, h, _, _, _, _, _, _, _, _, _ => by simp [res] at h
  | .binary l .union r, _, h, _, _, _, _, _, _, _, _, _ => by simp [res] at h
  | .binary l .dslash r, _, h, _, _, _, _, _, _, _, _, _ => by simp [res] at h
  | .lit _, _, h, _, _, _, _, _, _, _, _, _ => by simp [res] at h
  | .int _, _, h, _, _, _, _, _, _, _, _, _ => by simp [res] at h
  | .float _, _, h, _, _, _, _, _, _, _, _, _ => by simp [res] at h
  | .neg _, _, h, _, _, _, _, _, _, _, _, _ => by simp [res] at h
  | .pred _ _, _, h, _, _, _, _, _, _, _, _, _ => by simp [res] at h
  | .root, _, h, _, _, _, _, _, _, _, _, _ => by simp [res] at h
  | .abs _ _, _, h, _, _, _, _, _, _, _, _, _ => by simp [res] at h
  | .abbrev _, _, h, _, _, _, _, _, _, _, _, _ => by simp [res] at h
  | .var _ _, _, h, _, _, _, _, _, _, _, _, _ => by simp [res] at h
  | .call _ _ _, _, h, _, _, _, _, _, _, _, _, _ => by simp [res] at h
where
  allChild_right : ∀ {p1 p2 : List Step}, allChild (p1 ++ p2) = true → allChild p2 = true
    | [], _, h => h
    | .child _ _ :: p1, _, h => allChild_right (p1 := p1) h
    | .attr _ :: _, _, h => by cases h
    | .text :: _, _, h => by cases h

end Fields
