import Verif.Spec.RefEngine
import Mathlib.Tactic.SplitIfs
/-
Unions of simple paths (`a|b|c`): what they mean, and what the theorems about them assume of the XPath engine.  The meaning (XPath 1.0, section 3.3) is stated without
reference to the code in eulxml.
-/
namespace Spec
open Xml XPath

/-- The paths of a union expression.  Only paths of child steps, so that all selected nodes are elements. -/
def unionPaths (ctx : Ctx) : Expr → Option (List (List Step))
  | .binary l .union r =>
    match (unionPaths ctx l).or (single l), (unionPaths ctx r).or (single r) with
    | some ps, some qs => some (ps ++ qs)
    | _, _ => none
  | _ => none
where
  /-- A member of the union. -/
  single (e : Expr) : Option (List (List Step)) := match resPath ctx e with
    | some p => if p.all (fun st => match st with | .child _ _ => true | _ => false) then some [p] else none
    | none => none

/-- Document order of elements: lexicographic order of the child indices. -/
def addrLt : Node.Addr → Node.Addr → Bool
  | [], [] => false
  | [], _ :: _ => true
  | _ :: _, [] => false
  | i :: a, j :: b => decide (i < j) || (decide (i = j) && addrLt a b)

/-- What is assumed of the XPath engine: simple paths, comparisons (`EngineOk`), and unions: every selected element once, in document order. -/
structure EngineUnionOk (eng : Engine) : Prop extends EngineOk eng where
  union : ∀ (ctx : Ctx) (s : Str) (e : Expr) (ps : List (List Step)) (doc n : Node) (a : Node.Addr),
    parse0 s = .ok e → unionPaths ctx e = some ps → doc.get a = some n →
    ∃ l : List Node.Addr, eng.xpath s doc a ctx = .ok (.nodes (l.map (fun b => .elem (a ++ b)))) ∧
      l.Pairwise (fun b c => addrLt b c = true) ∧ ∀ b, b ∈ l ↔ ∃ p ∈ ps, Ref.elem b ∈ Step.matches p n

/-! ### a reference engine with unions -/

mutual
/-- The addresses of all nodes, in document order. -/
def addrs : Node → List Node.Addr
  | .mk _ _ _ c _ => [] :: addrsL 0 c
def addrsL : Nat → List Node → List Node.Addr
  | _, [] => []
  | i, c :: cs => (addrs c).map (i :: ·) ++ addrsL (i + 1) cs
end

/-- The reference engine, with unions. -/
def refEngineU : Engine where
  xpath s doc a ctx := match parse0 s, doc.get a with
    | .ok e, some n => match unionPaths ctx e with
      | some ps => .ok (.nodes (((addrs n).filter (fun b => ps.any (fun p => decide (Ref.elem b ∈ Step.matches p n)))).map (fun b => .elem (a ++ b))))
      | none => refEngine.xpath s doc a ctx
    | _, _ => refEngine.xpath s doc a ctx

theorem mem_addrsL_head {i : Nat} : ∀ {cs : List Node} {b : Node.Addr}, b ∈ addrsL i cs → ∃ j b', b = j :: b' ∧ i ≤ j
  | [], b, h => by simp [addrsL] at h
  | c :: cs, b, h => by
    simp only [addrsL, List.mem_append, List.mem_map] at h
    rcases h with ⟨b', -, rfl⟩ | h
    · exact ⟨i, b', rfl, Nat.le_refl _⟩
    · obtain ⟨j, b', h1, h2⟩ := mem_addrsL_head h
      exact ⟨j, b', h1, by omega⟩

mutual
theorem addrs_sorted : ∀ n : Node, (addrs n).Pairwise (fun b c => addrLt b c = true)
  | .mk _ _ _ c _ => by
    simp only [addrs, List.pairwise_cons]
    refine ⟨fun b hb => ?_, addrsL_sorted 0 c⟩
    obtain ⟨j, b', rfl, -⟩ := mem_addrsL_head hb
    rfl
theorem addrsL_sorted : ∀ (i : Nat) (cs : List Node), (addrsL i cs).Pairwise (fun b c => addrLt b c = true)
  | _, [] => by simp [addrsL]
  | i, c :: cs => by
    simp only [addrsL, List.pairwise_append, List.pairwise_map]
    refine ⟨(addrs_sorted c).imp (fun h => by simp [addrLt, h]), addrsL_sorted (i + 1) cs, fun x hx y hy => ?_⟩
    obtain ⟨x', -, rfl⟩ := List.mem_map.1 hx
    obtain ⟨j, y', rfl, hj⟩ := mem_addrsL_head hy
    have : i < j := by omega
    simp [addrLt, this]
end

mutual
theorem mem_addrs : ∀ (n : Node) (b : Node.Addr), (n.get b).isSome → b ∈ addrs n
  | .mk t a x c l, [], _ => by simp [addrs]
  | .mk t a x c l, i :: b, h => by
    simp only [addrs, List.mem_cons]
    refine .inr ?_
    simp only [Node.get, Node.children] at h
    cases hc : c[i]? with
    | none => rw [hc] at h; cases h
    | some d =>
      rw [hc] at h
      have := mem_addrsL c 0 i d b hc h
      rwa [Nat.zero_add] at this
theorem mem_addrsL : ∀ (cs : List Node) (k i : Nat) (d : Node) (b : Node.Addr), cs[i]? = some d → (d.get b).isSome → (k + i) :: b ∈ addrsL k cs
  | [], k, i, d, b, h, _ => by simp at h
  | c :: cs, k, i, d, b, h, hb => by
    simp only [addrsL, List.mem_append, List.mem_map]
    cases i with
    | zero =>
      simp only [List.getElem?_cons_zero, Option.some.injEq] at h
      subst h
      exact .inl ⟨b, mem_addrs c b hb, rfl⟩
    | succ i =>
      rw [List.getElem?_cons_succ] at h
      have := mem_addrsL cs (k + 1) i d b h hb
      refine .inr ?_
      rwa [show k + (i + 1) = k + 1 + i by omega]
end

theorem matches_get : ∀ (p : List Step) (n : Node) (b : Node.Addr), Ref.elem b ∈ Step.matches p n → (n.get b).isSome
  | [], n, b, h => by
    simp only [Step.matches, List.mem_singleton, Ref.elem.injEq] at h
    subst h; rfl
  | .child q ps :: r, n, b, h => by
    simp only [Step.matches, List.mem_flatten, List.mem_mapIdx] at h
    obtain ⟨l, ⟨i, hi, rfl⟩, hx⟩ := h
    split_ifs at hx with h1
    · obtain ⟨y, hy, he⟩ := List.mem_map.1 hx
      cases y with
      | elem b' =>
        simp only [Ref.under, Ref.elem.injEq, List.singleton_append] at he
        subst he
        have := matches_get r _ b' hy
        simp only [Node.get, List.getElem?_eq_getElem hi]
        exact this
      | _ => simp [Ref.under] at he
    · cases hx
  | .attr q :: r, n, b, h => by
    simp only [Step.matches] at h
    split_ifs at h <;> simp at h
  | .text :: r, n, b, h => by
    simp only [Step.matches] at h
    split_ifs at h
    · simp only [List.mem_append, tailRefs, List.mem_flatten, List.mem_mapIdx] at h
      rcases h with h | ⟨l, ⟨i, hi, rfl⟩, hx⟩
      · simp at h
      · split_ifs at hx <;> simp at hx
    · simp [tailRefs, List.mem_flatten, List.mem_mapIdx] at h
      obtain ⟨l, ⟨i, hi, rfl⟩, hx⟩ := h
      split_ifs at hx <;> simp at hx
    · cases h

theorem unionPaths_none {ctx : Ctx} {e : Expr} {r} (h : res ctx e = some r) : unionPaths ctx e = none := by
  unfold unionPaths
  split
  · simp [res] at h
  · rfl

theorem refEngineU_ok : EngineUnionOk refEngineU where
  path := by
    intro ctx s e p doc n a hp hr hn
    have h : ∃ r, res ctx e = some r := by
      unfold resPath at hr
      cases he : res ctx e with
      | none => rw [he] at hr; simp at hr
      | some r => exact ⟨r, rfl⟩
    obtain ⟨r, h⟩ := h
    simp only [refEngineU, hp, hn, unionPaths_none h]
    exact refEngine_ok.path ctx s e p doc n a hp hr hn
  cmp := by
    intro ctx s e p v q doc n a hp hr hq hn
    simp only [refEngineU, hp, hn, unionPaths_none hr]
    exact refEngine_ok.cmp ctx s e p v q doc n a hp hr hq hn
  union := by
    intro ctx s e ps doc n a hp hr hn
    simp only [refEngineU, hp, hn, hr]
    refine ⟨_, rfl, (addrs_sorted n).filter _, fun b => ?_⟩
    simp only [List.mem_filter, List.any_eq_true, decide_eq_true_eq]
    constructor
    · exact fun h => h.2
    · rintro ⟨p, h1, h2⟩
      exact ⟨mem_addrs n b (matches_get p n b h2), p, h1, h2⟩

end Spec
