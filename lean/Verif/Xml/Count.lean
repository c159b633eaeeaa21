import Verif.Xml.NodeLemmas
/-
The number of nodes of a document (elements, comments, processing instructions).
-/
namespace Xml.Node

mutual
/-- The number of nodes. -/
def nodes : Node → Nat
  | .mk _ _ _ c _ => nodesL c + 1
/-- ... of a list. -/
def nodesL : List Node → Nat
  | [] => 0
  | c :: cs => nodes c + nodesL cs
end

theorem nodes_eq (n : Node) : n.nodes = nodesL n.children + 1 := by cases n; rfl
theorem nodes_pos (n : Node) : 0 < n.nodes := by rw [nodes_eq]; omega
theorem nodes_withChildren (cs : List Node) (n : Node) : (n.withChildren cs).nodes = nodesL cs + 1 := by rw [nodes_eq, withChildren_children]

theorem nodesL_get {cs : List Node} {i : Nat} {c : Node} (h : cs[i]? = some c) : c.nodes ≤ nodesL cs := by
  induction cs generalizing i with
  | nil => cases h
  | cons d cs ih =>
    cases i with
    | zero => cases h; rw [nodesL]; omega
    | succ i => have := ih (i := i) (by simpa using h); rw [nodesL]; omega

theorem nodesL_modify {cs : List Node} {i : Nat} {c : Node} (h : cs[i]? = some c) (f : Node → Node) : nodesL (cs.modify i f) + c.nodes = nodesL cs + (f c).nodes := by
  induction cs generalizing i with
  | nil => cases h
  | cons d cs ih =>
    cases i with
    | zero => cases h; simp only [List.modify_zero_cons, nodesL]; omega
    | succ i => have := ih (i := i) (by simpa using h); simp only [List.modify_succ_cons, nodesL]; omega

theorem nodesL_eraseIdx {cs : List Node} {i : Nat} {c : Node} (h : cs[i]? = some c) : nodesL (cs.eraseIdx i) + c.nodes = nodesL cs := by
  induction cs generalizing i with
  | nil => cases h
  | cons d cs ih =>
    cases i with
    | zero => cases h; simp only [List.eraseIdx_cons_zero, nodesL]; omega
    | succ i => have := ih (i := i) (by simpa using h); simp only [List.eraseIdx_cons_succ, nodesL]; omega

theorem nodes_get {a : Addr} {s n : Node} (h : s.get a = some n) : n.nodes ≤ s.nodes := by
  induction a generalizing s with
  | nil => cases h; exact Nat.le_refl _
  | cons i a ih =>
    rw [get_cons] at h
    cases hc : s.children[i]? with
    | none => rw [hc] at h; cases h
    | some c =>
      rw [hc] at h
      have := ih h
      have := nodesL_get hc
      rw [nodes_eq s]
      omega

theorem nodes_modify {a : Addr} {s n : Node} (h : s.get a = some n) (f : Node → Node) : (s.modify a f).nodes + n.nodes = s.nodes + (f n).nodes := by
  induction a generalizing s with
  | nil => cases h; rw [modify_nil]; omega
  | cons i a ih =>
    rw [get_cons] at h
    cases hc : s.children[i]? with
    | none => rw [hc] at h; cases h
    | some c =>
      rw [hc] at h
      have := ih h
      have := nodesL_modify hc (modify a f)
      rw [modify_cons, nodes_withChildren, nodes_eq s]
      omega

/-- Taking an element out of a document makes it smaller. -/
theorem nodes_removed {a : Addr} {i : Nat} {s n : Node} (h : s.get (a ++ [i]) = some n) : (s.modify a (removeChild i)).nodes < s.nodes := by
  rw [get_append] at h
  cases ha : s.get a with
  | none => rw [ha] at h; cases h
  | some p =>
    rw [ha] at h
    have h : p.get [i] = some n := h
    rw [get_cons] at h
    cases hc : p.children[i]? with
    | none => rw [hc] at h; cases h
    | some c =>
      have h1 := nodes_modify ha (removeChild i)
      have h2 := nodesL_eraseIdx hc
      have h3 : (removeChild i p).nodes = nodesL (p.children.eraseIdx i) + 1 := nodes_withChildren _ _
      have := nodes_pos c
      rw [nodes_eq p] at h1
      omega

end Xml.Node
