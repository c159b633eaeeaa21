import Verif.Spec.Search
import Verif.XmlMap.NodeListLemmas
import Mathlib.Data.List.Forall2
/-
The descendants of an element that are selected by the labels on the way to them, and what changing or removing one of them does.
-/
namespace Fields
open Xml XPath Spec

section

theorem inside_def (P : Lang) (n : Node) : inside P n = insideL P n.children := by cases n; simp [inside, Node.children]
theorem scattered_def (P : Lang) (n : Node) : Scattered P n = ScatteredL P n.children := by cases n; simp [Scattered, Node.children]
theorem around_children {P : Lang} (n : Node) (c : List Node) (h : aroundL P c = aroundL P n.children) : around P (n.withChildren c) = around P n := by
  cases n; simp only [Node.children] at h; simp only [around, Node.withChildren, h]
theorem inside_children {P : Lang} (n : Node) (c : List Node) : inside P (n.withChildren c) = insideL P c := by cases n; simp [inside, Node.withChildren]
theorem scattered_children {P : Lang} (n : Node) (c : List Node) : Scattered P (n.withChildren c) = ScatteredL P c := by cases n; simp [Scattered, Node.withChildren]

theorem forall₂_app {β γ : Type} {R : β → γ → Prop} {l1 l2 : List β} {k1 k2 : List γ} (h1 : List.Forall₂ R l1 k1) (h2 : List.Forall₂ R l2 k2) :
    List.Forall₂ R (l1 ++ l2) (k1 ++ k2) := by
  induction h1 with
  | nil => exact h2
  | cons h _ ih => exact .cons h ih

mutual
/-- Places and members belong together. -/
theorem found_inside : ∀ (n : Node) (P : Lang), List.Forall₂ (fun b m => b ≠ [] ∧ n.get b = some m ∧ ∃ w, P (w ++ [label m]) = true) (found P n) (inside P n)
  | .mk t a x c l, P => by
    simp only [found, inside]
    refine (foundL_insideL c P 0).imp ?_
    rintro b m ⟨j, b', rfl, h, hm⟩
    refine ⟨by simp, ?_, hm⟩
    simp only [Nat.zero_add, Node.get, Node.children]
    cases hc : c[j]? with
    | none => rw [hc] at h; simp at h
    | some d => rw [hc] at h; exact h
theorem foundL_insideL : ∀ (cs : List Node) (P : Lang) (i : Nat),
    List.Forall₂ (fun b m => ∃ j b', b = (i + j) :: b' ∧ cs[j]?.bind (Node.get b') = some m ∧ ∃ w, P (w ++ [label m]) = true) (foundL P i cs) (insideL P cs)
  | [], _, _ => .nil
  | c :: cs, P, i => by
    simp only [foundL, insideL]
    refine forall₂_app ?_ (forall₂_app ?_ ?_)
    · by_cases hm : P [label c] = true
      · rw [if_pos hm, if_pos hm]
        exact .cons ⟨0, [], rfl, rfl, [], hm⟩ .nil
      · rw [if_neg hm, if_neg hm]
        exact .nil
    · rw [List.forall₂_map_left_iff]
      refine (found_inside c (P.after (label c))).imp ?_
      rintro b m ⟨-, hb, w, hm⟩
      exact ⟨0, b, rfl, hb, label c :: w, hm⟩
    · refine (foundL_insideL cs P (i + 1)).imp ?_
      rintro b m ⟨j, b', rfl, h, hm⟩
      exact ⟨j + 1, b', by rw [Nat.add_assoc, Nat.add_comm 1 j], h, hm⟩
end

theorem found_length (P : Lang) (n : Node) : (found P n).length = (inside P n).length := (found_inside n P).length_eq

theorem found_at {P : Lang} {n : Node} {k : Nat} {m : Node} (h : (inside P n)[k]? = some m) :
    ∃ b, (found P n)[k]? = some b ∧ b ≠ [] ∧ n.get b = some m ∧ ∃ w, P (w ++ [label m]) = true := by
  have h2 := found_inside n P
  generalize found P n = bs at h2 ⊢
  generalize inside P n = ms at h h2
  induction h2 generalizing k with
  | nil => simp at h
  | cons hr _ ih =>
    cases k with
    | zero => simp only [List.getElem?_cons_zero, Option.some.injEq] at h; subst h; exact ⟨_, rfl, hr⟩
    | succ k => exact ih (by simpa using h)

theorem found_none {P : Lang} {n : Node} (h : inside P n = []) : found P n = [] := List.length_eq_zero_iff.1 (by rw [found_length, h]; rfl)

mutual
theorem scattered_none : ∀ (n : Node) (P : Lang), inside P n = [] → Scattered P n
  | .mk t a x c l, P, h => by simp only [inside] at h; exact scatteredL_none c P h
theorem scatteredL_none : ∀ (cs : List Node) (P : Lang), insideL P cs = [] → ScatteredL P cs
  | [], _, _ => trivial
  | c :: cs, P, h => by
    simp only [insideL, List.append_eq_nil_iff] at h
    exact ⟨fun _ => h.2.1, scattered_none c _ h.2.1, scatteredL_none cs P h.2.2⟩
end

/-- A change below the top of an element keeps its label. -/
theorem modify_local {b : Node.Addr} (hb : b ≠ []) (f : Node → Node) (n : Node) : label (n.modify b f) = label n := by
  cases b with
  | nil => exact absurd rfl hb
  | cons i b => cases n; simp [Node.modify, Node.withChildren, label, Node.tag, Node.attrs]

/-- `m'` is selected wherever `m` is, and holds no selected element. -/
def CanReplace (P : Lang) (m m' : Node) : Prop := ∀ w, P (w ++ [label m]) = true → P (w ++ [label m']) = true ∧ inside (fun v => P (w ++ label m' :: v)) m' = []

theorem CanReplace.after {P : Lang} {m m' : Node} (h : CanReplace P m m') (l : Label) : CanReplace (P.after l) m m' := fun w hw => h (l :: w) hw

/-- What a change of the `k`-th member does to an element. -/
structure Changed (P : Lang) (n n' : Node) (k : Nat) (m' : Node) : Prop where
  found : found P n' = found P n
  inside : inside P n' = (inside P n).set k m'
  around : around P n' = around P n
  scattered : Scattered P n'

mutual
theorem change_node : ∀ (n : Node) (P : Lang), Scattered P n → ∀ {k : Nat} {b : Node.Addr} {m m' : Node},
    (found P n)[k]? = some b → (inside P n)[k]? = some m → CanReplace P m m' → Changed P n (n.modify b (fun _ => m')) k m'
  | .mk t a x c l, P, hsc, k, b, m, m', hb, hm, hr => by
    simp only [Scattered] at hsc
    simp only [found] at hb
    simp only [inside] at hm
    obtain ⟨j, b', hbe, h1, h2, h3, h4⟩ := change_list c P 0 hsc hb hm hr
    rw [Nat.zero_add] at hbe
    subst hbe
    exact ⟨by simpa [found, Node.modify, Node.withChildren, Node.children] using h1, by simpa [inside, Node.modify, Node.withChildren, Node.children] using h2,
      by simpa [around, Node.modify, Node.withChildren, Node.children] using h3, by simpa [Scattered, Node.modify, Node.withChildren, Node.children] using h4⟩
theorem change_list : ∀ (cs : List Node) (P : Lang) (i : Nat), ScatteredL P cs → ∀ {k : Nat} {b : Node.Addr} {m m' : Node},
    (foundL P i cs)[k]? = some b → (insideL P cs)[k]? = some m → CanReplace P m m' →
    ∃ j b', b = (i + j) :: b' ∧ foundL P i (cs.modify j (Node.modify b' (fun _ => m'))) = foundL P i cs ∧
      insideL P (cs.modify j (Node.modify b' (fun _ => m'))) = (insideL P cs).set k m' ∧
      aroundL P (cs.modify j (Node.modify b' (fun _ => m'))) = aroundL P cs ∧ ScatteredL P (cs.modify j (Node.modify b' (fun _ => m')))
  | [], _, _, _, k, b, m, m', hb, _, _ => by simp [foundL] at hb
  | c :: cs, P, i, hsc, k, b, m, m', hb, hm, hr => by
    obtain ⟨hs1, hs2, hs3⟩ := hsc
    by_cases hc : P [label c] = true
    · have hic : inside (P.after (label c)) c = [] := hs1 hc
      have hfc := found_none hic
      simp only [foundL, insideL, hc, if_true, hic, hfc, List.map_nil, List.nil_append, List.singleton_append] at hb hm ⊢
      cases k with
      | zero =>
        simp only [List.getElem?_cons_zero, Option.some.injEq] at hb hm
        subst hb
        subst hm
        obtain ⟨hm', hi⟩ := hr [] hc
        have hi : inside (P.after (label m')) m' = [] := hi
        simp only [List.nil_append] at hm'
        have hfm := found_none hi
        refine ⟨0, [], rfl, ?_, ?_, ?_, ?_⟩
        · simp [foundL, Node.modify, hm', hfm]
        · simp [insideL, Node.modify, hm', hi]
        · simp [aroundL, Node.modify, hm', hc]
        · exact ⟨fun _ => hi, scattered_none m' _ hi, hs3⟩
      | succ k =>
        simp only [List.getElem?_cons_succ] at hb hm
        obtain ⟨j, b', rfl, h1, h2, h3, h4⟩ := change_list cs P (i + 1) hs3 hb hm hr
        refine ⟨j + 1, b', by rw [Nat.add_assoc, Nat.add_comm 1 j], ?_, ?_, ?_, ⟨hs1, hs2, h4⟩⟩
        · simp [foundL, hc, hfc, h1]
        · simp [insideL, hc, hic, h2]
        · simp [aroundL, hc, h3]
    · simp only [foundL, insideL, hc, if_false, List.nil_append, Bool.false_eq_true] at hb hm ⊢
      by_cases hk : k < (inside (P.after (label c)) c).length
      · rw [List.getElem?_append_left (by rw [List.length_map, found_length]; exact hk), List.getElem?_map] at hb
        rw [List.getElem?_append_left hk] at hm
        obtain ⟨b', hb', rfl⟩ := Option.map_eq_some_iff.1 hb
        have hch := change_node c (P.after (label c)) hs2 hb' hm (hr.after _)
        obtain ⟨b'', hb'', hne, -⟩ := found_at hm
        rw [hb'] at hb''
        cases hb''
        have hloc := modify_local hne (fun _ => m') c
        refine ⟨0, b', rfl, ?_, ?_, ?_, ?_⟩
        · simp [foundL, hloc, hc, hch.found]
        · simp [insideL, hloc, hc, hch.inside, List.set_append_left _ _ hk]
        · simp [aroundL, hloc, hc, hch.around]
        · refine ⟨fun h => absurd h (by rw [hloc]; exact hc), ?_, hs3⟩
          rw [hloc]
          exact hch.scattered
      · rw [List.getElem?_append_right (by rw [List.length_map, found_length]; omega), List.length_map, found_length] at hb
        rw [List.getElem?_append_right (by omega)] at hm
        obtain ⟨j, b', rfl, h1, h2, h3, h4⟩ := change_list cs P (i + 1) hs3 hb hm hr
        refine ⟨j + 1, b', by rw [Nat.add_assoc, Nat.add_comm 1 j], ?_, ?_, ?_, ⟨hs1, hs2, h4⟩⟩
        · simp [foundL, hc, h1]
        · simp [insideL, hc, h2, List.set_append_right _ _ (Nat.le_of_not_lt hk)]
        · simp [aroundL, hc, h3]
end

/-- What removing the `k`-th member does to an element. -/
structure Removed (P : Lang) (n n' : Node) (k : Nat) : Prop where
  inside : inside P n' = (inside P n).eraseIdx k
  around : around P n' = around P n
  scattered : Scattered P n'

/-- Remove the child at `j` of a list, or a descendant below it. -/
def takeOut (j : Nat) : Node.Addr → List Node → List Node
  | [], cs => cs.eraseIdx j
  | i :: b, cs => cs.modify j (Node.modify ((i :: b).dropLast) (Node.removeChild ((i :: b).getLast?.getD 0)))

theorem takeOut_succ (j : Nat) (b : Node.Addr) (c : Node) (cs : List Node) : takeOut (j + 1) b (c :: cs) = c :: takeOut j b cs := by
  cases b <;> simp [takeOut]

theorem removed_local {b : Node.Addr} (f : Node → Node) (hf : ∀ n, label (f n) = label n) (n : Node) : label (n.modify b f) = label n := by
  cases b with
  | nil => exact hf n
  | cons i b => exact modify_local (by simp) f n

theorem removeChild_local (i : Nat) (n : Node) : label (Node.removeChild i n) = label n := by
  cases n; simp [Node.removeChild, Node.withChildren, label, Node.tag, Node.attrs]

/-- Removing at an address is taking out of the children. -/
theorem remove_children (j : Nat) (b : Node.Addr) (n : Node) :
    n.modify ((j :: b).dropLast) (Node.removeChild ((j :: b).getLast?.getD 0)) = n.withChildren (takeOut j b n.children) := by
  cases b with
  | nil => simp [Node.modify, takeOut, Node.removeChild]
  | cons i b => simp [Node.modify, takeOut, List.dropLast, List.getLast?_cons_cons]

mutual
theorem remove_node : ∀ (n : Node) (P : Lang), Scattered P n → ∀ {k : Nat} {b : Node.Addr},
    (found P n)[k]? = some b → Removed P n (n.modify b.dropLast (Node.removeChild (b.getLast?.getD 0))) k
  | .mk t a x c l, P, hsc, k, b, hb => by
    simp only [Scattered] at hsc
    simp only [found] at hb
    obtain ⟨j, b', hbe, h1, h2, h3⟩ := remove_list c P 0 hsc hb
    rw [Nat.zero_add] at hbe
    subst hbe
    rw [remove_children]
    refine ⟨?_, ?_, ?_⟩
    · rw [inside_children]; simpa [inside, Node.children] using h1
    · exact around_children _ _ (by simpa [Node.children] using h2)
    · rw [scattered_children]; simpa [Node.children] using h3
theorem remove_list : ∀ (cs : List Node) (P : Lang) (i : Nat), ScatteredL P cs → ∀ {k : Nat} {b : Node.Addr},
    (foundL P i cs)[k]? = some b →
    ∃ j b', b = (i + j) :: b' ∧ insideL P (takeOut j b' cs) = (insideL P cs).eraseIdx k ∧ aroundL P (takeOut j b' cs) = aroundL P cs ∧ ScatteredL P (takeOut j b' cs)
  | [], _, _, _, k, b, hb => by simp [foundL] at hb
  | c :: cs, P, i, hsc, k, b, hb => by
    obtain ⟨hs1, hs2, hs3⟩ := hsc
    by_cases hc : P [label c] = true
    · have hic : inside (P.after (label c)) c = [] := hs1 hc
      have hfc := found_none hic
      simp only [foundL, hc, if_true, hfc, List.map_nil, List.nil_append, List.singleton_append] at hb
      cases k with
      | zero =>
        simp only [List.getElem?_cons_zero, Option.some.injEq] at hb
        subst hb
        refine ⟨0, [], rfl, ?_, ?_, hs3⟩
        · simp [takeOut, insideL, hc, hic]
        · simp [takeOut, aroundL, hc]
      | succ k =>
        simp only [List.getElem?_cons_succ] at hb
        obtain ⟨j, b', rfl, h1, h2, h3⟩ := remove_list cs P (i + 1) hs3 hb
        refine ⟨j + 1, b', by rw [Nat.add_assoc, Nat.add_comm 1 j], ?_, ?_, ?_⟩
        · simp [takeOut_succ, insideL, hc, hic, h1]
        · simp [takeOut_succ, aroundL, hc, h2]
        · rw [takeOut_succ]; exact ⟨hs1, hs2, h3⟩
    · simp only [foundL, hc, if_false, List.nil_append, Bool.false_eq_true] at hb
      by_cases hk : k < (inside (P.after (label c)) c).length
      · rw [List.getElem?_append_left (by rw [List.length_map, found_length]; exact hk), List.getElem?_map] at hb
        obtain ⟨b', hb', rfl⟩ := Option.map_eq_some_iff.1 hb
        have hch := remove_node c (P.after (label c)) hs2 hb'
        obtain ⟨b'', hb'', hne, -⟩ := found_at (List.getElem?_eq_getElem hk)
        rw [hb'] at hb''
        cases hb''
        cases b' with
        | nil => exact absurd rfl hne
        | cons i' b' =>
          have hloc := removed_local (b := (i' :: b').dropLast) _ (removeChild_local ((i' :: b').getLast?.getD 0)) c
          refine ⟨0, i' :: b', rfl, ?_, ?_, ?_⟩
          · simp only [takeOut, List.modify_zero_cons, insideL, hloc, if_neg hc, hch.inside, List.nil_append, List.eraseIdx_append_of_lt_length hk]
          · simp only [takeOut, List.modify_zero_cons, aroundL, hloc, if_neg hc, hch.around]
          · simp only [takeOut, List.modify_zero_cons]
            refine ⟨fun h => absurd h (by rw [hloc]; exact hc), ?_, hs3⟩
            rw [hloc]
            exact hch.scattered
      · rw [List.getElem?_append_right (by rw [List.length_map, found_length]; omega), List.length_map, found_length] at hb
        obtain ⟨j, b', rfl, h1, h2, h3⟩ := remove_list cs P (i + 1) hs3 hb
        refine ⟨j + 1, b', by rw [Nat.add_assoc, Nat.add_comm 1 j], ?_, ?_, ?_⟩
        · simp [takeOut_succ, insideL, hc, h1, List.eraseIdx_append_of_length_le (Nat.le_of_not_lt hk)]
        · simp [takeOut_succ, aroundL, hc, h2]
        · rw [takeOut_succ]; exact ⟨hs1, hs2, h3⟩
end

mutual
theorem around_none : ∀ (n : Node) (P : Lang), inside P n = [] → around P n = n
  | .mk t a x c l, P, h => by simp only [inside] at h; simp only [around, aroundL_none c P h]
theorem aroundL_none : ∀ (cs : List Node) (P : Lang), insideL P cs = [] → aroundL P cs = cs
  | [], _, _ => rfl
  | c :: cs, P, h => by
    simp only [insideL, List.append_eq_nil_iff] at h
    have hc : ¬ P [label c] = true := fun hm => by rw [if_pos hm] at h; simp at h
    simp only [aroundL, if_neg hc, around_none c _ h.2.1, aroundL_none cs P h.2.2]
end

end

end Fields
