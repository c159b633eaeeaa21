import Verif.XmlMap.ManyListRun
import Verif.Spec.Overwrite
/-
`insert` in front of the end on a path of several child steps.
-/
namespace Fields
open Xml XPath Spec

section
variable [PyUnicode] {eng : Engine} {ctx : Ctx} {xp : Str} {lx : Expr} {ax : Option Str} {t : NodeTest} {es : List Expr} {p : List Step} {q : QName} {ps : List Pred}
variable {α : Type} {good : Node → Prop} {value : Node → α}
variable {o : Node.Addr} {s n : Node} {bs : List Node.Addr} {ls : List (List α)}
variable [DecidableEq α] (heng : EngineOk eng) (hd : Deep ctx xp lx ax t es p q ps)
variable {mapper : Item → Except PyErr α} {store : Ref → α → M Unit}
  {put : α → Node → Node} {okv : α → Prop} (hS : StoreOk q ps mapper store good value put okv)

omit [PyUnicode] [DecidableEq α] in
theorem positionOf_ref (hP : Parents p q ps good value n bs ls) {r : Ref} (hr : r ∈ bs.flatMap (refsAt q ps o n)) (s : Node) : ∃ i, positionOf r s = (.ok i, s) := by
  obtain ⟨b', hb', hx⟩ := List.mem_flatMap.1 hr
  have : ∃ m', n.get b' = some m' := by
    have key : ∀ {bs : List Node.Addr} {ls : List (List α)}, List.Forall₂ (fun b l => ∃ m, n.get b = some m ∧ Holds q ps good value m l) bs ls →
        b' ∈ bs → ∃ m', n.get b' = some m' := by
      intro bs ls h
      induction h with
      | nil => intro h; simp at h
      | cons h _ ih =>
        intro hb'
        rcases List.mem_cons.1 hb' with rfl | hb'
        · obtain ⟨m', h', -⟩ := h; exact ⟨m', h'⟩
        · exact ih hb'
    exact key hP.each hb'
  obtain ⟨m', hm'⟩ := this
  rw [refsAt_eq hm'] at hx
  obtain ⟨i, -, rfl⟩ := List.mem_map.1 hx
  exact ⟨i, by simp [positionOf]; rfl⟩

include heng hd hS

/-- The first parent gets a blank member. -/
theorem manyBlank {l : List α} {ls2 : List (List α)} (hs : s.get o = some n) (hP : Parents p q ps good value n bs (l :: ls2)) (hnew : good (newElem q ps)) (idx : Option Nat) :
    ∃ r, ManyStep p q ps good value o s n bs (createNode eng ctx (.binary lx .slash (.step ax t es)) (.elem o) idx s) (.ok r, (l ++ [value (newElem q ps)]) :: ls2) := by
  obtain ⟨b, m, hA, hb⟩ := hP.place (ls1 := []) hd.ok hs
  have hb := hb rfl
  have hm : n.get b = some m := by have := hA.get; rwa [Node.get_append, hs] at this
  have hl := hA.holds
  have hok := (pathOk_append hd.ok (by simp)).2.2
  simp only [pathOk, Bool.and_eq_true] at hok
  have hok := hok.1.1
  have hmem : isMember q ps (newElem q ps) = true := by simp [isMember, newElem_isElem, newElem_sat hok]
  refine ⟨.elem (o ++ b ++ [m.children.length]), ?_⟩
  rw [manyCreate heng hd hs (by rw [hP.all, List.head?_map, hb]; rfl) hm idx]
  refine hA.step (l' := l ++ [value (newElem q ps)]) ⟨_, rfl, ⟨?_, ?_⟩, ?_⟩
  · intro m' hm'
    rw [members_mid hmem] at hm'
    simp only [List.mem_append, List.mem_cons, List.filter_nil, List.not_mem_nil, or_false] at hm'
    rcases hm' with hm' | rfl
    · exact hl.1 m' hm'
    · exact hnew
  · rw [members_mid hmem, List.map_append]
    rw [show (m.children.filter (isMember q ps)).map value = l from hl.2]
    simp
  · simp [SameButMembers, others, hmem]

theorem manyInsert (hs : s.get o = some n) (hP : Parents p q ps good value n bs ls) (hne : ls ≠ []) (hnew : good (newElem q ps)) {i : Int} {v : α} (hv : okv v)
    (h1 : -(ls.flatten.length : Int) ≤ i) (h2 : i < ls.flatten.length) :
    ManyStep p q ps good value o s n bs (listInsert eng ctx mapper store xp (.binary lx .slash (.step ax t es)) (.elem o) i v s)
      (.ok (), setIn (addFirst [value (newElem q ps)] ls) (if 0 ≤ i then i else ls.flatten.length + 1 + i).toNat v) := by
  obtain ⟨l, ls2, rfl⟩ := List.exists_cons_of_ne_nil hne
  have hlen := manyLen heng hd hS hs hP
  have hp0 : ∃ k, pos (bs.flatMap (refsAt q ps o n)).length i = some k := by
    rw [refs_length hP.each]
    unfold pos
    by_cases h0 : 0 ≤ i
    · exact ⟨_, if_pos ⟨h0, h2⟩⟩
    · rw [if_neg (by omega)]; exact ⟨_, if_pos ⟨by omega, h1⟩⟩
  obtain ⟨k0, hk0⟩ := hp0
  have hget : ∃ r ∈ bs.flatMap (refsAt q ps o n), pyGet (bs.flatMap (refsAt q ps o n)) i = .ok r :=
    ⟨_, List.getElem_mem (pos_lt hk0), pyGet_some hk0⟩
  obtain ⟨r, hr, hget⟩ := hget
  obtain ⟨z, hz⟩ := positionOf_ref hP hr s
  obtain ⟨r', n', g1, g2, g3⟩ := manyBlank heng hd hS hs hP hnew (some z)
  have hs' : (s.modify o (fun _ => n')).get o = some n' := by rw [Node.get_modify, hs]; rfl
  have hp1 : pos ((l ++ [value (newElem q ps)]) :: ls2).flatten.length i = some (if 0 ≤ i then i else (l :: ls2).flatten.length + 1 + i).toNat := by
    have e : ((l ++ [value (newElem q ps)]) :: ls2).flatten.length = (l :: ls2).flatten.length + 1 := by simp; omega
    rw [e]
    unfold pos
    by_cases h0 : 0 ≤ i
    · rw [if_pos ⟨h0, by omega⟩, if_pos h0]
    · rw [if_neg (by omega), if_pos ⟨by omega, by omega⟩, if_neg h0]
      norm_cast
  obtain ⟨n'', k1, k2, k3⟩ := manySet heng hd hS hs' g2 hp1 hv
  refine ⟨n'', ?_, k2, OnlyMembers.trans g3 k3⟩
  unfold listInsert
  rw [bind_ok hlen, if_neg (by omega), bind_ok (manyMatches heng hd hs hP.all)]
  simp only
  rw [if_pos (show ((bs.flatMap (refsAt q ps o n)).length : Int) > i by rw [refs_length hP.each]; exact h2)]
  rw [hget, bind_ok (ofExcept_run _ _), bind_ok hz, bind_ok g1, k1, Node.modify_modify]
  rfl

/-- In front of the first item. -/
theorem manyInsert_out (hs : s.get o = some n) (hP : Parents p q ps good value n bs ls) {i : Int} {v : α} (h1 : i < -(ls.flatten.length : Int)) :
    listInsert eng ctx mapper store xp (.binary lx .slash (.step ax t es)) (.elem o) i v s = (.error .indexError, s) := by
  have hp0 : pos (bs.flatMap (refsAt q ps o n)).length i = none := by
    rw [refs_length hP.each]
    unfold pos
    rw [if_neg (by omega), if_neg (by omega)]
  have hget : pyGet (bs.flatMap (refsAt q ps o n)) i = .error .indexError := by rw [pyGet_pos, hp0]
  unfold listInsert
  rw [bind_ok (manyLen heng hd hS hs hP), if_neg (by omega), bind_ok (manyMatches heng hd hs hP.all)]
  rw [if_pos (show ((bs.flatMap (refsAt q ps o n)).length : Int) > i by rw [refs_length hP.each]; omega)]
  rw [hget, bind_err (ofExcept_err _ _)]

theorem manyRunOp_any (hs : s.get o = some n) (hP : Parents p q ps good value n bs ls) (hne : ls ≠ []) (hnew : good (newElem q ps)) (op : ListOp α) (hv : ∀ v ∈ op.values, okv v) :
    ManyStep p q ps good value o s n bs (runOp eng ctx mapper store xp (.binary lx .slash (.step ax t es)) (.elem o) op s) (overOp (value (newElem q ps)) ls op) := by
  cases op with
  | insert i v =>
    rw [overOp]
    by_cases h2 : (ls.flatten.length : Int) ≤ i
    · rw [if_pos h2]; exact manyRunOp heng hd hS hs hP hne _ h2 hv
    · rw [if_neg h2]
      by_cases h1 : i < -(ls.flatten.length : Int)
      · rw [if_pos h1]
        exact ManyStep.wrap (x := listInsert eng ctx mapper store xp (.binary lx .slash (.step ax t es)) (.elem o) i v)
          (by rw [manyInsert_out heng hd hS hs hP h1]; exact manyStep_same hs hP _) (fun _ => ListRes.unit)
      · rw [if_neg h1]
        exact (manyInsert heng hd hS hs hP hne hnew (hv v (by simp [ListOp.values])) (by omega) (by omega)).wrap (fun _ => ListRes.unit)
  | _ => exact manyRunOp heng hd hS hs hP hne _ trivial hv

theorem manyRunOps_any (hne : bs ≠ []) (hnew : good (newElem q ps)) : ∀ (ops : List (ListOp α)) {s n} {ls : List (List α)}, s.get o = some n → Parents p q ps good value n bs ls →
    (∀ op ∈ ops, ∀ v ∈ op.values, okv v) →
    ∃ n', runOps eng ctx mapper store xp (.binary lx .slash (.step ax t es)) (.elem o) ops s = ((overOps (value (newElem q ps)) ls ops).1, s.modify o (fun _ => n')) ∧
      Parents p q ps good value n' bs (overOps (value (newElem q ps)) ls ops).2 ∧ OnlyMembers p q ps n n'
  | [], s, n, ls, hs, hP, _ => by
    refine ⟨n, ?_, hP, .same n⟩
    rw [Node.modify_id hs rfl]
    rfl
  | op :: ops, s, n, ls, hs, hP, hv => by
    obtain ⟨n', h1, h2, h3⟩ := manyRunOp_any heng hd hS hs hP (hP.ne hne) hnew op (hv op (by simp))
    have hs' : (s.modify o (fun _ => n')).get o = some n' := by rw [Node.get_modify, hs]; rfl
    obtain ⟨n'', k1, k2, k3⟩ := manyRunOps_any hne hnew ops hs' h2 (fun op' ho => hv op' (by simp [ho]))
    refine ⟨n'', ?_, k2, OnlyMembers.trans h3 k3⟩
    rw [runOps, h1]
    simp only [k1, Node.modify_modify]
    rfl

end
end Fields
