import Verif.XmlMap.NodeListLemmas
import Verif.Spec.NegInsert
/-
Lemmas for C108: insertion at a negative index in a list field.
-/
namespace Fields
open XPath Xml Spec

theorem buildAll_text (ps : List Pred) (n : Node) (h : attrOnly ps = true) : (buildAll ps n).text = n.text := by
  induction ps generalizing n with
  | nil => rfl
  | cons p ps ih =>
    simp only [attrOnly, List.all_cons, Bool.and_eq_true] at h
    rw [buildAll, ih _ h.2]
    cases p with
    | attr q cmp => cases n; rfl
    | here cmp => simp [Pred.attrOf] at h
    | child q ps rest => simp [Pred.attrOf] at h

section
variable [PyUnicode] {eng : Engine} {ctx : Ctx} {xp : Str} {ax : Option Str} {t : NodeTest} {es : List Expr} {q : QName} {ps : List Pred}
variable {α : Type} [DecidableEq α] {mapper : Item → Except PyErr α} {store : Ref → α → M Unit} {good : Node → Prop} {value : Node → α}
  {put : α → Node → Node} {ok : α → Prop}
variable (heng : EngineOk eng) (hp : parse0 xp = .ok (.step ax t es)) (hr : res ctx (.step ax t es) = some ([.child q ps], none))
  (hok : okAll ps = true) (hS : StoreOk q ps mapper store good value put ok)
include heng hp hr hok hS

/-- The effect on the document. -/
theorem listInsert_neg_at {a s n l} (hs : Node.get a s = some n) (hl : Holds q ps good value n l) {v : α} (hv : ok v) {i : Int} (hi : i < 0) {k : Nat}
    (hpos : pos l.length i = some k) :
    ∃ A m B, n.children = A ++ m :: B ∧ isMember q ps m = true ∧ good m ∧ (A.filter (isMember q ps)).length = k ∧
      l = (A.filter (isMember q ps)).map value ++ value m :: (B.filter (isMember q ps)).map value ∧
      listInsert eng ctx mapper store xp (.step ax t es) (.elem a) i v s
        = (.ok (), s.modify a (fun _ => n.withChildren (A ++ newElem q ps :: put v m :: B))) := by
  obtain ⟨A, m, B, c1, c2, c3, c4, c5, c6, c7, c8⟩ := member_at hl (pos_lt hpos)
  have hnew : isMember q ps (newElem q ps) = true := by simp [isMember, newElem_isElem, newElem_sat hok]
  have hcr := createNode_at (eng := eng) hr hok hs c1
  have hs' : (s.modify a (fun _ => n.withChildren (A ++ newElem q ps :: m :: B))).get a = some (n.withChildren (A ++ newElem q ps :: m :: B)) := by
    rw [Node.get_modify, hs]; rfl
  have hlen : (A.filter (isMember q ps)).length = k := c4
  have hlen' : l.length = k + 1 + (B.filter (isMember q ps)).length := by
    rw [c6]; simp [hlen]; omega
  have hkv : k = (l.length + i).toNat := by
    unfold pos at hpos; split_ifs at hpos with h1 h2 <;> first | omega | (simp only [Option.some.injEq] at hpos; exact hpos.symm)
  have hil : -(l.length : Int) ≤ i := by unfold pos at hpos; split_ifs at hpos with h1 h2 <;> omega
  have k1 := listSet_at heng hp hr hok hS hs' (A := A ++ [newElem q ps]) (B := B) (m := m) (by simp) c2 (hS.puts m c2 c3) (i := i) (by
    rw [members_mid hnew]
    unfold pos
    rw [if_neg (by omega), if_pos ⟨hi, by simp [c2]; omega⟩]
    simp [hnew, hlen, c2]
    omega) hv
  refine ⟨A, m, B, c1, c2, c3, hlen, c6, ?_⟩
  unfold listInsert
  rw [bind_ok (listLen_run heng hp hr hS hs hl), if_neg (by omega), bind_ok (listMatches_run heng hp hr hs), matches_length hl a,
    if_pos (by omega), pyGet_pos, matches_length hl a, hpos]
  simp only [List.getElem?_map, c5, Option.map_some]
  rw [bind_ok (ofExcept_run _ _), bind_ok (show positionOf (.elem (a ++ [A.length])) s = (.ok A.length, s) by simp [positionOf]; rfl),
    bind_ok hcr, k1, Node.modify_modify]
  simp only [Node.withChildren_withChildren, List.append_assoc, List.cons_append, List.nil_append]
  rfl

theorem listInsert_neg_out {a s n l} (hs : Node.get a s = some n) (hl : Holds q ps good value n l) {v : α} {i : Int} (hi : i < 0)
    (hpos : pos l.length i = none) : listInsert eng ctx mapper store xp (.step ax t es) (.elem a) i v s = (.error .indexError, s) := by
  unfold listInsert
  rw [bind_ok (listLen_run heng hp hr hS hs hl), if_neg (by omega), bind_ok (listMatches_run heng hp hr hs), matches_length hl a,
    if_pos (by omega), pyGet_pos, matches_length hl a, hpos]
  rfl

/-- One operation, if a new element can be read. -/
theorem runOp_any {a s n l} (hnew : good (newElem q ps)) (hs : Node.get a s = some n) (hl : Holds q ps good value n l) (op : ListOp α)
    (hv : ∀ v ∈ op.values, ok v) :
    Step1 q ps good value a s n (runOp eng ctx mapper store xp (.step ax t es) (.elem a) op s) (blankingList (value (newElem q ps)) l op) := by
  by_cases hsup : op.supported = true
  · have h := runOp_run heng hp hr hok hS hs hl op hsup hv
    cases op <;> first | exact h | skip
    rename_i i v
    have hi : 0 ≤ i := by simpa [ListOp.supported] using hsup
    simp only [blankingList, if_pos hi]
    exact h
  · cases op <;> first | exact absurd rfl hsup | skip
    rename_i i v
    have hi : i < 0 := by simpa [ListOp.supported] using hsup
    have hv := hv v (by simp [ListOp.values])
    simp only [blankingList, if_neg (show ¬ 0 ≤ i by omega)]
    cases hpos : pos l.length i with
    | none =>
      refine Step1.wrap (x := listInsert eng ctx mapper store xp (.step ax t es) (.elem a) i v) (e := (.error .indexError, l)) ?_ (fun _ => ListRes.unit)
      rw [listInsert_neg_out heng hp hr hok hS hs hl hi hpos]
      exact step1_same hs hl _
    | some k =>
      refine Step1.wrap (x := listInsert eng ctx mapper store xp (.step ax t es) (.elem a) i v)
        (e := (.ok (), l.take k ++ value (newElem q ps) :: v :: l.drop (k + 1))) ?_ (fun _ => ListRes.unit)
      obtain ⟨A, m, B, c1, c2, c3, c4, c6, hrun⟩ := listInsert_neg_at heng hp hr hok hS hs hl hv hi hpos
      have hmem : isMember q ps (newElem q ps) = true := by simp [isMember, newElem_isElem, newElem_sat hok]
      have hP := hS.puts m c2 c3
      have hpm := hP.member c2 v hv
      refine ⟨_, hrun, ⟨?_, ?_⟩, ?_⟩
      · intro m' hm'
        simp only [members, Node.withChildren_children, List.mem_filter, List.mem_append, List.mem_cons] at hm'
        obtain ⟨hm' | rfl | rfl | hm', hmm⟩ := hm'
        · exact hl.1 m' (by simp [members, c1, hm', hmm])
        · exact hnew
        · exact hP.stays v hv
        · exact hl.1 m' (by simp [members, c1, hm', hmm])
      · rw [members_mid hmem]
        have hk : ((A.filter (isMember q ps)).map value).length = k := by simp [c4]
        have e1 : l.take k = (A.filter (isMember q ps)).map value := by rw [c6, ← hk, List.take_left']; rfl
        have e2 : l.drop (k + 1) = (B.filter (isMember q ps)).map value := by
          rw [c6, ← hk, List.drop_append]; simp
        rw [e1, e2]
        simp [hpm, hP.value v hv]
      · simp [SameButMembers, others, c1, hpm, hmem, c2]

theorem runOps_any (hnew : good (newElem q ps)) : ∀ (ops : List (ListOp α)) {a s n l}, Node.get a s = some n → Holds q ps good value n l →
    (∀ op ∈ ops, ∀ v ∈ op.values, ok v) →
    ∃ n', runOps eng ctx mapper store xp (.step ax t es) (.elem a) ops s = ((blankingListAll (value (newElem q ps)) l ops).1, s.modify a (fun _ => n')) ∧
      Holds q ps good value n' (blankingListAll (value (newElem q ps)) l ops).2 ∧ SameButMembers q ps n n'
  | [], a, s, n, l, hs, hl, _ => by
    refine ⟨n, ?_, hl, same_refl n⟩
    rw [Node.modify_id hs rfl]
    rfl
  | op :: ops, a, s, n, l, hs, hl, h => by
    obtain ⟨n', h1, h2, h3⟩ := runOp_any heng hp hr hok hS hnew hs hl op (h op (by simp))
    have hs' : (s.modify a (fun _ => n')).get a = some n' := by rw [Node.get_modify, hs]; rfl
    obtain ⟨n'', k1, k2, k3⟩ := runOps_any hnew ops hs' h2 (fun o ho => h o (by simp [ho]))
    refine ⟨n'', ?_, k2, same_trans h3 k3⟩
    simp only [runOps, h1, k1, blankingListAll, Node.modify_modify]
    rfl

end
end Fields
