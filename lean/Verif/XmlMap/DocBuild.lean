import Verif.XmlMap.NodeListLemmas
import Verif.XmlMap.WriteLemmas
import Verif.Spec.Field
/-
Building documents: what field assignments, list extensions and element creation do at an element that has no child of the name yet.
-/
namespace Fields
open Xml XPath Spec

/-- An element with a text and nothing else. -/
def leaf (q : QName) (v : Str) : Node := .mk (.elem q) [] (some v) [] none

/-- No child has the name. -/
def NoChild (q : QName) (n : Node) : Prop := ∀ c ∈ n.children, c.isElem q = false

/-- `f` at an element without child `q` adds the children `new`, all of them with name `q`, at the end. -/
def AddsAt (q : QName) (f : Node.Addr → M Unit) (new : List Node) : Prop :=
  (∀ c ∈ new, c.isElem q = true) ∧
  ∀ a s n, s.get a = some n → NoChild q n → f a s = (.ok (), s.modify a (fun n => n.withChildren (n.children ++ new)))

theorem noChild_members {q : QName} {n : Node} (h : NoChild q n) : members q [] n = [] := by
  unfold members
  rw [List.filter_eq_nil_iff]
  intro c hc
  simp [isMember, h c hc]

theorem noChild_matches {q : QName} {n : Node} (h : NoChild q n) : Step.matches [.child q []] n = [] := by
  have := noChild_members h
  rw [matches_single]
  have hl : (idxs (isMember q []) n.children).length = 0 := by rw [idxs_length]; exact List.length_eq_zero_iff.2 this
  rw [List.length_eq_zero_iff.1 hl]; rfl

section
variable [PyUnicode] {eng : Engine} {ctx : Ctx} {xp : Str} {e : Expr} {q : QName}

theorem addsAt_nothing (q : QName) (f : Node.Addr → M Unit) (h : ∀ a s n, s.get a = some n → NoChild q n → f a s = (.ok (), s)) : AddsAt q f [] := by
  refine ⟨by simp, fun a s n hs hn => ?_⟩
  rw [h a s n hs hn, Node.modify_id hs (by cases n; simp [Node.withChildren, Node.children])]

/-- Assigning a string. -/
theorem addsAt_set (heng : EngineOk eng) (hf : SimpleField ctx xp e [.child q []]) {v : Str} (hv : xmlOk v = true) :
    AddsAt q (fun a => managerSet eng ctx (.ok (some (.str v))) xp e (.elem a)) [leaf q v] := by
  refine ⟨by simp [leaf, Node.isElem, Node.tag], fun a s n hs hn => ?_⟩
  have hm := noChild_matches hn
  have hw : Writable [.child q []] n := by
    unfold Writable
    rw [hm]
    intro h
    cases h
  show managerSet eng ctx (.ok (some (.str v))) xp e (.elem a) s = _
  rw [managerSet_str heng hf.parse hf.path hf.canonical hf.ok rfl hv hs hw]
  congr 1
  refine Node.modify_congr hs ?_
  unfold write
  rw [hm]
  cases n
  rfl

/-- Assigning None. -/
theorem addsAt_setNone (heng : EngineOk eng) (hf : SimpleField ctx xp e [.child q []]) :
    AddsAt q (fun a => managerSet eng ctx (.ok none) xp e (.elem a)) [] := by
  refine addsAt_nothing q _ (fun a s n hs hn => ?_)
  show managerSet eng ctx (.ok none) xp e (.elem a) s = _
  unfold managerSet
  rw [bind_ok (ofExcept_run _ s), bind_ok (findNode_path heng hf.parse hf.path hs), noChild_matches hn]
  rfl

variable {α : Type} [DecidableEq α] {mapper : Item → Except PyErr α} {store : Ref → α → M Unit} {good : Node → Prop} {value : Node → α}
  {put : α → Node → Node} {ok : α → Prop}

theorem listAppend_at (heng : EngineOk eng) (hf : SimpleField ctx xp e [.child q []]) (hS : StoreOk q [] mapper store good value put ok) {v : α} (hv : ok v) {a s n l B}
    (hs : Node.get a s = some n) (hl : Holds q [] good value n l) (hc : n.children = B ++ members q [] n) (hB : ∀ c ∈ B, c.isElem q = false) :
    listAppend eng ctx mapper store xp e (.elem a) v s = (.ok (), s.modify a (fun n => n.withChildren (n.children ++ [put v (newElem q [])]))) ∧
      Holds q [] good value (n.withChildren (n.children ++ [put v (newElem q [])])) (l ++ [v]) ∧
      members q [] (n.withChildren (n.children ++ [put v (newElem q [])])) = members q [] n ++ [put v (newElem q [])] := by
  have hnew : isMember q [] (newElem q []) = true := by simp [isMember, newElem_isElem, satAll]
  have hput : isMember q [] (put v (newElem q [])) = true := hS.new.member hnew v hv
  obtain ⟨ax, t, es, rfl⟩ := res_single hf.path
  obtain ⟨n', h1, h2, -, A, B', hAB, hn', hB', hor⟩ := listSet_end heng hf.parse hf.path (by rfl) hS hs hl hv
  have hB0 : B' = [] := by
    rcases hor with hA | ⟨h, -⟩
    · cases hb : B'.getLast? with
      | none => exact List.getLast?_eq_none_iff.1 hb
      | some z =>
        exfalso
        have hz : z ∈ B' := List.mem_of_getLast? hb
        have hzf := hB' z hz
        have hlast : n.children.getLast? = some z := by rw [hAB, List.getLast?_append, hb]; rfl
        have hmem : members q [] n ≠ [] := by
          cases ha : A.getLast? with
          | none => rw [ha] at hA; cases hA
          | some y =>
            rw [ha] at hA
            have hy : y ∈ members q [] n := List.mem_filter.2 ⟨by rw [hAB]; exact List.mem_append_left _ (List.mem_of_getLast? ha), hA⟩
            intro h0; rw [h0] at hy; cases hy
        have hzm : z ∈ members q [] n := by
          rw [hc, List.getLast?_append] at hlast
          cases hg : (members q [] n).getLast? with
          | none => exact absurd (List.getLast?_eq_none_iff.1 hg) hmem
          | some y =>
            rw [hg] at hlast
            have : y = z := by simpa using hlast
            rw [← this]
            exact List.mem_of_getLast? hg
        have := (List.mem_filter.1 hzm).2
        rw [hzf] at this; cases this
    · exact h
  subst hB0
  rw [List.append_nil] at hAB
  subst hAB
  refine ⟨?_, by rw [← hn']; exact h2, ?_⟩
  · unfold listAppend
    rw [bind_ok (listLen_run heng hf.parse hf.path hS hs hl), h1, hn']
    congr 1
    exact Node.modify_congr hs rfl
  · unfold members
    rw [Node.withChildren_children, List.filter_append, List.filter_cons_of_pos hput]; rfl

theorem listExtend_at (heng : EngineOk eng) (hf : SimpleField ctx xp e [.child q []]) (hS : StoreOk q [] mapper store good value put ok) (vs : List α) (hv : ∀ v ∈ vs, ok v) {B} :
    ∀ {a s n l}, Node.get a s = some n → Holds q [] good value n l → n.children = B ++ members q [] n → (∀ c ∈ B, c.isElem q = false) →
    listExtend eng ctx mapper store xp e (.elem a) vs s = (.ok (), s.modify a (fun n => n.withChildren (n.children ++ vs.map (fun v => put v (newElem q []))))) := by
  induction vs with
  | nil =>
    intro a s n l hs hl hc hB
    show (Except.ok (), s) = _
    rw [Node.modify_id hs (by cases n; simp [Node.withChildren, Node.children])]
  | cons v vs ih =>
    intro a s n l hs hl hc hB
    obtain ⟨h1, h2, h3⟩ := listAppend_at heng hf hS (hv v (by simp)) hs hl hc hB
    show (listAppend eng ctx mapper store xp e (.elem a) v >>= fun _ => listExtend eng ctx mapper store xp e (.elem a) vs) s = _
    rw [bind_ok h1, ih (fun w hw => hv w (by simp [hw])) (n := n.withChildren (n.children ++ [put v (newElem q [])])) (by rw [Node.get_modify, hs]; rfl) h2
      (by rw [h3, Node.withChildren_children, hc, List.append_assoc]) hB, Node.modify_modify]
    congr 1
    refine Node.modify_congr hs ?_
    cases n
    simp [Node.withChildren, Node.children]

/-- Extending a list. -/
theorem addsAt_extend (heng : EngineOk eng) (hf : SimpleField ctx xp e [.child q []]) (hS : StoreOk q [] mapper store good value put ok) (vs : List α) (hv : ∀ v ∈ vs, ok v) :
    AddsAt q (fun a => listExtend eng ctx mapper store xp e (.elem a) vs) (vs.map (fun v => put v (newElem q []))) := by
  refine ⟨?_, fun a s n hs hn => ?_⟩
  · intro c hc
    obtain ⟨v, hv', rfl⟩ := List.mem_map.1 hc
    have hnew : isMember q [] (newElem q []) = true := by simp [isMember, newElem_isElem, satAll]
    have := hS.new.member hnew v (hv v hv')
    simpa [isMember, satAll] using this
  · exact listExtend_at heng hf hS vs hv hs (l := []) ⟨by simp [noChild_members hn], by simp [noChild_members hn]⟩ (B := n.children) (by rw [noChild_members hn]; simp) hn

/-- Appending to a list. -/
theorem addsAt_append (heng : EngineOk eng) (hf : SimpleField ctx xp e [.child q []]) (hS : StoreOk q [] mapper store good value put ok) {v : α} (hv : ok v) :
    AddsAt q (fun a => listAppend eng ctx mapper store xp e (.elem a) v) [put v (newElem q [])] := by
  have hnew : isMember q [] (newElem q []) = true := by simp [isMember, newElem_isElem, satAll]
  refine ⟨?_, fun a s n hs hn => ?_⟩
  · intro c hc
    rw [List.mem_singleton] at hc
    subst hc
    simpa [isMember, satAll] using hS.new.member hnew v hv
  · exact (listAppend_at heng hf hS hv hs (l := []) ⟨by simp [noChild_members hn], by simp [noChild_members hn]⟩ (B := n.children) (by rw [noChild_members hn]; simp) hn).1

/-- Creating an element. -/
theorem addsAt_create (heng : EngineOk eng) (hf : SimpleField ctx xp e [.child q []]) :
    AddsAt q (fun a => do let _ ← managerCreate eng ctx xp e (.elem a); pure ()) [Node.empty q] := by
  refine ⟨by simp [Node.isElem, Node.empty, Node.tag], fun a s n hs hn => ?_⟩
  obtain ⟨ax, t, es, rfl⟩ := res_single hf.path
  have h1 : managerCreate eng ctx xp (.step ax t es) (.elem a) s = (.ok (.ref (.elem (a ++ [n.children.length]))), s.modify a (fun n => n.withChildren (n.children ++ [Node.empty q]))) := by
    unfold managerCreate
    rw [bind_ok (findNode_path heng hf.parse hf.path hs), noChild_matches hn]
    show (createNode eng ctx (.step ax t es) (.elem a) none >>= fun r => pure (Found.ref r)) s = _
    rw [bind_ok (createNode_end hf.path (by rfl) hs)]
    show (_, _) = _
    congr 1
    exact Node.modify_congr hs rfl
  show (managerCreate eng ctx xp (.step ax t es) (.elem a) >>= fun _ => pure ()) s = _
  rw [bind_ok h1]; rfl

/-- Statements at the same element, one after the other. -/
def seqAt : List (Node.Addr → M Unit) → Node.Addr → M Unit
  | [], _ => pure ()
  | [f], a => f a
  | f :: g :: fs, a => do f a; seqAt (g :: fs) a

/-- Statements that add children of different names. -/
theorem seqAt_run : ∀ (l : List (QName × (Node.Addr → M Unit) × List Node)), (∀ x ∈ l, AddsAt x.1 x.2.1 x.2.2) → (l.map (·.1)).Nodup →
    ∀ a s n, Node.get a s = some n → (∀ x ∈ l, NoChild x.1 n) →
    seqAt (l.map (·.2.1)) a s = (.ok (), s.modify a (fun n => n.withChildren (n.children ++ (l.map (·.2.2)).flatten)))
  | [], _, _, a, s, n, hs, _ => by
    show (Except.ok (), s) = _
    rw [Node.modify_id hs (by cases n; simp [Node.withChildren, Node.children])]
  | [x], h, _, a, s, n, hs, hn => by
    have := (h x (by simp)).2 a s n hs (hn x (by simp))
    simpa [seqAt] using this
  | x :: y :: l, h, hd, a, s, n, hs, hn => by
    have h1 := (h x (by simp)).2 a s n hs (hn x (by simp))
    show (x.2.1 a >>= fun _ => seqAt ((y :: l).map (·.2.1)) a) s = _
    rw [bind_ok h1]
    rw [List.map_cons, List.nodup_cons] at hd
    have h2 := seqAt_run (y :: l) (fun z hz => h z (List.mem_cons_of_mem _ hz)) hd.2 a (s.modify a (fun n => n.withChildren (n.children ++ x.2.2)))
      (n.withChildren (n.children ++ x.2.2)) (by rw [Node.get_modify, hs]; rfl) (by
        intro z hz c hc
        rw [Node.withChildren_children] at hc
        rcases List.mem_append.1 hc with hc | hc
        · exact hn z (List.mem_cons_of_mem _ hz) c hc
        · have hcx := (h x (by simp)).1 c hc
          simp only [Node.isElem, beq_iff_eq, beq_eq_false_iff_ne] at hcx ⊢
          rw [hcx]
          intro he
          exact hd.1 (by simp only [Tag.elem.injEq] at he; rw [he]; exact List.mem_map_of_mem hz))
    rw [h2, Node.modify_modify]
    congr 1
    refine Node.modify_congr hs ?_
    cases n
    simp [Node.withChildren, Node.children]

end
end Fields
