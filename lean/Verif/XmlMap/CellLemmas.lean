import Verif.Spec.Cell
import Verif.XmlMap.RecordLemmas
/-
Writing and deleting an element, and its attributes, at the end of a path: what the path selects then.
-/
namespace Spec
open Xml Fields

/-- The new element for the last step. -/
def lastNew : List Step → Node → Node
  | [], n => n
  | [.child q ps], _ => newElem q ps
  | _ :: r, n => lastNew r n

theorem lastNew_any {st : Step} {p : List Step} (h : childSteps (st :: p) = true) (x y : Node) : lastNew (st :: p) x = lastNew (st :: p) y := by
  induction p generalizing st with
  | nil => cases st <;> simp_all [lastNew, childSteps]
  | cons b p ih =>
    have : childSteps (b :: p) = true := by
      simp only [childSteps, List.all_cons, Bool.and_eq_true] at h ⊢
      exact h.2
    simp only [lastNew]
    exact ih this

/-- The element a path selects, or a new one. -/
def hitOrNew (p : List Step) (n : Node) : Node := match (hits p n).head? with
  | some (.inl m) => m
  | _ => lastNew p n

theorem hits_then {r : List Step} : ∀ {p : List Step}, childSteps p = true → ∀ n, hits (p ++ r) n = (hits p n).flatMap (fun h => match h with | .inl m => hits r m | .inr _ => [])
  | [], _, n => by simp [hits]
  | .child q ps :: p, hp, n => by
    have hp' : childSteps p = true := by simpa [childSteps] using hp
    simp only [List.cons_append, hits, List.flatMap_assoc]
    congr 1
    funext c
    exact hits_then hp' c
  | .attr q :: p, hp, n => by simp [childSteps] at hp
  | .text :: p, hp, n => by simp [childSteps] at hp

theorem uniq_append_attr {x : QName} : ∀ {p : List Step}, childSteps p = true → ∀ n, Uniq (p ++ [.attr x]) n ↔ Uniq p n
  | [], _, n => by simp [Uniq]
  | .child q ps :: p, hp, n => by
    have hp' : childSteps p = true := by simpa [childSteps] using hp
    simp only [List.cons_append, Uniq]
    exact and_congr Iff.rfl (forall_congr' fun c => forall_congr' fun _ => forall_congr' fun _ => uniq_append_attr hp' c)
  | .attr q :: p, hp, n => by simp [childSteps] at hp
  | .text :: p, hp, n => by simp [childSteps] at hp

theorem child_of_good {x : QName} : ∀ {p : List Step}, good (p ++ [.attr x]) = true → childSteps p = true
  | [], _ => rfl
  | .child q ps :: p, h => by
    simp only [List.cons_append, good, Bool.and_eq_true] at h
    have := child_of_good h.2
    simpa [childSteps] using this
  | .attr q :: p, h => by simp [good] at h
  | .text :: p, h => by simp [good] at h

theorem hits_child {q ps r} {n : Node} {A B : List Node} {c : Node} (hc : n.children = A ++ c :: B) (hA : ∀ x ∈ A, okc q ps x = false)
    (hok : okc q ps c = true) (hB : ∀ x ∈ B, okc q ps x = false) : hits (.child q ps :: r) n = hits r c := by
  simp only [hits, hc, List.filter_append, filter_none hA, List.filter_cons, hok, if_true, filter_none hB, List.nil_append, List.flatMap_cons, List.flatMap_nil, List.append_nil]

theorem hits_none {q ps r} {n : Node} (h : ∀ x ∈ n.children, okc q ps x = false) : hits (.child q ps :: r) n = [] := by
  simp only [hits, filter_none h, List.flatMap_nil]

/-- Writing below an element: it is changed, or made. -/
theorem hits_wr_below {r : List Step} {v : Str} : ∀ {p : List Step}, p ≠ [] → childSteps p = true → good (p ++ r) = true → ∀ {n : Node}, Uniq p n →
    hits p (wr (p ++ r) v n) = [.inl (wr r v (hitOrNew p n))]
  | [], hne, _, _, _, _ => absurd rfl hne
  | .attr q :: p, _, hp, _, _, _ => by simp [childSteps] at hp
  | .text :: p, _, hp, _, _, _ => by simp [childSteps] at hp
  | .child q ps :: p, _, hp, hg, n, hu => by
    have hp' : childSteps p = true := by simpa [childSteps] using hp
    rw [List.cons_append] at hg ⊢
    have hg0 := hg
    simp only [good, Bool.and_eq_true] at hg0
    have hnew : okc q ps (newElem q ps) = true := okc_new hg0.1.1.1
    have hnewc : (newElem q ps).children = [] := new_children hg0.1.1.2
    obtain ⟨hu1, hu2⟩ := hu
    rcases first_split (okc q ps) n.children with h0 | ⟨A, c, B, hc, hA, hok⟩
    · have e1 : hits (.child q ps :: p) (wr (.child q ps :: (p ++ r)) v n) = hits p (wr (p ++ r) v (newElem q ps)) := by
        refine hits_child (A := n.children) (B := []) ?_ h0 (by rw [okc_wr hg]; exact hnew) (by simp)
        simp [wr, updFirst_none h0]
      have e2 : hitOrNew (.child q ps :: p) n = lastNew (.child q ps :: p) n := by
        unfold hitOrNew; rw [hits_none h0]; rfl
      rw [e1, e2]
      cases p with
      | nil => rfl
      | cons st p =>
        have e3 : hits (st :: p) (newElem q ps) = [] := by
          cases st with
          | child q' ps' => exact hits_none (by rw [hnewc]; simp)
          | attr q' => simp [childSteps] at hp'
          | text => simp [childSteps] at hp'
        have hun : Uniq (st :: p) (newElem q ps) := by
          cases st with
          | child q' ps' => exact ⟨by rw [hnewc]; simp, by rw [hnewc]; simp⟩
          | attr q' => trivial
          | text => trivial
        rw [hits_wr_below (by simp) hp' hg0.2 hun]
        unfold hitOrNew
        rw [e3]
        simp only [List.head?_nil, lastNew]
        rw [lastNew_any (st := st) (p := p) hp' _ n]
    · obtain ⟨hA', hB⟩ := uniq_behind hok (by rw [← hc]; exact hu1)
      have e1 : hits (.child q ps :: p) (wr (.child q ps :: (p ++ r)) v n) = hits p (wr (p ++ r) v c) := by
        refine hits_child (A := A) (B := B) ?_ hA (by rw [okc_wr hg]; exact hok) hB
        simp [wr, hc, updFirst_mid hok hA]
      have e2 : hits (.child q ps :: p) n = hits p c := hits_child hc hA hok hB
      rw [e1]
      cases p with
      | nil =>
        unfold hitOrNew
        rw [e2]; rfl
      | cons st p =>
        rw [hits_wr_below (by simp) hp' hg0.2 (hu2 c (by rw [hc]; simp) hok)]
        unfold hitOrNew
        rw [e2]
        cases hh : (hits (st :: p) c).head? with
        | none =>
          simp only [lastNew]
          rw [lastNew_any (st := st) (p := p) hp' c n]
        | some h =>
          cases h with
          | inl m => rfl
          | inr s =>
            simp only [lastNew]
            rw [lastNew_any (st := st) (p := p) hp' c n]

/-- Deleting an attribute: the element stays without it, or goes. -/
theorem hits_del_attr {x : QName} : ∀ {p : List Step}, p ≠ [] → good (p ++ [.attr x]) = true → ∀ {n : Node}, Uniq p n → hits (p ++ [.attr x]) n ≠ [] →
    ∃ m, hits p n = [.inl m] ∧ (m.attr? x).isSome = true ∧
      hits p (del (p ++ [.attr x]) n) = if emptyBut (lastPreds p) (m.delAttr x) then [] else [.inl (m.delAttr x)]
  | [], hne, _, _, _, _ => absurd rfl hne
  | .attr q :: p, _, hg, _, _, _ => by simp [good] at hg
  | .text :: p, _, hg, _, _, _ => by simp [good] at hg
  | .child q ps :: p, _, hg, n, hu, hh => by
    rw [List.cons_append] at hg hh ⊢
    have hg0 := hg
    simp only [good, Bool.and_eq_true] at hg0
    have hp' := child_of_good hg0.2
    obtain ⟨hu1, hu2⟩ := hu
    rcases first_split (okc q ps) n.children with h0 | ⟨A, c, B, hc, hA, hok⟩
    · exact absurd (hits_none h0) hh
    · obtain ⟨hA', hB⟩ := uniq_behind hok (by rw [← hc]; exact hu1)
      have hhc : hits (p ++ [.attr x]) c ≠ [] := by rw [hits_child hc hA hok hB] at hh; exact hh
      have e0 : ∀ r, hits (.child q ps :: r) n = hits r c := fun r => hits_child hc hA hok hB
      have e1 : delChild ps (p ++ [.attr x]) c = if emptyBut ps (del (p ++ [.attr x]) c) then none else some (del (p ++ [.attr x]) c) := by
        unfold delChild
        rw [if_neg (by simp), if_neg (by simpa using hhc)]
      have e2 : hits (.child q ps :: p) (del (.child q ps :: (p ++ [.attr x])) n)
          = if emptyBut ps (del (p ++ [.attr x]) c) then [] else hits p (del (p ++ [.attr x]) c) := by
        rw [del_child, hc, chgFirst_mid hok hA, e1]
        by_cases he : emptyBut ps (del (p ++ [.attr x]) c) = true
        · rw [if_pos he, if_pos he]
          refine hits_none ?_
          intro y hy
          simp only [Option.toList, List.append_nil, Node.withChildren_children, List.mem_append] at hy
          rcases hy with hy | hy
          · exact hA y hy
          · exact hB y hy
        · rw [if_neg he, if_neg he]
          exact hits_child (A := A) (B := B) (by simp) hA (by rw [okc_del hg]; exact hok) hB
      cases p with
      | nil =>
        refine ⟨c, by rw [e0]; rfl, ?_, ?_⟩
        · simp only [List.nil_append, hits] at hhc
          cases hx : c.attr? x with
          | none => rw [hx] at hhc; exact absurd rfl hhc
          | some _ => rfl
        · rw [e2]; rfl
      | cons st p =>
        obtain ⟨m, h1, h2, h3⟩ := hits_del_attr (by simp) hg0.2 (hu2 c (by rw [hc]; simp) hok) hhc
        have hl : lastPreds (.child q ps :: st :: p) = lastPreds (st :: p) := by simp [lastPreds]
        refine ⟨m, by rw [e0, h1], h2, ?_⟩
        rw [e2, hl, h3]
        by_cases he : emptyBut ps (del (st :: p ++ [.attr x]) c) = true
        · rw [if_pos he]
          have hch : (del (st :: p ++ [.attr x]) c).children = [] := by
            simp only [emptyBut, Bool.and_eq_true, List.isEmpty_iff] at he
            exact he.1
          have h4 : hits (st :: p) (del (st :: p ++ [.attr x]) c) = [] := by
            cases st with
            | child q' ps' => exact hits_none (by rw [hch]; simp)
            | attr q' => simp [childSteps] at hp'
            | text => simp [childSteps] at hp'
          rw [← h3, h4]
        · rw [if_neg he]

theorem part_append : ∀ {p p' : List Step}, Part p p' → ∀ r, Part (p ++ r) p'
  | .child q ps :: p, .child q' ps' :: p', h, r => by
    rcases h with h | ⟨rfl, rfl, h⟩
    · exact .inl h
    · exact .inr ⟨rfl, rfl, part_append h r⟩
  | .attr q :: _, .attr q' :: _, h, _ => h
  | .child _ _ :: _, .attr _ :: _, _, _ => trivial
  | .attr _ :: _, .child _ _ :: _, _, _ => trivial
  | [], _, h, _ => by simp [Part] at h
  | .text :: _, _, h, _ => by simp [Part] at h
  | .child _ _ :: _, [], h, _ => by simp [Part] at h
  | .child _ _ :: _, .text :: _, h, _ => by simp [Part] at h
  | .attr _ :: _, [], h, _ => by simp [Part] at h
  | .attr _ :: _, .text :: _, h, _ => by simp [Part] at h

theorem last_new_eq {q ps} : ∀ {p : List Step} {n : Node}, p.getLast? = some (.child q ps) → lastNew p n = newElem q ps
  | [], n, h => by simp at h
  | [st], n, h => by simp at h; subst h; rfl
  | st :: b :: p, n, h => by
    rw [List.getLast?_cons_cons] at h
    simp only [lastNew]
    exact last_new_eq h

theorem required_new {ps : List Pred} (h : attrOnly ps = true) : ∀ {m : Node} {x : QName}, (buildAll ps m).attr? x = (required ps x).or (m.attr? x) := by
  induction ps with
  | nil => intro m x; simp [buildAll, required]
  | cons p ps ih =>
    intro m x
    obtain ⟨⟨q', c, rfl⟩, h2⟩ := attrOnly_cons' h
    rw [buildAll, ih h2, required]
    simp only [Pred.build, Node.attr?_setAttr]
    by_cases hx : x = q'
    · simp [hx]
    · simp [hx]

theorem vacant_iff {ps : List Pred} {m : Node} (hc : m.children = []) : emptyBut ps m = true ↔ ∀ q, m.attr? q ≠ none → q ∈ eqAttrs ps := by
  simp only [emptyBut, hc, List.isEmpty_nil, Bool.true_and, List.all_eq_true, decide_eq_true_eq, Node.attr?]
  constructor
  · intro h q hq
    obtain ⟨v, hv⟩ := Option.ne_none_iff_exists'.1 hq
    exact h (q, v) (lookup_mem hv)
  · intro h p hp
    refine h p.1 ?_
    intro hn
    rw [List.lookup_eq_none_iff] at hn
    have := hn p hp
    simp at this

theorem cell_le_one : ∀ {p : List Step} {n : Node}, Uniq p n → (hits p n).length ≤ 1
  | [], n, _ => by simp [hits]
  | .attr q :: r, n, _ => by simp only [hits]; cases n.attr? q <;> simp
  | .text :: r, n, _ => by simp [hits]
  | .child q ps :: r, n, hu => by
    obtain ⟨hu1, hu2⟩ := hu
    rcases first_split (okc q ps) n.children with h0 | ⟨A, c, B, hc, hA, hok⟩
    · rw [hits_none h0]; simp
    · obtain ⟨hA', hB⟩ := uniq_behind hok (by rw [← hc]; exact hu1)
      rw [hits_child hc hA hok hB]
      exact cell_le_one (hu2 c (by rw [hc]; simp) hok)

/-- What a path to a cell selects. -/
def cellH : Node ⊕ Str → Elem
  | .inl m => ⟨m.strVal, fun q => m.attr? q⟩
  | .inr s => ⟨s, fun _ => none⟩

theorem cellOf_hits [XPath.PyUnicode] {p : List Step} (hg : good p = true) {n : Node} (hu : Uniq p n) : cellOf p n = (hits p n).head?.map cellH := by
  have hh0 := head_hits hg hu
  have hn := hits_nil_iff hg hu
  rw [hh0]
  unfold cellOf
  cases hh : (Step.matches p n).head? with
  | none => rfl
  | some x =>
    have hm := List.mem_of_mem_head? hh
    have hi : itemAt n x ≠ none := by
      intro hi
      rw [hh, Option.bind_some, hi, List.head?_eq_none_iff] at hh0
      rw [hn.1 hh0] at hm
      simp at hm
    cases x with
    | elem b => cases h : n.get b with
      | none => exact absurd (by simp [itemAt, h]) hi
      | some m => simp [itemAt, refText, h, cellH, Ref.addr]
    | attr b q => cases h : (n.get b).bind (Node.attr? q) with
      | none => exact absurd (by simp [itemAt, h]) hi
      | some m => simp [itemAt, refText, h, cellH, Ref.addr]
    | text b => exact absurd rfl ((matches_not_text hg hm).1 b)
    | tail b => exact absurd rfl ((matches_not_text hg hm).2 b)

/-- A path to a cell that ends with an attribute. -/
theorem child_or_attr : ∀ {p : List Step}, good p = true → childSteps p = true ∨ ∃ p' x, p = p' ++ [.attr x] ∧ childSteps p' = true
  | [], _ => .inl rfl
  | .attr q :: r, hg => by
    simp only [good, List.isEmpty_iff] at hg
    subst hg
    exact .inr ⟨[], q, rfl, rfl⟩
  | .text :: r, hg => by simp [good] at hg
  | .child q ps :: r, hg => by
    simp only [good, Bool.and_eq_true] at hg
    rcases child_or_attr hg.2 with h | ⟨p', x, rfl, h⟩
    · exact .inl (by simpa [childSteps] using h)
    · exact .inr ⟨.child q ps :: p', x, rfl, by simpa [childSteps] using h⟩

theorem hits_attr_self {x : QName} {v : Str} {p : List Step} (hg : good (p ++ [.attr x]) = true) {n : Node} (hu : Uniq p n) :
    hits (p ++ [.attr x]) (wr (p ++ [.attr x]) v n) = [.inr v] := by
  by_cases hp : p = []
  · subst hp
    simp [hits, wr, Node.attr?_setAttr]
  · rw [hits_then (child_of_good hg), hits_wr_below hp (child_of_good hg) hg hu]
    simp [hits, wr, Node.attr?_setAttr]

theorem getLast_child : ∀ {p : List Step}, p ≠ [] → childSteps p = true → ∃ q ps, p.getLast? = some (.child q ps)
  | [], h, _ => absurd rfl h
  | [.child q ps], _, _ => ⟨q, ps, rfl⟩
  | [.attr q], _, h => by simp [childSteps] at h
  | [.text], _, h => by simp [childSteps] at h
  | st :: b :: p, _, h => by
    rw [List.getLast?_cons_cons]
    refine getLast_child (by simp) ?_
    simp only [childSteps, List.all_cons, Bool.and_eq_true] at h ⊢
    exact h.2

theorem good_last {q ps} : ∀ {p : List Step}, good p = true → p.getLast? = some (.child q ps) → attrOnly ps = true
  | [], _, h => by simp at h
  | [st], hg, h => by
    simp at h; subst h
    simp only [good, Bool.and_eq_true] at hg
    exact hg.1.1.2
  | .child _ _ :: b :: p, hg, h => by
    rw [List.getLast?_cons_cons] at h
    simp only [good, Bool.and_eq_true] at hg
    exact good_last (p := b :: p) hg.2 h
  | .attr _ :: b :: p, hg, h => by simp [good] at hg
  | .text :: b :: p, hg, h => by simp [good] at hg

theorem strVal_setAttr (q v) (m : Node) : (m.setAttr q v).strVal = m.strVal := by cases m; simp [Node.setAttr, Node.withAttrs, Node.strVal]

theorem strVal_delAttr (q) (m : Node) : (m.delAttr q).strVal = m.strVal := by cases m; simp [Node.delAttr, Node.withAttrs, Node.strVal]

theorem strVal_build {ps : List Pred} (h : attrOnly ps = true) : ∀ m : Node, (buildAll ps m).strVal = m.strVal := by
  induction ps with
  | nil => intro m; rfl
  | cons p ps ih =>
    intro m
    obtain ⟨⟨q', c, rfl⟩, h2⟩ := attrOnly_cons' h
    rw [buildAll, ih h2]
    simp only [Pred.build, strVal_setAttr]

/-- A new element, as a cell. -/
theorem cell_new {p : List Step} (hp : p ≠ []) (hc : childSteps p = true) (hg : good p = true) (n : Node) :
    cellH (.inl (lastNew p n)) = Elem.new p ∧ (lastNew p n).children = [] := by
  obtain ⟨q, ps, h⟩ := getLast_child hp hc
  have ha := good_last hg h
  rw [last_new_eq h]
  have hch : (newElem q ps).children = [] := new_children ha
  refine ⟨?_, hch⟩
  simp only [cellH, Elem.new, lastPreds, h, Option.map_some, Option.getD_some]
  congr 1
  · unfold newElem; rw [strVal_build ha]; rfl
  · funext x
    unfold newElem
    rw [required_new ha]
    simp [Step.preds, Node.attr?, Node.empty]

end Spec
