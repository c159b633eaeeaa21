import Verif.Props.ListField
import Verif.XmlMap.NegInsertLemmas
/-
Property C108: insertion at a negative index in a list field (fields.py:814-826), which C25 excludes.

Model: Verif/XmlMap/NodeList.lean (`listInsert`).  Specification: Verif/Spec/NegInsert.lean.
-/
namespace Props
open XPath Xml Spec Fields

section
variable [PyUnicode] {eng : Engine} {number : Str → XNum} {ctx : Ctx} {xp : Str} {e : Expr} {q : QName} {ps : List Pred} {α : Type} [DecidableEq α]
  {k : ListKind α} {V : ListView α} {a : Node.Addr} {s n : Node}

/-- C108.  `obj.field.insert(-j, v)` for a `j` from 1 to `len`: in front of the `j`-th last member there is a new element, built for the step without content; and that member itself shows `v`
from then on (its value is lost).  Nothing else changes. -/
theorem C108_effect (h : ListAt eng number ctx xp e q ps k V a s n) (v : α) (hv : V.storable v) (j : Nat) (hj : 1 ≤ j) (hlen : j ≤ (members q ps n).length) :
    ∃ A m B c, n.children = A ++ m :: B ∧ isMember q ps m = true ∧ (B.filter (isMember q ps)).length + 1 = j ∧ isMember q ps c = true ∧ V.item c = v ∧
      listOp eng ctx k xp e a (.insert (-(j : Int)) v) s = (.ok .unit, s.modify a (fun _ => n.withChildren (A ++ newElem q ps :: c :: B))) := by
  obtain ⟨put, hS⟩ := h.kind.store_ok h.num
  obtain ⟨ax, t, es, rfl⟩ := res_single h.field.path
  have hok := pathOk_single h.field.ok
  have hpos : pos ((members q ps n).map V.item).length (-(j : Int)) = some ((members q ps n).length - j) := by
    unfold pos
    rw [if_neg (by omega), if_pos ⟨by omega, by simp; omega⟩]
    simp; omega
  obtain ⟨A, m, B, c1, c2, c3, c4, c6, hrun⟩ := listInsert_neg_at h.engine h.field.parse h.field.path hok hS h.node ⟨h.fits, rfl⟩ hv (by omega) hpos
  have hP := hS.puts m c2 c3
  refine ⟨A, m, B, put v m, c1, c2, ?_, hP.member c2 v hv, hP.value v hv, ?_⟩
  · have : (members q ps n).length = (A.filter (isMember q ps)).length + ((B.filter (isMember q ps)).length + 1) := by
      simp [members, c1, c2]
    omega
  · show (listInsert eng ctx k.read k.store xp (.step ax t es) (.elem a) (-(j : Int)) v >>= fun _ => pure ListRes.unit) s = _
    rw [bind_ok hrun]
    rfl

/-- C108.  In front of the first item (`j > len`, also for an empty list), `insert(-j, v)` raises `IndexError` and changes nothing. -/
theorem C108_out_of_range (h : ListAt eng number ctx xp e q ps k V a s n) (v : α) (j : Nat) (hj : 1 ≤ j) (hlen : (members q ps n).length < j) :
    listOp eng ctx k xp e a (.insert (-(j : Int)) v) s = (.error .indexError, s) := by
  obtain ⟨put, hS⟩ := h.kind.store_ok h.num
  obtain ⟨ax, t, es, rfl⟩ := res_single h.field.path
  have hok := pathOk_single h.field.ok
  have hpos : pos ((members q ps n).map V.item).length (-(j : Int)) = none := by
    unfold pos
    rw [if_neg (by omega), if_neg (by simp; omega)]
  show (listInsert eng ctx k.read k.store xp (.step ax t es) (.elem a) (-(j : Int)) v >>= fun _ => pure ListRes.unit) s = _
  rw [bind_err (listInsert_neg_out h.engine h.field.parse h.field.path hok hS h.node ⟨h.fits, rfl⟩ (by omega) hpos)]

/-- C108.  Every sequence of operations with any indices, if the field can read a new element without content: the results, errors, and the list at the end are those of the list with blanks
(`Spec.blankingList`), where the blank item is what the field reads from such an element; and nothing but the members changes. -/
theorem C108_history (h : ListAt eng number ctx xp e q ps k V a s n) (hnew : V.fits (newElem q ps)) (ops : List (ListOp α))
    (hops : ∀ op ∈ ops, ∀ v ∈ op.values, V.storable v) :
    ∃ n', listOps eng ctx k xp e a ops s = ((blankingListAll (V.item (newElem q ps)) ((members q ps n).map V.item) ops).1, s.modify a (fun _ => n')) ∧
      readList eng ctx k xp a (s.modify a (fun _ => n')) = (.ok (blankingListAll (V.item (newElem q ps)) ((members q ps n).map V.item) ops).2, s.modify a (fun _ => n')) ∧
      SameButMembers q ps n n' := by
  obtain ⟨put, hS⟩ := h.kind.store_ok h.num
  obtain ⟨ax, t, es, rfl⟩ := res_single h.field.path
  obtain ⟨n', h1, h2, h3⟩ := runOps_any h.engine h.field.parse h.field.path (pathOk_single h.field.ok) hS hnew ops h.node ⟨h.fits, rfl⟩ hops
  exact ⟨n', h1, listData_run h.engine h.field.parse h.field.path hS (by rw [Node.get_modify, h.node]; rfl) h2, h3⟩

end

/-- C108.  A new element without content can be read by lists of strings, integers and elements; the blank item is the empty string, `None`, and the element itself. -/
theorem C108_blanks {number : Str → XNum} (hn : NumberOk number) (q : QName) (ps : List Pred) :
    (attrOnly ps = true → strView.fits (newElem q ps) ∧ strView.item (newElem q ps) = some [] ∧
      (intView number).fits (newElem q ps) ∧ (intView number).item (newElem q ps) = none) ∧
    (nodeView q ps).fits (newElem q ps) ∧ (nodeView q ps).item (newElem q ps) = newElem q ps := by
  refine ⟨fun h => ?_, trivial, rfl⟩
  have hc := newElem_attrOnly (q := q) h
  have hx : (newElem q ps).text = none := by unfold newElem; rw [buildAll_text _ _ h]; rfl
  have hv : (newElem q ps).strVal = [] := by
    cases hne : newElem q ps with
    | mk t a x c l =>
      rw [hne] at hc hx
      simp only [Node.children, Node.text] at hc hx
      subst hc hx
      rfl
  refine ⟨hc, by simp [strView, hv], ⟨hc, ?_⟩, ?_⟩
  · intro b; rw [hv, hn.empty]; simp
  · simp only [intView, hv, hn.empty]

/-! ### the hypotheses can be met -/

/-- The list of `listDoc` is `one`, `two`: a blank item in front of each, and what the operations give. -/
example : ∃ n', listOps refEngine sampleCtx (strKind sampleCtx (ast c%"a[@n='1']")) c%"a[@n='1']" (ast c%"a[@n='1']") []
      [.insert (-1) (some c%"x"), .len, .insert (-3) (some c%"y"), .insert (-5) (some c%"z"), .insert 1 (some c%"w"), .remove (some []), .index (some c%"x")] listDoc
        = ([.ok .unit, .ok (.nat 3), .ok .unit, .error .indexError, .ok .unit, .ok .unit, .ok (.nat 3)], n') ∧
    readList refEngine sampleCtx (strKind sampleCtx (ast c%"a[@n='1']")) c%"a[@n='1']" [] n'
        = (.ok [some c%"w", some c%"y", some [], some c%"x"], n') := by
  obtain ⟨n', h1, h2, -⟩ := C108_history listAt_str ((C108_blanks xpathNumber_ok _ _).1 (by decide)).1
    [.insert (-1) (some c%"x"), .len, .insert (-3) (some c%"y"), .insert (-5) (some c%"z"), .insert 1 (some c%"w"), .remove (some []), .index (some c%"x")]
    (by
      intro op hop v hv
      simp only [List.mem_cons, List.not_mem_nil, or_false] at hop
      rcases hop with rfl | rfl | rfl | rfl | rfl | rfl | rfl <;> simp only [ListOp.values, List.mem_singleton, List.not_mem_nil] at hv
      all_goals (subst hv; exact ⟨_, rfl, by decide⟩))
  exact ⟨_, h1, h2⟩

/-- C108, for lists of datetimes: after `insert(-1, d)` the field cannot be read any more, as the blank element is no datetime (`IndexError`). -/
theorem C108_counterexample_dates :
    let k := dateTimeKind false sampleCtx (ast c%"a")
    let d : DateTime := ⟨2024, 1, 2, 3, 4, 5, 0⟩
    let doc : Node := Node.withChildren [.mk (.elem ⟨none, c%"a"⟩) [] (some c%"2023-05-06T07:08:09") [] none] (Node.empty ⟨none, c%"r"⟩)
    ∃ doc', (readList refEngine sampleCtx k c%"a" [] doc).1 = .ok [some ⟨2023, 5, 6, 7, 8, 9, 0⟩] ∧
      listOp refEngine sampleCtx k c%"a" (ast c%"a") [] (.insert (-1) (some d)) doc = (.ok .unit, doc') ∧
      readList refEngine sampleCtx k c%"a" [] doc' = (.error .indexError, doc') := by
  refine ⟨Node.withChildren [Node.empty ⟨none, c%"a"⟩, .mk (.elem ⟨none, c%"a"⟩) [] (some c%"2024-01-02T03:04:05") [] none] (Node.empty ⟨none, c%"r"⟩), ?_, ?_, ?_⟩ <;> decide +kernel

/-! ### C108 applied to the sample list -/

example := C108_effect listAt_str (some c%"x") ⟨_, rfl, by decide⟩ 1 (by decide) (by decide)
example := C108_out_of_range listAt_str (some c%"x") 9 (by decide) (by decide)

end Props
