import Verif.XmlMap.TrimEnds
import Verif.Spec.While
import Verif.Props.Again
/-
Property C130: assigning a list ends, whatever the XPath, and the list is not longer than the value then.

Model: `listAssign`, `listTrimAll` (Verif/XmlMap/NodeList.lean).  Specification: `Spec.While` (Verif/Spec/While.lean), Python's loop without a limit on the rounds.
-/
namespace Props
open XPath Xml Spec Fields

section
variable [PyUnicode] {α : Type} [DecidableEq α] (eng : Engine) (ctx : Ctx) (mapper : Item → Except PyErr α) (store : Ref → α → M Unit) (xp : Str) (e : Expr) (node : Ref)

/-- `len(current_list) > n`. -/
def tooLong (n : Nat) : M Bool := do
  let m ← listLen eng ctx mapper xp node
  pure (decide (m > n))

/-- `current_list.pop()`. -/
def popOne : M Unit := do
  let _ ← listPop eng ctx mapper xp node none
  pure ()

/-- Python's loop `while len(current_list) > n: current_list.pop()`. -/
def Trims (n : Nat) : Node → Except PyErr Unit → Node → Nat → Prop := While (tooLong eng ctx mapper xp node n) (popOne eng ctx mapper xp node)

/-- C130.  What a loop does is determined: its result, the document and the number of rounds. -/
theorem C130_determined {test : M Bool} {body : M Unit} {s s1 s2 : Node} {r1 r2 : Except PyErr Unit} {k1 k2 : Nat} (h1 : While test body s r1 s1 k1) (h2 : While test body s r2 s2 k2) :
    r1 = r2 ∧ s1 = s2 ∧ k1 = k2 := by
  induction h1 generalizing k2 with
  | stop h => cases h2 <;> simp_all
  | testRaises h => cases h2 <;> simp_all
  | bodyRaises h g => cases h2 <;> simp_all
  | again h g _ ih =>
    cases h2 with
    | again h' g' l' =>
      rw [h] at h'; cases h'
      rw [g] at g'; cases g'
      obtain ⟨a, b, c⟩ := ih l'
      exact ⟨a, b, by rw [c]⟩
    | _ => simp_all

omit [DecidableEq α] in
/-- C130.  The loop that trims a list always ends, whatever the XPath, the mapper and the document: each `pop` takes an element out of the document or raises, so that there are at most as many rounds as the document has nodes. -/
theorem C130_ends (len n : Nat) (s : Node) : ∃ k, k ≤ s.nodes ∧ Trims eng ctx mapper xp node len s (listTrimAll eng ctx mapper xp node len n s).1 (listTrimAll eng ctx mapper xp node len n s).2 k := by
  have main : ∀ (F : Nat) (s : Node), s.nodes ≤ F → ∃ k, k ≤ s.nodes ∧ Trims eng ctx mapper xp node len s (listTrim eng ctx mapper xp node len F s).1 (listTrim eng ctx mapper xp node len F s).2 k := by
    intro F
    induction F with
    | zero => intro s h; exact absurd (Node.nodes_pos s) (by omega)
    | succ F ih =>
      intro s h
      simp only [listTrim]
      have hk := looks_len (eng := eng) (ctx := ctx) (mapper := mapper) (xp := xp) (node := node) s
      cases hl : listLen eng ctx mapper xp node s with
      | mk r s1 =>
        rw [hl] at hk
        have hk : s = s1 := hk.symm
        subst hk
        cases r with
        | error er => exact ⟨0, Nat.zero_le _, by rw [bind_err hl]; exact .testRaises (by unfold tooLong; rw [bind_err hl])⟩
        | ok m =>
          rw [bind_ok hl]
          have ht : tooLong eng ctx mapper xp node len s = (.ok (decide (m > len)), s) := by unfold tooLong; rw [bind_ok hl]; rfl
          split_ifs with hm
          · rw [decide_eq_true hm] at ht
            cases hp : listPop eng ctx mapper xp node none s with
            | mk r s2 =>
              cases r with
              | error er =>
                refine ⟨1, Node.nodes_pos s, ?_⟩
                rw [bind_err hp]
                exact .bodyRaises ht (by unfold popOne; rw [bind_err hp])
              | ok x =>
                have hlt := listPop_smaller hp
                obtain ⟨k, hk, hw⟩ := ih s2 (by omega)
                refine ⟨k + 1, by omega, ?_⟩
                rw [bind_ok hp]
                exact .again ht (by unfold popOne; rw [bind_ok hp]; rfl) hw
          · rw [decide_eq_false hm] at ht
            exact ⟨0, Nat.zero_le _, .stop ht⟩
  exact main (n + s.nodes) s (by omega)

omit [DecidableEq α] in
/-- C130.  `obj.list = value`, if it does not raise, is: the values are assigned one after the other (`listSetFrom`), then Python's loop takes out what is too much, and ends. -/
theorem C130_assign {value : List α} {s s' : Node} (h : listAssign eng ctx mapper store xp e node value s = (.ok (), s')) :
    ∃ s1 k, listSetFrom eng ctx store xp e node 0 value s = (.ok (), s1) ∧ k ≤ s1.nodes ∧ Trims eng ctx mapper xp node value.length s1 (.ok ()) s' k := by
  obtain ⟨⟨⟩, s1, h1, h2⟩ := both_ok h
  obtain ⟨m, s2, h3, h4⟩ := both_ok h2
  have hk := looks_len (eng := eng) (ctx := ctx) (mapper := mapper) (xp := xp) (node := node) s1
  rw [h3] at hk
  have hk : s1 = s2 := hk.symm
  subst hk
  obtain ⟨k, hk, hw⟩ := C130_ends eng ctx mapper xp node value.length m s1
  rw [h4] at hw
  exact ⟨s1, k, h1, hk, hw⟩

omit [DecidableEq α] in
/-- C130.  After `obj.list = value` the list has at most as many items as the value, whatever the XPath. -/
theorem C130_length {value : List α} {s s' : Node} (h : listAssign eng ctx mapper store xp e node value s = (.ok (), s')) :
    ∃ d, listData eng ctx mapper xp node s' = (.ok d, s') ∧ d.length ≤ value.length := by
  obtain ⟨s1, k, -, -, hw⟩ := C130_assign eng ctx mapper store xp e node h
  clear h
  generalize hr : (Except.ok () : Except PyErr Unit) = r at hw
  induction hw with
  | @stop t t' ht =>
    obtain ⟨m, t1, g1, g2⟩ := both_ok ht
    obtain ⟨d, t2, f1, f2⟩ := both_ok g1
    have e1 : t2 = t := by
      have := looks_bind (looks_matches (eng := eng) (ctx := ctx) (xp := xp) (node := node)) (f := fun ms => getDoc >>= fun doc => ofExcept (mapMatches mapper doc ms)) (fun _ => looks_bind (fun _ => rfl) (fun _ => looks_ofExcept _)) t
      have f1 : (listMatches eng ctx xp node >>= fun ms => getDoc >>= fun doc => ofExcept (mapMatches mapper doc ms)) t = (.ok d, t2) := f1
      rw [f1] at this
      exact this
    subst e1
    have hm : d.length = m ∧ t2 = t1 := ⟨Except.ok.inj (congrArg Prod.fst f2), congrArg Prod.snd f2⟩
    have hd : decide (m > value.length) = false ∧ t1 = t' := ⟨Except.ok.inj (congrArg Prod.fst g2), congrArg Prod.snd g2⟩
    obtain ⟨rfl, rfl⟩ := hm
    obtain ⟨hd, rfl⟩ := hd
    exact ⟨d, f1, by simpa using hd⟩
  | testRaises => cases hr
  | bodyRaises => cases hr
  | again _ _ _ ih => exact ih hr

omit [DecidableEq α] in
/-- C130.  After `obj.list = []` the list is empty, whatever the XPath. -/
theorem C130_empty {s s' : Node} (h : listAssign eng ctx mapper store xp e node [] s = (.ok (), s')) : listData eng ctx mapper xp node s' = (.ok [], s') := by
  obtain ⟨d, h1, h2⟩ := C130_length eng ctx mapper store xp e node h
  cases d with
  | nil => exact h1
  | cons x d => simp at h2

end

/-- An engine for `a[1]` only: the first child `a` of the root. -/
def headEngine : Engine := ⟨fun _ s _ _ => .ok (.nodes (((List.range s.children.length).find? (fun i => (s.children[i]?.map Node.tag) = some (.elem ⟨none, c%"a"⟩))).map (fun i => Ref.elem [i])).toList)⟩

/-- The case is there: the list `a[1]` has one item, but `obj.list = []` takes out all three elements `a`, in three rounds. -/
example : listData headEngine sampleCtx readElem c%"a[1]" (.elem []) listDoc = (.ok [c%"one"], listDoc) ∧
    ∃ s', listAssign headEngine sampleCtx readElem (storeText sampleCtx (fun v => .ok (some v)) (ast c%"a[1]")) c%"a[1]" (ast c%"a[1]") (.elem []) [] listDoc = (.ok (), s') ∧
      s'.children.map Node.tag = [.comment, .elem ⟨none, c%"b"⟩] := ⟨rfl, _, rfl, rfl⟩

end Props
