import Verif.XmlMap.ChainLemmas
/-
Taking down what was created for a path, step by step.
-/
namespace Fields
open Xml XPath Spec

set_option linter.unusedSectionVars false

variable [PyUnicode]

/-- The nodes differ only in what the step is about (and in text). -/
structure SameBut (st : Option Step) (m x : Node) : Prop where
  tag : x.tag = m.tag
  attr : ∀ q, st ≠ some (.attr q) → x.attr? q = m.attr? q
  kids : ∀ q, (∀ ps, st ≠ some (.child q ps)) → x.children.filter (Node.isElem q) = m.children.filter (Node.isElem q)

theorem SameBut.sat {ps : List Pred} {r : List Step} {m x : Node} (h : SameBut r.head? m x) (ho : okAll ps = true) (hn : nextOk ps r = true) : satAll ps x = satAll ps m := by
  apply satAll_local' ho
  · intro p hp q hq
    apply h.attr
    rintro he
    cases r with
    | nil => simp at he
    | cons s r =>
      simp only [List.head?_cons, Option.some.injEq] at he
      subst he
      simp only [nextOk, List.all_eq_true, bne_iff_ne, ne_eq] at hn
      exact hn p hp hq
  · intro p hp q hq
    apply h.kids
    rintro ps' he
    cases r with
    | nil => simp at he
    | cons s r =>
      simp only [List.head?_cons, Option.some.injEq] at he
      subst he
      simp only [nextOk, List.all_eq_true, bne_iff_ne, ne_eq] at hn
      exact hn p hp hq

/-- All steps (last first) are removed, and all states on the way satisfy `I`. -/
inductive Peel (I : Node → Prop) : List Step → Node → Node → Prop
  | nil {n} : I n → Peel I [] n n
  | cons {st rp n b m m' n'} : I n → (Step.matches rp.reverse n).head? = some (.elem b) → n.get b = some m → removeOne st (Step.test st) m = (.ok true, m') →
      Peel I rp (n.modify b (fun _ => m')) n' → Peel I (st :: rp) n n'

theorem Peel.last {I rp n n'} (h : Peel I rp n n') : I n' := by
  induction h with
  | nil h => exact h
  | cons _ _ _ _ _ ih => exact ih

theorem peel_run {I rp n n'} (h : Peel I rp n n') : voided (pathR false rp n) = (.ok (), n') := by
  induction h with
  | nil h => rfl
  | cons h1 h2 h3 h4 h5 ih =>
    rw [pathR_hit _ _ h2 h3]
    simp only [Bool.false_eq_true, if_false, h4]
    rw [andThen_voided]
    exact ih

/-- The first child that fits. -/
theorem first_child {q ps} {c : Node} : ∀ {l : List Node} {i : Nat}, l[i]? = some c → c.isElem q = true → satAll ps c = true →
    (∀ j d, j < i → l[j]? = some d → ¬ (d.isElem q = true ∧ satAll ps d = true)) → ∀ n : Node, n.children = l → (Step.matches [.child q ps] n).head? = some (.elem [i]) := by
  intro l i hc hq hs hlt n hn
  have hmem : Ref.elem [i] ∈ Step.matches [.child q ps] n := mem_matches_child.mpr ⟨i, c, by rw [hn]; exact hc, hq, hs, .elem [], by simp [Step.matches], rfl⟩
  have hsp := matches_child_split (q := q) (ps := ps) (r := []) (n := n) (i := i) (c := c) (by rw [hn]; exact hc)
  simp only [Step.matches] at hmem ⊢
  rw [hn]
  clear hsp hmem hn
  have : ∀ (l : List Node) (i k : Nat), l[i]? = some c → (∀ j d, j < i → l[j]? = some d → ¬ (d.isElem q = true ∧ satAll ps d = true)) →
      (List.mapIdx (fun i c => if (c.isElem q && satAll ps c) = true then [Ref.under [i + k] (.elem [])] else []) l).flatten.head? = some (.elem [i + k]) := by
    intro l
    induction l with
    | nil => intro i k h; simp at h
    | cons d l ih =>
      intro i k h hlt
      rw [List.mapIdx_cons]
      cases i with
      | zero =>
        simp only [List.getElem?_cons_zero, Option.some.injEq] at h
        subst h
        simp [hq, hs, Ref.under]
      | succ i =>
        have hd := hlt 0 d (by omega) rfl
        rw [if_neg (by simpa using hd)]
        simp only [List.flatten_cons, List.nil_append]
        have := ih i (k + 1) (by simpa using h) (fun j d hj hd => hlt (j + 1) d (by omega) (by simpa using hd))
        simp only [Nat.add_assoc, Nat.add_comm 1 k] at this ⊢
        exact this
  have := this l i 0 hc hlt
  simpa using this

/-- Peeling inside of a child, and then the child. -/
theorem peel_lift {I rp c c'} (h : Peel I rp c c') {q ps} (ho : okAll ps = true) (hI : ∀ x, I x → x.isElem q = true ∧ satAll ps x = true)
    (ht : Step.test (.child q ps) c' = .ok true) (m : Node) (i : Nat) : ∀ n : Node, n.children[i]? = some c → SameBut (some (.child q ps)) m n →
    (∀ j d, j < i → n.children[j]? = some d → ¬ (d.isElem q = true ∧ satAll ps d = true)) →
    Peel (SameBut (some (.child q ps)) m) (rp ++ [.child q ps]) n (n.removeChild i) := by
  induction h with
  | @nil x hx =>
    intro n hc hm hlt
    obtain ⟨hq, hs⟩ := hI _ hx
    have hh := first_child hc hq hs hlt n rfl
    have hg : n.get [i] = some x := by simp [Node.get_cons, hc]
    have hone : removeOne (.child q ps) (Step.test (.child q ps)) n = (.ok true, removeAt [i] n) := by
      unfold removeOne; simp only [hh, Ref.addr, hg, ht]
    refine .cons hm (b := []) rfl rfl hone (.nil ?_)
    show SameBut _ _ (n.removeChild i)
    refine ⟨by simp [hm.tag], fun q' h => ?_, fun q' h => ?_⟩
    · rw [← hm.attr q' h]; simp [Node.attr?]
    · rw [← hm.kids q' h]
      simp only [Node.removeChild_children]
      apply filter_eraseIdx
      intro d hd
      rw [hc] at hd
      simp only [Option.some.injEq] at hd
      subst hd
      have : q' ≠ q := by rintro rfl; exact h ps rfl
      simp only [Node.isElem, beq_iff_eq, beq_eq_false_iff_ne, ne_eq] at hq ⊢
      rw [hq]
      simpa using this.symm
  | @cons st rp x b y y' z h1 h2 h3 h4 h5 ih =>
    intro n hc hm hlt
    obtain ⟨hq, hs⟩ := hI _ h1
    have hx' : I (x.modify b (fun _ => y')) := by
      cases h5 with
      | nil h => exact h
      | cons h => exact h
    have hq' := (hI _ hx').1
    have hh := first_child hc hq hs hlt n rfl
    have hg : n.get [i] = some x := by simp [Node.get_cons, hc]
    have hh2 := head_append (pre := [.child q ps]) (r := rp.reverse) (by simp [pathOk, ho, nextOk]) hh hg h2
    have hgy : n.get (i :: b) = some y := by rw [Node.get_cons, hc]; exact h3
    have hmod : n.modify (i :: b) (fun _ => y') = n.withChildren (n.children.modify i (Node.modify b (fun _ => y'))) := by rw [Node.modify_cons]
    have hc2 : (n.modify (i :: b) (fun _ => y')).children[i]? = some (x.modify b (fun _ => y')) := by
      rw [hmod, Node.withChildren_children, List.getElem?_modify, hc]; simp
    have hm2 : SameBut (some (.child q ps)) m (n.modify (i :: b) (fun _ => y')) := by
      rw [hmod]
      refine ⟨by simp [hm.tag], fun q' h => ?_, fun q' h => ?_⟩
      · rw [← hm.attr q' h]; simp [Node.attr?]
      · rw [← hm.kids q' h]
        simp only [Node.withChildren_children]
        apply filter_modify_ne (q2 := q) (by rintro rfl; exact h ps rfl)
        intro d hd
        rw [hc] at hd
        simp only [Option.some.injEq] at hd
        subst hd
        exact ⟨hq, hq'⟩
    have := ih ht (n.modify (i :: b) (fun _ => y')) hc2 hm2 (by
      intro j d hj hd
      rw [hmod, Node.withChildren_children, List.getElem?_modify] at hd
      have hij : ¬ i = j := by omega
      exact hlt j d hj (by simpa [hij] using hd))
    have hrm : (n.modify (i :: b) (fun _ => y')).removeChild i = n.removeChild i := by
      rw [hmod]
      unfold Node.removeChild
      simp only [Node.withChildren_children, Node.withChildren_withChildren]
      congr 1
      apply List.ext_getElem?
      intro k
      simp only [List.getElem?_eraseIdx, List.getElem?_modify]
      split_ifs
      · omega
      · simp
      · omega
      · simp
    rw [hrm] at this
    refine .cons hm (b := i :: b) ?_ hgy h4 this
    have hrev : (rp.append [Step.child q ps]).reverse = [Step.child q ps] ++ rp.reverse := by
      show (rp ++ [Step.child q ps]).reverse = _
      rw [List.reverse_append, List.reverse_singleton]
    rw [hrev]
    exact hh2

/-- What is done at the end of the path: the attribute is set, or only the text changes. -/
def EndEdit (r : List Step) (k : Node → Node) : Prop :=
  (∃ q v, r.getLast? = some (.attr q) ∧ k = Node.setAttr q v) ∨
    ((∀ q, r.getLast? ≠ some (.attr q)) ∧ ∀ m, (k m).attrs = m.attrs ∧ (k m).children = m.children ∧ (k m).tag = m.tag)

/-- New elements for the steps are seen as empty except for their predicates. -/
def TestsOk (r : List Step) : Prop := ∀ q ps, Step.child q ps ∈ r → ∀ x : Node, x.attrs = (newElem q ps).attrs → x.children = (newElem q ps).children →
  Step.test (.child q ps) x = .ok true

/-- What was created for a path is taken down completely. -/
theorem peel_build : ∀ (r : List Step) (k : Node → Node) (m : Node), pathOk r = true → r.getLast? ≠ some .text → EndEdit r k → TestsOk r →
    (r ≠ [] → Step.matches (r.take 1) m = []) →
    ∃ m', Peel (SameBut r.head? m) r.reverse (buildPath r k m) m' ∧ m'.attrs = m.attrs ∧ m'.children = m.children ∧ m'.tag = m.tag ∧ (r ≠ [] → m' = m)
  | [], k, m, _, _, hk, _, _ => by
    rcases hk with ⟨q, v, h, -⟩ | ⟨-, h⟩
    · simp at h
    obtain ⟨h1, h2, h3⟩ := h m
    exact ⟨k m, .nil ⟨h3, fun q _ => by simp only [buildPath, Node.attr?, h1], fun q _ => by simp only [buildPath, h2]⟩, h1, h2, h3, fun h => absurd rfl h⟩
  | .attr q :: r, k, m, hok, _, hk, _, hnm => by
    simp only [pathOk, List.isEmpty_iff] at hok
    subst hok
    rcases hk with ⟨q', v, h, rfl⟩ | ⟨h, -⟩
    swap
    · exact absurd rfl (h q)
    simp only [List.getLast?_singleton, Option.some.injEq, Step.attr.injEq] at h
    subst h
    have h0 : m.attr? q = none := by
      have hnm := hnm (by simp)
      simp only [List.take_succ_cons, List.take_zero, Step.matches, List.isEmpty_nil, Bool.true_and] at hnm
      split_ifs at hnm with h
      simpa using h
    have hb : buildPath [.attr q] (Node.setAttr q v) m = m.setAttr q v := by simp [buildPath, Node.setAttr_setAttr]
    rw [hb]
    have hone : removeOne (.attr q) (Step.test (.attr q)) (m.setAttr q v) = (.ok true, m) := by
      unfold removeOne
      simp only [Node.attr?_setAttr, if_true, Option.isSome_some, del_setAttr h0]
    refine ⟨m, .cons (b := []) ⟨by simp, fun q' h => ?_, fun q' h => by simp⟩ rfl rfl hone (.nil ⟨rfl, fun _ _ => rfl, fun _ _ => rfl⟩), rfl, rfl, rfl, fun _ => rfl⟩
    rw [Node.attr?_setAttr, if_neg]
    rintro rfl
    simp at h
  | .text :: r, k, m, hok, hl, _, _, _ => by
    simp only [pathOk, List.isEmpty_iff] at hok
    subst hok
    simp at hl
  | .child q ps :: r, k, m, hok, hl, hk, ht, hnm => by
    simp only [pathOk, Bool.and_eq_true] at hok
    obtain ⟨⟨ho, hn⟩, hokr⟩ := hok
    have hl' : r.getLast? ≠ some .text := by
      cases r with
      | nil => simp
      | cons s r => rw [List.getLast?_cons_cons] at hl; exact hl
    have hk' : EndEdit r k := by
      cases r with
      | nil =>
        rcases hk with ⟨q, v, h, -⟩ | ⟨-, h⟩
        · simp at h
        · exact .inr ⟨by simp, h⟩
      | cons s r =>
        unfold EndEdit at hk ⊢
        rw [List.getLast?_cons_cons] at hk
        exact hk
    obtain ⟨e', hp, h1, h2, h3, -⟩ := peel_build r k (newElem q ps) hokr hl' hk' (fun q' ps' h => ht q' ps' (by simp [h])) (fun hne => by
      apply newElem_nomatch ho ?_ (by cases r <;> simp_all)
      cases r with
      | nil => exact absurd rfl hne
      | cons s r => cases s <;> simpa [nextOk] using hn)
    have hlift := peel_lift hp ho (q := q) (fun x hx => ⟨by
        have := newElem_isElem q ps
        simp only [Node.isElem, beq_iff_eq] at this ⊢
        rw [hx.tag, this], by rw [hx.sat ho hn]; exact newElem_sat ho⟩)
      (ht q ps (by simp) e' h1 h2) m m.children.length (Node.append (buildPath r k (newElem q ps)) m)
      (by simp) ⟨by simp, fun q' _ => by simp [Node.attr?], fun q' h => by
        simp only [Node.append_children, List.filter_append]
        have hkt : ∀ m, (k m).tag = m.tag := by
          intro m
          rcases hk with ⟨q, v, -, rfl⟩ | ⟨-, h⟩
          · simp
          · exact (h m).2.2
        have := newElem_isElem q ps
        simp only [Node.isElem, beq_iff_eq] at this
        have hfil : List.filter (Node.isElem q') [buildPath r k (newElem q ps)] = [] := by
          rw [List.filter_eq_nil_iff]
          intro d hd
          simp only [List.mem_singleton] at hd
          subst hd
          simp only [Node.isElem, beq_iff_eq]
          rw [buildPath_tag r hkt, this]
          intro he
          exact h ps (by rw [Tag.elem.inj he])
        rw [hfil, List.append_nil]⟩
      (by
        intro j d hj hd hqs
        simp only [Node.append_children] at hd
        rw [List.getElem?_append_left hj] at hd
        have := hnm (by simp)
        rw [List.take_succ_cons, List.take_zero, matches_child_nil_iff] at this
        have := this d (List.mem_of_getElem? hd) hqs.1 hqs.2
        simp [Step.matches] at this)
    refine ⟨m, ?_, rfl, rfl, rfl, fun _ => rfl⟩
    rw [List.reverse_cons]
    have hrm : (Node.append (buildPath r k (newElem q ps)) m).removeChild m.children.length = m := removeAt_append m _
    rw [hrm] at hlift
    exact hlift

/-! ### predicates -/

/-- What is done at the end of a predicate's path. -/
def _root_.Spec.Pred.edit : Pred → Node → Node
  | .attr q cmp => Node.setAttr q ((cmp.map litText).getD [])
  | .here cmp => (Pred.here cmp).build
  | .child _ _ rest => rest.edit

theorem build_path : ∀ (p : Pred) (n : Node), p.build n = buildPath p.steps p.edit n
  | .attr q cmp, n => by simp [Pred.build, Pred.steps, Pred.edit, buildPath, Node.setAttr_setAttr]
  | .here cmp, n => rfl
  | .child q ps rest, n => by
    simp only [Pred.build, Pred.steps, buildPath, Pred.edit]
    rw [build_path rest]
    rfl

theorem edit_end : ∀ p : Pred, EndEdit p.steps p.edit
  | .attr q cmp => .inl ⟨q, _, rfl, rfl⟩
  | .here cmp => by
    refine .inr ⟨by simp [Pred.steps], fun m => ?_⟩
    cases cmp <;> simp [Pred.edit, Pred.build]
  | .child q ps rest => by
    have := edit_end rest
    unfold EndEdit at this ⊢
    simp only [Pred.steps, Pred.edit]
    cases h : rest.steps with
    | nil =>
      rw [h] at this
      rcases this with ⟨q, v, h, -⟩ | ⟨-, h⟩
      · simp at h
      · exact .inr ⟨by simp, h⟩
    | cons s r =>
      rw [h] at this
      rw [List.getLast?_cons_cons]
      exact this

theorem steps_last : ∀ p : Pred, p.steps.getLast? ≠ some .text
  | .attr q cmp => by simp [Pred.steps]
  | .here cmp => by simp [Pred.steps]
  | .child q ps rest => by
    have := steps_last rest
    simp only [Pred.steps]
    cases h : rest.steps with
    | nil => simp
    | cons s r => rw [h] at this; rw [List.getLast?_cons_cons]; exact this

theorem undoable_path : ∀ p : Pred, p.ok = true → p.undoable = true → pathOk p.steps = true
  | .attr q cmp, _, _ => rfl
  | .here cmp, _, _ => rfl
  | .child q ps rest, h, hu => by
    simp only [Pred.ok, Bool.and_eq_true] at h
    simp only [Pred.undoable, Bool.and_eq_true] at hu
    simp only [Pred.steps, pathOk, Bool.and_eq_true]
    exact ⟨⟨h.1.1, hu.1.2⟩, undoable_path rest h.1.2 hu.2⟩

theorem undoable_mem : ∀ p : Pred, p.ok = true → p.undoable = true → ∀ {q ps}, Step.child q ps ∈ p.steps → okAll ps = true ∧ undoAll ps = true
  | .attr q cmp, _, _, q', ps', h => by simp [Pred.steps] at h
  | .here cmp, _, _, q', ps', h => by simp [Pred.steps] at h
  | .child q ps rest, h, hu, q', ps', hm => by
    simp only [Pred.ok, Bool.and_eq_true] at h
    simp only [Pred.undoable, Bool.and_eq_true] at hu
    simp only [Pred.steps, List.mem_cons, Step.child.injEq] at hm
    rcases hm with ⟨rfl, rfl⟩ | hm
    · exact ⟨h.1.1, hu.1.1⟩
    · exact undoable_mem rest h.1.2 hu.2 hm

theorem undoable_valued : ∀ p : Pred, p.undoable = true → p.valued = true
  | .attr q cmp, h => h
  | .here cmp, h => h
  | .child q ps rest, h => by
    simp only [Pred.undoable, Bool.and_eq_true] at h
    exact undoable_valued rest h.2

/-- The attributes and children created for predicates. -/
def attrsOf (ps : List Pred) : List (QName × Str) := ps.filterMap (fun p => match p with
  | .attr q cmp => some (q, (cmp.map litText).getD [])
  | _ => none)
def kidsOf (ps : List Pred) : List Node := ps.filterMap (fun p => match p with
  | .child q ps rest => some (rest.build (newElem q ps))
  | _ => none)

theorem buildAll_kids : ∀ (ps : List Pred) (n : Node), okAll ps = true → (buildAll ps n).children = n.children ++ kidsOf ps
  | [], n, _ => by simp [buildAll, kidsOf]
  | p :: ps, n, h => by
    simp only [okAll, Bool.and_eq_true] at h
    rw [buildAll, buildAll_kids ps _ h.1.2]
    cases p with
    | attr q cmp => simp [Pred.build, kidsOf]
    | here cmp => simp [Pred.isHere] at h
    | child q ps' rest => simp [Pred.build, kidsOf, newElem]

theorem buildAll_attrs : ∀ (ps : List Pred) (n : Node), okAll ps = true → (∀ p ∈ ps, ∀ q, p.attrOf = some q → n.attr? q = none) →
    (buildAll ps n).attrs = n.attrs ++ attrsOf ps
  | [], n, _, _ => by simp [buildAll, attrsOf]
  | p :: ps, n, h, hn => by
    simp only [okAll, Bool.and_eq_true] at h
    have hrest : ∀ p' ∈ ps, ∀ q, p'.attrOf = some q → (p.build n).attr? q = none := by
      intro p' hp' q hq
      rw [build_attr p n q ?_]
      · exact hn p' (by simp [hp']) q hq
      · intro he
        have h2 := h.2
        rw [he] at h2
        simp only [decide_eq_true_eq] at h2
        exact h2 (List.mem_map.mpr ⟨p', hp', hq⟩)
    rw [buildAll, buildAll_attrs ps _ h.1.2 hrest]
    cases p with
    | attr q cmp =>
      have h0 := hn _ (List.mem_cons_self) q rfl
      simp only [Node.attr?] at h0
      simp [Pred.build, attrsOf, setAttrL_absent h0]
    | here cmp => simp [Pred.isHere] at h
    | child q ps' rest => simp [Pred.build, attrsOf]

theorem newElem_parts {q ps} (h : okAll ps = true) : (newElem q ps).attrs = attrsOf ps ∧ (newElem q ps).children = kidsOf ps := by
  constructor
  · unfold newElem
    rw [buildAll_attrs ps _ h (fun p _ q _ => by simp [Node.attr?])]
    simp
  · unfold newElem
    rw [buildAll_kids ps _ h]
    simp

theorem attrsOf_names {ps : List Pred} {q : QName} (h : some q ∉ ps.map Pred.attrOf) : ∀ a ∈ attrsOf ps, a.1 ≠ q := by
  intro a ha he
  simp only [attrsOf, List.mem_filterMap] at ha
  obtain ⟨p, hp, hpa⟩ := ha
  split at hpa
  · rename_i q' cmp
    simp only [Option.some.injEq] at hpa
    subst hpa
    simp only at he
    subst he
    exact h (List.mem_map.mpr ⟨_, hp, rfl⟩)
  · simp at hpa

/-- Stripping the predicates off what was created for them leaves nothing. -/
theorem strip_built : ∀ (N : Nat) (ps : List Pred), sizeOf ps ≤ N → okAll ps = true → undoAll ps = true → ∀ n : Node, n.attrs = attrsOf ps → n.children = kidsOf ps →
    ∃ n', stripAll ps n = (.ok (), n') ∧ n'.attrs = [] ∧ n'.children = [] := by
  intro N
  induction N with
  | zero => intro ps h; cases ps <;> simp at h
  | succ N ih =>
    intro ps hN ho hu n ha hc
    cases ps with
    | nil => exact ⟨n, rfl, by simpa [attrsOf] using ha, by simpa [kidsOf] using hc⟩
    | cons p ps =>
      have ho' := ho
      simp only [okAll, Bool.and_eq_true] at ho
      simp only [undoAll, Bool.and_eq_true] at hu
      have hv := undoable_valued p hu.1
      have htests : ∀ q ps', Step.child q ps' ∈ p.steps → ∀ x : Node, x.attrs = (newElem q ps').attrs → x.children = (newElem q ps').children → Step.test (.child q ps') x = .ok true := by
        intro q ps' hm x hx1 hx2
        obtain ⟨o1, o2⟩ := undoable_mem p ho.1.1.1 hu.1 hm
        obtain ⟨p1, p2⟩ := newElem_parts (q := q) o1
        have := steps_size p hm
        obtain ⟨n', h1, h2, h3⟩ := ih ps' (by simp at hN; omega) o1 o2 x (hx1.trans p1) (hx2.trans p2)
        unfold Step.test bareAfter
        rw [show (Step.child q ps').preds = ps' from rfl, h1]
        simp [h2, h3]
      rw [stripAll_cons]
      have key : ∃ n1, stripP p n = (.ok (), n1) ∧ n1.attrs = attrsOf ps ∧ n1.children = kidsOf ps := by
        cases p with
        | here cmp => simp [Pred.isHere] at ho
        | attr q cmp =>
          obtain ⟨v, rfl⟩ := Option.isSome_iff_exists.mp hv
          have hat : n.attr? q = some (litText v) := by
            simp only [Node.attr?, ha, attrsOf, List.filterMap_cons]
            simp
          have hsat : (Pred.attr q (some v)).sat n = true := by
            simp only [Pred.sat, hat]
            exact cmpTest_litText (some v)
          unfold stripP
          rw [if_pos ⟨hv, hsat⟩]
          refine ⟨n.delAttr q, ?_, ?_, ?_⟩
          · simp [Pred.steps, pathR_one, removeOne, hat, voided, Except.map]
          · have h2 := ho.2
            simp only [Pred.attrOf, decide_eq_true_eq] at h2
            simp only [Node.delAttr, Node.withAttrs_attrs, ha, attrsOf, List.filterMap_cons]
            rw [List.filter_cons_of_neg (by simp)]
            exact List.filter_eq_self.mpr (fun a haa => by simpa using attrsOf_names h2 a haa)
          · simp only [Node.delAttr, Node.withAttrs_children, hc, kidsOf, List.filterMap_cons]
        | child q ps1 rest =>
          have hkid : n.children = rest.build (newElem q ps1) :: kidsOf ps := by
            rw [hc]; simp [kidsOf]
          have hok := ho.1.1.1
          have hb := build_sat (.child q ps1 rest) (Node.empty q) hok (by simp)
          simp only [Pred.build, Pred.sat, Node.append_children, Node.empty_children, List.nil_append, List.any_cons, List.any_nil, Bool.or_false, Bool.and_eq_true] at hb
          rw [show buildAll ps1 (Node.empty q) = newElem q ps1 from rfl] at hb
          have hsat : (Pred.child q ps1 rest).sat n = true := by
            simp only [Pred.sat, hkid, List.any_cons, Bool.or_eq_true, Bool.and_eq_true]
            exact .inl hb
          have hpath := undoable_path _ hok hu.1
          simp only [Pred.steps, pathOk, Bool.and_eq_true] at hpath
          obtain ⟨⟨o1, o2⟩, o3⟩ := hpath
          obtain ⟨e', hpeel, h1, h2, h3, -⟩ := peel_build rest.steps rest.edit (newElem q ps1) o3 (steps_last rest) (edit_end rest)
            (fun q' ps' hm => htests q' ps' (by simp [Pred.steps, hm])) (fun hne => by
              apply newElem_nomatch o1 ?_ (by cases h : rest.steps <;> simp_all)
              cases hr : rest.steps with
              | nil => exact absurd hr hne
              | cons s r => rw [hr] at o2; cases s <;> simpa [nextOk] using o2)
          rw [← build_path] at hpeel
          have hlift := peel_lift hpeel o1 (q := q) (fun x hx => ⟨by
              have := newElem_isElem q ps1
              simp only [Node.isElem, beq_iff_eq] at this ⊢
              rw [hx.tag, this], by rw [hx.sat o1 o2]; exact newElem_sat o1⟩)
            (htests q ps1 (by simp [Pred.steps]) e' h1 h2) n 0 n (by rw [hkid]; rfl) ⟨rfl, fun _ _ => rfl, fun _ _ => rfl⟩
            (by intro j d hj; omega)
          unfold stripP
          rw [if_pos ⟨hv, hsat⟩]
          refine ⟨n.removeChild 0, ?_, ?_, ?_⟩
          · rw [Pred.steps, List.reverse_cons]
            exact peel_run hlift
          · simp only [Node.removeChild_attrs, ha, attrsOf, List.filterMap_cons]
          · simp only [Node.removeChild_children, hkid, List.eraseIdx_cons_zero]
      obtain ⟨n1, h1, h2, h3⟩ := key
      obtain ⟨n2, h4, h5, h6⟩ := ih ps (by simp at hN; omega) ho.1.2 hu.2 n1 h2 h3
      exact ⟨n2, by unfold seqA; rw [h1]; exact h4, h5, h6⟩

theorem testsOk {r : List Step} (hok : ∀ q ps, Step.child q ps ∈ r → okAll ps = true) (hu : ∀ st ∈ r, undoAll st.preds = true) : TestsOk r := by
  intro q ps hm x hx1 hx2
  obtain ⟨p1, p2⟩ := newElem_parts (q := q) (hok q ps hm)
  obtain ⟨n', h1, h2, h3⟩ := strip_built _ ps (Nat.le_refl _) (hok q ps hm) (hu _ hm) x (hx1.trans p1) (hx2.trans p2)
  unfold Step.test bareAfter
  rw [show (Step.child q ps).preds = ps from rfl, h1]
  simp [h2, h3]

/-! ### deleting what was just created -/

/-- What writing creates, and what is left after removing the match. -/
theorem write_split {p : List Step} (hok : pathOk p = true) (hp : p ≠ []) {n : Node} (hnm : Step.matches p n = []) (v : Str)
    (hlast : p.getLast? ≠ some .text) : ∃ pre r1 st b m x, p = pre ++ (r1 ++ [st]) ∧ (Step.matches pre n).head? = some (.elem b) ∧ n.get b = some m ∧
      (∀ r', r' <+: r1 → r' ≠ [] → Step.matches (pre ++ r') n = []) ∧
      (Step.matches p (write p v n)).head? = some x ∧ (∀ b, x ≠ .tail b) ∧ Aligned p (write p v n) ∧
      removeRef x (write p v n) = n.modify b (buildPath r1 id) := by
  obtain ⟨i, hi, h2, h3, h4⟩ := missing_max hok hp n
  obtain ⟨m, hm⟩ := missing_get hok n hp
  have hwd : write p v n = n.modify (missing p n).1 (buildPath (missing p n).2 (writeLast p v)) := by
    unfold write; rw [hnm]; rfl
  have hne : (missing p n).2 ≠ [] := by
    rw [h2]; intro h; have := congrArg List.length h; simp at this; omega
  have hpl : p.getLast? = (missing p n).2.getLast? := by
    refine getLast?_of_suffix (pre := p.take i) ?_ hne
    rw [h2]; exact (List.take_append_drop i p).symm
  obtain ⟨hmr, hcr⟩ := matches_create hok hp hnm hm (k := writeLast p v) (hpl ▸ writeLast_lastEdit p v)
    (fun h => absurd (hpl.trans h) hlast)
  rw [← hwd] at hcr
  generalize hb : (missing p n).1 = b at *
  generalize hr : (missing p n).2 = r at *
  obtain ⟨r1, st, rfl⟩ : ∃ r1 st, r = r1 ++ [st] := ⟨r.dropLast, r.getLast hne, (List.dropLast_concat_getLast hne).symm⟩
  obtain ⟨pre, hpre⟩ : ∃ pre, pre = p.take i := ⟨_, rfl⟩
  have hp' : p = pre ++ (r1 ++ [st]) := by rw [hpre, h2]; exact (List.take_append_drop i p).symm
  have hlen : pre.length = i := by rw [hpre]; simp; omega
  rw [← hpre] at h3
  have hok' := hok
  rw [hp'] at hok'
  obtain ⟨hpa, hprok, hrok⟩ := pathOk_append hok' (by simp)
  have hr1 := (pathOk_append hrok (by simp)).1
  have hst := (pathOk_append hrok (by simp)).2.2
  have hok2 : pathOk ((pre ++ r1) ++ [st]) = true := by rw [List.append_assoc]; exact hok'
  obtain ⟨hac, hok3, -⟩ := pathOk_append hok2 (by simp)
  have hk : LastEdit [st].getLast? (writeLast p v) := by
    have : [st].getLast? = p.getLast? := by rw [hp']; simp [← List.append_assoc]
    rw [this]; exact writeLast_lastEdit p v
  have hbp : buildPath (r1 ++ [st]) (writeLast p v) = buildPath r1 (buildPath [st] (writeLast p v)) := by
    funext x; exact allChild_append hr1 _ x
  rw [hbp] at hwd
  have hprefix : ∀ r', r' <+: r1 → r' ≠ [] → Step.matches (pre ++ r') n = [] := by
    intro r' hr' hne'
    have := h4 (i + r'.length) (by have := List.length_pos_iff.mpr hne'; omega) (by
      have := hr'.length_le
      rw [hp']; simp; omega)
    rw [← this]
    congr 1
    obtain ⟨t, ht⟩ := hr'
    have : p = (pre ++ r') ++ (t ++ [st]) := by rw [hp', ← ht]; simp
    rw [this, ← hlen, ← List.length_append, List.take_left']
    rfl
  have hhd : (Step.matches (pre ++ r1) (write p v n)).head? = some (.elem (b ++ (target r1 m).addr)) := by
    rw [hwd]
    refine head_built hok3 hac h3 hm (fun hne => hprefix r1 (List.prefix_refl _) hne) (fun x => buildPath_tag [st] hk.tag x) ?_
    intro q ps hl m' hs
    obtain ⟨o1, o2⟩ := last_ok hok2 hl
    rw [satAll_buildPath o1 o2 hst hk]
    exact hs
  have htg : (target (r1 ++ [st]) m).under b = (target [st] (leafNode r1 m)).under (b ++ (target r1 m).addr) := by
    rw [target_append hr1, under_under]
  rw [htg] at hcr
  have hleaf := leaf_nomatch hrok hmr
  have hhold : Ref.holder ((target [st] (leafNode r1 m)).under (b ++ (target r1 m).addr)) = b ++ (target r1 m).addr := by
    cases st with
    | child q ps =>
      show (b ++ (target r1 m).addr ++ [_]).dropLast = _
      rw [List.dropLast_concat]
    | attr q => show b ++ (target r1 m).addr ++ [] = _; simp
    | text => rw [hp'] at hlast; simp [← List.append_assoc] at hlast
  have hnt : ∀ b', (Step.matches p (write p v n)).head? ≠ some (.tail b') := by
    intro b' h
    rw [hcr] at h
    simp only [List.head?_cons, Option.some.injEq] at h
    cases st with
    | child q ps => cases h
    | attr q => cases h
    | text => cases h
  have hdl : p.dropLast = pre ++ r1 := by rw [hp', ← List.append_assoc, List.dropLast_concat]
  have hrm : removeRef ((target [st] (leafNode r1 m)).under (b ++ (target r1 m).addr)) (write p v n)
      = n.modify b (buildPath r1 id) := by
    cases st with
    | child q ps =>
      show removeAt (b ++ (target r1 m).addr ++ [(leafNode r1 m).children.length]) (write p v n) = _
      rw [hwd, removeAt_under _ _ (by simp), modify_built hm]
      apply Node.modify_congr hm
      exact buildPath_congr r1 (removeAt_append _ _)
    | attr q =>
      show (write p v n).modify (b ++ (target r1 m).addr ++ []) (Node.delAttr q) = _
      rw [List.append_nil, hwd, modify_built hm]
      apply Node.modify_congr hm
      apply buildPath_congr
      have h0 : (leafNode r1 m).attr? q = none := by
        simp only [Step.matches, List.isEmpty_nil, Bool.true_and] at hleaf
        split_ifs at hleaf with h
        simpa using h
      have hwl : writeLast p v = Node.setAttr q v := writeLast_attr (by rw [hp', ← List.append_assoc]; simp) v
      simp only [Function.comp, buildPath, hwl, Node.setAttr_setAttr, id]
      exact del_setAttr h0
    | text => rw [hp'] at hlast; simp [← List.append_assoc] at hlast
  refine ⟨pre, r1, st, b, m, _, hp', h3, hm, hprefix, by rw [hcr]; rfl, fun b' h => hnt b' (by rw [hcr, ← h]; rfl), ?_, hrm⟩
  intro x hx
  rw [hcr] at hx
  simp only [List.head?_cons, Option.some.injEq] at hx
  subst hx
  rw [hhold, hdl, hhd]

/-- Peeling inside of the first match of `pre`. -/
theorem peel_under {pre : List Step} {n m : Node} {b} (hok : pathOk pre = true) (hh : (Step.matches pre n).head? = some (.elem b)) (hm : n.get b = some m)
    {I rp x x'} (h : Peel I rp x x') (hI : ∀ y, I y → y.tag = m.tag ∧ ∀ q ps, pre.getLast? = some (.child q ps) → satAll ps m = true → satAll ps y = true) :
    voided (pathR false (rp ++ pre.reverse) (n.modify b (fun _ => x))) = voided (pathR false pre.reverse (n.modify b (fun _ => x'))) := by
  induction h with
  | nil h => rfl
  | @cons st rp x b2 y y' z h1 h2 h3 h4 h5 ih =>
    obtain ⟨ht, hs⟩ := hI _ h1
    have hg : (n.modify b (fun _ => x)).get b = some x := by rw [Node.get_modify, hm]; rfl
    have hfirst := first_stays (f := fun _ => x) hok hh hm ht hs
    have hhd := head_append hok hfirst hg h2
    have hgy : (n.modify b (fun _ => x)).get (b ++ b2) = some y := by rw [Node.get_append, hg]; exact h3
    rw [List.cons_append, pathR_hit _ _ (b := b ++ b2) (by rw [List.reverse_append, List.reverse_reverse]; exact hhd) hgy]
    simp only [Bool.false_eq_true, if_false, h4]
    rw [andThen_voided, Node.modify_append, Node.modify_modify]
    rw [← ih]
    rfl

/-- Deleting what was just created restores the element. -/
theorem undo_any {p : List Step} (hok : pathOk p = true) (hp : p ≠ []) {n : Node} (hnm : Step.matches p n = []) (v : Str)
    (hlast : p.getLast? ≠ some .text) (hu : ∀ st ∈ p, undoAll st.preds = true) (hst : ∀ st ∈ p, steadyAll st.preds = true) (hne : NotLeftover p n) :
    voided (pathR true p.reverse (write p v n)) = (.ok (), n) ∧ Step.matches p (write p v n) ≠ [] := by
  obtain ⟨pre, r1, st, b, m, x, rfl, hh, hm, hpre, hx, hnt, hal, hrm⟩ := write_split hok hp hnm v hlast
  refine ⟨?_, by intro h; rw [h] at hx; simp at hx⟩
  obtain ⟨h1, h2, h3, h4⟩ := delete_split hok hp hal hx hnt
  rw [h1, hrm]
  have hdl : (pre ++ (r1 ++ [st])).dropLast = pre ++ r1 := by rw [← List.append_assoc, List.dropLast_concat]
  rw [hdl] at h2 h3 ⊢
  obtain ⟨hpa, hra⟩ := allChild_left h2
  have hprok := pathOk_left h3 hpa
  have hlastr : r1.getLast? ≠ some .text ∧ ∀ q, r1.getLast? ≠ some (.attr q) := by
    constructor
    · intro h
      obtain ⟨q, ps, h⟩ := allChild_iff.mp hra _ (List.mem_of_getLast? h)
      simp at h
    · intro q h
      obtain ⟨q, ps, h⟩ := allChild_iff.mp hra _ (List.mem_of_getLast? h)
      simp at h
  have hfin : voided (pathR false pre.reverse n) = (.ok (), n) := by
    by_cases hpn : pre = []
    · subst hpn; rfl
    · obtain ⟨pre', st', rfl⟩ : ∃ pre' st', pre = pre' ++ [st'] := ⟨pre.dropLast, pre.getLast hpn, (List.dropLast_concat_getLast hpn).symm⟩
      have hlo := hne pre'.length st' b m (by simp) (by
        rw [← hh]
        congr 2
        rw [show pre'.length + 1 = (pre' ++ [st']).length by simp, List.take_left']
        rfl) hm
      obtain ⟨ha1, ha2⟩ := allChild_left hpa
      have hok1 := pathOk_left hprok ha1
      rw [List.reverse_append, List.reverse_singleton, List.singleton_append]
      cases hb0 : (Step.matches pre' n).head? with
      | none => rw [pathR_none _ _ (by rw [List.reverse_reverse]; exact hb0)]; rfl
      | some z =>
        obtain ⟨b0, rfl⟩ := matches_allChild ha1 (List.mem_of_mem_head? hb0)
        obtain ⟨m0, hm0⟩ := get_of_match _ _ _ (List.mem_of_mem_head? hb0)
        rw [show (Ref.elem b0).addr = b0 from rfl] at hm0
        rw [pathR_hit _ _ (by rw [List.reverse_reverse]; exact hb0) hm0]
        simp only [Bool.false_eq_true, if_false]
        cases st' with
        | attr q => simp [allChild] at ha2
        | text => simp [allChild] at ha2
        | child q ps =>
          cases hhd : (Step.matches [.child q ps] m0).head? with
          | none => unfold removeOne; simp only [hhd, andThen]; rfl
          | some y =>
            obtain ⟨i, c, rfl, hci, hcq, hcs⟩ := match_child_one (List.mem_of_mem_head? hhd)
            have hb := head_append hok1 hb0 hm0 hhd
            rw [hh] at hb
            simp only [Option.some.injEq, Ref.under, Ref.elem.injEq] at hb
            subst hb
            have hg0 : m0.get [i] = some c := by simp [Node.get_cons, hci]
            have hgb : n.get (b0 ++ [i]) = some c := by rw [Node.get_append, hm0]; exact hg0
            rw [hm] at hgb
            simp only [Option.some.injEq] at hgb
            subst hgb
            cases ht : Step.test (.child q ps) m with
            | error e => exact (test_err (E := fun _ => False) (.inl (hst (.child q ps) (by simp))) m e ht).elim
            | ok t =>
              cases t with
              | true => exact absurd (test_leftover ht) hlo
              | false => unfold removeOne; simp only [hhd, Ref.addr, hg0, ht, andThen]; rfl
  by_cases hr : r1 = []
  · subst hr
    simp only [List.append_nil]
    rw [Node.modify_id hm rfl]
    exact hfin
  · have hrok : pathOk r1 = true := (pathOk_append h3 hr).2.2
    obtain ⟨m', hpeel, -, -, -, hmm⟩ := peel_build r1 id m hrok hlastr.1 (.inr ⟨hlastr.2, fun _ => ⟨rfl, rfl, rfl⟩⟩)
      (testsOk (fun q ps hmem => by
        have : ∀ (l : List Step), pathOk l = true → ∀ q ps, Step.child q ps ∈ l → okAll ps = true := by
          intro l
          induction l with
          | nil => intro _ q ps h; simp at h
          | cons s l ih =>
            intro hl q ps h
            cases s with
            | child q' ps' =>
              simp only [pathOk, Bool.and_eq_true] at hl
              simp only [List.mem_cons, Step.child.injEq] at h
              rcases h with ⟨rfl, rfl⟩ | h
              · exact hl.1.1
              · exact ih hl.2 q ps h
            | attr q' => simp only [pathOk, List.isEmpty_iff] at hl; subst hl; simp at h
            | text => simp only [pathOk, List.isEmpty_iff] at hl; subst hl; simp at h
        exact this r1 hrok q ps hmem) (fun st hmem => hu st (by simp [hmem])))
      (fun hne' => by
        have hn1 := hpre (r1.take 1) (List.take_prefix _ _) (by cases r1 <;> simp_all)
        by_contra hcon
        cases hhd : (Step.matches (r1.take 1) m).head? with
        | none => exact hcon (by simpa using hhd)
        | some y =>
          have := head_append hprok hh hm hhd
          rw [hn1] at this
          simp at this)
    have hmm := hmm hr
    subst hmm
    have := peel_under hprok hh hm hpeel (fun y hy => ⟨hy.tag, fun q ps hl hs => by
      obtain ⟨o1, o2⟩ := last_ok h3 hl
      rw [hy.sat o1 o2]
      exact hs⟩)
    rw [List.reverse_append]
    rw [Node.modify_congr (g := fun _ => buildPath r1 id m') hm rfl, this, Node.modify_id hm rfl]
    exact hfin

end Fields
