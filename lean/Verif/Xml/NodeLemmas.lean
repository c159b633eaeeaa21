import Verif.Xml.Node
import Mathlib.Tactic.SplitIfs
import Mathlib.Tactic.Tauto
/-
Facts about addresses, `modify` and attributes.
-/
namespace Xml.Node

@[simp] theorem tag_mk (t a x c l) : (Node.mk t a x c l).tag = t := rfl
@[simp] theorem attrs_mk (t a x c l) : (Node.mk t a x c l).attrs = a := rfl
@[simp] theorem text_mk (t a x c l) : (Node.mk t a x c l).text = x := rfl
@[simp] theorem children_mk (t a x c l) : (Node.mk t a x c l).children = c := rfl
@[simp] theorem tail_mk (t a x c l) : (Node.mk t a x c l).tail = l := rfl

theorem ext_iff' {n m : Node} : n = m ↔ n.tag = m.tag ∧ n.attrs = m.attrs ∧ n.text = m.text ∧
    n.children = m.children ∧ n.tail = m.tail := by
  cases n; cases m; simp

@[simp] theorem withChildren_tag (c n) : (withChildren c n).tag = n.tag := by cases n; rfl
@[simp] theorem withChildren_attrs (c n) : (withChildren c n).attrs = n.attrs := by cases n; rfl
@[simp] theorem withChildren_text (c n) : (withChildren c n).text = n.text := by cases n; rfl
@[simp] theorem withChildren_children (c n) : (withChildren c n).children = c := by cases n; rfl
@[simp] theorem withChildren_tail (c n) : (withChildren c n).tail = n.tail := by cases n; rfl
@[simp] theorem withChildren_withChildren (c c' n) : withChildren c (withChildren c' n) = withChildren c n := by
  cases n; rfl
@[simp] theorem withChildren_self (n : Node) : withChildren n.children n = n := by cases n; rfl

@[simp] theorem withAttrs_tag (c n) : (withAttrs c n).tag = n.tag := by cases n; rfl
@[simp] theorem withAttrs_attrs (c n) : (withAttrs c n).attrs = c := by cases n; rfl
@[simp] theorem withAttrs_text (c n) : (withAttrs c n).text = n.text := by cases n; rfl
@[simp] theorem withAttrs_children (c n) : (withAttrs c n).children = n.children := by cases n; rfl
@[simp] theorem withAttrs_tail (c n) : (withAttrs c n).tail = n.tail := by cases n; rfl
@[simp] theorem withAttrs_withAttrs (c c' n) : withAttrs c (withAttrs c' n) = withAttrs c n := by cases n; rfl
@[simp] theorem withAttrs_self (n : Node) : withAttrs n.attrs n = n := by cases n; rfl

@[simp] theorem setText_tag (v n) : (setText v n).tag = n.tag := by cases n; rfl
@[simp] theorem setText_attrs (v n) : (setText v n).attrs = n.attrs := by cases n; rfl
@[simp] theorem setText_text (v n) : (setText v n).text = v := by cases n; rfl
@[simp] theorem setText_children (v n) : (setText v n).children = n.children := by cases n; rfl
@[simp] theorem setText_tail (v n) : (setText v n).tail = n.tail := by cases n; rfl
@[simp] theorem setText_setText (v w n) : setText v (setText w n) = setText v n := by cases n; rfl

@[simp] theorem append_tag (c n) : (append c n).tag = n.tag := by simp [append]
@[simp] theorem append_attrs (c n) : (append c n).attrs = n.attrs := by simp [append]
@[simp] theorem append_text (c n) : (append c n).text = n.text := by simp [append]
@[simp] theorem append_children (c n) : (append c n).children = n.children ++ [c] := by simp [append]
@[simp] theorem append_tail (c n) : (append c n).tail = n.tail := by simp [append]

@[simp] theorem removeChild_tag (i n) : (removeChild i n).tag = n.tag := by simp [removeChild]
@[simp] theorem removeChild_attrs (i n) : (removeChild i n).attrs = n.attrs := by simp [removeChild]
@[simp] theorem removeChild_text (i n) : (removeChild i n).text = n.text := by simp [removeChild]
@[simp] theorem removeChild_children (i n) : (removeChild i n).children = n.children.eraseIdx i := by simp [removeChild]
@[simp] theorem removeChild_tail (i n) : (removeChild i n).tail = n.tail := by simp [removeChild]

@[simp] theorem setAttr_tag (q v n) : (setAttr q v n).tag = n.tag := by simp [setAttr]
@[simp] theorem setAttr_text (q v n) : (setAttr q v n).text = n.text := by simp [setAttr]
@[simp] theorem setAttr_children (q v n) : (setAttr q v n).children = n.children := by simp [setAttr]
@[simp] theorem setAttr_tail (q v n) : (setAttr q v n).tail = n.tail := by simp [setAttr]
@[simp] theorem setAttr_attrs (q v n) : (setAttr q v n).attrs = setAttrL q v n.attrs := by simp [setAttr]

@[simp] theorem delAttr_tag (q n) : (delAttr q n).tag = n.tag := by simp [delAttr]
@[simp] theorem delAttr_text (q n) : (delAttr q n).text = n.text := by simp [delAttr]
@[simp] theorem delAttr_children (q n) : (delAttr q n).children = n.children := by simp [delAttr]
@[simp] theorem delAttr_tail (q n) : (delAttr q n).tail = n.tail := by simp [delAttr]
@[simp] theorem delAttr_attrs (q n) : (delAttr q n).attrs = n.attrs.filter (fun p => p.1 != q) := by simp [delAttr]

@[simp] theorem empty_tag (q) : (empty q).tag = .elem q := rfl
@[simp] theorem empty_attrs (q) : (empty q).attrs = [] := rfl
@[simp] theorem empty_text (q) : (empty q).text = none := rfl
@[simp] theorem empty_children (q) : (empty q).children = [] := rfl
@[simp] theorem empty_tail (q) : (empty q).tail = none := rfl

theorem lookup_setAttrL (q v l q') : (setAttrL q v l).lookup q' = if q' = q then some v else l.lookup q' := by
  induction l with
  | nil => simp only [setAttrL, List.lookup_cons, List.lookup_nil]; by_cases h : q' = q <;> simp [h, beq_eq_false_iff_ne.mpr]
  | cons p l ih =>
    obtain ⟨a, b⟩ := p
    by_cases h : a = q
    · subst h
      by_cases h' : q' = a
      · subst h'; simp [setAttrL]
      · simp [setAttrL, List.lookup_cons, h', beq_eq_false_iff_ne.mpr h']
    · by_cases h' : q' = q
      · subst h'
        have : (q' == a) = false := beq_eq_false_iff_ne.mpr (Ne.symm h)
        simp [setAttrL, List.lookup_cons, h, ih, this]
      · simp only [setAttrL, h, if_false, List.lookup_cons, ih, h', if_false]

theorem attr?_setAttr (q v n q') : (setAttr q v n).attr? q' = if q' = q then some v else n.attr? q' := by
  simp [attr?, lookup_setAttrL]

theorem setAttrL_setAttrL (q v w l) : setAttrL q v (setAttrL q w l) = setAttrL q v l := by
  induction l with
  | nil => simp [setAttrL]
  | cons p l ih =>
    obtain ⟨a, b⟩ := p
    by_cases h : a = q
    · simp [setAttrL, h]
    · simp [setAttrL, h, ih]

@[simp] theorem setAttr_setAttr (q v w n) : setAttr q v (setAttr q w n) = setAttr q v n := by
  cases n; simp [setAttr, withAttrs, setAttrL_setAttrL]

theorem lookup_filter_ne (q q' : QName) (l : List (QName × Str)) :
    (l.filter (fun p => p.1 != q)).lookup q' = if q' = q then none else l.lookup q' := by
  induction l with
  | nil => simp
  | cons p l ih =>
    obtain ⟨a, b⟩ := p
    by_cases h : a = q
    · subst h
      by_cases h' : q' = a
      · simpa [h'] using ih
      · have : (q' == a) = false := beq_eq_false_iff_ne.mpr h'
        simpa [List.lookup_cons, this, h'] using ih
    · have h1 : (a != q) = true := by simpa using h
      by_cases h' : q' = a
      · subst h'
        simp [h, h1]
      · have : (q' == a) = false := beq_eq_false_iff_ne.mpr h'
        simp [List.lookup_cons, this, h1, ih]

theorem attr?_delAttr (q n q') : (delAttr q n).attr? q' = if q' = q then none else n.attr? q' := by
  simp only [attr?, delAttr_attrs]
  exact lookup_filter_ne q q' n.attrs

/-! ### addresses -/

@[simp] theorem get_nil (n : Node) : get [] n = some n := rfl
theorem get_cons (i a) (n : Node) : get (i :: a) n = n.children[i]?.bind (get a) := by
  rw [get]; cases n.children[i]? <;> rfl

theorem get_append (a b) (n : Node) : get (a ++ b) n = (get a n).bind (get b) := by
  induction a generalizing n with
  | nil => simp
  | cons i a ih =>
    simp only [List.cons_append, get_cons]
    cases n.children[i]? <;> simp [ih]

theorem modify_cons (i a f) (n : Node) : modify (i :: a) f n = n.withChildren (n.children.modify i (modify a f)) := rfl
@[simp] theorem modify_nil (f) (n : Node) : modify [] f n = f n := rfl

theorem modify_append (a b f) (n : Node) : modify (a ++ b) f n = modify a (modify b f) n := by
  induction a generalizing n with
  | nil => rfl
  | cons i a ih =>
    simp only [List.cons_append, modify_cons]
    congr 2
    funext c
    exact ih c

theorem modify_modify (a f g) (n : Node) : modify a f (modify a g n) = modify a (f ∘ g) n := by
  induction a generalizing n with
  | nil => rfl
  | cons i a ih =>
    simp only [modify_cons, withChildren_children, withChildren_withChildren, List.modify_modify_eq]
    congr 2
    funext c
    exact ih c

theorem modify_tag_of_ne_nil {a : Addr} (h : a ≠ []) (f) (n : Node) : (modify a f n).tag = n.tag := by
  cases a with
  | nil => exact absurd rfl h
  | cons => simp [modify_cons]

theorem modify_tag {a : Addr} {f} (h : ∀ m, (f m).tag = m.tag) (n : Node) : (modify a f n).tag = n.tag := by
  cases a with
  | nil => exact h n
  | cons => simp [modify_cons]

theorem get_modify (a f) (n : Node) : get a (modify a f n) = (get a n).map f := by
  induction a generalizing n with
  | nil => rfl
  | cons i a ih =>
    simp only [get_cons, modify_cons, withChildren_children, List.getElem?_modify_eq]
    cases n.children[i]? <;> simp [ih]

/-- Nothing outside the modified subtree changes. -/
theorem get_modify_other {a b : Addr} (f) (n : Node) (h : ¬ a <+: b) (h' : ¬ b <+: a) :
    get b (modify a f n) = get b n := by
  induction a generalizing n b with
  | nil => exact absurd (List.nil_prefix) h
  | cons i a ih =>
    cases b with
    | nil => exact absurd (List.nil_prefix) h'
    | cons j b =>
      simp only [get_cons, modify_cons, withChildren_children]
      by_cases hij : i = j
      · subst hij
        simp only [List.getElem?_modify_eq]
        cases n.children[i]? with
        | none => rfl
        | some c =>
          simp only [List.prefix_cons_inj] at h h'
          simpa using ih c h h'
      · rw [List.getElem?_modify_ne _ _ hij]

theorem modify_congr {a : Addr} {f g : Node → Node} {n m : Node} (hm : get a n = some m) (h : f m = g m) :
    modify a f n = modify a g n := by
  induction a generalizing n with
  | nil => simp only [get_nil, Option.some.injEq] at hm; subst hm; exact h
  | cons i a ih =>
    simp only [get_cons] at hm
    simp only [modify_cons]
    congr 1
    apply List.ext_getElem?
    intro j
    by_cases hij : i = j
    · subst hij
      rw [List.getElem?_modify_eq, List.getElem?_modify_eq]
      cases hc : n.children[i]? with
      | none => rfl
      | some c =>
        simp only [hc, Option.bind_some] at hm
        simp [ih hm]
    · rw [List.getElem?_modify_ne _ _ hij, List.getElem?_modify_ne _ _ hij]

theorem modify_id {a : Addr} {f : Node → Node} {n m : Node} (hm : get a n = some m) (h : f m = m) : modify a f n = n := by
  rw [modify_congr hm (g := id) (by simpa using h)]
  clear hm h
  induction a generalizing n with
  | nil => rfl
  | cons i a ih =>
    simp only [modify_cons]
    have : modify a id = id := by funext c; exact ih
    rw [this]
    simp

end Xml.Node
