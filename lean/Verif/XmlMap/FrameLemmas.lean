import Verif.XmlMap.ReadLemmas
import Verif.Spec.Frame
/-
Frame conditions of setting a field.
-/
namespace Fields
open Xml XPath Spec

set_option linter.unusedSectionVars false

theorem _root_.Spec.Extends.refl (s : Node) : Extends none s s := fun _ m h => ⟨m, h, rfl, rfl, le_refl _, fun _ => ⟨rfl, rfl⟩⟩

theorem _root_.Spec.Extends.weaken {s s' : Node} (h : Extends none s s') (c0) : Extends c0 s s' := fun c m hm => by
  obtain ⟨m', h1, h2, h3, h4, h5⟩ := h c m hm
  exact ⟨m', h1, h2, h3, h4, fun _ => h5 (by simp)⟩

/-- The address of an element or its descendants, relative to an edited one. -/
theorem get_modify_cases (a c : Node.Addr) (f : Node → Node) (s m : Node) (h : s.get c = some m) :
    (¬ a <+: c ∧ ∃ m', (s.modify a f).get c = some m' ∧ m'.tag = m.tag ∧ m'.tail = m.tail ∧ m'.text = m.text ∧ m'.attrs = m.attrs ∧
      m'.children.length = m.children.length) ∨
    (∃ c' n, c = a ++ c' ∧ s.get a = some n ∧ n.get c' = some m ∧ (s.modify a f).get c = (f n).get c') := by
  by_cases hac : a <+: c
  · obtain ⟨c', rfl⟩ := hac
    rw [Node.get_append] at h
    cases hn : s.get a with
    | none => rw [hn] at h; simp at h
    | some n =>
      rw [hn] at h
      refine .inr ⟨c', n, rfl, rfl, h, ?_⟩
      rw [Node.get_append, Node.get_modify, hn]; rfl
  · left
    refine ⟨hac, ?_⟩
    by_cases hca : c <+: a
    · obtain ⟨r, rfl⟩ := hca
      cases r with
      | nil => simp at hac
      | cons i r =>
        refine ⟨m.modify (i :: r) f, ?_, ?_⟩
        · rw [Node.modify_append, Node.get_modify, h]; rfl
        · simp [Node.modify_cons]
    · exact ⟨m, by rw [Node.get_modify_other f s hac hca]; exact h, rfl, rfl, rfl, rfl, rfl⟩

/-- An edit of one element's text or attributes. -/
theorem _root_.Spec.Extends.edit {c0 : Option Node.Addr} {s s' : Node} (h : Extends c0 s s') {a : Node.Addr} (hc : c0 = none ∨ c0 = some a)
    {f : Node → Node} (ht : ∀ m, (f m).tag = m.tag) (hl : ∀ m, (f m).tail = m.tail) (hch : ∀ m, (f m).children = m.children) :
    Extends (some a) s (s'.modify a f) := by
  intro c m hm
  obtain ⟨m', h1, h2, h3, h4, h5⟩ := h c m hm
  rcases get_modify_cases a c f s' m' h1 with ⟨hac, m'', k1, k2, k3, k4, k5, k6⟩ | ⟨c', n, rfl, hn, hn', hg⟩
  · refine ⟨m'', k1, k2.trans h2, k3.trans h3, by omega, fun hne => ?_⟩
    have : c0 ≠ some c := by rcases hc with rfl | rfl; simp; simpa using hne
    exact ⟨k4.trans (h5 this).1, k5.trans (h5 this).2⟩
  · cases c' with
    | nil =>
      simp only [Node.get_nil, Option.some.injEq] at hn'
      subst hn'
      refine ⟨f n, by rw [hg]; rfl, (ht n).trans h2, (hl n).trans h3, by rw [hch]; exact h4, fun hne => ?_⟩
      simp at hne
    | cons i r =>
      refine ⟨m', ?_, h2, h3, h4, fun _ => h5 ?_⟩
      · rw [hg, Node.get_cons, hch, ← Node.get_cons]; exact hn'
      · rcases hc with rfl | rfl <;> simp

/-- An edit of an element that was not there. -/
theorem _root_.Spec.Extends.editNew {s s' : Node} (h : Extends none s s') {a : Node.Addr} (ha : s.get a = none) (f : Node → Node) :
    Extends none s (s'.modify a f) := by
  intro c m hm
  obtain ⟨m', h1, h2, h3, h4, h5⟩ := h c m hm
  rcases get_modify_cases a c f s' m' h1 with ⟨hac, m'', k1, k2, k3, k4, k5, k6⟩ | ⟨c', n, rfl, hn, hn', hg⟩
  · obtain ⟨h6, h7⟩ := h5 (by simp)
    exact ⟨m'', k1, k2.trans h2, k3.trans h3, by omega, fun _ => ⟨k4.trans h6, k5.trans h7⟩⟩
  · rw [Node.get_append, ha] at hm; simp at hm

/-- A new last child. -/
theorem _root_.Spec.Extends.append {s s' : Node} (h : Extends none s s') (a : Node.Addr) (k : Node) :
    Extends none s (s'.modify a (Node.append k)) := by
  intro c m hm
  obtain ⟨m', h1, h2, h3, h4, h5⟩ := h c m hm
  obtain ⟨h6, h7⟩ := h5 (by simp)
  rcases get_modify_cases a c (Node.append k) s' m' h1 with ⟨hac, m'', k1, k2, k3, k4, k5, k6⟩ | ⟨c', n, rfl, hn, hn', hg⟩
  · exact ⟨m'', k1, k2.trans h2, k3.trans h3, by omega, fun _ => ⟨k4.trans h6, k5.trans h7⟩⟩
  · cases c' with
    | nil =>
      simp only [Node.get_nil, Option.some.injEq] at hn'
      subst hn'
      exact ⟨Node.append k n, by rw [hg]; rfl, by simpa using h2, by simpa using h3, by simp; omega, fun _ => by simp [h6, h7]⟩
    | cons i r =>
      refine ⟨m', ?_, h2, h3, h4, h5⟩
      rw [hg, Node.get_cons, Node.append_children]
      rw [Node.get_cons] at hn'
      cases hi : n.children[i]? with
      | none => rw [hi] at hn'; simp at hn'
      | some d =>
        rw [List.getElem?_append_left (by simpa using (List.getElem?_eq_some_iff.mp hi).1), hi]
        rw [hi] at hn'; exact hn'

/-- The address of a new last child was not there. -/
theorem _root_.Spec.Extends.fresh {s s' : Node} (h : Extends none s s') {a : Node.Addr} {n} (hn : s'.get a = some n) :
    s.get (a ++ [n.children.length]) = none := by
  rw [Node.get_append]
  cases hm : s.get a with
  | none => rfl
  | some m =>
    obtain ⟨m', h1, -, -, h4, -⟩ := h a m hm
    rw [hn] at h1
    simp only [Option.some.injEq] at h1
    subst h1
    simp only [Option.bind_some, Node.get_cons]
    rw [List.getElem?_eq_none (by omega)]
    rfl

section
variable [PyUnicode] {eng : Engine} {ctx : Ctx}

/-- `m` run in `s` keeps everything of `s0`, and a successful result satisfies `P`. -/
def Run {α} (s0 : Node) (c0 : Option Node.Addr) (P : α → Prop) (r : Except PyErr α × Node) : Prop :=
  Extends c0 s0 r.2 ∧ ∀ x, r.1 = .ok x → P x

theorem Run.bind {α β} {s0 : Node} {c0} {m : M α} {f : α → M β} {s} {P : α → Prop} {Q : β → Prop}
    (h : Run s0 c0 P (m s)) (hf : ∀ x s', P x → Extends c0 s0 s' → Run s0 c0 Q (f x s')) :
    Run s0 c0 Q ((m >>= f) s) := by
  rcases hm : m s with ⟨_ | x, s'⟩
  · rw [bind_err hm]
    rw [hm] at h
    exact ⟨h.1, by simp⟩
  · rw [bind_ok hm]
    rw [hm] at h
    exact hf x s' (h.2 x rfl) h.1

theorem Run.pure {α} {s0 s : Node} {P : α → Prop} {x : α} {c0} (h : Extends c0 s0 s) (hx : P x) : Run s0 c0 P ((Pure.pure x : M α) s) :=
  ⟨h, by rintro y hy; cases hy; exact hx⟩

theorem Run.raise {α} {s0 s : Node} {P : α → Prop} {e} {c0} (h : Extends c0 s0 s) : Run s0 c0 P ((Fields.raise e : M α) s) :=
  ⟨h, by rintro y hy; cases hy⟩

theorem Run.ofExcept {α} {s0 s : Node} {c0} {e : Except PyErr α} (h : Extends c0 s0 s) : Run s0 c0 (fun _ => True) (Fields.ofExcept e s) := by
  cases e with
  | ok => exact Run.pure h trivial
  | error => exact Run.raise h

/-- A reference to something that is not in `s0`. -/
def Fresh (s0 : Node) (r : Ref) : Prop := s0.get r.addr = none

theorem createChild_frame {s0 s : Node} (h : Extends none s0 s) (node : Ref) (pfx nm) :
    Run s0 none (fun r => Fresh s0 r ∧ ∃ a, r = .elem a) (createChild ctx node pfx nm none s) := by
  have hraise : ∀ e, Run s0 none (fun r => Fresh s0 r ∧ ∃ a, r = .elem a) ((raise e : M Ref) s) := fun e => Run.raise h
  cases hq : childName ctx pfx nm with
  | error e => simp only [createChild, hq]; exact hraise e
  | ok q =>
    by_cases hstar : nm = c%"*"
    · simp only [createChild, hq, if_pos hstar]; exact hraise _
    · cases node with
      | elem a =>
        simp only [createChild, hq, if_neg hstar]
        cases hn : s.get a with
        | none =>
          have : nodeAt a s = (.error .attributeError, s) := by simp [nodeAt, hn]
          rw [bind_err this]
          exact hraise _
        | some n =>
          rw [bind_ok (nodeAt_run hn)]
          show Run s0 none _ (.ok (Ref.elem (a ++ [n.children.length])), s.modify a (Node.append (Node.empty q)))
          refine ⟨h.append a _, ?_⟩
          rintro x hx
          cases hx
          exact ⟨h.fresh hn, _, rfl⟩
      | attr => simp only [createChild, hq, if_neg hstar]; exact hraise _
      | text => simp only [createChild, hq, if_neg hstar]; exact hraise _
      | tail => simp only [createChild, hq, if_neg hstar]; exact hraise _

theorem setAttrib_new {s0 s : Node} (h : Extends none s0 s) {a} (ha : s0.get a = none) (q v) :
    Run s0 none (fun _ => True) (setAttrib a q v s) := by
  unfold setAttrib
  split
  · exact Run.raise h
  · split_ifs
    · exact Run.raise h
    · exact Run.raise h
    · exact ⟨h.editNew ha _, fun _ _ => trivial⟩

theorem createAttr_new {s0 s : Node} (h : Extends none s0 s) {node : Ref} (hf : Fresh s0 node) (pfx nm) :
    Run s0 none (Fresh s0) (createAttr ctx node pfx nm s) := by
  unfold createAttr
  split
  · rename_i a
    refine Run.bind (setAttrib_new h hf _ _) ?_
    intro _ s' _ h'
    split_ifs
    · exact Run.pure h' hf
    · exact Run.raise h'
  · exact Run.raise h

theorem setElemText_new {s0 s : Node} (h : Extends none s0 s) {a} (ha : s0.get a = none) (v) :
    Run s0 none (fun _ => True) (setElemText a v s) := by
  unfold setElemText
  split_ifs
  · exact Run.raise h
  · exact ⟨h.editNew ha _, fun _ _ => trivial⟩

theorem setInXml_new' {s0 s : Node} (h : Extends none s0 s) {r : Ref} (hf : Fresh s0 r) (v st) :
    Run s0 none (fun _ => True) (setInXml ctx (.ref r) v st s) := by
  cases r with
  | elem a =>
    simp only [setInXml]
    cases hn : s.get a with
    | none =>
      have : nodeAt a s = (.error .attributeError, s) := by simp [nodeAt, hn]
      rw [bind_err this]
      exact Run.raise h
    | some n =>
      rw [bind_ok (nodeAt_run hn)]
      split_ifs
      · exact setElemText_new h hf v
      · exact Run.raise h
  | attr a q | text a | tail a =>
    simp only [setInXml]
    split_ifs
    · exact setElemText_new h hf v
    · split
      · exact setAttrib_new h hf _ _
      · exact Run.raise h

/-- The `Step` branch on a new node. -/
theorem createStep_new {s0 s : Node} (h : Extends none s0 s) {node : Ref} (hf : Fresh s0 node) (ax t ps) (build : Ref → M Unit)
    (hb : ∀ r s, Extends none s0 s → Fresh s0 r → Run s0 none (fun _ => True) (build r s)) :
    Run s0 none (Fresh s0) (createStep ctx ax t ps build node none s) := by
  unfold createStep
  split
  · split_ifs
    · exact Run.raise h
    · refine Run.bind (P := Fresh s0) ?_ ?_
      · exact ⟨(createChild_frame h _ _ _).1, fun x hx => ((createChild_frame h _ _ _).2 x hx).1⟩
      · intro r s' hr h'
        refine Run.bind (hb r s' h' hr) ?_
        intro _ s'' _ h''
        exact Run.pure h'' hr
    · refine Run.bind (P := Fresh s0) (createAttr_new h hf _ _) ?_
      intro r s' hr h'
      refine Run.bind (hb r s' h' hr) ?_
      intro _ s'' _ h''
      exact Run.pure h'' hr
    · refine Run.bind (P := Fresh s0) (Run.raise h) ?_
      intro r s' hr h'
      refine Run.bind (hb r s' h' hr) ?_
      intro _ s'' _ h''
      exact Run.pure h'' hr
  · split_ifs
    · exact Run.pure h hf
    · exact Run.raise h

theorem constructOnNone_frame {s0 : Node} {c0} : ∀ (e : Expr) (s : Node), Extends c0 s0 s →
    Run s0 c0 (fun r => r = none) (constructOnNone ctx e s)
  | .step ax (.name p n) ps, s, h => by simp only [constructOnNone]; exact Run.raise h
  | .step ax (.type n l) ps, s, h => by
    simp only [constructOnNone]
    split_ifs
    · exact Run.pure h rfl
    · exact Run.raise h
  | .binary l .slash r, s, h => by
    simp only [constructOnNone]
    exact Run.bind (constructOnNone_frame l s h) (fun _ s' _ h' => constructOnNone_frame r s' h')
  | .binary l .eq r, s, h => by
    simp only [constructOnNone]
    refine Run.bind (constructOnNone_frame l s h) (fun _ s' _ h' => ?_)
    exact Run.bind (Run.ofExcept h') (fun _ s'' _ h'' => Run.pure h'' rfl)
  | .binary l .or r, s, h => by simp only [constructOnNone]; exact Run.pure h rfl
  | .binary l .and r, s, h => by simp only [constructOnNone]; exact Run.pure h rfl
  | .binary l .ne r, s, h => by simp only [constructOnNone]; exact Run.pure h rfl
  | .binary l .lt r, s, h => by simp only [constructOnNone]; exact Run.pure h rfl
  | .binary l .le r, s, h => by simp only [constructOnNone]; exact Run.pure h rfl
  | .binary l .gt r, s, h => by simp only [constructOnNone]; exact Run.pure h rfl
  | .binary l .ge r, s, h => by simp only [constructOnNone]; exact Run.pure h rfl
  | .binary l .plus r, s, h => by simp only [constructOnNone]; exact Run.pure h rfl
  | .binary l .minus r, s, h => by simp only [constructOnNone]; exact Run.pure h rfl
  | .binary l .mult r, s, h => by simp only [constructOnNone]; exact Run.pure h rfl
  | .binary l .div r, s, h => by simp only [constructOnNone]; exact Run.pure h rfl
  | .binary l .mod r, s, h => by simp only [constructOnNone]; exact Run.pure h rfl
  | .binary l .union r, s, h => by simp only [constructOnNone]; exact Run.pure h rfl
  | .binary l .dslash r, s, h => by simp only [constructOnNone]; exact Run.pure h rfl
  | .lit _, s, h => by simp only [constructOnNone]; exact Run.pure h rfl
  | .int _, s, h => by simp only [constructOnNone]; exact Run.pure h rfl
  | .float _, s, h => by simp only [constructOnNone]; exact Run.pure h rfl
  | .neg _, s, h => by simp only [constructOnNone]; exact Run.pure h rfl
  | .pred _ _, s, h => by simp only [constructOnNone]; exact Run.pure h rfl
  | .root, s, h => by simp only [constructOnNone]; exact Run.pure h rfl
  | .abs _ _, s, h => by simp only [constructOnNone]; exact Run.pure h rfl
  | .abbrev _, s, h => by simp only [constructOnNone]; exact Run.pure h rfl
  | .var _ _, s, h => by simp only [constructOnNone]; exact Run.pure h rfl
  | .call _ _ _, s, h => by simp only [constructOnNone]; exact Run.pure h rfl

mutual
theorem construct_frame {s0 : Node} : ∀ (e : Expr) (node : Ref) (s : Node), Extends none s0 s → Fresh s0 node →
    Run s0 none (fun r => ∀ x, r = some x → Fresh s0 x) (construct ctx e node s)
  | .step ax t ps, node, s, h, hf => by
    rw [construct]
    refine Run.bind (createStep_new h hf ax t ps _ (fun r s h hr => constructAll_frame ps r s h hr)) ?_
    intro r s' hr h'
    exact Run.pure h' (by rintro x hx; cases hx; exact hr)
  | .binary l .slash r, node, s, h, hf => by
    rw [construct]
    refine Run.bind (construct_frame l node s h hf) (fun o s' ho h' => ?_)
    cases o with
    | none =>
      have := constructOnNone_frame (ctx := ctx) r s' h'
      exact ⟨this.1, fun x hx y hy => by rw [this.2 x hx] at hy; cases hy⟩
    | some leaf => exact construct_frame r leaf s' h' (ho leaf rfl)
  | .binary l .eq r, node, s, h, hf => by
    rw [construct]
    refine Run.bind (construct_frame l node s h hf) (fun o s' ho h' => ?_)
    cases o with
    | none =>
      exact Run.bind (Run.ofExcept h') (fun _ s'' _ h'' => Run.pure h'' (by simp))
    | some leaf =>
      refine Run.bind (Run.ofExcept h') (fun v s'' _ h'' => ?_)
      refine Run.bind (setInXml_new' h'' (ho leaf rfl) _ _) (fun _ s3 _ h3 => ?_)
      exact Run.pure h3 (by rintro x hx; cases hx; exact ho leaf rfl)
  | .binary l .or r, _, s, h, _ => by rw [construct]; exact Run.pure h (by simp); all_goals simp
  | .binary l .and r, _, s, h, _ => by rw [construct]; exact Run.pure h (by simp); all_goals simp
  | .binary l .ne r, _, s, h, _ => by rw [construct]; exact Run.pure h (by simp); all_goals simp
  | .binary l .lt r, _, s, h, _ => by rw [construct]; exact Run.pure h (by simp); all_goals simp
  | .binary l .le r, _, s, h, _ => by rw [construct]; exact Run.pure h (by simp); all_goals simp
  | .binary l .gt r, _, s, h, _ => by rw [construct]; exact Run.pure h (by simp); all_goals simp
  | .binary l .ge r, _, s, h, _ => by rw [construct]; exact Run.pure h (by simp); all_goals simp
  | .binary l .plus r, _, s, h, _ => by rw [construct]; exact Run.pure h (by simp); all_goals simp
  | .binary l .minus r, _, s, h, _ => by rw [construct]; exact Run.pure h (by simp); all_goals simp
  | .binary l .mult r, _, s, h, _ => by rw [construct]; exact Run.pure h (by simp); all_goals simp
  | .binary l .div r, _, s, h, _ => by rw [construct]; exact Run.pure h (by simp); all_goals simp
  | .binary l .mod r, _, s, h, _ => by rw [construct]; exact Run.pure h (by simp); all_goals simp
  | .binary l .union r, _, s, h, _ => by rw [construct]; exact Run.pure h (by simp); all_goals simp
  | .binary l .dslash r, _, s, h, _ => by rw [construct]; exact Run.pure h (by simp); all_goals simp
  | .lit _, _, s, h, _ => by rw [construct]; exact Run.pure h (by simp); all_goals simp
  | .int _, _, s, h, _ => by rw [construct]; exact Run.pure h (by simp); all_goals simp
  | .float _, _, s, h, _ => by rw [construct]; exact Run.pure h (by simp); all_goals simp
  | .neg _, _, s, h, _ => by rw [construct]; exact Run.pure h (by simp); all_goals simp
  | .pred _ _, _, s, h, _ => by rw [construct]; exact Run.pure h (by simp); all_goals simp
  | .root, _, s, h, _ => by rw [construct]; exact Run.pure h (by simp); all_goals simp
  | .abs _ _, _, s, h, _ => by rw [construct]; exact Run.pure h (by simp); all_goals simp
  | .abbrev _, _, s, h, _ => by rw [construct]; exact Run.pure h (by simp); all_goals simp
  | .var _ _, _, s, h, _ => by rw [construct]; exact Run.pure h (by simp); all_goals simp
  | .call _ _ _, _, s, h, _ => by rw [construct]; exact Run.pure h (by simp); all_goals simp
theorem constructAll_frame {s0 : Node} : ∀ (es : List Expr) (node : Ref) (s : Node), Extends none s0 s → Fresh s0 node →
    Run s0 none (fun _ => True) (constructAll ctx es node s)
  | [], node, s, h, _ => by rw [constructAll]; exact Run.pure h trivial
  | e :: es, node, s, h, hf => by
    rw [constructAll]
    exact Run.bind (construct_frame e node s h hf) (fun _ s' _ h' => constructAll_frame es node s' h' hf)
end

/-! ### an attribute, or text, of an existing element -/

/-- Not an element. -/
def NonElem (r : Ref) : Prop := ∀ a, r ≠ .elem a

theorem setElemText_at {s0 s : Node} {c0} {a} (h : Extends c0 s0 s) (hc : c0 = none ∨ c0 = some a) (v) :
    Run s0 (some a) (fun _ => True) (setElemText a v s) := by
  unfold setElemText
  split_ifs
  · refine Run.raise ?_
    rcases hc with rfl | rfl
    · exact h.weaken _
    · exact h
  · exact ⟨h.edit hc (by simp) (by simp) (by simp), fun _ _ => trivial⟩

theorem Extends.lift {s0 s : Node} {c0} {a : Node.Addr} (h : Extends c0 s0 s) (hc : c0 = none ∨ c0 = some a) : Extends (some a) s0 s := by
  rcases hc with rfl | rfl
  · exact h.weaken _
  · exact h

theorem setAttrib_at {s0 s : Node} {c0} {a} (h : Extends c0 s0 s) (hc : c0 = none ∨ c0 = some a) (q v) :
    Run s0 (some a) (fun _ => True) (setAttrib a q v s) := by
  have h' := Extends.lift h hc
  unfold setAttrib
  split
  · exact Run.raise h'
  · split_ifs
    · exact Run.raise h'
    · exact Run.raise h'
    · exact ⟨h.edit hc (by simp) (by simp) (by simp), fun _ _ => trivial⟩

theorem setInXml_at {s0 s : Node} {c0} (h : Extends c0 s0 s) {r : Ref} (hc : c0 = none ∨ c0 = some r.addr) (v st) :
    Run s0 (some r.addr) (fun _ => True) (setInXml ctx (.ref r) v st s) := by
  have h' := Extends.lift h hc
  cases r with
  | elem a =>
    simp only [setInXml]
    cases hn : s.get a with
    | none =>
      have : nodeAt a s = (.error .attributeError, s) := by simp [nodeAt, hn]
      rw [bind_err this]
      exact Run.raise h'
    | some n =>
      rw [bind_ok (nodeAt_run hn)]
      split_ifs
      · exact setElemText_at h hc v
      · exact Run.raise h'
  | attr a q | text a | tail a =>
    simp only [setInXml]
    split_ifs
    · exact setElemText_at h hc v
    · split
      · exact setAttrib_at h hc _ _
      · exact Run.raise h'

theorem createStep_non {s0 s : Node} {node : Ref} (hne : NonElem node) {c0} (h : Extends c0 s0 s)
    (ax t ps) (build : Ref → M Unit) (idx) :
    Run s0 c0 (fun r => r = node) (createStep ctx ax t ps build node idx s) := by
  have hcc : ∀ pfx nm, ∃ e, createChild ctx node pfx nm idx s = (.error e, s) := by
    intro pfx nm
    unfold createChild
    cases childName ctx pfx nm with
    | error e => exact ⟨e, rfl⟩
    | ok q =>
      by_cases hstar : nm = c%"*"
      · simp only [if_pos hstar]; exact ⟨_, rfl⟩
      · simp only [if_neg hstar]
        cases node with
        | elem a => exact absurd rfl (hne a)
        | attr | text | tail => exact ⟨_, rfl⟩
  have hca : ∀ pfx nm, ∃ e, createAttr ctx node pfx nm s = (.error e, s) := by
    intro pfx nm
    unfold createAttr
    cases node with
    | elem a => exact absurd rfl (hne a)
    | attr | text | tail => exact ⟨_, rfl⟩
  cases t with
  | name pfx nm =>
    unfold createStep
    simp only
    split_ifs
    · exact Run.raise h
    · obtain ⟨e, he⟩ := hcc pfx nm
      rw [bind_err he]
      exact Run.raise h
    · obtain ⟨e, he⟩ := hca pfx nm
      rw [bind_err he]
      exact Run.raise h
    · rw [bind_err (raise_run _ _)]
      exact Run.raise h
  | type nm l =>
    unfold createStep
    simp only
    split_ifs
    · exact Run.pure h rfl
    · exact Run.raise h

mutual
theorem construct_non {s0 : Node} {node : Ref} (hne : NonElem node) : ∀ (e : Expr) (s : Node), Extends (some node.addr) s0 s →
    Run s0 (some node.addr) (fun r => ∀ x, r = some x → x = node) (construct ctx e node s)
  | .step ax t ps, s, h => by
    rw [construct]
    refine Run.bind (createStep_non hne h ax t ps _ none) ?_
    intro r s' hr h'
    exact Run.pure h' (by rintro x hx; cases hx; exact hr)
  | .binary l .slash r, s, h => by
    rw [construct]
    refine Run.bind (construct_non hne l s h) (fun o s' ho h' => ?_)
    cases o with
    | none =>
      have := constructOnNone_frame (ctx := ctx) r s' h'
      exact ⟨this.1, fun x hx y hy => by rw [this.2 x hx] at hy; cases hy⟩
    | some leaf => rw [ho leaf rfl]; exact construct_non hne r s' h'
  | .binary l .eq r, s, h => by
    rw [construct]
    refine Run.bind (construct_non hne l s h) (fun o s' ho h' => ?_)
    cases o with
    | none =>
      exact Run.bind (Run.ofExcept h') (fun _ s'' _ h'' => Run.pure h'' (by simp))
    | some leaf =>
      rw [ho leaf rfl]
      refine Run.bind (Run.ofExcept h') (fun v s'' _ h'' => ?_)
      refine Run.bind (setInXml_at h'' (.inr rfl) _ _) (fun _ s3 _ h3 => ?_)
      exact Run.pure h3 (by rintro x hx; cases hx; rfl)
  | .binary l .or r, s, h => by rw [construct]; exact Run.pure h (by simp); all_goals simp
  | .binary l .and r, s, h => by rw [construct]; exact Run.pure h (by simp); all_goals simp
  | .binary l .ne r, s, h => by rw [construct]; exact Run.pure h (by simp); all_goals simp
  | .binary l .lt r, s, h => by rw [construct]; exact Run.pure h (by simp); all_goals simp
  | .binary l .le r, s, h => by rw [construct]; exact Run.pure h (by simp); all_goals simp
  | .binary l .gt r, s, h => by rw [construct]; exact Run.pure h (by simp); all_goals simp
  | .binary l .ge r, s, h => by rw [construct]; exact Run.pure h (by simp); all_goals simp
  | .binary l .plus r, s, h => by rw [construct]; exact Run.pure h (by simp); all_goals simp
  | .binary l .minus r, s, h => by rw [construct]; exact Run.pure h (by simp); all_goals simp
  | .binary l .mult r, s, h => by rw [construct]; exact Run.pure h (by simp); all_goals simp
  | .binary l .div r, s, h => by rw [construct]; exact Run.pure h (by simp); all_goals simp
  | .binary l .mod r, s, h => by rw [construct]; exact Run.pure h (by simp); all_goals simp
  | .binary l .union r, s, h => by rw [construct]; exact Run.pure h (by simp); all_goals simp
  | .binary l .dslash r, s, h => by rw [construct]; exact Run.pure h (by simp); all_goals simp
  | .lit _, s, h => by rw [construct]; exact Run.pure h (by simp); all_goals simp
  | .int _, s, h => by rw [construct]; exact Run.pure h (by simp); all_goals simp
  | .float _, s, h => by rw [construct]; exact Run.pure h (by simp); all_goals simp
  | .neg _, s, h => by rw [construct]; exact Run.pure h (by simp); all_goals simp
  | .pred _ _, s, h => by rw [construct]; exact Run.pure h (by simp); all_goals simp
  | .root, s, h => by rw [construct]; exact Run.pure h (by simp); all_goals simp
  | .abs _ _, s, h => by rw [construct]; exact Run.pure h (by simp); all_goals simp
  | .abbrev _, s, h => by rw [construct]; exact Run.pure h (by simp); all_goals simp
  | .var _ _, s, h => by rw [construct]; exact Run.pure h (by simp); all_goals simp
  | .call _ _ _, s, h => by rw [construct]; exact Run.pure h (by simp); all_goals simp
theorem constructAll_non {s0 : Node} {node : Ref} (hne : NonElem node) : ∀ (es : List Expr) (s : Node), Extends (some node.addr) s0 s →
    Run s0 (some node.addr) (fun _ => True) (constructAll ctx es node s)
  | [], s, h => by rw [constructAll]; exact Run.pure h trivial
  | e :: es, s, h => by
    rw [constructAll]
    exact Run.bind (construct_non hne e s h) (fun _ s' _ h' => constructAll_non hne es s' h')
end

/-! ### creating the path -/

/-- What creating nodes leaves behind: at most one existing element is touched, and it is the one whose attribute is
returned. -/
def Made (s0 : Node) (r : Except PyErr Ref × Node) : Prop :=
  ∃ c0, Extends c0 s0 r.2 ∧ ∀ x, r.1 = .ok x → c0 = none ∨ (c0 = some x.addr ∧ NonElem x)

theorem Made.of_none {s0 : Node} {r : Except PyErr Ref × Node} (h : Extends none s0 r.2) : Made s0 r :=
  ⟨none, h, fun _ _ => .inl rfl⟩

theorem Made.err {s0 s : Node} {c0} (h : Extends c0 s0 s) (e) : Made s0 ((raise e : M Ref) s) :=
  ⟨c0, h, by rintro x hx; cases hx⟩

theorem createStep_made {s0 s : Node} (h : Extends none s0 s) (ax t ps) (node : Ref) :
    Made s0 (createStep ctx ax t ps (fun r => constructAll ctx ps r) node none s) := by
  cases t with
  | type nm l =>
    unfold createStep
    simp only
    split_ifs
    · exact Made.of_none h
    · exact Made.err h _
  | name pfx nm =>
    unfold createStep
    simp only
    split_ifs
    · exact Made.err h _
    · refine Made.of_none (Run.bind (Q := fun _ => True) (createChild_frame h node pfx nm) ?_).1
      rintro r s' ⟨hr, -⟩ h'
      exact Run.bind (constructAll_frame ps r s' h' hr) (fun _ s'' _ h'' => Run.pure h'' trivial)
    · cases node with
      | elem a =>
        have hr : Run s0 (some a) (fun r => r.addr = a ∧ NonElem r) (createAttr ctx (.elem a) pfx nm s) := by
          unfold createAttr
          refine Run.bind (setAttrib_at h (.inl rfl) _ _) ?_
          intro _ s' _ h'
          split_ifs
          · exact Run.pure h' ⟨rfl, by intro a; simp⟩
          · exact Run.raise h'
        have := Run.bind (Q := fun r => r.addr = a ∧ NonElem r)
          (f := fun new => constructAll ctx ps new >>= fun _ => pure new) hr (by
            rintro r s' ⟨hra, hrn⟩ h'
            rw [← hra] at h' ⊢
            refine Run.bind (constructAll_non hrn ps s' h') (fun _ s'' _ h'' => Run.pure h'' ⟨rfl, hrn⟩))
        refine ⟨some a, this.1, fun x hx => .inr ?_⟩
        obtain ⟨h1, h2⟩ := this.2 x hx
        exact ⟨by rw [h1], h2⟩
      | attr | text | tail => exact Made.err h _
    · exact Made.err h _

theorem evalXPath_elem (xp : Str) (a : Node.Addr) (s : Node) :
    evalXPath eng ctx xp (.elem a) s = (eng.xpath xp s a ctx, s) := rfl

theorem findNode_state (xp : Str) (node : Ref) (s : Node) : ∃ o, findNode eng ctx xp node s = (o, s) := by
  have key : ∀ o : Except PyErr XVal, evalXPath eng ctx xp node s = (o, s) → ∃ o, findNode eng ctx xp node s = (o, s) := by
    intro o ho
    unfold findNode
    cases o with
    | error e => exact ⟨.error e, by rw [bind_err ho]⟩
    | ok v => exact ⟨.ok (foundOf v), by rw [bind_ok ho, pure_run]⟩
  cases node with
  | elem a => exact key _ (evalXPath_elem xp a s)
  | attr => exact key (.error .attributeError) rfl
  | text => exact key (.error .attributeError) rfl
  | tail => exact key (.error .attributeError) rfl

theorem findNode_non {node : Ref} (hne : NonElem node) (xp : Str) (s : Node) :
    ∃ e, findNode eng ctx xp node s = (.error e, s) := by
  cases node with
  | elem a => exact absurd rfl (hne a)
  | attr => exact ⟨.attributeError, rfl⟩
  | text => exact ⟨.attributeError, rfl⟩
  | tail => exact ⟨.attributeError, rfl⟩

theorem createNode_made {s0 : Node} : ∀ (e : Expr), ∀ (node : Ref) (s : Node) (c0 : Option Node.Addr), Extends c0 s0 s →
    (c0 = none ∨ (c0 = some node.addr ∧ NonElem node)) → Made s0 (createNode eng ctx e node none s)
  | .step ax t ps => by
    intro node s c0 h hc
    rw [createNode]
    rcases hc with rfl | ⟨rfl, hne⟩
    · exact createStep_made h ax t ps node
    · have := createStep_non (ctx := ctx) hne h ax t ps (fun r => constructAll ctx ps r) none
      exact ⟨_, this.1, fun x hx => .inr (by rw [this.2 x hx]; exact ⟨rfl, hne⟩)⟩
  | .binary l .slash r => by
    intro node s c0 h hc
    have hcn : createNode eng ctx (.binary l .slash r) node none s
        = (findNode eng ctx l.ser node >>= fun o => match o with
          | some f => foundRef f >>= fun left => createNode eng ctx r left none
          | none => createNode eng ctx l node none >>= fun left => createNode eng ctx r left none) s := by
      rw [createNode]; rfl
    rw [hcn]
    rcases hc with rfl | ⟨rfl, hne⟩
    · obtain ⟨o, ho⟩ := findNode_state (eng := eng) (ctx := ctx) l.ser node s
      cases o with
      | error e => rw [bind_err ho]; exact Made.err h _
      | ok o =>
        rw [bind_ok ho]
        cases o with
        | some f =>
          cases f with
          | ref x =>
            have hx : foundRef (.ref x) s = (.ok x, s) := rfl
            show Made s0 ((foundRef (.ref x) >>= fun left => createNode eng ctx r left none) s)
            rw [bind_ok hx]
            exact createNode_made r x s none h (.inl rfl)
          | str | num | bool => exact Made.err h _
        | none =>
          show Made s0 ((createNode eng ctx l node none >>= fun left => createNode eng ctx r left none) s)
          obtain ⟨c1, h1, h2⟩ := createNode_made l node s none h (.inl rfl)
          rcases hm : createNode eng ctx l node none s with ⟨_ | x, s'⟩
          · rw [bind_err hm]
            rw [hm] at h1
            exact Made.err h1 _
          · rw [bind_ok hm]
            rw [hm] at h1 h2
            exact createNode_made r x s' c1 h1 (h2 x rfl)
    · have := findNode_non (eng := eng) (ctx := ctx) hne l.ser s
      obtain ⟨e, he⟩ := this
      rw [bind_err he]
      exact Made.err h _
  | .binary l .or r => by intro node s c0 h hc; rw [createNode]; exact Made.err h _; all_goals simp
  | .binary l .and r => by intro node s c0 h hc; rw [createNode]; exact Made.err h _; all_goals simp
  | .binary l .ne r => by intro node s c0 h hc; rw [createNode]; exact Made.err h _; all_goals simp
  | .binary l .lt r => by intro node s c0 h hc; rw [createNode]; exact Made.err h _; all_goals simp
  | .binary l .le r => by intro node s c0 h hc; rw [createNode]; exact Made.err h _; all_goals simp
  | .binary l .gt r => by intro node s c0 h hc; rw [createNode]; exact Made.err h _; all_goals simp
  | .binary l .ge r => by intro node s c0 h hc; rw [createNode]; exact Made.err h _; all_goals simp
  | .binary l .plus r => by intro node s c0 h hc; rw [createNode]; exact Made.err h _; all_goals simp
  | .binary l .minus r => by intro node s c0 h hc; rw [createNode]; exact Made.err h _; all_goals simp
  | .binary l .mult r => by intro node s c0 h hc; rw [createNode]; exact Made.err h _; all_goals simp
  | .binary l .div r => by intro node s c0 h hc; rw [createNode]; exact Made.err h _; all_goals simp
  | .binary l .mod r => by intro node s c0 h hc; rw [createNode]; exact Made.err h _; all_goals simp
  | .binary l .union r => by intro node s c0 h hc; rw [createNode]; exact Made.err h _; all_goals simp
  | .binary l .dslash r => by intro node s c0 h hc; rw [createNode]; exact Made.err h _; all_goals simp
  | .lit _ => by intro node s c0 h hc; rw [createNode]; exact Made.err h _; all_goals simp
  | .int _ => by intro node s c0 h hc; rw [createNode]; exact Made.err h _; all_goals simp
  | .float _ => by intro node s c0 h hc; rw [createNode]; exact Made.err h _; all_goals simp
  | .neg _ => by intro node s c0 h hc; rw [createNode]; exact Made.err h _; all_goals simp
  | .pred _ _ => by intro node s c0 h hc; rw [createNode]; exact Made.err h _; all_goals simp
  | .root => by intro node s c0 h hc; rw [createNode]; exact Made.err h _; all_goals simp
  | .abs _ _ => by intro node s c0 h hc; rw [createNode]; exact Made.err h _; all_goals simp
  | .abbrev _ => by intro node s c0 h hc; rw [createNode]; exact Made.err h _; all_goals simp
  | .var _ _ => by intro node s c0 h hc; rw [createNode]; exact Made.err h _; all_goals simp
  | .call _ _ _ => by intro node s c0 h hc; rw [createNode]; exact Made.err h _; all_goals simp
  | .binary l .eq r => by intro node s c0 h hc; rw [createNode]; exact Made.err h _; all_goals simp

/-- Whatever the expression, the engine and the outcome: setting a string leaves every element in place and touches the text and
attributes of at most one element, which is the match if there is one. -/
theorem managerSet_frame (v : Str) (xp : Str) (e : Expr) (node : Ref) (s : Node) :
    ∃ c0, Extends c0 s (managerSet eng ctx (.ok (some (.str v))) xp e node s).2 ∧
      ∀ r, findNode eng ctx xp node s = (.ok (some (.ref r)), s) → c0 = some r.addr := by
  have hms : managerSet eng ctx (.ok (some (.str v))) xp e node s = (findNode eng ctx xp node >>= fun m => match m with
      | some f => setInXml ctx f (some v) (findTerminalStep e)
      | none => createNode eng ctx e node none >>= fun r => setInXml ctx (.ref r) (some v) (findTerminalStep e)) s := rfl
  rw [hms]
  obtain ⟨o, ho⟩ := findNode_state (eng := eng) (ctx := ctx) xp node s
  cases o with
  | error er => rw [bind_err ho]; exact ⟨none, Extends.refl s, by rw [ho]; simp⟩
  | ok o =>
    rw [bind_ok ho]
    cases o with
    | some f =>
      cases f with
      | ref r =>
        refine ⟨some r.addr, (setInXml_at (Extends.refl s) (.inl rfl) _ _).1, ?_⟩
        intro r' hr'
        rw [ho] at hr'
        cases hr'
        rfl
      | str | num | bool => exact ⟨none, Extends.refl s, by rw [ho]; simp⟩
    | none =>
      show ∃ c0, Extends c0 s ((createNode eng ctx e node none >>= fun r => setInXml ctx (.ref r) (some v) (findTerminalStep e)) s).2 ∧ _
      obtain ⟨c1, h1, h2⟩ := createNode_made (eng := eng) (ctx := ctx) e node s none (Extends.refl s) (.inl rfl)
      rcases hm : createNode eng ctx e node none s with ⟨_ | x, s'⟩
      · rw [bind_err hm]
        rw [hm] at h1
        exact ⟨c1, h1, by rw [ho]; simp⟩
      · rw [bind_ok hm]
        rw [hm] at h1 h2
        refine ⟨some x.addr, (setInXml_at h1 ?_ _ _).1, by rw [ho]; simp⟩
        rcases h2 x rfl with h | h
        · exact .inl h
        · exact .inr h.1

end
end Fields
