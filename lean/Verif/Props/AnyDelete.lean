import Verif.Props.ListField
import Verif.XmlMap.ShrunkLemmas
/-
Property C110: deletion with any XPath at all, also those that C16-C19 leave out, only takes away; and it does nothing for XPaths it does not handle.

Model: `managerDelete`, `managerSet` (Verif/XmlMap/Manager.lean), the operations of lists (Verif/XmlMap/NodeList.lean).  Specification: Verif/Spec/Shrunk.lean.
-/
namespace Props
open XPath Xml Spec Fields

section
variable [PyUnicode] (eng : Engine) (ctx : Ctx)

theorem onlyTakes_managerDelete (xp : Str) (e : Expr) (node : Ref) : OnlyTakes (kindsOf e) (managerDelete eng ctx xp e node) := by
  refine onlyTakes_bind (onlyTakes_find xp node) (fun o => ?_)
  cases o with
  | none => exact onlyTakes_pure _
  | some f => exact onlyTakes_bind (onlyTakes_removeXml e ⟨id, id, id⟩ false node) (fun _ => onlyTakes_pure _)

/-- C110.  `del obj.field` and `obj.field = None`, for every XPath, every behaviour of the XPath engine, every document and every outcome (also if an exception is raised): the document afterwards is the
document before from which things were taken away: elements only if the XPath has an element step, attributes only if it has an attribute step, texts only if it has a step `text()`. -/
theorem C110_only_takes_away (xp : Str) (e : Expr) (node : Ref) (s : Node) :
    Shrunk (kindsOf e) s (managerDelete eng ctx xp e node s).2 ∧ Shrunk (kindsOf e) s (managerSet eng ctx (.ok none) xp e node s).2 := by
  have h := onlyTakes_managerDelete eng ctx xp e node s
  have h' : managerSet eng ctx (.ok none) xp e node s = managerDelete eng ctx xp e node s := by
    unfold managerSet managerDelete
    rw [bind_ok (ofExcept_run _ s)]
  exact ⟨h, by rw [h']; exact h⟩

end

/-- Nothing was taken away. -/
theorem shrunk_nothing {n m : Node} (h : Shrunk ⟨false, false, false⟩ n m) : m = n := by
  have key : ∀ {n m : Node}, Shrunk ⟨false, false, false⟩ n m → m = n := by
    intro n m h
    induction h using Shrunk.rec (motive_2 := fun cs cs' _ => cs' = cs) with
    | mk _ ha hx _ ih =>
      rw [ha rfl, ih]
      rcases hx with rfl | ⟨h, -⟩
      · rfl
      · cases h
    | nil => rfl
    | drop h => cases h
    | keep _ _ ih1 ih2 => rw [ih1, ih2]
  exact key h

/-- The last step of an XPath can be deleted. -/
def deletable (e : Expr) : Bool := match (pathSteps e).getLast? with
  | some x => elemStep x || attrStep x || textStep x
  | none => false

theorem pathSteps_ne : ∀ e : Expr, pathSteps e ≠ [] := by
  intro e
  unfold pathSteps
  split
  · intro h
    exact pathSteps_ne _ (List.append_eq_nil_iff.1 h).2
  · simp

theorem deletable_right {l r : Expr} : deletable (.binary l .slash r) = deletable r := by
  unfold deletable
  rw [pathSteps, List.getLast?_append]
  cases h : (pathSteps r).getLast? with
  | none => exact absurd (List.getLast?_eq_none_iff.1 h) (pathSteps_ne r)
  | some x => rfl

section
variable [PyUnicode] {eng : Engine} {ctx : Ctx}

/-- Deletion looks up the path without its last step; it finds nothing, or an element (from which a parenthesised rest of the path is looked up in the same way). -/
def LooksUp (eng : Engine) (ctx : Ctx) (s : Node) : Expr → Ref → Prop
  | .binary l .slash r, node => ∃ o, findNode eng ctx l.ser node s = (.ok o, s) ∧ ∀ f, o = some f → ∃ y, f = .ref y ∧ LooksUp eng ctx s r y
  | _, _ => True

/-- Nothing is done, and nothing is said to be removed. -/
def Idle (quiet : Prop) (m : M Bool) (s : Node) : Prop := ∃ r, m s = (r, s) ∧ r ≠ .ok true ∧ (quiet → r = .ok false)

theorem idle_step {ax : Option Str} {nt : NodeTest} {ps : List Expr} (h : deletable (.step ax nt ps) = false) (xp : Str) (rp : Ref → M Unit) (ifEmpty : Bool) (node : Ref) (s : Node) :
    removeStep eng ctx xp ax nt rp ifEmpty node s = (.ok false, s) := by
  have h' : (elemStep (.step ax nt ps) || attrStep (.step ax nt ps) || textStep (.step ax nt ps)) = false := h
  rw [Bool.or_eq_false_iff, Bool.or_eq_false_iff] at h'
  obtain ⟨⟨h1, h2⟩, h3⟩ := h'
  unfold removeStep
  cases nt with
  | name pfx nm =>
    simp only [elemStep, attrStep, Bool.or_eq_false_iff, decide_eq_false_iff_not] at h1 h2
    simp only
    rw [if_neg (by tauto), if_neg (by tauto)]
    rfl
  | type nm l =>
    simp only [textStep, decide_eq_false_iff_not] at h3
    simp only
    rw [if_neg h3]
    rfl

theorem idle_remove : ∀ (e : Expr), deletable e = false → ∀ (ifEmpty : Bool) (node : Ref) (s : Node), Idle (LooksUp eng ctx s e node) (removeXml eng ctx e ifEmpty node) s := by
  intro e
  fun_induction pathSteps e with
  | case1 l r _ ih =>
    intro h ifEmpty node s
    rw [deletable_right] at h
    unfold removeXml
    obtain ⟨o, ho⟩ := findNode_state (eng := eng) (ctx := ctx) l.ser node s
    cases o with
    | error er =>
      refine ⟨.error er, bind_err ho, by simp, fun hq => ?_⟩
      obtain ⟨o, h1, -⟩ := hq
      rw [ho] at h1
      cases h1
    | ok o =>
      unfold Idle
      rw [bind_ok ho]
      cases o with
      | none => exact ⟨.ok false, rfl, by simp, fun _ => rfl⟩
      | some f =>
        cases f with
        | ref left =>
          obtain ⟨r', hr, hne, hq⟩ := ih h ifEmpty left s
          have hq : LooksUp eng ctx s (.binary l .slash r) node → r' = .ok false := by
            intro h
            obtain ⟨o, h1, h2⟩ := h
            rw [ho] at h1
            obtain ⟨y, hy, hl⟩ := h2 (.ref left) (by cases h1; rfl)
            cases hy
            exact hq hl
          show ∃ x, (foundRef (.ref left) >>= _) s = _ ∧ _
          rw [bind_ok (show foundRef (.ref left) s = (.ok left, s) from rfl)]
          cases r' with
          | error er => exact ⟨.error er, bind_err hr, by simp, hq⟩
          | ok b =>
            rw [bind_ok hr]
            cases b with
            | true => exact absurd rfl hne
            | false => exact ⟨.ok false, rfl, by simp, fun _ => rfl⟩
        | _ =>
          refine ⟨.error .attributeError, rfl, by simp, fun hq => ?_⟩
          obtain ⟨o, h1, h2⟩ := hq
          rw [ho] at h1
          obtain ⟨y, hy, -⟩ := h2 _ (by cases h1; rfl)
          cases hy
  | case2 e hno =>
    intro h ifEmpty node s
    cases e with
    | step ax nt ps => exact ⟨.ok false, by unfold removeXml; exact idle_step h _ _ _ _ _, by simp, fun _ => rfl⟩
    | binary l op r =>
      cases op with
      | slash => exact absurd rfl (hno l r)
      | _ => exact ⟨.ok false, by unfold removeXml; rfl, by simp, fun _ => rfl⟩
    | _ => exact ⟨.ok false, by unfold removeXml; rfl, by simp, fun _ => rfl⟩

/-- C110.  For an XPath whose last step is no element, attribute or `text()` step (`.`, `..`, other axes, `node()`, functions, unions, absolute paths, paths with `//` before the last step), deletion and the
assignment of `None` leave the document as it is, whatever the engine answers; and if the engine's lookups succeed with nodes or nothing, no exception is raised. -/
theorem C110_does_nothing (xp : Str) (e : Expr) (node : Ref) (s : Node) (h : deletable e = false) :
    (managerDelete eng ctx xp e node s).2 = s ∧ (managerSet eng ctx (.ok none) xp e node s).2 = s ∧
    ((∃ o, findNode eng ctx xp node s = (.ok o, s)) → LooksUp eng ctx s e node → managerDelete eng ctx xp e node s = (.ok (), s) ∧ managerSet eng ctx (.ok none) xp e node s = (.ok (), s)) := by
  have h' : managerSet eng ctx (.ok none) xp e node s = managerDelete eng ctx xp e node s := by
    unfold managerSet managerDelete
    rw [bind_ok (ofExcept_run _ s)]
  rw [h']
  have key : (managerDelete eng ctx xp e node s).2 = s ∧ ((∃ o, findNode eng ctx xp node s = (.ok o, s)) → LooksUp eng ctx s e node → managerDelete eng ctx xp e node s = (.ok (), s)) := by
    obtain ⟨o, ho⟩ := findNode_state (eng := eng) (ctx := ctx) xp node s
    unfold managerDelete
    cases o with
    | error er =>
      refine ⟨by rw [bind_err ho], fun hq _ => ?_⟩
      obtain ⟨o, h1⟩ := hq
      rw [ho] at h1
      cases h1
    | ok o =>
      rw [bind_ok ho]
      cases o with
      | none => exact ⟨rfl, fun _ _ => rfl⟩
      | some f =>
        obtain ⟨r, hr, -, hq⟩ := idle_remove (eng := eng) (ctx := ctx) e h false node s
        show ((removeXml eng ctx e false node >>= fun _ => pure ()) s).2 = s ∧ (_ → _ → (removeXml eng ctx e false node >>= fun _ => pure ()) s = _)
        cases r with
        | error er => exact ⟨by rw [bind_err hr], fun _ h => by cases hq h⟩
        | ok b => rw [bind_ok hr]; exact ⟨rfl, fun _ _ => rfl⟩
  exact ⟨key.1, key.1, fun h1 h2 => ⟨key.2 h1 h2, key.2 h1 h2⟩⟩

/-- C110.  The cleanup stops at a part of the XPath that cannot be deleted: if the path is such a part followed by a child step, as in `a/descendant::b/c` or `.//b/c`, deletion takes the
first element that the step selects out of its parent, and nothing else, even if the parent is empty then. -/
theorem C110_cleanup_stops {xp : Str} {l : Expr} {pfx : Option Str} {nm : Str} {ps : List Expr} {a b : Node.Addr} {i : Nat} {x : Ref} {xs ys zs : List Ref} {s child : Node}
    (hl : deletable l = false) (hx : eng.xpath xp s a ctx = .ok (.nodes (x :: xs)))
    (hleft : eng.xpath l.ser s a ctx = .ok (.nodes (.elem b :: ys)))
    (hstep : eng.xpath (Expr.ser (.step none (.name pfx nm) ps)) s b ctx = .ok (.nodes (.elem (b ++ [i]) :: zs))) (hc : s.get (b ++ [i]) = some child) :
    (managerDelete eng ctx xp (.binary l .slash (.step none (.name pfx nm) ps)) (.elem a) s).2 =
      s.modify b (fun n => n.withChildren (n.children.eraseIdx i)) := by
  have find : ∀ {q : Str} {c : Node.Addr} {y : Ref} {l : List Ref}, eng.xpath q s c ctx = .ok (.nodes (y :: l)) → findNode eng ctx q (.elem c) s = (.ok (some (.ref y)), s) := by
    intro q c y l h
    unfold findNode
    rw [bind_ok (show evalXPath eng ctx q (.elem c) s = (.ok (.nodes (y :: l)), s) by show (eng.xpath q s c ctx, s) = _; rw [h])]
    rfl
  have hrem : removeXml eng ctx (.step none (.name pfx nm) ps) false (.elem b) s = (.ok true, s.modify b (Node.removeChild i)) := by
    unfold removeXml removeStep
    simp only [true_or, if_true]
    unfold removeChildNode
    rw [bind_ok (find hstep)]
    simp only
    rw [bind_ok (nodeAt_run hc)]
    simp only [Bool.false_eq_true, if_false]
    rw [bind_ok (show ofExcept (.ok true) s = (.ok true, s) from rfl)]
    simp only [if_true]
    rw [if_pos (show b ++ [i] ≠ [] ∧ Ref.elem (b ++ [i]).dropLast = .elem b by simp)]
    have e1 : (b ++ [i]).dropLast = b := by simp
    have e2 : (b ++ [i]).getLast?.getD 0 = i := by simp
    rw [e1, e2]
    rfl
  have hbin : (removeXml eng ctx (.binary l .slash (.step none (.name pfx nm) ps)) false (.elem a) s).2 = s.modify b (Node.removeChild i) := by
    rw [removeXml]
    rw [bind_ok (find hleft)]
    show ((foundRef (.ref (.elem b)) >>= _) s).2 = _
    rw [bind_ok (show foundRef (.ref (.elem b)) s = (.ok (.elem b), s) from rfl), bind_ok hrem]
    simp only [if_true]
    obtain ⟨r, hr, -, -⟩ := idle_remove (eng := eng) (ctx := ctx) l hl true (.elem a) (s.modify b (Node.removeChild i))
    cases r with
    | error er => rw [bind_err hr]
    | ok y => rw [bind_ok hr]; rfl
  unfold managerDelete
  rw [bind_ok (find hx)]
  show ((removeXml eng ctx (.binary l .slash (.step none (.name pfx nm) ps)) false (.elem a) >>= fun _ => pure ()) s).2 = _
  rw [← show (s.modify b (Node.removeChild i)) = s.modify b (fun n => n.withChildren (n.children.eraseIdx i)) from rfl, ← hbin]
  generalize removeXml eng ctx (.binary l .slash (.step none (.name pfx nm) ps)) false (.elem a) = m
  cases h : m s with
  | mk r s' =>
    cases r with
    | error er => rw [bind_err h]
    | ok y => rw [bind_ok h]; rfl

end

section
variable [PyUnicode] (eng : Engine) (ctx : Ctx) {α : Type} [DecidableEq α] (mapper : Item → Except PyErr α) (store : Ref → α → M Unit) (xp : Str) (e : Expr) (node : Ref)

omit [DecidableEq α] in
theorem onlyTakes_matches {t : Takes} : OnlyTakes t (listMatches eng ctx xp node) := by
  have hx : OnlyTakes t (evalXPath eng ctx xp node) := by
    cases node with
    | elem a => intro s; rw [evalXPath_elem]; exact shrunk_refl s
    | _ => exact onlyTakes_raise _
  refine onlyTakes_bind hx (fun v => ?_)
  cases v <;> first | exact onlyTakes_pure _ | exact onlyTakes_raise _

theorem onlyTakes_getDoc {t : Takes} : OnlyTakes t getDoc := fun s => shrunk_refl s

theorem onlyTakes_data {t : Takes} : OnlyTakes t (listData eng ctx mapper xp node) :=
  onlyTakes_bind (onlyTakes_matches eng ctx xp node) (fun _ => onlyTakes_bind onlyTakes_getDoc (fun _ => onlyTakes_ofExcept _))

theorem onlyTakes_get {t : Takes} (i : Int) : OnlyTakes t (listGet eng ctx mapper xp node i) :=
  onlyTakes_bind (onlyTakes_matches eng ctx xp node) (fun _ => onlyTakes_bind (onlyTakes_ofExcept _) (fun _ => onlyTakes_bind onlyTakes_getDoc (fun _ => onlyTakes_ofExcept _)))

theorem onlyTakes_index {t : Takes} (x : α) : OnlyTakes t (listIndex eng ctx mapper xp node x) := by
  refine onlyTakes_bind (onlyTakes_data eng ctx mapper xp node) (fun d => ?_)
  cases d.idxOf? x with
  | none => exact onlyTakes_raise _
  | some i => exact onlyTakes_pure _

/-- The operations that read. -/
def ListOp.reads : ListOp α → Bool
  | .len | .get _ | .index _ | .count _ | .contains _ | .eq _ => true
  | _ => false
/-- The operations that take one item away. -/
def ListOp.takes : ListOp α → Bool
  | .del _ | .pop _ | .remove _ => true
  | _ => false

/-- C110.  Reading from a list, with any XPath, engine and mapper and any outcome, changes nothing. -/
theorem C110_list_reads (op : ListOp α) (h : ListOp.reads op = true) (s : Node) : (runOp eng ctx mapper store xp e node op s).2 = s ∧ (listData eng ctx mapper xp node s).2 = s := by
  refine ⟨shrunk_nothing ?_, shrunk_nothing (onlyTakes_data eng ctx mapper xp node s)⟩
  have hd := onlyTakes_data (t := ⟨false, false, false⟩) eng ctx mapper xp node
  have hl : OnlyTakes ⟨false, false, false⟩ (listLen eng ctx mapper xp node) := onlyTakes_bind hd (fun _ => onlyTakes_pure _)
  revert s
  show OnlyTakes _ _
  cases op with
  | len => exact onlyTakes_bind hl (fun _ => onlyTakes_pure _)
  | get i => exact onlyTakes_bind (onlyTakes_get eng ctx mapper xp node i) (fun _ => onlyTakes_pure _)
  | index x => exact onlyTakes_bind (onlyTakes_index eng ctx mapper xp node x) (fun _ => onlyTakes_pure _)
  | count x => exact onlyTakes_bind (onlyTakes_bind hd (fun _ => onlyTakes_pure _)) (fun _ => onlyTakes_pure _)
  | contains x => exact onlyTakes_bind (onlyTakes_bind hd (fun _ => onlyTakes_pure _)) (fun _ => onlyTakes_pure _)
  | eq l => exact onlyTakes_bind (onlyTakes_bind hd (fun _ => onlyTakes_pure _)) (fun _ => onlyTakes_pure _)
  | _ => cases h

/-- Nothing, or one child of one element, has been removed. -/
def OneLess (s s' : Node) : Prop := s' = s ∨ ∃ a i, s' = s.modify a (Node.removeChild i)

omit [DecidableEq α] in
theorem listDel_oneLess (i : Int) (s : Node) : OneLess s (listDel eng ctx xp node i s).2 := by
  have h0 := shrunk_nothing (onlyTakes_matches (t := ⟨false, false, false⟩) eng ctx xp node s)
  unfold listDel
  cases h : listMatches eng ctx xp node s with
  | mk r s' =>
    rw [h] at h0
    obtain rfl : s' = s := h0
    cases r with
    | error er => rw [bind_err h]; exact .inl rfl
    | ok ms =>
      rw [bind_ok h]
      split_ifs with h1
      · exact .inl rfl
      · cases hg : pyGet ms i with
        | error er => rw [bind_err (ofExcept_err _ _)]; exact .inl rfl
        | ok r =>
          rw [bind_ok (ofExcept_run _ _)]
          cases r with
          | elem a =>
            unfold removeMatch
            simp only
            split_ifs with h2
            · exact .inl rfl
            · exact .inr ⟨a.dropLast, _, rfl⟩
          | _ => exact .inl rfl

/-- C110.  `del l[i]`, `l.pop(i)` and `l.remove(x)`, with any XPath, engine and mapper: one element with its content and tail is removed, or nothing changes. -/
theorem C110_list_takes_one (op : ListOp α) (h : ListOp.takes op = true) (s : Node) : OneLess s (runOp eng ctx mapper store xp e node op s).2 := by
  have pureBind : ∀ {β γ : Type} {m : M β} {f : β → M γ}, OnlyTakes ⟨false, false, false⟩ m → (∀ x s, OneLess s (f x s).2) → ∀ s, OneLess s ((m >>= f) s).2 := by
    intro β γ m f hm hf s
    have h0 := shrunk_nothing (hm s)
    cases h : m s with
    | mk r s' =>
      rw [h] at h0
      obtain rfl : s' = s := h0
      cases r with
      | error er => rw [bind_err h]; exact .inl rfl
      | ok x => rw [bind_ok h]; exact hf x s'
  have after : ∀ {β γ : Type} {m : M β} {g : β → γ}, (∀ s, OneLess s (m s).2) → ∀ s, OneLess s ((m >>= fun x => pure (g x)) s).2 := by
    intro β γ m g hm s
    have := hm s
    cases h : m s with
    | mk r s' =>
      rw [h] at this
      cases r with
      | error er => rw [bind_err h]; exact this
      | ok x => rw [bind_ok h]; exact this
  cases op with
  | del i => exact after (listDel_oneLess eng ctx xp node i) s
  | remove x => exact after (pureBind (onlyTakes_index eng ctx mapper xp node x) (fun i s => listDel_oneLess eng ctx xp node i s)) s
  | pop i =>
    refine after (pureBind ?_ (fun i => pureBind (onlyTakes_get eng ctx mapper xp node i) (fun v => after (listDel_oneLess eng ctx xp node i)))) s
    cases i with
    | some i => exact onlyTakes_pure _
    | none => exact onlyTakes_bind (onlyTakes_bind (onlyTakes_data eng ctx mapper xp node) (fun _ => onlyTakes_pure _)) (fun _ => onlyTakes_pure _)
  | _ => cases h

theorem onlyTakes_listRemove (x : α) : OnlyTakes ⟨true, false, false⟩ (listRemove eng ctx mapper xp node x) := by
  refine onlyTakes_bind (onlyTakes_index eng ctx mapper xp node x) (fun i => ?_)
  intro s
  rcases listDel_oneLess eng ctx xp node i s with h | ⟨a, j, h⟩ <;> rw [h]
  · exact shrunk_refl s
  · exact shrunk_modify (shrunk_removeChild rfl j) a s

/-- C110.  `del obj.field` for a list field, with any XPath, engine and mapper and any outcome: only elements are taken away. -/
theorem C110_list_clear (s : Node) : Shrunk ⟨true, false, false⟩ s (listDeleteAll eng ctx mapper xp node s).2 := by
  have hgo : ∀ doc rs, OnlyTakes ⟨true, false, false⟩ (listDeleteAll.go eng ctx mapper xp node doc rs) := by
    intro doc rs
    induction rs with
    | nil => exact onlyTakes_pure _
    | cons r rs ih => exact onlyTakes_bind (onlyTakes_ofExcept _) (fun x => onlyTakes_bind (onlyTakes_listRemove eng ctx mapper xp node x) (fun _ => ih))
  exact (onlyTakes_bind (onlyTakes_matches eng ctx xp node) (fun ms => onlyTakes_bind onlyTakes_getDoc (fun doc => hgo doc ms)) : OnlyTakes _ (listDeleteAll eng ctx mapper xp node)) s

end

/-! ### the hypotheses can be met -/

/-- XPaths that are not handled, and some that are. -/
example : ([c%"//a", c%"/a/b", c%"a//b", c%".", c%"..", c%"a/..", c%"descendant::a", c%"a | b", c%"a/node()", c%"string(a)", c%"(a | b)[1]"].map (fun x => deletable (ast x)) = List.replicate 11 false) ∧
    ([c%"a", c%"child::a[2]/@b", c%"a[not(b)]/text()", c%"../b", c%"(a | b)/c", c%"*"].map (fun x => deletable (ast x)) = List.replicate 6 true) ∧
    kindsOf (ast c%"a/b[@c]") = ⟨true, false, false⟩ ∧ kindsOf (ast c%"a/../@b") = ⟨true, true, false⟩ ∧ kindsOf (ast c%"text()") = ⟨false, false, true⟩ := by decide +kernel

/-- An engine that finds the first child, whatever the XPath. -/
def firstEngine : Engine := ⟨fun _ _ _ _ => .ok (.nodes [.elem [0]])⟩

/-- `del obj.field` with XPath `//a`, or `a/b/descendant::c`, does nothing although there is a match: the field still shows it. -/
example : managerDelete firstEngine sampleCtx c%"//a" (ast c%"//a") (.elem []) listDoc = (.ok (), listDoc) ∧
    managerDelete firstEngine sampleCtx c%"a/b/descendant::c" (ast c%"a/b/descendant::c") (.elem []) listDoc = (.ok (), listDoc) := by
  refine ⟨((C110_does_nothing (eng := firstEngine) (ctx := sampleCtx) c%"//a" (ast c%"//a") (.elem []) listDoc (by decide +kernel)).2.2 ⟨_, rfl⟩ ?_).1,
    ((C110_does_nothing (eng := firstEngine) (ctx := sampleCtx) c%"a/b/descendant::c" (ast c%"a/b/descendant::c") (.elem []) listDoc (by decide +kernel)).2.2 ⟨_, rfl⟩ ?_).1⟩
  · rw [show ast c%"//a" = .abs true (.step none (.name none c%"a") []) by decide +kernel]
    trivial
  · rw [show ast c%"a/b/descendant::c" = .binary (.binary (.step none (.name none c%"a") []) .slash (.step none (.name none c%"b") [])) .slash (.step (some c%"descendant") (.name none c%"c") []) by decide +kernel]
    exact ⟨_, rfl, fun f hf => ⟨.elem [0], by cases hf; rfl, trivial⟩⟩

/-- `<r><a><b/></a></r>`. -/
def nestDoc : Node := .mk (.elem ⟨none, c%"r"⟩) [] none [.mk (.elem ⟨none, c%"a"⟩) [] none [.mk (.elem ⟨none, c%"b"⟩) [] none [] none] none] none

/-- What lxml says about the paths below on that document. -/
def nestEngine : Engine := ⟨fun x _ a _ => if x = c%"descendant::a/b" then .ok (.nodes [.elem [0, 0]]) else if a = [0] then .ok (.nodes [.elem [0, 0]]) else .ok (.nodes [.elem [0]])⟩

/-- `del obj.field` with XPath `descendant::a/b` removes `b` and leaves the empty `a`, which it would remove for `a/b`. -/
example : (managerDelete nestEngine sampleCtx c%"descendant::a/b" (.binary (.step (some c%"descendant") (.name none c%"a") []) .slash (.step none (.name none c%"b") [])) (.elem []) nestDoc).2 =
    .mk (.elem ⟨none, c%"r"⟩) [] none [.mk (.elem ⟨none, c%"a"⟩) [] none [] none] none :=
  (C110_cleanup_stops (x := .elem [0, 0]) (b := [0]) (i := 0) (xs := []) (ys := []) (zs := []) (by decide +kernel) (by decide +kernel) (by decide +kernel) (by decide +kernel) rfl).trans rfl

end Props
