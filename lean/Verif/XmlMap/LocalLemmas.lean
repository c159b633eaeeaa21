import Verif.XmlMap.Manager
import Verif.XmlMap.Mappers
import Verif.XmlMap.SetLemmas
import Verif.XmlMap.FrameLemmas
import Verif.Spec.Local
/-
Programs for objects act on the object's element only.
-/
namespace Fields
open Xml XPath Spec

/-- `ma` on a document does to the element `n` at `a` what `m0` does to the document `n`. -/
def LiftsAt {α β : Type} (a : Node.Addr) (g : β → α) (ma : M α) (m0 : M β) (n : Node) : Prop :=
  ∀ s, s.get a = some n → ma s = ((m0 n).1.map g, s.modify a (fun _ => (m0 n).2))

section
variable {α β γ δ : Type} {a : Node.Addr} {n : Node}

theorem lifts_bind {g : β → α} {h : δ → γ} {ma : M α} {m0 : M β} {fa : α → M γ} {f0 : β → M δ} (hm : LiftsAt a g ma m0 n)
    (hf : ∀ x n', m0 n = (.ok x, n') → LiftsAt a h (fa (g x)) (f0 x) n') : LiftsAt a h (ma >>= fa) (m0 >>= f0) n := by
  intro s hs
  have h1 := hm s hs
  cases e : m0 n with
  | mk r n' =>
    rw [e] at h1
    cases r with
    | error er =>
      have h3 : ma s = (.error er, s.modify a (fun _ => n')) := h1
      rw [bind_err e, bind_err h3]
      rfl
    | ok x =>
      have h2 := hf x n' e (s.modify a (fun _ => n')) (by rw [Node.get_modify, hs]; rfl)
      rw [bind_ok e]
      have h3 : ma s = (.ok (g x), s.modify a (fun _ => n')) := h1
      rw [bind_ok h3, h2, Node.modify_modify]
      rfl

theorem lifts_pure {g : β → α} {x : α} {y : β} (h : x = g y) : LiftsAt a g (pure x : M α) (pure y) n := by
  intro s hs
  subst h
  show (Except.ok (g y), s) = (Except.ok (g y), s.modify a (fun _ => n))
  rw [Node.modify_id hs rfl]

theorem lifts_raise {g : β → α} (er : PyErr) : LiftsAt a g (raise er : M α) (raise er) n := by
  intro s hs
  show (Except.error er, s) = (Except.error er, s.modify a (fun _ => n))
  rw [Node.modify_id hs rfl]

theorem lifts_ofExcept {g : β → α} {r : Except PyErr α} {r' : Except PyErr β} (h : r = r'.map g) : LiftsAt a g (ofExcept r) (ofExcept r') n := by
  subst h
  cases r' with
  | ok x => exact lifts_pure rfl
  | error er => exact lifts_raise er

theorem lifts_ite {g : β → α} {p q : Prop} [Decidable p] [Decidable q] (hpq : p ↔ q) {m1 m2 : M α} {k1 k2 : M β} (h1 : LiftsAt a g m1 k1 n) (h2 : LiftsAt a g m2 k2 n) :
    LiftsAt a g (if p then m1 else m2) (if q then k1 else k2) n := by
  by_cases hp : p
  · rw [if_pos hp, if_pos (hpq.1 hp)]; exact h1
  · rw [if_neg hp, if_neg (fun h => hp (hpq.2 h))]; exact h2

theorem lifts_nodeAt (b : Node.Addr) : LiftsAt a id (nodeAt (a ++ b)) (nodeAt b) n := by
  intro s hs
  unfold nodeAt
  rw [Node.get_append, hs]
  show (match n.get b with
    | some m => (Except.ok m, s)
    | none => (Except.error PyErr.attributeError, s)) = _
  cases n.get b with
  | none =>
    show (Except.error PyErr.attributeError, s) = (Except.error _, s.modify a (fun _ => n))
    rw [Node.modify_id hs rfl]
  | some m =>
    show (Except.ok m, s) = (Except.ok m, s.modify a (fun _ => n))
    rw [Node.modify_id hs rfl]

theorem lifts_edit (b : Node.Addr) (f : Node → Node) : LiftsAt a id (edit (a ++ b) f) (edit b f) n := by
  intro s hs
  show (Except.ok (), s.modify (a ++ b) f) = (Except.ok (), s.modify a (fun _ => n.modify b f))
  rw [Node.modify_append, Node.modify_congr hs (g := fun _ => n.modify b f) rfl]

theorem lifts_conv {g g' : β → α} {ma : M α} {m0 : M β} (h : LiftsAt a g ma m0 n) (hg : ∀ x, g x = g' x) : LiftsAt a g' ma m0 n := by
  obtain rfl : g = g' := funext hg
  exact h

variable [PyUnicode] {eng : Engine} {ctx : Ctx}

theorem lifts_xpath {x : Str} (hx : Downward eng ctx x) {b : Node.Addr} (hb : (n.get b).isSome) :
    LiftsAt a (XVal.under a) (evalXPath eng ctx x (.elem (a ++ b))) (evalXPath eng ctx x (.elem b)) n := by
  intro s hs
  obtain ⟨m, hm⟩ := Option.isSome_iff_exists.1 hb
  have h1 := (hx s m (a ++ b) (by rw [Node.get_append, hs]; exact hm)).1
  have h2 := (hx n m b hm).1
  show (eng.xpath x s (a ++ b) ctx, s) = ((eng.xpath x n b ctx).map (XVal.under a), s.modify a (fun _ => n))
  rw [h1, h2, Node.modify_id hs rfl]
  congr 1
  cases eng.xpath x m [] ctx with
  | error er => rfl
  | ok v =>
    cases v with
    | nodes l =>
      show Except.ok (XVal.nodes (l.map (Ref.under (a ++ b)))) = Except.ok (XVal.nodes ((l.map (Ref.under b)).map (Ref.under a)))
      rw [List.map_map]
      congr 2
      apply List.map_congr_left
      intro r _
      cases r <;> simp [Ref.under]
    | _ => rfl

theorem foundOf_under (v : XVal) : foundOf (v.under a) = (foundOf v).map (Found.under a) := by
  cases v with
  | nodes l => cases l <;> rfl
  | str s => simp only [XVal.under, foundOf]; split_ifs <;> rfl
  | num s => simp only [XVal.under, foundOf]; split_ifs <;> rfl
  | bool b => cases b <;> rfl

theorem lifts_find {x : Str} (hx : Downward eng ctx x) {b : Node.Addr} (hb : (n.get b).isSome) :
    LiftsAt a (Option.map (Found.under a)) (findNode eng ctx x (.elem (a ++ b))) (findNode eng ctx x (.elem b)) n :=
  lifts_bind (lifts_xpath hx hb) (fun v _ _ => lifts_pure (foundOf_under v))

/-- What is found exists. -/
theorem found_exists {x : Str} (hx : Downward eng ctx x) {b : Node.Addr} (hb : (n.get b).isSome) {r : Ref} {n' : Node} (h : findNode eng ctx x (.elem b) n = (.ok (some (.ref r)), n')) :
    n' = n ∧ (n.get r.addr).isSome := by
  obtain ⟨m, hm⟩ := Option.isSome_iff_exists.1 hb
  obtain ⟨h1, h2⟩ := hx n m b hm
  have h3 : findNode eng ctx x (.elem b) n = (match eng.xpath x n b ctx with
    | .ok v => (.ok (foundOf v), n)
    | .error er => (.error er, n)) := by
    unfold findNode
    cases hv : eng.xpath x n b ctx with
    | ok v => rw [bind_ok (show evalXPath eng ctx x (.elem b) n = (.ok v, n) from by show (eng.xpath x n b ctx, n) = _; rw [hv])]; rfl
    | error er => rw [bind_err (show evalXPath eng ctx x (.elem b) n = (.error er, n) from by show (eng.xpath x n b ctx, n) = _; rw [hv])]
  rw [h3, h1] at h
  cases hv : eng.xpath x m [] ctx with
  | error er => rw [hv] at h; cases h
  | ok v =>
    rw [hv] at h
    simp only [Except.map, Prod.mk.injEq, Except.ok.injEq] at h
    refine ⟨h.2.symm, ?_⟩
    cases v with
    | nodes l =>
      cases l with
      | nil => cases h.1
      | cons r' l =>
        have h4 : r'.under b = r := by simpa [XVal.under, foundOf] using h.1
        have h5 := h2 _ hv r' (by simp)
        rw [← h4]
        have : (r'.under b).addr = b ++ r'.addr := by cases r' <;> rfl
        rw [this, Node.get_append, hm]
        exact h5
    | str s => have := h.1; simp only [XVal.under, foundOf] at this; split_ifs at this <;> simp at this
    | num s => have := h.1; simp only [XVal.under, foundOf] at this; split_ifs at this <;> simp at this
    | bool b => cases b <;> simp [XVal.under, foundOf] at h

theorem lifts_foundRef (f : Found) : LiftsAt a (Ref.under a) (foundRef (f.under a)) (foundRef f) n := by
  cases f <;> first | exact lifts_pure rfl | exact lifts_raise _

/-! ### creating -/

theorem lifts_createChild (node : Ref) (pfx : Option Str) (nm : Str) (idx : Option Nat) :
    LiftsAt a (Ref.under a) (createChild ctx (node.under a) pfx nm idx) (createChild ctx node pfx nm idx) n := by
  unfold createChild
  cases childName ctx pfx nm with
  | error er => exact lifts_raise _
  | ok q =>
    simp only
    refine lifts_ite Iff.rfl (lifts_raise _) ?_
    cases node with
    | elem b =>
      refine lifts_bind (lifts_nodeAt b) (fun m _ _ => ?_)
      cases idx with
      | none => exact lifts_bind (lifts_edit b _) (fun _ _ _ => lifts_pure (by simp [Ref.under]))
      | some i => exact lifts_bind (lifts_edit b _) (fun _ _ _ => lifts_pure (by simp [Ref.under]))
    | _ => exact lifts_raise _

theorem lifts_setAttrib (b : Node.Addr) (q : QName) (v : Option Str) : LiftsAt a id (setAttrib (a ++ b) q v) (setAttrib b q v) n := by
  unfold setAttrib
  cases v with
  | none => exact lifts_raise _
  | some v => exact lifts_ite Iff.rfl (lifts_raise _) (lifts_ite Iff.rfl (lifts_raise _) (lifts_edit b _))

theorem lifts_setElemText (b : Node.Addr) (v : Option Str) : LiftsAt a id (setElemText (a ++ b) v) (setElemText b v) n := by
  unfold setElemText
  exact lifts_ite Iff.rfl (lifts_raise _) (lifts_edit b _)

theorem lifts_createAttr (node : Ref) (pfx : Option Str) (nm : Str) : LiftsAt a (Ref.under a) (createAttr ctx (node.under a) pfx nm) (createAttr ctx node pfx nm) n := by
  cases node with
  | elem b =>
    exact lifts_bind (lifts_setAttrib b _ _) (fun _ _ _ => lifts_ite Iff.rfl (lifts_pure rfl) (lifts_raise _))
  | _ => exact lifts_raise _

theorem lifts_setInXml (f : Found) (v : Option Str) (st : Option (Option Str × NodeTest)) : LiftsAt a id (setInXml ctx (f.under a) v st) (setInXml ctx f v st) n := by
  cases f with
  | ref r =>
    have other : ∀ r : Ref, LiftsAt a id (if isTextTest st then setElemText (r.under a).addr v
        else match st with
          | some (_, .name pfx nm) => setAttrib (r.under a).addr (attrName ctx pfx nm).1 v
          | _ => raise .attributeError) (if isTextTest st then setElemText r.addr v
        else match st with
          | some (_, .name pfx nm) => setAttrib r.addr (attrName ctx pfx nm).1 v
          | _ => raise .attributeError) n := by
      intro r
      have hr : (r.under a).addr = a ++ r.addr := by cases r <;> rfl
      rw [hr]
      refine lifts_ite Iff.rfl (lifts_setElemText _ _) ?_
      split
      · exact lifts_setAttrib _ _ _
      · exact lifts_raise _
    cases r with
    | elem b => exact lifts_bind (lifts_nodeAt b) (fun m _ _ => lifts_ite Iff.rfl (lifts_setElemText b v) (lifts_raise _))
    | attr b q => exact other (.attr b q)
    | text b => exact other (.text b)
    | tail b => exact other (.tail b)
  | str _ => exact lifts_raise _
  | num _ => exact lifts_pure rfl
  | bool _ => exact lifts_pure rfl

theorem lifts_createStep {ax : Option Str} {t : NodeTest} {ps : List Expr} {build : Ref → M Unit} (hb : ∀ r n, LiftsAt a id (build (Ref.under a r)) (build r) n) (node : Ref) (idx : Option Nat) :
    LiftsAt a (Ref.under a) (createStep ctx ax t ps build (node.under a) idx) (createStep ctx ax t ps build node idx) n := by
  unfold createStep
  cases t with
  | name pfx nm =>
    refine lifts_ite Iff.rfl (lifts_raise _) (lifts_bind (g := Ref.under a) ?_ (fun r _ _ => lifts_bind (hb r _) (fun _ _ _ => lifts_pure rfl)))
    exact lifts_ite Iff.rfl (lifts_createChild _ _ _ _) (lifts_ite Iff.rfl (lifts_createAttr _ _ _) (lifts_raise _))
  | type nm l => exact lifts_ite Iff.rfl (lifts_pure rfl) (lifts_raise _)

theorem lifts_onNone : ∀ (e : Expr) (n : Node), LiftsAt a (Option.map (Ref.under a)) (constructOnNone ctx e) (constructOnNone ctx e) n
  | .step _ (.name _ _) _, n => by simp only [constructOnNone]; exact lifts_raise _
  | .step _ (.type nm _) _, n => by simp only [constructOnNone]; exact lifts_ite Iff.rfl (lifts_pure rfl) (lifts_raise _)
  | .binary l .slash r, n => by
    simp only [constructOnNone]
    exact lifts_bind (lifts_onNone l n) (fun _ n' _ => lifts_onNone r n')
  | .binary l .eq r, n => by
    simp only [constructOnNone]
    exact lifts_bind (lifts_onNone l n) (fun _ n' _ => lifts_bind (g := id) (lifts_ofExcept (by cases predValue ctx r <;> rfl)) (fun _ _ _ => lifts_pure rfl))
  | .binary _ .or _, n => by simp only [constructOnNone]; exact lifts_pure rfl
  | .binary _ .and _, n => by simp only [constructOnNone]; exact lifts_pure rfl
  | .binary _ .ne _, n => by simp only [constructOnNone]; exact lifts_pure rfl
  | .binary _ .lt _, n => by simp only [constructOnNone]; exact lifts_pure rfl
  | .binary _ .le _, n => by simp only [constructOnNone]; exact lifts_pure rfl
  | .binary _ .gt _, n => by simp only [constructOnNone]; exact lifts_pure rfl
  | .binary _ .ge _, n => by simp only [constructOnNone]; exact lifts_pure rfl
  | .binary _ .plus _, n => by simp only [constructOnNone]; exact lifts_pure rfl
  | .binary _ .minus _, n => by simp only [constructOnNone]; exact lifts_pure rfl
  | .binary _ .mult _, n => by simp only [constructOnNone]; exact lifts_pure rfl
  | .binary _ .div _, n => by simp only [constructOnNone]; exact lifts_pure rfl
  | .binary _ .mod _, n => by simp only [constructOnNone]; exact lifts_pure rfl
  | .binary _ .union _, n => by simp only [constructOnNone]; exact lifts_pure rfl
  | .binary _ .dslash _, n => by simp only [constructOnNone]; exact lifts_pure rfl
  | .lit _, n => by simp only [constructOnNone]; exact lifts_pure rfl
  | .int _, n => by simp only [constructOnNone]; exact lifts_pure rfl
  | .float _, n => by simp only [constructOnNone]; exact lifts_pure rfl
  | .neg _, n => by simp only [constructOnNone]; exact lifts_pure rfl
  | .pred _ _, n => by simp only [constructOnNone]; exact lifts_pure rfl
  | .root, n => by simp only [constructOnNone]; exact lifts_pure rfl
  | .abs _ _, n => by simp only [constructOnNone]; exact lifts_pure rfl
  | .abbrev _, n => by simp only [constructOnNone]; exact lifts_pure rfl
  | .var _ _, n => by simp only [constructOnNone]; exact lifts_pure rfl
  | .call _ _ _, n => by simp only [constructOnNone]; exact lifts_pure rfl

mutual
theorem lifts_construct : ∀ (e : Expr) (node : Ref) (n : Node), LiftsAt a (Option.map (Ref.under a)) (construct ctx e (node.under a)) (construct ctx e node) n
  | .step ax t ps, node, n => by
    rw [construct, construct]
    exact lifts_bind (lifts_createStep (fun r n => lifts_constructAll ps r n) node none) (fun _ _ _ => lifts_pure rfl)
  | .binary l .slash r, node, n => by
    rw [construct, construct]
    refine lifts_bind (lifts_construct l node n) (fun o n' _ => ?_)
    cases o with
    | none => exact lifts_onNone r n'
    | some leaf => exact lifts_construct r leaf n'
  | .binary l .eq r, node, n => by
    rw [construct, construct]
    refine lifts_bind (lifts_construct l node n) (fun o n' _ => ?_)
    have hv : LiftsAt a id (ofExcept (predValue ctx r)) (ofExcept (predValue ctx r)) n' := lifts_ofExcept (by cases predValue ctx r <;> rfl)
    cases o with
    | none => exact lifts_bind hv (fun _ _ _ => lifts_pure rfl)
    | some leaf => exact lifts_bind hv (fun v _ _ => lifts_bind (lifts_setInXml (.ref leaf) _ _) (fun _ _ _ => lifts_pure rfl))
  | .binary _ .or _, node, n => by rw [construct, construct]; exact lifts_pure rfl; all_goals simp
  | .binary _ .and _, node, n => by rw [construct, construct]; exact lifts_pure rfl; all_goals simp
  | .binary _ .ne _, node, n => by rw [construct, construct]; exact lifts_pure rfl; all_goals simp
  | .binary _ .lt _, node, n => by rw [construct, construct]; exact lifts_pure rfl; all_goals simp
  | .binary _ .le _, node, n => by rw [construct, construct]; exact lifts_pure rfl; all_goals simp
  | .binary _ .gt _, node, n => by rw [construct, construct]; exact lifts_pure rfl; all_goals simp
  | .binary _ .ge _, node, n => by rw [construct, construct]; exact lifts_pure rfl; all_goals simp
  | .binary _ .plus _, node, n => by rw [construct, construct]; exact lifts_pure rfl; all_goals simp
  | .binary _ .minus _, node, n => by rw [construct, construct]; exact lifts_pure rfl; all_goals simp
  | .binary _ .mult _, node, n => by rw [construct, construct]; exact lifts_pure rfl; all_goals simp
  | .binary _ .div _, node, n => by rw [construct, construct]; exact lifts_pure rfl; all_goals simp
  | .binary _ .mod _, node, n => by rw [construct, construct]; exact lifts_pure rfl; all_goals simp
  | .binary _ .union _, node, n => by rw [construct, construct]; exact lifts_pure rfl; all_goals simp
  | .binary _ .dslash _, node, n => by rw [construct, construct]; exact lifts_pure rfl; all_goals simp
  | .lit _, node, n => by rw [construct, construct]; exact lifts_pure rfl; all_goals simp
  | .int _, node, n => by rw [construct, construct]; exact lifts_pure rfl; all_goals simp
  | .float _, node, n => by rw [construct, construct]; exact lifts_pure rfl; all_goals simp
  | .neg _, node, n => by rw [construct, construct]; exact lifts_pure rfl; all_goals simp
  | .pred _ _, node, n => by rw [construct, construct]; exact lifts_pure rfl; all_goals simp
  | .root, node, n => by rw [construct, construct]; exact lifts_pure rfl; all_goals simp
  | .abs _ _, node, n => by rw [construct, construct]; exact lifts_pure rfl; all_goals simp
  | .abbrev _, node, n => by rw [construct, construct]; exact lifts_pure rfl; all_goals simp
  | .var _ _, node, n => by rw [construct, construct]; exact lifts_pure rfl; all_goals simp
  | .call _ _ _, node, n => by rw [construct, construct]; exact lifts_pure rfl; all_goals simp
theorem lifts_constructAll : ∀ (ps : List Expr) (node : Ref) (n : Node), LiftsAt a id (constructAll ctx ps (node.under a)) (constructAll ctx ps node) n
  | [], node, n => by rw [constructAll, constructAll]; exact lifts_pure rfl
  | p :: ps, node, n => by
    rw [constructAll, constructAll]
    exact lifts_bind (lifts_construct p node n) (fun _ n' _ => lifts_constructAll ps node n')
end

theorem lifts_create : ∀ (e : Expr), flat e = true → (∀ x ∈ lookups e, Downward eng ctx x) → ∀ (b : Node.Addr) (idx : Option Nat) (n : Node), (n.get b).isSome →
    LiftsAt a (Ref.under a) (createNode eng ctx e (.elem (a ++ b)) idx) (createNode eng ctx e (.elem b) idx) n
  | .step ax t ps, _, _, b, idx, n, hb => by
    rw [createNode, createNode]
    exact lifts_createStep (fun r n => lifts_constructAll ps r n) (.elem b) idx
  | .binary l .slash r, hf, hx, b, idx, n, hb => by
    have right : ∀ (left : Ref) (n : Node), LiftsAt a (Ref.under a) (createNode eng ctx r (left.under a) none) (createNode eng ctx r left none) n := by
      intro left n
      have hf2 : isSlash r = false := by simp only [flat, Bool.and_eq_true, Bool.not_eq_true'] at hf; exact hf.2
      cases r with
      | step ax t ps => rw [createNode, createNode]; exact lifts_createStep (fun r n => lifts_constructAll ps r n) left none
      | binary l' op r' =>
        cases op with
        | slash => exact absurd hf2 (by simp [isSlash])
        | _ => rw [createNode, createNode]; exact lifts_raise _; all_goals simp
      | _ => rw [createNode, createNode]; exact lifts_raise _; all_goals simp
    rw [createNode, createNode]
    refine lifts_bind (lifts_find (hx _ (by simp [lookups])) hb) (fun o n' h' => ?_)
    cases o with
    | some f => exact lifts_bind (lifts_foundRef f) (fun left n' _ => right left n')
    | none =>
      have hn : n' = n := by
        obtain ⟨o, ho⟩ := findNode_state (eng := eng) (ctx := ctx) l.ser (.elem b) n
        rw [ho] at h'
        cases h'
        rfl
      have hf1 : flat l = true := by simp only [flat, Bool.and_eq_true] at hf; exact hf.1
      exact lifts_bind (lifts_create l hf1 (fun x hm => hx x (by simp [lookups, hm])) b none n' (by rw [hn]; exact hb)) (fun left n'' _ => right left n'')
  | .binary _ .eq _, _, _, b, idx, n, _ => by rw [createNode, createNode]; exact lifts_raise _; all_goals simp
  | .binary _ .or _, _, _, b, idx, n, _ => by rw [createNode, createNode]; exact lifts_raise _; all_goals simp
  | .binary _ .and _, _, _, b, idx, n, _ => by rw [createNode, createNode]; exact lifts_raise _; all_goals simp
  | .binary _ .ne _, _, _, b, idx, n, _ => by rw [createNode, createNode]; exact lifts_raise _; all_goals simp
  | .binary _ .lt _, _, _, b, idx, n, _ => by rw [createNode, createNode]; exact lifts_raise _; all_goals simp
  | .binary _ .le _, _, _, b, idx, n, _ => by rw [createNode, createNode]; exact lifts_raise _; all_goals simp
  | .binary _ .gt _, _, _, b, idx, n, _ => by rw [createNode, createNode]; exact lifts_raise _; all_goals simp
  | .binary _ .ge _, _, _, b, idx, n, _ => by rw [createNode, createNode]; exact lifts_raise _; all_goals simp
  | .binary _ .plus _, _, _, b, idx, n, _ => by rw [createNode, createNode]; exact lifts_raise _; all_goals simp
  | .binary _ .minus _, _, _, b, idx, n, _ => by rw [createNode, createNode]; exact lifts_raise _; all_goals simp
  | .binary _ .mult _, _, _, b, idx, n, _ => by rw [createNode, createNode]; exact lifts_raise _; all_goals simp
  | .binary _ .div _, _, _, b, idx, n, _ => by rw [createNode, createNode]; exact lifts_raise _; all_goals simp
  | .binary _ .mod _, _, _, b, idx, n, _ => by rw [createNode, createNode]; exact lifts_raise _; all_goals simp
  | .binary _ .union _, _, _, b, idx, n, _ => by rw [createNode, createNode]; exact lifts_raise _; all_goals simp
  | .binary _ .dslash _, _, _, b, idx, n, _ => by rw [createNode, createNode]; exact lifts_raise _; all_goals simp
  | .lit _, _, _, b, idx, n, _ => by rw [createNode, createNode]; exact lifts_raise _; all_goals simp
  | .int _, _, _, b, idx, n, _ => by rw [createNode, createNode]; exact lifts_raise _; all_goals simp
  | .float _, _, _, b, idx, n, _ => by rw [createNode, createNode]; exact lifts_raise _; all_goals simp
  | .neg _, _, _, b, idx, n, _ => by rw [createNode, createNode]; exact lifts_raise _; all_goals simp
  | .pred _ _, _, _, b, idx, n, _ => by rw [createNode, createNode]; exact lifts_raise _; all_goals simp
  | .root, _, _, b, idx, n, _ => by rw [createNode, createNode]; exact lifts_raise _; all_goals simp
  | .abs _ _, _, _, b, idx, n, _ => by rw [createNode, createNode]; exact lifts_raise _; all_goals simp
  | .abbrev _, _, _, b, idx, n, _ => by rw [createNode, createNode]; exact lifts_raise _; all_goals simp
  | .var _ _, _, _, b, idx, n, _ => by rw [createNode, createNode]; exact lifts_raise _; all_goals simp
  | .call _ _ _, _, _, b, idx, n, _ => by rw [createNode, createNode]; exact lifts_raise _; all_goals simp

/-! ### removing -/

theorem lifts_removeAttr (node : Ref) (pfx : Option Str) (nm : Str) : LiftsAt a id (removeAttr ctx pfx nm (node.under a)) (removeAttr ctx pfx nm node) n := by
  cases node with
  | elem b => exact lifts_bind (lifts_nodeAt b) (fun m _ _ => lifts_ite Iff.rfl (lifts_bind (lifts_edit b _) (fun _ _ _ => lifts_pure rfl)) (lifts_raise _))
  | _ => exact lifts_raise _

theorem lifts_clearText (node : Ref) : LiftsAt a id (clearText (node.under a)) (clearText node) n := by
  cases node with
  | elem b => exact lifts_bind (lifts_edit b _) (fun _ _ _ => lifts_pure rfl)
  | _ => exact lifts_raise _

theorem lifts_removeChild {x : Str} (hx : Downward eng ctx x) (rp : Ref → M Unit) (ifEmpty : Bool) (node : Ref) (hn : (n.get node.addr).isSome) :
    LiftsAt a id (removeChildNode eng ctx x rp ifEmpty (node.under a)) (removeChildNode eng ctx x rp ifEmpty node) n := by
  cases node with
  | elem b =>
    refine lifts_bind (lifts_find hx hn) (fun o _ _ => ?_)
    cases o with
    | none => exact lifts_pure rfl
    | some f =>
      cases f with
      | ref r =>
        cases r with
        | elem c =>
          refine lifts_bind (lifts_nodeAt c) (fun child n' _ => lifts_bind (g := id) (lifts_ofExcept ?_) (fun go n'' _ => lifts_ite Iff.rfl ?_ (lifts_pure rfl)))
          · show (if ifEmpty = true then emptyExcept rp child else .ok true) = _
            cases (if ifEmpty = true then emptyExcept rp child else .ok true) <;> rfl
          · have hlast : c ≠ [] → (a ++ c).dropLast = a ++ c.dropLast ∧ (a ++ c).getLast?.getD 0 = c.getLast?.getD 0 := by
              intro hc
              refine ⟨List.dropLast_append_of_ne_nil hc, ?_⟩
              rw [List.getLast?_append]
              cases h : c.getLast? with
              | none => exact absurd (List.getLast?_eq_none_iff.1 h) hc
              | some i => rfl
            have hiff : (a ++ c ≠ [] ∧ Ref.elem (a ++ c).dropLast = Ref.elem (a ++ b)) ↔ (c ≠ [] ∧ Ref.elem c.dropLast = Ref.elem b) := by
              by_cases hc : c = []
              · subst hc
                simp only [List.append_nil, ne_eq, not_true_eq_false, false_and, iff_false, not_and, Ref.elem.injEq]
                intro ha h
                have := congrArg List.length h
                simp at this
                have : 0 < a.length := List.length_pos_iff.2 ha
                omega
              · rw [(hlast hc).1]
                simp [hc]
            by_cases hc : c ≠ [] ∧ Ref.elem c.dropLast = Ref.elem b
            · show LiftsAt a id (if a ++ c ≠ [] ∧ Ref.elem (a ++ c).dropLast = Ref.elem (a ++ b) then _ else _) _ n''
              rw [if_pos (hiff.2 hc), if_pos hc, (hlast hc.1).1, (hlast hc.1).2]
              exact lifts_bind (lifts_edit c.dropLast _) (fun _ _ _ => lifts_pure rfl)
            · show LiftsAt a id (if a ++ c ≠ [] ∧ Ref.elem (a ++ c).dropLast = Ref.elem (a ++ b) then _ else _) _ n''
              rw [if_neg (fun h => hc (hiff.1 h)), if_neg hc]
              exact lifts_raise _
        | _ => exact lifts_raise _
      | _ => exact lifts_raise _
  | attr b q => exact lifts_bind (g := Option.map (Found.under a)) (lifts_bind (g := XVal.under a) (lifts_raise _) (fun v _ _ => lifts_pure (foundOf_under v))) (fun _ _ h => by cases h)
  | text b => exact lifts_bind (g := Option.map (Found.under a)) (lifts_bind (g := XVal.under a) (lifts_raise _) (fun v _ _ => lifts_pure (foundOf_under v))) (fun _ _ h => by cases h)
  | tail b => exact lifts_bind (g := Option.map (Found.under a)) (lifts_bind (g := XVal.under a) (lifts_raise _) (fun v _ _ => lifts_pure (foundOf_under v))) (fun _ _ h => by cases h)

theorem lifts_removeStep {x : Str} (hx : Downward eng ctx x) (ax : Option Str) (t : NodeTest) (rp : Ref → M Unit) (ifEmpty : Bool) (node : Ref) (hn : (n.get node.addr).isSome) :
    LiftsAt a id (removeStep eng ctx x ax t rp ifEmpty (node.under a)) (removeStep eng ctx x ax t rp ifEmpty node) n := by
  unfold removeStep
  cases t with
  | name pfx nm => exact lifts_ite Iff.rfl (lifts_removeChild hx _ _ _ hn) (lifts_ite Iff.rfl (lifts_removeAttr _ _ _) (lifts_pure rfl))
  | type nm l => exact lifts_ite Iff.rfl (lifts_clearText _) (lifts_pure rfl)

theorem lifts_remove : ∀ (e : Expr), flat e = true → (∀ x ∈ lookups e, Downward eng ctx x) → ∀ (ifEmpty : Bool) (n : Node),
    LiftsAt a id (removeXml eng ctx e ifEmpty ((Ref.elem []).under a)) (removeXml eng ctx e ifEmpty (.elem [])) n
  | .step ax t ps, _, hx, ifEmpty, n => by
    rw [removeXml, removeXml]
    exact lifts_removeStep (hx _ (by simp [lookups])) _ _ _ _ _ rfl
  | .binary l .slash r, hf, hx, ifEmpty, n => by
    have hf1 : flat l = true := by simp only [flat, Bool.and_eq_true] at hf; exact hf.1
    have hf2 : isSlash r = false := by simp only [flat, Bool.and_eq_true, Bool.not_eq_true'] at hf; exact hf.2
    have right : ∀ (left : Ref) (n : Node), (n.get left.addr).isSome → LiftsAt a id (removeXml eng ctx r ifEmpty (left.under a)) (removeXml eng ctx r ifEmpty left) n := by
      intro left n hl
      cases r with
      | step ax t ps => rw [removeXml, removeXml]; exact lifts_removeStep (hx _ (by simp [lookups])) _ _ _ _ _ hl
      | binary l' op r' =>
        cases op with
        | slash => exact absurd hf2 (by simp [isSlash])
        | _ => rw [removeXml, removeXml]; exact lifts_pure rfl; all_goals simp
      | _ => rw [removeXml, removeXml]; exact lifts_pure rfl; all_goals simp
    rw [removeXml, removeXml]
    refine lifts_bind (lifts_find (hx _ (by simp [lookups])) rfl) (fun o n' h' => ?_)
    cases o with
    | none => exact lifts_pure rfl
    | some f =>
      refine lifts_bind (lifts_foundRef f) (fun left n'' h'' => ?_)
      have hleft : (n''.get left.addr).isSome := by
        cases f with
        | ref r' =>
          obtain ⟨rfl, h2⟩ := found_exists (hx _ (by simp [lookups])) rfl h'
          cases h''
          exact h2
        | _ => cases h''
      exact lifts_bind (right left n'' hleft) (fun removed n3 _ => lifts_ite Iff.rfl
        (lifts_bind (lifts_remove l hf1 (fun x hm => hx x (by simp [lookups, hm])) true n3) (fun _ _ _ => lifts_pure rfl)) (lifts_pure rfl))
  | .binary _ .eq _, _, _, ifEmpty, n => by rw [removeXml, removeXml]; exact lifts_pure rfl; all_goals simp
  | .binary _ .or _, _, _, ifEmpty, n => by rw [removeXml, removeXml]; exact lifts_pure rfl; all_goals simp
  | .binary _ .and _, _, _, ifEmpty, n => by rw [removeXml, removeXml]; exact lifts_pure rfl; all_goals simp
  | .binary _ .ne _, _, _, ifEmpty, n => by rw [removeXml, removeXml]; exact lifts_pure rfl; all_goals simp
  | .binary _ .lt _, _, _, ifEmpty, n => by rw [removeXml, removeXml]; exact lifts_pure rfl; all_goals simp
  | .binary _ .le _, _, _, ifEmpty, n => by rw [removeXml, removeXml]; exact lifts_pure rfl; all_goals simp
  | .binary _ .gt _, _, _, ifEmpty, n => by rw [removeXml, removeXml]; exact lifts_pure rfl; all_goals simp
  | .binary _ .ge _, _, _, ifEmpty, n => by rw [removeXml, removeXml]; exact lifts_pure rfl; all_goals simp
  | .binary _ .plus _, _, _, ifEmpty, n => by rw [removeXml, removeXml]; exact lifts_pure rfl; all_goals simp
  | .binary _ .minus _, _, _, ifEmpty, n => by rw [removeXml, removeXml]; exact lifts_pure rfl; all_goals simp
  | .binary _ .mult _, _, _, ifEmpty, n => by rw [removeXml, removeXml]; exact lifts_pure rfl; all_goals simp
  | .binary _ .div _, _, _, ifEmpty, n => by rw [removeXml, removeXml]; exact lifts_pure rfl; all_goals simp
  | .binary _ .mod _, _, _, ifEmpty, n => by rw [removeXml, removeXml]; exact lifts_pure rfl; all_goals simp
  | .binary _ .union _, _, _, ifEmpty, n => by rw [removeXml, removeXml]; exact lifts_pure rfl; all_goals simp
  | .binary _ .dslash _, _, _, ifEmpty, n => by rw [removeXml, removeXml]; exact lifts_pure rfl; all_goals simp
  | .lit _, _, _, ifEmpty, n => by rw [removeXml, removeXml]; exact lifts_pure rfl; all_goals simp
  | .int _, _, _, ifEmpty, n => by rw [removeXml, removeXml]; exact lifts_pure rfl; all_goals simp
  | .float _, _, _, ifEmpty, n => by rw [removeXml, removeXml]; exact lifts_pure rfl; all_goals simp
  | .neg _, _, _, ifEmpty, n => by rw [removeXml, removeXml]; exact lifts_pure rfl; all_goals simp
  | .pred _ _, _, _, ifEmpty, n => by rw [removeXml, removeXml]; exact lifts_pure rfl; all_goals simp
  | .root, _, _, ifEmpty, n => by rw [removeXml, removeXml]; exact lifts_pure rfl; all_goals simp
  | .abs _ _, _, _, ifEmpty, n => by rw [removeXml, removeXml]; exact lifts_pure rfl; all_goals simp
  | .abbrev _, _, _, ifEmpty, n => by rw [removeXml, removeXml]; exact lifts_pure rfl; all_goals simp
  | .var _ _, _, _, ifEmpty, n => by rw [removeXml, removeXml]; exact lifts_pure rfl; all_goals simp
  | .call _ _ _, _, _, ifEmpty, n => by rw [removeXml, removeXml]; exact lifts_pure rfl; all_goals simp

/-! ### fields -/

theorem itemOf_under {s : Node} (hs : s.get a = some n) (f : Found) : itemOf s (f.under a) = itemOf n f := by
  cases f with
  | ref r => cases r <;> simp [Found.under, Ref.under, itemOf, Node.get_append, hs]
  | _ => rfl

/-- An assigned value that is no element of the same document. -/
def XValue.free : XValue → Bool
  | .elem (.own _) => false
  | _ => true

theorem lifts_setValue (f : Found) {v : XValue} (hv : v.free = true) (st : Option (Option Str × NodeTest)) : LiftsAt a id (setValue ctx (f.under a) v st) (setValue ctx f v st) n := by
  cases v with
  | str x => exact lifts_setInXml f _ st
  | elem w =>
    cases w with
    | own b => cases hv
    | foreign w =>
      cases f with
      | ref r =>
        cases r with
        | elem b => exact lifts_edit b _
        | _ => exact lifts_raise _
      | str _ => exact lifts_raise _
      | num _ => exact lifts_pure rfl
      | bool _ => exact lifts_pure rfl

variable {xp : Str} {e : Expr} (hf : flat e = true) (hx : ∀ x ∈ xp :: lookups e, Downward eng ctx x)
include hf hx

theorem lifts_managerDelete : LiftsAt a id (managerDelete eng ctx xp e ((Ref.elem []).under a)) (managerDelete eng ctx xp e (.elem [])) n := by
  refine lifts_bind (lifts_find (hx _ (by simp)) rfl) (fun o n' _ => ?_)
  cases o with
  | none => exact lifts_pure rfl
  | some f => exact lifts_bind (lifts_remove e hf (fun x hm => hx x (by simp [hm])) false n') (fun _ _ _ => lifts_pure rfl)

theorem lifts_managerSet {xv : Except PyErr (Option XValue)} (hv : ∀ v, xv = .ok (some v) → v.free = true) :
    LiftsAt a id (managerSet eng ctx xv xp e ((Ref.elem []).under a)) (managerSet eng ctx xv xp e (.elem [])) n := by
  refine lifts_bind (g := id) (lifts_ofExcept (by cases xv <;> rfl)) (fun v n1 h1 => lifts_bind (lifts_find (hx _ (by simp)) rfl) (fun o n' _ => ?_))
  have hxv : xv = .ok v := by
    cases xv with
    | error er => cases h1
    | ok w => cases h1; rfl
  cases v with
  | none =>
    cases o with
    | none => exact lifts_pure rfl
    | some f => exact lifts_bind (lifts_remove e hf (fun x hm => hx x (by simp [hm])) false n') (fun _ _ _ => lifts_pure rfl)
  | some v =>
    cases o with
    | some f => exact lifts_setValue f (hv v hxv) _
    | none => exact lifts_bind (lifts_create e hf (fun x hm => hx x (by simp [hm])) [] none n' rfl) (fun r _ _ => lifts_setValue (.ref r) (hv v hxv) _)

theorem lifts_managerCreate : LiftsAt a (Found.under a) (managerCreate eng ctx xp e ((Ref.elem []).under a)) (managerCreate eng ctx xp e (.elem [])) n := by
  refine lifts_bind (lifts_find (hx _ (by simp)) rfl) (fun o n' _ => ?_)
  cases o with
  | some f => exact lifts_pure rfl
  | none => exact lifts_bind (lifts_create e hf (fun x hm => hx x (by simp [hm])) [] none n' rfl) (fun r _ _ => lifts_pure rfl)

theorem lifts_managerGet {α : Type} (inst : Bool) (toPy : Option Item → Except PyErr α) :
    LiftsAt a id (managerGet eng ctx inst (fun doc m => toPy (m.bind (itemOf doc))) xp e ((Ref.elem []).under a)) (managerGet eng ctx inst (fun doc m => toPy (m.bind (itemOf doc))) xp e (.elem [])) n := by
  have last : ∀ (m : Option Found) (n : Node), LiftsAt a id (getDoc >>= fun doc => ofExcept (toPy ((m.map (Found.under a)).bind (itemOf doc)))) (getDoc >>= fun doc => ofExcept (toPy (m.bind (itemOf doc)))) n := by
    intro m n s hs
    have h : (m.map (Found.under a)).bind (itemOf s) = m.bind (itemOf n) := by
      cases m with
      | none => rfl
      | some f => exact itemOf_under hs f
    rw [bind_ok (show getDoc s = (.ok s, s) from rfl), bind_ok (show getDoc n = (.ok n, n) from rfl), h]
    exact lifts_ofExcept (g := id) (by cases toPy (m.bind (itemOf n)) <;> rfl) s hs
  refine lifts_bind (lifts_find (hx _ (by simp)) rfl) (fun o n' _ => ?_)
  refine lifts_ite (by cases o <;> simp) (lifts_bind (lifts_create e hf (fun x hm => hx x (by simp [hm])) [] none n' rfl) (fun r n'' _ => last (some (.ref r)) n'')) (last o n')

end
end Fields
