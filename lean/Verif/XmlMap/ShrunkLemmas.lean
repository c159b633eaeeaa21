import Verif.XmlMap.Manager
import Verif.XmlMap.FrameLemmas
import Verif.Spec.Shrunk
/-
Deletion with any XPath and any engine only takes away.
-/
namespace Fields
open Xml XPath Spec

section
variable {t t' : Takes}

mutual
theorem shrunk_refl : ∀ n : Node, Shrunk t n n
  | .mk _ _ _ cs _ => .mk (List.Sublist.refl _) (fun _ => rfl) (.inl rfl) (shrunkAll_refl cs)
theorem shrunkAll_refl : ∀ cs : List Node, ShrunkAll t cs cs
  | [] => .nil
  | c :: cs => .keep (shrunk_refl c) (shrunkAll_refl cs)
end

mutual
theorem shrunk_trans : ∀ {n m k : Node}, Shrunk t n m → Shrunk t m k → Shrunk t n k
  | _, _, _, .mk ha ha' hx hc, .mk hb hb' hy hd => .mk (hb.trans ha) (fun h => by rw [hb' h, ha' h])
      (by rcases hy with rfl | ⟨h, rfl⟩
          · exact hx
          · exact .inr ⟨h, rfl⟩) (shrunkAll_trans hc hd)
theorem shrunkAll_trans : ∀ {n m k : List Node}, ShrunkAll t n m → ShrunkAll t m k → ShrunkAll t n k
  | _, _, _, .nil, .nil => .nil
  | _, _, _, .drop h hc, hd => .drop h (shrunkAll_trans hc hd)
  | _, _, _, .keep _ hc, .drop h hd => .drop h (shrunkAll_trans hc hd)
  | _, _, _, .keep h hc, .keep h' hd => .keep (shrunk_trans h h') (shrunkAll_trans hc hd)
end

/-- More kinds. -/
def Takes.le (t t' : Takes) : Prop := (t.elems = true → t'.elems = true) ∧ (t.attrs = true → t'.attrs = true) ∧ (t.texts = true → t'.texts = true)

mutual
theorem shrunk_mono (h : Takes.le t t') : ∀ {n m : Node}, Shrunk t n m → Shrunk t' n m
  | _, _, .mk ha ha' hx hc => .mk ha (fun h' => ha' (by
      cases e : t.attrs with
      | false => rfl
      | true => rw [h.2.1 e] at h'; cases h')) (hx.imp id (fun hx => ⟨h.2.2 hx.1, hx.2⟩)) (shrunkAll_mono h hc)
theorem shrunkAll_mono (h : Takes.le t t') : ∀ {n m : List Node}, ShrunkAll t n m → ShrunkAll t' n m
  | _, _, .nil => .nil
  | _, _, .drop h' hc => .drop (h.1 h') (shrunkAll_mono h hc)
  | _, _, .keep h' hc => .keep (shrunk_mono h h') (shrunkAll_mono h hc)
end

theorem shrunkAll_modify {f : Node → Node} (hf : ∀ n, Shrunk t n (f n)) : ∀ (cs : List Node) (i : Nat), ShrunkAll t cs (cs.modify i f)
  | [], i => by rw [List.modify_nil]; exact .nil
  | c :: cs, 0 => by rw [List.modify_zero_cons]; exact .keep (hf c) (shrunkAll_refl cs)
  | c :: cs, i + 1 => by rw [List.modify_succ_cons]; exact .keep (shrunk_refl c) (shrunkAll_modify hf cs i)

theorem shrunk_modify {f : Node → Node} (hf : ∀ n, Shrunk t n (f n)) : ∀ (a : Node.Addr) (n : Node), Shrunk t n (n.modify a f)
  | [], n => hf n
  | i :: a, .mk tg as x cs l => by
    show Shrunk t _ (.mk tg as x (cs.modify i (Node.modify a f)) l)
    exact .mk (List.Sublist.refl _) (fun _ => rfl) (.inl rfl) (shrunkAll_modify (shrunk_modify hf a) cs i)

theorem shrunkAll_erase (h : t.elems = true) : ∀ (cs : List Node) (i : Nat), ShrunkAll t cs (cs.eraseIdx i)
  | [], i => by rw [List.eraseIdx_nil]; exact .nil
  | c :: cs, 0 => by rw [List.eraseIdx_zero]; exact .drop h (shrunkAll_refl cs)
  | c :: cs, i + 1 => by rw [List.eraseIdx_cons_succ]; exact .keep (shrunk_refl c) (shrunkAll_erase h cs i)

theorem shrunk_removeChild (h : t.elems = true) (i : Nat) : ∀ n : Node, Shrunk t n (n.removeChild i)
  | .mk _ _ _ cs _ => .mk (List.Sublist.refl _) (fun _ => rfl) (.inl rfl) (shrunkAll_erase h cs i)

theorem shrunk_delAttr (h : t.attrs = true) (q : QName) : ∀ n : Node, Shrunk t n (n.delAttr q)
  | .mk _ _ _ cs _ => .mk List.filter_sublist (fun h' => by rw [h] at h'; cases h') (.inl rfl) (shrunkAll_refl cs)

theorem shrunk_clearText (h : t.texts = true) : ∀ n : Node, Shrunk t n (n.setText (some []))
  | .mk _ _ _ cs _ => .mk (List.Sublist.refl _) (fun _ => rfl) (.inr ⟨h, rfl⟩) (shrunkAll_refl cs)

end

/-- A program that only takes away. -/
def OnlyTakes {α : Type} (t : Takes) (m : M α) : Prop := ∀ s, Shrunk t s (m s).2

section
variable {α β : Type} {t : Takes}

theorem onlyTakes_bind {m : M α} {f : α → M β} (hm : OnlyTakes t m) (hf : ∀ x, OnlyTakes t (f x)) : OnlyTakes t (m >>= f) := by
  intro s
  have h1 := hm s
  cases h : m s with
  | mk r s' =>
    rw [h] at h1
    cases r with
    | ok x => rw [bind_ok h]; exact shrunk_trans h1 (hf x s')
    | error er => rw [bind_err h]; exact h1

theorem onlyTakes_pure (x : α) : OnlyTakes t (pure x : M α) := fun s => shrunk_refl s
theorem onlyTakes_raise (er : PyErr) : OnlyTakes t (raise er : M α) := fun s => shrunk_refl s
theorem onlyTakes_ofExcept (r : Except PyErr α) : OnlyTakes t (ofExcept r) := by
  cases r with
  | ok x => exact onlyTakes_pure x
  | error er => exact onlyTakes_raise er
theorem onlyTakes_nodeAt (a : Node.Addr) : OnlyTakes t (nodeAt a) := by
  intro s
  unfold nodeAt
  split <;> exact shrunk_refl s
theorem onlyTakes_foundRef (f : Found) : OnlyTakes t (foundRef f) := by
  cases f <;> first | exact onlyTakes_pure _ | exact onlyTakes_raise _
theorem onlyTakes_edit {f : Node → Node} (hf : ∀ n, Shrunk t n (f n)) (a : Node.Addr) : OnlyTakes t (edit a f) := fun s => shrunk_modify hf a s
theorem onlyTakes_ite {p : Prop} [Decidable p] {m m' : M α} (h : OnlyTakes t m) (h' : OnlyTakes t m') : OnlyTakes t (if p then m else m') := by
  split_ifs
  · exact h
  · exact h'

variable [PyUnicode] {eng : Engine} {ctx : Ctx}

theorem onlyTakes_find (xp : Str) (node : Ref) : OnlyTakes t (findNode eng ctx xp node) := by
  intro s
  obtain ⟨o, ho⟩ := findNode_state (eng := eng) (ctx := ctx) xp node s
  rw [ho]
  exact shrunk_refl s

theorem onlyTakes_removeAttr (h : t.attrs = true) (pfx : Option Str) (nm : Str) (node : Ref) : OnlyTakes t (removeAttr ctx pfx nm node) := by
  cases node with
  | elem a =>
    exact onlyTakes_bind (onlyTakes_nodeAt a) (fun n => onlyTakes_ite (onlyTakes_bind (onlyTakes_edit (shrunk_delAttr h _) a) (fun _ => onlyTakes_pure _)) (onlyTakes_raise _))
  | _ => exact onlyTakes_raise _

theorem onlyTakes_clearText (h : t.texts = true) (node : Ref) : OnlyTakes t (clearText node) := by
  cases node with
  | elem a => exact onlyTakes_bind (onlyTakes_edit (shrunk_clearText h) a) (fun _ => onlyTakes_pure _)
  | _ => exact onlyTakes_raise _

theorem onlyTakes_removeChild (h : t.elems = true) (xp : Str) (rp : Ref → M Unit) (ifEmpty : Bool) (node : Ref) : OnlyTakes t (removeChildNode eng ctx xp rp ifEmpty node) := by
  refine onlyTakes_bind (onlyTakes_find xp node) (fun o => ?_)
  cases o with
  | none => exact onlyTakes_pure _
  | some f =>
    cases f with
    | ref r =>
      cases r with
      | elem b =>
        exact onlyTakes_bind (onlyTakes_nodeAt b) (fun child => onlyTakes_bind (onlyTakes_ofExcept _) (fun go => onlyTakes_ite
          (onlyTakes_ite (onlyTakes_bind (onlyTakes_edit (shrunk_removeChild h _) _) (fun _ => onlyTakes_pure _)) (onlyTakes_raise _)) (onlyTakes_pure _)))
      | _ => exact onlyTakes_raise _
    | _ => exact onlyTakes_raise _

theorem onlyTakes_removeStep {ax : Option Str} {nt : NodeTest} {ps : List Expr} (h : Takes.le (kindsOf (.step ax nt ps)) t) (xp : Str) (rp : Ref → M Unit) (ifEmpty : Bool) (node : Ref) :
    OnlyTakes t (removeStep eng ctx xp ax nt rp ifEmpty node) := by
  unfold removeStep
  cases nt with
  | name pfx nm =>
    simp only
    split_ifs with h1 h2
    · exact onlyTakes_removeChild (h.1 (by simp [kindsOf, pathSteps, elemStep]; exact h1)) _ _ _ _
    · exact onlyTakes_removeAttr (h.2.1 (by simp [kindsOf, pathSteps, attrStep]; exact h2)) _ _ _
    · exact onlyTakes_pure _
  | type nm l =>
    simp only
    split_ifs with h1
    · exact onlyTakes_clearText (h.2.2 (by simp [kindsOf, pathSteps, textStep]; exact h1)) _
    · exact onlyTakes_pure _

theorem kinds_left {l r : Expr} : Takes.le (kindsOf l) (kindsOf (.binary l .slash r)) := by
  refine ⟨?_, ?_, ?_⟩ <;> (simp only [kindsOf, pathSteps, List.any_append, Bool.or_eq_true]; exact .inl)

theorem kinds_right {l r : Expr} : Takes.le (kindsOf r) (kindsOf (.binary l .slash r)) := by
  refine ⟨?_, ?_, ?_⟩ <;> (simp only [kindsOf, pathSteps, List.any_append, Bool.or_eq_true]; exact .inr)

theorem le_trans' {t t' t'' : Takes} (h : Takes.le t t') (h' : Takes.le t' t'') : Takes.le t t'' :=
  ⟨fun x => h'.1 (h.1 x), fun x => h'.2.1 (h.2.1 x), fun x => h'.2.2 (h.2.2 x)⟩

theorem onlyTakes_removeXml : ∀ (e : Expr) {t : Takes}, Takes.le (kindsOf e) t → ∀ (ifEmpty : Bool) (node : Ref), OnlyTakes t (removeXml eng ctx e ifEmpty node)
  | .step ax nt ps, t, h, ifEmpty, node => by
    unfold removeXml
    exact onlyTakes_removeStep h _ _ _ _
  | .binary l .slash r, t, h, ifEmpty, node => by
    unfold removeXml
    refine onlyTakes_bind (onlyTakes_find _ _) (fun o => ?_)
    cases o with
    | none => exact onlyTakes_pure _
    | some f =>
      exact onlyTakes_bind (onlyTakes_foundRef f) (fun left => onlyTakes_bind (onlyTakes_removeXml r (le_trans' kinds_right h) ifEmpty left) (fun removed =>
        onlyTakes_ite (onlyTakes_bind (onlyTakes_removeXml l (le_trans' kinds_left h) true node) (fun _ => onlyTakes_pure _)) (onlyTakes_pure _)))
  | .lit _, _, _, _, _ => by unfold removeXml; exact onlyTakes_pure _
  | .int _, _, _, _, _ => by unfold removeXml; exact onlyTakes_pure _
  | .float _, _, _, _, _ => by unfold removeXml; exact onlyTakes_pure _
  | .neg _, _, _, _, _ => by unfold removeXml; exact onlyTakes_pure _
  | .pred _ _, _, _, _, _ => by unfold removeXml; exact onlyTakes_pure _
  | .root, _, _, _, _ => by unfold removeXml; exact onlyTakes_pure _
  | .abs _ _, _, _, _, _ => by unfold removeXml; exact onlyTakes_pure _
  | .abbrev _, _, _, _, _ => by unfold removeXml; exact onlyTakes_pure _
  | .var _ _, _, _, _, _ => by unfold removeXml; exact onlyTakes_pure _
  | .call _ _ _, _, _, _, _ => by unfold removeXml; exact onlyTakes_pure _
  | .binary _ .or _, _, _, _, _ => by unfold removeXml; exact onlyTakes_pure _
  | .binary _ .and _, _, _, _, _ => by unfold removeXml; exact onlyTakes_pure _
  | .binary _ .eq _, _, _, _, _ => by unfold removeXml; exact onlyTakes_pure _
  | .binary _ .ne _, _, _, _, _ => by unfold removeXml; exact onlyTakes_pure _
  | .binary _ .lt _, _, _, _, _ => by unfold removeXml; exact onlyTakes_pure _
  | .binary _ .le _, _, _, _, _ => by unfold removeXml; exact onlyTakes_pure _
  | .binary _ .gt _, _, _, _, _ => by unfold removeXml; exact onlyTakes_pure _
  | .binary _ .ge _, _, _, _, _ => by unfold removeXml; exact onlyTakes_pure _
  | .binary _ .plus _, _, _, _, _ => by unfold removeXml; exact onlyTakes_pure _
  | .binary _ .minus _, _, _, _, _ => by unfold removeXml; exact onlyTakes_pure _
  | .binary _ .mult _, _, _, _, _ => by unfold removeXml; exact onlyTakes_pure _
  | .binary _ .div _, _, _, _, _ => by unfold removeXml; exact onlyTakes_pure _
  | .binary _ .mod _, _, _, _, _ => by unfold removeXml; exact onlyTakes_pure _
  | .binary _ .union _, _, _, _, _ => by unfold removeXml; exact onlyTakes_pure _
  | .binary _ .dslash _, _, _, _, _ => by unfold removeXml; exact onlyTakes_pure _

end
end Fields
