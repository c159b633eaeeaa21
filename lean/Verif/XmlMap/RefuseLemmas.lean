import Verif.Spec.Field
import Verif.XmlMap.DeleteFacts
/-
Refused creation.
-/
namespace Fields
open Xml XPath Spec

section
variable [PyUnicode] {eng : Engine} {ctx : Ctx}

theorem isValue_eq (e : Expr) : isValue e = isLiteral e := by
  cases e <;> rfl

mutual
theorem constructible_refused : ∀ e : Expr, isConstructible e = !refusedPred e
  | .step ax (.type _ _) ps => by
    simp only [isConstructible, refusedPred]
    simp
  | .step ax (.name _ _) ps => by
    simp only [isConstructible, refusedPred, constructible_refuseds ps]
    split_ifs with h
    · obtain ⟨h1, h2, h3, h4⟩ := h
      simp [h1, h2, h3, h4]
    · simp only [ne_eq, not_and_or, not_not] at h
      rcases h with h | h | h | h <;> simp [h]
  | .binary l .slash r => by
    simp only [isConstructible, refusedPred, constructible_refused l, constructible_refused r, Bool.not_or]
  | .binary l .eq r => by
    simp only [isConstructible, refusedPred, constructible_refused l, isValue_eq, Bool.not_or, Bool.not_not]
  | .binary l .or r => rfl
  | .binary l .and r => rfl
  | .binary l .ne r => rfl
  | .binary l .lt r => rfl
  | .binary l .le r => rfl
  | .binary l .gt r => rfl
  | .binary l .ge r => rfl
  | .binary l .plus r => rfl
  | .binary l .minus r => rfl
  | .binary l .mult r => rfl
  | .binary l .div r => rfl
  | .binary l .mod r => rfl
  | .binary l .union r => rfl
  | .binary l .dslash r => rfl
  | .lit _ => rfl
  | .int _ => rfl
  | .float _ => rfl
  | .neg _ => rfl
  | .pred _ _ => rfl
  | .root => rfl
  | .abs _ _ => rfl
  | .abbrev _ => rfl
  | .var _ _ => rfl
  | .call _ _ _ => rfl
theorem constructible_refuseds : ∀ es : List Expr, isConstructible.allConstructible es = !refusedPreds es
  | [] => rfl
  | e :: es => by
    simp only [isConstructible.allConstructible, refusedPreds, constructible_refused e, constructible_refuseds es, Bool.not_or]
end

theorem createStep_refused {ax t ps} (h : refusedStep ax t ps = true) (build : Ref → M Unit) (node : Ref) (s : Node) :
    ∃ e, createStep ctx ax t ps build node none s = (.error e, s) := by
  cases t with
  | type nm l =>
    simp only [refusedStep, bne_iff_ne, ne_eq] at h
    exact ⟨_, by simp only [createStep]; rw [if_neg h]; rfl⟩
  | name pfx nm =>
    simp only [refusedStep, Bool.or_eq_true, Bool.and_eq_true, bne_iff_ne, ne_eq, beq_iff_eq] at h
    simp only [createStep, constructible_refuseds]
    by_cases hp : refusedPreds ps = true
    · rw [if_pos (by simp [hp])]
      exact ⟨_, rfl⟩
    · rw [if_neg (by simpa using hp)]
      have hchild : nm = c%"*" → ∃ e, createChild ctx node pfx nm none s = (.error e, s) := by
        intro hs
        unfold createChild
        cases childName ctx pfx nm with
        | error e => exact ⟨e, rfl⟩
        | ok q => exact ⟨_, by simp only [if_pos hs]; rfl⟩
      have hattr : nm = c%"*" → ∃ e, createAttr ctx node pfx nm s = (.error e, s) := by
        intro hs
        unfold createAttr
        cases node with
        | elem a =>
          have hq : (attrName ctx pfx nm).1.loc = c%"*" := by
            unfold attrName
            split
            · exact hs
            · split
              · split <;> exact hs
              · exact hs
          have : setAttrib a (attrName ctx pfx nm).1 (some []) s = (.error .valueError, s) := by
            unfold setAttrib
            simp only [if_pos hq]
            rfl
          exact ⟨_, bind_err this⟩
        | attr => exact ⟨_, rfl⟩
        | text => exact ⟨_, rfl⟩
        | tail => exact ⟨_, rfl⟩
      rcases h with (h | h) | h
      · exact absurd h hp
      · obtain ⟨⟨⟨h1, h2⟩, h3⟩, h4⟩ := h
        rw [if_neg (by simp [h1, h2]), if_neg (by simp [h3, h4])]
        exact ⟨_, rfl⟩
      · split_ifs
        · obtain ⟨e, he⟩ := hchild h
          exact ⟨e, bind_err he⟩
        · obtain ⟨e, he⟩ := hattr h
          exact ⟨e, bind_err he⟩
        · exact ⟨_, rfl⟩

/-- The look-up in a document: a node, or `none`. -/
def lookupIn (eng : Engine) (ctx : Ctx) (s : Node) (x : Str) (r : Ref) : Option Ref := match (findNode eng ctx x r s).1 with
  | .ok (some (.ref y)) => some y
  | _ => none

theorem createNode_refused {s : Node} (hnode : ∀ x r, ∀ o, (findNode eng ctx x r s).1 = .ok (some o) → ∃ y, o = .ref y) :
    ∀ (e : Expr) (node : Ref), Refused (lookupIn eng ctx s) e node → ∃ er, createNode eng ctx e node none s = (.error er, s) := by
  intro e node h
  induction h with
  | @step ax t ps node h =>
    rw [createNode]
    exact createStep_refused h _ node s
  | @there l r node left hf _ ih =>
    obtain ⟨er, ih⟩ := ih
    have hcn : createNode eng ctx (.binary l .slash r) node none s
        = (findNode eng ctx l.ser node >>= fun o => match o with
          | some f => foundRef f >>= fun left => createNode eng ctx r left none
          | none => createNode eng ctx l node none >>= fun left => createNode eng ctx r left none) s := by
      rw [createNode]; rfl
    rw [hcn]
    obtain ⟨o, ho⟩ := findNode_state (eng := eng) (ctx := ctx) l.ser node s
    unfold lookupIn at hf
    rw [ho] at hf
    simp only at hf
    split at hf <;> simp only [reduceCtorEq, Option.some.injEq] at hf
    subst hf
    rw [bind_ok ho]
    exact ⟨er, ih⟩
  | @missing l r node hf _ ih =>
    obtain ⟨er, ih⟩ := ih
    have hcn : createNode eng ctx (.binary l .slash r) node none s
        = (findNode eng ctx l.ser node >>= fun o => match o with
          | some f => foundRef f >>= fun left => createNode eng ctx r left none
          | none => createNode eng ctx l node none >>= fun left => createNode eng ctx r left none) s := by
      rw [createNode]; rfl
    rw [hcn]
    obtain ⟨o, ho⟩ := findNode_state (eng := eng) (ctx := ctx) l.ser node s
    cases o with
    | error e => exact ⟨e, bind_err ho⟩
    | ok o =>
      rw [bind_ok ho]
      cases o with
      | none => exact ⟨er, bind_err ih⟩
      | some f =>
        obtain ⟨y, rfl⟩ := hnode l.ser node f (by rw [ho])
        unfold lookupIn at hf
        rw [ho] at hf
        simp at hf
  | @other e node h1 h2 =>
    rw [createNode]
    · exact ⟨_, rfl⟩
    · exact fun ax t ps h => h1 ax t ps h
    · exact fun l r h => h2 l r h

end
end Fields
