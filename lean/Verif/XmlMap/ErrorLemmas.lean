import Verif.XmlMap.ProvenanceLemmas
import Verif.Spec.Errors
/-
Which exceptions the functions that write can raise (for C124).
-/
namespace Fields
open Xml XPath Spec

section
variable (P : PyErr → Prop)

/-- Whatever the computation raises satisfies `P`. -/
def Raises {β : Type} (c : M β) : Prop := ∀ s er, (c s).1 = .error er → P er

variable {P}

theorem raises_pure {β : Type} (x : β) : Raises P (pure x : M β) := fun _ _ h => by cases h
theorem raises_raise {β : Type} {er : PyErr} (h : P er) : Raises P (raise er : M β) := fun _ _ h' => by cases h'; exact h
theorem raises_bind {β γ : Type} {c : M β} {f : β → M γ} (hc : Raises P c) (hf : ∀ x, Raises P (f x)) : Raises P (c >>= f) := by
  intro s er h
  cases hx : c s with
  | mk r s' =>
    cases r with
    | error e => rw [bind_err hx] at h; cases h; exact hc s _ (by rw [hx])
    | ok x => rw [bind_ok hx] at h; exact hf x s' er h
theorem raises_ofExcept {β : Type} {x : Except PyErr β} (h : ∀ er, x = .error er → P er) : Raises P (ofExcept x) := fun s er h' => by
  cases x with
  | error e => cases h'; exact h _ rfl
  | ok y => cases h'
theorem raises_value {β γ : Type} {x : Except PyErr β} {f : β → M γ} (hx : ∀ er, x = .error er → P er) (hf : ∀ y, x = .ok y → Raises P (f y)) : Raises P (ofExcept x >>= f) := by
  intro s er h
  cases x with
  | error e => rw [bind_err (show ofExcept (.error e : Except PyErr β) s = (.error e, s) from rfl)] at h; cases h; exact hx _ rfl
  | ok y => rw [bind_ok (ofExcept_run _ _)] at h; exact hf y rfl s er h
theorem raises_edit (a : Node.Addr) (f : Node → Node) : Raises P (edit a f) := fun _ _ h => by cases h
theorem raises_getDoc : Raises P getDoc := fun _ _ h => by cases h
theorem raises_nodeAt (h : P .attributeError) (a : Node.Addr) : Raises P (nodeAt a) := fun s er h' => by
  unfold nodeAt at h'
  cases hg : s.get a with
  | none => rw [hg] at h'; cases h'; exact h
  | some n => rw [hg] at h'; cases h'

theorem raises_setAttrib {a : Node.Addr} {q : QName} {v : Option Str} (h0 : v = none → P .typeError) (h1 : q.loc = c%"*" → P .valueError) (h2 : ∀ t, v = some t → xmlOk t = false → P .valueError) :
    Raises P (setAttrib a q v) := by
  unfold setAttrib
  cases v with
  | none => exact raises_raise (h0 rfl)
  | some t =>
    simp only
    split
    · rename_i h; exact raises_raise (h1 h)
    · split
      · rename_i h; exact raises_raise (h2 t rfl h)
      · exact raises_edit _ _

theorem raises_setElemText {a : Node.Addr} {v : Option Str} (h : ∀ t, v = some t → xmlOk t = false → P .valueError) : Raises P (setElemText a v) := by
  unfold setElemText
  split
  · rename_i h1
    cases v with
    | none => cases h1
    | some t => exact raises_raise (h t rfl h1)
  · exact raises_edit _ _

end

/-- Everything that creating nodes for this XPath may raise satisfies `P`. -/
def Grants (P : PyErr → Prop) (ctx : Ctx) (e : Expr) : Prop := ∀ er, CreateError ctx e er → P er

theorem grants_sub {P : PyErr → Prop} {ctx : Ctx} {e e' : Expr} (h : Grants P ctx e) (hs : ∀ x ∈ subExprs e', x ∈ subExprs e) : Grants P ctx e' := by
  have q : ∀ v, Quotes ctx e' v → Quotes ctx e v := fun v hv => by
    rcases hv with hv | ⟨n, hn, rfl⟩ | ⟨p, nm, hp, hv⟩
    · exact .inl (hs _ hv)
    · exact .inr (.inl ⟨n, hs _ hn, rfl⟩)
    · exact .inr (.inr ⟨p, nm, hs _ hp, hv⟩)
  have p : UnknownPrefix ctx e' → UnknownPrefix ctx e := fun ⟨ax, p, nm, ps, h1, h2⟩ => ⟨ax, p, nm, ps, hs _ h1, h2⟩
  intro er her
  refine h er ?_
  cases er with
  | exception => trivial
  | attributeError => trivial
  | nameError => obtain ⟨ax, t, ps, h1, h2⟩ := her; exact ⟨ax, t, ps, hs _ h1, h2⟩
  | keyError =>
    rcases her with her | ⟨p, nm, h1, h2⟩
    · exact .inl (p her)
    · exact .inr ⟨p, nm, hs _ h1, h2⟩
  | typeError => exact p her
  | valueError =>
    rcases her with ⟨ax, p, ps, h1⟩ | ⟨v, hv, hx⟩
    · exact .inl ⟨ax, p, ps, hs _ h1⟩
    · exact .inr ⟨v, q v hv, hx⟩
  | _ => exact her.elim

variable {P : PyErr → Prop} {ctx : Ctx}

theorem grants_left {l r : Expr} {op : BinOp} (h : Grants P ctx (.binary l op r)) : Grants P ctx l :=
  grants_sub h (fun x hx => by simp only [subExprs, List.mem_cons, List.mem_append]; exact .inr (.inl hx))
theorem grants_right {l r : Expr} {op : BinOp} (h : Grants P ctx (.binary l op r)) : Grants P ctx r :=
  grants_sub h (fun x hx => by simp only [subExprs, List.mem_cons, List.mem_append]; exact .inr (.inr hx))
theorem grants_pred {ax : Option Str} {t : NodeTest} {ps : List Expr} {p : Expr} (h : Grants P ctx (.step ax t ps)) (hp : p ∈ ps) : Grants P ctx p :=
  grants_sub h (fun x hx => by simp only [subExprs, List.mem_cons]; exact .inr (sub_list hp x hx))

theorem noNamespace_of {p : Str} {pfx : Option Str} (h : truthyPfx pfx = some p) (hl : (ctx.namespaces.getD []).lookup p = none) : pfx = some p ∧ NoNamespace ctx p := by
  refine ⟨truthyPfx_some h, ?_, hl⟩
  rintro rfl
  unfold truthyPfx at h
  split at h <;> cases h

theorem childName_error {pfx : Option Str} {nm : Str} {er : PyErr} (h : childName ctx pfx nm = .error er) : er = .keyError ∧ ∃ p, pfx = some p ∧ NoNamespace ctx p := by
  unfold childName at h
  split at h
  · rename_i nss p h1 h2
    split at h
    · cases h
    · rename_i h3
      cases h
      exact ⟨rfl, p, noNamespace_of h2 (by rw [h1]; exact h3)⟩
  · cases h

theorem attrName_unknown {pfx : Option Str} {nm : Str} (h : (attrName ctx pfx nm).2 = false) : ∃ p, pfx = some p ∧ NoNamespace ctx p := by
  unfold attrName at h
  split at h
  · cases h
  · rename_i p h1
    split at h
    · rename_i nss h2
      split at h
      · cases h
      · rename_i h3
        exact ⟨p, noNamespace_of h1 (by rw [h2]; exact h3)⟩
    · rename_i h2
      exact ⟨p, noNamespace_of h1 (by rw [h2]; rfl)⟩

theorem attrName_loc (pfx : Option Str) (nm : Str) : (attrName ctx pfx nm).1.loc = nm := by
  unfold attrName
  split
  · rfl
  · split
    · split <;> rfl
    · rfl

variable [PyUnicode] {eng : Engine}

omit [PyUnicode] in
theorem raises_setInXml {e : Expr} (he : Grants P ctx e) (f : Found) {v : Option Str} (h0 : v = none → P .typeError) (hv : ∀ t, v = some t → xmlOk t = false → P .valueError) :
    Raises P (setInXml ctx f v (findTerminalStep e)) := by
  have other : ∀ r : Ref, Raises P (if isTextTest (findTerminalStep e) then setElemText r.addr v
    else match findTerminalStep e with
      | some (_, .name pfx nm) => setAttrib r.addr (attrName ctx pfx nm).1 v
      | _ => raise .attributeError) := by
    intro r
    split
    · exact raises_setElemText hv
    · split
      · rename_i ht
        refine raises_setAttrib h0 (fun hs => ?_) hv
        rw [attrName_loc] at hs
        subst hs
        obtain ⟨ps, h1⟩ := terminal_sub ht
        exact he _ (.inl ⟨_, _, ps, h1⟩)
      · exact raises_raise (he _ trivial)
  cases f with
  | ref r =>
    cases r with
    | elem a =>
      simp only [setInXml]
      refine raises_bind (raises_nodeAt (he _ trivial) a) (fun n => ?_)
      split
      · exact raises_setElemText hv
      · exact raises_raise (he _ trivial)
    | _ => exact other _
  | str _ => exact raises_raise (he _ trivial)
  | _ => exact raises_pure _

omit [PyUnicode] in
theorem raises_createChild {node : Ref} {ax pfx : Option Str} {nm : Str} {ps : List Expr} {idx : Option Nat} (he : Grants P ctx (.step ax (.name pfx nm) ps)) : Raises P (createChild ctx node pfx nm idx) := by
  unfold createChild
  cases h : childName ctx pfx nm with
  | error er =>
    obtain ⟨rfl, p, rfl, hp⟩ := childName_error h
    exact raises_raise (he _ (.inl ⟨ax, p, nm, ps, sub_self _, hp⟩))
  | ok q =>
    simp only
    split
    · rename_i hs
      subst hs
      exact raises_raise (he _ (.inl ⟨ax, pfx, ps, sub_self _⟩))
    · cases node with
      | elem a =>
        simp only
        refine raises_bind (raises_nodeAt (he _ trivial) a) (fun n => ?_)
        cases idx with
        | some i => exact raises_bind (raises_edit _ _) (fun _ => raises_pure _)
        | none => exact raises_bind (raises_edit _ _) (fun _ => raises_pure _)
      | _ => exact raises_raise (he _ trivial)

omit [PyUnicode] in
theorem raises_createAttr {node : Ref} {ax pfx : Option Str} {nm : Str} {ps : List Expr} (he : Grants P ctx (.step ax (.name pfx nm) ps)) : Raises P (createAttr ctx node pfx nm) := by
  unfold createAttr
  cases node with
  | elem a =>
    simp only
    refine raises_bind (raises_setAttrib (fun h => by cases h) (fun hs => ?_) (fun t ht hx => ?_)) (fun _ => ?_)
    · rw [attrName_loc] at hs
      subst hs
      exact he _ (.inl ⟨ax, pfx, ps, sub_self _⟩)
    · cases ht; cases hx
    · split
      · exact raises_pure _
      · rename_i hk
        obtain ⟨p, rfl, hp⟩ := attrName_unknown (by simpa using hk)
        exact raises_raise (he _ ⟨ax, p, nm, ps, sub_self _, hp⟩)
  | _ => exact raises_raise (he _ trivial)

omit [PyUnicode] in
theorem otherAxis_of {ax : Option Str} {t : NodeTest} {ps : List Expr} (h1 : ¬ (ax = none ∨ ax = some c%"child")) (h2 : ¬ (ax = some c%"@" ∨ ax = some c%"attribute")) : HasOtherAxis (.step ax t ps) := by
  cases ax with
  | none => exact absurd (.inl rfl) h1
  | some x => exact ⟨x, t, ps, sub_self _, fun h => h1 (.inr (by rw [h])), fun h => h2 (.inl (by rw [h])), fun h => h2 (.inr (by rw [h]))⟩

omit [PyUnicode] in
theorem raises_createStep {build : Ref → M Unit} (hb : ∀ r, Raises P (build r)) {ax : Option Str} {t : NodeTest} {ps : List Expr} (he : Grants P ctx (.step ax t ps)) (node : Ref) (idx : Option Nat) :
    Raises P (createStep ctx ax t ps build node idx) := by
  unfold createStep
  cases t with
  | name pfx nm =>
    simp only
    split
    · exact raises_raise (he _ trivial)
    · refine raises_bind ?_ (fun r => raises_bind (hb r) (fun _ => raises_pure _))
      split
      · exact raises_createChild he
      · split
        · exact raises_createAttr he
        · rename_i h1 h2
          exact raises_raise (he _ (otherAxis_of h1 h2))
  | type nm a =>
    simp only
    split
    · exact raises_pure _
    · exact raises_raise (he _ trivial)

omit [PyUnicode] in
theorem stepOnNone_error {ax pfx : Option Str} {nm : Str} {ps : List Expr} (he : Grants P ctx (.step ax (.name pfx nm) ps)) : P (stepOnNone ctx ax pfx nm ps) := by
  unfold stepOnNone
  split
  · exact he _ trivial
  · split
    · split
      · rename_i er h
        obtain ⟨rfl, p, rfl, hp⟩ := childName_error h
        exact he _ (.inl ⟨ax, p, nm, ps, sub_self _, hp⟩)
      · split
        · rename_i hs
          subst hs
          exact he _ (.inl ⟨ax, pfx, ps, sub_self _⟩)
        · exact he _ trivial
    · split
      · exact he _ trivial
      · rename_i h1 h2
        exact he _ (otherAxis_of h1 h2)

omit [PyUnicode] in
theorem predValue_error {r : Expr} (hr : Grants P ctx r) : ∀ er, predValue ctx r = .error er → P er := by
  intro er h
  cases r with
  | var p nm =>
    simp only [predValue] at h
    split at h
    · cases h
    · cases h
    · rename_i hl
      cases h
      exact hr _ (.inr ⟨p, nm, sub_self _, hl⟩)
  | _ => cases h

omit [PyUnicode] in
theorem predValue_bad {r : Expr} (hr : Grants P ctx r) {v : Str} (h : predValue ctx r = .ok v) (hx : xmlOk v = false) : P .valueError := by
  refine hr _ (.inr ⟨v, ?_, hx⟩)
  cases r with
  | var p nm =>
    simp only [predValue] at h
    cases hl : ctx.vars.lookup nm with
    | none => rw [hl] at h; cases h
    | some x =>
      rw [hl] at h
      refine .inr (.inr ⟨p, nm, sub_self _, ?_⟩)
      cases x with
      | str s => cases h; exact .inl hl
      | num n => cases h; exact .inr ⟨n, hl, rfl⟩
  | lit s => cases h; exact .inl (sub_self _)
  | int n => cases h; exact .inr (.inl ⟨n, sub_self _, rfl⟩)
  | _ => cases h; cases hx

omit [PyUnicode] in
theorem raises_onNone : ∀ e : Expr, Grants P ctx e → Raises P (constructOnNone ctx e)
  | .step ax t ps, he => by
    cases t with
    | name pfx nm => simp only [constructOnNone]; exact raises_raise (stepOnNone_error he)
    | type nm a =>
      simp only [constructOnNone]
      split
      · exact raises_pure _
      · exact raises_raise (he _ trivial)
  | .binary l op r, he => by
    cases op with
    | slash => simp only [constructOnNone]; exact raises_bind (raises_onNone l (grants_left he)) (fun _ => raises_onNone r (grants_right he))
    | eq =>
      simp only [constructOnNone]
      exact raises_bind (raises_onNone l (grants_left he)) (fun _ => raises_bind (raises_ofExcept (predValue_error (grants_right he))) (fun _ => raises_pure _))
    | _ => simp only [constructOnNone]; exact raises_pure _
  | .lit _, _ | .int _, _ | .float _, _ | .neg _, _ | .pred _ _, _ | .root, _ | .abs _ _, _ | .abbrev _, _ | .var _ _, _ | .call _ _ _, _ => by simp only [constructOnNone]; exact raises_pure _

omit [PyUnicode] in
mutual
theorem raises_construct : ∀ (e : Expr) (node : Ref), Grants P ctx e → Raises P (construct ctx e node)
  | .step ax t ps, node, he => by
    rw [construct]
    exact raises_bind (raises_createStep (fun r => raises_constructAll ps r (fun p hp => grants_pred he hp)) he _ _) (fun _ => raises_pure _)
  | .binary l op r, node, he => by
    cases op with
    | slash =>
      rw [construct]
      refine raises_bind (raises_construct l node (grants_left he)) (fun o => ?_)
      cases o with
      | none => exact raises_onNone r (grants_right he)
      | some leaf => exact raises_construct r leaf (grants_right he)
    | eq =>
      rw [construct]
      refine raises_bind (raises_construct l node (grants_left he)) (fun o => ?_)
      cases o with
      | none => exact raises_bind (raises_ofExcept (predValue_error (grants_right he))) (fun _ => raises_pure _)
      | some leaf =>
        refine raises_value (predValue_error (grants_right he)) (fun v hv => raises_bind (raises_setInXml (grants_left he) _ (fun h => by cases h) (fun t ht hx => ?_)) (fun _ => raises_pure _))
        cases ht
        exact predValue_bad (grants_right he) hv hx
    | _ => simp only [construct]; exact raises_pure _
  | .lit _, _, _ | .int _, _, _ | .float _, _, _ | .neg _, _, _ | .pred _ _, _, _ | .root, _, _ | .abs _ _, _, _ | .abbrev _, _, _ | .var _ _, _, _ | .call _ _ _, _, _ => by
    simp only [construct]; exact raises_pure _
theorem raises_constructAll : ∀ (ps : List Expr) (node : Ref), (∀ p ∈ ps, Grants P ctx p) → Raises P (constructAll ctx ps node)
  | [], node, _ => by rw [constructAll]; exact raises_pure _
  | p :: ps, node, h => by
    rw [constructAll]
    exact raises_bind (raises_construct p node (h p List.mem_cons_self)) (fun _ => raises_constructAll ps node (fun p hp => h p (List.mem_cons_of_mem _ hp)))
end

theorem raises_eval (ha : P .attributeError) (hg : ∀ er, EngineError eng ctx er → P er) (xp : Str) (node : Ref) : Raises P (evalXPath eng ctx xp node) := by
  cases node with
  | elem a => exact fun s er h => hg er ⟨xp, s, a, h⟩
  | _ => exact raises_raise ha

theorem raises_find (ha : P .attributeError) (hg : ∀ er, EngineError eng ctx er → P er) (xp : Str) (node : Ref) : Raises P (findNode eng ctx xp node) :=
  raises_bind (raises_eval ha hg xp node) (fun _ => raises_pure _)

omit [PyUnicode] in
theorem raises_foundRef (ha : P .attributeError) (f : Found) : Raises P (foundRef f) := by
  unfold foundRef
  split
  · exact raises_pure _
  · exact raises_raise ha

theorem raises_createNode (hg : ∀ er, EngineError eng ctx er → P er) : ∀ (e : Expr) (node : Ref) (idx : Option Nat), Grants P ctx e → Raises P (createNode eng ctx e node idx)
  | .step ax t ps, node, idx, he => by
    rw [createNode]
    exact raises_createStep (fun r => raises_constructAll ps r (fun p hp => grants_pred he hp)) he _ _
  | .binary l op r, node, idx, he => by
    have ha : P .attributeError := he _ trivial
    cases op with
    | slash =>
      rw [createNode]
      refine raises_bind (raises_find ha hg _ _) (fun o => ?_)
      cases o with
      | none => exact raises_bind (raises_createNode hg l node none (grants_left he)) (fun left => raises_createNode hg r left none (grants_right he))
      | some f => exact raises_bind (raises_foundRef ha f) (fun left => raises_createNode hg r left none (grants_right he))
    | _ => simp only [createNode]; exact raises_raise (he _ trivial)
  | .lit _, _, _, he | .int _, _, _, he | .float _, _, _, he | .neg _, _, _, he | .pred _ _, _, _, he | .root, _, _, he | .abs _ _, _, _, he | .abbrev _, _, _, he | .var _ _, _, _, he | .call _ _ _, _, _, he => by
    simp only [createNode]; exact raises_raise (he _ trivial)

end Fields
