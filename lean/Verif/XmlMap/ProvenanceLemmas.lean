import Verif.XmlMap.ProgramLemmas
import Verif.XmlMap.Manager
import Verif.XmlMap.NodeList
/-
Where the names and values in a document come from.
-/
namespace Fields
open Xml XPath Spec

section
variable (K : Tag → Prop) (A : QName → Prop) (V T : Str → Prop)

/-- What an element is made of, without its children. -/
structure OkHere (tag : Tag) (attrs : List (QName × Str)) (text tail : Option Str) : Prop where
  tag : K tag
  attrs : ∀ x ∈ attrs, A x.1 ∧ V x.2
  text : ∀ t, text = some t → V t
  tail : ∀ t, tail = some t → T t

mutual
/-- All names and values in a document are in the given sets. -/
def MadeOf : Node → Prop
  | .mk tag attrs text cs tail => OkHere K A V T tag attrs text tail ∧ MadeOfAll cs
/-- The same for lists. -/
def MadeOfAll : List Node → Prop
  | [] => True
  | c :: cs => MadeOf c ∧ MadeOfAll cs
end

variable {K A V T}

theorem madeOfAll_iff : ∀ {cs : List Node}, MadeOfAll K A V T cs ↔ ∀ c ∈ cs, MadeOf K A V T c
  | [] => by simp [MadeOfAll]
  | c :: cs => by simp [MadeOfAll, madeOfAll_iff (cs := cs)]

theorem madeOf_get : ∀ (a : Node.Addr) (s m : Node), MadeOf K A V T s → s.get a = some m → MadeOf K A V T m
  | [], s, m, h, hg => by cases hg; exact h
  | i :: a, .mk t at' x cs l, m, h, hg => by
    have hg' : (match cs[i]? with
      | some c => c.get a
      | none => none) = some m := hg
    cases hc : cs[i]? with
    | none => rw [hc] at hg'; cases hg'
    | some c =>
      rw [hc] at hg'
      exact madeOf_get a c m (madeOfAll_iff.mp h.2 c (List.mem_of_getElem? hc)) hg'

theorem madeOf_here {m : Node} (h : MadeOf K A V T m) : OkHere K A V T m.tag m.attrs m.text m.tail := by
  cases m; exact h.1

mutual
theorem madeOf_of_get : ∀ s : Node, (∀ a m, s.get a = some m → OkHere K A V T m.tag m.attrs m.text m.tail) → MadeOf K A V T s
  | .mk t at' x cs l, h => ⟨h [] _ rfl, madeOfAll_of_get cs (fun i c hc a m hm => h (i :: a) m (by
      show (match cs[i]? with
        | some c => c.get a
        | none => none) = some m
      rw [hc]; exact hm))⟩
theorem madeOfAll_of_get : ∀ cs : List Node, (∀ (i : Nat) (c : Node), cs[i]? = some c → ∀ a m, c.get a = some m → OkHere K A V T m.tag m.attrs m.text m.tail) → MadeOfAll K A V T cs
  | [], _ => trivial
  | c :: cs, h => ⟨madeOf_of_get c (h 0 c rfl), madeOfAll_of_get cs (fun i d hd => h (i + 1) d hd)⟩
end

theorem madeOf_modify {f : Node → Node} (hf : ∀ m, MadeOf K A V T m → MadeOf K A V T (f m)) : ∀ (a : Node.Addr) (s : Node), MadeOf K A V T s → MadeOf K A V T (s.modify a f)
  | [], s, h => hf s h
  | i :: a, .mk t at' x cs l, h => by
    refine ⟨h.1, madeOfAll_iff.mpr (fun c hc => ?_)⟩
    obtain ⟨j, hj, rfl⟩ := List.mem_iff_getElem.mp hc
    rw [List.getElem_modify]
    have hm : ∀ k (hk : k < cs.length), MadeOf K A V T cs[k] := fun k hk => madeOfAll_iff.mp h.2 _ (List.getElem_mem hk)
    split
    · exact madeOf_modify hf a _ (hm _ _)
    · exact hm _ _

mutual
theorem madeOf_shrunk {t : Takes} (h0 : V []) : ∀ {n m : Node}, Shrunk t n m → MadeOf K A V T n → MadeOf K A V T m
  | _, _, .mk h1 _ h3 h4, h => by
    refine ⟨⟨h.1.tag, fun x hx => h.1.attrs x (h1.subset hx), fun v hv => ?_, h.1.tail⟩, madeOfAll_shrunk h0 h4 h.2⟩
    rcases h3 with rfl | ⟨-, rfl⟩
    · exact h.1.text v hv
    · cases hv; exact h0
theorem madeOfAll_shrunk {t : Takes} (h0 : V []) : ∀ {n m : List Node}, ShrunkAll t n m → MadeOfAll K A V T n → MadeOfAll K A V T m
  | _, _, .nil, h => h
  | _, _, .drop _ h', h => madeOfAll_shrunk h0 h' h.2
  | _, _, .keep h1 h2, h => ⟨madeOf_shrunk h0 h1 h.1, madeOfAll_shrunk h0 h2 h.2⟩
end

/-! ### programs -/

variable (K A V T) in
/-- Running this brings nothing else into the document. -/
def Closed {β : Type} (c : M β) : Prop := ∀ s, MadeOf K A V T s → MadeOf K A V T (c s).2

theorem closed_pure {β : Type} (x : β) : Closed K A V T (pure x : M β) := fun _ h => h
theorem closed_raise {β : Type} (er : PyErr) : Closed K A V T (raise er : M β) := fun _ h => h
theorem closed_ofExcept {β : Type} (x : Except PyErr β) : Closed K A V T (ofExcept x) := fun s h => by cases x <;> exact h
theorem closed_bind {β γ : Type} {c : M β} {f : β → M γ} (hc : Closed K A V T c) (hf : ∀ x, Closed K A V T (f x)) : Closed K A V T (c >>= f) := by
  intro s h
  have h := hc s h
  rcases hx : c s with ⟨o, s1⟩
  rw [hx] at h
  cases o with
  | error er => rw [bind_err hx]; exact h
  | ok x => rw [bind_ok hx]; exact hf x s1 h
/-- The same, when the second part is only run with some results. -/
theorem closed_value {β γ : Type} (x : Except PyErr β) {f : β → M γ} (hf : ∀ y, x = .ok y → Closed K A V T (f y)) : Closed K A V T (ofExcept x >>= f) := by
  intro s h
  cases x with
  | error er => rw [bind_err (show ofExcept (.error er : Except PyErr β) s = (.error er, s) from rfl)]; exact h
  | ok y => rw [bind_ok (ofExcept_run y s)]; exact hf y rfl s h
theorem closed_edit {a : Node.Addr} {f : Node → Node} (hf : ∀ m, MadeOf K A V T m → MadeOf K A V T (f m)) : Closed K A V T (edit a f) := fun s h => madeOf_modify hf a s h
theorem closed_nodeAt (a : Node.Addr) : Closed K A V T (nodeAt a) := fun s h => by
  unfold nodeAt
  cases s.get a <;> exact h
theorem closed_of_takes {β : Type} {t : Takes} {c : M β} (h0 : V []) (h : OnlyTakes t c) : Closed K A V T c := fun s hs => madeOf_shrunk h0 (h s) hs

theorem mem_setAttrL_or {q : QName} {v : Str} : ∀ {l : List (QName × Str)} {x : QName × Str}, x ∈ Node.setAttrL q v l → x ∈ l ∨ x = (q, v)
  | [], x, h => by simp only [Node.setAttrL, List.mem_singleton] at h; exact .inr h
  | (q', v') :: l, x, h => by
    rw [Node.setAttrL] at h
    split at h
    · rcases List.mem_cons.mp h with h | h
      · exact .inr h
      · exact .inl (List.mem_cons_of_mem _ h)
    · rcases List.mem_cons.mp h with h | h
      · exact .inl (h ▸ List.mem_cons_self)
      · rcases mem_setAttrL_or h with h | h
        · exact .inl (List.mem_cons_of_mem _ h)
        · exact .inr h

theorem closed_setAttrib {a : Node.Addr} {q : QName} {v : Option Str} (hq : A q) (hv : ∀ t, v = some t → V t) : Closed K A V T (setAttrib a q v) := by
  unfold setAttrib
  cases v with
  | none => exact closed_raise _
  | some v =>
    simp only
    split
    · exact closed_raise _
    · split
      · exact closed_raise _
      · refine closed_edit (fun m h => ?_)
        cases m with
        | mk t at' x cs l =>
          refine ⟨⟨h.1.tag, fun y hy => ?_, h.1.text, h.1.tail⟩, h.2⟩
          rcases mem_setAttrL_or hy with hy | rfl
          · exact h.1.attrs y hy
          · exact ⟨hq, hv v rfl⟩

theorem closed_setElemText {a : Node.Addr} {v : Option Str} (hv : ∀ t, v = some t → V t) : Closed K A V T (setElemText a v) := by
  unfold setElemText
  split
  · exact closed_raise _
  · refine closed_edit (fun m h => ?_)
    cases m with
    | mk t at' x cs l => exact ⟨⟨h.1.tag, h.1.attrs, hv, h.1.tail⟩, h.2⟩

/-! ### names and values of XPaths -/

variable (K A V) in
/-- The sets have everything that the XPath names. -/
structure Allows (ctx : Ctx) (e : Expr) : Prop where
  elem : ∀ q, NamesElem ctx e q → K (.elem q)
  attr : ∀ q, NamesStep ctx e q → A q
  value : ∀ v, Quotes ctx e v → V v

theorem allows_sub {ctx : Ctx} {e e' : Expr} (h : Allows K A V ctx e) (hs : ∀ x ∈ subExprs e', x ∈ subExprs e) : Allows K A V ctx e' where
  elem := fun q ⟨ax, pfx, nm, ps, h1, h2⟩ => h.elem q ⟨ax, pfx, nm, ps, hs _ h1, h2⟩
  attr := fun q ⟨ax, pfx, nm, ps, h1, h2⟩ => h.attr q ⟨ax, pfx, nm, ps, hs _ h1, h2⟩
  value := fun v hv => h.value v (by
    rcases hv with hv | ⟨n, hn, hv⟩ | ⟨p, nm, hp, hv⟩
    · exact .inl (hs _ hv)
    · exact .inr (.inl ⟨n, hs _ hn, hv⟩)
    · exact .inr (.inr ⟨p, nm, hs _ hp, hv⟩))

theorem sub_self (e : Expr) : e ∈ subExprs e := by cases e <;> simp [subExprs]

theorem sub_list : ∀ {es : List Expr} {e : Expr}, e ∈ es → ∀ x ∈ subExprs e, x ∈ subExprsList es
  | d :: es, e, h, x, hx => by
    rw [subExprsList, List.mem_append]
    rcases List.mem_cons.mp h with rfl | h
    · exact .inl hx
    · exact .inr (sub_list h x hx)

theorem allows_left {ctx : Ctx} {l r : Expr} {op : BinOp} (h : Allows K A V ctx (.binary l op r)) : Allows K A V ctx l :=
  allows_sub h (fun x hx => by rw [subExprs]; exact List.mem_cons_of_mem _ (List.mem_append_left _ hx))
theorem allows_right {ctx : Ctx} {l r : Expr} {op : BinOp} (h : Allows K A V ctx (.binary l op r)) : Allows K A V ctx r :=
  allows_sub h (fun x hx => by rw [subExprs]; exact List.mem_cons_of_mem _ (List.mem_append_right _ hx))
theorem allows_pred {ctx : Ctx} {ax : Option Str} {t : NodeTest} {ps : List Expr} {p : Expr} (h : Allows K A V ctx (.step ax t ps)) (hp : p ∈ ps) : Allows K A V ctx p :=
  allows_sub h (fun x hx => by rw [subExprs]; exact List.mem_cons_of_mem _ (sub_list hp x hx))

theorem truthyPfx_none {pfx : Option Str} (h : truthyPfx pfx = none) : pfx = none ∨ pfx = some [] := by
  cases pfx with
  | none => exact .inl rfl
  | some p => cases p with
    | nil => exact .inr rfl
    | cons c p => cases h
theorem truthyPfx_some {pfx : Option Str} {p : Str} (h : truthyPfx pfx = some p) : pfx = some p := by
  cases pfx with
  | none => cases h
  | some p => cases p with
    | nil => cases h
    | cons c p => exact h

theorem means_child {ctx : Ctx} {pfx : Option Str} {nm : Str} {q : QName} (h : childName ctx pfx nm = .ok q) : Means ctx pfx nm q := by
  unfold childName at h
  cases hn : ctx.namespaces with
  | none =>
    rw [hn] at h
    cases h
    exact ⟨rfl, .inl ⟨rfl, .inr (.inr hn)⟩⟩
  | some nss =>
    cases hp : truthyPfx pfx with
    | none =>
      rw [hn, hp] at h
      cases h
      exact ⟨rfl, .inl ⟨rfl, (truthyPfx_none hp).elim .inl (fun h => .inr (.inl h))⟩⟩
    | some p =>
      rw [hn, hp] at h
      simp only at h
      cases hl : nss.lookup p with
      | none => rw [hl] at h; cases h
      | some uri =>
        rw [hl] at h
        cases h
        exact ⟨rfl, .inr ⟨p, truthyPfx_some hp, .inl ⟨nss, hn, by rw [hl]; simp, hl.symm⟩⟩⟩

theorem means_attr (ctx : Ctx) (pfx : Option Str) (nm : Str) : Means ctx pfx nm (attrName ctx pfx nm).1 := by
  unfold attrName
  cases hp : truthyPfx pfx with
  | none => exact ⟨rfl, .inl ⟨rfl, (truthyPfx_none hp).elim .inl (fun h => .inr (.inl h))⟩⟩
  | some p =>
    cases hn : ctx.namespaces with
    | none => exact ⟨rfl, .inr ⟨p, truthyPfx_some hp, .inr ⟨by rw [hn]; rfl, rfl⟩⟩⟩
    | some nss =>
      simp only
      cases hl : nss.lookup p with
      | none => exact ⟨rfl, .inr ⟨p, truthyPfx_some hp, .inr ⟨by rw [hn]; exact hl, rfl⟩⟩⟩
      | some uri => exact ⟨rfl, .inr ⟨p, truthyPfx_some hp, .inl ⟨nss, hn, by rw [hl]; simp, hl.symm⟩⟩⟩

theorem terminal_sub : ∀ {e : Expr} {ax : Option Str} {t : NodeTest}, findTerminalStep e = some (ax, t) → ∃ ps, Expr.step ax t ps ∈ subExprs e
  | .step ax' t' ps, ax, t, h => by
    simp only [findTerminalStep, Option.some.injEq, Prod.mk.injEq] at h
    obtain ⟨rfl, rfl⟩ := h
    exact ⟨ps, sub_self _⟩
  | .binary l op r, ax, t, h => by
    have hr : findTerminalStep r = some (ax, t) := by
      cases op <;> simp only [findTerminalStep] at h <;> first | exact h | cases h
    obtain ⟨ps, hps⟩ := terminal_sub hr
    exact ⟨ps, by rw [subExprs]; exact List.mem_cons_of_mem _ (List.mem_append_right _ hps)⟩

theorem allows_terminal {ctx : Ctx} {e : Expr} {ax : Option Str} {pfx : Option Str} {nm : Str} (h : Allows K A V ctx e) (ht : findTerminalStep e = some (ax, .name pfx nm)) : A (attrName ctx pfx nm).1 := by
  obtain ⟨ps, hps⟩ := terminal_sub ht
  exact h.attr _ ⟨ax, pfx, nm, ps, hps, means_attr ctx pfx nm⟩

/-! ### the functions that write -/

variable [PyUnicode] {eng : Engine} {ctx : Ctx}

omit [PyUnicode] in
theorem closed_setInXml {e : Expr} (he : Allows K A V ctx e) (f : Found) {v : Option Str} (hv : ∀ t, v = some t → V t) : Closed K A V T (setInXml ctx f v (findTerminalStep e)) := by
  have other : ∀ r : Ref, Closed K A V T (if isTextTest (findTerminalStep e) then setElemText r.addr v
    else match findTerminalStep e with
      | some (_, .name pfx nm) => setAttrib r.addr (attrName ctx pfx nm).1 v
      | _ => raise .attributeError) := by
    intro r
    split
    · exact closed_setElemText hv
    · split
      · rename_i ht
        exact closed_setAttrib (allows_terminal he ht) hv
      · exact closed_raise _
  cases f with
  | ref r =>
    cases r with
    | elem a =>
      simp only [setInXml]
      refine closed_bind (closed_nodeAt a) (fun n => ?_)
      split
      · exact closed_setElemText hv
      · exact closed_raise _
    | _ => exact other _
  | str _ => exact closed_raise _
  | _ => exact closed_pure _

theorem madeOf_insert {i : Nat} {c : Node} (hc : MadeOf K A V T c) : ∀ m, MadeOf K A V T m → MadeOf K A V T (Node.insertChild i c m)
  | .mk t at' x cs l, h => by
    refine ⟨h.1, madeOfAll_iff.mpr (fun d hd => ?_)⟩
    have hcs := madeOfAll_iff.mp h.2
    rcases List.mem_append.mp hd with hd | hd
    · exact hcs d (List.mem_of_mem_take hd)
    · rcases List.mem_cons.mp hd with rfl | hd
      · exact hc
      · exact hcs d (List.mem_of_mem_drop hd)

theorem madeOf_empty {q : QName} (hq : K (.elem q)) : MadeOf K A V T (Node.empty q) :=
  ⟨⟨hq, fun x hx => (by cases hx), fun t ht => (by cases ht), fun t ht => (by cases ht)⟩, trivial⟩

theorem closed_createChild {node : Ref} {pfx : Option Str} {nm : Str} {idx : Option Nat} (hq : ∀ q, childName ctx pfx nm = .ok q → K (.elem q)) : Closed K A V T (createChild ctx node pfx nm idx) := by
  unfold createChild
  cases h : childName ctx pfx nm with
  | error er => exact closed_raise _
  | ok q =>
    simp only
    split
    · exact closed_raise _
    · cases node with
      | elem a =>
        simp only
        refine closed_bind (closed_nodeAt a) (fun n => ?_)
        cases idx with
        | some i => exact closed_bind (closed_edit (madeOf_insert (madeOf_empty (hq q h)))) (fun _ => closed_pure _)
        | none =>
          refine closed_bind (closed_edit (fun m hm => ?_)) (fun _ => closed_pure _)
          rw [append_insert]
          exact madeOf_insert (madeOf_empty (hq q h)) m hm
      | _ => exact closed_raise _

theorem closed_createAttr (h0 : V []) {node : Ref} {pfx : Option Str} {nm : Str} (hq : A (attrName ctx pfx nm).1) : Closed K A V T (createAttr ctx node pfx nm) := by
  unfold createAttr
  cases node with
  | elem a =>
    simp only
    refine closed_bind (closed_setAttrib hq (fun t ht => by cases ht; exact h0)) (fun _ => ?_)
    split
    · exact closed_pure _
    · exact closed_raise _
  | _ => exact closed_raise _

theorem closed_createStep (h0 : V []) {build : Ref → M Unit} (hb : ∀ r, Closed K A V T (build r)) {ax : Option Str} {t : NodeTest} {ps : List Expr} (he : Allows K A V ctx (.step ax t ps)) (node : Ref)
    (idx : Option Nat) : Closed K A V T (createStep ctx ax t ps build node idx) := by
  unfold createStep
  cases t with
  | name pfx nm =>
    simp only
    split
    · exact closed_raise _
    · refine closed_bind ?_ (fun r => closed_bind (hb r) (fun _ => closed_pure _))
      split
      · rename_i hax
        exact closed_createChild (fun q h => he.elem q ⟨ax, pfx, nm, ps, sub_self _, hax, means_child h⟩)
      · split
        · exact closed_createAttr h0 (he.attr _ ⟨ax, pfx, nm, ps, sub_self _, means_attr ctx pfx nm⟩)
        · exact closed_raise _
  | type nm a =>
    simp only
    split
    · exact closed_pure _
    · exact closed_raise _

theorem closed_onNone : ∀ e : Expr, Closed K A V T (constructOnNone ctx e)
  | .step ax t ps => by
    cases t with
    | name pfx nm => simp only [constructOnNone]; exact closed_raise _
    | type nm a =>
      simp only [constructOnNone]
      split
      · exact closed_pure _
      · exact closed_raise _
  | .binary l op r => by
    cases op with
    | slash => simp only [constructOnNone]; exact closed_bind (closed_onNone l) (fun _ => closed_onNone r)
    | eq => simp only [constructOnNone]; exact closed_bind (closed_onNone l) (fun _ => closed_bind (closed_ofExcept _) (fun _ => closed_pure _))
    | _ => simp only [constructOnNone]; exact closed_pure _
  | .lit _ | .int _ | .float _ | .neg _ | .pred _ _ | .root | .abs _ _ | .abbrev _ | .var _ _ | .call _ _ _ => by simp only [constructOnNone]; exact closed_pure _

theorem quotes_value (h0 : V []) {r : Expr} (hr : Allows K A V ctx r) {v : Str} (h : predValue ctx r = .ok v) : V v := by
  cases r with
  | var p nm =>
    simp only [predValue] at h
    cases hl : ctx.vars.lookup nm with
    | none => rw [hl] at h; cases h
    | some x =>
      rw [hl] at h
      refine hr.value v (.inr (.inr ⟨p, nm, sub_self _, ?_⟩))
      cases x with
      | str s => cases h; exact .inl hl
      | num n => cases h; exact .inr ⟨n, hl, rfl⟩
  | lit s => cases h; exact hr.value _ (.inl (sub_self _))
  | int n => cases h; exact hr.value _ (.inr (.inl ⟨n, sub_self _, rfl⟩))
  | _ => cases h; exact h0

mutual
theorem closed_construct (h0 : V []) : ∀ (e : Expr) (node : Ref), Allows K A V ctx e → Closed K A V T (construct ctx e node)
  | .step ax t ps, node, he => by
    rw [construct]
    exact closed_bind (closed_createStep h0 (fun r => closed_constructAll h0 ps r (fun p hp => allows_pred he hp)) he _ _) (fun _ => closed_pure _)
  | .binary l op r, node, he => by
    cases op with
    | slash =>
      rw [construct]
      refine closed_bind (closed_construct h0 l node (allows_left he)) (fun o => ?_)
      cases o with
      | none => exact closed_onNone r
      | some leaf => exact closed_construct h0 r leaf (allows_right he)
    | eq =>
      rw [construct]
      refine closed_bind (closed_construct h0 l node (allows_left he)) (fun o => ?_)
      cases o with
      | none => exact closed_bind (closed_ofExcept _) (fun _ => closed_pure _)
      | some leaf =>
        refine closed_value _ (fun v hv => closed_bind (closed_setInXml (allows_left he) _ (fun t ht => ?_)) (fun _ => closed_pure _))
        cases ht
        exact quotes_value h0 (allows_right he) hv
    | _ => simp only [construct]; exact closed_pure _
  | .lit _, _, _ | .int _, _, _ | .float _, _, _ | .neg _, _, _ | .pred _ _, _, _ | .root, _, _ | .abs _ _, _, _ | .abbrev _, _, _ | .var _ _, _, _ | .call _ _ _, _, _ => by
    simp only [construct]; exact closed_pure _
theorem closed_constructAll (h0 : V []) : ∀ (ps : List Expr) (node : Ref), (∀ p ∈ ps, Allows K A V ctx p) → Closed K A V T (constructAll ctx ps node)
  | [], node, _ => by rw [constructAll]; exact closed_pure _
  | p :: ps, node, h => by
    rw [constructAll]
    exact closed_bind (closed_construct h0 p node (h p List.mem_cons_self)) (fun _ => closed_constructAll h0 ps node (fun p hp => h p (List.mem_cons_of_mem _ hp)))
end

theorem closed_find (xp : Str) (node : Ref) : Closed K A V T (findNode eng ctx xp node) := fun s h => by
  obtain ⟨o, hf⟩ := findNode_state (eng := eng) (ctx := ctx) xp node s
  rw [hf]; exact h

theorem closed_foundRef (f : Found) : Closed K A V T (foundRef f) := by
  unfold foundRef
  split
  · exact closed_pure _
  · exact closed_raise _

theorem closed_createNode (h0 : V []) : ∀ (e : Expr) (node : Ref) (idx : Option Nat), Allows K A V ctx e → Closed K A V T (createNode eng ctx e node idx)
  | .step ax t ps, node, idx, he => by
    rw [createNode]
    exact closed_createStep h0 (fun r => closed_constructAll h0 ps r (fun p hp => allows_pred he hp)) he _ _
  | .binary l op r, node, idx, he => by
    cases op with
    | slash =>
      rw [createNode]
      refine closed_bind (closed_find _ _) (fun o => ?_)
      cases o with
      | none => exact closed_bind (closed_createNode h0 l node none (allows_left he)) (fun left => closed_createNode h0 r left none (allows_right he))
      | some f => exact closed_bind (closed_foundRef f) (fun left => closed_createNode h0 r left none (allows_right he))
    | _ => simp only [createNode]; exact closed_raise _
  | .lit _, _, _, _ | .int _, _, _, _ | .float _, _, _, _ | .neg _, _, _, _ | .pred _ _, _, _, _ | .root, _, _, _ | .abs _ _, _, _, _ | .abbrev _, _, _, _ | .var _ _, _, _, _ | .call _ _ _, _, _, _ => by
    simp only [createNode]; exact closed_raise _

/-! ### objects as values -/

theorem madeOf_setAttr {q : QName} {v : Str} (hq : A q) (hv : V v) : ∀ {m : Node}, MadeOf K A V T m → MadeOf K A V T (m.setAttr q v)
  | .mk t at' x cs l, h => by
    refine ⟨⟨h.1.tag, fun y hy => ?_, h.1.text, h.1.tail⟩, h.2⟩
    rcases mem_setAttrL_or hy with hy | rfl
    · exact h.1.attrs y hy
    · exact ⟨hq, hv⟩

theorem madeOf_setAttrs : ∀ (l : List (QName × Str)) {m : Node}, (∀ x ∈ l, A x.1 ∧ V x.2) → MadeOf K A V T m → MadeOf K A V T (l.foldl (fun n p => n.setAttr p.1 p.2) m)
  | [], _, _, h => h
  | x :: l, _, hl, h => madeOf_setAttrs l (fun y hy => hl y (List.mem_cons_of_mem _ hy)) (madeOf_setAttr (hl x List.mem_cons_self).1 (hl x List.mem_cons_self).2 h)

theorem madeOf_clear : ∀ {m : Node}, MadeOf K A V T m → MadeOf K A V T m.clear
  | .mk _ _ _ _ _, h => ⟨⟨h.1.tag, fun x hx => (by cases hx), fun t ht => (by cases ht), fun t ht => (by cases ht)⟩, trivial⟩

theorem madeOf_content {text : Option Str} {cs : List Node} (ht : ∀ t, text = some t → V t) (hc : ∀ c ∈ cs, MadeOf K A V T c) : ∀ {m : Node}, MadeOf K A V T m → MadeOf K A V T ((m.setText text).withChildren cs)
  | .mk _ _ _ _ _, h => ⟨⟨h.1.tag, h.1.attrs, ht, h.1.tail⟩, madeOfAll_iff.mpr hc⟩

theorem madeOf_children {m : Node} (h : MadeOf K A V T m) : ∀ c ∈ m.children, MadeOf K A V T c := by
  cases m; exact madeOfAll_iff.mp h.2

theorem madeOf_graft {v m : Node} (hv : MadeOf K A V T v) (hm : MadeOf K A V T m) : MadeOf K A V T (graftOnto v m) :=
  madeOf_setAttrs _ (madeOf_here hv).attrs (madeOf_content (madeOf_here hv).text (madeOf_children hv) (madeOf_clear hm))

theorem madeOf_withChildren {cs : List Node} (hc : ∀ c ∈ cs, MadeOf K A V T c) : ∀ {m : Node}, MadeOf K A V T m → MadeOf K A V T (m.withChildren cs)
  | .mk _ _ _ _ _, h => ⟨h.1, madeOfAll_iff.mpr hc⟩

theorem madeOf_removeChild (i : Nat) : ∀ {m : Node}, MadeOf K A V T m → MadeOf K A V T (m.removeChild i)
  | .mk _ _ _ cs _, h => ⟨h.1, madeOfAll_iff.mpr (fun c hc => madeOfAll_iff.mp h.2 c (List.mem_of_mem_eraseIdx hc))⟩

theorem closed_nodeAt_bind {β : Type} {a : Node.Addr} {f : Node → M β} (hf : ∀ v, MadeOf K A V T v → Closed K A V T (f v)) : Closed K A V T (nodeAt a >>= f) := by
  intro s h
  cases hg : s.get a with
  | none => rw [bind_err (show nodeAt a s = (.error .attributeError, s) from by unfold nodeAt; rw [hg])]; exact h
  | some v => rw [bind_ok (show nodeAt a s = (.ok v, s) from by unfold nodeAt; rw [hg])]; exact hf v (madeOf_get a s v h hg) s h

theorem closed_graftOwn (a b : Node.Addr) : Closed K A V T (graftOwn a b) := by
  unfold graftOwn
  split
  · exact closed_edit (fun m h => madeOf_clear h)
  · split
    · refine closed_bind (closed_edit (fun v hv => ?_)) (fun _ => closed_raise _)
      have hc := madeOf_children hv
      refine madeOf_withChildren (fun c hc' => ?_) hv
      obtain ⟨j, hj, rfl⟩ := List.mem_iff_getElem.mp hc'
      rw [List.getElem_modify]
      have hd : ∀ k (hk : k < (v.children.drop ((a.drop b.length).headD 0)).length), MadeOf K A V T (v.children.drop ((a.drop b.length).headD 0))[k] :=
        fun k hk => hc _ (List.mem_of_mem_drop (List.getElem_mem hk))
      split
      · exact madeOf_modify (fun n hn => madeOf_content (madeOf_here hv).text (fun c h => hc c (List.mem_of_mem_take h)) (madeOf_clear hn)) _ _ (hd _ _)
      · exact hd _ _
    · refine closed_nodeAt_bind (fun v hv => ?_)
      have he : Closed K A V T (edit a (graftOnto v)) := closed_edit (fun m hm => madeOf_graft hv hm)
      simp only
      split
      · exact closed_bind (closed_edit (fun m hm => madeOf_withChildren (fun c hc => by cases hc) hm)) (fun _ => he)
      · exact he

theorem closed_storeNode (r : Ref) {v : ElemVal} (hv : ∀ n, v = .foreign n → MadeOf K A V T n) : Closed K A V T (storeNode r v) := by
  cases r with
  | elem a =>
    simp only [storeNode]
    split
    · exact closed_raise _
    · cases v with
      | foreign n => exact closed_edit (fun _ _ => hv n rfl)
      | own b =>
        simp only
        refine closed_nodeAt_bind (fun v hv => ?_)
        split
        · exact closed_raise _
        · split
          · exact closed_pure _
          · split
            · exact closed_edit (fun _ _ => hv)
            · exact closed_bind (closed_edit (fun _ _ => hv)) (fun _ => closed_edit (fun m hm => madeOf_removeChild _ hm))
  | _ => exact closed_raise _

end
end Fields
