import Verif.XmlMap.NodeList
import Verif.XmlMap.LocalLemmas
import Verif.Spec.Grown
/-
Creating and setting only add, for every XPath and every engine.
-/
namespace Fields
open Xml XPath Spec

/-! ### the relations -/

mutual
theorem grown_refl : ∀ n : Node, Grown n n
  | .mk _ _ _ cs _ => .mk (grownAll_refl cs)
theorem grownAll_refl : ∀ cs : List Node, GrownAll cs cs
  | [] => .nil
  | c :: cs => .keep (grown_refl c) (grownAll_refl cs)
end

mutual
theorem made_grown_tags : ∀ {n m : Node}, Grown n m → ∀ x ∈ allTags m, x ∈ allTags n ∨ ((∃ q, x.1 = .elem q) ∧ x.2 = none)
  | _, _, .mk h => fun x hx => by
    simp only [allTags, List.mem_cons] at hx ⊢
    rcases hx with hx | hx
    · exact .inl (.inl hx)
    · rcases made_grownAll_tags h x hx with h1 | h1
      · exact .inl (.inr h1)
      · exact .inr h1
theorem made_grownAll_tags : ∀ {n m : List Node}, GrownAll n m → ∀ x ∈ allTagsList m, x ∈ allTagsList n ∨ ((∃ q, x.1 = .elem q) ∧ x.2 = none)
  | _, _, .nil => fun _ hx => .inl hx
  | _, _, .new hc h => fun x hx => by
    rw [allTagsList, List.mem_append] at hx
    rcases hx with hx | hx
    · exact .inr (hc x hx)
    · exact made_grownAll_tags h x hx
  | _, _, .keep h h' => fun x hx => by
    rw [allTagsList, List.mem_append] at hx ⊢
    rcases hx with hx | hx
    · rcases made_grown_tags h x hx with h1 | h1
      · exact .inl (.inl h1)
      · exact .inr h1
    · rcases made_grownAll_tags h' x hx with h1 | h1
      · exact .inl (.inr h1)
      · exact .inr h1
end

theorem made_grown {n m : Node} (hn : AllNew n) (h : Grown n m) : AllNew m := fun x hx => (made_grown_tags h x hx).elim (hn x) id

theorem allNew_empty (q : QName) : AllNew (Node.empty q) := by
  intro x hx
  obtain rfl : x = (.elem q, none) := by simpa [Node.empty, allTags, allTagsList] using hx
  exact ⟨⟨q, rfl⟩, rfl⟩

mutual
theorem grown_trans : ∀ {n m k : Node}, Grown n m → Grown m k → Grown n k
  | _, _, _, .mk h, .mk h' => .mk (grownAll_trans h h')
theorem grownAll_trans : ∀ {n m k : List Node}, GrownAll n m → GrownAll m k → GrownAll n k
  | _, _, _, h, .nil => h
  | _, _, _, h, .new hc h' => .new hc (grownAll_trans h h')
  | _, _, _, .new hc h, .keep hk h' => .new (made_grown hc hk) (grownAll_trans h h')
  | _, _, _, .keep h1 h2, .keep h3 h4 => .keep (grown_trans h1 h3) (grownAll_trans h2 h4)
end

theorem grownAll_modify {f : Node → Node} (hf : ∀ n, Grown n (f n)) : ∀ (cs : List Node) (i : Nat), GrownAll cs (cs.modify i f)
  | [], _ => by simp only [List.modify_nil]; exact .nil
  | c :: cs, 0 => by simp only [List.modify_zero_cons]; exact .keep (hf c) (grownAll_refl cs)
  | c :: cs, i + 1 => by simp only [List.modify_succ_cons]; exact .keep (grown_refl c) (grownAll_modify hf cs i)

theorem grown_modify {f : Node → Node} (hf : ∀ n, Grown n (f n)) : ∀ (a : Node.Addr) (n : Node), Grown n (n.modify a f)
  | [], n => hf n
  | i :: a, .mk _ _ _ cs _ => .mk (grownAll_modify (fun n => grown_modify hf a n) cs i)

theorem grownAll_insert {c : Node} (hc : AllNew c) : ∀ (cs : List Node) (i : Nat), GrownAll cs (cs.take i ++ c :: cs.drop i)
  | cs, 0 => .new hc (grownAll_refl cs)
  | [], i + 1 => .new hc .nil
  | d :: cs, i + 1 => .keep (grown_refl d) (grownAll_insert hc cs i)

theorem grown_insertChild (i : Nat) {c : Node} (hc : AllNew c) : ∀ n : Node, Grown n (Node.insertChild i c n)
  | .mk _ _ _ cs _ => .mk (grownAll_insert hc cs i)

mutual
theorem survives_refl : ∀ n : Node, Survives n n
  | .mk _ _ _ cs _ => .mk (fun _ h => h) (surviveAll_refl cs)
theorem surviveAll_refl : ∀ cs : List Node, SurviveAll cs cs
  | [] => .nil
  | c :: cs => .keep (survives_refl c) (surviveAll_refl cs)
end

mutual
theorem made_survive_tags : ∀ {n m : Node}, Survives n m → ∀ x ∈ allTags m, x ∈ allTags n ∨ ((∃ q, x.1 = .elem q) ∧ x.2 = none)
  | _, _, .mk _ h => fun x hx => by
    simp only [allTags, List.mem_cons] at hx ⊢
    rcases hx with hx | hx
    · exact .inl (.inl hx)
    · rcases made_surviveAll_tags h x hx with h1 | h1
      · exact .inl (.inr h1)
      · exact .inr h1
theorem made_surviveAll_tags : ∀ {n m : List Node}, SurviveAll n m → ∀ x ∈ allTagsList m, x ∈ allTagsList n ∨ ((∃ q, x.1 = .elem q) ∧ x.2 = none)
  | _, _, .nil => fun _ hx => .inl hx
  | _, _, .new hc h => fun x hx => by
    rw [allTagsList, List.mem_append] at hx
    rcases hx with hx | hx
    · exact .inr (hc x hx)
    · exact made_surviveAll_tags h x hx
  | _, _, .keep h h' => fun x hx => by
    rw [allTagsList, List.mem_append] at hx ⊢
    rcases hx with hx | hx
    · rcases made_survive_tags h x hx with h1 | h1
      · exact .inl (.inl h1)
      · exact .inr h1
    · rcases made_surviveAll_tags h' x hx with h1 | h1
      · exact .inl (.inr h1)
      · exact .inr h1
end

theorem made_survive {n m : Node} (hn : AllNew n) (h : Survives n m) : AllNew m := fun x hx => (made_survive_tags h x hx).elim (hn x) id

mutual
theorem survives_trans : ∀ {n m k : Node}, Survives n m → Survives m k → Survives n k
  | _, _, _, .mk ha h, .mk ha' h' => .mk (fun q hq => ha' q (ha q hq)) (surviveAll_trans h h')
theorem surviveAll_trans : ∀ {n m k : List Node}, SurviveAll n m → SurviveAll m k → SurviveAll n k
  | _, _, _, h, .nil => h
  | _, _, _, h, .new hc h' => .new hc (surviveAll_trans h h')
  | _, _, _, .new hc h, .keep hk h' => .new (made_survive hc hk) (surviveAll_trans h h')
  | _, _, _, .keep h1 h2, .keep h3 h4 => .keep (survives_trans h1 h3) (surviveAll_trans h2 h4)
end

mutual
theorem survives_of_grown : ∀ {n m : Node}, Grown n m → Survives n m
  | _, _, .mk h => .mk (fun _ h => h) (surviveAll_of_grown h)
theorem surviveAll_of_grown : ∀ {n m : List Node}, GrownAll n m → SurviveAll n m
  | _, _, .nil => .nil
  | _, _, .new hc h => .new hc (surviveAll_of_grown h)
  | _, _, .keep h h' => .keep (survives_of_grown h) (surviveAll_of_grown h')
end

theorem surviveAll_modify {f : Node → Node} : ∀ (cs : List Node) (i : Nat), (∀ n, cs[i]? = some n → Survives n (f n)) → SurviveAll cs (cs.modify i f)
  | [], _, _ => by simp only [List.modify_nil]; exact .nil
  | c :: cs, 0, h => by simp only [List.modify_zero_cons]; exact .keep (h c rfl) (surviveAll_refl cs)
  | c :: cs, i + 1, h => by simp only [List.modify_succ_cons]; exact .keep (survives_refl c) (surviveAll_modify cs i (fun n hn => h n (by simpa using hn)))

theorem survives_modify {f : Node → Node} : ∀ (a : Node.Addr) (n : Node), (∀ m, n.get a = some m → Survives m (f m)) → Survives n (n.modify a f)
  | [], n, h => h n rfl
  | i :: a, .mk _ _ _ cs _, h => by
    refine .mk (fun _ h => h) (surviveAll_modify cs i (fun c hc => survives_modify a c (fun m hm => h m ?_)))
    show (match cs[i]? with
      | some c => c.get a
      | none => none) = some m
    rw [hc]
    exact hm

theorem touched_refl (v : Option Str) (m : Node) : Touched v m m := ⟨rfl, rfl, rfl, .inl rfl, ⟨none, []⟩, fun _ _ => rfl, .inl rfl⟩

theorem survives_of_touched {v : Option Str} : ∀ {m m' : Node}, Touched v m m' → Survives m m'
  | .mk tag attrs text cs tail, .mk tag' attrs' text' cs' tail', ⟨h1, h2, h3, _, q, h5, h6⟩ => by
    obtain rfl : tag' = tag := h1
    obtain rfl : tail' = tail := h2
    obtain rfl : cs' = cs := h3
    refine .mk (fun q' hq' => ?_) (surviveAll_refl _)
    by_cases he : q' = q
    · subst he
      rcases h6 with h6 | h6 | ⟨h6, h7⟩
      · exact fun h => hq' ((show attrs'.lookup q' = attrs.lookup q' from h6) ▸ h)
      · exact fun h => by rw [show attrs'.lookup q' = some [] from h6] at h; cases h
      · exact fun h => h7 ((show attrs'.lookup q' = v from h6) ▸ h)
    · exact fun h => hq' ((show attrs'.lookup q' = attrs.lookup q' from h5 q' he) ▸ h)

theorem survives_of_written {v : Option Str} {s s' : Node} (h : Written v s s') : Survives s s' := by
  obtain ⟨s1, a, m, m', h1, h2, h3, rfl⟩ := h
  exact survives_trans (survives_of_grown h1) (survives_modify a s1 (fun k hk => by rw [h2] at hk; cases hk; exact survives_of_touched h3))

theorem written_grown {v : Option Str} {s s1 : Node} (h : Grown s s1) : Written v s s1 :=
  ⟨s1, [], s1, s1, h, rfl, touched_refl v s1, rfl⟩

theorem modify_nowhere {f : Node → Node} : ∀ {a : Node.Addr} {n : Node}, n.get a = none → n.modify a f = n
  | [], _, h => by cases h
  | i :: a, .mk t at' x cs l, h => by
    show Node.mk t at' x (cs.modify i (Node.modify a f)) l = _
    congr 1
    cases hc : cs[i]? with
    | none => rw [List.modify_eq_self (by simpa using hc)]
    | some c =>
      have h' : (match cs[i]? with
        | some c => c.get a
        | none => none) = none := h
      rw [hc] at h'
      have := modify_nowhere (f := f) (show c.get a = none from h')
      apply List.ext_getElem?
      intro j
      rw [List.getElem?_modify]
      by_cases hij : i = j
      · subst hij; rw [hc]; simp [this]
      · simp [hij]

/-- A change at a place, which does nothing if there is nothing. -/
theorem written_modify {v : Option Str} {s s1 : Node} {a : Node.Addr} {f : Node → Node} (h : Grown s s1) (hf : ∀ m, Touched v m (f m)) : Written v s (s1.modify a f) := by
  cases hg : s1.get a with
  | none => rw [modify_nowhere hg]; exact written_grown h
  | some m => exact ⟨s1, a, m, f m, h, hg, hf m, Node.modify_congr hg rfl⟩

theorem touched_setText (v : Option Str) : ∀ m : Node, Touched v m (m.setText v)
  | .mk _ _ _ _ _ => ⟨rfl, rfl, rfl, .inr rfl, ⟨none, []⟩, fun _ _ => rfl, .inl rfl⟩

theorem attr_setAttr_ne {q q' : QName} (h : q' ≠ q) (v : Str) (m : Node) : (m.setAttr q v).attr? q' = m.attr? q' := by
  rw [Node.attr?_setAttr, if_neg h]

theorem touched_setAttr (t : Str) (q : QName) (m : Node) : Touched (some t) m (m.setAttr q t) where
  tag := by cases m; rfl
  tail := by cases m; rfl
  children := by cases m; rfl
  text := .inl (by cases m; rfl)
  attrs := ⟨q, fun _ h => attr_setAttr_ne h t m, .inr (.inr ⟨by rw [Node.attr?_setAttr, if_pos rfl], by simp⟩)⟩

theorem touched_blankAttr (v : Option Str) (q : QName) (m : Node) : Touched v m (m.setAttr q []) where
  tag := by cases m; rfl
  tail := by cases m; rfl
  children := by cases m; rfl
  text := .inl (by cases m; rfl)
  attrs := ⟨q, fun _ h => attr_setAttr_ne h [] m, .inr (.inl (by rw [Node.attr?_setAttr, if_pos rfl]))⟩

/-! ### creating -/

section
variable [PyUnicode] {eng : Engine} {ctx : Ctx}

/-- What creating a node does: elements are added, and then perhaps an empty attribute, which is the result. -/
def CreateOut (ctx : Ctx) (e : Expr) (s : Node) (out : Except PyErr Ref × Node) : Prop :=
  ∃ s1, Grown s s1 ∧ (out.2 = s1 ∨ ∃ a q, out.2 = s1.modify a (Node.setAttr q []) ∧
    ∀ r, out.1 = .ok r → r = .attr a q ∧ ∀ ax pfx nm, findTerminalStep e = some (ax, .name pfx nm) → q = (attrName ctx pfx nm).1)

theorem createOut_same {e : Expr} {s : Node} (r : Except PyErr Ref) : CreateOut ctx e s (r, s) := ⟨s, grown_refl s, .inl rfl⟩

theorem createChild_other {node : Ref} (hn : ∀ b, node ≠ .elem b) (pfx : Option Str) (nm : Str) (idx : Option Nat) (s : Node) :
    ∃ er, createChild ctx node pfx nm idx s = (.error er, s) := by
  unfold createChild
  cases childName ctx pfx nm with
  | error e => exact ⟨_, rfl⟩
  | ok q =>
    simp only
    by_cases h : nm = c%"*"
    · rw [if_pos h]; exact ⟨_, rfl⟩
    · rw [if_neg h]
      cases node with
      | elem b => exact absurd rfl (hn b)
      | _ => exact ⟨_, rfl⟩

theorem createAttr_other {node : Ref} (hn : ∀ b, node ≠ .elem b) (pfx : Option Str) (nm : Str) (s : Node) :
    ∃ er, createAttr ctx node pfx nm s = (.error er, s) := by
  cases node with
  | elem b => exact absurd rfl (hn b)
  | _ => exact ⟨_, rfl⟩

/-- Only elements get children and attributes. -/
theorem createStep_other {node : Ref} (hn : ∀ b, node ≠ .elem b) (ax : Option Str) (pfx : Option Str) (nm : Str) (ps : List Expr) (build : Ref → M Unit) (idx : Option Nat) (s : Node) :
    ∃ er, createStep ctx ax (.name pfx nm) ps build node idx s = (.error er, s) := by
  unfold createStep
  simp only
  by_cases hc : isConstructible.allConstructible ps = false
  · rw [if_pos hc]; exact ⟨_, rfl⟩
  · rw [if_neg hc]
    by_cases h1 : ax = none ∨ ax = some c%"child"
    · rw [if_pos h1]
      obtain ⟨er, h⟩ := createChild_other (ctx := ctx) hn pfx nm idx s
      exact ⟨er, bind_err h⟩
    · rw [if_neg h1]
      by_cases h2 : ax = some c%"@" ∨ ax = some c%"attribute"
      · rw [if_pos h2]
        obtain ⟨er, h⟩ := createAttr_other (ctx := ctx) hn pfx nm s
        exact ⟨er, bind_err h⟩
      · rw [if_neg h2]
        exact ⟨_, bind_err (show raise PyErr.nameError s = (.error _, s) from rfl)⟩

/-- Predicates on an attribute do nothing, or raise. -/
theorem construct_attr : ∀ (e : Expr), isConstructible e = true → ∀ (a : Node.Addr) (q : QName) (s : Node), construct ctx e (.attr a q) s = (.ok none, s) ∨ ∃ er, construct ctx e (.attr a q) s = (.error er, s)
  | .step ax (.name pfx nm) ps, _, a, q, s => by
    right
    rw [construct]
    have : ∃ er, createStep ctx ax (.name pfx nm) ps (fun r => constructAll ctx ps r) (.attr a q) none s = (.error er, s) := createStep_other (fun b => by simp) _ _ _ _ _ _ _
    obtain ⟨er, h⟩ := this
    exact ⟨er, bind_err h⟩
  | .step ax (.type nm l) ps, h, a, q, s => by
    exfalso
    unfold isConstructible at h
    split at h <;> cases h
  | .binary l .slash r, h, a, q, s => by
    have h1 : isConstructible l = true ∧ isConstructible r = true := by simpa [isConstructible] using h
    rw [construct]
    rcases construct_attr l h1.1 a q s with hl | ⟨er, hl⟩
    · rw [bind_ok hl]
      exact onNone_none r s
    · exact .inr ⟨er, bind_err hl⟩
  | .binary l .eq r, h, a, q, s => by
    have h1 : isConstructible l = true := by
      have := h
      simp [isConstructible] at this
      exact this.1
    rw [construct]
    rcases construct_attr l h1 a q s with hl | ⟨er, hl⟩
    · rw [bind_ok hl]
      simp only
      cases hv : predValue ctx r with
      | ok v => exact .inl rfl
      | error er => exact .inr ⟨er, rfl⟩
    · exact .inr ⟨er, bind_err hl⟩
  | .binary _ .or _, _, _, _, s => by simp only [construct]; exact .inl rfl
  | .binary _ .and _, _, _, _, s => by simp only [construct]; exact .inl rfl
  | .binary _ .ne _, _, _, _, s => by simp only [construct]; exact .inl rfl
  | .binary _ .lt _, _, _, _, s => by simp only [construct]; exact .inl rfl
  | .binary _ .le _, _, _, _, s => by simp only [construct]; exact .inl rfl
  | .binary _ .gt _, _, _, _, s => by simp only [construct]; exact .inl rfl
  | .binary _ .ge _, _, _, _, s => by simp only [construct]; exact .inl rfl
  | .binary _ .plus _, _, _, _, s => by simp only [construct]; exact .inl rfl
  | .binary _ .minus _, _, _, _, s => by simp only [construct]; exact .inl rfl
  | .binary _ .mult _, _, _, _, s => by simp only [construct]; exact .inl rfl
  | .binary _ .div _, _, _, _, s => by simp only [construct]; exact .inl rfl
  | .binary _ .mod _, _, _, _, s => by simp only [construct]; exact .inl rfl
  | .binary _ .union _, _, _, _, s => by simp only [construct]; exact .inl rfl
  | .binary _ .dslash _, _, _, _, s => by simp only [construct]; exact .inl rfl
  | .lit _, _, _, _, s => by simp only [construct]; exact .inl rfl
  | .int _, _, _, _, s => by simp only [construct]; exact .inl rfl
  | .float _, _, _, _, s => by simp only [construct]; exact .inl rfl
  | .neg _, _, _, _, s => by simp only [construct]; exact .inl rfl
  | .pred _ _, _, _, _, s => by simp only [construct]; exact .inl rfl
  | .root, _, _, _, s => by simp only [construct]; exact .inl rfl
  | .abs _ _, _, _, _, s => by simp only [construct]; exact .inl rfl
  | .abbrev _, _, _, _, s => by simp only [construct]; exact .inl rfl
  | .var _ _, _, _, _, s => by simp only [construct]; exact .inl rfl
  | .call _ _ _, _, _, _, s => by simp only [construct]; exact .inl rfl
where
  onNone_none : ∀ (e : Expr) (s : Node), constructOnNone ctx e s = (.ok none, s) ∨ ∃ er, constructOnNone ctx e s = (.error er, s)
  | .step _ (.name _ _) _, s => by rw [constructOnNone]; exact .inr ⟨_, rfl⟩
  | .step _ (.type nm _) _, s => by
    rw [constructOnNone]
    split
    · exact .inl rfl
    · exact .inr ⟨_, rfl⟩
  | .binary l .slash r, s => by
    rw [constructOnNone]
    rcases onNone_none l s with h | ⟨er, h⟩
    · rw [bind_ok h]; exact onNone_none r s
    · exact .inr ⟨er, bind_err h⟩
  | .binary l .eq r, s => by
    rw [constructOnNone]
    rcases onNone_none l s with h | ⟨er, h⟩
    · rw [bind_ok h]
      cases hv : predValue ctx r with
      | ok v => exact .inl rfl
      | error er => exact .inr ⟨er, rfl⟩
    · exact .inr ⟨er, bind_err h⟩
  | .binary _ .or _, s => by simp only [constructOnNone]; exact .inl rfl
  | .binary _ .and _, s => by simp only [constructOnNone]; exact .inl rfl
  | .binary _ .ne _, s => by simp only [constructOnNone]; exact .inl rfl
  | .binary _ .lt _, s => by simp only [constructOnNone]; exact .inl rfl
  | .binary _ .le _, s => by simp only [constructOnNone]; exact .inl rfl
  | .binary _ .gt _, s => by simp only [constructOnNone]; exact .inl rfl
  | .binary _ .ge _, s => by simp only [constructOnNone]; exact .inl rfl
  | .binary _ .plus _, s => by simp only [constructOnNone]; exact .inl rfl
  | .binary _ .minus _, s => by simp only [constructOnNone]; exact .inl rfl
  | .binary _ .mult _, s => by simp only [constructOnNone]; exact .inl rfl
  | .binary _ .div _, s => by simp only [constructOnNone]; exact .inl rfl
  | .binary _ .mod _, s => by simp only [constructOnNone]; exact .inl rfl
  | .binary _ .union _, s => by simp only [constructOnNone]; exact .inl rfl
  | .binary _ .dslash _, s => by simp only [constructOnNone]; exact .inl rfl
  | .lit _, s => by simp only [constructOnNone]; exact .inl rfl
  | .int _, s => by simp only [constructOnNone]; exact .inl rfl
  | .float _, s => by simp only [constructOnNone]; exact .inl rfl
  | .neg _, s => by simp only [constructOnNone]; exact .inl rfl
  | .pred _ _, s => by simp only [constructOnNone]; exact .inl rfl
  | .root, s => by simp only [constructOnNone]; exact .inl rfl
  | .abs _ _, s => by simp only [constructOnNone]; exact .inl rfl
  | .abbrev _, s => by simp only [constructOnNone]; exact .inl rfl
  | .var _ _, s => by simp only [constructOnNone]; exact .inl rfl
  | .call _ _ _, s => by simp only [constructOnNone]; exact .inl rfl

theorem constructAll_attr (a : Node.Addr) (q : QName) (s : Node) : ∀ (ps : List Expr), isConstructible.allConstructible ps = true → ∃ o, constructAll ctx ps (.attr a q) s = (o, s)
  | [], _ => ⟨_, by rw [constructAll]; rfl⟩
  | p :: ps, h => by
    have h1 : isConstructible p = true ∧ isConstructible.allConstructible ps = true := by simpa [isConstructible.allConstructible] using h
    rw [constructAll]
    rcases construct_attr p h1.1 a q s with hp | ⟨er, hp⟩
    · rw [bind_ok hp]; exact constructAll_attr a q s ps h1.2
    · exact ⟨_, bind_err hp⟩

/-- Creating below an attribute or text raises, or stays there. -/
theorem createNode_other {node : Ref} (hn : ∀ b, node ≠ .elem b) (e : Expr) (idx : Option Nat) (s : Node) :
    (∃ er, createNode eng ctx e node idx s = (.error er, s)) ∨ (createNode eng ctx e node idx s = (.ok node, s) ∧ ∀ ax pfx nm, findTerminalStep e ≠ some (ax, .name pfx nm)) := by
  unfold createNode
  split
  · rename_i ax t ps
    cases t with
    | name pfx nm => exact .inl (createStep_other hn _ _ _ _ _ _ _)
    | type nm l =>
      unfold createStep
      simp only
      by_cases h : nm = c%"text"
      · rw [if_pos h]; exact .inr ⟨rfl, fun _ _ _ h => by cases h⟩
      · rw [if_neg h]; exact .inl ⟨_, rfl⟩
  · left
    cases node with
    | elem b => exact absurd rfl (hn b)
    | _ => exact ⟨_, rfl⟩
  · exact .inl ⟨_, rfl⟩

theorem modify_mid_right (f : Node → Node) (j : Nat) : ∀ (l r : List Node), (l ++ r).modify (l.length + j) f = l ++ r.modify j f
  | [], r => by simp
  | c :: l, r => by
    rw [List.cons_append, List.length_cons, Nat.add_right_comm, List.modify_succ_cons, modify_mid_right f j l r, List.cons_append]

theorem insert_modify (i : Nat) (c c' : Node) (n : Node) : (Node.insertChild i c n).modify [min i n.children.length] (fun _ => c') = Node.insertChild i c' n := by
  cases n with
  | mk t at' x cs l =>
    show Node.mk t at' x ((cs.take i ++ c :: cs.drop i).modify (min i cs.length) (Node.modify [] (fun _ => c'))) l = Node.mk t at' x (cs.take i ++ c' :: cs.drop i) l
    congr 1
    have h : min i cs.length = (cs.take i).length + 0 := by simp
    rw [h, modify_mid_right, List.modify_zero_cons]
    rfl

theorem append_insert (c : Node) (n : Node) : Node.append c n = Node.insertChild n.children.length c n := by
  cases n
  simp [Node.append, Node.insertChild, Node.children]

/-! ### constructing predicates adds, too -/

/-- Running this loses nothing. -/
def Keepsafe {β : Type} (c : M β) : Prop := ∀ s, Survives s (c s).2

theorem keepsafe_pure {β : Type} (x : β) : Keepsafe (pure x) := fun s => survives_refl s
theorem keepsafe_raise {β : Type} (er : PyErr) : Keepsafe (raise er : M β) := fun s => survives_refl s
theorem keepsafe_ofExcept {β : Type} (x : Except PyErr β) : Keepsafe (ofExcept x) := fun s => by cases x <;> exact survives_refl s
theorem keepsafe_bind {β γ : Type} {c : M β} {f : β → M γ} (hc : Keepsafe c) (hf : ∀ x, Keepsafe (f x)) : Keepsafe (c >>= f) := by
  intro s
  have h := hc s
  rcases hx : c s with ⟨o, s1⟩
  rw [hx] at h
  cases o with
  | error er => rw [bind_err hx]; exact h
  | ok x => rw [bind_ok hx]; exact survives_trans h (hf x s1)
theorem keepsafe_edit {a : Node.Addr} {f : Node → Node} (hf : ∀ m, Survives m (f m)) : Keepsafe (edit a f) := fun s => survives_modify a s (fun m _ => hf m)

theorem keepsafe_setAttrib (a : Node.Addr) (q : QName) (v : Option Str) : Keepsafe (setAttrib a q v) := by
  unfold setAttrib
  cases v with
  | none => exact keepsafe_raise _
  | some v =>
    simp only
    split
    · exact keepsafe_raise _
    · split
      · exact keepsafe_raise _
      · exact keepsafe_edit (fun m => survives_of_touched (touched_setAttr v q m))

theorem keepsafe_setElemText (a : Node.Addr) (v : Option Str) : Keepsafe (setElemText a v) := by
  unfold setElemText
  split
  · exact keepsafe_raise _
  · refine keepsafe_edit (fun m => ?_)
    cases m with
    | mk t at' x cs l => exact .mk (fun _ h => h) (surviveAll_refl _)

theorem keepsafe_nodeAt (a : Node.Addr) : Keepsafe (nodeAt a) := fun s => by
  unfold nodeAt
  cases s.get a <;> exact survives_refl s

theorem keepsafe_setInXml (f : Found) (v : Option Str) (st : Option (Option Str × NodeTest)) : Keepsafe (setInXml ctx f v st) := by
  have other : ∀ r : Ref, Keepsafe (if isTextTest st then setElemText r.addr v
    else match st with
      | some (_, .name pfx nm) => setAttrib r.addr (attrName ctx pfx nm).1 v
      | _ => raise .attributeError) := by
    intro r
    split
    · exact keepsafe_setElemText _ _
    · split
      · exact keepsafe_setAttrib _ _ _
      · exact keepsafe_raise _
  cases f with
  | ref r =>
    cases r with
    | elem a =>
      simp only [setInXml]
      refine keepsafe_bind (keepsafe_nodeAt a) (fun n => ?_)
      split
      · exact keepsafe_setElemText _ _
      · exact keepsafe_raise _
    | _ => exact other _
  | str _ => exact keepsafe_raise _
  | _ => exact keepsafe_pure _

theorem keepsafe_createChild (node : Ref) (pfx : Option Str) (nm : Str) (idx : Option Nat) : Keepsafe (createChild ctx node pfx nm idx) := by
  unfold createChild
  split
  · exact keepsafe_raise _
  · split
    · exact keepsafe_raise _
    · cases node with
      | elem a =>
        simp only
        refine keepsafe_bind (keepsafe_nodeAt a) (fun n => ?_)
        cases idx with
        | some i => exact keepsafe_bind (keepsafe_edit (fun m => survives_of_grown (grown_insertChild i (allNew_empty _) m))) (fun _ => keepsafe_pure _)
        | none =>
          refine keepsafe_bind (keepsafe_edit (fun m => ?_)) (fun _ => keepsafe_pure _)
          rw [append_insert]
          exact survives_of_grown (grown_insertChild _ (allNew_empty _) m)
      | _ => exact keepsafe_raise _

theorem keepsafe_createAttr (node : Ref) (pfx : Option Str) (nm : Str) : Keepsafe (createAttr ctx node pfx nm) := by
  unfold createAttr
  cases node with
  | elem a =>
    simp only
    refine keepsafe_bind (keepsafe_setAttrib _ _ _) (fun _ => ?_)
    split
    · exact keepsafe_pure _
    · exact keepsafe_raise _
  | _ => exact keepsafe_raise _

theorem keepsafe_createStep {build : Ref → M Unit} (hb : ∀ r, Keepsafe (build r)) (ax : Option Str) (t : NodeTest) (ps : List Expr) (node : Ref) (idx : Option Nat) :
    Keepsafe (createStep ctx ax t ps build node idx) := by
  unfold createStep
  cases t with
  | name pfx nm =>
    simp only
    split
    · exact keepsafe_raise _
    · refine keepsafe_bind ?_ (fun r => keepsafe_bind (hb r) (fun _ => keepsafe_pure _))
      split
      · exact keepsafe_createChild _ _ _ _
      · split
        · exact keepsafe_createAttr _ _ _
        · exact keepsafe_raise _
  | type nm a =>
    simp only
    split
    · exact keepsafe_pure _
    · exact keepsafe_raise _

theorem keepsafe_onNone : ∀ e : Expr, Keepsafe (constructOnNone ctx e)
  | .step ax t ps => by
    cases t with
    | name pfx nm => simp only [constructOnNone]; exact keepsafe_raise _
    | type nm a =>
      simp only [constructOnNone]
      split
      · exact keepsafe_pure _
      · exact keepsafe_raise _
  | .binary l op r => by
    cases op with
    | slash => simp only [constructOnNone]; exact keepsafe_bind (keepsafe_onNone l) (fun _ => keepsafe_onNone r)
    | eq => simp only [constructOnNone]; exact keepsafe_bind (keepsafe_onNone l) (fun _ => keepsafe_bind (keepsafe_ofExcept _) (fun _ => keepsafe_pure _))
    | _ => simp only [constructOnNone]; exact keepsafe_pure _
  | .lit _ | .int _ | .float _ | .neg _ | .pred _ _ | .root | .abs _ _ | .abbrev _ | .var _ _ | .call _ _ _ => by simp only [constructOnNone]; exact keepsafe_pure _

mutual
theorem keepsafe_construct : ∀ (e : Expr) (node : Ref), Keepsafe (construct ctx e node)
  | .step ax t ps, node => by
    rw [construct]
    exact keepsafe_bind (keepsafe_createStep (fun r => keepsafe_constructAll ps r) _ _ _ _ _) (fun _ => keepsafe_pure _)
  | .binary l op r, node => by
    cases op with
    | slash =>
      rw [construct]
      refine keepsafe_bind (keepsafe_construct l node) (fun o => ?_)
      cases o with
      | none => exact keepsafe_onNone r
      | some leaf => exact keepsafe_construct r leaf
    | eq =>
      rw [construct]
      refine keepsafe_bind (keepsafe_construct l node) (fun o => ?_)
      cases o with
      | none => exact keepsafe_bind (keepsafe_ofExcept _) (fun _ => keepsafe_pure _)
      | some leaf => exact keepsafe_bind (keepsafe_ofExcept _) (fun _ => keepsafe_bind (keepsafe_setInXml _ _ _) (fun _ => keepsafe_pure _))
    | _ => simp only [construct]; exact keepsafe_pure _
  | .lit _, _ | .int _, _ | .float _, _ | .neg _, _ | .pred _ _, _ | .root, _ | .abs _ _, _ | .abbrev _, _ | .var _ _, _ | .call _ _ _, _ => by simp only [construct]; exact keepsafe_pure _
theorem keepsafe_constructAll : ∀ (ps : List Expr) (node : Ref), Keepsafe (constructAll ctx ps node)
  | [], node => by rw [constructAll]; exact keepsafe_pure _
  | p :: ps, node => by
    rw [constructAll]
    exact keepsafe_bind (keepsafe_construct p node) (fun _ => keepsafe_constructAll ps node)
end

/-- What a step with predicates makes is new. -/
theorem allNew_construct (ps : List Expr) (q : QName) : AllNew (constructAll ctx ps (.elem []) (Node.empty q)).2 :=
  made_survive (allNew_empty q) (keepsafe_constructAll ps _ _)

/-- Making a child with what its predicates ask for. -/
theorem createStep_child (ax : Option Str) (hax : ax = none ∨ ax = some c%"child") (pfx : Option Str) (nm : Str) (ps : List Expr) (a : Node.Addr) (idx : Option Nat) (s : Node) :
    Grown s (createStep ctx ax (.name pfx nm) ps (fun r => constructAll ctx ps r) (.elem a) idx s).2 := by
  unfold createStep
  simp only
  by_cases hc : isConstructible.allConstructible ps = false
  · rw [if_pos hc]; exact grown_refl s
  · rw [if_neg hc, if_pos hax]
    cases hq : childName ctx pfx nm with
    | error er =>
      rw [bind_err (show createChild ctx (.elem a) pfx nm idx s = (.error er, s) from by unfold createChild; rw [hq]; rfl)]
      exact grown_refl s
    | ok q =>
      by_cases hs : nm = c%"*"
      · rw [bind_err (show createChild ctx (.elem a) pfx nm idx s = (.error .valueError, s) from by unfold createChild; rw [hq]; simp only [if_pos hs]; rfl)]
        exact grown_refl s
      · cases hg : s.get a with
        | none =>
          rw [bind_err (show createChild ctx (.elem a) pfx nm idx s = (.error .attributeError, s) from by
            unfold createChild; rw [hq]; simp only [if_neg hs]
            exact bind_err (show nodeAt a s = _ from by unfold nodeAt; rw [hg]))]
          exact grown_refl s
        | some n =>
          have hnode : nodeAt a s = (.ok n, s) := by unfold nodeAt; rw [hg]
          have hi : ∃ i, createChild ctx (.elem a) pfx nm idx s = (.ok (.elem (a ++ [min i n.children.length])), s.modify a (Node.insertChild i (Node.empty q))) := by
            cases idx with
            | some i =>
              refine ⟨i, ?_⟩
              unfold createChild; rw [hq]; simp only [if_neg hs]
              rw [bind_ok hnode]
              rfl
            | none =>
              refine ⟨n.children.length, ?_⟩
              unfold createChild; rw [hq]; simp only [if_neg hs]
              rw [bind_ok hnode]
              show (Except.ok (Ref.elem (a ++ [n.children.length])), s.modify a (Node.append (Node.empty q))) = _
              rw [Nat.min_self, Node.modify_congr hg (append_insert _ n)]
          obtain ⟨i, hi⟩ := hi
          rw [bind_ok hi]
          have hget : (s.modify a (Node.insertChild i (Node.empty q))).get (a ++ [min i n.children.length]) = some (Node.empty q) := by
            rw [Node.get_append, Node.get_modify, hg]
            cases n with
            | mk t at' x cs l =>
              show (match (cs.take i ++ Node.empty q :: cs.drop i)[min i cs.length]? with
                | some c => Node.get [] c
                | none => none) = _
              rw [List.getElem?_append_right (by simp)]
              simp [Node.get]
          have hl := lifts_constructAll (a := a ++ [min i n.children.length]) (ctx := ctx) ps (.elem []) (Node.empty q) _ hget
          simp only [Ref.under, List.append_nil] at hl
          have hst : (s.modify a (Node.insertChild i (Node.empty q))).modify (a ++ [min i n.children.length]) (fun _ => (constructAll ctx ps (.elem []) (Node.empty q)).2)
              = s.modify a (Node.insertChild i (constructAll ctx ps (.elem []) (Node.empty q)).2) := by
            rw [Node.modify_append, Node.modify_modify]
            refine Node.modify_congr hg ?_
            exact insert_modify i _ _ n
          rw [hst] at hl
          have hgr : Grown s (s.modify a (Node.insertChild i (constructAll ctx ps (.elem []) (Node.empty q)).2)) := grown_modify (grown_insertChild i (allNew_construct ps q)) a s
          cases ho : (constructAll ctx ps (.elem []) (Node.empty q)).1 with
          | ok u => rw [ho] at hl; rw [bind_ok hl]; exact hgr
          | error er => rw [ho] at hl; rw [bind_err hl]; exact hgr

/-- Making an attribute. -/
theorem createStep_attr (ax : Option Str) (hax : ¬ (ax = none ∨ ax = some c%"child")) (pfx : Option Str) (nm : Str) (ps : List Expr) (a : Node.Addr) (idx : Option Nat) (s : Node) :
    CreateOut ctx (.step ax (.name pfx nm) ps) s (createStep ctx ax (.name pfx nm) ps (fun r => constructAll ctx ps r) (.elem a) idx s) := by
  unfold createStep
  simp only
  by_cases hc : isConstructible.allConstructible ps = false
  · rw [if_pos hc]; exact createOut_same _
  · rw [if_neg hc, if_neg hax]
    by_cases h2 : ax = some c%"@" ∨ ax = some c%"attribute"
    · rw [if_pos h2]
      generalize hqk : attrName ctx pfx nm = qk
      obtain ⟨q, known⟩ := qk
      by_cases hs : q.loc = c%"*"
      · rw [bind_err (show createAttr ctx (.elem a) pfx nm s = (.error .valueError, s) from by
          unfold createAttr; simp only [hqk]
          exact bind_err (show setAttrib a q (some []) s = _ from by unfold setAttrib; simp only [if_pos hs]; rfl))]
        exact createOut_same _
      · have h1 : setAttrib a q (some []) s = (.ok (), s.modify a (Node.setAttr q [])) := by
          unfold setAttrib; simp only [if_neg hs]; rfl
        cases known with
        | false =>
          rw [bind_err (show createAttr ctx (.elem a) pfx nm s = (.error .typeError, s.modify a (Node.setAttr q [])) from by
            unfold createAttr; simp only [hqk]; rw [bind_ok h1]; rfl)]
          exact ⟨s, grown_refl s, .inr ⟨a, q, rfl, fun r h => by cases h⟩⟩
        | true =>
          rw [bind_ok (show createAttr ctx (.elem a) pfx nm s = (.ok (.attr a q), s.modify a (Node.setAttr q [])) from by
            unfold createAttr; simp only [hqk]; rw [bind_ok h1]; rfl)]
          obtain ⟨o, ho⟩ := constructAll_attr (ctx := ctx) a q (s.modify a (Node.setAttr q [])) ps (by simpa using hc)
          cases o with
          | error er => rw [bind_err ho]; exact ⟨s, grown_refl s, .inr ⟨a, q, rfl, fun r h => by cases h⟩⟩
          | ok u =>
            rw [bind_ok ho]
            refine ⟨s, grown_refl s, .inr ⟨a, q, rfl, fun r h => ?_⟩⟩
            cases h
            refine ⟨rfl, fun ax' pfx' nm' h => ?_⟩
            simp only [findTerminalStep, Option.some.injEq, Prod.mk.injEq, NodeTest.name.injEq] at h
            obtain ⟨-, rfl, rfl⟩ := h
            rw [hqk]
    · rw [if_neg h2, bind_err (show raise PyErr.nameError s = (.error _, s) from rfl)]
      exact createOut_same _

/-- Creating only adds. -/
theorem create_out : ∀ (e : Expr) (node : Ref) (idx : Option Nat) (s : Node), CreateOut ctx e s (createNode eng ctx e node idx s)
  | .step ax t ps, node, idx, s => by
    rw [createNode]
    cases t with
    | type nm l =>
      unfold createStep
      simp only
      by_cases h : nm = c%"text"
      · rw [if_pos h]; exact createOut_same _
      · rw [if_neg h]; exact createOut_same _
    | name pfx nm =>
      have other : ∀ r : Ref, (∀ b, r ≠ .elem b) → CreateOut ctx (.step ax (.name pfx nm) ps) s (createStep ctx ax (.name pfx nm) ps (fun r => constructAll ctx ps r) r idx s) := by
        intro r hr
        obtain ⟨er, h⟩ := createStep_other (ctx := ctx) hr ax pfx nm ps (fun r => constructAll ctx ps r) idx s
        rw [h]
        exact createOut_same _
      cases node with
      | elem a =>
        by_cases hax : ax = none ∨ ax = some c%"child"
        · exact ⟨_, createStep_child ax hax pfx nm ps a idx s, .inl rfl⟩
        · exact createStep_attr ax hax pfx nm ps a idx s
      | attr a q => exact other _ (fun b => by simp)
      | text a => exact other _ (fun b => by simp)
      | tail a => exact other _ (fun b => by simp)
  | .binary l .slash r, node, idx, s => by
    rw [createNode]
    have hterm : findTerminalStep (.binary l .slash r) = findTerminalStep r := rfl
    have right : ∀ (left : Ref) (s0 : Node), Grown s s0 → CreateOut ctx (.binary l .slash r) s (createNode eng ctx r left none s0) := by
      intro left s0 h0
      obtain ⟨s1, h1, h2⟩ := create_out r left none s0
      exact ⟨s1, grown_trans h0 h1, h2⟩
    obtain ⟨o, hf⟩ := findNode_state (eng := eng) (ctx := ctx) l.ser node s
    cases o with
    | error er => rw [bind_err hf]; exact createOut_same _
    | ok o =>
      rw [bind_ok hf]
      cases o with
      | some f =>
        cases f with
        | ref left => exact right left _ (grown_refl _)
        | _ => exact createOut_same _
      | none =>
        simp only
        obtain ⟨s1, h1, h2⟩ := create_out l node none s
        rcases hl : createNode eng ctx l node none s with ⟨o, s2⟩
        rw [hl] at h2
        cases o with
        | error er =>
          rw [bind_err hl]
          refine ⟨s1, h1, ?_⟩
          rcases h2 with h2 | ⟨a, q, h2, -⟩
          · exact .inl h2
          · exact .inr ⟨a, q, h2, fun _ h => by cases h⟩
        | ok left =>
          rw [bind_ok hl]
          rcases h2 with h2 | ⟨a, q, h2, h3⟩
          · obtain rfl : s2 = s1 := h2
            exact right left _ h1
          · obtain ⟨rfl, -⟩ := h3 left rfl
            obtain rfl : s2 = _ := h2
            rcases createNode_other (eng := eng) (ctx := ctx) (node := .attr a q) (fun b => by simp) r none (s1.modify a (Node.setAttr q [])) with ⟨er, h⟩ | ⟨h, h'⟩
            · rw [h]
              exact ⟨s1, h1, .inr ⟨a, q, rfl, fun _ h => by cases h⟩⟩
            · rw [h]
              refine ⟨s1, h1, .inr ⟨a, q, rfl, fun r' hr' => ?_⟩⟩
              cases hr'
              exact ⟨rfl, fun ax pfx nm hh => absurd (hterm ▸ hh) (h' ax pfx nm)⟩
  | .binary _ .or _, _, _, s => by simp only [createNode]; exact createOut_same _
  | .binary _ .and _, _, _, s => by simp only [createNode]; exact createOut_same _
  | .binary _ .eq _, _, _, s => by simp only [createNode]; exact createOut_same _
  | .binary _ .ne _, _, _, s => by simp only [createNode]; exact createOut_same _
  | .binary _ .lt _, _, _, s => by simp only [createNode]; exact createOut_same _
  | .binary _ .le _, _, _, s => by simp only [createNode]; exact createOut_same _
  | .binary _ .gt _, _, _, s => by simp only [createNode]; exact createOut_same _
  | .binary _ .ge _, _, _, s => by simp only [createNode]; exact createOut_same _
  | .binary _ .plus _, _, _, s => by simp only [createNode]; exact createOut_same _
  | .binary _ .minus _, _, _, s => by simp only [createNode]; exact createOut_same _
  | .binary _ .mult _, _, _, s => by simp only [createNode]; exact createOut_same _
  | .binary _ .div _, _, _, s => by simp only [createNode]; exact createOut_same _
  | .binary _ .mod _, _, _, s => by simp only [createNode]; exact createOut_same _
  | .binary _ .union _, _, _, s => by simp only [createNode]; exact createOut_same _
  | .binary _ .dslash _, _, _, s => by simp only [createNode]; exact createOut_same _
  | .lit _, _, _, s => by simp only [createNode]; exact createOut_same _
  | .int _, _, _, s => by simp only [createNode]; exact createOut_same _
  | .float _, _, _, s => by simp only [createNode]; exact createOut_same _
  | .neg _, _, _, s => by simp only [createNode]; exact createOut_same _
  | .pred _ _, _, _, s => by simp only [createNode]; exact createOut_same _
  | .root, _, _, s => by simp only [createNode]; exact createOut_same _
  | .abs _ _, _, _, s => by simp only [createNode]; exact createOut_same _
  | .abbrev _, _, _, s => by simp only [createNode]; exact createOut_same _
  | .var _ _, _, _, s => by simp only [createNode]; exact createOut_same _
  | .call _ _ _, _, _, s => by simp only [createNode]; exact createOut_same _

/-! ### setting -/

/-- One element of the document is touched. -/
def OneTouched (v : Option Str) (s s' : Node) : Prop := ∃ a m m', s.get a = some m ∧ Touched v m m' ∧ s' = s.modify a (fun _ => m')

theorem oneTouched_same (v : Option Str) (s : Node) : OneTouched v s s := ⟨[], s, s, rfl, touched_refl v s, rfl⟩

theorem oneTouched_modify {v : Option Str} {s : Node} {a : Node.Addr} {f : Node → Node} (hf : ∀ m, Touched v m (f m)) : OneTouched v s (s.modify a f) := by
  cases hg : s.get a with
  | none => rw [modify_nowhere hg]; exact oneTouched_same v s
  | some m => exact ⟨a, m, f m, hg, hf m, Node.modify_congr hg rfl⟩

/-- Setting a text touches one element. -/
theorem setInXml_one (ctx : Ctx) (f : Found) (v : Option Str) (st : Option (Option Str × NodeTest)) (s : Node) : OneTouched v s (setInXml ctx f v st s).2 := by
  have text : ∀ b, OneTouched v s (setElemText b v s).2 := by
    intro b
    unfold setElemText
    by_cases h : v.elim true xmlOk = false
    · rw [if_pos h]; exact oneTouched_same v s
    · rw [if_neg h]; exact oneTouched_modify (touched_setText v)
  have attr : ∀ b q, OneTouched v s (setAttrib b q v s).2 := by
    intro b q
    unfold setAttrib
    cases v with
    | none => exact oneTouched_same _ s
    | some t =>
      simp only
      by_cases h : q.loc = c%"*"
      · rw [if_pos h]; exact oneTouched_same _ s
      · rw [if_neg h]
        by_cases h' : xmlOk t = false
        · rw [if_pos h']; exact oneTouched_same _ s
        · rw [if_neg h']; exact oneTouched_modify (touched_setAttr t q)
  have other : ∀ r : Ref, OneTouched v s ((if isTextTest st then setElemText r.addr v
        else match st with
          | some (_, .name pfx nm) => setAttrib r.addr (attrName ctx pfx nm).1 v
          | _ => raise .attributeError) s).2 := by
    intro r
    by_cases h : isTextTest st = true
    · rw [if_pos h]; exact text _
    · rw [if_neg h]
      split
      · exact attr _ _
      · exact oneTouched_same v s
  cases f with
  | ref r =>
    cases r with
    | elem a =>
      unfold setInXml
      simp only
      cases hg : s.get a with
      | none =>
        rw [bind_err (show nodeAt a s = (.error .attributeError, s) from by unfold nodeAt; rw [hg])]
        exact oneTouched_same v s
      | some n =>
        rw [bind_ok (show nodeAt a s = (.ok n, s) from by unfold nodeAt; rw [hg])]
        by_cases h : n.children = []
        · rw [if_pos h]; exact text a
        · rw [if_neg h]; exact oneTouched_same v s
    | attr a q => exact other (.attr a q)
    | text a => exact other (.text a)
    | tail a => exact other (.tail a)
  | str _ => exact oneTouched_same v s
  | num _ => exact oneTouched_same v s
  | bool _ => exact oneTouched_same v s

theorem setInXml_touched (f : Found) (v : Option Str) (st : Option (Option Str × NodeTest)) {s s1 : Node} (hs : Grown s s1) : Written v s (setInXml ctx f v st s1).2 := by
  obtain ⟨a, m, m', h1, h2, h3⟩ := setInXml_one ctx f v st s1
  exact ⟨s1, a, m, m', hs, h1, h2, h3⟩

theorem setAttr_setAttr (q : QName) (v w : Str) : ∀ n : Node, Node.setAttr q v (Node.setAttr q w n) = Node.setAttr q v n
  | .mk t at' x cs l => by
    show Node.mk t (Node.setAttrL q v (Node.setAttrL q w at')) x cs l = _
    rw [Node.setAttrL_setAttrL]
    rfl

/-- Creating a node and setting it adds elements and touches one element. -/
theorem create_set (e : Expr) (node : Ref) (idx : Option Nat) (v : Option Str) (s : Node) :
    Written v s ((createNode eng ctx e node idx >>= fun r => setInXml ctx (.ref r) v (findTerminalStep e)) s).2 := by
  obtain ⟨s1, h1, h2⟩ := create_out (eng := eng) (ctx := ctx) e node idx s
  rcases hc : createNode eng ctx e node idx s with ⟨o, s2⟩
  rw [hc] at h2
  have blank : ∀ a q, Written v s (s1.modify a (Node.setAttr q [])) := fun a q => written_modify h1 (touched_blankAttr v q)
  cases o with
  | error er =>
    rw [bind_err hc]
    rcases h2 with h2 | ⟨a, q, h2, -⟩
    · obtain rfl : s2 = s1 := h2
      exact written_grown h1
    · obtain rfl : s2 = _ := h2
      exact blank a q
  | ok r =>
    rw [bind_ok hc]
    rcases h2 with h2 | ⟨a, q, h2, h3⟩
    · obtain rfl : s2 = s1 := h2
      exact setInXml_touched _ v _ h1
    · obtain rfl : s2 = _ := h2
      obtain ⟨rfl, h4⟩ := h3 r rfl
      unfold setInXml
      simp only
      by_cases ht : isTextTest (findTerminalStep e) = true
      · rw [if_pos ht]
        unfold setElemText
        by_cases h : v.elim true xmlOk = false
        · rw [if_pos h]; exact blank a q
        · rw [if_neg h]
          show Written v s ((s1.modify a (Node.setAttr q [])).modify a (Node.setText v))
          rw [Node.modify_modify]
          refine written_modify h1 (fun m => ?_)
          have hb := touched_blankAttr v q m
          refine ⟨?_, ?_, ?_, .inr ?_, q, ?_, ?_⟩
          · cases m; rfl
          · cases m; rfl
          · cases m; rfl
          · cases m; rfl
          · intro q' hq'
            have : ((Node.setText v) (m.setAttr q [])).attr? q' = (m.setAttr q []).attr? q' := by cases m; rfl
            exact this.trans (attr_setAttr_ne hq' [] m)
          · have : ((Node.setText v) (m.setAttr q [])).attr? q = (m.setAttr q []).attr? q := by cases m; rfl
            exact .inr (.inl (this.trans (by rw [Node.attr?_setAttr, if_pos rfl])))
      · rw [if_neg ht]
        cases hst : findTerminalStep e with
        | none => exact blank a q
        | some st =>
          obtain ⟨ax, t⟩ := st
          cases t with
          | type nm l => exact blank a q
          | name pfx nm =>
            simp only [Ref.addr]
            rw [← h4 ax pfx nm hst]
            unfold setAttrib
            cases v with
            | none => exact blank a q
            | some t =>
              simp only
              by_cases h : q.loc = c%"*"
              · rw [if_pos h]; exact blank a q
              · rw [if_neg h]
                by_cases h' : xmlOk t = false
                · rw [if_pos h']; exact blank a q
                · rw [if_neg h']
                  show Written (some t) s ((s1.modify a (Node.setAttr q [])).modify a (Node.setAttr q t))
                  rw [Node.modify_modify]
                  refine written_modify h1 (fun m => ?_)
                  show Touched (some t) m (Node.setAttr q t (Node.setAttr q [] m))
                  rw [setAttr_setAttr]
                  exact touched_setAttr t q m

end
end Fields
