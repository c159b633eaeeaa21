import Verif.XPath.RoundTripParse
/-
Derivations without grouping parentheses: their values have the shape of canonical ASTs and obey the
precedence table.
-/
namespace XPath
open G

/-- Is a parenthesis after this token the parenthesis of a function call or node type test? -/
def Tok.isCallName : Tok → Bool
  | .funcName _ | .nodeType _ => true
  | _ => false

mutual
/-- Number of grouping parentheses `( Expr )` in a derivation. -/
def G.CExpr.groups : CExpr → Nat
  | .bin l _ r => l.groups + r.groups
  | .neg e => e.groups
  | .filterPath f _ r => f.groups + r.groups
  | .rel r => r.groups
  | .absRoot => 0
  | .abs r => r.groups
  | .absAbbrev r => r.groups
  | .filter f => f.groups
def G.CRel.groups : CRel → Nat
  | .step s => s.groups
  | .cons r _ s => r.groups + s.groups
def G.CStep.groups : CStep → Nat
  | .testPreds _ ps => ps.groups
  | .axisPreds _ _ ps => ps.groups
  | _ => 0
def G.CPreds.groups : CPreds → Nat
  | .single e => e.groups
  | .snoc ps e => ps.groups + e.groups
def G.CFilter.groups : CFilter → Nat
  | .call _ as => as.groups
  | .group e => 1 + e.groups
  | .pred f e => f.groups + e.groups
  | _ => 0
def G.CArgs.groups : CArgs → Nat
  | .empty => 0
  | .list as => as.groups
def G.CArgList.groups : CArgList → Nat
  | .single e => e.groups
  | .snoc as e => as.groups + e.groups
end

/-- Open parentheses not belonging to a call or node type. -/
def excess (ts : List Tok) : Int := (ts.countP (· == .openParen) : Int) - ts.countP Tok.isCallName

@[simp] theorem excess_nil : excess [] = 0 := rfl
@[simp] theorem excess_append (a b) : excess (a ++ b) = excess a + excess b := by
  simp [excess, List.countP_append]; omega
theorem excess_cons (t b) : excess (t :: b) = excess [t] + excess b := by
  rw [← excess_append]; rfl
@[simp] theorem excess_cons_append (t a b) : excess (t :: (a ++ b)) = excess [t] + (excess a + excess b) := by
  rw [excess_cons, excess_append]
@[simp] theorem excess_cons_expr (t) (c : CExpr) : excess (t :: c.toks) = excess [t] + excess c.toks := excess_cons _ _
@[simp] theorem excess_cons_rel (t) (c : CRel) : excess (t :: c.toks) = excess [t] + excess c.toks := excess_cons _ _
@[simp] theorem excess_cons_step (t) (c : CStep) : excess (t :: c.toks) = excess [t] + excess c.toks := excess_cons _ _
@[simp] theorem excess_cons_qname (t) (c : CQName) : excess (t :: c.toks) = excess [t] + excess c.toks := excess_cons _ _

theorem excess_op (op : Op) : excess [op.tok] = 0 := by cases op <;> rfl
theorem excess_sep (d) : excess [sep d] = 0 := by cases d <;> rfl
theorem excess_qname (q : CQName) : excess q.toks = 0 := by cases q <;> rfl
theorem excess_test (t : CNodeTest) : excess t.toks = 0 := by
  cases t <;> try rfl
  case qname q => exact excess_qname q
theorem excess_axis (t : CAxis) : excess t.toks = 0 := by cases t <;> rfl
theorem excess_func (q : CFuncQName) : excess q.toks = -1 := by cases q <;> rfl

mutual
theorem groups_expr : ∀ c : CExpr, excess c.toks = c.groups
  | .bin l op r => by simp [CExpr.toks, CExpr.groups, groups_expr l, groups_expr r, excess_op]
  | .neg e => by simp [CExpr.toks, CExpr.groups, groups_expr e, show excess [.minusOp] = 0 from rfl]
  | .filterPath f d r => by simp [CExpr.toks, CExpr.groups, groups_filter f, groups_rel r, excess_sep]
  | .rel r => by simp [CExpr.toks, CExpr.groups, groups_rel r]
  | .absRoot => by simp [CExpr.toks, CExpr.groups, show excess [.pathSep] = 0 from rfl]
  | .abs r => by simp [CExpr.toks, CExpr.groups, groups_rel r, show excess [.pathSep] = 0 from rfl]
  | .absAbbrev r => by simp [CExpr.toks, CExpr.groups, groups_rel r, show excess [.abbrevPathSep] = 0 from rfl]
  | .filter f => by simp [CExpr.toks, CExpr.groups, groups_filter f]
theorem groups_rel : ∀ c : CRel, excess c.toks = c.groups
  | .step s => by simp [CRel.toks, CRel.groups, groups_step s]
  | .cons r d s => by simp [CRel.toks, CRel.groups, groups_rel r, groups_step s, excess_sep]
theorem groups_step : ∀ c : CStep, excess c.toks = c.groups
  | .test t => by simp [CStep.toks, CStep.groups, excess_test]
  | .testPreds t ps => by simp [CStep.toks, CStep.groups, excess_test, groups_preds ps]
  | .axis a t => by simp [CStep.toks, CStep.groups, excess_test, excess_axis]
  | .axisPreds a t ps => by simp [CStep.toks, CStep.groups, excess_test, excess_axis, groups_preds ps]
  | .self => by rfl
  | .parent => by rfl
theorem groups_preds : ∀ c : CPreds, excess c.toks = c.groups
  | .single e => by simp [CPreds.toks, CPreds.groups, groups_expr e, show excess [.openBracket] = 0 from rfl, show excess [.closeBracket] = 0 from rfl]
  | .snoc ps e => by simp [CPreds.toks, CPreds.groups, groups_preds ps, groups_expr e, show excess [.openBracket] = 0 from rfl, show excess [.closeBracket] = 0 from rfl]
theorem groups_filter : ∀ c : CFilter, excess c.toks = c.groups
  | .var q => by simp [CFilter.toks, CFilter.groups, excess_qname, show excess [.dollar] = 0 from rfl]
  | .lit s => by rfl
  | .float f => by rfl
  | .int n => by rfl
  | .call q as => by
    have := groups_args as
    simp [CFilter.toks, CFilter.groups, excess_func, this]; omega
  | .group e => by simp [CFilter.toks, CFilter.groups, groups_expr e, show excess [.openParen] = 1 from rfl, show excess [.closeParen] = 0 from rfl]
  | .pred f e => by simp [CFilter.toks, CFilter.groups, groups_filter f, groups_expr e, show excess [.openBracket] = 0 from rfl, show excess [.closeBracket] = 0 from rfl]
theorem groups_args : ∀ c : CArgs, excess c.toks = 1 + c.groups
  | .empty => by rfl
  | .list as => by simp [CArgs.toks, CArgs.groups, groups_arglist as, show excess [.openParen] = 1 from rfl, show excess [.closeParen] = 0 from rfl]
theorem groups_arglist : ∀ c : CArgList, excess c.toks = c.groups
  | .single e => by simp [CArgList.toks, CArgList.groups, groups_expr e]
  | .snoc as e => by simp [CArgList.toks, CArgList.groups, groups_arglist as, groups_expr e, show excess [.comma] = 0 from rfl]
end

mutual
/-- Every operator application in the tree obeys the precedence table: what ends its left operand binds
at least as tightly, what begins its right operand binds strictly tighter. -/
def Expr.PrecWF : Expr → Prop
  | .binary l op r => l.PrecWF ∧ r.PrecWF ∧ ∀ p, op.prec = some p → (∀ q ∈ l.rightEdge, p ≤ q) ∧ (∀ q ∈ r.leftEdge, p < q)
  | .neg e => e.PrecWF ∧ ∀ q ∈ e.leftEdge, 7 < q
  | .pred b ps => b.PrecWF ∧ Expr.PrecWFs ps
  | .abs _ r => r.PrecWF
  | .step _ _ ps => Expr.PrecWFs ps
  | .call _ _ as => Expr.PrecWFs as
  | .lit _ => True
  | .int _ => True
  | .float _ => True
  | .root => True
  | .abbrev _ => True
  | .var _ _ => True
def Expr.PrecWFs : List Expr → Prop
  | [] => True
  | e :: es => e.PrecWF ∧ Expr.PrecWFs es
end

theorem precWFs_append {a b} (ha : Expr.PrecWFs a) (hb : Expr.PrecWFs b) : Expr.PrecWFs (a ++ b) := by
  induction a with
  | nil => exact hb
  | cons e a ih => exact ⟨ha.1, ih ha.2⟩

theorem op_prec (op : Op) : op.val.prec = some op.prec := by
  cases op <;> try rfl
  case equal n => cases n <;> rfl
  case rel a b => cases a <;> cases b <;> rfl

theorem sepOp_prec (d) : (sepOp d).prec = none := by cases d <;> rfl

theorem addPredicate_edges (e p : Expr) : (addPredicate e p).leftEdge = [] ∧ (addPredicate e p).rightEdge = [] := by
  unfold addPredicate
  split <;> exact ⟨rfl, rfl⟩

theorem rel_edges : ∀ c : CRel, c.val.leftEdge = [] ∧ c.val.rightEdge = []
  | .step s => by cases s <;> exact ⟨rfl, rfl⟩
  | .cons r d s => by simp [CRel.val, Expr.leftEdge, Expr.rightEdge, sepOp_prec]

theorem filter_edges : ∀ c : CFilter, c.groups = 0 → c.val.leftEdge = [] ∧ c.val.rightEdge = []
  | .var q, _ => ⟨rfl, rfl⟩
  | .lit q, _ => ⟨rfl, rfl⟩
  | .float q, _ => ⟨rfl, rfl⟩
  | .int q, _ => ⟨rfl, rfl⟩
  | .call q as, _ => ⟨rfl, rfl⟩
  | .group e, h => by simp [CFilter.groups] at h
  | .pred f e, h => addPredicate_edges _ _

theorem expr_edges : ∀ c : CExpr, c.groups = 0 → c.val.leftEdge = c.leftEdge ∧ c.val.rightEdge = c.rightEdge
  | .bin l op r, h => by
    simp [CExpr.groups] at h
    simp [CExpr.val, Expr.leftEdge, Expr.rightEdge, op_prec, CExpr.leftEdge, CExpr.rightEdge, expr_edges l h.1, expr_edges r h.2]
  | .neg e, h => by
    simp [CExpr.groups] at h
    simp [CExpr.val, Expr.leftEdge, Expr.rightEdge, CExpr.leftEdge, CExpr.rightEdge, expr_edges e h]
  | .filterPath f d r, h => by simp [CExpr.val, Expr.leftEdge, Expr.rightEdge, sepOp_prec, CExpr.leftEdge, CExpr.rightEdge]
  | .rel r, _ => rel_edges r
  | .absRoot, _ => ⟨rfl, rfl⟩
  | .abs r, _ => ⟨rfl, rfl⟩
  | .absAbbrev r, _ => ⟨rfl, rfl⟩
  | .filter f, h => filter_edges f h

mutual
theorem wf_expr : ∀ c : CExpr, c.PrecOK → c.groups = 0 → c.val.PrecWF
  | .bin l op r, h, hg => by
    simp [CExpr.groups] at hg
    obtain ⟨h1, h2, h3, h4⟩ := h
    refine ⟨wf_expr l h1 hg.1, wf_expr r h2 hg.2, ?_⟩
    intro p hp
    rw [op_prec] at hp; cases hp
    rw [(expr_edges l hg.1).2, (expr_edges r hg.2).1]
    exact ⟨h3, h4⟩
  | .neg e, h, hg => by
    simp [CExpr.groups] at hg
    exact ⟨wf_expr e h.1 hg, by rw [(expr_edges e hg).1]; exact h.2⟩
  | .filterPath f d r, h, hg => by
    simp [CExpr.groups] at hg
    exact ⟨wf_filter f h.1 hg.1, wf_rel r h.2 hg.2, by simp [sepOp_prec]⟩
  | .rel r, h, hg => wf_rel r h hg
  | .absRoot, _, _ => trivial
  | .abs r, h, hg => wf_rel r h hg
  | .absAbbrev r, h, hg => wf_rel r h hg
  | .filter f, h, hg => wf_filter f h hg
theorem wf_rel : ∀ c : CRel, c.PrecOK → c.groups = 0 → c.val.PrecWF
  | .step s, h, hg => wf_step s h hg
  | .cons r d s, h, hg => by
    simp [CRel.groups] at hg
    exact ⟨wf_rel r h.1 hg.1, wf_step s h.2 hg.2, by simp [sepOp_prec]⟩
theorem wf_step : ∀ c : CStep, c.PrecOK → c.groups = 0 → c.val.PrecWF
  | .test t, _, _ => trivial
  | .testPreds t ps, h, hg => wf_preds ps h hg
  | .axis a t, _, _ => trivial
  | .axisPreds a t ps, h, hg => wf_preds ps h hg
  | .self, _, _ => trivial
  | .parent, _, _ => trivial
theorem wf_preds : ∀ c : CPreds, c.PrecOK → c.groups = 0 → Expr.PrecWFs c.val
  | .single e, h, hg => ⟨wf_expr e h hg, trivial⟩
  | .snoc ps e, h, hg => by
    simp [CPreds.groups] at hg
    exact precWFs_append (wf_preds ps h.1 hg.1) ⟨wf_expr e h.2 hg.2, trivial⟩
theorem wf_filter : ∀ c : CFilter, c.PrecOK → c.groups = 0 → c.val.PrecWF
  | .var q, _, _ => trivial
  | .lit q, _, _ => trivial
  | .float q, _, _ => trivial
  | .int q, _, _ => trivial
  | .call q as, h, hg => wf_args as h hg
  | .group e, h, hg => by simp [CFilter.groups] at hg
  | .pred f e, h, hg => by
    simp [CFilter.groups] at hg
    have h1 := wf_filter f h.1 hg.1
    have h2 := wf_expr e h.2 hg.2
    simp only [CFilter.val, addPredicate]
    split
    · rename_i b ps hb
      rw [hb] at h1
      exact ⟨h1.1, precWFs_append h1.2 ⟨h2, trivial⟩⟩
    · exact ⟨h1, h2, trivial⟩
theorem wf_args : ∀ c : CArgs, c.PrecOK → c.groups = 0 → Expr.PrecWFs c.val
  | .empty, _, _ => trivial
  | .list as, h, hg => wf_arglist as h hg
theorem wf_arglist : ∀ c : CArgList, c.PrecOK → c.groups = 0 → Expr.PrecWFs c.val
  | .single e, h, hg => ⟨wf_expr e h hg, trivial⟩
  | .snoc as e, h, hg => by
    simp [CArgList.groups] at hg
    exact precWFs_append (wf_arglist as h.1 hg.1) ⟨wf_expr e h.2 hg.2, trivial⟩
end

/-! ### Shape of group-free derivations -/

mutual
/-- Does `/` alone occur in the AST? -/
def Expr.hasRoot : Expr → Bool
  | .root => true
  | .binary l _ r => l.hasRoot || r.hasRoot
  | .neg e => e.hasRoot
  | .pred b ps => b.hasRoot || Expr.hasRoots ps
  | .abs _ r => r.hasRoot
  | .step _ _ ps => Expr.hasRoots ps
  | .call _ _ as => Expr.hasRoots as
  | .lit _ => false
  | .int _ => false
  | .float _ => false
  | .abbrev _ => false
  | .var _ _ => false
def Expr.hasRoots : List Expr → Bool
  | [] => false
  | e :: es => e.hasRoot || Expr.hasRoots es
end

theorem hasRoots_append (a b) : Expr.hasRoots (a ++ b) = (Expr.hasRoots a || Expr.hasRoots b) := by
  induction a with
  | nil => rfl
  | cons e a ih => simp [Expr.hasRoots, ih, Bool.or_assoc]

theorem shapes_append (a b) : Expr.shapes (a ++ b) = (Expr.shapes a && Expr.shapes b) := by
  induction a with
  | nil => rfl
  | cons e a ih => simp [Expr.shapes, ih, Bool.and_assoc]

mutual
theorem sh_expr : ∀ c : CExpr, c.PrecOK → c.groups = 0 → c.val.hasRoot = false → c.val.shape.isSome = true
  | .bin l op r, h, hg, hr => by
    have he := expr_edges l (by simp [CExpr.groups] at hg; exact hg.1)
    have he' := expr_edges r (by simp [CExpr.groups] at hg; exact hg.2)
    simp [CExpr.groups] at hg
    obtain ⟨h1, h2, h3, h4⟩ := h
    simp [CExpr.val, Expr.hasRoot] at hr
    have i1 := sh_expr l h1 hg.1 hr.1
    have i2 := sh_expr r h2 hg.2 hr.2
    simp only [CExpr.val, Expr.shape, op_prec, i1, i2, he.2, he'.1]
    rw [if_pos]
    · rfl
    · simp only [Bool.true_and, Bool.and_eq_true, List.all_eq_true, decide_eq_true_eq]
      exact ⟨h3, h4⟩
  | .neg e, h, hg, hr => by
    simp [CExpr.groups] at hg
    have i1 := sh_expr e h.1 hg hr
    simp only [CExpr.val, Expr.shape, i1, (expr_edges e hg).1]
    rw [if_pos]
    · rfl
    · simp only [Bool.true_and, List.all_eq_true, decide_eq_true_eq]
      exact h.2
  | .filterPath f d r, h, hg, hr => by
    simp [CExpr.groups] at hg
    simp [CExpr.val, Expr.hasRoot] at hr
    have i1 := sh_filter f h.1 hg.1 hr.1
    obtain ⟨k, hk, hkr⟩ := sh_rel r h.2 hg.2 hr.2
    simp [CExpr.val, Expr.shape, sepOp_prec, i1, hk, hkr, show Kind.filt.isRel = false from rfl]
  | .rel r, h, hg, hr => by
    obtain ⟨k, hk, -⟩ := sh_rel r h hg hr
    simp [CExpr.val, hk]
  | .absRoot, _, _, hr => by simp [CExpr.val, Expr.hasRoot] at hr
  | .abs r, h, hg, hr => by
    obtain ⟨k, hk, hkr⟩ := sh_rel r h hg hr
    simp [CExpr.val, Expr.shape, hk, hkr]
  | .absAbbrev r, h, hg, hr => by
    obtain ⟨k, hk, hkr⟩ := sh_rel r h hg hr
    simp [CExpr.val, Expr.shape, hk, hkr]
  | .filter f, h, hg, hr => by simp [CExpr.val, sh_filter f h hg hr]
theorem sh_rel : ∀ c : CRel, c.PrecOK → c.groups = 0 → c.val.hasRoot = false → ∃ k, c.val.shape = some k ∧ k.isRel = true
  | .step s, h, hg, hr => ⟨_, sh_step s h hg hr, rfl⟩
  | .cons r d s, h, hg, hr => by
    simp [CRel.groups] at hg
    simp [CRel.val, Expr.hasRoot] at hr
    obtain ⟨k, hk, hkr⟩ := sh_rel r h.1 hg.1 hr.1
    have i := sh_step s h.2 hg.2 hr.2
    exact ⟨.rel, by simp [CRel.val, Expr.shape, sepOp_prec, hk, i, hkr], rfl⟩
theorem sh_step : ∀ c : CStep, c.PrecOK → c.groups = 0 → c.val.hasRoot = false → c.val.shape = some .step
  | .test t, _, _, _ => rfl
  | .testPreds t ps, h, hg, hr => by
    have := (sh_preds ps h hg hr)
    simp [CStep.val, Expr.shape, this]
  | .axis a t, _, _, _ => rfl
  | .axisPreds a t ps, h, hg, hr => by
    have := (sh_preds ps h hg hr)
    simp [CStep.val, Expr.shape, this]
  | .self, _, _, _ => rfl
  | .parent, _, _, _ => rfl
theorem sh_preds : ∀ c : CPreds, c.PrecOK → c.groups = 0 → Expr.hasRoots c.val = false → Expr.shapes c.val = true
  | .single e, h, hg, hr => by
    simp [CPreds.val, Expr.hasRoots] at hr
    simp [CPreds.val, Expr.shapes, sh_expr e h hg hr]
  | .snoc ps e, h, hg, hr => by
    simp [CPreds.groups] at hg
    simp [CPreds.val, hasRoots_append, Expr.hasRoots] at hr
    simp [CPreds.val, shapes_append, Expr.shapes, sh_preds ps h.1 hg.1 hr.1, sh_expr e h.2 hg.2 hr.2]
theorem sh_filter : ∀ c : CFilter, c.PrecOK → c.groups = 0 → c.val.hasRoot = false → c.val.shape = some .filt
  | .var q, _, _, _ => rfl
  | .lit q, _, _, _ => rfl
  | .float q, _, _, _ => rfl
  | .int q, _, _, _ => rfl
  | .call q as, h, hg, hr => by
    have := sh_args as h hg hr
    simp [CFilter.val, Expr.shape, this]
  | .group e, h, hg, _ => by simp [CFilter.groups] at hg
  | .pred f e, h, hg, hr => by
    simp [CFilter.groups] at hg
    simp only [CFilter.val, addPredicate] at hr ⊢
    split
    · rename_i b ps hb
      simp only [hb] at hr
      simp [Expr.hasRoot, hasRoots_append, Expr.hasRoots] at hr
      have h1 := sh_filter f h.1 hg.1 (by rw [hb]; simp [Expr.hasRoot, hr])
      have h2 := sh_expr e h.2 hg.2 hr.2.2
      rw [hb] at h1
      simp only [Expr.shape] at h1
      split at h1
      · rename_i hh
        simp only [Bool.and_eq_true] at hh
        simp [Expr.shape, shapes_append, Expr.shapes, hh, h2]
      · cases h1
    · rename_i hn
      have hr' : f.val.hasRoot = false ∧ e.val.hasRoot = false := by
        split at hr
        · rename_i b ps hb; exact absurd hb (hn b ps)
        · simpa [Expr.hasRoot, Expr.hasRoots] using hr
      have h1 := sh_filter f h.1 hg.1 hr'.1
      have h2 := sh_expr e h.2 hg.2 hr'.2
      have hnp : f.val.notPred = true := by
        cases hv : f.val <;> try rfl
        exact absurd hv (hn _ _)
      simp [Expr.shape, Expr.shapes, h1, h2, hnp]
theorem sh_args : ∀ c : CArgs, c.PrecOK → c.groups = 0 → Expr.hasRoots c.val = false → Expr.shapes c.val = true
  | .empty, _, _, _ => rfl
  | .list as, h, hg, hr => sh_arglist as h hg hr
theorem sh_arglist : ∀ c : CArgList, c.PrecOK → c.groups = 0 → Expr.hasRoots c.val = false → Expr.shapes c.val = true
  | .single e, h, hg, hr => by
    simp [CArgList.val, Expr.hasRoots] at hr
    simp [CArgList.val, Expr.shapes, sh_expr e h hg hr]
  | .snoc ps e, h, hg, hr => by
    simp [CArgList.groups] at hg
    simp [CArgList.val, hasRoots_append, Expr.hasRoots] at hr
    simp [CArgList.val, shapes_append, Expr.shapes, sh_arglist ps h.1 hg.1 hr.1, sh_expr e h.2 hg.2 hr.2]
end

end XPath
