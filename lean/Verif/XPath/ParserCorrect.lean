import Verif.XPath.ParserComplete
/-
The parser model computes exactly the trees of the grammar selected by the precedence table.
-/
namespace XPath
open G

theorem relVal_eq (r : CRel) : relVal CExpr.val r = r.val := by
  have hs : ∀ s : CStep, stepVal CExpr.val s = s.val := by
    intro s; cases s <;> simp [stepVal, CStep.val, CPreds_val]
  induction r using CRel.ind with
  | step s => simp [relVal, CRel.val, hs]
  | cons r b s ih => simp [relVal, CRel.val, hs, ih]

theorem filterVal_eq : ∀ fl : CFilter, filterVal CExpr.val fl = fl.val
  | .var q => rfl
  | .lit s => rfl
  | .float s => rfl
  | .int s => rfl
  | .call q as => by cases as <;> simp [filterVal, CFilter.val, argsVal, CArgs.val, CArgList_val]
  | .group e => rfl
  | .pred fl e => by simp [filterVal, CFilter.val, filterVal_eq fl]

theorem atomVal_eq (c : CExpr) (h : isAtom c = true) : atomVal CExpr.val c = c.val := by
  cases c <;> simp [isAtom] at h <;> simp [atomVal, CExpr.val, relVal_eq, filterVal_eq]

/-- `c` is parsed as a left operand. -/
def Compl (c : CExpr) : Prop :=
  ∀ m rest v, (∀ q ∈ c.leftEdge, m ≤ q) → follow rest = true → Stop c.rightEdge rest →
    Runs (parseLoop · m c.val rest) v → Runs (parseExpr · m (c.toks ++ rest)) v

theorem Below.loop {m rest} (h : Below m rest) (l : Expr) : Runs (parseLoop · m l rest) (l, rest) := by
  refine .succ_ok fun n => ?_
  rcases rest with _ | ⟨t, r⟩
  · rfl
  rw [parseLoop]
  cases hb : binTok t with
  | none => rfl
  | some op =>
    obtain ⟨op, p⟩ := op
    have := h t r op p rfl hb
    dsimp only
    rw [if_neg (by omega)]

theorem closing_below {r : List Tok} (h : ∃ t r', r = t :: r' ∧ (t = .closeParen ∨ t = .closeBracket ∨ t = .comma)) (m) :
    follow r = true ∧ Below m r ∧ ∀ qs, Stop qs r := by
  obtain ⟨t, r', rfl, h⟩ := h
  refine ⟨?_, ?_, ?_⟩
  · rcases h with rfl | rfl | rfl <;> rfl
  · intro t' r op p h1 h2
    simp at h1; obtain ⟨rfl, -⟩ := h1
    rcases h with rfl | rfl | rfl <;> simp [binTok] at h2
  · intro qs t' r op p h1 h2
    simp at h1; obtain ⟨rfl, -⟩ := h1
    rcases h with rfl | rfl | rfl <;> simp [binTok] at h2

theorem Compl.eok {c} (h : Compl c) : EOK CExpr.val c := by
  intro r hr
  obtain ⟨h1, h2, h3⟩ := closing_below hr 0
  exact h 0 r _ (by simp) h1 (h3 _) (h2.loop _)

theorem compl_atom (c : CExpr) (ha : isAtom c = true) (h : atomOK CExpr.val c) : Compl c := by
  intro m rest v _ h2 _ h4
  rw [← atomVal_eq c ha] at h4
  refine (runs_prefix_atom c h rest h2).bind (g' := fun u n => parseLoop n m u.1 u.2) h4 fun n hn => ?_
  simp only [parseExpr, hn]

mutual
theorem compl_expr : ∀ c : CExpr, c.PrecOK → Compl c
  | .bin l op r, ⟨hl, hr, h1, h2⟩ => by
    have il := compl_expr l hl
    have ir := compl_expr r hr
    intro m rest v g1 g2 g3 g4
    simp only [CExpr.toks, List.append_assoc, List.cons_append]
    refine il m _ v (fun q hq => g1 q (by simp [CExpr.leftEdge, hq])) (follow_op _ _) ?_ ?_
    · intro t r' op' p e1 e2 q hq
      simp at e1; obtain ⟨rfl, -⟩ := e1
      rw [op_binTok] at e2; simp at e2
      rw [← e2.2]; exact h1 q hq
    · have hb : Below (op.prec + 1) rest := by
        intro t r' op' p e1 e2
        have := g3 t r' op' p e1 e2 op.prec (by simp [CExpr.rightEdge])
        omega
      have := ir (op.prec + 1) rest (r.val, rest) (fun q hq => h2 q hq) g2
        (fun t r' op' p e1 e2 q hq => g3 t r' op' p e1 e2 q (by simp [CExpr.rightEdge, hq])) (hb.loop _)
      refine this.bind (g' := fun u n => parseLoop n m (.binary l.val op.val u.1) u.2) g4 fun n hn => ?_
      have hm : m ≤ op.prec := g1 op.prec (by simp [CExpr.leftEdge])
      rw [parseLoop, op_binTok]
      simp only [hm, hn, if_true]
  | .neg e, ⟨he, h1⟩ => by
    have ie := compl_expr e he
    intro m rest v g1 g2 g3 g4
    have hb : Below 7 rest := by
      intro t r' op' p e1 e2
      have := g3 t r' op' p e1 e2 7 (by simp [CExpr.rightEdge])
      obtain ⟨o, -, -, rfl⟩ := binTok_op e2
      have := Op.prec_ne o
      omega
    have h7 := ie 7 rest (e.val, rest) (fun q hq => Nat.le_of_lt (h1 q hq)) g2
      (fun t r' op' p e1 e2 q hq => g3 t r' op' p e1 e2 q (by simp [CExpr.rightEdge, hq])) (hb.loop _)
    have hp : Runs (parsePrefix · ((CExpr.neg e).toks ++ rest)) (.neg e.val, rest) :=
      h7.map fun n hn => by simp [CExpr.toks, parsePrefix, hn]
    refine hp.bind (g' := fun u n => parseLoop n m u.1 u.2) g4 fun n hn => ?_
    simp only [parseExpr, hn]
  | .filterPath f b r, h => compl_atom _ rfl ⟨compl_filter f h.1, compl_rel r h.2⟩
  | .rel r, h => compl_atom _ rfl (compl_rel r h)
  | .absRoot, _ => compl_atom _ rfl trivial
  | .abs r, h => compl_atom _ rfl (compl_rel r h)
  | .absAbbrev r, h => compl_atom _ rfl (compl_rel r h)
  | .filter f, h => compl_atom _ rfl (compl_filter f h)
theorem compl_rel : ∀ r : CRel, r.PrecOK → relOK CExpr.val r
  | .step s, h => compl_step s h
  | .cons r _ s, h => ⟨compl_rel r h.1, compl_step s h.2⟩
theorem compl_step : ∀ s : CStep, s.PrecOK → stepOK CExpr.val s
  | .test _, _ => trivial
  | .testPreds _ ps, h => compl_preds ps h
  | .axis _ _, _ => trivial
  | .axisPreds _ _ ps, h => compl_preds ps h
  | .self, _ => trivial
  | .parent, _ => trivial
theorem compl_preds : ∀ ps : CPreds, ps.PrecOK → ∀ e ∈ CPredsList ps, EOK CExpr.val e
  | .single e, h => by
    have he := (compl_expr e h).eok
    intro x hx; simp [CPredsList] at hx; subst hx
    exact he
  | .snoc ps e, h => by
    have he := (compl_expr e h.2).eok
    have hs := compl_preds ps h.1
    intro x hx; simp [CPredsList] at hx
    rcases hx with hx | rfl
    · exact hs x hx
    · exact he
theorem compl_filter : ∀ f : CFilter, f.PrecOK → filterOK CExpr.val f
  | .var _, _ => trivial
  | .lit _, _ => trivial
  | .float _, _ => trivial
  | .int _, _ => trivial
  | .call _ as, h => compl_args as h
  | .group e, h => (compl_expr e h).eok
  | .pred f e, h => ⟨compl_filter f h.1, (compl_expr e h.2).eok⟩
theorem compl_args : ∀ a : CArgs, a.PrecOK → argsOK CExpr.val a
  | .empty, _ => trivial
  | .list as, h => compl_arglist as h
theorem compl_arglist : ∀ as : CArgList, as.PrecOK → ∀ e ∈ CArgListList as, EOK CExpr.val e
  | .single e, h => by
    have he := (compl_expr e h).eok
    intro x hx; simp [CArgListList] at hx; subst hx
    exact he
  | .snoc as e, h => by
    have he := (compl_expr e h.2).eok
    have hs := compl_arglist as h.1
    intro x hx; simp [CArgListList] at hx
    rcases hx with hx | rfl
    · exact hs x hx
    · exact he
end

/-! ### Results about `parseToks` -/

theorem mono_ok {n m ts v} (h : parseExpr n m ts = .ok v) : ∀ k, parseExpr (n + k) m ts = .ok v
  | 0 => h
  | k + 1 => by
    have ih := mono_ok h k
    rcases (mono (n + k)).expr m ts with h' | h'
    · rw [h'] at ih; cases ih
    · rw [← Nat.add_assoc, ← h']; exact ih

/-- The parser never runs out of fuel. -/
theorem parseExpr_ne_fuel (ts : List Tok) : parseExpr (fuelFor ts) 0 ts ≠ .error .fuel := by
  intro h
  have := (good (fuelFor ts)).expr 0 ts
  rw [h] at this
  simp [Out, fuelFor] at this
  omega

theorem runs_fuelFor {ts v} (h : Runs (parseExpr · 0 ts) v) : parseExpr (fuelFor ts) 0 ts = .ok v := by
  obtain ⟨N, h⟩ := h
  have h1 := h (fuelFor ts + N) (by omega)
  have : ∀ k, parseExpr (fuelFor ts + k) 0 ts = parseExpr (fuelFor ts) 0 ts := by
    intro k
    induction k with
    | zero => rfl
    | succ k ih =>
      rcases (mono (fuelFor ts + k)).expr 0 ts with h' | h'
      · rw [ih] at h'; exact absurd h' (parseExpr_ne_fuel ts)
      · rw [← Nat.add_assoc, ← h', ih]
  dsimp only at h1; rw [this] at h1; exact h1

theorem parseExpr_complete (c : CExpr) (h : c.PrecOK) : parseExpr (fuelFor c.toks) 0 c.toks = .ok (c.val, []) := by
  refine runs_fuelFor ?_
  have := compl_expr c h 0 [] (c.val, []) (by simp) rfl (by intro t r; simp)
    (Below.loop (by intro t r; simp) _)
  simpa using this

theorem parseToks_complete (c : CExpr) (h : c.PrecOK) : parseToks c.toks = .ok c.val := by
  simp [parseToks, parseExpr_complete c h]

theorem parseExpr_sound {n ts e rest} (h : parseExpr n 0 ts = .ok (e, rest)) :
    ∃ c : CExpr, c.PrecOK ∧ ts = c.toks ++ rest ∧ c.val = e := by
  have := (good n).expr 0 ts
  rw [h] at this
  obtain ⟨c, h1, h2, h3, -⟩ := this
  exact ⟨c, h1, h2, h3⟩

theorem parseToks_sound {ts e} (h : parseToks ts = .ok e) : ∃ c : CExpr, c.PrecOK ∧ c.toks = ts ∧ c.val = e := by
  unfold parseToks at h
  split at h
  · cases h
  · rename_i h'
    cases h
    obtain ⟨c, h1, h2, h3⟩ := parseExpr_sound h'
    exact ⟨c, h1, by simp [h2], h3⟩
  · cases h

/-! ### Every tree of the ambiguous grammar can be re-associated -/

/-- Attach `op r` to the right edge of `l`. -/
theorem attach (op : Op) (r : CExpr) (hr : r.PrecOK) (hle : r.leftEdge = []) : ∀ l : CExpr, l.PrecOK →
    ∃ c : CExpr, c.PrecOK ∧ c.toks = l.toks ++ op.tok :: r.toks ∧
      (c.leftEdge = l.leftEdge ∨ (c.leftEdge = op.prec :: l.leftEdge ∧ ∀ q ∈ l.rightEdge, op.prec ≤ q)) := by
  intro l hl
  by_cases h : ∀ q ∈ l.rightEdge, op.prec ≤ q
  · exact ⟨.bin l op r, ⟨hl, hr, h, by simp [hle]⟩, rfl, .inr ⟨rfl, h⟩⟩
  · match l, hl, h with
    | .bin l1 o1 r1, hl, h =>
      obtain ⟨h1, h2, h3, h4⟩ := hl
      obtain ⟨c, g1, g2, g3⟩ := attach op r hr hle r1 h2
      refine ⟨.bin l1 o1 c, ⟨h1, g1, h3, ?_⟩, by simp [CExpr.toks, g2], .inl rfl⟩
      rcases g3 with g3 | ⟨g3, g4⟩
      · rw [g3]; exact h4
      · rw [g3]
        intro q hq
        simp at hq
        rcases hq with rfl | hq
        · by_contra hc
          apply h
          intro q hq
          simp [CExpr.rightEdge] at hq
          rcases hq with rfl | hq
          · omega
          · exact g4 q hq
        · exact h4 q hq
    | .neg e, hl, h =>
      obtain ⟨h1, h2⟩ := hl
      obtain ⟨c, g1, g2, g3⟩ := attach op r hr hle e h1
      refine ⟨.neg c, ⟨g1, ?_⟩, by simp [CExpr.toks, g2], .inl rfl⟩
      rcases g3 with g3 | ⟨g3, g4⟩
      · rw [g3]; exact h2
      · rw [g3]
        intro q hq
        simp at hq
        rcases hq with rfl | hq
        · by_contra hc
          apply h
          intro q hq
          simp [CExpr.rightEdge] at hq
          rcases hq with rfl | hq
          · omega
          · exact g4 q hq
        · exact h2 q hq
    | .filterPath .., _, h => simp [CExpr.rightEdge] at h
    | .rel _, _, h => simp [CExpr.rightEdge] at h
    | .absRoot, _, h => simp [CExpr.rightEdge] at h
    | .abs _, _, h => simp [CExpr.rightEdge] at h
    | .absAbbrev _, _, h => simp [CExpr.rightEdge] at h
    | .filter _, _, h => simp [CExpr.rightEdge] at h
termination_by l => sizeOf l

theorem merge : ∀ (r : CExpr), r.PrecOK → ∀ (l : CExpr) (op : Op), l.PrecOK →
    ∃ c : CExpr, c.PrecOK ∧ c.toks = l.toks ++ op.tok :: r.toks
  | .bin r1 o r2, ⟨h1, h2, _, _⟩, l, op, hl => by
    obtain ⟨c, g1, g2⟩ := merge r1 h1 l op hl
    obtain ⟨d, k1, k2⟩ := merge r2 h2 c o g1
    exact ⟨d, k1, by rw [k2, g2]; simp [CExpr.toks]⟩
  | .neg e, h, l, op, hl => by obtain ⟨c, g1, g2, -⟩ := attach op (.neg e) h rfl l hl; exact ⟨c, g1, g2⟩
  | .filterPath a b d, h, l, op, hl => by obtain ⟨c, g1, g2, -⟩ := attach op (.filterPath a b d) h rfl l hl; exact ⟨c, g1, g2⟩
  | .rel a, h, l, op, hl => by obtain ⟨c, g1, g2, -⟩ := attach op (.rel a) h rfl l hl; exact ⟨c, g1, g2⟩
  | .absRoot, h, l, op, hl => by obtain ⟨c, g1, g2, -⟩ := attach op .absRoot h rfl l hl; exact ⟨c, g1, g2⟩
  | .abs a, h, l, op, hl => by obtain ⟨c, g1, g2, -⟩ := attach op (.abs a) h rfl l hl; exact ⟨c, g1, g2⟩
  | .absAbbrev a, h, l, op, hl => by obtain ⟨c, g1, g2, -⟩ := attach op (.absAbbrev a) h rfl l hl; exact ⟨c, g1, g2⟩
  | .filter a, h, l, op, hl => by obtain ⟨c, g1, g2, -⟩ := attach op (.filter a) h rfl l hl; exact ⟨c, g1, g2⟩

theorem negate : ∀ (e : CExpr), e.PrecOK → ∃ c : CExpr, c.PrecOK ∧ c.toks = .minusOp :: e.toks
  | .bin r1 o r2, ⟨h1, h2, _, _⟩ => by
    obtain ⟨c, g1, g2⟩ := negate r1 h1
    obtain ⟨d, k1, k2⟩ := merge r2 h2 c o g1
    exact ⟨d, k1, by rw [k2, g2]; simp [CExpr.toks]⟩
  | .neg e, h => ⟨.neg (.neg e), ⟨h, by simp [CExpr.leftEdge]⟩, rfl⟩
  | .filterPath a b d, h => ⟨.neg (.filterPath a b d), ⟨h, by simp [CExpr.leftEdge]⟩, rfl⟩
  | .rel a, h => ⟨.neg (.rel a), ⟨h, by simp [CExpr.leftEdge]⟩, rfl⟩
  | .absRoot, h => ⟨.neg (.absRoot), ⟨h, by simp [CExpr.leftEdge]⟩, rfl⟩
  | .abs a, h => ⟨.neg (.abs a), ⟨h, by simp [CExpr.leftEdge]⟩, rfl⟩
  | .absAbbrev a, h => ⟨.neg (.absAbbrev a), ⟨h, by simp [CExpr.leftEdge]⟩, rfl⟩
  | .filter a, h => ⟨.neg (.filter a), ⟨h, by simp [CExpr.leftEdge]⟩, rfl⟩

mutual
theorem norm_expr : ∀ c : CExpr, ∃ d : CExpr, d.PrecOK ∧ d.toks = c.toks
  | .bin l op r => by
    obtain ⟨l', h1, h2⟩ := norm_expr l
    obtain ⟨r', h3, h4⟩ := norm_expr r
    obtain ⟨d, h5, h6⟩ := merge r' h3 l' op h1
    exact ⟨d, h5, by simp [CExpr.toks, h6, h2, h4]⟩
  | .neg e => by
    obtain ⟨e', h1, h2⟩ := norm_expr e
    obtain ⟨d, h5, h6⟩ := negate e' h1
    exact ⟨d, h5, by simp [CExpr.toks, h6, h2]⟩
  | .filterPath f b r => by
    obtain ⟨f', h1, h2⟩ := norm_filter f
    obtain ⟨r', h3, h4⟩ := norm_rel r
    exact ⟨.filterPath f' b r', ⟨h1, h3⟩, by simp [CExpr.toks, h2, h4]⟩
  | .rel r => by
    obtain ⟨r', h3, h4⟩ := norm_rel r
    exact ⟨.rel r', h3, by simp [CExpr.toks, h4]⟩
  | .absRoot => ⟨.absRoot, trivial, rfl⟩
  | .abs r => by
    obtain ⟨r', h3, h4⟩ := norm_rel r
    exact ⟨.abs r', h3, by simp [CExpr.toks, h4]⟩
  | .absAbbrev r => by
    obtain ⟨r', h3, h4⟩ := norm_rel r
    exact ⟨.absAbbrev r', h3, by simp [CExpr.toks, h4]⟩
  | .filter f => by
    obtain ⟨f', h1, h2⟩ := norm_filter f
    exact ⟨.filter f', h1, by simp [CExpr.toks, h2]⟩
theorem norm_rel : ∀ c : CRel, ∃ d : CRel, d.PrecOK ∧ d.toks = c.toks
  | .step s => by
    obtain ⟨s', h1, h2⟩ := norm_step s
    exact ⟨.step s', h1, by simp [CRel.toks, h2]⟩
  | .cons r b s => by
    obtain ⟨r', h1, h2⟩ := norm_rel r
    obtain ⟨s', h3, h4⟩ := norm_step s
    exact ⟨.cons r' b s', ⟨h1, h3⟩, by simp [CRel.toks, h2, h4]⟩
theorem norm_step : ∀ c : CStep, ∃ d : CStep, d.PrecOK ∧ d.toks = c.toks
  | .test t => ⟨.test t, trivial, rfl⟩
  | .testPreds t ps => by
    obtain ⟨ps', h1, h2⟩ := norm_preds ps
    exact ⟨.testPreds t ps', h1, by simp [CStep.toks, h2]⟩
  | .axis a t => ⟨.axis a t, trivial, rfl⟩
  | .axisPreds a t ps => by
    obtain ⟨ps', h1, h2⟩ := norm_preds ps
    exact ⟨.axisPreds a t ps', h1, by simp [CStep.toks, h2]⟩
  | .self => ⟨.self, trivial, rfl⟩
  | .parent => ⟨.parent, trivial, rfl⟩
theorem norm_preds : ∀ c : CPreds, ∃ d : CPreds, d.PrecOK ∧ d.toks = c.toks
  | .single e => by
    obtain ⟨e', h1, h2⟩ := norm_expr e
    exact ⟨.single e', h1, by simp [CPreds.toks, h2]⟩
  | .snoc ps e => by
    obtain ⟨e', h1, h2⟩ := norm_expr e
    obtain ⟨ps', h3, h4⟩ := norm_preds ps
    exact ⟨.snoc ps' e', ⟨h3, h1⟩, by simp [CPreds.toks, h2, h4]⟩
theorem norm_filter : ∀ c : CFilter, ∃ d : CFilter, d.PrecOK ∧ d.toks = c.toks
  | .var q => ⟨.var q, trivial, rfl⟩
  | .lit s => ⟨.lit s, trivial, rfl⟩
  | .float s => ⟨.float s, trivial, rfl⟩
  | .int s => ⟨.int s, trivial, rfl⟩
  | .call q as => by
    obtain ⟨as', h1, h2⟩ := norm_args as
    exact ⟨.call q as', h1, by simp [CFilter.toks, h2]⟩
  | .group e => by
    obtain ⟨e', h1, h2⟩ := norm_expr e
    exact ⟨.group e', h1, by simp [CFilter.toks, h2]⟩
  | .pred f e => by
    obtain ⟨e', h1, h2⟩ := norm_expr e
    obtain ⟨f', h3, h4⟩ := norm_filter f
    exact ⟨.pred f' e', ⟨h3, h1⟩, by simp [CFilter.toks, h2, h4]⟩
theorem norm_args : ∀ c : CArgs, ∃ d : CArgs, d.PrecOK ∧ d.toks = c.toks
  | .empty => ⟨.empty, trivial, rfl⟩
  | .list as => by
    obtain ⟨as', h1, h2⟩ := norm_arglist as
    exact ⟨.list as', h1, by simp [CArgs.toks, h2]⟩
theorem norm_arglist : ∀ c : CArgList, ∃ d : CArgList, d.PrecOK ∧ d.toks = c.toks
  | .single e => by
    obtain ⟨e', h1, h2⟩ := norm_expr e
    exact ⟨.single e', h1, by simp [CArgList.toks, h2]⟩
  | .snoc as e => by
    obtain ⟨e', h1, h2⟩ := norm_expr e
    obtain ⟨as', h3, h4⟩ := norm_arglist as
    exact ⟨.snoc as' e', ⟨h3, h1⟩, by simp [CArgList.toks, h2, h4]⟩
end

end XPath
