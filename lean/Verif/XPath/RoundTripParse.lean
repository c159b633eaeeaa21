import Verif.XPath.ParserCorrect
import Verif.XPath.Canon
/-
Canonical ASTs have a derivation in the grammar whose value is the AST.
-/
namespace XPath
open G

/-- Tokens of a binary operator. -/
def BinOp.tok : BinOp → Tok
  | .or => .orOp | .and => .andOp | .eq => .equalOp false | .ne => .equalOp true
  | .lt => .relOp false false | .le => .relOp false true | .gt => .relOp true false | .ge => .relOp true true
  | .plus => .plusOp | .minus => .minusOp | .mult => .multOp | .div => .divOp | .mod => .modOp
  | .union => .unionOp | .slash => .pathSep | .dslash => .abbrevPathSep

def qnameToks (pfx : Option Str) (nm : Str) : List Tok :=
  match pfx with
  | some p => [.ncname p, .colon, .ncname nm]
  | none => [.ncname nm]

def testToks : NodeTest → List Tok
  | .name none nm => if nm = ['*'] then [.starOp] else [.ncname nm]
  | .name (some p) nm => if nm = ['*'] then [.ncname p, .colon, .starOp] else [.ncname p, .colon, .ncname nm]
  | .type nm _ => [.nodeType nm, .openParen, .closeParen]

def axisToks : Option Str → List Tok
  | none => []
  | some a => if a = ['@'] then [.axisAt] else [.axisName a, .axisSep]

def funcToks (pfx : Option Str) (nm : Str) : List Tok :=
  match pfx with
  | some p => [.ncname p, .colon, .funcName nm]
  | none => [.funcName nm]

mutual
/-- The tokens of the serialisation of an AST. -/
def Expr.toks : Expr → List Tok
  | .lit s => [.literal s]
  | .int n => [.integer n]
  | .float f => [.float f]
  | .neg e => .minusOp :: e.toks
  | .binary l op r => l.toks ++ op.tok :: r.toks
  | .pred b ps => .openParen :: (b.toks ++ .closeParen :: Expr.predsToks ps)
  | .root => []
  | .abs dbl r => sep dbl :: r.toks
  | .step ax t ps => axisToks ax ++ (testToks t ++ Expr.predsToks ps)
  | .abbrev parent => [if parent then .stepParent else .stepSelf]
  | .var pfx nm => .dollar :: qnameToks pfx nm
  | .call pfx nm args => funcToks pfx nm ++ .openParen :: (Expr.argsToks args ++ [.closeParen])
def Expr.predsToks : List Expr → List Tok
  | [] => []
  | p :: ps => .openBracket :: (p.toks ++ .closeBracket :: Expr.predsToks ps)
def Expr.argsToks : List Expr → List Tok
  | [] => []
  | a :: as => a.toks ++ Expr.argsTailToks as
def Expr.argsTailToks : List Expr → List Tok
  | [] => []
  | a :: as => .comma :: (a.toks ++ Expr.argsTailToks as)
end

/-- `e` has a derivation of kind `k` with tokens `e.toks` and value `e`. -/
def Der : Kind → Expr → Prop
  | .step, e => ∃ c : CStep, c.PrecOK ∧ c.toks = e.toks ∧ c.val = e
  | .rel, e => ∃ c : CRel, c.PrecOK ∧ c.toks = e.toks ∧ c.val = e
  | .filt, e => ∃ c : CFilter, c.PrecOK ∧ c.toks = e.toks ∧ c.val = e
  | .path, e => ∃ c : CExpr, c.PrecOK ∧ c.toks = e.toks ∧ c.val = e ∧ c.leftEdge = e.leftEdge ∧ c.rightEdge = e.rightEdge
  | .expr, e => ∃ c : CExpr, c.PrecOK ∧ c.toks = e.toks ∧ c.val = e ∧ c.leftEdge = e.leftEdge ∧ c.rightEdge = e.rightEdge

theorem shape_edges {e : Expr} {k : Kind} (h : e.shape = some k) (hk : k ≠ .expr) : e.leftEdge = [] ∧ e.rightEdge = [] := by
  cases e <;> try exact ⟨rfl, rfl⟩
  case neg e =>
    simp only [Expr.shape] at h
    split at h
    · cases h; exact absurd rfl hk
    · cases h
  case binary l op r =>
    simp only [Expr.shape] at h
    split at h
    · split at h
      · cases h; exact absurd rfl hk
      · cases h
    · rename_i hp
      simp [Expr.leftEdge, Expr.rightEdge, hp]

theorem Der.toExpr {e : Expr} {k : Kind} (hs : e.shape = some k) (h : Der k e) :
    ∃ c : CExpr, c.PrecOK ∧ c.toks = e.toks ∧ c.val = e ∧ c.leftEdge = e.leftEdge ∧ c.rightEdge = e.rightEdge := by
  cases k
  case step =>
    obtain ⟨c, h1, h2, h3⟩ := h
    have := shape_edges hs (by simp)
    exact ⟨.rel (.step c), h1, by simpa [CExpr.toks, CRel.toks], by simpa [CExpr.val, CRel.val],
      by rw [this.1]; rfl, by rw [this.2]; rfl⟩
  case rel =>
    obtain ⟨c, h1, h2, h3⟩ := h
    have := shape_edges hs (by simp)
    exact ⟨.rel c, h1, by simpa [CExpr.toks], by simpa [CExpr.val], by rw [this.1]; rfl, by rw [this.2]; rfl⟩
  case filt =>
    obtain ⟨c, h1, h2, h3⟩ := h
    have := shape_edges hs (by simp)
    exact ⟨.filter c, h1, by simpa [CExpr.toks], by simpa [CExpr.val], by rw [this.1]; rfl, by rw [this.2]; rfl⟩
  case path => exact h
  case expr => exact h

theorem Der.toRel {e : Expr} {k : Kind} (h : Der k e) (hk : k.isRel = true) : ∃ c : CRel, c.PrecOK ∧ c.toks = e.toks ∧ c.val = e := by
  cases k <;> simp [Kind.isRel] at hk
  case step =>
    obtain ⟨c, h1, h2, h3⟩ := h
    exact ⟨.step c, h1, by simpa [CRel.toks], by simpa [CRel.val]⟩
  case rel => exact h

/-- Derivations for a list of expressions. -/
def DerL (ps : List Expr) : Prop := ∃ es : List CExpr, (∀ x ∈ es, x.PrecOK) ∧ es.map CExpr.val = ps ∧
  es.map CExpr.toks = ps.map Expr.toks

theorem predsToks_eq : ∀ (ps : List Expr) (es : List CExpr), es.map CExpr.toks = ps.map Expr.toks →
    predToks es = Expr.predsToks ps
  | [], [], _ => rfl
  | p :: ps, e :: es, h => by
    simp at h
    have := predsToks_eq ps es h.2
    simp [predToks] at this
    simp [predToks, Expr.predsToks, h.1, this]
  | [], e :: es, h => by simp at h
  | p :: ps, [], h => by simp at h

theorem argsTail_eq : ∀ (ps : List Expr) (es : List CExpr), es.map CExpr.toks = ps.map Expr.toks → es ≠ [] →
    Expr.argsTailToks ps = .comma :: argToks es
  | p :: ps, e :: es, h, _ => by
    simp at h
    rcases es with _ | ⟨d, ds⟩
    · have : ps = [] := by simpa using h.2.symm
      subst this
      simp [argToks, Expr.argsTailToks, h.1]
    · rw [Expr.argsTailToks, argsTail_eq ps (d :: ds) (by simpa using h.2) (by simp)]
      simp [argToks, h.1]
  | [], e :: es, h, _ => by simp at h
  | _, [], _, h => absurd rfl h

theorem argsToks_eq : ∀ (ps : List Expr) (es : List CExpr), es.map CExpr.toks = ps.map Expr.toks →
    argToks es = Expr.argsToks ps
  | [], [], _ => rfl
  | p :: ps, e :: es, h => by
    simp at h
    rcases es with _ | ⟨d, ds⟩
    · have : ps = [] := by simpa using h.2.symm
      subst this
      simp [argToks, Expr.argsToks, Expr.argsTailToks, h.1]
    · rw [Expr.argsToks, argsTail_eq ps (d :: ds) (by simpa using h.2) (by simp)]
      simp [argToks, h.1]
  | [], e :: es, h => by simp at h
  | p :: ps, [], h => by simp at h

theorem binop_op {op : BinOp} {p} (h : op.prec = some p) : ∃ o : Op, o.tok = op.tok ∧ o.val = op ∧ o.prec = p := by
  cases op <;> simp [BinOp.prec] at h <;> subst h
  case or => exact ⟨.or, rfl, rfl, rfl⟩
  case and => exact ⟨.and, rfl, rfl, rfl⟩
  case eq => exact ⟨.equal false, rfl, rfl, rfl⟩
  case ne => exact ⟨.equal true, rfl, rfl, rfl⟩
  case lt => exact ⟨.rel false false, rfl, rfl, rfl⟩
  case le => exact ⟨.rel false true, rfl, rfl, rfl⟩
  case gt => exact ⟨.rel true false, rfl, rfl, rfl⟩
  case ge => exact ⟨.rel true true, rfl, rfl, rfl⟩
  case plus => exact ⟨.plus, rfl, rfl, rfl⟩
  case minus => exact ⟨.minus, rfl, rfl, rfl⟩
  case mult => exact ⟨.mult, rfl, rfl, rfl⟩
  case div => exact ⟨.div, rfl, rfl, rfl⟩
  case mod => exact ⟨.mod, rfl, rfl, rfl⟩
  case union => exact ⟨.union, rfl, rfl, rfl⟩

theorem sepop {op : BinOp} (h : op.prec = none) : ∃ b, sep b = op.tok ∧ sepOp b = op := by
  cases op <;> simp [BinOp.prec] at h
  · exact ⟨false, rfl, rfl⟩
  · exact ⟨true, rfl, rfl⟩

theorem der_test (t : NodeTest) (ht : Spec.testOK t = true) : ∃ c : CNodeTest, c.toks = testToks t ∧ c.val = t := by
  cases t with
  | type nm lit =>
    simp [Spec.testOK] at ht
    obtain ⟨-, rfl⟩ := ht
    exact ⟨.type nm, rfl, rfl⟩
  | name pfx nm =>
    cases pfx with
    | none =>
      by_cases h : nm = ['*']
      · subst h; exact ⟨.star, rfl, rfl⟩
      · exact ⟨.qname (.unprefixed nm), by simp [testToks, h, CNodeTest.toks, CQName.toks], rfl⟩
    | some p =>
      by_cases h : nm = ['*']
      · subst h; exact ⟨.prefixStar p, rfl, rfl⟩
      · exact ⟨.qname (.prefixed p nm), by simp [testToks, h, CNodeTest.toks, CQName.toks], rfl⟩

theorem der_axis (a : Str) : ∃ c : CAxis, c.toks = axisToks (some a) ∧ c.val = a := by
  by_cases h : a = ['@']
  · subst h; exact ⟨.at, rfl, rfl⟩
  · exact ⟨.full a, by simp [axisToks, h, CAxis.toks], rfl⟩

theorem foldl_addPred (b : Expr) (hb : b.notPred = true) (p : Expr) (ps : List Expr) :
    (p :: ps).foldl applyPred b = .pred b (p :: ps) := by
  have : ∀ (qs ps : List Expr), ps.foldl applyPred (.pred b qs) = .pred b (qs ++ ps) := by
    intro qs ps
    induction ps generalizing qs with
    | nil => simp
    | cons p ps ih => simp [applyPred, ih]
  have h1 : applyPred b p = .pred b [p] := by cases b <;> first | rfl | simp [Expr.notPred] at hb
  rw [List.foldl_cons, h1, this]; rfl

variable [PyUnicode]

mutual
theorem der_expr : ∀ (e : Expr) (k : Kind), e.shape = some k → e.lexSafe = true → Der k e
  | .lit s, k, h, _ => by simp [Expr.shape] at h; subst h; exact ⟨.lit s, trivial, rfl, rfl⟩
  | .int s, k, h, _ => by simp [Expr.shape] at h; subst h; exact ⟨.int s, trivial, rfl, rfl⟩
  | .float s, k, h, _ => by simp [Expr.shape] at h; subst h; exact ⟨.float s, trivial, rfl, rfl⟩
  | .var pfx nm, k, h, _ => by
    simp [Expr.shape] at h; subst h
    cases pfx with
    | none => exact ⟨.var (.unprefixed nm), trivial, rfl, rfl⟩
    | some p => exact ⟨.var (.prefixed p nm), trivial, rfl, rfl⟩
  | .call pfx nm args, k, h, hs => by
    have hsafe : Expr.argsSafe args = true := by
      cases pfx <;> simp [Expr.lexSafe] at hs <;> tauto
    simp [Expr.shape] at h
    obtain ⟨h1, rfl⟩ := h
    obtain ⟨es, g1, g2, g3⟩ := der_args args h1 hsafe
    have : ∃ a : CArgs, a.PrecOK ∧ a.toks = .openParen :: (Expr.argsToks args ++ [.closeParen]) ∧ a.val = args := by
      rw [← argsToks_eq args es g3]
      rcases es with _ | ⟨d, ds⟩
      · simp at g2; subst g2; exact ⟨.empty, trivial, rfl, rfl⟩
      · obtain ⟨c, k1, k2, k3⟩ := exists_args (d :: ds) (by simp) g1
        exact ⟨.list c, k1, by simp [CArgs.toks, k2], by simp [CArgs.val, k3, ← g2]⟩
    obtain ⟨a, k1, k2, k3⟩ := this
    cases pfx with
    | none => exact ⟨.call (.unprefixed nm) a, k1, by simp [CFilter.toks, CFuncQName.toks, k2, Expr.toks, funcToks],
        by simp [CFilter.val, k3, CFuncQName.pfx, CFuncQName.nm]⟩
    | some p => exact ⟨.call (.prefixed p nm) a, k1, by simp [CFilter.toks, CFuncQName.toks, k2, Expr.toks, funcToks],
        by simp [CFilter.val, k3, CFuncQName.pfx, CFuncQName.nm]⟩
  | .pred b ps, k, h, hs => by
    simp [Expr.lexSafe] at hs
    simp [Expr.shape] at h
    obtain ⟨⟨⟨⟨h1, h2⟩, h3⟩, h4⟩, rfl⟩ := h
    obtain ⟨kb, hkb⟩ := Option.isSome_iff_exists.mp h1
    obtain ⟨c, c1, c2, c3, -⟩ := (der_expr b kb hkb hs.1).toExpr hkb
    obtain ⟨es, g1, g2, g3⟩ := der_exprs ps h4 hs.2
    obtain ⟨d, d1, d2, d3⟩ := exists_filter (.group c) c1 es g1
    refine ⟨d, d1, ?_, ?_⟩
    · rw [d2, predsToks_eq ps es g3]; simp [CFilter.toks, Expr.toks, c2]
    · rw [d3, g2, CFilter.val, c3]
      rcases ps with _ | ⟨p, ps⟩
      · simp at h3
      · exact foldl_addPred b h2 p ps
  | .step ax t ps, k, h, hs => by
    simp [Expr.lexSafe] at hs
    simp [Expr.shape] at h
    obtain ⟨h1, rfl⟩ := h
    obtain ⟨es, g1, g2, g3⟩ := der_exprs ps h1 hs.2
    obtain ⟨t', t1, t2⟩ := der_test t hs.1.2
    have hp := predsToks_eq ps es g3
    rcases es with _ | ⟨d, ds⟩
    · simp at g2; subst g2
      cases ax with
      | none => exact ⟨.test t', trivial, by simp [CStep.toks, Expr.toks, t1, axisToks, Expr.predsToks],
          by simp [CStep.val, t2]⟩
      | some a =>
        obtain ⟨a', a1, a2⟩ := der_axis a
        exact ⟨.axis a' t', trivial, by simp [CStep.toks, Expr.toks, t1, a1, Expr.predsToks],
          by simp [CStep.val, t2, a2]⟩
    · obtain ⟨c, k1, k2, k3⟩ := exists_preds (d :: ds) (by simp) g1
      rw [hp] at k2; rw [g2] at k3
      cases ax with
      | none => exact ⟨.testPreds t' c, k1, by simp [CStep.toks, Expr.toks, t1, axisToks, k2],
          by simp [CStep.val, t2, k3]⟩
      | some a =>
        obtain ⟨a', a1, a2⟩ := der_axis a
        exact ⟨.axisPreds a' t' c, k1, by simp [CStep.toks, Expr.toks, t1, a1, k2],
          by simp [CStep.val, t2, a2, k3]⟩
  | .abbrev b, k, h, _ => by
    simp [Expr.shape] at h; subst h
    cases b
    · exact ⟨.self, trivial, rfl, rfl⟩
    · exact ⟨.parent, trivial, rfl, rfl⟩
  | .root, k, h, _ => by simp [Expr.shape] at h
  | .abs dbl r, k, h, hs => by
    simp [Expr.lexSafe] at hs
    simp only [Expr.shape] at h
    split at h
    · rename_i k' hk'
      split at h
      · rename_i hr
        cases h
        obtain ⟨c, c1, c2, c3⟩ := (der_expr r k' hk' hs).toRel hr
        cases dbl
        · exact ⟨.abs c, c1, by simp [CExpr.toks, Expr.toks, c2, sep], by simp [CExpr.val, c3], rfl, rfl⟩
        · exact ⟨.absAbbrev c, c1, by simp [CExpr.toks, Expr.toks, c2, sep], by simp [CExpr.val, c3], rfl, rfl⟩
      · cases h
    · cases h
  | .neg e, k, h, hs => by
    simp [Expr.lexSafe] at hs
    simp [Expr.shape] at h
    obtain ⟨⟨h1, h2⟩, rfl⟩ := h
    obtain ⟨ke, hke⟩ := Option.isSome_iff_exists.mp h1
    obtain ⟨c, c1, c2, c3, c4, c5⟩ := (der_expr e ke hke hs).toExpr hke
    exact ⟨.neg c, ⟨c1, by rw [c4]; exact h2⟩, by simp [CExpr.toks, Expr.toks, c2], by simp [CExpr.val, c3],
      rfl, by simp [CExpr.rightEdge, Expr.rightEdge, c5]⟩
  | .binary l op r, k, h, hs => by
    simp [Expr.lexSafe] at hs
    have il := der_expr l
    have ir := der_expr r
    simp only [Expr.shape] at h
    split at h
    · rename_i p hp
      simp at h
      obtain ⟨⟨⟨⟨h1, h2⟩, h3⟩, h4⟩, rfl⟩ := h
      obtain ⟨kl, hkl⟩ := Option.isSome_iff_exists.mp h1
      obtain ⟨kr, hkr⟩ := Option.isSome_iff_exists.mp h2
      obtain ⟨c, c1, c2, c3, c4, c5⟩ := (il kl hkl hs.1.1).toExpr hkl
      obtain ⟨d, d1, d2, d3, d4, d5⟩ := (ir kr hkr hs.1.2).toExpr hkr
      obtain ⟨o, o1, o2, o3⟩ := binop_op hp
      exact ⟨.bin c o d, ⟨c1, d1, by rw [c5, o3]; exact h3, by rw [d4, o3]; exact h4⟩,
        by simp [CExpr.toks, Expr.toks, c2, d2, o1], by simp [CExpr.val, c3, d3, o2],
        by simp [CExpr.leftEdge, Expr.leftEdge, hp, c4, o3], by simp [CExpr.rightEdge, Expr.rightEdge, hp, d5, o3]⟩
    · rename_i hp
      obtain ⟨b, b1, b2⟩ := sepop hp
      split at h
      · rename_i kl kr hkl hkr
        split at h
        · rename_i hk
          cases h
          simp at hk
          obtain ⟨c, c1, c2, c3⟩ := (il kl hkl hs.1.1).toRel hk.1
          have hd := ir kr hkr hs.1.2
          rw [hk.2] at hd
          obtain ⟨d, d1, d2, d3⟩ := hd
          exact ⟨.cons c b d, ⟨c1, d1⟩, by simp [CRel.toks, Expr.toks, c2, d2, b1], by simp [CRel.val, c3, d3, b2]⟩
        · split at h
          · rename_i hk
            cases h
            simp at hk
            have hd := il kl hkl hs.1.1
            rw [hk.1] at hd
            obtain ⟨c, c1, c2, c3⟩ := hd
            obtain ⟨d, d1, d2, d3⟩ := (ir kr hkr hs.1.2).toRel hk.2
            exact ⟨.filterPath c b d, ⟨c1, d1⟩, by simp [CExpr.toks, Expr.toks, c2, d2, b1],
              by simp [CExpr.val, c3, d3, b2], by simp [CExpr.leftEdge, Expr.leftEdge, hp],
              by simp [CExpr.rightEdge, Expr.rightEdge, hp]⟩
          · cases h
      · cases h
theorem der_exprs : ∀ ps : List Expr, Expr.shapes ps = true → Expr.lexSafes ps = true → DerL ps
  | [], _, _ => ⟨[], by simp, rfl, rfl⟩
  | p :: ps, h, hs => by
    simp [Expr.shapes] at h
    simp [Expr.lexSafes] at hs
    obtain ⟨kp, hkp⟩ := Option.isSome_iff_exists.mp h.1
    obtain ⟨c, c1, c2, c3, -⟩ := (der_expr p kp hkp hs.1).toExpr hkp
    obtain ⟨es, g1, g2, g3⟩ := der_exprs ps h.2 hs.2
    exact ⟨c :: es, by simpa using ⟨c1, g1⟩, by simp [c3, g2], by simp [c2, g3]⟩
theorem der_args : ∀ ps : List Expr, Expr.shapes ps = true → Expr.argsSafe ps = true → DerL ps
  | [], _, _ => ⟨[], by simp, rfl, rfl⟩
  | p :: ps, h, hs => by
    simp [Expr.shapes] at h
    simp [Expr.argsSafe] at hs
    obtain ⟨kp, hkp⟩ := Option.isSome_iff_exists.mp h.1
    obtain ⟨c, c1, c2, c3, -⟩ := (der_expr p kp hkp hs.1).toExpr hkp
    obtain ⟨es, g1, g2, g3⟩ := der_tail ps h.2 hs.2
    exact ⟨c :: es, by simpa using ⟨c1, g1⟩, by simp [c3, g2], by simp [c2, g3]⟩
theorem der_tail : ∀ ps : List Expr, Expr.shapes ps = true → Expr.argsTailSafe ps = true → DerL ps
  | [], _, _ => ⟨[], by simp, rfl, rfl⟩
  | p :: ps, h, hs => by
    simp [Expr.shapes] at h
    simp [Expr.argsTailSafe] at hs
    obtain ⟨kp, hkp⟩ := Option.isSome_iff_exists.mp h.1
    obtain ⟨c, c1, c2, c3, -⟩ := (der_expr p kp hkp hs.1.1).toExpr hkp
    obtain ⟨es, g1, g2, g3⟩ := der_tail ps h.2 hs.2
    exact ⟨c :: es, by simpa using ⟨c1, g1⟩, by simp [c3, g2], by simp [c2, g3]⟩
end

/-- The tokens of a canonical AST are parsed to the AST. -/
theorem parse_toks (e : Expr) (h : e.canonical = true) : parseExpr (fuelFor e.toks) 0 e.toks = .ok (e, []) := by
  simp [Expr.canonical] at h
  obtain ⟨k, hk⟩ := Option.isSome_iff_exists.mp h.1
  obtain ⟨c, c1, c2, c3, -⟩ := (der_expr e k hk h.2).toExpr hk
  rw [← c2, ← c3]
  exact parseExpr_complete c c1

end XPath
