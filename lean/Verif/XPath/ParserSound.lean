import Verif.XPath.ParserFuel
import Mathlib.Data.List.Induction
import Mathlib.Tactic.Tauto
import Verif.XPath.Grammar
/-
Soundness and fuel sufficiency of the parser model: whatever it accepts is derived by the grammar of
`Verif/XPath/Grammar.lean` with the tree that the precedence table selects.
-/
namespace XPath
open G

/-- The operator at the head of `rest`, if any, has level at most `q`, for every `q` in `qs`. -/
def Stop (qs : List Nat) (rest : List Tok) : Prop :=
  ∀ t r op p, rest = t :: r → binTok t = some (op, p) → ∀ q ∈ qs, p ≤ q

/-- The operator at the head of `rest`, if any, has level below `m`. -/
def Below (m : Nat) (rest : List Tok) : Prop :=
  ∀ t r op p, rest = t :: r → binTok t = some (op, p) → p < m

theorem binTok_op {t op p} (h : binTok t = some (op, p)) : ∃ o : Op, o.tok = t ∧ o.val = op ∧ o.prec = p := by
  cases t <;> simp [binTok] at h
  case orOp => exact ⟨.or, by simp [Op.tok, Op.val, Op.prec, h]⟩
  case andOp => exact ⟨.and, by simp [Op.tok, Op.val, Op.prec, h]⟩
  case equalOp b => cases b <;> exact ⟨.equal _, rfl, by simpa [Op.val] using h.1, by simp [Op.prec, h]⟩
  case relOp g e =>
    cases g <;> cases e <;> exact ⟨.rel _ _, rfl, by simpa [Op.val] using h.1, by simp [Op.prec, h]⟩
  case plusOp => exact ⟨.plus, by simp [Op.tok, Op.val, Op.prec, h]⟩
  case minusOp => exact ⟨.minus, by simp [Op.tok, Op.val, Op.prec, h]⟩
  case multOp => exact ⟨.mult, by simp [Op.tok, Op.val, Op.prec, h]⟩
  case divOp => exact ⟨.div, by simp [Op.tok, Op.val, Op.prec, h]⟩
  case modOp => exact ⟨.mod, by simp [Op.tok, Op.val, Op.prec, h]⟩
  case unionOp => exact ⟨.union, by simp [Op.tok, Op.val, Op.prec, h]⟩

theorem op_binTok (o : Op) : binTok o.tok = some (o.val, o.prec) := by
  cases o <;> try rfl
  case equal b => cases b <;> rfl
  case rel g e => cases g <;> cases e <;> rfl

theorem Op.prec_ne (o : Op) : o.prec ≠ 7 := by cases o <;> simp [Op.prec]
theorem Op.prec_pos (o : Op) : 0 < o.prec := by cases o <;> simp [Op.prec]

/-- Tokens of a sequence of predicates. -/
def predToks (es : List CExpr) : List Tok :=
  es.flatMap fun e => .openBracket :: (e.toks ++ [.closeBracket])

theorem predToks_append (a b : List CExpr) : predToks (a ++ b) = predToks a ++ predToks b := by
  simp [predToks]

theorem exists_preds : ∀ (es : List CExpr), es ≠ [] → (∀ e ∈ es, e.PrecOK) →
    ∃ c : CPreds, c.PrecOK ∧ c.toks = predToks es ∧ c.val = es.map CExpr.val := by
  intro es
  induction es using List.reverseRecOn with
  | nil => intro h; exact absurd rfl h
  | append_singleton es e ih =>
    intro _ hp
    rcases es with _ | ⟨d, ds⟩
    · exact ⟨.single e, by simpa [CPreds.PrecOK] using hp, by simp [CPreds.toks, predToks], by simp [CPreds.val]⟩
    · obtain ⟨c, h1, h2, h3⟩ := ih (by simp) (fun x hx => hp x (by simp at hx ⊢; tauto))
      exact ⟨.snoc c e, ⟨h1, hp e (by simp)⟩, by rw [CPreds.toks, h2, predToks_append]; simp [predToks],
        by rw [CPreds.val, h3]; simp⟩

theorem applyPred_eq (e p : Expr) : applyPred e p = addPredicate e p := by
  cases e <;> rfl

theorem exists_filter (f : CFilter) (hf : f.PrecOK) : ∀ (es : List CExpr), (∀ e ∈ es, e.PrecOK) →
    ∃ c : CFilter, c.PrecOK ∧ c.toks = f.toks ++ predToks es ∧ c.val = (es.map CExpr.val).foldl applyPred f.val := by
  intro es
  induction es using List.reverseRecOn with
  | nil => intro _; exact ⟨f, hf, by simp [predToks], by simp⟩
  | append_singleton es e ih =>
    intro hp
    obtain ⟨c, h1, h2, h3⟩ := ih (fun x hx => hp x (by simp [hx]))
    exact ⟨.pred c e, ⟨h1, hp e (by simp)⟩, by rw [CFilter.toks, h2, predToks_append]; simp [predToks],
      by rw [CFilter.val, h3]; simp [applyPred_eq]⟩

/-- Tokens of a non-empty argument list. -/
def argToks : List CExpr → List Tok
  | [] => []
  | [e] => e.toks
  | e :: es => e.toks ++ .comma :: argToks es

theorem argToks_snoc : ∀ (es : List CExpr) (e : CExpr), es ≠ [] → argToks (es ++ [e]) = argToks es ++ .comma :: e.toks
  | [], _, h => absurd rfl h
  | [a], e, _ => rfl
  | a :: b :: es, e, _ => by
    have := argToks_snoc (b :: es) e (by simp)
    simp only [List.cons_append] at this ⊢
    simp [argToks, this]

theorem exists_args : ∀ (es : List CExpr), es ≠ [] → (∀ e ∈ es, e.PrecOK) →
    ∃ c : CArgList, c.PrecOK ∧ c.toks = argToks es ∧ c.val = es.map CExpr.val := by
  intro es
  induction es using List.reverseRecOn with
  | nil => intro h; exact absurd rfl h
  | append_singleton es e ih =>
    intro _ hp
    rcases es with _ | ⟨d, ds⟩
    · exact ⟨.single e, by simpa [CArgList.PrecOK] using hp, by simp [CArgList.toks, argToks], by simp [CArgList.val]⟩
    · obtain ⟨c, h1, h2, h3⟩ := ih (by simp) (fun x hx => hp x (by simp at hx ⊢; tauto))
      exact ⟨.snoc c e, ⟨h1, hp e (by simp)⟩, by rw [CArgList.toks, h2, argToks_snoc _ _ (by simp)],
        by rw [CArgList.val, h3]; simp⟩

/-- Outcome of a parser function: `fuel` only below the bound `b`; on success `Q`. -/
def Out {α} (r : PRes α) (n b : Nat) (Q : α → List Tok → Prop) : Prop :=
  match r with
  | .error .fuel => n < b
  | .error (.syntax _) => True
  | .ok (v, rest) => Q v rest

theorem Out.err {α β} {n n' b b'} {Q : α → List Tok → Prop} {Q' : β → List Tok → Prop} {e}
    (h : Out (.error e) n b Q) (hb : n < b → n' < b') : Out (.error e : PRes β) n' b' Q' := by
  cases e
  · exact hb h
  · trivial

theorem Out.mono {α} {r : PRes α} {n n' b b'} {Q Q' : α → List Tok → Prop}
    (h : Out r n b Q) (hb : n < b → n' < b') (hq : ∀ v rest, Q v rest → Q' v rest) : Out r n' b' Q' := by
  unfold Out at *
  split at h
  · exact hb h
  · trivial
  · exact hq _ _ h

theorem toks_pos :
    (∀ c : CExpr, 0 < c.toks.length) ∧ (∀ c : CRel, 0 < c.toks.length) ∧ (∀ c : CStep, 0 < c.toks.length) ∧
    (∀ c : CFilter, 0 < c.toks.length) := by
  have hn : ∀ t : CNodeTest, 0 < t.toks.length := by
    intro t; cases t <;> simp [CNodeTest.toks]
    case qname q => cases q <;> simp [CQName.toks]
  have hs : ∀ c : CStep, 0 < c.toks.length := by
    intro c
    cases c <;> simp only [CStep.toks, List.length_append, List.length_cons, List.length_nil]
    case test t => exact hn t
    case testPreds t ps => have := hn t; omega
    case axis a t => have := hn t; omega
    case axisPreds a t ps => have := hn t; omega
    all_goals omega
  have hr : ∀ c : CRel, 0 < c.toks.length := by
    intro c
    cases c
    case step s => exact hs s
    case cons => simp [CRel.toks]; omega
  have hf : ∀ c : CFilter, 0 < c.toks.length := by
    intro c
    cases c <;> simp [CFilter.toks]
    case call q as => cases q <;> simp [CFuncQName.toks] <;> omega
    case pred => omega
  refine ⟨?_, hr, hs, hf⟩
  intro c
  cases c <;> simp [CExpr.toks]
  case bin => omega
  case filterPath => omega
  case rel r => simpa [List.length_pos_iff] using hr r
  case filter r => simpa [List.length_pos_iff] using hf r

/-- A derived prefix leaves fewer tokens. -/
theorem len_lt {a b c : List Tok} (h : a = b ++ c) (hb : 0 < b.length) : c.length < a.length := by
  subst h; simp; omega

structure Good (n : Nat) : Prop where
  expr : ∀ m ts, Out (parseExpr n m ts) n (6 + 16 * ts.length) fun e rest =>
    ∃ c : CExpr, c.PrecOK ∧ ts = c.toks ++ rest ∧ c.val = e ∧ (∀ q ∈ c.leftEdge, m ≤ q) ∧
      Stop c.rightEdge rest ∧ Below m rest
  loop : ∀ m (cl : CExpr) ts, cl.PrecOK → (∀ q ∈ cl.leftEdge, m ≤ q) → Stop cl.rightEdge ts →
    Out (parseLoop n m cl.val ts) n (1 + 16 * ts.length) fun e rest =>
    ∃ c : CExpr, c.PrecOK ∧ cl.toks ++ ts = c.toks ++ rest ∧ c.val = e ∧ (∀ q ∈ c.leftEdge, m ≤ q) ∧
      Stop c.rightEdge rest ∧ Below m rest
  pfx : ∀ ts, Out (parsePrefix n ts) n (5 + 16 * ts.length) fun e rest =>
    ∃ c : CExpr, c.PrecOK ∧ ts = c.toks ++ rest ∧ c.val = e ∧ c.leftEdge = [] ∧ Stop c.rightEdge rest
  path : ∀ ts, Out (parsePath n ts) n (4 + 16 * ts.length) fun e rest =>
    ∃ c : CExpr, c.PrecOK ∧ ts = c.toks ++ rest ∧ c.val = e ∧ c.leftEdge = [] ∧ c.rightEdge = []
  fpath : ∀ ts, Out (parseFPath n ts) n (3 + 16 * ts.length) fun e rest =>
    ∃ c : CExpr, c.PrecOK ∧ ts = c.toks ++ rest ∧ c.val = e ∧ c.leftEdge = [] ∧ c.rightEdge = []
  rel : ∀ ts, Out (parseRel n ts) n (3 + 16 * ts.length) fun e rest =>
    ∃ c : CRel, c.PrecOK ∧ ts = c.toks ++ rest ∧ c.val = e
  relLoop : ∀ (cl : CRel) ts, cl.PrecOK → Out (parseRelLoop n cl.val ts) n (1 + 16 * ts.length) fun e rest =>
    ∃ c : CRel, c.PrecOK ∧ cl.toks ++ ts = c.toks ++ rest ∧ c.val = e
  step : ∀ ts, Out (parseStep n ts) n (2 + 16 * ts.length) fun e rest =>
    ∃ c : CStep, c.PrecOK ∧ ts = c.toks ++ rest ∧ c.val = e
  test : ∀ ax ts, Out (parseTest n ax ts) n (1 + 16 * ts.length) fun e rest =>
    ∃ (t : CNodeTest) (es : List CExpr), (∀ x ∈ es, x.PrecOK) ∧ ts = t.toks ++ (predToks es ++ rest) ∧
      e = .step ax t.val (es.map CExpr.val)
  preds : ∀ ts, Out (parsePreds n ts) n (1 + 16 * ts.length) fun ps rest =>
    ∃ es : List CExpr, (∀ x ∈ es, x.PrecOK) ∧ ts = predToks es ++ rest ∧ ps = es.map CExpr.val
  filter : ∀ ts, Out (parseFilter n ts) n (2 + 16 * ts.length) fun e rest =>
    ∃ c : CFilter, c.PrecOK ∧ ts = c.toks ++ rest ∧ c.val = e
  prim : ∀ ts, Out (parsePrimary n ts) n (1 + 16 * ts.length) fun e rest =>
    ∃ c : CFilter, c.PrecOK ∧ ts = c.toks ++ rest ∧ c.val = e
  call : ∀ p f ts, Out (parseCall n p f ts) n (1 + 16 * ts.length) fun e rest =>
    ∃ a : CArgs, a.PrecOK ∧ ts = a.toks ++ rest ∧ e = .call p f a.val
  args : ∀ ts, Out (parseArgs n ts) n (7 + 16 * ts.length) fun as rest =>
    ∃ es : List CExpr, es ≠ [] ∧ (∀ x ∈ es, x.PrecOK) ∧ ts = argToks es ++ rest ∧ as = es.map CExpr.val

theorem good_zero : Good 0 := by
  constructor <;> intros <;> simp [parseExpr, parseLoop, parsePrefix, parsePath, parseFPath, parseRel,
    parseRelLoop, parseStep, parseTest, parsePreds, parseFilter, parsePrimary, parseCall, parseArgs, Out] <;> omega

theorem parseNodeTest_sound (ts : List Tok) : Out (parseNodeTest ts) 0 0 fun t rest =>
    ∃ c : CNodeTest, ts = c.toks ++ rest ∧ c.val = t := by
  unfold parseNodeTest
  split
  · exact ⟨.star, rfl, rfl⟩
  · split
    · exact ⟨.prefixStar _, rfl, rfl⟩
    · exact ⟨.qname (.prefixed _ _), rfl, rfl⟩
    · trivial
  · exact ⟨.qname (.unprefixed _), rfl, rfl⟩
  · split
    · split
      · exact ⟨.type _, rfl, rfl⟩
      · split
        · exact ⟨.typeLit _ _, rfl, rfl⟩
        · trivial
      · trivial
    · trivial
  · trivial

theorem parseVar_sound (ts : List Tok) : Out (parseVar ts) 0 0 fun e rest =>
    ∃ q : CQName, ts = q.toks ++ rest ∧ e = .var q.pfx q.nm := by
  unfold parseVar
  split
  · split
    · exact ⟨.prefixed _ _, rfl, rfl⟩
    · trivial
  · exact ⟨.unprefixed _, rfl, rfl⟩
  · trivial

theorem good_succ (n : Nat) (ih : Good n) : Good (n+1) := by
  constructor
  case expr =>
    intro m ts
    rw [parseExpr]
    have h := ih.pfx ts
    generalize parsePrefix n ts = z at h ⊢; rcases z with e | ⟨l, r⟩
    · exact h.err (by omega)
    · obtain ⟨c, h1, h2, h3, h4, h5⟩ := h
      subst h3
      have hl := len_lt h2 (toks_pos.1 c)
      refine (ih.loop m c r h1 (by simp [h4]) h5).mono (by omega) ?_
      rintro v rest ⟨d, g1, g2, g3⟩
      exact ⟨d, g1, by rw [h2, g2], g3⟩
  case loop =>
    intro m cl ts hp hl hs
    cases ts with
    | nil =>
      rw [parseLoop]
      exact ⟨cl, hp, rfl, rfl, hl, hs, by intro t r; simp⟩
    | cons t ts =>
      rw [parseLoop]
      cases hb : binTok t with
      | none =>
        refine ⟨cl, hp, rfl, rfl, hl, hs, ?_⟩
        intro t' r op p h1 h2
        simp at h1; rw [← h1.1, hb] at h2; cases h2
      | some op =>
        obtain ⟨op, p⟩ := op
        dsimp only
        split
        · rename_i hmp
          have h := ih.expr (p+1) ts
          generalize parseExpr n (p+1) ts = z at h ⊢; rcases z with e | ⟨r, ts'⟩
          · exact h.err (by simp; omega)
          · obtain ⟨c, h1, h2, h3, h4, h5, h6⟩ := h
            obtain ⟨o, ho1, ho2, ho3⟩ := binTok_op hb
            subst h3
            have hlen := len_lt h2 (toks_pos.1 c)
            have := ih.loop m (.bin cl o c) ts' ⟨hp, h1, ?_, ?_⟩ ?_ ?_
            · simp only [CExpr.val, ho2] at this
              refine this.mono (by simp; omega) ?_
              rintro v rest ⟨d, g1, g2, g3⟩
              refine ⟨d, g1, ?_, g3⟩
              rw [← g2, CExpr.toks, ho1, h2]; simp
            · intro q hq; rw [ho3]; exact hs t ts op p rfl hb q hq
            · intro q hq; have := h4 q hq; omega
            · intro q hq
              simp [CExpr.leftEdge] at hq
              rcases hq with rfl | hq
              · omega
              · exact hl q hq
            · intro t' r' op' p' e1 e2 q hq
              simp [CExpr.rightEdge] at hq
              rcases hq with rfl | hq
              · have := h6 t' r' op' p' e1 e2; omega
              · exact h5 t' r' op' p' e1 e2 q hq
        · rename_i hmp
          refine ⟨cl, hp, rfl, rfl, hl, hs, ?_⟩
          intro t' r op' p' h1 h2
          simp at h1; rw [← h1.1, hb] at h2; simp at h2; omega
  case pfx =>
    intro ts
    have key : Out (parsePath n ts) (n+1) (5 + 16 * ts.length) fun e rest =>
        ∃ c : CExpr, c.PrecOK ∧ ts = c.toks ++ rest ∧ c.val = e ∧ c.leftEdge = [] ∧ Stop c.rightEdge rest := by
      refine (ih.path ts).mono (by omega) ?_
      rintro v rest ⟨c, h1, h2, h3, h4, h5⟩
      exact ⟨c, h1, h2, h3, h4, by rw [h5]; intro _ _ _ _ _ _ _ h; cases h⟩
    rcases ts with _ | ⟨t, ts⟩
    · exact key
    cases t <;> first
      | exact key
      | skip
    simp only [parsePrefix]
    have h := ih.expr 7 ts
    generalize parseExpr n 7 ts = z at h ⊢; rcases z with e | ⟨r, ts'⟩
    · exact h.err (by simp; omega)
    · obtain ⟨c, h1, h2, h3, h4, h5, h6⟩ := h
      refine ⟨.neg c, ⟨h1, ?_⟩, by simp [CExpr.toks, ← h2], by simp [CExpr.val, h3], rfl, ?_⟩
      · intro q hq
        have h7 := h4 q hq
        have : ∀ c : CExpr, ∀ q ∈ c.leftEdge, q ≠ 7 := by
          intro c
          fun_induction CExpr.leftEdge c with
          | case1 l op r ih =>
            intro q hq
            simp at hq
            rcases hq with rfl | hq
            · exact Op.prec_ne _
            · exact ih q hq
          | case2 => simp
        have := this c q hq
        omega
      · intro t' r' op' p' e1 e2 q hq
        simp [CExpr.rightEdge] at hq
        rcases hq with rfl | hq
        · have := h6 t' r' op' p' e1 e2; omega
        · exact h5 t' r' op' p' e1 e2 q hq
  case path =>
    intro ts
    have key : Out (if startsFilter ts then parseFPath n ts else parseRel n ts) (n+1) (4 + 16 * ts.length) fun e rest =>
        ∃ c : CExpr, c.PrecOK ∧ ts = c.toks ++ rest ∧ c.val = e ∧ c.leftEdge = [] ∧ c.rightEdge = [] := by
      split
      · exact (ih.fpath ts).mono (by omega) (fun _ _ h => h)
      · refine (ih.rel ts).mono (by omega) ?_
        rintro v rest ⟨c, h1, h2, h3⟩
        exact ⟨.rel c, h1, h2, h3, rfl, rfl⟩
    rcases ts with _ | ⟨t, ts⟩
    · simp only [parsePath]; exact key
    cases t <;> first
      | (simp only [parsePath]; exact key)
      | (simp only [parsePath]
         have h := ih.rel ts
         first
           | (generalize parseRel n ts = z at h ⊢; rcases z with e | ⟨r, ts'⟩
              · exact h.err (by simp; omega)
              · obtain ⟨c, h1, h2, h3⟩ := h
                exact ⟨.absAbbrev c, h1, by simp [CExpr.toks, ← h2], by simp [CExpr.val, h3], rfl, rfl⟩)
           | (split
              · generalize parseRel n ts = z at h ⊢; rcases z with e | ⟨r, ts'⟩
                · exact h.err (by simp; omega)
                · obtain ⟨c, h1, h2, h3⟩ := h
                  exact ⟨.abs c, h1, by simp [CExpr.toks, ← h2], by simp [CExpr.val, h3], rfl, rfl⟩
              · exact ⟨.absRoot, trivial, by simp [CExpr.toks], rfl, rfl, rfl⟩))
  case fpath =>
    intro ts
    rw [parseFPath]
    have h := ih.filter ts
    generalize parseFilter n ts = z at h ⊢; rcases z with e | ⟨f, r⟩
    · exact h.err (by omega)
    obtain ⟨c, h1, h2, h3⟩ := h
    have base : ∃ c : CExpr, c.PrecOK ∧ ts = c.toks ++ r ∧ c.val = f ∧ c.leftEdge = [] ∧ c.rightEdge = [] :=
      ⟨.filter c, h1, h2, h3, rfl, rfl⟩
    have hlen := len_lt h2 (toks_pos.2.2.2 c)
    rcases r with _ | ⟨t, r⟩
    · exact base
    have hr := ih.rel r
    cases t
    case pathSep =>
      rcases hq : parseRel n r with e | ⟨r', ts'⟩
      · rw [hq] at hr; simp only [hq]; exact hr.err (by simp at hlen; omega)
      · rw [hq] at hr; simp only [hq]
        obtain ⟨d, g1, g2, g3⟩ := hr
        exact ⟨.filterPath c false d, ⟨h1, g1⟩, by rw [h2, g2]; simp [CExpr.toks, sep],
          by simp [CExpr.val, h3, g3, sepOp], rfl, rfl⟩
    case abbrevPathSep =>
      rcases hq : parseRel n r with e | ⟨r', ts'⟩
      · rw [hq] at hr; simp only [hq]; exact hr.err (by simp at hlen; omega)
      · rw [hq] at hr; simp only [hq]
        obtain ⟨d, g1, g2, g3⟩ := hr
        exact ⟨.filterPath c true d, ⟨h1, g1⟩, by rw [h2, g2]; simp [CExpr.toks, sep],
          by simp [CExpr.val, h3, g3, sepOp], rfl, rfl⟩
    all_goals exact base
  case rel =>
    intro ts
    rw [parseRel]
    have h := ih.step ts
    generalize parseStep n ts = z at h ⊢; rcases z with e | ⟨l, r⟩
    · exact h.err (by omega)
    · obtain ⟨c, h1, h2, h3⟩ := h
      subst h3
      have hl := len_lt h2 (toks_pos.2.2.1 c)
      refine (ih.relLoop (.step c) r h1).mono (by omega) ?_
      rintro v rest ⟨d, g1, g2, g3⟩
      exact ⟨d, g1, by rw [h2, ← g2]; rfl, g3⟩
  case relLoop =>
    intro cl ts hp
    have base : ∃ c : CRel, c.PrecOK ∧ cl.toks ++ ts = c.toks ++ ts ∧ c.val = cl.val := ⟨cl, hp, rfl, rfl⟩
    rcases ts with _ | ⟨t, ts⟩
    · exact base
    have h := ih.step ts
    cases t <;> first
      | exact base
      | (simp only [parseRelLoop]
         generalize parseStep n ts = z at h ⊢; rcases z with e | ⟨s, r⟩
         · exact h.err (by simp; omega)
         · obtain ⟨c, h1, h2, h3⟩ := h
           subst h3
           have hl := len_lt h2 (toks_pos.2.2.1 c)
           first
             | (refine (ih.relLoop (.cons cl false c) r ⟨hp, h1⟩).mono (by simp; omega) ?_
                rintro v rest ⟨d, g1, g2, g3⟩
                exact ⟨d, g1, by rw [h2, ← g2]; simp [CRel.toks, sep], g3⟩)
             | (refine (ih.relLoop (.cons cl true c) r ⟨hp, h1⟩).mono (by simp; omega) ?_
                rintro v rest ⟨d, g1, g2, g3⟩
                exact ⟨d, g1, by rw [h2, ← g2]; simp [CRel.toks, sep], g3⟩))
  case step =>
    intro ts
    have key : ∀ (ax : Option CAxis) (k : List Tok) (ts : List Tok),
        Out (parseTest n (ax.map CAxis.val) ts) (n+1) (2 + 16 * ts.length) fun e rest =>
          ∃ c : CStep, c.PrecOK ∧ (ax.elim [] CAxis.toks) ++ ts = c.toks ++ rest ∧ c.val = e := by
      intro ax k ts
      refine (ih.test _ ts).mono (by omega) ?_
      rintro v rest ⟨t, es, h1, h2, h3⟩
      rcases ax with _ | ax
      · rcases es with _ | ⟨d, ds⟩
        · exact ⟨.test t, trivial, by simp [CStep.toks, h2, predToks], by simp [CStep.val, h3]⟩
        · obtain ⟨c, g1, g2, g3⟩ := exists_preds (d :: ds) (by simp) h1
          exact ⟨.testPreds t c, g1, by simp [CStep.toks, h2, g2], by simp [CStep.val, h3, g3]⟩
      · rcases es with _ | ⟨d, ds⟩
        · exact ⟨.axis ax t, trivial, by simp [CStep.toks, h2, predToks], by simp [CStep.val, h3]⟩
        · obtain ⟨c, g1, g2, g3⟩ := exists_preds (d :: ds) (by simp) h1
          exact ⟨.axisPreds ax t c, g1, by simp [CStep.toks, h2, g2], by simp [CStep.val, h3, g3]⟩
    rcases ts with _ | ⟨t, ts⟩
    · exact key none [] []
    cases t
    case stepSelf => exact ⟨.self, trivial, rfl, rfl⟩
    case stepParent => exact ⟨.parent, trivial, rfl, rfl⟩
    case axisAt => exact (key (some .at) [] ts).mono (by simp; omega) (fun _ _ h => h)
    case axisName a =>
      rcases ts with _ | ⟨t, ts⟩
      · trivial
      cases t <;> first
        | trivial
        | exact (key (some (.full a)) [] ts).mono (by simp; omega) (fun _ _ h => h)
    all_goals exact key none [] _
  case test =>
    intro ax ts
    rw [parseTest]
    have h := parseNodeTest_sound ts
    generalize parseNodeTest ts = z at h ⊢; rcases z with e | ⟨t, r⟩
    · exact h.err (by omega)
    obtain ⟨c, h1, h2⟩ := h
    dsimp only
    have hl : r.length < ts.length := len_lt h1 (by
      cases c <;> simp [CNodeTest.toks]
      case qname q => cases q <;> simp [CQName.toks])
    have g := ih.preds r
    generalize parsePreds n r = z at g ⊢; rcases z with e | ⟨ps, r'⟩
    · exact g.err (by omega)
    · obtain ⟨es, g1, g2, g3⟩ := g
      exact ⟨c, es, g1, by rw [h1, g2], by simp [h2, g3]⟩
  case preds =>
    intro ts
    have base : ∃ es : List CExpr, (∀ x ∈ es, x.PrecOK) ∧ ts = predToks es ++ ts ∧ [] = es.map CExpr.val :=
      ⟨[], by simp, by simp [predToks], rfl⟩
    rcases ts with _ | ⟨t, ts⟩
    · exact base
    cases t <;> first
      | exact base
      | skip
    simp only [parsePreds]
    have h := ih.expr 0 ts
    generalize parseExpr n 0 ts = z at h ⊢; rcases z with e | ⟨f, r⟩
    · exact h.err (by simp; omega)
    obtain ⟨c, h1, h2, h3, -⟩ := h
    have hl := len_lt h2 (toks_pos.1 c)
    rcases r with _ | ⟨t, r⟩
    · trivial
    cases t <;> first
      | trivial
      | skip
    have g := ih.preds r
    dsimp only
    generalize parsePreds n r = z at g ⊢; rcases z with e | ⟨ps, r'⟩
    · exact g.err (by simp at hl ⊢; omega)
    · obtain ⟨es, g1, g2, g3⟩ := g
      refine ⟨c :: es, by simpa using ⟨h1, g1⟩, ?_, by simp [h3, g3]⟩
      rw [h2, g2]; simp [predToks]
  case filter =>
    intro ts
    rw [parseFilter]
    have h := ih.prim ts
    generalize parsePrimary n ts = z at h ⊢; rcases z with e | ⟨f, r⟩
    · exact h.err (by omega)
    obtain ⟨c, h1, h2, h3⟩ := h
    have hl := len_lt h2 (toks_pos.2.2.2 c)
    dsimp only
    have g := ih.preds r
    generalize parsePreds n r = z at g ⊢; rcases z with e | ⟨ps, r'⟩
    · exact g.err (by omega)
    · obtain ⟨es, g1, g2, g3⟩ := g
      obtain ⟨d, k1, k2, k3⟩ := exists_filter c h1 es g1
      exact ⟨d, k1, by rw [h2, g2, k2]; simp, by rw [k3, g3, h3]⟩
  case prim =>
    intro ts
    rcases ts with _ | ⟨t, ts⟩
    · trivial
    cases t
    case dollar =>
      have h := parseVar_sound ts
      simp only [parsePrimary]
      refine h.mono (by omega) ?_
      rintro v rest ⟨q, h1, h2⟩
      exact ⟨.var q, trivial, by simp [CFilter.toks, h1], by simp [CFilter.val, h2]⟩
    case literal s => exact ⟨.lit s, trivial, rfl, rfl⟩
    case float s => exact ⟨.float s, trivial, rfl, rfl⟩
    case integer s => exact ⟨.int s, trivial, rfl, rfl⟩
    case funcName f =>
      refine (ih.call none f ts).mono (by simp; omega) ?_
      rintro v rest ⟨a, h1, h2, h3⟩
      exact ⟨.call (.unprefixed f) a, h1, by simp [CFilter.toks, CFuncQName.toks, h2],
        by simp [CFilter.val, CFuncQName.pfx, CFuncQName.nm, h3]⟩
    case openParen =>
      have h := ih.expr 0 ts
      simp only [parsePrimary]
      generalize parseExpr n 0 ts = z at h ⊢; rcases z with e | ⟨f, r⟩
      · exact h.err (by simp; omega)
      obtain ⟨c, h1, h2, h3, -⟩ := h
      rcases r with _ | ⟨t, r⟩
      · trivial
      cases t <;> first
        | trivial
        | exact ⟨.group c, h1, by simp [CFilter.toks, h2], by simp [CFilter.val, h3]⟩
    case ncname p =>
      rcases ts with _ | ⟨t, ts⟩
      · trivial
      cases t <;> first
        | trivial
        | skip
      rcases ts with _ | ⟨t, ts⟩
      · trivial
      cases t <;> first
        | trivial
        | skip
      case funcName f =>
      refine (ih.call (some p) f ts).mono (by simp; omega) ?_
      rintro v rest ⟨a, h1, h2, h3⟩
      exact ⟨.call (.prefixed p f) a, h1, by simp [CFilter.toks, CFuncQName.toks, h2],
        by simp [CFilter.val, CFuncQName.pfx, CFuncQName.nm, h3]⟩
    all_goals trivial
  case call =>
    intro p f ts
    rcases ts with _ | ⟨t, ts⟩
    · trivial
    cases t <;> first
      | trivial
      | skip
    have key : ∀ ts, Out (match parseArgs n ts with
            | .error e => Except.error e
            | .ok (as, .closeParen :: ts') => .ok (Expr.call p f as, ts')
            | .ok (_, ts') => .error (.syntax ts')) (n+1) (1 + 16 * (Tok.openParen :: ts).length) fun e rest =>
        ∃ a : CArgs, a.PrecOK ∧ (.openParen :: ts) = a.toks ++ rest ∧ e = .call p f a.val := by
      intro ts
      have h := ih.args ts
      generalize parseArgs n ts = z at h ⊢; rcases z with e | ⟨as, r⟩
      · exact h.err (by simp; omega)
      obtain ⟨es, h0, h1, h2, h3⟩ := h
      obtain ⟨d, k1, k2, k3⟩ := exists_args es h0 h1
      rcases r with _ | ⟨t, r⟩
      · trivial
      cases t <;> first
        | trivial
        | exact ⟨.list d, k1, by simp [CArgs.toks, h2, k2], by simp [CArgs.val, k3, h3]⟩
    rcases ts with _ | ⟨t, ts⟩
    · exact key _
    cases t <;> first
      | exact ⟨.empty, trivial, rfl, rfl⟩
      | exact key _
  case args =>
    intro ts
    rw [parseArgs]
    have h := ih.expr 0 ts
    generalize parseExpr n 0 ts = z at h ⊢; rcases z with e | ⟨f, r⟩
    · exact h.err (by omega)
    obtain ⟨c, h1, h2, h3, -⟩ := h
    have hl := len_lt h2 (toks_pos.1 c)
    have base : ∃ es : List CExpr, es ≠ [] ∧ (∀ x ∈ es, x.PrecOK) ∧ ts = argToks es ++ r ∧ [f] = es.map CExpr.val :=
      ⟨[c], by simp, by simpa using h1, by simp [argToks, h2], by simp [h3]⟩
    rcases r with _ | ⟨t, r⟩
    · exact base
    cases t <;> first
      | exact base
      | skip
    have g := ih.args r
    dsimp only
    generalize parseArgs n r = z at g ⊢; rcases z with e | ⟨ps, r'⟩
    · exact g.err (by simp at hl ⊢; omega)
    · obtain ⟨es, g0, g1, g2, g3⟩ := g
      rcases es with _ | ⟨d, ds⟩
      · exact absurd rfl g0
      refine ⟨c :: d :: ds, by simp, by simpa using ⟨h1, by simpa using g1⟩, ?_, by simpa [h3] using g3⟩
      rw [h2, g2]; simp [argToks]

theorem good : ∀ n, Good n
  | 0 => good_zero
  | n + 1 => good_succ n (good n)

end XPath
