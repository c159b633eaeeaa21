import Verif.XPath.ParserLocal
/-
When the parser model reports an error, the tokens before the reported one are the beginning of some expression.
-/
namespace XPath
open G

/-! ### the languages of the grammar -/

/-- Token sequences of the nonterminals. -/
def IsExpr (ts : List Tok) : Prop := ∃ c : CExpr, c.toks = ts
def IsRel (ts : List Tok) : Prop := ∃ c : CRel, c.toks = ts
def IsStep (ts : List Tok) : Prop := ∃ c : CStep, c.toks = ts
def IsTest (ts : List Tok) : Prop := ∃ c : CNodeTest, c.toks = ts
def IsFilter (ts : List Tok) : Prop := ∃ c : CFilter, c.toks = ts
def IsArgs (ts : List Tok) : Prop := ∃ c : CArgs, c.toks = ts
def IsArgList (ts : List Tok) : Prop := ∃ c : CArgList, c.toks = ts
def IsQName (ts : List Tok) : Prop := ∃ c : CQName, c.toks = ts
/-- Predicates, possibly none. -/
def IsPreds (ts : List Tok) : Prop := ts = [] ∨ ∃ c : CPreds, c.toks = ts

/-- What may follow an expression so that the whole is one. -/
def AfterExpr (ts : List Tok) : Prop := ∀ e, IsExpr e → IsExpr (e ++ ts)
def AfterRel (ts : List Tok) : Prop := ∀ e, IsRel e → IsRel (e ++ ts)
def AfterFilter (ts : List Tok) : Prop := ∀ e, IsFilter e → IsExpr (e ++ ts)
/-- What may follow the opening parenthesis and the first argument. -/
def AfterArg (ts : List Tok) : Prop := ∀ e, IsArgList e → IsArgList (e ++ ts)

theorem IsPreds.cons {e ts} (he : IsExpr e) (h : IsPreds ts) : IsPreds (.openBracket :: (e ++ .closeBracket :: ts)) := by
  obtain ⟨c, rfl⟩ := he
  rcases h with rfl | ⟨ps, rfl⟩
  · exact .inr ⟨.single c, by simp [CPreds.toks]⟩
  · right
    have key : ∀ ps : CPreds, ∃ qs : CPreds, qs.toks = .openBracket :: (c.toks ++ .closeBracket :: ps.toks) := by
      intro ps
      have : ∀ n, ∀ ps : CPreds, ps.toks.length = n → ∃ qs : CPreds, qs.toks = .openBracket :: (c.toks ++ .closeBracket :: ps.toks) := by
        intro n
        induction n using Nat.strongRecOn with
        | ind n ih =>
          intro ps hn
          cases ps with
          | single e => exact ⟨.snoc (.single c) e, by simp [CPreds.toks]⟩
          | snoc ps e =>
            obtain ⟨qs, hq⟩ := ih _ (by simp [CPreds.toks] at hn; omega) ps rfl
            exact ⟨.snoc qs e, by simp [CPreds.toks, hq]⟩
      exact this _ ps rfl
    exact key ps

theorem IsArgList.cons {e ts} (he : IsExpr e) (h : IsArgList ts) : IsArgList (e ++ .comma :: ts) := by
  obtain ⟨c, rfl⟩ := he
  obtain ⟨as, rfl⟩ := h
  have : ∀ n, ∀ as : CArgList, as.toks.length = n → ∃ qs : CArgList, qs.toks = c.toks ++ .comma :: as.toks := by
    intro n
    induction n using Nat.strongRecOn with
    | ind n ih =>
      intro as hn
      cases as with
      | single e => exact ⟨.snoc (.single c) e, by simp [CArgList.toks]⟩
      | snoc as e =>
        obtain ⟨qs, hq⟩ := ih _ (by simp [CArgList.toks] at hn; omega) as rfl
        exact ⟨.snoc qs e, by simp [CArgList.toks, hq]⟩
  exact this _ as rfl

theorem IsFilter.preds {f ts} (hf : IsFilter f) (h : IsPreds ts) : IsFilter (f ++ ts) := by
  obtain ⟨c, rfl⟩ := hf
  rcases h with rfl | ⟨ps, rfl⟩
  · exact ⟨c, by simp⟩
  · have : ∀ n, ∀ ps : CPreds, ps.toks.length = n → IsFilter (c.toks ++ ps.toks) := by
      intro n
      induction n using Nat.strongRecOn with
      | ind n ih =>
        intro ps hn
        cases ps with
        | single e => exact ⟨.pred c e, by simp [CFilter.toks, CPreds.toks]⟩
        | snoc ps e =>
          obtain ⟨d, hd⟩ := ih _ (by simp [CPreds.toks] at hn; omega) ps rfl
          exact ⟨.pred d e, by simp [CFilter.toks, CPreds.toks, hd]⟩
    exact this _ ps rfl

theorem IsExpr.rel {ts} (h : IsRel ts) : IsExpr ts := by obtain ⟨c, rfl⟩ := h; exact ⟨.rel c, rfl⟩
theorem IsExpr.filter {ts} (h : IsFilter ts) : IsExpr ts := by obtain ⟨c, rfl⟩ := h; exact ⟨.filter c, rfl⟩
theorem IsRel.step {ts} (h : IsStep ts) : IsRel ts := by obtain ⟨c, rfl⟩ := h; exact ⟨.step c, rfl⟩
theorem IsStep.test {t ps} (ht : IsTest t) (h : IsPreds ps) : IsStep (t ++ ps) := by
  obtain ⟨c, rfl⟩ := ht
  rcases h with rfl | ⟨d, rfl⟩
  · exact ⟨.test c, by simp [CStep.toks]⟩
  · exact ⟨.testPreds c d, rfl⟩
theorem IsStep.axis {t ps} (a : CAxis) (ht : IsTest t) (h : IsPreds ps) : IsStep (a.toks ++ (t ++ ps)) := by
  obtain ⟨c, rfl⟩ := ht
  rcases h with rfl | ⟨d, rfl⟩
  · exact ⟨.axis a c, by simp [CStep.toks]⟩
  · exact ⟨.axisPreds a c d, rfl⟩

theorem isStep_self : IsStep [.stepSelf] := ⟨.self, rfl⟩
theorem isRel_self : IsRel [.stepSelf] := .step isStep_self
theorem isExpr_self : IsExpr [.stepSelf] := .rel isRel_self
theorem isTest_star : IsTest [.starOp] := ⟨.star, rfl⟩
theorem isFilter_lit : IsFilter [.literal []] := ⟨.lit [], rfl⟩

/-! ### outcomes -/

/-- On success the consumed tokens are in `X`; on an error the tokens before the offending one begin something in `X`. -/
def Via {α} (X : List Tok → Prop) (ts : List Tok) : PRes α → Prop
  | .error .fuel => True
  | .error (.syntax r) => ∃ p, ts = p ++ r ∧ ∃ c, X (p ++ c)
  | .ok (_, r) => ∃ p, ts = p ++ r ∧ X p

/-- After the tokens `p`. -/
theorem Via.shift {α} {X Y : List Tok → Prop} {ts r : List Tok} {a : PRes α} (h : Via X r a) (p : List Tok) (hp : ts = p ++ r)
    (hx : ∀ q, X q → Y (p ++ q)) : Via Y ts a := by
  subst hp
  rcases a with (_ | e) | ⟨v, r'⟩
  · trivial
  · obtain ⟨q, rfl, c, hc⟩ := h
    exact ⟨p ++ q, by simp, c, by rw [List.append_assoc]; exact hx _ hc⟩
  · obtain ⟨q, rfl, hc⟩ := h
    exact ⟨p ++ q, by simp, hx _ hc⟩

theorem Via.mono {α} {X Y : List Tok → Prop} {ts : List Tok} {a : PRes α} (h : Via X ts a) (hx : ∀ q, X q → Y q) : Via Y ts a :=
  h.shift [] rfl hx

theorem Via.bind {α β} {X Y : List Tok → Prop} {ts : List Tok} {a : PRes α} {k : α → List Tok → PRes β} (h : Via X ts a)
    (hk : ∀ v p r, ts = p ++ r → X p → Via Y ts (k v r)) (hc : ∀ q, X q → ∃ c, Y (q ++ c)) : Via Y ts (bindP a k) := by
  rcases a with (_ | e) | ⟨v, r'⟩
  · trivial
  · obtain ⟨q, rfl, c, hx⟩ := h
    obtain ⟨d, hd⟩ := hc _ hx
    exact ⟨q, rfl, c ++ d, by rw [← List.append_assoc]; exact hd⟩
  · obtain ⟨q, rfl, hx⟩ := h
    exact hk v q r' rfl hx

/-- An error at the first token. -/
theorem Via.here {α} {X : List Tok → Prop} {ts : List Tok} (h : ∃ c, X c) : Via (α := α) X ts (.error (.syntax ts)) := ⟨[], rfl, h⟩
/-- An error after `p`. -/
theorem Via.after {α} {X : List Tok → Prop} {ts : List Tok} (p c : List Tok) (h : X (p ++ c)) : Via (α := α) X (p ++ ts) (.error (.syntax ts)) := ⟨p, rfl, c, h⟩
/-- Success. -/
theorem Via.done {α} {X : List Tok → Prop} {ts : List Tok} (v : α) (p : List Tok) (h : X p) : Via X (p ++ ts) (.ok (v, ts)) := ⟨p, rfl, h⟩

theorem via_nodeTest (ts) : Via IsTest ts (parseNodeTest ts) := by
  unfold parseNodeTest
  split
  · exact .done _ [_] ⟨.star, rfl⟩
  · split
    · exact .done _ [_, _, _] ⟨.prefixStar _, rfl⟩
    · exact .done _ [_, _, _] ⟨.qname (.prefixed _ _), rfl⟩
    · exact .after [_, _] [.starOp] ⟨.prefixStar _, rfl⟩
  · exact .done _ [_] ⟨.qname (.unprefixed _), rfl⟩
  · split
    · split
      · exact .done _ [_, _, _] ⟨.type _, rfl⟩
      · split
        · exact .done _ [_, _, _, _] ⟨.typeLit _ _, rfl⟩
        · exact .after [_, _, _] [.closeParen] ⟨.typeLit _ _, rfl⟩
      · exact .after [_, _] [.closeParen] ⟨.type _, rfl⟩
    · exact .after [_] [.openParen, .closeParen] ⟨.type _, rfl⟩
  · exact .here ⟨_, isTest_star⟩

theorem via_var (ts) : Via IsQName ts (parseVar ts) := by
  unfold parseVar
  split
  · split
    · exact .done _ [_, _, _] ⟨.prefixed _ _, rfl⟩
    · exact .after [_, _] [.ncname []] ⟨.prefixed _ _, rfl⟩
  · exact .done _ [_] ⟨.unprefixed _, rfl⟩
  · exact .here ⟨_, ⟨.unprefixed [], rfl⟩⟩

structure Viab (n : Nat) : Prop where
  expr : ∀ m ts, Via IsExpr ts (parseExpr n m ts)
  loop : ∀ m l ts, Via AfterExpr ts (parseLoop n m l ts)
  pfx : ∀ ts, Via IsExpr ts (parsePrefix n ts)
  path : ∀ ts, Via IsExpr ts (parsePath n ts)
  fpath : ∀ ts, Via IsExpr ts (parseFPath n ts)
  rel : ∀ ts, Via IsRel ts (parseRel n ts)
  relLoop : ∀ l ts, Via AfterRel ts (parseRelLoop n l ts)
  step : ∀ ts, Via IsStep ts (parseStep n ts)
  test : ∀ ax ts, Via (fun q => ∃ t ps, IsTest t ∧ IsPreds ps ∧ q = t ++ ps) ts (parseTest n ax ts)
  preds : ∀ ts, Via IsPreds ts (parsePreds n ts)
  filter : ∀ ts, Via IsFilter ts (parseFilter n ts)
  prim : ∀ ts, Via IsFilter ts (parsePrimary n ts)
  call : ∀ p f ts, Via IsArgs ts (parseCall n p f ts)
  args : ∀ ts, Via IsArgList ts (parseArgs n ts)

theorem viab_zero : Viab 0 := by
  constructor <;> intros <;> simp [parseExpr, parseLoop, parsePrefix, parsePath, parseFPath, parseRel,
    parseRelLoop, parseStep, parseTest, parsePreds, parseFilter, parsePrimary, parseCall, parseArgs, Via]

theorem AfterExpr.nil : AfterExpr [] := fun e h => by simpa using h
theorem AfterRel.nil : AfterRel [] := fun e h => by simpa using h

section
variable {n : Nat} (ih : Viab n)
include ih

theorem viab_succ : Viab (n + 1) where
  expr := fun m ts => by
    rw [parseExpr_bind]
    exact (ih.pfx ts).bind (fun v p r hp hx => (ih.loop m v r).shift p hp (fun q hq => hq p hx)) (fun q hq => ⟨[], by simpa using hq⟩)
  loop := fun m l ts => by
    rcases ts with _ | ⟨t, ts⟩
    · exact ⟨[], rfl, .nil⟩
    rw [parseLoop_bind]
    cases hb : binTok t with
    | none => exact ⟨[], rfl, .nil⟩
    | some op =>
      obtain ⟨op, p⟩ := op
      obtain ⟨o, rfl, -⟩ := binTok_op hb
      have hop : ∀ e, IsExpr e → AfterExpr (o.tok :: e) := by
        rintro _ ⟨d, rfl⟩ _ ⟨c, rfl⟩
        exact ⟨.bin c o d, rfl⟩
      dsimp only
      split
      · refine ((ih.expr (p + 1) ts).shift (Y := AfterExpr) [o.tok] rfl hop).bind (fun v p r hp hx => ?_) (fun q hq => ⟨[], by simpa using hq⟩)
        exact (ih.loop _ _ r).shift p hp (fun q hq e he => by rw [← List.append_assoc]; exact hq _ (hx _ he))
      · exact ⟨[], rfl, .nil⟩
  pfx := fun ts => by
    rcases ts with _ | ⟨t, ts⟩
    · exact ih.path []
    by_cases h : t = .minusOp
    · subst h
      rw [parsePrefix_minus]
      refine ((ih.expr 7 ts).shift (Y := IsExpr) [.minusOp] rfl ?_).bind (fun v p r hp hx => hp ▸ .done _ p hx) (fun q hq => ⟨[], by simpa using hq⟩)
      rintro _ ⟨c, rfl⟩
      exact ⟨.neg c, rfl⟩
    · rw [parsePrefix_other _ _ _ h]; exact ih.path _
  path := fun ts => by
    have key : Via IsExpr ts (if startsFilter ts then parseFPath n ts else parseRel n ts) := by
      split
      · exact ih.fpath ts
      · exact (ih.rel ts).mono (fun q hq => .rel hq)
    rcases ts with _ | ⟨t, ts⟩
    · exact key
    by_cases h1 : t = .pathSep
    · subst h1
      rw [parsePath_sep]
      split
      · refine ((ih.rel ts).shift (Y := IsExpr) [.pathSep] rfl ?_).bind (fun v p r hp hx => hp ▸ .done _ p hx) (fun q hq => ⟨[], by simpa using hq⟩)
        rintro _ ⟨c, rfl⟩
        exact ⟨.abs c, rfl⟩
      · exact .done _ [.pathSep] ⟨.absRoot, rfl⟩
    · by_cases h2 : t = .abbrevPathSep
      · subst h2
        rw [parsePath_abbrev]
        refine ((ih.rel ts).shift (Y := IsExpr) [.abbrevPathSep] rfl ?_).bind (fun v p r hp hx => hp ▸ .done _ p hx) (fun q hq => ⟨[], by simpa using hq⟩)
        rintro _ ⟨c, rfl⟩
        exact ⟨.absAbbrev c, rfl⟩
      · rw [parsePath_other _ _ _ h1 h2]; exact key
  fpath := fun ts => by
    rw [parseFPath_bind]
    refine (ih.filter ts).bind (fun v p r hp hx => ?_) (fun q hq => ⟨[], by simpa using IsExpr.filter hq⟩)
    obtain ⟨f, rfl⟩ := hx
    subst hp
    unfold afterFilter
    split
    · rename_i ts'
      refine ((ih.rel ts').shift (Y := IsExpr) (f.toks ++ [.pathSep]) (by simp) ?_).bind (fun v p r hp hx => hp ▸ .done _ p hx) (fun q hq => ⟨[], by simpa using hq⟩)
      rintro _ ⟨c, rfl⟩
      exact ⟨.filterPath f false c, by simp [CExpr.toks, sep]⟩
    · rename_i ts'
      refine ((ih.rel ts').shift (Y := IsExpr) (f.toks ++ [.abbrevPathSep]) (by simp) ?_).bind (fun v p r hp hx => hp ▸ .done _ p hx) (fun q hq => ⟨[], by simpa using hq⟩)
      rintro _ ⟨c, rfl⟩
      exact ⟨.filterPath f true c, by simp [CExpr.toks, sep]⟩
    · exact .done _ _ (.filter ⟨f, rfl⟩)
  rel := fun ts => by
    rw [parseRel_bind]
    exact (ih.step ts).bind (fun v p r hp hx => (ih.relLoop v r).shift p hp (fun q hq => hq p (.step hx))) (fun q hq => ⟨[], by simpa using IsRel.step hq⟩)
  relLoop := fun l ts => by
    have hop : ∀ b e, IsStep e → AfterRel (sep b :: e) := by
      rintro b _ ⟨d, rfl⟩ _ ⟨c, rfl⟩
      exact ⟨.cons c b d, rfl⟩
    rcases ts with _ | ⟨t, ts⟩
    · exact ⟨[], rfl, .nil⟩
    by_cases h1 : t = .pathSep
    · subst h1
      rw [parseRelLoop_sep]
      refine ((ih.step ts).shift (Y := AfterRel) [.pathSep] rfl (hop false)).bind (fun v p r hp hx => ?_) (fun q hq => ⟨[], by simpa using hq⟩)
      exact (ih.relLoop _ r).shift p hp (fun q hq e he => by rw [← List.append_assoc]; exact hq _ (hx _ he))
    · by_cases h2 : t = .abbrevPathSep
      · subst h2
        rw [parseRelLoop_abbrev]
        refine ((ih.step ts).shift (Y := AfterRel) [.abbrevPathSep] rfl (hop true)).bind (fun v p r hp hx => ?_) (fun q hq => ⟨[], by simpa using hq⟩)
        exact (ih.relLoop _ r).shift p hp (fun q hq e he => by rw [← List.append_assoc]; exact hq _ (hx _ he))
      · rw [parseRelLoop_other _ _ _ _ h1 h2]; exact ⟨[], rfl, .nil⟩
  step := fun ts => by
    rcases ts with _ | ⟨t, ts⟩
    · exact (ih.test none []).mono (by rintro _ ⟨t, ps, h1, h2, rfl⟩; exact .test h1 h2)
    rw [parseStep_cases]
    split
    · exact .done _ [_] ⟨.self, rfl⟩
    · exact .done _ [_] ⟨.parent, rfl⟩
    · rename_i a
      split
      · exact (ih.test (some a) _).shift [.axisName a, .axisSep] rfl (by rintro _ ⟨t, ps, h1, h2, rfl⟩; exact .axis (.full a) h1 h2)
      · exact .after [.axisName a] [.axisSep, .starOp] ⟨.axis (.full a) .star, rfl⟩
    · exact (ih.test (some ['@']) _).shift [.axisAt] rfl (by rintro _ ⟨t, ps, h1, h2, rfl⟩; exact .axis .at h1 h2)
    · exact (ih.test none _).mono (by rintro _ ⟨t, ps, h1, h2, rfl⟩; exact .test h1 h2)
  test := fun ax ts => by
    rw [parseTest_bind]
    refine (via_nodeTest ts).bind (fun v p r hp hx => ?_) (fun q hq => ⟨[], q, [], hq, .inl rfl, by simp⟩)
    exact ((ih.preds r).shift (Y := fun q => ∃ t ps, IsTest t ∧ IsPreds ps ∧ q = t ++ ps) p hp (fun q hq => ⟨p, q, hx, hq, rfl⟩)).bind
      (fun v p r hp hx => hp ▸ .done _ p hx) (fun q hq => ⟨[], by simpa using hq⟩)
  preds := fun ts => by
    rcases ts with _ | ⟨t, ts⟩
    · exact ⟨[], rfl, .inl rfl⟩
    by_cases h : t = .openBracket
    · subst h
      rw [parsePreds_open]
      refine ((ih.expr 0 ts).shift (Y := fun q => ∃ e, IsExpr e ∧ q = .openBracket :: e) [.openBracket] rfl (fun q hq => ⟨q, hq, rfl⟩)).bind
        (fun v p r hp hx => ?_) ?_
      · obtain ⟨e, he, rfl⟩ := hx
        rw [hp]
        unfold afterPred
        split
        · rename_i ts'
          refine ((ih.preds ts').shift (Y := IsPreds) (.openBracket :: (e ++ [.closeBracket])) (by simp) ?_).bind (fun v p r hp hx => hp ▸ .done _ p hx)
            (fun q hq => ⟨[], by simpa using hq⟩)
          intro q hq
          simpa using IsPreds.cons he hq
        · exact .after _ [.closeBracket] (by simpa using IsPreds.cons he (.inl rfl))
      · rintro _ ⟨e, he, rfl⟩
        exact ⟨[.closeBracket], by simpa using IsPreds.cons he (.inl rfl)⟩
    · rw [parsePreds_other _ _ _ h]; exact ⟨[], rfl, .inl rfl⟩
  filter := fun ts => by
    rw [parseFilter_bind]
    refine (ih.prim ts).bind (fun v p r hp hx => ?_) (fun q hq => ⟨[], by simpa using hq⟩)
    exact ((ih.preds r).shift (Y := IsFilter) p hp (fun q hq => hx.preds hq)).bind (fun v p r hp hx => hp ▸ .done _ p hx) (fun q hq => ⟨[], by simpa using hq⟩)
  prim := fun ts => by
    rcases ts with _ | ⟨t, ts⟩
    · exact .here ⟨_, isFilter_lit⟩
    rw [parsePrimary_cases]
    split
    · exact (via_var ts).shift [.dollar] rfl (by rintro _ ⟨c, rfl⟩; exact ⟨.var c, rfl⟩)
    · exact .done _ [_] ⟨.lit _, rfl⟩
    · exact .done _ [_] ⟨.float _, rfl⟩
    · exact .done _ [_] ⟨.int _, rfl⟩
    · rename_i f
      exact (ih.call none f ts).shift [.funcName f] rfl (by rintro _ ⟨c, rfl⟩; exact ⟨.call (.unprefixed f) c, rfl⟩)
    · split
      · rename_i p _ f ts'
        exact (ih.call (some p) f ts').shift [.ncname p, .colon, .funcName f] rfl (by rintro _ ⟨c, rfl⟩; exact ⟨.call (.prefixed p f) c, rfl⟩)
      · exact .here ⟨_, isFilter_lit⟩
    · refine ((ih.expr 0 ts).shift (Y := fun q => ∃ e, IsExpr e ∧ q = .openParen :: e) [.openParen] rfl (fun q hq => ⟨q, hq, rfl⟩)).bind
        (fun v p r hp hx => ?_) ?_
      · obtain ⟨e, ⟨c, rfl⟩, rfl⟩ := hx
        rw [hp]
        unfold afterParen
        split
        · exact ⟨.openParen :: (c.toks ++ [.closeParen]), by simp, ⟨.group c, rfl⟩⟩
        · exact .after _ [.closeParen] ⟨.group c, rfl⟩
      · rintro _ ⟨e, ⟨c, rfl⟩, rfl⟩
        exact ⟨[.closeParen], ⟨.group c, rfl⟩⟩
    · exact .here ⟨_, isFilter_lit⟩
  call := fun p f ts => by
    rcases ts with _ | ⟨t, ts⟩
    · exact .here ⟨_, ⟨.empty, rfl⟩⟩
    by_cases h : t = .openParen
    · subst h
      by_cases h2 : ∃ r, ts = .closeParen :: r
      · obtain ⟨r, rfl⟩ := h2
        exact .done _ [.openParen, .closeParen] ⟨.empty, rfl⟩
      · rw [parseCall_args _ _ _ _ (fun r hr => h2 ⟨r, hr⟩)]
        refine ((ih.args ts).shift (Y := fun q => ∃ e, IsArgList e ∧ q = .openParen :: e) [.openParen] rfl (fun q hq => ⟨q, hq, rfl⟩)).bind
          (fun v p r hp hx => ?_) ?_
        · obtain ⟨e, ⟨c, rfl⟩, rfl⟩ := hx
          rw [hp]
          unfold afterArgs
          split
          · exact ⟨.openParen :: (c.toks ++ [.closeParen]), by simp, ⟨.list c, rfl⟩⟩
          · exact .after _ [.closeParen] ⟨.list c, rfl⟩
        · rintro _ ⟨e, ⟨c, rfl⟩, rfl⟩
          exact ⟨[.closeParen], ⟨.list c, rfl⟩⟩
    · rw [parseCall_other _ _ _ _ _ h]; exact .here ⟨_, ⟨.empty, rfl⟩⟩
  args := fun ts => by
    rw [parseArgs_bind]
    refine (ih.expr 0 ts).bind (fun v p r hp hx => ?_) ?_
    · rw [hp]
      unfold afterArg
      split
      · rename_i ts'
        refine ((ih.args ts').shift (Y := IsArgList) (p ++ [.comma]) (by simp) ?_).bind (fun v p r hp hx => hp ▸ .done _ p hx) (fun q hq => ⟨[], by simpa using hq⟩)
        intro q hq
        simpa using IsArgList.cons hx hq
      · obtain ⟨c, rfl⟩ := hx
        exact .done _ _ ⟨.single c, rfl⟩
    · rintro _ ⟨c, rfl⟩
      exact ⟨[], ⟨.single c, by simp [CArgList.toks]⟩⟩

end

theorem viab : ∀ n, Viab n
  | 0 => viab_zero
  | n + 1 => viab_succ (viab n)

/-! ### the whole parser -/

theorem locals {x x' : List Tok} : ∀ n, Local x x' n
  | 0 => local_zero
  | n + 1 => local_succ (locals n)

theorem parseExpr_fuel (ts : List Tok) : ∀ k, parseExpr (fuelFor ts + k) 0 ts = parseExpr (fuelFor ts) 0 ts := by
  intro k
  induction k with
  | zero => rfl
  | succ k ih =>
    rcases (mono (fuelFor ts + k)).expr 0 ts with h' | h'
    · rw [ih] at h'; exact absurd h' (parseExpr_ne_fuel ts)
    · rw [← Nat.add_assoc, ← h', ih]

/-- An error is reported at a token: then the tokens before it begin an expression. -/
theorem parseToks_viable {ts r : List Tok} (h : parseToks ts = .error (.syntax r)) : ∃ p, ts = p ++ r ∧ ∃ c, IsExpr (p ++ c) := by
  have hv := (viab (fuelFor ts)).expr 0 ts
  unfold parseToks at h
  split at h
  · rename_i e he
    rw [he] at hv
    cases h
    exact hv
  · cases h
  · rename_i v t r' he
    rw [he] at hv
    cases h
    obtain ⟨p, hp, hx⟩ := hv
    exact ⟨p, hp, [], by simpa using hx⟩

/-- What follows the reported token is irrelevant. -/
theorem parseToks_local {p r : List Tok} {t : Tok} (h : parseToks (p ++ t :: r) = .error (.syntax (t :: r))) (r' : List Tok) :
    parseToks (p ++ t :: r') = .error (.syntax (t :: r')) := by
  let N := fuelFor (p ++ t :: r) + fuelFor (p ++ t :: r')
  have h1 : parseExpr N 0 (p ++ t :: r) = parseExpr (fuelFor (p ++ t :: r)) 0 (p ++ t :: r) := parseExpr_fuel _ _
  have h2 : parseExpr N 0 (p ++ t :: r') = parseExpr (fuelFor (p ++ t :: r')) 0 (p ++ t :: r') := by
    show parseExpr (fuelFor (p ++ t :: r) + fuelFor (p ++ t :: r')) 0 _ = _
    rw [Nat.add_comm]; exact parseExpr_fuel _ _
  have hl := (locals (x := r) (x' := r') N).expr 0 (p ++ [t])
  rw [List.append_assoc, List.append_assoc] at hl
  simp only [List.cons_append, List.nil_append] at hl
  unfold parseToks at h ⊢
  rw [← h1] at h
  rw [← h2]
  generalize parseExpr N 0 (p ++ t :: r) = a at hl h
  generalize parseExpr N 0 (p ++ t :: r') = b at hl ⊢
  cases hl with
  | short hs =>
    rcases a with (_ | e) | ⟨v, _ | ⟨u, q⟩⟩
    · cases h
    · cases h; simp [resLen] at hs; omega
    · cases h
    · cases h; simp [resLen] at hs; omega
  | ok v q hq =>
    rcases q with _ | ⟨u, q⟩
    · exact absurd rfl hq
    · simp only [List.cons_append] at h ⊢
      cases q with
      | nil => simp at h; simp [h]
      | cons w q =>
        have := congrArg List.length (Except.error.inj h |> PErr.syntax.inj)
        simp at this; omega
  | err q hq =>
    rcases q with _ | ⟨u, q⟩
    · exact absurd rfl hq
    · simp only [List.cons_append] at h ⊢
      cases q with
      | nil => simp at h; simp [h]
      | cons w q =>
        have := congrArg List.length (Except.error.inj h |> PErr.syntax.inj)
        simp at this; omega

/-- No expression starts with the tokens up to the reported one. -/
theorem parseToks_dead {p r : List Tok} {t : Tok} (h : parseToks (p ++ t :: r) = .error (.syntax (t :: r))) (r' : List Tok) : ¬ IsExpr (p ++ t :: r') := by
  rintro ⟨c, hc⟩
  obtain ⟨d, hd, he⟩ := norm_expr c
  have := parseToks_complete d hd
  rw [he, hc, parseToks_local h r'] at this
  cases this

end XPath
