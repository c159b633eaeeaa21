import Verif.XPath.ParserCorrect
/-
The parser model looks only at the tokens before the point where it stops, and at the token there: what follows is
irrelevant.
-/
namespace XPath

/-- The number of tokens left. -/
def resLen {α} : PRes α → Nat
  | .error .fuel => 0
  | .error (.syntax r) => r.length
  | .ok (_, r) => r.length

/-- Sequencing of parser functions. -/
def bindP {α β} (a : PRes α) (k : α → List Tok → PRes β) : PRes β := match a with
  | .error e => .error e
  | .ok (v, r) => k v r

theorem resLen_bind {α β} {a : PRes α} {k : α → List Tok → PRes β} {m : Nat} (ha : resLen a ≤ m) (hk : ∀ v r, r.length ≤ m → resLen (k v r) ≤ m) :
    resLen (bindP a k) ≤ m := by
  rcases a with (_ | r) | ⟨v, r⟩
  · exact Nat.zero_le _
  · exact ha
  · exact hk v r ha

/-! ### the parser functions in terms of `bindP` -/

theorem parseExpr_bind (n m ts) : parseExpr (n + 1) m ts = bindP (parsePrefix n ts) (fun l r => parseLoop n m l r) := by
  rw [parseExpr]; rcases parsePrefix n ts with e | ⟨v, r⟩ <;> rfl

theorem parseLoop_bind (n m l t ts) : parseLoop (n + 1) m l (t :: ts) = match binTok t with
    | none => .ok (l, t :: ts)
    | some (op, p) => if m ≤ p then bindP (parseExpr n (p + 1) ts) (fun v r => parseLoop n m (.binary l op v) r) else .ok (l, t :: ts) := by
  rw [parseLoop]
  cases binTok t with
  | none => rfl
  | some op =>
    dsimp only
    split
    · rcases parseExpr n (op.2 + 1) ts with e | ⟨v, r⟩ <;> rfl
    · rfl

theorem parsePrefix_minus (n ts) : parsePrefix (n + 1) (.minusOp :: ts) = bindP (parseExpr n 7 ts) (fun v r => .ok (.neg v, r)) := by
  rw [parsePrefix]; rcases parseExpr n 7 ts with e | ⟨v, r⟩ <;> rfl

theorem parsePrefix_other (n t ts) (h : t ≠ .minusOp) : parsePrefix (n + 1) (t :: ts) = parsePath n (t :: ts) := by
  cases t <;> first | rfl | exact absurd rfl h

theorem parsePath_sep (n ts) : parsePath (n + 1) (.pathSep :: ts) = if startsStep ts then bindP (parseRel n ts) (fun v r => .ok (.abs false v, r)) else
    .ok (.root, ts) := by
  rw [parsePath]; split
  · rcases parseRel n ts with e | ⟨v, r⟩ <;> rfl
  · rfl

theorem parsePath_abbrev (n ts) : parsePath (n + 1) (.abbrevPathSep :: ts) = bindP (parseRel n ts) (fun v r => .ok (.abs true v, r)) := by
  rw [parsePath]; rcases parseRel n ts with e | ⟨v, r⟩ <;> rfl

theorem parsePath_other (n t ts) (h1 : t ≠ .pathSep) (h2 : t ≠ .abbrevPathSep) :
    parsePath (n + 1) (t :: ts) = if startsFilter (t :: ts) then parseFPath n (t :: ts) else parseRel n (t :: ts) := by
  cases t <;> first | rfl | exact absurd rfl h1 | exact absurd rfl h2

/-- After a filter expression. -/
def afterFilter (n : Nat) (f : Expr) : List Tok → PRes Expr
  | .pathSep :: ts => bindP (parseRel n ts) (fun v r => .ok (.binary f .slash v, r))
  | .abbrevPathSep :: ts => bindP (parseRel n ts) (fun v r => .ok (.binary f .dslash v, r))
  | ts => .ok (f, ts)

theorem parseFPath_bind (n ts) : parseFPath (n + 1) ts = bindP (parseFilter n ts) (afterFilter n) := by
  rw [parseFPath]
  rcases parseFilter n ts with e | ⟨v, _ | ⟨t, r⟩⟩
  · rfl
  · rfl
  · cases t <;> first
      | rfl
      | (simp only [bindP, afterFilter]; rcases parseRel n r with e | ⟨w, r'⟩ <;> rfl)

theorem parseRel_bind (n ts) : parseRel (n + 1) ts = bindP (parseStep n ts) (fun v r => parseRelLoop n v r) := by
  rw [parseRel]; rcases parseStep n ts with e | ⟨v, r⟩ <;> rfl

theorem parseRelLoop_sep (n l ts) : parseRelLoop (n + 1) l (.pathSep :: ts) = bindP (parseStep n ts) (fun v r => parseRelLoop n (.binary l .slash v) r) := by
  rw [parseRelLoop]; rcases parseStep n ts with e | ⟨v, r⟩ <;> rfl

theorem parseRelLoop_abbrev (n l ts) : parseRelLoop (n + 1) l (.abbrevPathSep :: ts) =
    bindP (parseStep n ts) (fun v r => parseRelLoop n (.binary l .dslash v) r) := by
  rw [parseRelLoop]; rcases parseStep n ts with e | ⟨v, r⟩ <;> rfl

theorem parseRelLoop_other (n l t ts) (h1 : t ≠ .pathSep) (h2 : t ≠ .abbrevPathSep) : parseRelLoop (n + 1) l (t :: ts) = .ok (l, t :: ts) := by
  cases t <;> first | rfl | exact absurd rfl h1 | exact absurd rfl h2

theorem parseTest_bind (n ax ts) : parseTest (n + 1) ax ts = bindP (parseNodeTest ts) (fun t r => bindP (parsePreds n r) (fun ps r' => .ok (.step ax t ps, r'))) := by
  rw [parseTest]
  rcases parseNodeTest ts with e | ⟨v, r⟩
  · rfl
  · simp only [bindP]; rcases parsePreds n r with e | ⟨w, r'⟩ <;> rfl

/-- After the expression of a predicate. -/
def afterPred (n : Nat) (p : Expr) : List Tok → PRes (List Expr)
  | .closeBracket :: ts => bindP (parsePreds n ts) (fun ps r => .ok (p :: ps, r))
  | ts => .error (.syntax ts)

theorem parsePreds_open (n ts) : parsePreds (n + 1) (.openBracket :: ts) = bindP (parseExpr n 0 ts) (afterPred n) := by
  rw [parsePreds]
  rcases parseExpr n 0 ts with e | ⟨v, _ | ⟨t, r⟩⟩
  · rfl
  · rfl
  · cases t <;> first
      | rfl
      | (simp only [bindP, afterPred]; rcases parsePreds n r with e | ⟨w, r'⟩ <;> rfl)

theorem parsePreds_other (n t ts) (h : t ≠ .openBracket) : parsePreds (n + 1) (t :: ts) = .ok ([], t :: ts) := by
  cases t <;> first | rfl | exact absurd rfl h

theorem parseFilter_bind (n ts) : parseFilter (n + 1) ts =
    bindP (parsePrimary n ts) (fun e r => bindP (parsePreds n r) (fun ps r' => .ok (ps.foldl applyPred e, r'))) := by
  rw [parseFilter]
  rcases parsePrimary n ts with e | ⟨v, r⟩
  · rfl
  · simp only [bindP]; rcases parsePreds n r with e | ⟨w, r'⟩ <;> rfl

/-- After the expression in parentheses. -/
def afterParen (e : Expr) : List Tok → PRes Expr
  | .closeParen :: ts => .ok (e, ts)
  | ts => .error (.syntax ts)

theorem parsePrimary_paren (n ts) : parsePrimary (n + 1) (.openParen :: ts) = bindP (parseExpr n 0 ts) afterParen := by
  rw [parsePrimary]
  rcases parseExpr n 0 ts with e | ⟨v, _ | ⟨t, r⟩⟩
  · rfl
  · rfl
  · cases t <;> rfl

/-- After the arguments. -/
def afterArgs (p : Option Str) (f : Str) (as : List Expr) : List Tok → PRes Expr
  | .closeParen :: ts => .ok (.call p f as, ts)
  | ts => .error (.syntax ts)

theorem parseCall_args (n p f ts) (h : ∀ r, ts ≠ .closeParen :: r) : parseCall (n + 1) p f (.openParen :: ts) = bindP (parseArgs n ts) (afterArgs p f) := by
  rw [parseCall]
  · rcases parseArgs n ts with e | ⟨v, _ | ⟨t, r⟩⟩
    · rfl
    · rfl
    · cases t <;> rfl
  · intro r hr; exact h r hr

theorem parseCall_other (n p f t ts) (h : t ≠ .openParen) : parseCall (n + 1) p f (t :: ts) = .error (.syntax (t :: ts)) := by
  cases t <;> first | rfl | exact absurd rfl h

/-- After one argument. -/
def afterArg (n : Nat) (a : Expr) : List Tok → PRes (List Expr)
  | .comma :: ts => bindP (parseArgs n ts) (fun as r => .ok (a :: as, r))
  | ts => .ok ([a], ts)

theorem parseArgs_bind (n ts) : parseArgs (n + 1) ts = bindP (parseExpr n 0 ts) (afterArg n) := by
  rw [parseArgs]
  rcases parseExpr n 0 ts with e | ⟨v, _ | ⟨t, r⟩⟩
  · rfl
  · rfl
  · cases t <;> first
      | rfl
      | (simp only [bindP, afterArg]; rcases parseArgs n r with e | ⟨w, r'⟩ <;> rfl)

/-- The form of a step by its first tokens. -/
theorem parseStep_cases (n t ts) : parseStep (n + 1) (t :: ts) = match t with
    | .stepSelf => .ok (.abbrev false, ts)
    | .stepParent => .ok (.abbrev true, ts)
    | .axisName a => match ts with
      | .axisSep :: ts' => parseTest n (some a) ts'
      | ts => .error (.syntax ts)
    | .axisAt => parseTest n (some ['@']) ts
    | t => parseTest n none (t :: ts) := by
  cases t <;> first
    | rfl
    | (rcases ts with _ | ⟨u, ts⟩ <;> first | rfl | (cases u <;> rfl))

/-- The form of a primary expression by its first tokens. -/
theorem parsePrimary_cases (n t ts) : parsePrimary (n + 1) (t :: ts) = match t with
    | .dollar => parseVar ts
    | .literal s => .ok (.lit s, ts)
    | .float f => .ok (.float f, ts)
    | .integer k => .ok (.int k, ts)
    | .funcName f => parseCall n none f ts
    | .ncname p => match ts with
      | .colon :: .funcName f :: ts' => parseCall n (some p) f ts'
      | ts => .error (.syntax (.ncname p :: ts))
    | .openParen => bindP (parseExpr n 0 ts) afterParen
    | t => .error (.syntax (t :: ts)) := by
  cases t <;> first
    | rfl
    | exact parsePrimary_paren n ts
    | (rcases ts with _ | ⟨u, _ | ⟨w, ts⟩⟩
       · rfl
       · cases u <;> rfl
       · cases u <;> first | rfl | (cases w <;> rfl))

/-! ### no function gives back more tokens than it got -/

structure Len (n : Nat) : Prop where
  expr : ∀ m ts, resLen (parseExpr n m ts) ≤ ts.length
  loop : ∀ m l ts, resLen (parseLoop n m l ts) ≤ ts.length
  pfx : ∀ ts, resLen (parsePrefix n ts) ≤ ts.length
  path : ∀ ts, resLen (parsePath n ts) ≤ ts.length
  fpath : ∀ ts, resLen (parseFPath n ts) ≤ ts.length
  rel : ∀ ts, resLen (parseRel n ts) ≤ ts.length
  relLoop : ∀ l ts, resLen (parseRelLoop n l ts) ≤ ts.length
  step : ∀ ts, resLen (parseStep n ts) ≤ ts.length
  test : ∀ ax ts, resLen (parseTest n ax ts) ≤ ts.length
  preds : ∀ ts, resLen (parsePreds n ts) ≤ ts.length
  filter : ∀ ts, resLen (parseFilter n ts) ≤ ts.length
  prim : ∀ ts, resLen (parsePrimary n ts) ≤ ts.length
  call : ∀ p f ts, resLen (parseCall n p f ts) ≤ ts.length
  args : ∀ ts, resLen (parseArgs n ts) ≤ ts.length

theorem len_zero : Len 0 := by
  constructor <;> intros <;> simp [parseExpr, parseLoop, parsePrefix, parsePath, parseFPath, parseRel,
    parseRelLoop, parseStep, parseTest, parsePreds, parseFilter, parsePrimary, parseCall, parseArgs, resLen]

theorem len_nodeTest (ts) : resLen (parseNodeTest ts) ≤ ts.length := by
  unfold parseNodeTest
  repeat' split
  all_goals simp only [resLen, List.length_cons] at * <;> omega

theorem len_var (ts) : resLen (parseVar ts) ≤ ts.length := by
  unfold parseVar
  repeat' split
  all_goals simp only [resLen, List.length_cons] at * <;> omega

section
variable {n : Nat} (ih : Len n)
include ih

theorem len_afterFilter (f ts) : resLen (afterFilter n f ts) ≤ ts.length := by
  unfold afterFilter
  split
  · exact Nat.le_trans (resLen_bind (ih.rel _) (fun _ _ h => h)) (by simp)
  · exact Nat.le_trans (resLen_bind (ih.rel _) (fun _ _ h => h)) (by simp)
  · exact Nat.le_refl _

theorem len_afterPred (p ts) : resLen (afterPred n p ts) ≤ ts.length := by
  unfold afterPred
  split
  · exact Nat.le_trans (resLen_bind (ih.preds _) (fun _ _ h => h)) (by simp)
  · exact Nat.le_refl _

theorem len_afterArg (p ts) : resLen (afterArg n p ts) ≤ ts.length := by
  unfold afterArg
  split
  · exact Nat.le_trans (resLen_bind (ih.args _) (fun _ _ h => h)) (by simp)
  · exact Nat.le_refl _

omit ih in
theorem len_afterParen (p ts) : resLen (afterParen p ts) ≤ ts.length := by
  unfold afterParen
  split <;> simp [resLen]

omit ih in
theorem len_afterArgs (p f as ts) : resLen (afterArgs p f as ts) ≤ ts.length := by
  unfold afterArgs
  split <;> simp [resLen]

theorem len_succ : Len (n + 1) where
  expr := fun m ts => by
    rw [parseExpr_bind]
    exact resLen_bind (ih.pfx ts) (fun v r h => Nat.le_trans (ih.loop _ _ _) h)
  loop := fun m l ts => by
    cases ts with
    | nil => simp [parseLoop, resLen]
    | cons t ts =>
      rw [parseLoop_bind]
      cases binTok t with
      | none => exact Nat.le_refl _
      | some op =>
        dsimp only
        split
        · exact Nat.le_trans (resLen_bind (ih.expr _ _) (fun v r h => Nat.le_trans (ih.loop _ _ _) h)) (by simp)
        · exact Nat.le_refl _
  pfx := fun ts => by
    cases ts with
    | nil => exact ih.path []
    | cons t ts =>
      by_cases h : t = .minusOp
      · subst h
        rw [parsePrefix_minus]
        exact Nat.le_trans (resLen_bind (ih.expr _ _) (fun v r h => h)) (by simp)
      · rw [parsePrefix_other _ _ _ h]; exact ih.path _
  path := fun ts => by
    cases ts with
    | nil => exact (by rw [parsePath] <;> first | (split; exact ih.fpath []; exact ih.rel []) | simp)
    | cons t ts =>
      by_cases h1 : t = .pathSep
      · subst h1
        rw [parsePath_sep]
        split
        · exact Nat.le_trans (resLen_bind (ih.rel _) (fun v r h => h)) (by simp)
        · simp [resLen]
      · by_cases h2 : t = .abbrevPathSep
        · subst h2
          rw [parsePath_abbrev]
          exact Nat.le_trans (resLen_bind (ih.rel _) (fun v r h => h)) (by simp)
        · rw [parsePath_other _ _ _ h1 h2]
          split
          · exact ih.fpath _
          · exact ih.rel _
  fpath := fun ts => by
    rw [parseFPath_bind]
    exact resLen_bind (ih.filter ts) (fun v r h => Nat.le_trans (len_afterFilter ih _ _) h)
  rel := fun ts => by
    rw [parseRel_bind]
    exact resLen_bind (ih.step ts) (fun v r h => Nat.le_trans (ih.relLoop _ _) h)
  relLoop := fun l ts => by
    cases ts with
    | nil => simp [parseRelLoop, resLen]
    | cons t ts =>
      by_cases h1 : t = .pathSep
      · subst h1
        rw [parseRelLoop_sep]
        exact Nat.le_trans (resLen_bind (ih.step _) (fun v r h => Nat.le_trans (ih.relLoop _ _) h)) (by simp)
      · by_cases h2 : t = .abbrevPathSep
        · subst h2
          rw [parseRelLoop_abbrev]
          exact Nat.le_trans (resLen_bind (ih.step _) (fun v r h => Nat.le_trans (ih.relLoop _ _) h)) (by simp)
        · rw [parseRelLoop_other _ _ _ _ h1 h2]; exact Nat.le_refl _
  step := fun ts => by
    cases ts with
    | nil => exact ih.test none []
    | cons t ts =>
      rw [parseStep_cases]
      split
      · simp [resLen]
      · simp [resLen]
      · split
        · rename_i a _ ts'
          have := ih.test (some a) ts'
          simp; omega
        · simp [resLen]
      · have := ih.test (some ['@']) ts
        simp; omega
      · exact ih.test _ _
  test := fun ax ts => by
    rw [parseTest_bind]
    exact resLen_bind (len_nodeTest ts) (fun v r h => resLen_bind (Nat.le_trans (ih.preds r) h) (fun _ _ h => h))
  preds := fun ts => by
    cases ts with
    | nil => simp [parsePreds, resLen]
    | cons t ts =>
      by_cases h : t = .openBracket
      · subst h
        rw [parsePreds_open]
        exact Nat.le_trans (resLen_bind (ih.expr _ _) (fun v r h => Nat.le_trans (len_afterPred ih _ _) h)) (by simp)
      · rw [parsePreds_other _ _ _ h]; exact Nat.le_refl _
  filter := fun ts => by
    rw [parseFilter_bind]
    exact resLen_bind (ih.prim ts) (fun v r h => resLen_bind (Nat.le_trans (ih.preds r) h) (fun _ _ h => h))
  prim := fun ts => by
    cases ts with
    | nil => simp [parsePrimary, resLen]
    | cons t ts =>
      rw [parsePrimary_cases]
      split
      · have := len_var ts
        simp; omega
      · simp [resLen]
      · simp [resLen]
      · simp [resLen]
      · rename_i f
        have := ih.call none f ts
        simp; omega
      · split
        · rename_i p _ f ts'
          have := ih.call (some p) f ts'
          simp; omega
        · simp [resLen]
      · exact Nat.le_trans (resLen_bind (ih.expr _ _) (fun v r h => Nat.le_trans (len_afterParen _ _) h)) (by simp)
      · simp [resLen]
  call := fun p f ts => by
    cases ts with
    | nil => simp [parseCall, resLen]
    | cons t ts =>
      by_cases h : t = .openParen
      · subst h
        by_cases h2 : ∃ r, ts = .closeParen :: r
        · obtain ⟨r, rfl⟩ := h2
          simp [parseCall, resLen]; omega
        · rw [parseCall_args _ _ _ _ (fun r hr => h2 ⟨r, hr⟩)]
          exact Nat.le_trans (resLen_bind (ih.args _) (fun v r h => Nat.le_trans (len_afterArgs _ _ _ _) h)) (by simp)
      · rw [parseCall_other _ _ _ _ _ h]; simp [resLen]
  args := fun ts => by
    rw [parseArgs_bind]
    exact resLen_bind (ih.expr 0 ts) (fun v r h => Nat.le_trans (len_afterArg ih _ _) h)

end

theorem len : ∀ n, Len n
  | 0 => len_zero
  | n + 1 => len_succ (len n)

/-! ### locality -/

/-- The outcome `a` on an input that ends in `x` is that on the input with `x'` in its place, if it stops before `x`. -/
inductive Loc {α} (x x' : List Tok) : PRes α → PRes α → Prop
  | short {a b} : resLen a ≤ x.length → Loc x x' a b
  | ok (v : α) (q : List Tok) : q ≠ [] → Loc x x' (.ok (v, q ++ x)) (.ok (v, q ++ x'))
  | err (q : List Tok) : q ≠ [] → Loc x x' (.error (.syntax (q ++ x))) (.error (.syntax (q ++ x')))

variable {x x' : List Tok}

theorem Loc.bind {α β} {a b : PRes α} {k : α → List Tok → PRes β} (h : Loc x x' a b) (hl : ∀ v r, resLen (k v r) ≤ r.length)
    (hk : ∀ v q, q ≠ [] → Loc x x' (k v (q ++ x)) (k v (q ++ x'))) : Loc x x' (bindP a k) (bindP b k) := by
  cases h with
  | short h => exact .short (resLen_bind h (fun v r hr => Nat.le_trans (hl v r) hr))
  | ok v q hq => exact hk v q hq
  | err q hq => exact .err q hq

/-- Nothing happens. -/
theorem Loc.okC {α} (v : α) (t : Tok) (q : List Tok) : Loc x x' (.ok (v, t :: (q ++ x))) (.ok (v, t :: (q ++ x'))) := .ok v (t :: q) (by simp)
theorem Loc.errC {α} (t : Tok) (q : List Tok) : Loc (α := α) x x' (.error (.syntax (t :: (q ++ x)))) (.error (.syntax (t :: (q ++ x')))) := .err (t :: q) (by simp)
theorem Loc.okQ {α} (v : α) (q : List Tok) : Loc x x' (.ok (v, q ++ x)) (.ok (v, q ++ x')) := by
  cases q with
  | nil => exact .short (by simp [resLen])
  | cons t q => exact .okC v t q
theorem Loc.errQ {α} (q : List Tok) : Loc (α := α) x x' (.error (.syntax (q ++ x))) (.error (.syntax (q ++ x'))) := by
  cases q with
  | nil => exact .short (by simp [resLen])
  | cons t q => exact .errC t q

theorem short_name (a : Str) (x : List Tok) : resLen (parseNodeTest (.ncname a :: x)) ≤ x.length := by
  rcases x with _ | ⟨b, _ | ⟨c, y⟩⟩
  · simp [parseNodeTest, resLen]
  · cases b <;> simp [parseNodeTest, resLen]
  · cases b <;> first | simp [parseNodeTest, resLen]; done | (cases c <;> simp [parseNodeTest, resLen] <;> omega)
theorem short_colon (a : Str) (x : List Tok) : resLen (parseNodeTest (.ncname a :: .colon :: x)) ≤ x.length := by
  rcases x with _ | ⟨c, y⟩
  · simp [parseNodeTest, resLen]
  · cases c <;> simp [parseNodeTest, resLen]
theorem short_type (a : Str) (x : List Tok) : resLen (parseNodeTest (.nodeType a :: x)) ≤ x.length := by
  rcases x with _ | ⟨b, _ | ⟨c, _ | ⟨d, y⟩⟩⟩
  · simp [parseNodeTest, resLen]
  · cases b <;> simp [parseNodeTest, resLen]
  · cases b <;> first | simp [parseNodeTest, resLen]; done | (cases c <;> simp [parseNodeTest, resLen])
  · cases b <;> first | simp [parseNodeTest, resLen]; done | skip
    cases c <;> first | (simp [parseNodeTest, resLen]; done) | (simp [parseNodeTest, resLen]; omega) | skip
    cases d <;> simp [parseNodeTest, resLen] <;> omega
theorem short_open (a : Str) (x : List Tok) : resLen (parseNodeTest (.nodeType a :: .openParen :: x)) ≤ x.length := by
  rcases x with _ | ⟨c, _ | ⟨d, y⟩⟩
  · simp [parseNodeTest, resLen]
  · cases c <;> simp [parseNodeTest, resLen]
  · cases c <;> first | (simp [parseNodeTest, resLen]; done) | skip
    cases d <;> simp [parseNodeTest, resLen] <;> omega
theorem short_lit (a s : Str) (x : List Tok) : resLen (parseNodeTest (.nodeType a :: .openParen :: .literal s :: x)) ≤ x.length := by
  rcases x with _ | ⟨d, y⟩
  · simp [parseNodeTest, resLen]
  · cases d <;> simp [parseNodeTest, resLen]
theorem short_vname (a : Str) (x : List Tok) : resLen (parseVar (.ncname a :: x)) ≤ x.length := by
  rcases x with _ | ⟨b, _ | ⟨c, y⟩⟩
  · simp [parseVar, resLen]
  · cases b <;> simp [parseVar, resLen]
  · cases b <;> first | simp [parseVar, resLen]; done | (cases c <;> simp [parseVar, resLen] <;> omega)
theorem short_vcolon (a : Str) (x : List Tok) : resLen (parseVar (.ncname a :: .colon :: x)) ≤ x.length := by
  rcases x with _ | ⟨c, y⟩
  · simp [parseVar, resLen]
  · cases c <;> simp [parseVar, resLen]

theorem loc_nodeTest (p) : Loc x x' (parseNodeTest (p ++ x)) (parseNodeTest (p ++ x')) := by
  rcases p with _ | ⟨a, p⟩
  · exact .short (len_nodeTest _)
  cases a <;> first | exact .errC _ _ | exact .okQ _ _ | skip
  case ncname a =>
    rcases p with _ | ⟨b, p⟩
    · refine .short ?_
      simp only [List.cons_append, List.nil_append]
      exact short_name _ _
    · cases b <;> first | exact .okC _ _ _ | skip
      rcases p with _ | ⟨c, p⟩
      · refine .short ?_
        simp only [List.cons_append, List.nil_append]
        exact short_colon _ _
      · cases c <;> first | exact .okQ _ _ | exact .errC _ _
  case nodeType a =>
    rcases p with _ | ⟨b, p⟩
    · refine .short ?_
      simp only [List.cons_append, List.nil_append]
      exact short_type _ _
    · cases b <;> first | exact .errC _ _ | skip
      rcases p with _ | ⟨c, p⟩
      · refine .short ?_
        simp only [List.cons_append, List.nil_append]
        exact short_open _ _
      · cases c <;> first | exact .okQ _ _ | exact .errC _ _ | skip
        rcases p with _ | ⟨d, p⟩
        · refine .short ?_
          simp only [List.cons_append, List.nil_append]
          exact short_lit _ _ _
        · cases d <;> first | exact .okQ _ _ | exact .errC _ _

theorem loc_var (p) : Loc x x' (parseVar (p ++ x)) (parseVar (p ++ x')) := by
  rcases p with _ | ⟨a, p⟩
  · exact .short (len_var _)
  cases a <;> first | exact .errC _ _ | skip
  case ncname a =>
    rcases p with _ | ⟨b, p⟩
    · refine .short ?_
      simp only [List.cons_append, List.nil_append]
      exact short_vname _ _
    · cases b <;> first | exact .okC _ _ _ | skip
      rcases p with _ | ⟨c, p⟩
      · refine .short ?_
        simp only [List.cons_append, List.nil_append]
        exact short_vcolon _ _
      · cases c <;> first | exact .okQ _ _ | exact .errC _ _

/-- A name at the start is consumed. -/
theorem name_consumed (n s r) : resLen (parseRel n (.ncname s :: r)) ≤ r.length ∧
    (startsFilter (.ncname s :: r) = true → resLen (parseFPath n (.ncname s :: r)) ≤ r.length) := by
  have ht : resLen (parseNodeTest (.ncname s :: r)) ≤ r.length := by
    unfold parseNodeTest
    repeat' split
    all_goals simp_all [resLen] <;> omega
  constructor
  · match n with
    | 0 => simp [parseRel, resLen]
    | 1 => simp [parseRel, parseStep, resLen]
    | 2 => simp [parseRel, parseStep, parseTest, resLen]
    | n + 3 =>
      rw [parseRel_bind, parseStep_cases]
      simp only
      rw [parseTest_bind]
      exact resLen_bind (resLen_bind ht (fun v r' h => resLen_bind (Nat.le_trans ((len _).preds r') h) (fun _ _ h => h)))
        (fun v r' h => Nat.le_trans ((len _).relLoop _ _) h)
  · intro hs
    rcases r with _ | ⟨t, _ | ⟨u, r⟩⟩
    · simp [startsFilter] at hs
    · cases t <;> simp [startsFilter] at hs
    cases t <;> first | simp [startsFilter] at hs; done | skip
    cases u <;> first | simp [startsFilter] at hs; done | skip
    rename_i f
    match n with
    | 0 => simp [parseFPath, resLen]
    | 1 => simp [parseFPath, parseFilter, resLen]
    | 2 => simp [parseFPath, parseFilter, parsePrimary, resLen]
    | n + 3 =>
      rw [parseFPath_bind, parseFilter_bind, parsePrimary_cases]
      simp only
      have h1 := (len n).call (some s) f r
      refine resLen_bind (resLen_bind (Nat.le_trans h1 (by simp; omega)) (fun v r' h => resLen_bind (Nat.le_trans ((len _).preds r') h) (fun _ _ h => h)))
        (fun v r' h => Nat.le_trans (len_afterFilter (len _) _ _) h)

/-- A name and a colon at the start are consumed. -/
theorem colon_consumed (n s r) : resLen (parseRel n (.ncname s :: .colon :: r)) ≤ r.length ∧
    (startsFilter (.ncname s :: .colon :: r) = true → resLen (parseFPath n (.ncname s :: .colon :: r)) ≤ r.length ∧
      resLen (parseFilter n (.ncname s :: .colon :: r)) ≤ r.length ∧ resLen (parsePrimary n (.ncname s :: .colon :: r)) ≤ r.length) := by
  have ht : resLen (parseNodeTest (.ncname s :: .colon :: r)) ≤ r.length := short_colon s r
  constructor
  · match n with
    | 0 => simp [parseRel, resLen]
    | 1 => simp [parseRel, parseStep, resLen]
    | 2 => simp [parseRel, parseStep, parseTest, resLen]
    | n + 3 =>
      rw [parseRel_bind, parseStep_cases]
      simp only
      rw [parseTest_bind]
      exact resLen_bind (resLen_bind ht (fun v r' h => resLen_bind (Nat.le_trans ((len _).preds r') h) (fun _ _ h => h)))
        (fun v r' h => Nat.le_trans ((len _).relLoop _ _) h)
  · intro hs
    rcases r with _ | ⟨u, r⟩
    · simp [startsFilter] at hs
    cases u <;> first | simp [startsFilter] at hs; done | skip
    rename_i f
    have hp : ∀ n, resLen (parsePrimary n (.ncname s :: .colon :: .funcName f :: r)) ≤ r.length := by
      intro n
      match n with
      | 0 => simp [parsePrimary, resLen]
      | n + 1 => rw [parsePrimary_cases]; exact (len n).call (some s) f r
    have hf : ∀ n, resLen (parseFilter n (.ncname s :: .colon :: .funcName f :: r)) ≤ r.length := by
      intro n
      match n with
      | 0 => simp [parseFilter, resLen]
      | n + 1 =>
        rw [parseFilter_bind]
        exact resLen_bind (hp n) (fun v r' h => resLen_bind (Nat.le_trans ((len _).preds r') h) (fun _ _ h => h))
    have hq : ∀ n, resLen (parseFPath n (.ncname s :: .colon :: .funcName f :: r)) ≤ r.length := by
      intro n
      match n with
      | 0 => simp [parseFPath, resLen]
      | n + 1 =>
        rw [parseFPath_bind]
        exact resLen_bind (hf n) (fun v r' h => Nat.le_trans (len_afterFilter (len _) _ _) h)
    exact ⟨Nat.le_trans (hq n) (by simp), Nat.le_trans (hf n) (by simp), Nat.le_trans (hp n) (by simp)⟩

/-- A name at the start of a filter expression is consumed. -/
theorem filter_consumed (n s r) (h : startsFilter (.ncname s :: r) = true) : resLen (parseFPath n (.ncname s :: r)) ≤ r.length ∧
      resLen (parseFilter n (.ncname s :: r)) ≤ r.length ∧ resLen (parsePrimary n (.ncname s :: r)) ≤ r.length := by
  rcases r with _ | ⟨t, r⟩
  · simp [startsFilter] at h
  cases t <;> first | simp [startsFilter] at h; done | skip
  obtain ⟨h1, h2, h3⟩ := (colon_consumed n s r).2 h
  exact ⟨Nat.le_trans h1 (by simp), Nat.le_trans h2 (by simp), Nat.le_trans h3 (by simp)⟩

structure Local (x x' : List Tok) (n : Nat) : Prop where
  expr : ∀ m p, Loc x x' (parseExpr n m (p ++ x)) (parseExpr n m (p ++ x'))
  loop : ∀ m l p, Loc x x' (parseLoop n m l (p ++ x)) (parseLoop n m l (p ++ x'))
  pfx : ∀ p, Loc x x' (parsePrefix n (p ++ x)) (parsePrefix n (p ++ x'))
  path : ∀ p, Loc x x' (parsePath n (p ++ x)) (parsePath n (p ++ x'))
  fpath : ∀ p, startsFilter (p ++ x) = true → Loc x x' (parseFPath n (p ++ x)) (parseFPath n (p ++ x'))
  rel : ∀ p, Loc x x' (parseRel n (p ++ x)) (parseRel n (p ++ x'))
  relLoop : ∀ l p, Loc x x' (parseRelLoop n l (p ++ x)) (parseRelLoop n l (p ++ x'))
  step : ∀ p, Loc x x' (parseStep n (p ++ x)) (parseStep n (p ++ x'))
  test : ∀ ax p, Loc x x' (parseTest n ax (p ++ x)) (parseTest n ax (p ++ x'))
  preds : ∀ p, Loc x x' (parsePreds n (p ++ x)) (parsePreds n (p ++ x'))
  filter : ∀ p, startsFilter (p ++ x) = true → Loc x x' (parseFilter n (p ++ x)) (parseFilter n (p ++ x'))
  prim : ∀ p, startsFilter (p ++ x) = true → Loc x x' (parsePrimary n (p ++ x)) (parsePrimary n (p ++ x'))
  call : ∀ f g p, Loc x x' (parseCall n f g (p ++ x)) (parseCall n f g (p ++ x'))
  args : ∀ p, Loc x x' (parseArgs n (p ++ x)) (parseArgs n (p ++ x'))

theorem local_zero : Local x x' 0 := by
  constructor <;> intros <;> exact .short (by simp [parseExpr, parseLoop, parsePrefix, parsePath, parseFPath, parseRel,
    parseRelLoop, parseStep, parseTest, parsePreds, parseFilter, parsePrimary, parseCall, parseArgs, resLen])

section
variable {n : Nat} (ih : Local x x' n)
include ih

theorem loc_afterFilter (f q) : Loc x x' (afterFilter n f (q ++ x)) (afterFilter n f (q ++ x')) := by
  rcases q with _ | ⟨t, q⟩
  · exact .short (len_afterFilter (len n) _ _)
  cases t <;> first
    | exact .okC _ _ _
    | exact (ih.rel q).bind (fun v r => Nat.le_refl _) (fun v q hq => .ok _ _ hq)

theorem loc_afterPred (f q) : Loc x x' (afterPred n f (q ++ x)) (afterPred n f (q ++ x')) := by
  rcases q with _ | ⟨t, q⟩
  · exact .short (len_afterPred (len n) _ _)
  cases t <;> first
    | exact .errC _ _
    | exact (ih.preds q).bind (fun v r => Nat.le_refl _) (fun v q hq => .ok _ _ hq)

theorem loc_afterArg (f q) : Loc x x' (afterArg n f (q ++ x)) (afterArg n f (q ++ x')) := by
  rcases q with _ | ⟨t, q⟩
  · exact .short (len_afterArg (len n) _ _)
  cases t <;> first
    | exact .okC _ _ _
    | exact (ih.args q).bind (fun v r => Nat.le_refl _) (fun v q hq => .ok _ _ hq)

omit ih in
theorem loc_afterParen (f q) : Loc x x' (afterParen f (q ++ x)) (afterParen f (q ++ x')) := by
  rcases q with _ | ⟨t, q⟩
  · exact .short (len_afterParen _ _)
  cases t <;> first | exact .errC _ _ | exact .okQ _ _

omit ih in
theorem loc_afterArgs (p f as q) : Loc x x' (afterArgs p f as (q ++ x)) (afterArgs p f as (q ++ x')) := by
  rcases q with _ | ⟨t, q⟩
  · exact .short (len_afterArgs _ _ _ _)
  cases t <;> first | exact .errC _ _ | exact .okQ _ _

theorem local_succ : Local x x' (n + 1) where
  expr := fun m p => by
    rw [parseExpr_bind, parseExpr_bind]
    exact (ih.pfx p).bind (fun v r => (len _).loop _ _ _) (fun v q _ => ih.loop _ _ _)
  loop := fun m l p => by
    rcases p with _ | ⟨t, p⟩
    · exact .short ((len _).loop _ _ _)
    rw [List.cons_append, List.cons_append, parseLoop_bind, parseLoop_bind]
    cases binTok t with
    | none => exact .okC _ _ _
    | some op =>
      dsimp only
      split
      · exact (ih.expr _ _).bind (fun v r => (len _).loop _ _ _) (fun v q _ => ih.loop _ _ _)
      · exact .okC _ _ _
  pfx := fun p => by
    rcases p with _ | ⟨t, p⟩
    · exact .short ((len _).pfx _)
    rw [List.cons_append, List.cons_append]
    by_cases h : t = .minusOp
    · subst h
      rw [parsePrefix_minus, parsePrefix_minus]
      exact (ih.expr _ _).bind (fun v r => Nat.le_refl _) (fun v q hq => .ok _ _ hq)
    · rw [parsePrefix_other _ _ _ h, parsePrefix_other _ _ _ h]
      exact ih.path (t :: p)
  path := fun p => by
    rcases p with _ | ⟨t, p⟩
    · exact .short ((len _).path _)
    rw [List.cons_append, List.cons_append]
    by_cases h1 : t = .pathSep
    · subst h1
      rcases p with _ | ⟨u, p⟩
      · refine .short ?_
        rw [List.nil_append, parsePath_sep]
        split
        · exact resLen_bind ((len n).rel x) (fun v r h => h)
        · exact Nat.le_refl _
      · rw [parsePath_sep, parsePath_sep]
        have hs : startsStep ((u :: p) ++ x) = startsStep ((u :: p) ++ x') := by cases u <;> rfl
        rw [hs]
        split
        · exact (ih.rel _).bind (fun v r => Nat.le_refl _) (fun v q hq => .ok _ _ hq)
        · exact .okQ _ _
    · by_cases h2 : t = .abbrevPathSep
      · subst h2
        rw [parsePath_abbrev, parsePath_abbrev]
        exact (ih.rel _).bind (fun v r => Nat.le_refl _) (fun v q hq => .ok _ _ hq)
      · rw [parsePath_other _ _ _ h1 h2, parsePath_other _ _ _ h1 h2]
        by_cases h3 : ∃ s, t = .ncname s
        · obtain ⟨s, rfl⟩ := h3
          rcases p with _ | ⟨u, p⟩
          · refine .short ?_
            split
            · rename_i h; exact (name_consumed n s _).2 h
            · exact (name_consumed n s _).1
          · by_cases h4 : u = .colon
            · subst h4
              rcases p with _ | ⟨w, p⟩
              · -- the token after the colon is in `x`
                refine .short ?_
                simp only [List.nil_append, List.cons_append]
                split
                · rename_i h; exact ((colon_consumed n s _).2 h).1
                · exact (colon_consumed n s _).1
              · have hs : startsFilter (.ncname s :: ((.colon :: w :: p) ++ x)) = startsFilter (.ncname s :: ((.colon :: w :: p) ++ x')) := by cases w <;> rfl
                rw [← hs]
                split
                · rename_i h; exact ih.fpath (.ncname s :: .colon :: w :: p) h
                · exact ih.rel (.ncname s :: .colon :: w :: p)
            · have hs : startsFilter (.ncname s :: ((u :: p) ++ x)) = startsFilter (.ncname s :: ((u :: p) ++ x')) := by
                cases u <;> first | rfl | exact absurd rfl h4
              rw [← hs]
              split
              · rename_i h; exact ih.fpath (.ncname s :: u :: p) h
              · exact ih.rel (.ncname s :: u :: p)
        · have hs : startsFilter (t :: (p ++ x)) = startsFilter (t :: (p ++ x')) := by
            cases t <;> first | rfl | exact absurd ⟨_, rfl⟩ h3
          rw [← hs]
          split
          · rename_i h; exact ih.fpath (t :: p) h
          · exact ih.rel (t :: p)
  fpath := fun p hs => by
    rw [parseFPath_bind, parseFPath_bind]
    exact (ih.filter p hs).bind (fun v r => len_afterFilter (len _) _ _) (fun v q _ => loc_afterFilter ih _ _)
  rel := fun p => by
    rw [parseRel_bind, parseRel_bind]
    exact (ih.step p).bind (fun v r => (len _).relLoop _ _) (fun v q _ => ih.relLoop _ _)
  relLoop := fun l p => by
    rcases p with _ | ⟨t, p⟩
    · exact .short ((len _).relLoop _ _)
    rw [List.cons_append, List.cons_append]
    by_cases h1 : t = .pathSep
    · subst h1
      rw [parseRelLoop_sep, parseRelLoop_sep]
      exact (ih.step p).bind (fun v r => (len _).relLoop _ _) (fun v q _ => ih.relLoop _ _)
    · by_cases h2 : t = .abbrevPathSep
      · subst h2
        rw [parseRelLoop_abbrev, parseRelLoop_abbrev]
        exact (ih.step p).bind (fun v r => (len _).relLoop _ _) (fun v q _ => ih.relLoop _ _)
      · rw [parseRelLoop_other _ _ _ _ h1 h2, parseRelLoop_other _ _ _ _ h1 h2]; exact .okC _ _ _
  step := fun p => by
    rcases p with _ | ⟨t, p⟩
    · exact .short ((len _).step _)
    rw [List.cons_append, List.cons_append, parseStep_cases, parseStep_cases]
    cases t <;> first
      | exact .okQ _ _
      | exact ih.test _ _
      | exact ih.test none (_ :: p)
      | skip
    rename_i a
    rcases p with _ | ⟨u, p⟩
    · refine .short ?_
      simp only [List.nil_append]
      split
      · rename_i ts'
        have := (len n).test (some a) ts'
        simp; omega
      · simp [resLen]
    · cases u <;> first
        | exact .errC _ _
        | exact ih.test _ _
  test := fun ax p => by
    rw [parseTest_bind, parseTest_bind]
    exact (loc_nodeTest p).bind (fun v r => resLen_bind ((len _).preds r) (fun _ _ h => h))
      (fun v q _ => (ih.preds q).bind (fun v r => Nat.le_refl _) (fun v q hq => .ok _ _ hq))
  preds := fun p => by
    rcases p with _ | ⟨t, p⟩
    · exact .short ((len _).preds _)
    rw [List.cons_append, List.cons_append]
    by_cases h : t = .openBracket
    · subst h
      rw [parsePreds_open, parsePreds_open]
      exact (ih.expr _ _).bind (fun v r => len_afterPred (len _) _ _) (fun v q _ => loc_afterPred ih _ _)
    · rw [parsePreds_other _ _ _ h, parsePreds_other _ _ _ h]; exact .okC _ _ _
  filter := fun p hs => by
    rw [parseFilter_bind, parseFilter_bind]
    exact (ih.prim p hs).bind (fun v r => resLen_bind ((len _).preds r) (fun _ _ h => h))
      (fun v q _ => (ih.preds q).bind (fun v r => Nat.le_refl _) (fun v q hq => .ok _ _ hq))
  prim := fun p hs => by
    rcases p with _ | ⟨t, p⟩
    · exact .short ((len _).prim _)
    by_cases hn : ∃ s, t = .ncname s
    · obtain ⟨s, rfl⟩ := hn
      rcases p with _ | ⟨u, p⟩
      · exact .short (filter_consumed _ s x hs).2.2
      cases u <;> first | simp [startsFilter] at hs; done | skip
      rcases p with _ | ⟨w, p⟩
      · exact .short ((colon_consumed _ s x).2 hs).2.2
      cases w <;> first | simp [startsFilter] at hs; done | skip
      exact ih.call _ _ _
    rw [List.cons_append, List.cons_append, parsePrimary_cases, parsePrimary_cases]
    cases t <;> first
      | exact .okQ _ _
      | exact .errC _ _
      | exact loc_var p
      | exact ih.call _ _ _
      | exact (ih.expr 0 p).bind (fun v r => len_afterParen _ _) (fun v q _ => loc_afterParen _ _)
      | exact absurd ⟨_, rfl⟩ hn
  call := fun f g p => by
    rcases p with _ | ⟨t, p⟩
    · exact .short ((len _).call _ _ _)
    rw [List.cons_append, List.cons_append]
    by_cases h : t = .openParen
    · subst h
      rcases p with _ | ⟨u, p⟩
      · refine .short ?_
        rw [List.nil_append]
        by_cases h2 : ∃ r, x = .closeParen :: r
        · obtain ⟨r, rfl⟩ := h2
          simp [parseCall, resLen]
        · rw [parseCall_args _ _ _ _ (fun r hr => h2 ⟨r, hr⟩)]
          exact resLen_bind ((len _).args _) (fun v r h => Nat.le_trans (len_afterArgs _ _ _ _) h)
      · by_cases h2 : u = .closeParen
        · subst h2; exact .okQ _ _
        · rw [parseCall_args _ _ _ _ (fun r hr => h2 (by cases hr; rfl)), parseCall_args _ _ _ _ (fun r hr => h2 (by cases hr; rfl))]
          exact (ih.args (u :: p)).bind (fun v r => len_afterArgs _ _ _ _) (fun v q _ => loc_afterArgs _ _ _ _)
    · rw [parseCall_other _ _ _ _ _ h, parseCall_other _ _ _ _ _ h]; exact .errC _ _
  args := fun p => by
    rw [parseArgs_bind, parseArgs_bind]
    exact (ih.expr 0 p).bind (fun v r => len_afterArg (len _) _ _) (fun v q _ => loc_afterArg ih _ _)

end

end XPath
