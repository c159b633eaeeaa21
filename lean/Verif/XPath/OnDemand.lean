import Verif.XPath.ParserViable
import Verif.XPath.LexLemmas
/-
The module's lexer as it is used: one object with the rest of the input and `last`, from which tokens are taken one at
a time (PLY's `Lexer.token`, `LexerWrapper.token` and `peek`, eulxml/xpath/core.py:83-116), shared by all calls of
`parse` (core.py:149-154) in all threads.
-/
namespace XPath

/-- What taking a token gives: end of input, an error with the rest where the lexer stands, or a token and the rest. -/
inductive LexStep where
  | eof
  | error (rest : Str)
  | tok (t : Tok) (rest : Str)
  deriving DecidableEq, Repr

/-- PLY's `Lexer.token`: skip ignored characters, match one token. -/
def rawNext (s : Str) : LexStep := match s.dropWhile isWs with
  | [] => .eof
  | c :: cs => match rawTok (c :: cs) with
    | none => .error (c :: cs)
    | some (t, r) => .tok t r

/-- `LexerWrapper.token` (core.py:84-112) with `self.last = last`; `peek` (114-116) is `token` of a clone, that is with the same `last` and the input
behind the name.  (PLY's position is an index; here it is the rest of the input.) -/
def tokenN : Nat → Option Tok → Str → LexStep
  | 0, _, s => .error s
  | n + 1, last, s => match rawNext s with
    | .tok .starOp r => .tok (if blocked last then .multOp else .starOp) r
    | .tok (.ncname x) r =>
      if blocked last then .tok ((operatorName x).getD (.ncname x)) r
      else match tokenN n last r with
        | .error _ => .error r
        | .eof => .tok (.ncname x) r
        | .tok t _ => .tok (nameByNext x (some t)) r
    | st => st

/-- `token` with enough fuel: every peek starts behind a name. -/
def token (last : Option Tok) (s : Str) : LexStep := tokenN (s.length + 1) last s

theorem rawLex_next (s : Str) : rawLex s = match rawNext s with
    | .eof => ([], false)
    | .error _ => ([], true)
    | .tok t r => (t :: (rawLex r).1, (rawLex r).2) := by
  unfold rawNext
  have h : rawLex s = rawLex (s.dropWhile isWs) := by
    conv_lhs => rw [← List.takeWhile_append_dropWhile (p := isWs) (l := s)]
    exact rawLex_wss (fun c hc => by have := List.all_takeWhile (p := isWs) (l := s); rw [List.all_eq_true] at this; exact this c hc)
  rw [h]
  cases hd : s.dropWhile isWs with
  | nil => rfl
  | cons c cs =>
    have hc : isWs c = false := by
      have := List.head_dropWhile_not (p := isWs) (l := s) (by rw [hd]; simp)
      simpa [hd] using this
    dsimp only
    cases ht : rawTok (c :: cs) with
    | none => exact rawLex_none hc ht
    | some p => exact rawLex_tok hc ht

theorem rawNext_lt {s t r} (h : rawNext s = .tok t r) : r.length < s.length := by
  unfold rawNext at h
  have hl : (s.dropWhile isWs).length ≤ s.length := (List.dropWhile_sublist isWs).length_le
  cases hd : s.dropWhile isWs with
  | nil => rw [hd] at h; cases h
  | cons c cs =>
    rw [hd] at h hl
    dsimp only at h
    split at h
    · cases h
    · rename_i ht
      cases h
      exact Nat.lt_of_lt_of_le (rawTok_lt ht) hl

/-- Is the outcome an error? -/
def LexStep.isError : LexStep → Bool
  | .error _ => true
  | _ => false

/-- The type of the token, as far as `peek` needs it. -/
def LexStep.next : LexStep → Option Tok
  | .tok t _ => some t
  | _ => none

theorem nameByNext_congr (x : Str) (t u : Tok) (h1 : t = .openParen ↔ u = .openParen) (h2 : t = .axisSep ↔ u = .axisSep) :
    nameByNext x (some t) = nameByNext x (some u) := by
  cases t <;> cases u <;> first | rfl | simp at h1 h2

/-- What `peek` finds, if `last` does not force an operator. -/
theorem peek_spec {last : Option Tok} (hb : blocked last = false) : ∀ (n : Nat) (s : Str), s.length < n →
    ((tokenN n last s).isError = peekErr (rawLex s).1 (rawLex s).2) ∧
    (tokenN n last s = .eof ↔ rawNext s = .eof) ∧
    (∀ t r, tokenN n last s = .tok t r → ∃ u, rawNext s = .tok u r ∧ (t = .openParen ↔ u = .openParen) ∧ (t = .axisSep ↔ u = .axisSep)) := by
  intro n
  induction n with
  | zero => intro s h; omega
  | succ n ih =>
    intro s hs
    rw [tokenN, rawLex_next]
    cases hr : rawNext s with
    | eof => simp [LexStep.isError, peekErr]
    | error r => simp [LexStep.isError, peekErr]
    | tok t r =>
      have hlt := rawNext_lt hr
      by_cases hstar : t = .starOp
      · subst hstar
        simp [hb, LexStep.isError, peekErr]
      · by_cases hn : ∃ x, t = .ncname x
        · obtain ⟨x, rfl⟩ := hn
          obtain ⟨h1, h2, h3⟩ := ih r (by omega)
          simp only [hb, Bool.false_eq_true, if_false, peekErr]
          cases hk : tokenN n last r with
          | eof => rw [hk] at h1; simp [LexStep.isError, ← h1]
          | error r' => rw [hk] at h1; simp [LexStep.isError, ← h1]
          | tok u r' =>
            rw [hk] at h1
            refine ⟨by simp [LexStep.isError, ← h1], by simp, ?_⟩
            intro t' r'' h
            injection h with e1 e2
            subst e1 e2
            refine ⟨_, rfl, ?_, ?_⟩ <;> (unfold nameByNext; repeat' split) <;> simp
        · have e : (match LexStep.tok t r with
              | .tok .starOp r => LexStep.tok (if blocked last then .multOp else .starOp) r
              | .tok (.ncname x) r =>
                if blocked last then .tok ((operatorName x).getD (.ncname x)) r
                else match tokenN n last r with
                  | .error _ => .error r
                  | .eof => .tok (.ncname x) r
                  | .tok t _ => .tok (nameByNext x (some t)) r
              | st => st) = .tok t r := by
            cases t <;> first | rfl | exact absurd rfl hstar | exact absurd ⟨_, rfl⟩ hn
          rw [e]
          refine ⟨?_, by simp, ?_⟩
          · cases t <;> first | rfl | exact absurd ⟨_, rfl⟩ hn
          · intro t' r' h
            injection h with e1 e2
            subst e1 e2
            exact ⟨t, rfl, Iff.rfl, Iff.rfl⟩

/-- Taking tokens on demand gives the tokens of `lex`. -/
theorem lex_token (last : Option Tok) (s : Str) : lex last s = match token last s with
    | .eof => ([], false)
    | .error _ => ([], true)
    | .tok t r => (t :: (lex (some t) r).1, (lex (some t) r).2) := by
  unfold lex
  rw [token, tokenN, rawLex_next]
  cases hr : rawNext s with
  | eof => rfl
  | error r => rfl
  | tok t r =>
    have hlt := rawNext_lt hr
    by_cases hstar : t = .starOp
    · subst hstar; simp only [classify]
    · by_cases hn : ∃ x, t = .ncname x
      · obtain ⟨x, rfl⟩ := hn
        simp only [classify]
        cases hb : blocked last with
        | true => simp
        | false =>
          obtain ⟨h1, h2, h3⟩ := peek_spec hb s.length r hlt
          simp only [Bool.false_eq_true, if_false]
          cases hk : tokenN s.length last r with
          | eof =>
            rw [hk] at h1 h2
            have := h2.mp rfl
            have hrl : rawLex r = ([], false) := by rw [rawLex_next, this]
            simp [hrl, peekErr, nameByNext]
          | error r' =>
            rw [hk] at h1
            rw [← h1]
            simp [LexStep.isError]
          | tok u r' =>
            rw [hk] at h1 h3
            obtain ⟨w, hw, g1, g2⟩ := h3 u r' rfl
            have hrl : (rawLex r).1.head? = some w := by rw [rawLex_next, hw]; rfl
            rw [← h1, hrl, ← nameByNext_congr x u w g1 g2]
            simp [LexStep.isError]
      · have e : ∀ err, classify last (t :: (rawLex r).1) err = (t :: (classify (some t) (rawLex r).1 err).1, (classify (some t) (rawLex r).1 err).2) := by
          intro err
          cases t <;> first | rfl | exact absurd rfl hstar | exact absurd ⟨_, rfl⟩ hn
        have e2 : (match LexStep.tok t r with
              | .tok .starOp r => LexStep.tok (if blocked last then .multOp else .starOp) r
              | .tok (.ncname x) r =>
                if blocked last then .tok ((operatorName x).getD (.ncname x)) r
                else match tokenN s.length last r with
                  | .error _ => .error r
                  | .eof => .tok (.ncname x) r
                  | .tok t _ => .tok (nameByNext x (some t)) r
              | st => st) = .tok t r := by
            cases t <;> first | rfl | exact absurd rfl hstar | exact absurd ⟨_, rfl⟩ hn
        rw [e2, e]

end XPath
