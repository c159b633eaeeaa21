import Verif.XPath.OnDemand
import Mathlib.Logic.Function.Basic
/-
Threads that call `parse` (eulxml/xpath/core.py:149-154): all of them use the lexer object of the module.  PLY's parser keeps its stacks in local
variables, so the lexer is all that is shared.  A call sets the lexer's input and then takes tokens one at a time, until the parser rejects one or the end
is reached.  Simplification: setting the input and taking one token are atomic.
-/
namespace XPath

/-- The module's lexer object: the rest of its input, and `last` (core.py:135). -/
structure LexObj where
  rest : Str
  last : Option Tok

/-- The last call of `parse` of a thread: none yet, running with the tokens that it received, or ended with a result. -/
inductive Call where
  | idle
  | running (got : List Tok)
  | done (r : Except PyErr Expr)

/-- The lexer and the threads. -/
structure World (τ : Type) where
  lexer : LexObj
  calls : τ → Call

/-- Does the parser reject the last of the tokens?  (An LALR(1) parser rejects a token as soon as no sentence starts with the tokens so far, see
`C79_first_bad_token`.) -/
def refused (ts : List Tok) : Bool := match parseToks ts with
  | .error (.syntax (_ :: _)) => true
  | _ => false

/-- One step of a thread: `lexer.input(s)` at the start of `parse(s)`, or `lexer.token()` and the work of the parser up to the next one. -/
inductive Ev (τ : Type) where
  | start (i : τ) (s : Str)
  | pull (i : τ)

/-- The effect of a step. -/
def Ev.run {τ} [DecidableEq τ] (w : World τ) : Ev τ → World τ
  | .start i s => ⟨⟨s, w.lexer.last⟩, Function.update w.calls i (.running [])⟩
  | .pull i => match w.calls i with
    | .running got => match token w.lexer.last w.lexer.rest with
      | .eof => ⟨⟨[], none⟩, Function.update w.calls i (.done (match parseToks got with
          | .ok e => .ok e
          | .error _ => .error .runtimeError))⟩
      | .error r => ⟨⟨r, w.lexer.last⟩, Function.update w.calls i (.done (.error .typeError))⟩
      | .tok t r => ⟨⟨r, some t⟩, Function.update w.calls i (if refused (got ++ [t]) then .done (.error .runtimeError) else .running (got ++ [t]))⟩
    | _ => w

/-- A schedule. -/
def runAll {τ} [DecidableEq τ] (w : World τ) (evs : List (Ev τ)) : World τ := evs.foldl Ev.run w

/-- At the start of the process. -/
def World.fresh (τ : Type) : World τ := ⟨⟨[], none⟩, fun _ => .idle⟩

/-! ### lemmas -/

/-- `parse` in terms of the outcome for the tokens. -/
def outcome (ts : List Tok) (err : Bool) (last : Option Tok) : Except PyErr Expr × Option Tok := match parseToks ts with
  | .error .fuel => (.error .runtimeError, none)
  | .error (.syntax (t :: _)) => (.error .runtimeError, some t)
  | .error (.syntax []) => if err then (.error .typeError, ts.getLast?.or last) else (.error .runtimeError, none)
  | .ok e => if err then (.error .typeError, ts.getLast?.or last) else (.ok e, none)

theorem parse_outcome (last : Option Tok) (s : Str) : parse last s = outcome (lex last s).1 (lex last s).2 last := by
  unfold parse outcome parseToks
  simp only
  generalize parseExpr _ _ _ = z
  rcases z with (_ | ⟨_ | ⟨t, r⟩⟩) | ⟨e', _ | ⟨t, r⟩⟩ <;> rfl

theorem parseToks_ne_fuel (ts : List Tok) : parseToks ts ≠ .error .fuel := by
  unfold parseToks
  have := parseExpr_ne_fuel ts
  generalize parseExpr _ _ _ = z at this ⊢
  rcases z with (_ | ⟨_ | ⟨t, r⟩⟩) | ⟨e', _ | ⟨t, r⟩⟩ <;> simp at this ⊢

/-- If no shorter sequence is rejected, the rejected token is the last one. -/
theorem refused_last {got : List Tok} {t : Tok} (h0 : refused got = false) (h : refused (got ++ [t]) = true) (r : List Tok) :
    parseToks (got ++ t :: r) = .error (.syntax (t :: r)) := by
  unfold refused at h
  split at h
  · rename_i u q he
    obtain ⟨p, hp, -⟩ := parseToks_viable he
    rcases List.eq_nil_or_concat q with rfl | ⟨q', u', rfl⟩
    · have := List.append_inj' hp rfl
      obtain ⟨rfl, h2⟩ := this
      cases h2
      exact parseToks_local he r
    · exfalso
      rw [List.concat_eq_append] at hp he
      have : got ++ [t] = (p ++ u :: q') ++ [u'] := by rw [hp]; simp
      have := (List.append_inj' this rfl).1
      rw [hp] at he
      have h2 := parseToks_local he q'
      rw [← this] at h2
      unfold refused at h0
      rw [h2] at h0
      cases h0
  · cases h

variable {τ : Type} [DecidableEq τ]

theorem runAll_append (w : World τ) (a b : List (Ev τ)) : runAll w (a ++ b) = runAll (runAll w a) b := List.foldl_append

theorem pulls_done {w : World τ} {i : τ} {r} (h : w.calls i = .done r) (n : Nat) : runAll w (List.replicate n (.pull i)) = w := by
  induction n with
  | zero => rfl
  | succ n ih =>
    have : Ev.run w (.pull i) = w := by simp [Ev.run, h]
    simp only [runAll, List.replicate_succ, List.foldl_cons, this]
    exact ih

/-- A call that is not disturbed ends with the outcome for all its tokens. -/
theorem pulls_run (i : τ) (last0 : Option Tok) : ∀ (n : Nat) (w : World τ) (got : List Tok), w.calls i = .running got → refused got = false →
    w.lexer.last = got.getLast?.or last0 → (lex w.lexer.last w.lexer.rest).1.length < n →
    let o := outcome (got ++ (lex w.lexer.last w.lexer.rest).1) (lex w.lexer.last w.lexer.rest).2 last0
    let w' := runAll w (List.replicate n (.pull i))
    w'.calls i = .done o.1 ∧ w'.lexer.last = o.2 ∧ ∀ j, j ≠ i → w'.calls j = w.calls j := by
  intro n
  induction n with
  | zero => intro w got _ _ _ h; omega
  | succ n ih =>
    intro w got hw hr hl hn
    simp only
    have hrun : runAll w (List.replicate (n + 1) (.pull i)) = runAll (Ev.run w (.pull i)) (List.replicate n (.pull i)) := rfl
    rw [hrun]
    have hlt := lex_token w.lexer.last w.lexer.rest
    cases ht : token w.lexer.last w.lexer.rest with
    | eof =>
      rw [ht] at hlt
      have he : Ev.run w (.pull i) = ⟨⟨[], none⟩, Function.update w.calls i (.done (match parseToks got with
          | .ok e => .ok e
          | .error _ => .error .runtimeError))⟩ := by simp [Ev.run, hw, ht]
      rw [he, pulls_done (i := i) (by simp; rfl), hlt]
      simp only [List.append_nil, Function.update_self]
      unfold outcome
      unfold refused at hr
      have hf := parseToks_ne_fuel got
      refine ⟨?_, ?_, fun j hj => Function.update_of_ne hj _ _⟩ <;>
      · revert hr hf
        rcases parseToks got with (_ | ⟨_ | ⟨t, r⟩⟩) | e <;> simp
    | error r =>
      rw [ht] at hlt
      have he : Ev.run w (.pull i) = ⟨⟨r, w.lexer.last⟩, Function.update w.calls i (.done (.error .typeError))⟩ := by simp [Ev.run, hw, ht]
      rw [he, pulls_done (i := i) (by simp; rfl), hlt]
      simp only [List.append_nil, Function.update_self]
      unfold outcome
      unfold refused at hr
      have hf := parseToks_ne_fuel got
      refine ⟨?_, ?_, fun j hj => Function.update_of_ne hj _ _⟩ <;>
      · revert hr hf
        rcases parseToks got with (_ | ⟨_ | ⟨t, r⟩⟩) | e <;> simp [hl]
    | tok t r =>
      rw [ht] at hlt
      have he : Ev.run w (.pull i) = ⟨⟨r, some t⟩, Function.update w.calls i
          (if refused (got ++ [t]) then .done (.error .runtimeError) else .running (got ++ [t]))⟩ := by simp [Ev.run, hw, ht]
      rw [he, hlt]
      simp only
      cases hrt : refused (got ++ [t]) with
      | true =>
        simp only [if_true]
        rw [pulls_done (i := i) (by simp; rfl)]
        unfold outcome
        rw [refused_last hr hrt]
        exact ⟨by simp, rfl, fun j hj => Function.update_of_ne hj _ _⟩
      | false =>
        simp only [Bool.false_eq_true, if_false]
        rw [hlt] at hn
        simp only [List.length_cons] at hn
        obtain ⟨h1, h2, h3⟩ := ih ⟨⟨r, some t⟩, Function.update w.calls i (.running (got ++ [t]))⟩ (got ++ [t]) (by simp) hrt (by simp) (by simp only; omega)
        simp only [List.append_assoc, List.cons_append, List.nil_append] at h1 h2 h3
        refine ⟨h1, h2, fun j hj => ?_⟩
        rw [h3 j hj]
        exact Function.update_of_ne hj _ _

/-- At most one token per character. -/
theorem lex_length : ∀ (n : Nat) (last : Option Tok) (s : Str), s.length ≤ n → (lex last s).1.length ≤ s.length := by
  intro n
  induction n with
  | zero =>
    intro last s h
    have : s = [] := List.length_eq_zero_iff.mp (by omega)
    subst this
    simp [lex, classify]
  | succ n ih =>
    intro last s h
    rw [lex_token]
    cases ht : token last s with
    | eof => simp
    | error r => simp
    | tok t r =>
      have hr : r.length < s.length := by
        unfold token tokenN at ht
        cases hn : rawNext s with
        | eof => rw [hn] at ht; cases ht
        | error r => rw [hn] at ht; cases ht
        | tok u r' =>
          have := rawNext_lt hn
          rw [hn] at ht
          have hrr : r = r' := by
            cases u <;> first | (injection ht with _ h; exact h.symm) | skip
            simp only at ht
            split at ht
            · injection ht with _ h; exact h.symm
            · split at ht
              · cases ht
              · injection ht with _ h; exact h.symm
              · injection ht with _ h; exact h.symm
          rw [hrr]; exact this
      have := ih (some t) r (by omega)
      simp only [List.length_cons]
      omega

end XPath
