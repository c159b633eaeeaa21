import Verif.XPath.Threads
import Verif.Props.XPathParse
/-
Properties C78 and C79: calls of `parse` in several threads; where syntax errors are reported.

Model: `Ev.run` (Verif/XPath/Threads.lean), on the lexer that gives tokens on demand (Verif/XPath/OnDemand.lean); `parse`.
Specification: `parse` called alone; the grammar `XPath.G`.
-/
namespace Props
open XPath G

/-! ### C78: threads -/

section
variable {τ : Type} [DecidableEq τ]

/-- C78.  Whatever the threads did before (`w` is any state of lexer and threads): a call `parse(s)` of thread `i` between whose start and end no other
thread touches the lexer ends, after at most one step per character and one more, with the result of `parse(s)` called alone in the same lexer state; it leaves
`last` as that call does, and does not change the other threads. -/
theorem C78_undisturbed (w : World τ) (i : τ) (s : Str) (n : Nat) (hn : s.length < n) :
    let w' := runAll w (.start i s :: List.replicate n (.pull i))
    w'.calls i = .done (parse w.lexer.last s).1 ∧ w'.lexer.last = (parse w.lexer.last s).2 ∧ ∀ j, j ≠ i → w'.calls j = w.calls j := by
  have hl := lex_length s.length w.lexer.last s le_rfl
  obtain ⟨h1, h2, h3⟩ := pulls_run i w.lexer.last n (Ev.run w (.start i s)) [] (by simp [Ev.run]) rfl (by simp [Ev.run])
    (by simp only [Ev.run]; omega)
  simp only [List.nil_append, Ev.run] at h1 h2 h3
  rw [← parse_outcome] at h1 h2
  refine ⟨h1, h2, fun j hj => ?_⟩
  have := h3 j hj
  rw [Function.update_of_ne hj] at this
  exact this

/-- The calls of a schedule in which each call ends before the next begins (as with a lock around `parse`): thread, argument, steps. -/
def blocks (calls : List (τ × Str × Nat)) : List (Ev τ) := calls.flatMap (fun c => .start c.1 c.2.1 :: List.replicate c.2.2 (.pull c.1))

/-- C78.  With a lock around `parse`, in every schedule, the lexer is in the state in which the same calls leave it in a single thread; -/
theorem C78_locked_state (calls : List (τ × Str × Nat)) (hn : ∀ c ∈ calls, c.2.1.length < c.2.2) (w : World τ) :
    (runAll w (blocks calls)).lexer.last = stateAfter w.lexer.last (calls.map (fun c => c.2.1)) := by
  induction calls generalizing w with
  | nil => rfl
  | cons c calls ih =>
    have hb : blocks (c :: calls) = (.start c.1 c.2.1 :: List.replicate c.2.2 (.pull c.1)) ++ blocks calls := by simp [blocks]
    rw [hb, runAll_append, ih (fun d hd => hn d (by simp [hd]))]
    rw [(C78_undisturbed w c.1 c.2.1 c.2.2 (hn c (by simp))).2.1]
    rfl

/-- and each call gives the result that it has after the same calls in a single thread (C06): in particular, if all calls before it succeeded, the result
that it has in a fresh process. -/
theorem C78_locked (before : List (τ × Str × Nat)) (hn : ∀ c ∈ before, c.2.1.length < c.2.2) (i : τ) (s : Str) (n : Nat) (hs : s.length < n) :
    (runAll (.fresh τ) (blocks (before ++ [(i, s, n)]))).calls i = .done (parse (stateAfter none (before.map (fun c => c.2.1))) s).1 := by
  have hb : blocks (before ++ [(i, s, n)]) = blocks before ++ (.start i s :: List.replicate n (.pull i)) := by simp [blocks]
  rw [hb, runAll_append, (C78_undisturbed _ i s n hs).1, C78_locked_state before hn]
  rfl

/-- A later call of another thread does not change the result. -/
theorem C78_keeps (w : World τ) (i : τ) (r : Except PyErr Expr) (h : w.calls i = .done r) (evs : List (Ev τ)) (he : ∀ ev ∈ evs, ∀ s, ev ≠ .start i s) :
    (runAll w evs).calls i = .done r := by
  induction evs generalizing w with
  | nil => exact h
  | cons ev evs ih =>
    refine ih (Ev.run w ev) ?_ (fun e hm => he e (by simp [hm]))
    cases ev with
    | start j s =>
      have hj : i ≠ j := fun hj => he (.start j s) (by simp) s (by rw [hj])
      simp only [Ev.run]
      rw [Function.update_of_ne hj]; exact h
    | pull j =>
      by_cases hj : i = j
      · subst hj
        simp [Ev.run, h]
      · simp only [Ev.run]
        split
        · split <;> (simp only; rw [Function.update_of_ne hj]; exact h)
        · exact h

end

/-- Two threads, a lock, a failing call in between. -/
example : (runAll (.fresh Bool) (blocks [(true, c%"a/b", 4), (false, c%"@x[", 5), (true, c%"//text()", 9)])).calls true
    = .done (parse none c%"//text()").1 := by
  rw [show [(true, c%"a/b", 4), (false, c%"@x[", 5), (true, c%"//text()", 9)] = [(true, c%"a/b", 4), (false, c%"@x[", 5)] ++ [(true, c%"//text()", 9)] from rfl]
  rw [C78_locked _ (by decide) true _ _ (by decide)]
  exact congrArg Call.done (by decide +kernel)

/-- Without a lock `parse` is not safe: here thread 0 calls `parse('a')`, thread 1 calls `parse('b')`, and thread 0 receives the expression `b` (and thread 1
an error). -/
theorem C78_counterexample_swapped : let w := runAll (.fresh Nat) [.start 0 c%"a", .start 1 c%"b", .pull 0, .pull 0, .pull 1]
    w.calls 0 = .done (.ok (.step none (.name none c%"b") [])) ∧ w.calls 1 = .done (.error .runtimeError) ∧
    (parse none c%"a").1 = .ok (.step none (.name none c%"a") []) := by
  have h1 : parseToks [.ncname c%"b"] = .ok (.step none (.name none c%"b") []) := by decide +kernel
  have h2 : refused [.ncname c%"b"] = false := by decide +kernel
  have h3 : token none c%"b" = .tok (.ncname c%"b") [] := by decide +kernel
  have h4 : token (some (.ncname c%"b")) [] = .eof := by decide +kernel
  have h5 : token none [] = .eof := by decide +kernel
  have h6 : parseToks [] = .error (.syntax []) := by decide +kernel
  refine ⟨?_, ?_, by decide +kernel⟩
  · simp [runAll, Ev.run, World.fresh, Function.update, h1, h2, h3, h4, h5]
  · simp [runAll, Ev.run, World.fresh, Function.update, h2, h3, h4, h5, h6]

/-! ### C79: where syntax errors are reported -/

/-- C79.  If `parse` raises a syntax error at a token (`RuntimeError`, with the token in its message), this is the first token that cannot be where it
is: some expression begins with the tokens before it, and none with these and the token. -/
theorem C79_first_bad_token (last : Option Tok) (s : Str) (t : Tok) (h : parse last s = (.error .runtimeError, some t)) :
    ∃ p r, (lex last s).1 = p ++ t :: r ∧ (∃ c : CExpr, p <+: c.toks) ∧ ∀ c : CExpr, ¬ (p ++ [t]) <+: c.toks := by
  rw [parse_outcome] at h
  unfold outcome at h
  split at h
  · cases h
  · rename_i u r he
    cases h
    obtain ⟨p, hp, c, d, hd⟩ := parseToks_viable he
    refine ⟨p, r, hp, ⟨d, c, hd.symm⟩, ?_⟩
    rintro d ⟨r', hr⟩
    rw [hp] at he
    exact parseToks_dead he r' ⟨d, by rw [← hr]; simp⟩
  · split at h <;> cases h
  · split at h <;> cases h

/-- C79.  If `parse` raises a syntax error at the end (`RuntimeError: Syntax error at 'None'`), the tokens of `s` are no expression, but some expression
begins with them: the input is incomplete. -/
theorem C79_incomplete (last : Option Tok) (s : Str) (h : parse last s = (.error .runtimeError, none)) :
    (lex last s).2 = false ∧ (∃ c : CExpr, (lex last s).1 <+: c.toks) ∧ ∀ c : CExpr, c.toks ≠ (lex last s).1 := by
  rw [parse_outcome] at h
  unfold outcome at h
  split at h
  · rename_i he; exact absurd he (parseToks_ne_fuel _)
  · cases h
  · rename_i he
    cases hl : (lex last s).2 with
    | true => rw [hl] at h; simp at h
    | false =>
      obtain ⟨p, hp, c, d, hd⟩ := parseToks_viable he
      rw [List.append_nil] at hp
      refine ⟨rfl, ⟨d, c, by rw [hp, hd]⟩, fun c hc => ?_⟩
      obtain ⟨e, he1, he2⟩ := norm_expr c
      have := parseToks_complete e he1
      rw [he2, hc, he] at this
      cases this
  · split at h <;> cases h

/-- C79.  If `parse` raises a lexical error (`TypeError`), the lexer found unknown text, and some expression begins with the tokens before it. -/
theorem C79_lexical (last : Option Tok) (s : Str) (h : (parse last s).1 = .error .typeError) :
    (lex last s).2 = true ∧ ∃ c : CExpr, (lex last s).1 <+: c.toks := by
  rw [parse_outcome] at h
  unfold outcome at h
  split at h
  · cases h
  · cases h
  · rename_i he
    split at h
    · rename_i hl
      obtain ⟨p, hp, c, d, hd⟩ := parseToks_viable he
      rw [List.append_nil] at hp
      exact ⟨hl, d, c, by rw [hp, hd]⟩
    · cases h
  · rename_i e he
    split at h
    · rename_i hl
      obtain ⟨c, -, hc, -⟩ := parseToks_sound he
      exact ⟨hl, c, [], by rw [hc]; simp⟩
    · cases h

/-- C79.  These are all outcomes. -/
theorem C79_outcomes (last : Option Tok) (s : Str) : (∃ e, parse last s = (.ok e, none)) ∨ (∃ t, parse last s = (.error .runtimeError, some t)) ∨
    parse last s = (.error .runtimeError, none) ∨ (parse last s).1 = .error .typeError := by
  rw [parse_outcome]
  unfold outcome
  split
  · simp
  · simp
  · split <;> simp
  · split <;> simp

/-- An error at the `]` of `a/b]`; at the end of `a/`; unknown text. -/
example : parse none c%"a/b]" = (.error .runtimeError, some .closeBracket) ∧ parse none c%"a/" = (.error .runtimeError, none) ∧
    (parse none c%"a/#").1 = .error .typeError := by decide +kernel

/-! ### C78 and C79 applied -/

example := C78_undisturbed (τ := Nat) ⟨⟨[], none⟩, fun _ => .idle⟩ 1 c%"a/b" 4 (by decide)
example := C78_locked_state (τ := Nat) [(1, c%"a/b", 9), (2, c%"div", 9)] (by decide) ⟨⟨[], none⟩, fun _ => .idle⟩
example := C79_first_bad_token none c%"a/b]" .closeBracket (by decide +kernel)
example := C79_incomplete none c%"a/" (by decide +kernel)
example := C79_lexical none c%"a/#" (by decide +kernel)

end Props
