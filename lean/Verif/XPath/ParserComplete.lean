import Verif.XPath.ParserSound
/-
Completeness of the parser model: every tree that respects the precedence table is found, and every
token sequence derived by the (ambiguous) grammar is accepted.
-/
namespace XPath
open G

/-- Induction over a relative path. -/
@[elab_as_elim]
theorem CRel.ind {P : CRel → Prop} (step : ∀ s, P (.step s)) (cons : ∀ r b s, P r → P (.cons r b s)) : ∀ r, P r
  | .step s => step s
  | .cons r b s => cons r b s (CRel.ind step cons r)

/-- With enough fuel, `f` succeeds with `v`. -/
def Runs {α} (f : Nat → PRes α) (v : α × List Tok) : Prop := ∃ N, ∀ n, N ≤ n → f n = .ok v

theorem Runs.succ {α} {f g : Nat → PRes α} {v} (h : Runs f v) (hg : ∀ n, g (n+1) = f n) : Runs g v := by
  obtain ⟨N, h⟩ := h
  refine ⟨N + 1, fun n hn => ?_⟩
  obtain ⟨k, rfl⟩ : ∃ k, n = k + 1 := ⟨n - 1, by omega⟩
  rw [hg]; exact h k (by omega)

theorem Runs.succ_ok {α} {g : Nat → PRes α} {v} (hg : ∀ n, g (n+1) = .ok v) : Runs g v :=
  ⟨1, fun n hn => by obtain ⟨k, rfl⟩ : ∃ k, n = k + 1 := ⟨n - 1, by omega⟩; exact hg k⟩

theorem Runs.bind {α β} {f : Nat → PRes β} {u : β × List Tok} {g' : β × List Tok → Nat → PRes α} {g : Nat → PRes α} {v}
    (h : Runs f u) (h' : Runs (g' u) v) (hg : ∀ n, f n = .ok u → g (n+1) = g' u n) : Runs g v := by
  obtain ⟨N, h⟩ := h
  obtain ⟨N', h'⟩ := h'
  refine ⟨N + N' + 1, fun n hn => ?_⟩
  obtain ⟨k, rfl⟩ : ∃ k, n = k + 1 := ⟨n - 1, by omega⟩
  rw [hg k (h k (by omega))]; exact h' k (by omega)

theorem Runs.map {α β} {f : Nat → PRes β} {u : β × List Tok} {g : Nat → PRes α} {v}
    (h : Runs f u) (hg : ∀ n, f n = .ok u → g (n+1) = .ok v) : Runs g v := by
  obtain ⟨N, h⟩ := h
  refine ⟨N + 1, fun n hn => ?_⟩
  obtain ⟨k, rfl⟩ : ∃ k, n = k + 1 := ⟨n - 1, by omega⟩
  exact hg k (h k (by omega))

/-- `rest` can follow a complete expression: end of input, a closing token, a comma, or a binary operator. -/
def follow : List Tok → Bool
  | [] => true
  | .closeParen :: _ | .closeBracket :: _ | .comma :: _ => true
  | t :: _ => (binTok t).isSome

/-- `rest` can follow a relative path or filter expression: additionally the path separators. -/
def followStep : List Tok → Bool
  | .pathSep :: _ | .abbrevPathSep :: _ => true
  | ts => follow ts

/-- `rest` can follow a node test or primary expression: additionally `[`. -/
def followTest : List Tok → Bool
  | .openBracket :: _ => true
  | ts => followStep ts

theorem follow_step {ts} (h : follow ts = true) : followStep ts = true := by
  unfold followStep; split <;> simp_all
theorem followStep_test {ts} (h : followStep ts = true) : followTest ts = true := by
  unfold followTest; split <;> simp_all

theorem follow_op (o : Op) (r) : follow (o.tok :: r) = true := by
  cases o <;> rfl

theorem runs_nodeTest (t : CNodeTest) (rest) (h : followTest rest = true) :
    parseNodeTest (t.toks ++ rest) = .ok (t.val, rest) := by
  cases t with
  | star => rfl
  | prefixStar p => rfl
  | type n => rfl
  | typeLit n s => rfl
  | qname q =>
    cases q with
    | prefixed p n => rfl
    | unprefixed n =>
      rcases rest with _ | ⟨t, r⟩
      · rfl
      cases t <;> first
        | rfl
        | simp [followTest, followStep, follow, binTok] at h

theorem runs_var (q : CQName) (rest) (h : followTest rest = true) :
    parseVar (q.toks ++ rest) = .ok (.var q.pfx q.nm, rest) := by
  cases q with
  | prefixed p n => rfl
  | unprefixed n =>
    rcases rest with _ | ⟨t, r⟩
    · rfl
    cases t <;> first
      | rfl
      | simp [followTest, followStep, follow, binTok] at h

/-- The sequence `es` of bracketed expressions is parsed by `parsePreds`, given that the elements are. -/
theorem runs_preds (es : List (List Tok × Expr)) (rest) (hr : followStep rest = true)
    (h : ∀ p ∈ es, ∀ r, Runs (parseExpr · 0 (p.1 ++ .closeBracket :: r)) (p.2, .closeBracket :: r)) :
    Runs (parsePreds · ((es.flatMap fun p => .openBracket :: (p.1 ++ [.closeBracket])) ++ rest))
      (es.map (·.2), rest) := by
  induction es with
  | nil =>
    apply Runs.succ_ok
    intro n
    rcases rest with _ | ⟨t, r⟩
    · rfl
    cases t <;> first
      | rfl
      | simp [followStep, follow, binTok] at hr
  | cons p es ih =>
    have h1 := h p (by simp) ((es.flatMap fun p => .openBracket :: (p.1 ++ [.closeBracket])) ++ rest)
    have h2 := ih (fun q hq => h q (by simp [hq]))
    obtain ⟨N, h1⟩ := h1
    obtain ⟨N', h2⟩ := h2
    refine ⟨N + N' + 1, fun n hn => ?_⟩
    obtain ⟨k, rfl⟩ : ∃ k, n = k + 1 := ⟨n - 1, by omega⟩
    have e1 := h1 k (by omega)
    have e2 := h2 k (by omega)
    simp only [List.flatMap_cons, List.cons_append, List.append_assoc, List.nil_append] at e1 e2 ⊢
    simp [parsePreds, e1, e2]

theorem runs_test (ax : Option Str) (t : CNodeTest) (es : List (List Tok × Expr)) (rest) (hr : followStep rest = true)
    (h : ∀ p ∈ es, ∀ r, Runs (parseExpr · 0 (p.1 ++ .closeBracket :: r)) (p.2, .closeBracket :: r)) :
    Runs (parseTest · ax (t.toks ++ ((es.flatMap fun p => .openBracket :: (p.1 ++ [.closeBracket])) ++ rest)))
      (.step ax t.val (es.map (·.2)), rest) := by
  have hf : followTest ((es.flatMap fun p => Tok.openBracket :: (p.1 ++ [.closeBracket])) ++ rest) = true := by
    cases es with
    | nil => exact followStep_test hr
    | cons => rfl
  refine (runs_preds es rest hr h).map fun n hn => ?_
  simp only [parseTest, runs_nodeTest t _ hf, hn]

/-- Predicates of a tree as a list. -/
def CPredsList : CPreds → List CExpr
  | .single e => [e]
  | .snoc ps e => CPredsList ps ++ [e]
def CArgListList : CArgList → List CExpr
  | .single e => [e]
  | .snoc as e => CArgListList as ++ [e]

theorem CPreds_toks (ps : CPreds) : ps.toks = predToks (CPredsList ps) := by
  fun_induction CPredsList ps with
  | case1 => simp [CPreds.toks, predToks]
  | case2 ps e ih => simp [CPreds.toks, predToks_append, ih]; simp [predToks]

theorem CPreds_val (ps : CPreds) : ps.val = (CPredsList ps).map CExpr.val := by
  fun_induction CPredsList ps with
  | case1 => simp [CPreds.val]
  | case2 ps e ih => simp [CPreds.val, ih]

theorem CArgListList_ne (as : CArgList) : CArgListList as ≠ [] := by
  cases as <;> simp [CArgListList]

theorem CArgList_toks (as : CArgList) : as.toks = argToks (CArgListList as) := by
  fun_induction CArgListList as with
  | case1 => simp [CArgList.toks, argToks]
  | case2 as e ih => rw [CArgList.toks, ih, argToks_snoc _ _ (CArgListList_ne as)]

theorem CArgList_val (as : CArgList) : as.val = (CArgListList as).map CExpr.val := by
  fun_induction CArgListList as with
  | case1 => simp [CArgList.val]
  | case2 as e ih => simp [CArgList.val, ih]

/-! ### Generic part: both completeness results need the same lemmas about the non-operator productions,
with "every embedded expression is parsed to *some* value" or "... to its value". -/

/-- `f`: what the parser finds for embedded expressions.  `EOK f c`: in a context where an expression may
end, `c` is parsed to `f c`. -/
def EOK (f : CExpr → Expr) (c : CExpr) : Prop :=
  ∀ r, (∃ t r', r = t :: r' ∧ (t = .closeParen ∨ t = .closeBracket ∨ t = .comma)) →
    Runs (parseExpr · 0 (c.toks ++ r)) (f c, r)

variable (f : CExpr → Expr)

mutual
/-- Value of a tree when embedded expressions have the values given by `f`. -/
def relVal : CRel → Expr
  | .step s => stepVal s
  | .cons r dbl s => .binary (relVal r) (sepOp dbl) (stepVal s)
def stepVal : CStep → Expr
  | .test t => .step none t.val []
  | .testPreds t ps => .step none t.val ((CPredsList ps).map f)
  | .axis a t => .step (some a.val) t.val []
  | .axisPreds a t ps => .step (some a.val) t.val ((CPredsList ps).map f)
  | .self => .abbrev false
  | .parent => .abbrev true
end
def argsVal : CArgs → List Expr
  | .empty => []
  | .list as => (CArgListList as).map f
def filterVal : CFilter → Expr
  | .var q => .var q.pfx q.nm
  | .lit s => .lit s
  | .float f => .float f
  | .int n => .int n
  | .call q as => .call q.pfx q.nm (argsVal f as)
  | .group e => f e
  | .pred fl e => addPredicate (filterVal fl) (f e)

/-- Every expression immediately embedded in the tree is parsed to its `f`-value. -/
def stepOK : CStep → Prop
  | .testPreds _ ps => ∀ e ∈ CPredsList ps, EOK f e
  | .axisPreds _ _ ps => ∀ e ∈ CPredsList ps, EOK f e
  | _ => True
def relOK : CRel → Prop
  | .step s => stepOK f s
  | .cons r _ s => relOK r ∧ stepOK f s
def argsOK : CArgs → Prop
  | .empty => True
  | .list as => ∀ e ∈ CArgListList as, EOK f e
def filterOK : CFilter → Prop
  | .call _ as => argsOK f as
  | .group e => EOK f e
  | .pred fl e => filterOK fl ∧ EOK f e
  | _ => True

variable {f}

theorem EOK.bracket {c} (h : EOK f c) (r) : Runs (parseExpr · 0 (c.toks ++ .closeBracket :: r)) (f c, .closeBracket :: r) :=
  h _ ⟨_, _, rfl, by simp⟩

theorem predToks_pairs (es : List CExpr) :
    predToks es = (es.map fun e => (e.toks, f e)).flatMap fun p => .openBracket :: (p.1 ++ [.closeBracket]) := by
  simp [predToks, List.flatMap_map]

theorem runs_test' (ax : Option Str) (t : CNodeTest) (es : List CExpr) (rest) (hr : followStep rest = true)
    (h : ∀ e ∈ es, EOK f e) :
    Runs (parseTest · ax (t.toks ++ (predToks es ++ rest))) (.step ax t.val (es.map f), rest) := by
  have := runs_test ax t (es.map fun e => (e.toks, f e)) rest hr (by
    simp only [List.mem_map, forall_exists_index, and_imp, forall_apply_eq_imp_iff₂]
    intro e he r
    exact (h e he).bracket r)
  rw [← predToks_pairs] at this
  simpa [Function.comp_def] using this

theorem startsStep_test (t : CNodeTest) (r) : startsStep (t.toks ++ r) = true := by
  cases t <;> try rfl
  case qname q => cases q <;> rfl

theorem startsFilter_test (t : CNodeTest) (r) (hr : followTest r = true) : startsFilter (t.toks ++ r) = false := by
  cases t <;> try rfl
  case qname q =>
    cases q with
    | prefixed p n => rfl
    | unprefixed n =>
      rcases r with _ | ⟨t, r⟩
      · rfl
      cases t <;> first
        | rfl
        | simp [followTest, followStep, follow, binTok] at hr

theorem parseStep_test (t : CNodeTest) (r) (n) : parseStep (n+1) (t.toks ++ r) = parseTest n none (t.toks ++ r) := by
  cases t <;> try rfl
  case qname q => cases q <;> rfl

theorem runs_step (s : CStep) (hs : stepOK f s) (rest) (hr : followStep rest = true) :
    Runs (parseStep · (s.toks ++ rest)) (stepVal f s, rest) := by
  cases s with
  | test t =>
    have := runs_test' (f := f) none t [] rest hr (by simp)
    simp only [predToks, List.flatMap_nil, List.nil_append] at this
    exact this.succ (parseStep_test t rest)
  | testPreds t ps =>
    have := runs_test' (f := f) none t (CPredsList ps) rest hr hs
    simp only [CStep.toks, List.append_assoc, CPreds_toks]
    exact this.succ (parseStep_test t _)
  | axis a t =>
    have := runs_test' (f := f) (some a.val) t [] rest hr (by simp)
    simp only [predToks, List.flatMap_nil, List.nil_append] at this
    cases a <;> exact this.succ (fun n => rfl)
  | axisPreds a t ps =>
    have := runs_test' (f := f) (some a.val) t (CPredsList ps) rest hr hs
    simp only [CStep.toks, List.append_assoc, CPreds_toks]
    cases a <;> exact this.succ (fun n => rfl)
  | self => exact .succ_ok fun _ => rfl
  | parent => exact .succ_ok fun _ => rfl

theorem followStep_sep (b r) : followStep (sep b :: r) = true := by cases b <;> rfl

theorem runs_relLoop (r : CRel) (h : relOK f r) (rest) (v) (hr : followStep rest = true)
    (hl : Runs (parseRelLoop · (relVal f r) rest) v) : Runs (parseRel · (r.toks ++ rest)) v := by
  induction r using CRel.ind generalizing rest v with
  | step s =>
    refine (runs_step s h rest hr).bind (g' := fun u n => parseRelLoop n u.1 u.2) hl fun n hn => ?_
    simp only [parseRel, CRel.toks, hn]
  | cons r dbl s ih =>
    obtain ⟨h1, h2⟩ := h
    simp only [CRel.toks, List.append_assoc, List.cons_append]
    refine ih h1 _ _ (followStep_sep _ _) ?_
    refine (runs_step s h2 rest hr).bind (g' := fun u n => parseRelLoop n (.binary (relVal f r) (sepOp dbl) u.1) u.2) hl fun n hn => ?_
    cases dbl
    · show parseRelLoop (n+1) _ (.pathSep :: _) = _
      simp only [parseRelLoop, hn]; rfl
    · show parseRelLoop (n+1) _ (.abbrevPathSep :: _) = _
      simp only [parseRelLoop, hn]; rfl

theorem runs_rel (r : CRel) (h : relOK f r) (rest) (hr : follow rest = true) :
    Runs (parseRel · (r.toks ++ rest)) (relVal f r, rest) := by
  refine runs_relLoop r h rest _ (follow_step hr) (.succ_ok fun n => ?_)
  rcases rest with _ | ⟨t, r⟩
  · rfl
  cases t <;> first
    | rfl
    | simp [follow, binTok] at hr

theorem runs_args (es : List CExpr) (hne : es ≠ []) (h : ∀ e ∈ es, EOK f e) (rest) :
    Runs (parseArgs · (argToks es ++ .closeParen :: rest)) (es.map f, .closeParen :: rest) := by
  induction es with
  | nil => exact absurd rfl hne
  | cons e es ih =>
    rcases es with _ | ⟨d, ds⟩
    · refine (h e (by simp) (.closeParen :: rest) ⟨_, _, rfl, by simp⟩).map fun n hn => ?_
      simp [parseArgs, argToks, hn]
    · have h2 := ih (by simp) (fun x hx => h x (by simp [List.mem_cons] at hx ⊢; tauto))
      obtain ⟨N, h1⟩ := h e (by simp) (.comma :: (argToks (d :: ds) ++ .closeParen :: rest)) ⟨_, _, rfl, by simp⟩
      obtain ⟨N', h2⟩ := h2
      refine ⟨N + N' + 1, fun n hn => ?_⟩
      obtain ⟨k, rfl⟩ : ∃ k, n = k + 1 := ⟨n - 1, by omega⟩
      have e1 := h1 k (by omega)
      have e2 := h2 k (by omega)
      simp only [argToks, List.append_assoc, List.cons_append]
      simp [parseArgs, e1, e2]

/-- Expressions never start with a closing parenthesis. -/
theorem head_ne :
    (∀ (c : CExpr) r ts, c.toks ++ r ≠ .closeParen :: ts) := by
  have hn : ∀ (t : CNodeTest) r ts, t.toks ++ r ≠ .closeParen :: ts := by
    intro t r ts; cases t <;> simp [CNodeTest.toks]
    case qname q => cases q <;> simp [CQName.toks]
  have hs : ∀ (c : CStep) r ts, c.toks ++ r ≠ .closeParen :: ts := by
    intro c r ts
    cases c <;> simp only [CStep.toks, List.append_assoc]
    case test t => exact hn t _ _
    case testPreds t ps => exact hn t _ _
    case axis a t => cases a <;> simp [CAxis.toks]
    case axisPreds a t ps => cases a <;> simp [CAxis.toks]
    all_goals simp
  have hr : ∀ (c : CRel) r ts, c.toks ++ r ≠ .closeParen :: ts := by
    intro c
    induction c using CRel.ind with
    | step s => exact hs s
    | cons r b s ih => intro r ts; simp only [CRel.toks, List.append_assoc]; exact ih _ _
  have hf : ∀ (c : CFilter) r ts, c.toks ++ r ≠ .closeParen :: ts := by
    intro c
    refine CFilter.rec (motive_1 := fun _ => True) (motive_2 := fun _ => True) (motive_3 := fun _ => True)
      (motive_4 := fun _ => True) (motive_5 := fun c => ∀ r ts, c.toks ++ r ≠ .closeParen :: ts)
      (motive_6 := fun _ => True) (motive_7 := fun _ => True)
      ?_ ?_ ?_ ?_ ?_ ?_ ?_ ?_ ?_ ?_ ?_ ?_ ?_ ?_ ?_ ?_ ?_ ?_ ?_ ?_ ?_ ?_ ?_ ?_ ?_ ?_ ?_ ?_ ?_ c
    all_goals try (intros; trivial)
    all_goals simp [CFilter.toks]
    · intro q as _; cases q <;> simp [CFuncQName.toks]
    · intro f e ih _ r ts; exact ih _ _ ts
  intro c
  refine CExpr.rec (motive_1 := fun c => ∀ r ts, c.toks ++ r ≠ .closeParen :: ts) (motive_2 := fun _ => True) (motive_3 := fun _ => True)
      (motive_4 := fun _ => True) (motive_5 := fun _ => True)
      (motive_6 := fun _ => True) (motive_7 := fun _ => True)
      ?_ ?_ ?_ ?_ ?_ ?_ ?_ ?_ ?_ ?_ ?_ ?_ ?_ ?_ ?_ ?_ ?_ ?_ ?_ ?_ ?_ ?_ ?_ ?_ ?_ ?_ ?_ ?_ ?_ c
  all_goals try (intros; trivial)
  all_goals simp only [CExpr.toks]
  · intro l op r ih _ r ts; simp only [List.append_assoc]; exact ih _ _
  · simp
  · intro f b r _ _ r ts; simp only [List.append_assoc]; exact hf f _ _
  · intro r _; exact hr r
  · simp
  · simp
  · simp
  · intro r _; exact hf r

theorem argToks_ne (es : List CExpr) (hne : es ≠ []) (r ts) : argToks es ++ r ≠ .closeParen :: ts := by
  rcases es with _ | ⟨e, _ | ⟨d, ds⟩⟩
  · exact absurd rfl hne
  · exact head_ne _ _ _
  · simp only [argToks, List.append_assoc]; exact head_ne _ _ _

theorem runs_call (p : Option Str) (nm : Str) (as : CArgs) (h : argsOK f as) (rest) :
    Runs (parseCall · p nm (as.toks ++ rest)) (.call p nm (argsVal f as), rest) := by
  cases as with
  | empty => exact .succ_ok fun _ => rfl
  | list as =>
    refine (runs_args (CArgListList as) (CArgListList_ne as) h rest).map fun n hn => ?_
    have hne := argToks_ne (CArgListList as) (CArgListList_ne as) (.closeParen :: rest)
    simp only [CArgs.toks, List.cons_append, List.append_assoc, List.nil_append, CArgList_toks]
    generalize argToks (CArgListList as) ++ Tok.closeParen :: rest = w at hn hne ⊢
    rw [parseCall]
    · simp only [hn, argsVal]
    · intro ts h; exact hne _ h

/-- Split a filter expression into its primary part and its predicates. -/
def filterBase : CFilter → CFilter
  | .pred fl _ => filterBase fl
  | fl => fl
def filterPreds : CFilter → List CExpr
  | .pred fl e => filterPreds fl ++ [e]
  | _ => []

theorem filter_toks (fl : CFilter) : fl.toks = (filterBase fl).toks ++ predToks (filterPreds fl) := by
  fun_induction filterBase fl with
  | case1 fl e ih => rw [filterPreds, predToks_append, CFilter.toks, ih]; simp [predToks]
  | case2 fl h => cases fl <;> simp [filterPreds, predToks] at h ⊢

theorem filter_val (fl : CFilter) :
    filterVal f fl = ((filterPreds fl).map f).foldl applyPred (filterVal f (filterBase fl)) := by
  fun_induction filterBase fl with
  | case1 fl e ih => rw [filterVal, ih, filterPreds]; simp [applyPred_eq]
  | case2 fl h => cases fl <;> simp [filterPreds] at h ⊢

theorem filter_ok (fl : CFilter) (h : filterOK f fl) :
    filterOK f (filterBase fl) ∧ ∀ e ∈ filterPreds fl, EOK f e := by
  fun_induction filterBase fl with
  | case1 fl e ih =>
    obtain ⟨h1, h2⟩ := h
    refine ⟨(ih h1).1, ?_⟩
    intro x hx
    simp [filterPreds] at hx
    rcases hx with hx | rfl
    · exact (ih h1).2 x hx
    · exact h2
  | case2 fl h' => exact ⟨h, by cases fl <;> simp [filterPreds] at h' ⊢⟩

theorem filterBase_ne (fl : CFilter) : ∀ g e, filterBase fl ≠ .pred g e := by
  fun_induction filterBase fl with
  | case1 fl e ih => exact ih
  | case2 fl h => exact h

theorem runs_primary (fl : CFilter) (hb : ∀ g e, fl ≠ .pred g e) (h : filterOK f fl) (rest) (hr : followTest rest = true) :
    Runs (parsePrimary · (fl.toks ++ rest)) (filterVal f fl, rest) := by
  cases fl with
  | var q => exact .succ_ok fun n => by simp [CFilter.toks, parsePrimary, runs_var q rest hr, filterVal]
  | lit s => exact .succ_ok fun _ => rfl
  | float s => exact .succ_ok fun _ => rfl
  | int s => exact .succ_ok fun _ => rfl
  | call q as =>
    have := runs_call (f := f) q.pfx q.nm as h rest
    cases q <;> exact this.succ fun n => rfl
  | group e =>
    refine (h (.closeParen :: rest) ⟨_, _, rfl, by simp⟩).map fun n hn => ?_
    simp [CFilter.toks, parsePrimary, hn, filterVal]
  | pred g e => exact absurd rfl (hb g e)

theorem runs_filter (fl : CFilter) (h : filterOK f fl) (rest) (hr : followStep rest = true) :
    Runs (parseFilter · (fl.toks ++ rest)) (filterVal f fl, rest) := by
  obtain ⟨h1, h2⟩ := filter_ok fl h
  have hf : followTest (predToks (filterPreds fl) ++ rest) = true := by
    rcases filterPreds fl with _ | ⟨d, ds⟩
    · exact followStep_test hr
    · rfl
  obtain ⟨N, e1⟩ := runs_primary _ (filterBase_ne fl) h1 _ hf
  have h3 := runs_preds ((filterPreds fl).map fun e => (e.toks, f e)) rest hr (by
    simp only [List.mem_map, forall_exists_index, and_imp, forall_apply_eq_imp_iff₂]
    intro e he r
    exact (h2 e he).bracket r)
  rw [← predToks_pairs] at h3
  obtain ⟨N', e2⟩ := h3
  refine ⟨N + N' + 1, fun n hn => ?_⟩
  obtain ⟨k, rfl⟩ : ∃ k, n = k + 1 := ⟨n - 1, by omega⟩
  have e1 := e1 k (by omega)
  have e2 := e2 k (by omega)
  simp only [filter_toks fl, List.append_assoc, parseFilter, e1, e2]
  simp [filter_val fl, Function.comp_def]

theorem startsStep_rel (r : CRel) (rest) : startsStep (r.toks ++ rest) = true := by
  induction r using CRel.ind generalizing rest with
  | step s =>
    cases s <;> simp only [CRel.toks, CStep.toks, List.append_assoc]
    case test t => exact startsStep_test t _
    case testPreds t ps => exact startsStep_test t _
    case axis a t => cases a <;> rfl
    case axisPreds a t ps => cases a <;> rfl
    all_goals rfl
  | cons r b s ih => simp only [CRel.toks, List.append_assoc]; exact ih _

theorem startsFilter_rel (r : CRel) (rest) (hr : followStep rest = true) : startsFilter (r.toks ++ rest) = false := by
  induction r using CRel.ind generalizing rest with
  | step s =>
    cases s <;> simp only [CRel.toks, CStep.toks, List.append_assoc]
    case test t => exact startsFilter_test t _ (followStep_test hr)
    case testPreds t ps => exact startsFilter_test t _ (by cases ps <;> simp [CPreds.toks, CPreds_toks, predToks]
                                                           · rfl
                                                           · rename_i ps e; cases h : CPredsList ps <;> rfl)
    case axis a t => cases a <;> rfl
    case axisPreds a t ps => cases a <;> rfl
    all_goals rfl
  | cons r b s ih => simp only [CRel.toks, List.append_assoc]; exact ih _ (followStep_sep _ _)

theorem startsFilter_filter (fl : CFilter) (rest) : startsFilter (fl.toks ++ rest) = true := by
  rw [filter_toks, List.append_assoc]
  have := filterBase_ne fl
  generalize predToks (filterPreds fl) ++ rest = w
  cases h : filterBase fl <;> try rfl
  case call q as => cases q <;> rfl
  case pred g e => exact absurd h (this g e)

/-- The atomic expressions. -/
def isAtom : CExpr → Bool
  | .bin .. => false
  | .neg _ => false
  | _ => true

variable (f) in
def atomVal : CExpr → Expr
  | .filterPath fl dbl r => .binary (filterVal f fl) (sepOp dbl) (relVal f r)
  | .rel r => relVal f r
  | .absRoot => .root
  | .abs r => .abs false (relVal f r)
  | .absAbbrev r => .abs true (relVal f r)
  | .filter fl => filterVal f fl
  | .bin .. => .root
  | .neg _ => .root
variable (f) in
def atomOK : CExpr → Prop
  | .filterPath fl _ r => filterOK f fl ∧ relOK f r
  | .rel r => relOK f r
  | .absRoot => True
  | .abs r => relOK f r
  | .absAbbrev r => relOK f r
  | .filter fl => filterOK f fl
  | .bin .. => False
  | .neg _ => False

theorem parsePath_starts (ts n) (h : ∀ r, ts ≠ .pathSep :: r) (h' : ∀ r, ts ≠ .abbrevPathSep :: r) :
    parsePath (n+1) ts = if startsFilter ts then parseFPath n ts else parseRel n ts := by
  rw [parsePath] <;> assumption

theorem startsFilter_sep {ts} (h : startsFilter ts = true) : (∀ r, ts ≠ .pathSep :: r) ∧ (∀ r, ts ≠ .abbrevPathSep :: r)
    ∧ ∀ r, ts ≠ .minusOp :: r := by
  refine ⟨?_, ?_, ?_⟩ <;> rintro r rfl <;> simp [startsFilter] at h

theorem startsStep_sep {ts} (h : startsStep ts = true) : (∀ r, ts ≠ .pathSep :: r) ∧ (∀ r, ts ≠ .abbrevPathSep :: r)
    ∧ ∀ r, ts ≠ .minusOp :: r := by
  refine ⟨?_, ?_, ?_⟩ <;> rintro r rfl <;> simp [startsStep] at h

theorem atom_not_minus (c : CExpr) (h : isAtom c = true) (r ts) : c.toks ++ r ≠ .minusOp :: ts := by
  cases c <;> simp [isAtom] at h <;> simp only [CExpr.toks, List.append_assoc]
  case filterPath fl b r => exact (startsFilter_sep (startsFilter_filter fl _)).2.2 _
  case filter fl => exact (startsFilter_sep (startsFilter_filter fl _)).2.2 _
  case rel r => exact (startsStep_sep (startsStep_rel r _)).2.2 _
  all_goals simp

theorem runs_path (c : CExpr) (h : atomOK f c) (rest) (hr : follow rest = true) :
    Runs (parsePath · (c.toks ++ rest)) (atomVal f c, rest) := by
  cases c with
  | bin => exact h.elim
  | neg => exact h.elim
  | absRoot =>
    refine .succ_ok fun n => ?_
    simp only [CExpr.toks, List.cons_append, List.nil_append, parsePath]
    rw [if_neg]; · rfl
    rcases rest with _ | ⟨t, r⟩
    · simp [startsStep]
    cases t <;> first
      | (simp [startsStep]; done)
      | simp [follow, binTok] at hr
  | abs r =>
    refine (runs_rel r h rest hr).map fun n hn => ?_
    simp [CExpr.toks, parsePath, startsStep_rel, hn, atomVal]
  | absAbbrev r =>
    refine (runs_rel r h rest hr).map fun n hn => ?_
    simp [CExpr.toks, parsePath, hn, atomVal]
  | rel r =>
    refine (runs_rel r h rest hr).succ fun n => ?_
    simp only [CExpr.toks]
    have := startsStep_sep (startsStep_rel r rest)
    rw [parsePath_starts _ _ this.1 this.2.1, startsFilter_rel r rest (follow_step hr)]; rfl
  | filter fl =>
    have h1 : Runs (parseFPath · (fl.toks ++ rest)) (filterVal f fl, rest) := by
      refine (runs_filter fl h rest (follow_step hr)).map fun n hn => ?_
      simp only [parseFPath, hn]
      rcases rest with _ | ⟨t, r⟩
      · rfl
      cases t <;> first
        | rfl
        | simp [follow, binTok] at hr
    refine h1.succ fun n => ?_
    have := startsFilter_sep (startsFilter_filter fl rest)
    simp only [CExpr.toks]
    rw [parsePath_starts _ _ this.1 this.2.1, startsFilter_filter]; rfl
  | filterPath fl b r =>
    have h1 : Runs (parseFPath · (fl.toks ++ sep b :: (r.toks ++ rest))) (atomVal f (.filterPath fl b r), rest) := by
      refine (runs_filter fl h.1 _ (followStep_sep b (r.toks ++ rest))).bind
        (g' := fun u n => match parseRel n (u.2.drop 1) with
          | .error e => .error e
          | .ok (r, ts) => .ok (.binary u.1 (sepOp b) r, ts)) ?_ fun n hn => ?_
      · obtain ⟨N, h⟩ := runs_rel r h.2 rest hr
        exact ⟨N, fun n hn => by simp [h n hn, atomVal]⟩
      · cases b <;> (simp only [parseFPath, hn]; rfl)
    refine h1.succ fun n => ?_
    have := startsFilter_sep (startsFilter_filter fl (sep b :: (r.toks ++ rest)))
    simp only [CExpr.toks, List.append_assoc, List.cons_append]
    rw [parsePath_starts _ _ this.1 this.2.1, startsFilter_filter]; rfl

theorem runs_prefix_atom (c : CExpr) (h : atomOK f c) (rest) (hr : follow rest = true) :
    Runs (parsePrefix · (c.toks ++ rest)) (atomVal f c, rest) := by
  have ha : isAtom c = true := by cases c <;> first | rfl | exact h.elim
  refine (runs_path c h rest hr).succ fun n => ?_
  rw [parsePrefix]
  intro ts h
  exact atom_not_minus c ha rest ts h

end XPath
