import Verif.XmlMap.DeleteFacts
import Verif.Spec.Pruned
/-
`_remove_xml` on simple paths with any predicates: an algorithm on trees that does the same.
-/
namespace Fields
open Xml XPath Spec

set_option linter.unusedSectionVars false

/-- An action on an element: result and the element afterwards. -/
abbrev Act (α : Type) := Node → Except PyErr α × Node

/-- No attributes and children are left after an action. -/
def bareAfter (f : Act Unit) (n : Node) : Except PyErr Bool := match f n with
  | (.ok (), n') => .ok (n'.children.isEmpty && n'.attrs.isEmpty)
  | (.error e, _) => .error e

/-- Remove the first match of one step, if the test says so. -/
def removeOne (st : Step) (test : Node → Except PyErr Bool) : Act Bool := fun n =>
  match st with
  | .child q ps => match (Step.matches [.child q ps] n).head? with
    | none => (.ok false, n)
    | some x => match n.get x.addr with
      | none => (.ok false, n)
      | some c => match test c with
        | .error e => (.error e, n)
        | .ok true => (.ok true, removeAt x.addr n)
        | .ok false => (.ok false, n)
  | .attr q => if (n.attr? q).isSome then (.ok true, n.delAttr q) else (.error .keyError, n)
  | .text => (.ok true, n.setText (some []))

/-- Continue with the steps before. -/
def andThen (r : Except PyErr Bool × Node) (b : Node.Addr) (n : Node) (next : Act Bool) : Except PyErr Bool × Node :=
  match r with
  | (.error e, _) => (.error e, n)
  | (.ok false, _) => (.ok false, n)
  | (.ok true, m') => match next (n.modify b (fun _ => m')) with
    | (.error e, n'') => (.error e, n'')
    | (.ok _, n'') => (.ok true, n'')

/-- Remove the end of a path (last step first, each with the test to be done before its removal) in the first match of the rest, then the rest. -/
def trailR : List (Step × (Node → Except PyErr Bool)) → Act Bool
  | [] => fun n => (.ok false, n)
  | (st, test) :: rp => fun n =>
    match (Step.matches (rp.map Prod.fst).reverse n).head? with
    | some (.elem b) => match n.get b with
      | some m => andThen (removeOne st test m) b n (trailR rp)
      | none => (.ok false, n)
    | _ => (.ok false, n)

/-- Forget the result. -/
def voided (r : Except PyErr Bool × Node) : Except PyErr Unit × Node := (r.1.map (fun _ => ()), r.2)

/-- Remove what a predicate requires, if it ends in a value and holds. -/
def stripWith (p : Pred) (tests : List (Node → Except PyErr Bool)) : Act Unit := fun n =>
  if p.valued = true ∧ p.sat n = true then voided (trailR (p.steps.zip tests).reverse n) else (.ok (), n)

/-- Sequence. -/
def seqA (f g : Act Unit) : Act Unit := fun n => match f n with
  | (.ok (), n') => g n'
  | (.error e, n') => (.error e, n')

mutual
/-- For each step of the predicate's path: is the element empty except for the step's own predicates? -/
def _root_.Spec.Pred.tests : Pred → List (Node → Except PyErr Bool)
  | .attr _ _ => [bareAfter (fun n => (.ok (), n))]
  | .here _ => []
  | .child _ ps rest => bareAfter (stripAll ps) :: rest.tests
/-- Remove what the predicates require, one after the other. -/
def stripAll : List Pred → Act Unit
  | [] => fun n => (.ok (), n)
  | p :: ps => seqA (stripWith p p.tests) (stripAll ps)
end

/-- The test for a step. -/
def Step.test (st : Step) : Node → Except PyErr Bool := bareAfter (stripAll st.preds)

/-- Remove the end of a path, last step first. -/
def pathR (force : Bool) : List Step → Act Bool
  | [] => fun n => (.ok false, n)
  | st :: rp => fun n =>
    match (Step.matches rp.reverse n).head? with
    | some (.elem b) => match n.get b with
      | some m => andThen (removeOne st (if force then (fun _ => .ok true) else Step.test st) m) b n (pathR false rp)
      | none => (.ok false, n)
    | _ => (.ok false, n)

theorem trailR_pathR : ∀ rp : List Step, trailR (rp.map (fun st => (st, Step.test st))) = pathR false rp
  | [] => rfl
  | st :: rp => by
    funext n
    have ih := trailR_pathR rp
    simp only [List.map_cons, trailR, pathR, ih, List.map_map]
    have : (Prod.fst ∘ fun st => (st, Step.test st)) = id := rfl
    rw [this, List.map_id]
    rfl

theorem steps_zip : ∀ p : Pred, p.steps.zip p.tests = p.steps.map (fun st => (st, Step.test st))
  | .attr q c => rfl
  | .here c => rfl
  | .child q ps rest => by
    simp only [Pred.steps, Pred.tests, List.zip_cons_cons, List.map_cons, steps_zip rest]
    rfl

/-- Remove what a predicate requires. -/
def stripP (p : Pred) : Act Unit := fun n =>
  if p.valued = true ∧ p.sat n = true then voided (pathR false p.steps.reverse n) else (.ok (), n)

theorem stripWith_eq (p : Pred) : stripWith p p.tests = stripP p := by
  funext n
  unfold stripWith stripP
  rw [steps_zip, ← List.map_reverse, trailR_pathR]

theorem stripAll_cons (p : Pred) (ps : List Pred) : stripAll (p :: ps) = seqA (stripP p) (stripAll ps) := by
  rw [stripAll, stripWith_eq]

/-! ### the code does the same -/

variable [PyUnicode] {eng : Engine} {ctx : Ctx}

theorem pathR_hit (force : Bool) (st : Step) {rp : List Step} {n m : Node} {b} (hh : (Step.matches rp.reverse n).head? = some (.elem b)) (hm : n.get b = some m) :
    pathR force (st :: rp) n = andThen (removeOne st (if force then (fun _ => .ok true) else Step.test st) m) b n (pathR false rp) := by
  simp only [pathR, hh, hm]

theorem pathR_none (force : Bool) (st : Step) {rp : List Step} {n : Node} (hh : (Step.matches rp.reverse n).head? = none) :
    pathR force (st :: rp) n = (.ok false, n) := by
  simp only [pathR, hh]

theorem removeOne_keep {st test n} (h : (removeOne st test n).1 ≠ .ok true) : (removeOne st test n).2 = n := by
  unfold removeOne at h ⊢
  cases st with
  | child q ps =>
    simp only at h ⊢
    split
    · rfl
    · split
      · rfl
      · split
        · rfl
        · simp_all
        · rfl
  | attr q =>
    simp only at h ⊢
    split_ifs at h ⊢ with h1
    · simp at h
    · rfl
  | text => simp at h

theorem pathR_one (force : Bool) (st : Step) (n : Node) :
    pathR force [st] n = removeOne st (if force then (fun _ => .ok true) else Step.test st) n := by
  simp only [pathR, List.reverse_nil, Step.matches, List.head?_cons, Node.get_nil]
  generalize ht : (if force = true then (fun _ => Except.ok true) else Step.test st) = t
  have := removeOne_keep (st := st) (test := t) (n := n)
  cases hr : removeOne st t n with
  | mk r m =>
    rw [hr] at this
    match r with
    | .ok true => simp [andThen]
    | .ok false => simp at this; simp [andThen, this]
    | .error e => simp at this; simp [andThen, this]

/-- An action on the element at an address. -/
def onAt {α} (f : Act α) (a : Node.Addr) (s n : Node) : Except PyErr α × Node := ((f n).1, s.modify a (fun _ => (f n).2))

theorem removeStep_any {ax t es st} (heng : EngineOk eng) (h : res ctx (.step ax t es) = some ([st], none)) (hc : (Expr.step ax t es).canonical = true)
    (hp : ∀ q ps, st = .child q ps → ∀ c, emptyExcept (fun r => removePreds eng ctx es r) c = Step.test st c) (ifEmpty : Bool) {a s n} (hs : Node.get a s = some n) :
    removeXml eng ctx (.step ax t es) ifEmpty (.elem a) s
      = onAt (removeOne st (if ifEmpty then Step.test st else (fun _ => .ok true))) a s n := by
  cases st with
  | child q ps =>
    obtain ⟨pfx, nm, rfl, hax, hps⟩ := res_child_step h
    have hf := findNode_path heng (parse0_ser hc) h hs
    rw [removeXml, removeStep]
    simp only [hax, if_true]
    unfold removeChildNode
    rw [bind_ok hf]
    unfold onAt removeOne
    simp only
    cases hh : (Step.matches [.child q ps] n).head? with
    | none =>
      simp only [Option.map_none, pure_run, Prod.mk.injEq, true_and]
      exact (Node.modify_id hs rfl).symm
    | some x =>
      obtain ⟨i, c, rfl, hci, -, -⟩ := match_child_one (List.mem_of_mem_head? hh)
      have hgc : Node.get (a ++ [i]) s = some c := by rw [Node.get_append, hs]; simp [Node.get_cons, hci]
      have hgn : n.get [i] = some c := by simp [Node.get_cons, hci]
      simp only [Option.map_some]
      rw [show (Ref.elem [i]).under a = .elem (a ++ [i]) from rfl]
      simp only
      rw [bind_ok (nodeAt_run hgc), show (Ref.elem [i]).addr = [i] from rfl, hgn]
      simp only
      rw [hp q ps rfl c]
      have ht : (if ifEmpty = true then Step.test (.child q ps) c else .ok true) = (if ifEmpty = true then Step.test (.child q ps) else fun _ => Except.ok true) c := by
        cases ifEmpty <;> rfl
      rw [ht]
      cases hr : (if ifEmpty = true then Step.test (.child q ps) else fun _ => Except.ok true) c with
      | error er =>
        rw [bind_err (show (ofExcept (.error er) : M Bool) s = (.error er, s) from rfl)]
        simp only
        rw [Node.modify_id hs rfl]
      | ok b =>
        rw [bind_ok (ofExcept_run _ _)]
        cases b with
        | true =>
          have h1 : a ++ [i] ≠ [] := by simp
          have h2 : Ref.elem (a ++ [i]).dropLast = Ref.elem a := by simp
          rw [if_pos rfl, if_pos ⟨h1, h2⟩]
          simp only [List.dropLast_concat, List.getLast?_concat, Option.getD_some]
          show (Except.ok true, s.modify a (Node.removeChild i)) = _
          congr 1
          apply Node.modify_congr hs
          rfl
        | false =>
          simp only [Bool.false_eq_true, if_false, pure_run]
          rw [Node.modify_id hs rfl]
  | attr q =>
    obtain ⟨ax, pfx, nm, he, hax, hat⟩ := res_attr_step h
    injection he with h1 h2 h3
    subst h1 h2 h3
    rw [removeXml, removeStep]
    have hna : ¬ (ax = none ∨ ax = some c%"child") := by rcases hax with rfl | rfl <;> simp
    simp only [hna, hax, if_true, if_false]
    unfold onAt removeOne
    simp only
    by_cases hq : (n.attr? q).isSome = true
    · rw [removeAttr_run hat hs hq, if_pos hq]
      simp only
      congr 1
      exact Node.modify_congr hs rfl
    · rw [if_neg hq]
      unfold removeAttr
      simp only
      rw [bind_ok (nodeAt_run hs), hat]
      simp only
      rw [if_neg hq, Node.modify_id hs rfl]
      rfl
  | text =>
    cases t with
    | name pfx nm =>
      simp only [res] at h
      split_ifs at h
      · split at h <;> simp at h
      · split at h <;> simp at h
    | type nm lit =>
      simp only [res] at h
      split_ifs at h with h1
      rw [removeXml, removeStep]
      simp only [h1.2.1, if_true]
      unfold onAt removeOne
      show (Except.ok true, s.modify a (Node.setText (some []))) = _
      simp only
      congr 1
      exact Node.modify_congr hs rfl

theorem toPred_spec : ∀ {p : List Step} {c pr}, toPred p c = some pr → pr.steps = p ∧ pr.valued = c.isSome ∧ allChild p.dropLast = true
  | [], c, pr, h => by
    simp only [toPred, Option.some.injEq] at h
    subst h
    exact ⟨rfl, rfl, rfl⟩
  | .attr q :: r, c, pr, h => by
    simp only [toPred] at h
    split_ifs at h with h1
    simp only [List.isEmpty_iff] at h1
    subst h1
    simp only [Option.some.injEq] at h
    subst h
    exact ⟨rfl, rfl, rfl⟩
  | .text :: r, c, pr, h => by simp [toPred] at h
  | .child q ps :: r, c, pr, h => by
    simp only [toPred] at h
    split at h
    · rename_i p hp
      simp only [Option.some.injEq] at h
      subst h
      obtain ⟨h1, h2, h3⟩ := toPred_spec hp
      refine ⟨by rw [Pred.steps, h1], h2, ?_⟩
      cases r with
      | nil => rfl
      | cons st r => simpa [List.dropLast, allChild] using h3
    · simp at h

theorem canonical_eq {l r : Expr} (hc : (Expr.binary l .eq r).canonical = true) : l.canonical = true := by
  simp only [Expr.canonical, Bool.and_eq_true, Expr.lexSafe, Expr.shape, BinOp.prec] at hc
  obtain ⟨h1, ⟨h2, -⟩, -⟩ := hc
  simp only [Expr.canonical, Bool.and_eq_true]
  refine ⟨?_, h2⟩
  by_contra h
  simp [h] at h1

theorem emptyExcept_any {es ps} (h : ∀ n, removePreds eng ctx es (.elem []) n = onAt (stripAll ps) [] n n) (c : Node) :
    emptyExcept (fun r => removePreds eng ctx es r) c = bareAfter (stripAll ps) c := by
  unfold emptyExcept bareAfter
  simp only [h c, onAt, Node.modify_nil]
  rcases stripAll ps c with ⟨r, m⟩
  cases r <;> rfl

/-- A valued predicate that holds is removed by removing its path. -/
theorem removePred_path {l r : Expr} {p v pr} (heng : EngineOk eng) (hl : res ctx l = some (p, none)) (hr : resLit ctx r = some v) (hpr : toPred p (some v) = some pr)
    (hc : (Expr.binary l .eq r).canonical = true) {a s n} (hs : Node.get a s = some n) :
    removePred eng ctx (.binary l .eq r) (.elem a) s
      = if pr.sat n = true then (removeXml eng ctx l true (.elem a) >>= fun _ => pure ()) s else (.ok (), s) := by
  have hres : res ctx (.binary l .eq r) = some (p, some v) := by simp only [res, hl, hr]
  have hcon := constructible_of_res _ hres hpr
  have hev := evalXPath_cmp heng (parse0_ser hc) hres hpr hs
  by_cases hsat : pr.sat n = true
  · rw [hsat] at hev
    rw [if_pos hsat]
    cases l with
    | step ax t ps =>
      cases t with
      | name pfx nm =>
        rw [removePred, if_neg (by simp [hcon]), bind_ok hev, if_pos rfl, removeXml, removeStep]
        by_cases h1 : ax = some c%"@" ∨ ax = some c%"attribute"
        · have hna : ¬ (ax = none ∨ ax = some c%"child") := by rcases h1 with rfl | rfl <;> simp
          rw [if_pos h1, if_neg hna, if_pos h1]
        · rw [if_neg h1]
          have h2 : ax = none ∨ ax = some c%"child" := by
            by_contra h2
            simp only [res, if_neg h1, if_neg h2] at hl
            cases hl
          rw [if_pos h2]
      | type nm lit =>
        exfalso
        simp only [res] at hl
        split_ifs at hl
        simp only [Option.some.injEq, Prod.mk.injEq, and_true] at hl
        subst hl
        simp [toPred] at hpr
    | binary ll op lr =>
      rw [removePred, if_neg (by simp [hcon]), bind_ok hev, if_pos rfl]
    | _ => simp [res] at hl
  · rw [if_neg hsat]
    have hb : pr.sat n = false := by simpa using hsat
    rw [hb] at hev
    have hne : ¬ (XVal.bool false = XVal.bool true) := by simp
    cases l with
    | step ax t ps =>
      cases t with
      | name pfx nm =>
        rw [removePred, if_neg (by simp [hcon]), bind_ok hev, if_neg hne]
        rfl
      | type nm lit =>
        exfalso
        simp only [res] at hl
        split_ifs at hl
        simp only [Option.some.injEq, Prod.mk.injEq, and_true] at hl
        subst hl
        simp [toPred] at hpr
    | binary ll op lr =>
      rw [removePred, if_neg (by simp [hcon]), bind_ok hev, if_neg hne]
      rfl
    | _ => simp [res] at hl

theorem res_value {e : Expr} {p v} (h : res ctx e = some (p, some v)) : ∃ l r, e = .binary l .eq r ∧ res ctx l = some (p, none) ∧ resLit ctx r = some v := by
  cases e with
  | binary l op r =>
    cases op <;> simp only [res] at h
    case eq =>
      split at h <;> simp at h
      rename_i p' v' h1 h2
      obtain ⟨rfl, rfl⟩ := h
      exact ⟨l, r, rfl, h1, h2⟩
    case slash => split at h <;> simp at h
    all_goals simp at h
  | step ax t ps =>
    cases t with
    | name => simp only [res] at h; split_ifs at h <;> (split at h <;> simp at h)
    | type => simp only [res] at h; split_ifs at h; simp at h
  | _ => simp [res] at h

theorem removePred_noneq {e : Expr} {p} (h : res ctx e = some (p, none)) (node : Ref) (s : Node) : removePred eng ctx e node s = (.ok (), s) := by
  rw [removePred]
  · rfl
  · rintro l r rfl
    simp only [res] at h
    split at h <;> simp at h

/-- The code on simple paths, and on predicates. -/
theorem remove_any (heng : EngineOk eng) : ∀ N : Nat,
    (∀ (e : Expr), sizeOf e ≤ N → ∀ p, res ctx e = some (p, none) → e.canonical = true → allChild p.dropLast = true → ∀ ifEmpty a s n, Node.get a s = some n →
      removeXml eng ctx e ifEmpty (.elem a) s = onAt (pathR (!ifEmpty) p.reverse) a s n) ∧
    (∀ (es : List Expr), sizeOf es ≤ N → ∀ ps, resPreds ctx es = some ps → (∀ e ∈ es, e.canonical = true) → ∀ a s n, Node.get a s = some n →
      removePreds eng ctx es (.elem a) s = onAt (stripAll ps) a s n) := by
  intro N
  induction N with
  | zero =>
    constructor
    · intro e he; cases e <;> simp at he
    · intro es he; cases es <;> simp at he
  | succ N ih =>
    obtain ⟨ih1, ih2⟩ := ih
    constructor
    · intro e hN p hres hc hac ifEmpty a s n hs
      cases e with
      | step ax t es =>
        obtain ⟨st, rfl⟩ := res_step hres
        rw [removeStep_any heng hres hc ?_ ifEmpty hs]
        · unfold onAt
          simp only [List.reverse_singleton, pathR_one]
          cases ifEmpty <;> rfl
        · rintro q ps rfl c
          obtain ⟨pfx, nm, rfl, hax, hps⟩ := res_child_step hres
          refine emptyExcept_any (fun m => ih2 es ?_ ps hps (canonical_preds hc) [] m m rfl) c
          simp at hN; omega
      | binary l op r =>
        cases op with
        | slash =>
          obtain ⟨hcl, hcr, ax, t, es, rfl⟩ := canonical_slash hc hres
          simp only [res] at hres
          split at hres <;> simp only [reduceCtorEq, Option.some.injEq, Prod.mk.injEq, and_true] at hres
          rename_i p1 p2 hl hr'
          subst hres
          have hr : res ctx (.step ax t es) = some (p2, none) := hr'
          obtain ⟨st, rfl⟩ := res_step hr
          rw [List.dropLast_concat] at hac
          rw [removeXml_slash, bind_ok (findNode_path heng (parse0_ser hcl) hl hs)]
          have hrev : (p1 ++ [st]).reverse = st :: p1.reverse := by simp
          unfold onAt
          rw [hrev]
          cases hh : (Step.matches p1 n).head? with
          | none =>
            rw [pathR_none _ _ (by rw [List.reverse_reverse]; exact hh)]
            simp only [Option.map_none, pure_run]
            rw [Node.modify_id hs rfl]
          | some x =>
            obtain ⟨b, rfl⟩ := matches_allChild hac (List.mem_of_mem_head? hh)
            obtain ⟨m, hm⟩ := get_of_match _ _ _ (List.mem_of_mem_head? hh)
            rw [show (Ref.elem b).addr = b from rfl] at hm
            have hgb : Node.get (a ++ b) s = some m := by rw [Node.get_append, hs]; exact hm
            rw [pathR_hit _ _ (by rw [List.reverse_reverse]; exact hh) hm]
            simp only [Option.map_some]
            rw [bind_ok (show foundRef (.ref ((Ref.elem b).under a)) s = (.ok (.elem (a ++ b)), s) from rfl)]
            have hone := ih1 (.step ax t es) (by simp at hN ⊢; omega) [st] hr hcr rfl ifEmpty (a ++ b) s m hgb
            simp only [onAt, List.reverse_singleton, pathR_one] at hone
            have hkeep := removeOne_keep (st := st) (test := if (!ifEmpty) = true then (fun _ => .ok true) else Step.test st) (n := m)
            generalize removeOne st (if (!ifEmpty) = true then (fun _ => .ok true) else Step.test st) m = R at hone hkeep ⊢
            obtain ⟨r, m'⟩ := R
            match r with
            | .error er =>
              simp only [ne_eq, reduceCtorEq, not_false_eq_true, forall_const] at hkeep
              subst hkeep
              rw [Node.modify_id hgb rfl] at hone
              rw [bind_err hone]
              simp only [andThen]
              rw [Node.modify_id hs rfl]
            | .ok false =>
              simp at hkeep
              subst hkeep
              rw [Node.modify_id hgb rfl] at hone
              rw [bind_ok hone]
              simp only [andThen, Bool.false_eq_true, if_false, pure_run]
              rw [Node.modify_id hs rfl]
            | .ok true =>
              rw [bind_ok hone]
              simp only [if_true, andThen]
              have hs' : Node.get a (s.modify (a ++ b) (fun _ => m')) = some (n.modify b (fun _ => m')) := by
                rw [Node.modify_append, Node.get_modify, hs]; rfl
              have hac' : allChild p1.dropLast = true := by
                rcases List.eq_nil_or_concat p1 with rfl | ⟨p', st', rfl⟩
                · rfl
                · rw [List.concat_eq_append] at hac ⊢
                  rw [List.dropLast_concat]; exact (allChild_left hac).1
              have hl2 := ih1 l (by simp at hN ⊢; omega) p1 hl hcl hac' true a _ _ hs'
              unfold onAt at hl2
              simp only [Bool.not_true] at hl2
              have hcol : ∀ x : Node, (s.modify (a ++ b) (fun _ => m')).modify a (fun _ => x) = s.modify a (fun _ => x) := by
                intro x
                rw [Node.modify_append, Node.modify_modify]
                rfl
              rw [hcol] at hl2
              generalize pathR false p1.reverse (n.modify b fun _ => m') = R2 at hl2 ⊢
              obtain ⟨r2, n2⟩ := R2
              cases r2 with
              | error er => rw [bind_err hl2]
              | ok x => rw [bind_ok hl2]; rfl
        | eq =>
          simp only [res] at hres
          split at hres <;> simp at hres
        | _ => simp [res] at hres
      | _ => simp [res] at hres
    · intro es hN ps hps hc a s n hs
      cases es with
      | nil =>
        simp only [resPreds, Option.some.injEq] at hps
        subst hps
        unfold onAt
        simp only [stripAll, removePreds]
        rw [Node.modify_id hs rfl]
        rfl
      | cons e es =>
        simp only [resPreds] at hps
        split at hps
        swap
        · simp at hps
        rename_i p cmp hres
        split at hps
        swap
        · simp at hps
        simp only [Option.some.injEq] at hps
        rename_i pr prs hpr hprs
        subst hps
        obtain ⟨hst, hv, hac⟩ := toPred_spec hpr
        have h0 : removePreds eng ctx (e :: es) (.elem a) s
            = (removePred eng ctx e (.elem a) >>= fun _ => removePreds eng ctx es (.elem a)) s := by rw [removePreds]
        have h1 : removePred eng ctx e (.elem a) s = onAt (stripP pr) a s n := by
          unfold onAt stripP
          cases cmp with
          | none =>
            rw [removePred_noneq hres]
            rw [if_neg (by rw [hv]; simp)]
            simp only
            rw [Node.modify_id hs rfl]
          | some v =>
            obtain ⟨l, r, rfl, hl, hr⟩ := res_value hres
            have hcc := hc _ (List.mem_cons_self)
            rw [removePred_path heng hl hr hpr hcc hs, hv]
            by_cases hsat : pr.sat n = true
            · rw [if_pos hsat, if_pos ⟨rfl, hsat⟩]
              have hrun := ih1 l (by simp at hN ⊢; omega) p hl (canonical_eq hcc) hac true a s n hs
              unfold onAt at hrun
              simp only [Bool.not_true] at hrun
              rw [hst]
              generalize pathR false p.reverse n = R at hrun ⊢
              obtain ⟨r', n'⟩ := R
              cases r' with
              | error er => rw [bind_err hrun]; rfl
              | ok x => rw [bind_ok hrun]; rfl
            · rw [if_neg hsat, if_neg (by simp [hsat])]
              simp only
              rw [Node.modify_id hs rfl]
        rw [h0]
        unfold onAt at h1 ⊢
        rw [stripAll_cons]
        unfold seqA
        generalize stripP pr n = R at h1 ⊢
        obtain ⟨r, n'⟩ := R
        cases r with
        | error er => rw [bind_err h1]
        | ok u =>
          cases u
          rw [bind_ok h1]
          have hs' : Node.get a (s.modify a (fun _ => n')) = some n' := by rw [Node.get_modify, hs]; rfl
          have := ih2 es (by simp at hN ⊢; omega) prs hprs (fun e he => hc e (by simp [he])) a _ n' hs'
          rw [this]
          unfold onAt
          simp only
          rw [Node.modify_modify]
          rfl

end Fields
