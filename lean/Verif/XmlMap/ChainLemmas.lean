import Verif.XmlMap.PrunedLemmas
import Verif.XmlMap.GraftLemmas
/-
Deleting with any predicates: what is removed besides the match.
-/
namespace Fields
open Xml XPath Spec

set_option linter.unusedSectionVars false

/-! ### errors -/

variable [PyUnicode]

theorem allChild_iff : ∀ {p : List Step}, allChild p = true ↔ ∀ st ∈ p, ∃ q ps, st = .child q ps
  | [] => by simp [allChild]
  | .child q ps :: r => by simp [allChild, allChild_iff]
  | .attr q :: r => by simp [allChild]
  | .text :: r => by simp [allChild]

theorem andThen_snd (m' : Node) (b : Node.Addr) (n : Node) (next : Act Bool) :
    (andThen (.ok true, m') b n next).2 = (next (n.modify b (fun _ => m'))).2 := by
  simp only [andThen]
  generalize next (n.modify b fun _ => m') = R
  obtain ⟨r, n'⟩ := R
  cases r <;> rfl

theorem andThen_voided (m' : Node) (b : Node.Addr) (n : Node) (next : Act Bool) :
    voided (andThen (.ok true, m') b n next) = voided (next (n.modify b (fun _ => m'))) := by
  simp only [andThen]
  generalize next (n.modify b fun _ => m') = R
  obtain ⟨r, n'⟩ := R
  cases r <;> rfl

theorem removeOne_err {E : PyErr → Prop} {st : Step} {test : Node → Except PyErr Bool} (H : ∀ m e, test m = .error e → E e)
    (K : allChild [st] = true ∨ E .keyError) {n : Node} {e} (h : (removeOne st test n).1 = .error e) : E e := by
  unfold removeOne at h
  cases st with
  | child q ps =>
    simp only at h
    split at h
    · simp at h
    · split at h
      · simp at h
      · split at h
        · rename_i c _ e' he
          simp only [Except.error.injEq] at h
          subst h
          exact H _ _ he
        · simp at h
        · simp at h
  | attr q =>
    simp only at h
    split_ifs at h with h1
    simp only [Except.error.injEq] at h
    subst h
    rcases K with K | K
    · simp [allChild] at K
    · exact K
  | text => simp at h

theorem pathR_err {E : PyErr → Prop} : ∀ (rp : List Step) (force : Bool) (_ : ∀ st ∈ rp, ∀ m e, Step.test st m = .error e → E e)
    (_ : allChild rp = true ∨ E .keyError) (n : Node) (e), (pathR force rp n).1 = .error e → E e
  | [], _, _, _, n, e, h => by simp [pathR] at h
  | st :: rp, force, H, K, n, e, h => by
    have K1 : allChild [st] = true ∨ E .keyError := K.imp_left (fun h => allChild_iff.mpr (fun s hs => allChild_iff.mp h s (by simp at hs; simp [hs])))
    have K2 : allChild rp = true ∨ E .keyError := K.imp_left (fun h => allChild_iff.mpr (fun s hs => allChild_iff.mp h s (by simp [hs])))
    simp only [pathR] at h
    split at h
    · split at h
      · rename_i _ b hb _ m _
        have h1 := fun e' => removeOne_err (E := E) (e := e') (st := st) (test := if force = true then fun _ => .ok true else Step.test st) (n := m)
          (by
            intro m e he
            cases force
            · exact H st (by simp) m e (by simpa using he)
            · simp at he) K1
        generalize removeOne st (if force = true then fun _ => .ok true else Step.test st) m = R at h h1
        obtain ⟨r, m'⟩ := R
        match r with
        | .error e' => simp only [andThen, Except.error.injEq] at h; subst h; exact h1 _ rfl
        | .ok false => simp [andThen] at h
        | .ok true =>
          have h2 := pathR_err rp false (fun st hst => H st (by simp [hst])) K2 (n.modify b (fun _ => m'))
          simp only [andThen] at h
          generalize pathR false rp (n.modify b fun _ => m') = R2 at h h2
          obtain ⟨r2, n2⟩ := R2
          cases r2 with
          | error e' => simp only [Except.error.injEq] at h; subst h; exact h2 _ rfl
          | ok x => simp at h
      · simp at h
    · simp at h

theorem onElem_steps : ∀ pr : Pred, pr.onElem = true → allChild pr.steps = true
  | .attr q c, h => by simp [Pred.onElem] at h
  | .here c, h => rfl
  | .child q ps rest, h => by
    have := onElem_steps rest h
    simpa only [Pred.steps, allChild] using this

theorem steady_steps : ∀ pr : Pred, pr.steady = true → ∀ {q ps}, Step.child q ps ∈ pr.steps → steadyAll ps = true
  | .attr q c, _, q', ps', h => by simp [Pred.steps] at h
  | .here c, _, q', ps', h => by simp [Pred.steps] at h
  | .child q ps rest, hs, q', ps', h => by
    simp only [Pred.steady, Bool.and_eq_true] at hs
    simp only [Pred.steps, List.mem_cons, Step.child.injEq] at h
    rcases h with ⟨rfl, rfl⟩ | h
    · exact hs.1.2
    · exact steady_steps rest hs.2 h

theorem strip_err {E : PyErr → Prop} : ∀ (N : Nat) (ps : List Pred), sizeOf ps ≤ N → steadyAll ps = true ∨ E .keyError → ∀ n e, (stripAll ps n).1 = .error e → E e := by
  intro N
  induction N with
  | zero => intro ps h; cases ps <;> simp at h
  | succ N ih =>
    intro ps h K n e he
    cases ps with
    | nil => simp [stripAll] at he
    | cons p ps =>
      rw [stripAll_cons] at he
      have K1 : p.steady = true ∨ E .keyError := K.imp_left (fun h => by simp only [steadyAll, Bool.and_eq_true] at h; exact h.1)
      have K2 : steadyAll ps = true ∨ E .keyError := K.imp_left (fun h => by simp only [steadyAll, Bool.and_eq_true] at h; exact h.2)
      have h1 : ∀ e, (stripP p n).1 = .error e → E e := by
        intro e he
        unfold stripP at he
        split_ifs at he with hc
        by_cases hat : ∃ q c, p = .attr q c
        · obtain ⟨q, c, rfl⟩ := hat
          exfalso
          obtain ⟨hv, hsat⟩ := hc
          simp only [Pred.steps, List.reverse_singleton, pathR_one, removeOne, voided] at he
          have : (n.attr? q).isSome = true := by
            simp only [Pred.sat] at hsat
            cases h : n.attr? q with
            | none => rw [h] at hsat; cases c <;> simp at hsat
            | some v => rfl
          rw [if_pos this] at he
          simp [Except.map] at he
        · have Hst : ∀ st ∈ p.steps.reverse, ∀ m e, Step.test st m = .error e → E e := by
            intro st hst m e hte
            rw [List.mem_reverse] at hst
            unfold Step.test bareAfter at hte
            split at hte
            · simp at hte
            · rename_i e' _ hse
              simp only [Except.error.injEq] at hte
              subst hte
              cases st with
              | child q ps1 =>
                have := steps_size p hst
                refine ih ps1 (by simp at h; omega) (K1.imp_left (fun h => steady_steps p h hst)) m _ ?_
                rw [show (Step.child q ps1).preds = ps1 from rfl] at hse
                rw [hse]
              | attr q => simp [Step.preds, stripAll] at hse
              | text => simp [Step.preds, stripAll] at hse
          refine pathR_err (E := E) p.steps.reverse false Hst ?_ n e ?_
          · refine K1.imp_left (fun h => ?_)
            have : p.onElem = true := by
              cases p with
              | attr q c => exact absurd ⟨q, c, rfl⟩ hat
              | here c => rfl
              | child q ps rest => simp only [Pred.steady, Bool.and_eq_true] at h; exact h.1.1
            have := onElem_steps p this
            exact allChild_iff.mpr (fun s hs => allChild_iff.mp this s (List.mem_reverse.mp hs))
          · unfold voided at he
            simp only at he
            generalize (pathR false p.steps.reverse n).1 = r at he ⊢
            cases r with
            | error e' => simpa [Except.map] using he
            | ok x => simp [Except.map] at he
      unfold seqA at he
      generalize stripP p n = R at h1 he
      obtain ⟨r, n'⟩ := R
      cases r with
      | error e' => simp only [Except.error.injEq] at he; subst he; exact h1 _ rfl
      | ok u => exact ih ps (by simp at h; omega) K2 n' e he

theorem test_err {E : PyErr → Prop} {st : Step} (K : steadyAll st.preds = true ∨ E .keyError) (m : Node) (e) (h : Step.test st m = .error e) : E e := by
  unfold Step.test bareAfter at h
  split at h
  · simp at h
  · rename_i e' _ hse
    simp only [Except.error.injEq] at h
    subst h
    exact strip_err _ st.preds (Nat.le_refl _) K m _ (by rw [hse])

/-! ### the chain -/

/-- Cleaning up removes nothing, or one ancestor-or-self `c` of the element at `b`, and each element from `c` down to `b` has (without the next one)
nothing but what the predicates of its step require with a value. -/
theorem chain_any : ∀ (pre : List Step) (b : Node.Addr) (n : Node), allChild pre = true → pathOk pre = true → (Step.matches pre n).head? = some (.elem b) →
    (pathR false pre.reverse n).2 = n ∨ ∃ c, c ≠ [] ∧ c <+: b ∧ (pathR false pre.reverse n).2 = removeAt c n ∧
      ∀ d, c <+: d → d <+: b → ∀ m, n.get d = some m → ∃ st, pre[d.length - 1]? = some st ∧ Leftover st.preds (without b d m) := by
  intro pre
  induction pre using List.reverseRecOn with
  | nil => intro b n _ _ _; exact .inl rfl
  | append_singleton p0 st ih =>
    intro b n hac hok hh
    obtain ⟨hac0, hac1⟩ := allChild_left hac
    obtain ⟨-, h2, -⟩ := pathOk_append hok (by simp)
    rw [List.reverse_append, List.reverse_singleton, List.singleton_append]
    cases hb0 : (Step.matches p0 n).head? with
    | none => left; rw [pathR_none _ _ (by rw [List.reverse_reverse]; exact hb0)]
    | some x =>
      obtain ⟨b0, rfl⟩ := matches_allChild hac0 (List.mem_of_mem_head? hb0)
      obtain ⟨m0, hm0⟩ := get_of_match _ _ _ (List.mem_of_mem_head? hb0)
      rw [show (Ref.elem b0).addr = b0 from rfl] at hm0
      rw [pathR_hit _ _ (by rw [List.reverse_reverse]; exact hb0) hm0]
      simp only [Bool.false_eq_true, if_false]
      cases st with
      | attr q => simp [allChild] at hac1
      | text => simp [allChild] at hac1
      | child q ps =>
        cases hhd : (Step.matches [.child q ps] m0).head? with
        | none => left; unfold removeOne; simp only [hhd, andThen]
        | some y =>
          obtain ⟨i, c, rfl, hci, hcq, hcs⟩ := match_child_one (List.mem_of_mem_head? hhd)
          have hb := head_append h2 hb0 hm0 hhd
          rw [hh] at hb
          simp only [Option.some.injEq, Ref.under, Ref.elem.injEq] at hb
          subst hb
          have hg0 : m0.get [i] = some c := by simp [Node.get_cons, hci]
          have hgb : n.get (b0 ++ [i]) = some c := by rw [Node.get_append, hm0]; exact hg0
          cases ht : Step.test (.child q ps) c with
          | error e => left; unfold removeOne; simp only [hhd, Ref.addr, hg0, ht, andThen]
          | ok t =>
            cases t with
            | false => left; unfold removeOne; simp only [hhd, Ref.addr, hg0, ht, andThen]
            | true =>
              have hone : removeOne (.child q ps) (Step.test (.child q ps)) m0 = (.ok true, removeAt [i] m0) := by
                unfold removeOne; simp only [hhd, Ref.addr, hg0, ht]
              have hn1 : n.modify b0 (fun _ => removeAt [i] m0) = removeAt (b0 ++ [i]) n := by
                rw [removeAt_under _ _ (by simp)]
                exact Node.modify_congr hm0 rfl
              rw [hone, andThen_snd, hn1]
              have hfirst : (Step.matches p0 (removeAt (b0 ++ [i]) n)).head? = some (.elem b0) := by
                rw [removeAt_under _ _ (by simp)]
                apply first_stays h2 hb0 hm0 (removeAt_tag _ _)
                intro q' ps' hl' hsat'
                obtain ⟨o1, o2⟩ := last_ok hok hl'
                have := satAll_removeChild o1 o2 hci hcq
                rw [show removeAt [i] m0 = m0.removeChild i from rfl, this]
                exact hsat'
              have hlen : b0.length = p0.length := match_addr_length p0 n b0 (List.mem_of_mem_head? hb0)
              have hstb : (p0 ++ [Step.child q ps])[(b0 ++ [i]).length - 1]? = some (.child q ps) := by
                simp [hlen]
              have hself : Leftover (Step.child q ps).preds (without (b0 ++ [i]) (b0 ++ [i]) c) := by
                unfold without
                rw [List.getElem?_eq_none (Nat.le_refl _)]
                exact test_leftover ht
              have ih := ih b0 (removeAt (b0 ++ [i]) n) hac0 h2 hfirst
              generalize pathR false p0.reverse (removeAt (b0 ++ [i]) n) = R at ih ⊢
              obtain ⟨r, n'⟩ := R
              simp only at ih
              right
              rcases ih with h | ⟨c', hc1, hc2, hc3, hc4⟩
              · refine ⟨b0 ++ [i], by simp, List.prefix_refl _, h, ?_⟩
                intro d hd1 hd2 m hm
                have hdb : d = b0 ++ [i] := List.IsPrefix.eq_of_length_le hd2 hd1.length_le
                subst hdb
                rw [hgb] at hm
                simp only [Option.some.injEq] at hm
                subst hm
                exact ⟨_, hstb, hself⟩
              · have hcb : c' <+: b0 ++ [i] := hc2.trans (List.prefix_append _ _)
                have hcne : c' ≠ b0 ++ [i] := by
                  rintro rfl
                  have := hc2.length_le
                  simp at this
                refine ⟨c', hc1, hcb, by rw [hc3, removeAt_removeAt hc1 hcb hcne], ?_⟩
                intro d hd1 hd2 m hm
                by_cases hdb : d = b0 ++ [i]
                · subst hdb
                  rw [hgb] at hm
                  simp only [Option.some.injEq] at hm
                  subst hm
                  exact ⟨_, hstb, hself⟩
                · have hdp : d <+: b0 := by
                    rcases List.prefix_concat_iff.mp hd2 with h | h
                    · exact absurd h hdb
                    · exact h
                  obtain ⟨t, ht⟩ := hdp
                  have hbt : b0 ++ [i] = d ++ (t ++ [i]) := by rw [← ht, List.append_assoc]
                  have hgd : (removeAt (b0 ++ [i]) n).get d = some (removeAt (t ++ [i]) m) := by
                    rw [hbt, removeAt_under _ _ (by simp), Node.get_modify, hm]; rfl
                  obtain ⟨st', hst', hlo⟩ := hc4 d hd1 ⟨t, ht⟩ _ hgd
                  refine ⟨st', ?_, ?_⟩
                  · rw [List.getElem?_append_left]
                    · exact hst'
                    · exact (List.getElem?_eq_some_iff.mp hst').1
                  · have : without b0 d (removeAt (t ++ [i]) m) = without (b0 ++ [i]) d m := by
                      unfold without
                      rw [hbt, ← ht, List.getElem?_append_right (Nat.le_refl _), List.getElem?_append_right (Nat.le_refl _), Nat.sub_self]
                      cases t with
                      | nil => rfl
                      | cons j t =>
                        simp only [List.cons_append, List.getElem?_cons_zero]
                        have := removeAt_removeAt (c := [j]) (b := j :: (t ++ [i])) (by simp) ⟨t ++ [i], rfl⟩ (by simp) m
                        exact this
                    rw [← this]
                    exact hlo

/-! ### deleting -/

/-- The match is removed, then the path before is cleaned up. -/
theorem delete_split {p : List Step} (hok : pathOk p = true) (hp : p ≠ []) {n : Node} (hal : Aligned p n) {x} (hx : (Step.matches p n).head? = some x) (hnt : ∀ b, x ≠ .tail b) :
    voided (pathR true p.reverse n) = voided (pathR false p.dropLast.reverse (removeRef x n)) ∧
    allChild p.dropLast = true ∧ pathOk p.dropLast = true ∧ (Step.matches p.dropLast (removeRef x n)).head? = some (.elem (Ref.holder x)) := by
  obtain ⟨p1, st, rfl⟩ : ∃ r1 st, p = r1 ++ [st] := ⟨p.dropLast, p.getLast hp, (List.dropLast_concat_getLast hp).symm⟩
  obtain ⟨h1, h2, h3⟩ := pathOk_append hok (by simp)
  have hhold := hal x hx
  rw [List.dropLast_concat] at hhold ⊢
  obtain ⟨b, m, y, hb, hm, hy, hxy⟩ := (mem_matches_append h1).mp (List.mem_of_mem_head? hx)
  have hbe : Ref.holder x = b := by rw [hxy]; exact holder_under hy b
  rw [hbe] at hhold ⊢
  obtain ⟨y0, hy0⟩ : ∃ y0, (Step.matches [st] m).head? = some y0 := by
    cases hhd : Step.matches [st] m with
    | nil => rw [hhd] at hy; simp at hy
    | cons z zs => exact ⟨z, rfl⟩
  have hx' := head_append h2 hhold hm hy0
  rw [hx] at hx'
  simp only [Option.some.injEq] at hx'
  subst hx'
  have hy0m := List.mem_of_mem_head? hy0
  have hnt0 : ∀ b', y0 ≠ .tail b' := by rintro b' rfl; exact hnt (b ++ b') rfl
  have hfirst : (Step.matches p1 (n.modify b (removeRef y0))).head? = some (.elem b) := by
    apply first_stays h2 hhold hm (removeRef_tag hy0m)
    intro q' ps' hl' hsat'
    obtain ⟨o1, o2⟩ := last_ok hok hl'
    rw [satAll_removeRef o1 o2 hy0m]
    exact hsat'
  rw [removeRef_under hy0m hm]
  refine ⟨?_, h1, h2, hfirst⟩
  rw [List.reverse_append, List.reverse_singleton, List.singleton_append, pathR_hit _ _ (by rw [List.reverse_reverse]; exact hhold) hm]
  have hone : removeOne st (fun _ => .ok true) m = (.ok true, removeRef y0 m) := by
    unfold removeOne
    cases st with
    | child q ps =>
      obtain ⟨i, c, rfl, hci, -, -⟩ := match_child_one hy0m
      have hg0 : m.get [i] = some c := by simp [Node.get_cons, hci]
      simp only [hy0, Ref.addr, hg0]
      rfl
    | attr q =>
      obtain ⟨rfl, h⟩ := match_attr_one hy0m
      simp only [h, if_true]
      rfl
    | text =>
      rcases match_text_one hy0m with ⟨rfl, -⟩ | ⟨i, c, rfl, -⟩
      · rfl
      · exact absurd rfl (hnt0 [i])
  simp only [if_true, hone]
  rw [andThen_voided]
  congr 2
  exact Node.modify_congr hm rfl

/-! ### nothing matches afterwards -/

/-- After removing the only match, the path matches nothing. -/
theorem removeRef_nomatch {p : List Step} (hok : pathOk p = true) (hp : p ≠ []) (hl : p.getLast? ≠ some .text)
    {n : Node} {x : Ref} (hx : Step.matches p n = [x]) (hal : Aligned p n) : Step.matches p (removeRef x n) = [] := by
  have hh : (Step.matches p n).head? = some x := by rw [hx]; rfl
  have hhold := hal x hh
  obtain ⟨pre, st, rfl⟩ : ∃ r1 st, p = r1 ++ [st] := ⟨p.dropLast, p.getLast hp, (List.dropLast_concat_getLast hp).symm⟩
  rw [List.dropLast_concat] at hhold
  obtain ⟨hpa, hprok, hst⟩ := pathOk_append hok (by simp)
  obtain ⟨m, hm, hkm, hsp⟩ := matches_split pre n _ hprok (List.mem_of_mem_head? hhold)
  obtain ⟨L, R, hL, hLR⟩ := hsp [st]
  have hL := hL hhold
  subst hL
  have h1 := hLR id hkm
  rw [Node.modify_id hm rfl, hx] at h1
  simp only [List.nil_append, id] at h1
  -- the match is in the holder
  have hmem : x ∈ Step.matches (pre ++ [st]) n := by rw [hx]; simp
  obtain ⟨b, m', y, hb, hm', hy, hxy⟩ := (mem_matches_append hpa).mp hmem
  have hbx : b = Ref.holder x := by rw [hxy, holder_under hy]
  rw [← hbx] at hm h1 hLR
  rw [hm] at hm'
  simp only [Option.some.injEq] at hm'
  subst hm'
  have hone : Step.matches [st] m = [y] ∧ R = [] := by
    cases hs : Step.matches [st] m with
    | nil => rw [hs] at hy; simp at hy
    | cons z l =>
      rw [hs] at h1
      simp only [List.map_cons, List.cons_append, List.cons.injEq, List.nil_eq_append_iff, List.map_eq_nil_iff] at h1
      obtain ⟨h3, rfl, h5⟩ := h1
      rw [hs] at hy
      simp only [List.mem_singleton] at hy
      exact ⟨by rw [hy], h5⟩
  obtain ⟨hone, rfl⟩ := hone
  rw [hxy, removeRef_under hy hm, hLR (removeRef y)]
  · simp only [List.nil_append, List.append_nil, List.map_eq_nil_iff]
    cases st with
    | child q ps =>
      obtain ⟨i, c, rfl, -, -, -⟩ := match_child_one hy
      show Step.matches _ (removeAt [i] m) = []
      exact eraseIdx_nomatch hone
    | attr q =>
      obtain ⟨rfl, -⟩ := match_attr_one hy
      show Step.matches _ (m.modify [] (Node.delAttr q)) = []
      simp [Step.matches, Node.attr?_delAttr]
    | text => simp at hl
  · apply keeps_of_sat (removeRef_tag hy)
    intro q ps hpl
    obtain ⟨o1, o2⟩ := last_ok hok hpl
    rw [satAll_removeRef o1 o2 hy]
    rw [hpl] at hkm
    exact hkm.2


/-- Removing something inside of the element of the next step keeps the predicates. -/
theorem satAll_removeAt {ps : List Pred} {q ps1 r} (ho : okAll ps = true) (hn : nextOk ps (.child q ps1 :: r) = true) {m c : Node} {j}
    (hc : m.children[j]? = some c) (hq : c.isElem q = true) (b : Node.Addr) : satAll ps (removeAt (j :: b) m) = satAll ps m := by
  have hn' : nextOk ps [.child q ps1] = true := hn
  cases b with
  | nil => exact satAll_removeChild ho hn' hc hq
  | cons k b =>
    rw [removeAt_cons]
    apply satAll_local' ho
    · intro p _ q' _; simp [Node.attr?]
    · intro p hp q' hq'
      simp only [nextOk, List.all_eq_true, bne_iff_ne, ne_eq] at hn'
      have hne : q' ≠ q := by rintro rfl; exact hn' p hp hq'
      simp only [Node.withChildren_children]
      apply filter_modify_ne hne
      intro c' hc'
      rw [hc] at hc'
      simp only [Option.some.injEq] at hc'
      subst hc'
      exact ⟨hq, by simpa [Node.isElem, removeAt_tag] using hq⟩

/-- Removing an element on the path cannot make the path match. -/
theorem nomatch_removeAt : ∀ (p : List Step) (b : Node.Addr) (n : Node) (k : Nat), b ≠ [] → pathOk p = true → .elem b ∈ Step.matches (p.take k) n →
    Step.matches p n = [] → Step.matches p (removeAt b n) = []
  | [], b, n, _, _, _, _, h => by simp [Step.matches] at h
  | st :: r, b, n, 0, hb, _, hm, _ => by
    simp only [List.take_zero, Step.matches, List.mem_singleton, Ref.elem.injEq] at hm
    exact absurd hm hb
  | .attr q :: r, b, n, k + 1, _, _, hm, h => by
    exfalso
    have := (matches_kind _ _ _ hm).2.2 b rfl
    simp [allChild] at this
  | .text :: r, b, n, k + 1, _, _, hm, h => by
    exfalso
    have := (matches_kind _ _ _ hm).2.2 b rfl
    simp [allChild] at this
  | .child q ps :: r, b, n, k + 1, hb, hok, hm, h => by
    simp only [pathOk, Bool.and_eq_true] at hok
    rw [matches_child_nil_iff] at h ⊢
    rw [List.take_succ_cons] at hm
    obtain ⟨i, c, hc, hq, hs, y, hy, hxy⟩ := mem_matches_child.mp hm
    obtain ⟨b', rfl, rfl⟩ := elem_under_iff hxy
    cases b' with
    | nil =>
      intro c' hc'
      have : (removeAt [i] n).children = n.children.eraseIdx i := by simp [removeAt]
      rw [this] at hc'
      exact h c' (List.mem_of_mem_eraseIdx hc')
    | cons j b =>
      rw [removeAt_cons, Node.withChildren_children]
      intro c' hc' hq' hs'
      obtain ⟨l, hl, rfl⟩ := List.mem_iff_getElem.mp hc'
      rw [List.getElem_modify] at hq' hs' ⊢
      simp only [List.length_modify] at hl
      split_ifs at hq' hs' ⊢ with hil
      · subst hil
        have hci : n.children[i] = c := by
          rw [List.getElem?_eq_getElem hl] at hc
          exact Option.some.inj hc
        rw [hci] at hs' ⊢
        exact nomatch_removeAt r (j :: b) c k (by simp) hok.2 hy (h c (by rw [← hci]; exact List.getElem_mem hl) hq hs)
      · exact h _ (List.getElem_mem hl) hq' hs'

/-- The ancestors of a match match the beginning of the path. -/
theorem match_prefix : ∀ (p : List Step) (n : Node) (b c : Node.Addr), .elem b ∈ Step.matches p n → c <+: b → .elem c ∈ Step.matches (p.take c.length) n
  | p, n, b, [], _, _ => by simp [Step.matches]
  | [], n, b, i :: c, h, hcb => by
    simp only [Step.matches, List.mem_singleton, Ref.elem.injEq] at h
    subst h
    simp at hcb
  | .attr q :: r, n, b, i :: c, h, _ => by
    exfalso
    have := (matches_kind _ _ _ h).2.2 b rfl
    simp [allChild] at this
  | .text :: r, n, b, i :: c, h, _ => by
    exfalso
    have := (matches_kind _ _ _ h).2.2 b rfl
    simp [allChild] at this
  | .child q ps :: r, n, b, i :: c, h, hcb => by
    obtain ⟨i', m, hm, hq, hs, y, hy, hxy⟩ := mem_matches_child.mp h
    obtain ⟨b', rfl, rfl⟩ := elem_under_iff hxy
    obtain ⟨t, ht⟩ := hcb
    simp only [List.cons_append, List.cons.injEq] at ht
    obtain ⟨rfl, rfl⟩ := ht
    have := match_prefix r m _ c hy ⟨t, rfl⟩
    rw [List.length_cons, List.take_succ_cons]
    exact mem_matches_child.mpr ⟨i, m, hm, hq, hs, .elem c, this, rfl⟩

/-- After deleting the only match, the path matches nothing. -/
theorem delete_any_nomatch {p : List Step} (hok : pathOk p = true) (hp : p ≠ []) (hl : p.getLast? ≠ some .text)
    {n : Node} {x : Ref} (hx : Step.matches p n = [x]) (hal : Aligned p n) : Step.matches p (pathR true p.reverse n).2 = [] := by
  have hh : (Step.matches p n).head? = some x := by rw [hx]; rfl
  have hnt : ∀ b, x ≠ .tail b := by
    rintro b rfl
    exact hl ((matches_kind p n _ (List.mem_of_mem_head? hh)).2.1 b (.inr rfl))
  obtain ⟨h1, h2, h3, h4⟩ := delete_split hok hp hal hh hnt
  have hn := removeRef_nomatch hok hp hl hx hal
  have h1' : (pathR true p.reverse n).2 = (pathR false p.dropLast.reverse (removeRef x n)).2 := by simpa only [voided] using congrArg Prod.snd h1
  rw [h1']
  rcases chain_any p.dropLast _ _ h2 h3 h4 with h | ⟨c, hc1, hc2, hc3, -⟩
  · rw [h]; exact hn
  · rw [hc3]
    refine nomatch_removeAt p c _ (min c.length (p.length - 1)) hc1 hok ?_ hn
    have := match_prefix _ _ _ c (List.mem_of_mem_head? h4) hc2
    rw [List.dropLast_eq_take, List.take_take] at this
    exact this

end Fields
