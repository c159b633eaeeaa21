import Verif.XmlMap.ReadLemmas
import Verif.Spec.Delete
/-
`_remove_xml` on simple paths with attribute predicates.
-/
namespace Fields
open Xml XPath Spec

set_option linter.unusedSectionVars false
variable [PyUnicode] {eng : Engine} {ctx : Ctx}

theorem canonical_preds {ax t ps} (h : (Expr.step ax t ps).canonical = true) : ∀ e ∈ ps, e.canonical = true := by
  simp only [Expr.canonical, Bool.and_eq_true, Expr.lexSafe, Expr.shape] at h
  obtain ⟨h1, -, h2⟩ := h
  have h1 : Expr.shapes ps = true := by
    by_contra hc
    simp [hc] at h1
  clear * - h1 h2
  induction ps with
  | nil => simp
  | cons p ps ih =>
    simp only [Expr.shapes, Expr.lexSafes, Bool.and_eq_true] at h1 h2
    intro e he
    rcases List.mem_cons.mp he with rfl | he
    · simp [Expr.canonical, h1.1, h2.1]
    · exact ih h2.2 h1.2 e he

theorem evalXPath_cmp (heng : EngineOk eng) {xp e p v q} (hp : parse0 xp = .ok e) (hr : res ctx e = some (p, some v))
    (hq : toPred p (some v) = some q) {a s n} (hs : Node.get a s = some n) :
    evalXPath eng ctx xp (.elem a) s = (.ok (.bool (q.sat n)), s) := by
  have h := heng.cmp ctx xp e p v q s n a hp hr hq hs
  show (eng.xpath xp s a ctx, s) = _
  rw [h]

theorem removeAttr_run {pfx nm q} (h : attrName ctx pfx nm = (q, true)) {a s n} (hs : Node.get a s = some n)
    (hq : (n.attr? q).isSome = true) :
    removeAttr ctx pfx nm (.elem a) s = (.ok true, s.modify a (Node.delAttr q)) := by
  unfold removeAttr
  simp only
  rw [bind_ok (nodeAt_run hs), h]
  simp only [hq, if_true]
  rfl

/-- An AST that reads as a single attribute step. -/
theorem res_attr_step : ∀ {e : Expr} {q}, res ctx e = some ([.attr q], none) → ∃ ax pfx nm,
    e = .step ax (.name pfx nm) [] ∧ (ax = some c%"@" ∨ ax = some c%"attribute") ∧ attrName ctx pfx nm = (q, true) := by
  intro e q h
  cases e with
  | step ax t ps =>
    cases t with
    | name pfx nm =>
      simp only [res] at h
      split_ifs at h with h1 h2 h3
      · split at h <;> simp at h
      · split at h <;> simp at h
        rename_i q' hq'
        subst h
        simp only [Bool.and_eq_true, List.isEmpty_iff] at h3
        obtain ⟨rfl, -⟩ := h3
        exact ⟨ax, pfx, nm, rfl, h2, (resName_attr hq').1⟩
    | type nm lit =>
      simp only [res] at h
      split_ifs at h <;> simp at h
  | binary l op r =>
    cases op <;> simp only [res] at h
    case slash =>
      split at h <;> simp only [reduceCtorEq, Option.some.injEq, Prod.mk.injEq, and_true] at h
      rename_i p1 p2 hl hr
      have h1 := res_ne_nil l hl
      have h2 := res_ne_nil r hr
      have : (p1 ++ p2).length = 1 := by rw [h]; rfl
      have := List.length_pos_iff.mpr h1
      have := List.length_pos_iff.mpr h2
      simp only [List.length_append] at *
      omega
    case eq => split at h <;> simp at h
    all_goals simp at h
  | _ => simp [res] at h

/-- Keep the attributes not required with a value. -/
def stripAttrs (ps : List Pred) (m : Node) : Node := m.withAttrs (m.attrs.filter (fun a => decide (a.1 ∉ eqAttrs ps)))

theorem attrOnly_cons {p ps} (h : attrOnly (p :: ps) = true) : (∃ q c, p = .attr q c) ∧ attrOnly ps = true := by
  simp only [attrOnly, List.all_cons, Bool.and_eq_true] at h
  refine ⟨?_, h.2⟩
  cases p <;> simp_all [Pred.attrOf]

theorem toPred_attr {p : List Step} {c q c'} (h : toPred p c = some (.attr q c')) : p = [.attr q] ∧ c = c' := by
  cases p with
  | nil => simp [toPred] at h
  | cons s p =>
    cases s with
    | attr q' =>
      simp only [toPred] at h
      split_ifs at h with h1
      simp only [List.isEmpty_iff] at h1
      subst h1
      simp at h
      exact ⟨by rw [h.1], h.2⟩
    | child q' ps =>
      simp only [toPred] at h
      split at h <;> simp at h
    | text => simp [toPred] at h

theorem removePreds_run (heng : EngineOk eng) : ∀ (es : List Expr) (ps : List Pred), resPreds ctx es = some ps → (∀ e ∈ es, e.canonical = true) →
    attrOnly ps = true → okAll ps = true → ∀ a s n, Node.get a s = some n → satAll ps n = true →
    removePreds eng ctx es (.elem a) s = (.ok (), s.modify a (stripAttrs ps))
  | [], ps, h, _, _, _, a, s, n, hs, _ => by
    simp only [resPreds, Option.some.injEq] at h
    subst h
    have : stripAttrs [] n = n := by
      unfold stripAttrs
      have : n.attrs.filter (fun a => decide (a.1 ∉ eqAttrs [])) = n.attrs := by
        apply List.filter_eq_self.mpr; intro a _; simp [eqAttrs]
      rw [this]; simp
    rw [Node.modify_id hs this, removePreds]
    rfl
  | e :: es, ps, h, hc, hao, hok, a, s, n, hs, hsat => by
    simp only [resPreds] at h
    split at h
    swap
    · simp at h
    rename_i p cmp hres
    split at h
    swap
    · simp at h
    simp only [Option.some.injEq] at h
    rename_i pr prs hpr hprs
    subst h
    obtain ⟨⟨q, c', rfl⟩, hao'⟩ := attrOnly_cons hao
    obtain ⟨rfl, rfl⟩ := toPred_attr hpr
    simp only [okAll, Pred.attrOf, Bool.and_eq_true, decide_eq_true_eq] at hok
    obtain ⟨⟨-, hok'⟩, hdist⟩ := hok
    simp only [satAll, Bool.and_eq_true] at hsat
    have h0 : removePreds eng ctx (e :: es) (.elem a)
        = (removePred eng ctx e (.elem a) >>= fun _ => removePreds eng ctx es (.elem a)) := by rw [removePreds]
    have h0' : removePreds eng ctx (e :: es) (.elem a) s
        = (removePred eng ctx e (.elem a) >>= fun _ => removePreds eng ctx es (.elem a)) s := by rw [h0]
    rw [h0']
    cases cmp with
    | none =>
      obtain ⟨ax, pfx, nm, rfl, -, -⟩ := res_attr_step hres
      have h1 : removePred eng ctx (.step ax (.name pfx nm) []) (.elem a) s = (.ok (), s) := by
        rw [removePred]
        · rfl
        · simp
      rw [bind_ok h1]
      rw [removePreds_run heng es prs hprs (fun e he => hc e (by simp [he])) hao' hok' a s n hs hsat.2]
      congr 1
    | some v =>
      have hcon := constructible_of_res e hres hpr
      obtain ⟨l, r, rfl, hl, hv⟩ : ∃ l r, e = .binary l .eq r ∧ res ctx l = some ([.attr q], none) ∧ resLit ctx r = some v := by
        cases e with
        | binary l op r =>
          cases op <;> simp only [res] at hres
          case eq =>
            split at hres <;> simp at hres
            rename_i p' v' h1 h2
            obtain ⟨rfl, rfl⟩ := hres
            exact ⟨l, r, rfl, h1, h2⟩
          case slash => split at hres <;> simp at hres
          all_goals simp at hres
        | step ax t ps =>
          cases t with
          | name => simp only [res] at hres; split_ifs at hres <;> (split at hres <;> simp at hres)
          | type => simp only [res] at hres; split_ifs at hres; simp at hres
        | _ => simp [res] at hres
      obtain ⟨ax, pfx, nm, rfl, hax, hattr⟩ := res_attr_step hl
      have hev := evalXPath_cmp heng (parse0_ser (hc _ (by simp))) hres hpr hs
      rw [hsat.1] at hev
      have hq : (n.attr? q).isSome = true := by
        have := hsat.1
        simp only [Pred.sat] at this
        cases hh : n.attr? q <;> simp [hh] at this ⊢
      have h1 : removePred eng ctx (.binary (.step ax (.name pfx nm) []) .eq r) (.elem a) s
          = (.ok (), s.modify a (Node.delAttr q)) := by
        rw [removePred, if_neg (by simp [hcon]), bind_ok hev]
        simp only [if_true, hax]
        rw [bind_ok (removeAttr_run hattr hs hq)]
        rfl
      rw [bind_ok h1]
      have hs' : Node.get a (s.modify a (Node.delAttr q)) = some (n.delAttr q) := by rw [Node.get_modify, hs]; rfl
      have hsat' : satAll prs (n.delAttr q) = true := by
        rw [← hsat.2]
        apply satAll_local' hok'
        · intro p hp q' hq'
          rw [Node.attr?_delAttr, if_neg]
          rintro rfl
          exact hdist (List.mem_map.mpr ⟨p, hp, hq'⟩)
        · intro p _ q' _; simp
      rw [removePreds_run heng es prs hprs (fun e he => hc e (by simp [he])) hao' hok' a _ _ hs' hsat', Node.modify_modify]
      congr 1
      apply Node.modify_congr hs
      simp only [Function.comp, stripAttrs, Node.delAttr, Node.withAttrs_withAttrs, Node.withAttrs_attrs, List.filter_filter]
      congr 1
      apply List.filter_congr
      intro x _
      rw [Bool.eq_iff_iff]
      simp [eqAttrs]
      tauto

theorem emptyBut_strip (ps : List Pred) (m : Node) :
    ((stripAttrs ps m).children.isEmpty && (stripAttrs ps m).attrs.isEmpty) = emptyBut ps m := by
  unfold emptyBut stripAttrs
  simp only [Node.withAttrs_children, Node.withAttrs_attrs]
  congr 1
  rw [Bool.eq_iff_iff]
  simp [List.filter_eq_nil_iff]

theorem emptyExcept_run (heng : EngineOk eng) {es ps} (h : resPreds ctx es = some ps) (hc : ∀ e ∈ es, e.canonical = true)
    (hao : attrOnly ps = true) (hok : okAll ps = true) {m} (hsat : satAll ps m = true) :
    emptyExcept (fun r => removePreds eng ctx es r) m = .ok (emptyBut ps m) := by
  unfold emptyExcept
  have h1 := removePreds_run heng es ps h hc hao hok [] m m rfl hsat
  show (match removePreds eng ctx es (.elem []) m with
    | (.ok (), n') => Except.ok (n'.children.isEmpty && n'.attrs.isEmpty)
    | (.error e, _) => .error e) = _
  rw [h1]
  simp only [Node.modify_nil]
  rw [emptyBut_strip]

/-- An AST step that reads as a child step. -/
theorem res_child_step {ax t es q ps} (h : res ctx (.step ax t es) = some ([.child q ps], none)) :
    ∃ pfx nm, t = .name pfx nm ∧ (ax = none ∨ ax = some c%"child") ∧ resPreds ctx es = some ps := by
  cases t with
  | name pfx nm =>
    simp only [res] at h
    split_ifs at h with h1 h2 h3
    · split at h <;> simp at h
      rename_i q' l hq' hl
      obtain ⟨rfl, rfl⟩ := h
      exact ⟨pfx, nm, rfl, h1, hl⟩
    · split at h <;> simp at h
  | type nm lit =>
    simp only [res] at h
    split_ifs at h <;> simp at h

theorem match_child_one {q ps} {n : Node} {x} (h : x ∈ Step.matches [.child q ps] n) : ∃ i c, x = .elem [i] ∧ n.children[i]? = some c ∧
    c.isElem q = true ∧ satAll ps c = true := by
  obtain ⟨i, c, hc, hq, hs, y, hy, rfl⟩ := mem_matches_child.mp h
  simp only [Step.matches, List.mem_singleton] at hy
  subst hy
  exact ⟨i, c, rfl, hc, hq, hs⟩

theorem removeChild_run (heng : EngineOk eng) {ax t es q ps} (h : res ctx (.step ax t es) = some ([.child q ps], none))
    (hc : (Expr.step ax t es).canonical = true) (hao : attrOnly ps = true) (hok : okAll ps = true) {a s n} (hs : Node.get a s = some n)
    (ifEmpty : Bool) :
    removeXml eng ctx (.step ax t es) ifEmpty (.elem a) s
      = match (Step.matches [.child q ps] n).head? with
        | none => (.ok false, s)
        | some x => if !ifEmpty || (n.get x.addr).any (emptyBut ps) then (.ok true, s.modify a (removeAt x.addr)) else (.ok false, s) := by
  obtain ⟨pfx, nm, rfl, hax, hps⟩ := res_child_step h
  have hf := findNode_path heng (parse0_ser hc) h hs
  rw [removeXml, removeStep]
  simp only [hax, if_true]
  unfold removeChildNode
  rw [bind_ok hf]
  cases hh : (Step.matches [.child q ps] n).head? with
  | none => rfl
  | some x =>
    obtain ⟨i, c, rfl, hci, -, hsat⟩ := match_child_one (List.mem_of_mem_head? hh)
    have hgc : Node.get (a ++ [i]) s = some c := by rw [Node.get_append, hs]; simp [Node.get_cons, hci]
    have hgn : n.get [i] = some c := by simp [Node.get_cons, hci]
    simp only [Option.map_some]
    rw [show (Ref.elem [i]).under a = .elem (a ++ [i]) from rfl]
    simp only
    rw [bind_ok (nodeAt_run hgc), emptyExcept_run heng hps (canonical_preds hc) hao hok hsat]
    have hgo : (if ifEmpty = true then (Except.ok (emptyBut ps c) : Except PyErr Bool) else .ok true) = .ok (!ifEmpty || emptyBut ps c) := by
      cases ifEmpty <;> simp
    rw [hgo, bind_ok (ofExcept_run _ _)]
    rw [show (Ref.elem [i]).addr = [i] from rfl, hgn]
    simp only [Option.any_some]
    by_cases hg : (!ifEmpty || emptyBut ps c) = true
    · rw [if_pos hg, if_pos hg]
      have h1 : a ++ [i] ≠ [] := by simp
      have h2 : Ref.elem (a ++ [i]).dropLast = Ref.elem a := by simp
      rw [if_pos ⟨h1, h2⟩]
      simp only [List.dropLast_concat, List.getLast?_concat, Option.getD_some]
      show (Except.ok true, s.modify a (Node.removeChild i)) = _
      rfl
    · rw [if_neg hg, if_neg hg]; rfl

theorem filter_eraseIdx {q : QName} : ∀ (l : List Node) (i : Nat), (∀ c, l[i]? = some c → c.isElem q = false) →
    (l.eraseIdx i).filter (Node.isElem q) = l.filter (Node.isElem q)
  | [], _, _ => by simp
  | c :: l, 0, h => by simp [h c rfl]
  | c :: l, i + 1, h => by
    simp only [List.eraseIdx_cons_succ, List.filter_cons]
    rw [filter_eraseIdx l i (by simpa using h)]

/-- Removing a match of the next step keeps the predicates of the step before. -/
theorem satAll_removeChild {ps2 : List Pred} {q ps} (ho : okAll ps2 = true) (hn : nextOk ps2 [.child q ps] = true) {m c : Node} {i}
    (hc : m.children[i]? = some c) (hq : c.isElem q = true) : satAll ps2 (m.removeChild i) = satAll ps2 m := by
  apply satAll_local' ho
  · intro p _ q' _; simp [Node.attr?]
  · intro p hp q' hq'
    simp only [nextOk, List.all_eq_true, bne_iff_ne, ne_eq] at hn
    simp only [Node.removeChild_children]
    apply filter_eraseIdx
    intro c' hc'
    rw [hc] at hc'
    simp only [Option.some.injEq] at hc'
    subst hc'
    have : q' ≠ q := by rintro rfl; exact hn p hp hq'
    simp only [Node.isElem, beq_iff_eq, beq_eq_false_iff_ne, ne_eq] at hq ⊢
    rw [hq]
    simpa using fun h => this h.symm

theorem first_stays {pre : List Step} {n : Node} {b m} (hok : pathOk pre = true) (hh : (Step.matches pre n).head? = some (.elem b))
    (hm : n.get b = some m) {f : Node → Node} (htag : (f m).tag = m.tag)
    (hf : ∀ q ps, pre.getLast? = some (.child q ps) → satAll ps m = true → satAll ps (f m) = true) :
    (Step.matches pre (n.modify b f)).head? = some (.elem b) := by
  obtain ⟨m', hm', hkm, hsp⟩ := matches_split pre n b hok (List.mem_of_mem_head? hh)
  rw [hm] at hm'
  simp only [Option.some.injEq] at hm'
  subst hm'
  obtain ⟨L, R, hL, hLR⟩ := hsp []
  have := hLR f ?_
  · rw [List.append_nil] at this
    rw [this, hL hh]
    simp [Step.matches, Ref.under]
  · apply keeps_of_sat htag
    intro q ps hl
    rw [hl] at hkm
    exact hf q ps hl hkm.2

theorem cleanup_snoc (pre : List Step) (st : Step) (b) (n : Node) : cleanup (pre ++ [st]) b n
    = if (n.get b).any (emptyBut st.preds) = true ∧ (Step.matches pre n).head? = some (.elem b.dropLast) then
        cleanup pre b.dropLast (removeAt b n)
      else n := by
  unfold cleanup
  rw [List.reverse_append]
  simp only [List.reverse_cons, List.reverse_nil, List.nil_append, List.singleton_append]
  rw [cleanupR, List.reverse_reverse]

theorem attrPreds_append {p1 p2 : List Step} (h : attrPreds (p1 ++ p2) = true) : attrPreds p1 = true ∧ attrPreds p2 = true := by
  simpa [attrPreds, List.all_append] using h

/-- The first match of a longer path, if the first match of its prefix contains one. -/
theorem head_append {pre r : List Step} {n m : Node} {b x} (hok : pathOk pre = true) (hh : (Step.matches pre n).head? = some (.elem b))
    (hm : n.get b = some m) (hx : (Step.matches r m).head? = some x) : (Step.matches (pre ++ r) n).head? = some (x.under b) := by
  obtain ⟨m', hm', hkm, hsp⟩ := matches_split pre n b hok (List.mem_of_mem_head? hh)
  rw [hm] at hm'
  simp only [Option.some.injEq] at hm'
  subst hm'
  obtain ⟨L, R, hL, hLR⟩ := hsp r
  have := hLR id hkm
  rw [Node.modify_id hm rfl, hL hh] at this
  rw [this]
  simp only [id, List.nil_append, List.head?_append, List.head?_map, hx]
  rfl

theorem removeAt_under (a b : Node.Addr) (hb : b ≠ []) (s : Node) : removeAt (a ++ b) s = s.modify a (removeAt b) := by
  unfold removeAt
  have : (a ++ b).getLast? = b.getLast? := by
    rw [List.getLast?_append]
    cases h : b.getLast? with
    | none => exact absurd (List.getLast?_eq_none_iff.mp h) hb
    | some => rfl
  rw [List.dropLast_append_of_ne_nil hb, Node.modify_append, this]

/-- Cleaning up after a removal. -/
theorem removeXml_clean (heng : EngineOk eng) : ∀ (e : Expr) (pre : List Step), res ctx e = some (pre, none) → pathOk pre = true →
    allChild pre = true → attrPreds pre = true → e.canonical = true → ∀ a s n b, Node.get a s = some n →
    (Step.matches pre n).head? = some (.elem b) →
    ∃ r, removeXml eng ctx e true (.elem a) s = (.ok r, s.modify a (cleanup pre b))
  | .step ax t es, pre, h, hok, hac, hap, hc, a, s, n, b, hs, hh => by
    obtain ⟨st, rfl⟩ := res_step h
    cases st with
    | attr => cases hac
    | text => cases hac
    | child q ps =>
      have hap' : attrOnly ps = true := by simpa [attrPreds, Step.preds] using hap
      simp only [pathOk, nextOk, Bool.and_true] at hok
      rw [removeChild_run heng h hc hap' hok hs true, hh]
      obtain ⟨i, c, hx, -, -, -⟩ := match_child_one (List.mem_of_mem_head? hh)
      simp only [Ref.elem.injEq] at hx
      subst hx
      have hcl : cleanup [.child q ps] [i] n = if (n.get [i]).any (emptyBut ps) = true then removeAt [i] n else n := by
        rw [show [Step.child q ps] = [] ++ [Step.child q ps] from rfl, cleanup_snoc]
        simp only [Step.preds, Step.matches, List.head?_cons, List.dropLast_singleton, and_true]
        rfl
      simp only [Bool.not_true, Bool.false_or]
      rw [show (Ref.elem [i]).addr = [i] from rfl]
      by_cases hg : (n.get [i]).any (emptyBut ps) = true
      · rw [if_pos hg]
        exact ⟨true, by rw [Node.modify_congr hs (g := cleanup [.child q ps] [i])]; rw [hcl, if_pos hg]⟩
      · rw [if_neg hg]
        refine ⟨false, ?_⟩
        rw [Node.modify_id hs]
        rw [hcl, if_neg hg]
  | .binary l .slash r, p, h, hok, hac, hap, hc, a, s, n, b, hs, hh => by
    obtain ⟨hcl, hcr, ax, t, es, rfl⟩ := canonical_slash hc h
    simp only [res] at h
    split at h <;> simp only [reduceCtorEq, Option.some.injEq, Prod.mk.injEq, and_true] at h
    rename_i p1 p2 hl hr
    subst h
    have hr : res ctx (.step ax t es) = some (p2, none) := hr
    obtain ⟨st, rfl⟩ := res_step hr
    obtain ⟨h1, h2, h3⟩ := pathOk_append hok (by simp)
    obtain ⟨hap1, hap2⟩ := attrPreds_append hap
    cases st with
    | attr => exact absurd (createNode_run.allChild_right hac) (by simp [allChild])
    | text => exact absurd (createNode_run.allChild_right hac) (by simp [allChild])
    | child q ps =>
    have hap' : attrOnly ps = true := by simpa [attrPreds, Step.preds] using hap2
    have hok3 := h3
    simp only [pathOk, nextOk, Bool.and_true] at hok3
    have hf := findNode_path heng (parse0_ser hcl) hl hs
    -- the first match of the left part
    obtain ⟨bp, hbp⟩ : ∃ bp, (Step.matches p1 n).head? = some (.elem bp) := by
      obtain ⟨bp, m, y, hb, -⟩ := (mem_matches_append h1).mp (List.mem_of_mem_head? hh)
      cases hhd : Step.matches p1 n with
      | nil => rw [hhd] at hb; simp at hb
      | cons x xs =>
        obtain ⟨bb, rfl⟩ := matches_allChild h1 (n := n) (x := x) (by rw [hhd]; simp)
        exact ⟨bb, rfl⟩
    obtain ⟨mp, hmp⟩ := get_of_match p1 n _ (List.mem_of_mem_head? hbp)
    rw [show (Ref.elem bp).addr = bp from rfl] at hmp
    have hgp : Node.get (a ++ bp) s = some mp := by rw [Node.get_append, hs]; exact hmp
    have hdef : removeXml eng ctx (.binary l .slash (.step ax t es)) true (.elem a) s
        = (findNode eng ctx l.ser (.elem a) >>= fun o => match o with
          | none => pure false
          | some f => foundRef f >>= fun left => removeXml eng ctx (.step ax t es) true left >>= fun removed =>
            if removed then removeXml eng ctx l true (.elem a) >>= fun _ => pure true else pure false) s := by
      rw [removeXml]; rfl
    rw [hdef, bind_ok hf, hbp]
    simp only [Option.map_some]
    rw [bind_ok (show foundRef (.ref ((Ref.elem bp).under a)) s = (.ok (.elem (a ++ bp)), s) from rfl)]
    have hrun := removeChild_run heng hr hcr hap' hok3 hgp true
    rw [cleanup_congr_snoc]
    cases hhd : (Step.matches [.child q ps] mp).head? with
    | none =>
      rw [hhd] at hrun
      rw [bind_ok hrun]
      refine ⟨false, ?_⟩
      simp only [Bool.false_eq_true, if_false, pure_run, Prod.mk.injEq, true_and]
      symm
      apply Node.modify_id hs
      rw [if_neg]
      rintro ⟨-, hpar⟩
      rw [hpar] at hbp
      simp only [Option.some.injEq, Ref.elem.injEq] at hbp
      -- then `b` is a match in `mp`
      obtain ⟨bp', m', y, hb', hm', hy, hxy⟩ := (mem_matches_append h1).mp (List.mem_of_mem_head? hh)
      obtain ⟨i, c, rfl, -⟩ := match_child_one hy
      simp only [Ref.under, Ref.elem.injEq] at hxy
      rw [hxy, List.dropLast_concat] at hbp
      subst hbp
      rw [hmp] at hm'
      simp only [Option.some.injEq] at hm'
      subst hm'
      rw [List.head?_eq_none_iff] at hhd
      rw [hhd] at hy
      simp at hy
    | some x =>
      obtain ⟨i, c, rfl, hci, hcq, hcs⟩ := match_child_one (List.mem_of_mem_head? hhd)
      have hb := head_append h2 hbp hmp hhd
      rw [hh] at hb
      simp only [Option.some.injEq, Ref.under, Ref.elem.injEq] at hb
      subst hb
      rw [hhd] at hrun
      simp only [Bool.not_true, Bool.false_or] at hrun
      rw [show (Ref.elem [i]).addr = [i] from rfl] at hrun
      have hgi : n.get (bp ++ [i]) = mp.get [i] := by rw [Node.get_append, hmp]; rfl
      by_cases hg : (mp.get [i]).any (emptyBut ps) = true
      · rw [if_pos hg] at hrun
        rw [bind_ok hrun]
        simp only [if_true]
        have hs' : Node.get a (s.modify (a ++ bp) (removeAt [i])) = some (n.modify bp (Node.removeChild i)) := by
          rw [Node.modify_append, Node.get_modify, hs]; rfl
        have hfirst : (Step.matches p1 (n.modify bp (Node.removeChild i))).head? = some (.elem bp) := by
          apply first_stays h2 hbp hmp (by simp)
          intro q' ps' hl' hsat'
          obtain ⟨o1, o2⟩ := last_ok hok hl'
          rw [satAll_removeChild o1 o2 hci hcq]
          exact hsat'
        obtain ⟨r', ih⟩ := removeXml_clean heng l p1 hl h2 h1 hap1 hcl a _ _ bp hs' hfirst
        rw [bind_ok ih]
        refine ⟨true, ?_⟩
        simp only [pure_run, Prod.mk.injEq, true_and]
        rw [Node.modify_append, Node.modify_modify]
        apply Node.modify_congr hs
        have hpar : (bp ++ [i]).dropLast = bp := by simp
        simp only [Function.comp, Step.preds, hgi, hg, hpar, hbp, and_self, if_true]
        rw [removeAt_under _ _ (by simp)]
      · rw [if_neg hg] at hrun
        rw [bind_ok hrun]
        refine ⟨false, ?_⟩
        simp only [Bool.false_eq_true, if_false, pure_run, Prod.mk.injEq, true_and]
        symm
        apply Node.modify_id hs
        rw [if_neg]
        rintro ⟨h', -⟩
        rw [hgi] at h'
        exact hg h'
  | .binary l .eq r, _, h, _, _, _, _, _, _, _, _, _, _ => by
    simp only [res] at h
    split at h <;> simp at h
  | .binary l .or r, _, h, _, _, _, _, _, _, _, _, _, _ => by simp [res] at h
  | .binary l .and r, _, h, _, _, _, _, _, _, _, _, _, _ => by simp [res] at h
  | .binary l .ne r, _, h, _, _, _, _, _, _, _, _, _, _ => by simp [res] at h
  | .binary l .lt r, _, h, _, _, _, _, _, _, _, _, _, _ => by simp [res] at h
  | .binary l .le r, _, h, _, _, _, _, _, _, _, _, _, _ => by simp [res] at h
  | .binary l .gt r, _, h, _, _, _, _, _, _, _, _, _, _ => by simp [res] at h
  | .binary l .ge r, _, h, _, _, _, _, _, _, _, _, _, _ => by simp [res] at h
  | .binary l .plus r, _, h, _, _, _, _, _, _, _, _, _, _ => by simp [res] at h
  | .binary l .minus r, _, h, _, _, _, _, _, _, _, _, _, _ => by simp [res] at h
  | .binary l .mult r, _, h, _, _, _, _, _, _, _, _, _, _ => by simp [res] at h
  | .binary l .div r, _, h, _, _, _, _, _, _, _, _, _, _ => by simp [res] at h
  | .binary l .mod r, _, h, _, _, _, _, _, _, _, _, _, _ => by simp [res] at h
  | .binary l .union r, _, h, _, _, _, _, _, _, _, _, _, _ => by simp [res] at h
  | .binary l .dslash r, _, h, _, _, _, _, _, _, _, _, _, _ => by simp [res] at h
  | .lit _, _, h, _, _, _, _, _, _, _, _, _, _ => by simp [res] at h
  | .int _, _, h, _, _, _, _, _, _, _, _, _, _ => by simp [res] at h
  | .float _, _, h, _, _, _, _, _, _, _, _, _, _ => by simp [res] at h
  | .neg _, _, h, _, _, _, _, _, _, _, _, _, _ => by simp [res] at h
  | .pred _ _, _, h, _, _, _, _, _, _, _, _, _, _ => by simp [res] at h
  | .root, _, h, _, _, _, _, _, _, _, _, _, _ => by simp [res] at h
  | .abs _ _, _, h, _, _, _, _, _, _, _, _, _, _ => by simp [res] at h
  | .abbrev _, _, h, _, _, _, _, _, _, _, _, _, _ => by simp [res] at h
  | .var _ _, _, h, _, _, _, _, _, _, _, _, _, _ => by simp [res] at h
  | .call _ _ _, _, h, _, _, _, _, _, _, _, _, _, _ => by simp [res] at h
where
  cleanup_congr_snoc {pre : List Step} {st : Step} {b : Node.Addr} : cleanup (pre ++ [st]) b = fun n =>
      if (n.get b).any (emptyBut st.preds) = true ∧ (Step.matches pre n).head? = some (.elem b.dropLast) then
        cleanup pre b.dropLast (removeAt b n)
      else n := funext (fun n => cleanup_snoc pre st b n)


theorem match_attr_one {q} {n : Node} {x} (h : x ∈ Step.matches [.attr q] n) : x = .attr [] q ∧ (n.attr? q).isSome = true := by
  simp only [Step.matches] at h
  split_ifs at h with h1
  · simp only [Bool.and_eq_true] at h1
    simp only [List.mem_singleton] at h
    exact ⟨h, h1.2⟩
  · simp at h

theorem match_text_one {n : Node} {x} (h : x ∈ Step.matches [.text] n) : (x = .text [] ∧ n.text.isSome = true) ∨
    ∃ i c, x = .tail [i] ∧ n.children[i]? = some c ∧ c.tail.isSome = true := by
  simp only [Step.matches, List.isEmpty_nil, if_true] at h
  rcases List.mem_append.mp h with h | h
  · split_ifs at h with ht
    · simp at h; exact .inl ⟨h, ht⟩
    · simp at h
  · simp only [tailRefs, List.mem_flatten, List.mem_mapIdx] at h
    obtain ⟨l, ⟨i, hi, rfl⟩, h⟩ := h
    split_ifs at h with ht <;> simp at h
    exact .inr ⟨i, n.children[i], h, by simp [hi], ht⟩

theorem holder_under {st : Step} {n : Node} {y} (h : y ∈ Step.matches [st] n) (b : Node.Addr) : Ref.holder (y.under b) = b := by
  cases st with
  | child q ps => obtain ⟨i, c, rfl, -⟩ := match_child_one h; simp [Ref.under, Ref.holder]
  | attr q => obtain ⟨rfl, -⟩ := match_attr_one h; simp [Ref.under, Ref.holder]
  | text => rcases match_text_one h with ⟨rfl, -⟩ | ⟨i, c, rfl, -⟩ <;> simp [Ref.under, Ref.holder]

/-- Removing the last step. -/
theorem removeLast_run (heng : EngineOk eng) {ax t es st} (h : res ctx (.step ax t es) = some ([st], none))
    (hc : (Expr.step ax t es).canonical = true) (hao : attrOnly st.preds = true) (hok : pathOk [st] = true) {a s n y} (hs : Node.get a s = some n)
    (hy : (Step.matches [st] n).head? = some y) (hnt : ∀ b, y ≠ .tail b) :
    removeXml eng ctx (.step ax t es) false (.elem a) s = (.ok true, s.modify a (removeRef y)) := by
  cases st with
  | child q ps =>
    simp only [pathOk, nextOk, Bool.and_true] at hok
    rw [removeChild_run heng h hc hao hok hs false, hy]
    obtain ⟨i, c, rfl, -⟩ := match_child_one (List.mem_of_mem_head? hy)
    rfl
  | attr q =>
    obtain ⟨rfl, hq⟩ := match_attr_one (List.mem_of_mem_head? hy)
    obtain ⟨ax, pfx, nm, he, hax, hat⟩ := res_attr_step h
    injection he with h1 h2 h3
    subst h1 h2 h3
    rw [removeXml, removeStep]
    have hna : ¬ (ax = none ∨ ax = some c%"child") := by rcases hax with rfl | rfl <;> simp
    simp only [hna, hax, if_true, if_false]
    rw [removeAttr_run hat hs hq]
    rfl
  | text =>
    rcases match_text_one (List.mem_of_mem_head? hy) with ⟨rfl, -⟩ | ⟨i, c, rfl, -⟩
    · cases t with
      | name pfx nm =>
        simp only [res] at h
        split_ifs at h
        · split at h <;> simp at h
        · split at h <;> simp at h
      | type nm lit =>
        simp only [res] at h
        split_ifs at h with h1
        rw [removeXml, removeStep]
        simp only [h1.2.1, if_true]
        rfl
    · exact absurd rfl (hnt _)

/-- Removing a match of the last step keeps the predicates of the step before. -/
theorem satAll_removeRef {ps : List Pred} {st : Step} (ho : okAll ps = true) (hn : nextOk ps [st] = true) {m : Node} {y}
    (hy : y ∈ Step.matches [st] m) : satAll ps (removeRef y m) = satAll ps m := by
  cases st with
  | child q ps' =>
    obtain ⟨i, c, rfl, hci, hcq, -⟩ := match_child_one hy
    exact satAll_removeChild ho hn hci hcq
  | attr q =>
    obtain ⟨rfl, -⟩ := match_attr_one hy
    simp only [removeRef, Node.modify_nil]
    apply satAll_local' ho
    · intro p hp q' hq'
      rw [Node.attr?_delAttr, if_neg]
      rintro rfl
      simp only [nextOk, List.all_eq_true, bne_iff_ne, ne_eq] at hn
      exact hn p hp hq'
    · intro p _ q' _; simp
  | text =>
    rcases match_text_one hy with ⟨rfl, -⟩ | ⟨i, c, rfl, -⟩
    · simp only [removeRef, Node.modify_nil]
      apply satAll_local' ho
      · intro p _ q' _; simp [Node.attr?]
      · intro p _ q' _; simp
    · rfl

theorem removeRef_tag {st : Step} {m : Node} {y} (hy : y ∈ Step.matches [st] m) : (removeRef y m).tag = m.tag := by
  cases st with
  | child q ps' =>
    obtain ⟨i, c, rfl, -⟩ := match_child_one hy
    simp [removeRef, removeAt]
  | attr q =>
    obtain ⟨rfl, -⟩ := match_attr_one hy
    simp [removeRef]
  | text =>
    rcases match_text_one hy with ⟨rfl, -⟩ | ⟨i, c, rfl, -⟩ <;> simp [removeRef]

theorem removeRef_under {st : Step} {m : Node} {y} (hy : y ∈ Step.matches [st] m) {b : Node.Addr} {n : Node} (hm : n.get b = some m) :
    removeRef (y.under b) n = n.modify b (removeRef y) := by
  cases st with
  | child q ps' =>
    obtain ⟨i, c, rfl, -⟩ := match_child_one hy
    simp only [Ref.under, removeRef]
    rw [removeAt_under _ _ (by simp)]
    rfl
  | attr q =>
    obtain ⟨rfl, -⟩ := match_attr_one hy
    simp only [Ref.under, removeRef, List.append_nil]
    rfl
  | text =>
    rcases match_text_one hy with ⟨rfl, -⟩ | ⟨i, c, rfl, -⟩
    · simp only [Ref.under, removeRef, List.append_nil]
      rfl
    · simp only [Ref.under, removeRef]
      exact (Node.modify_id hm rfl).symm

theorem removeXml_slash (l : Expr) (ax t es) (ifEmpty : Bool) (a : Node.Addr) (s : Node) :
    removeXml eng ctx (.binary l .slash (.step ax t es)) ifEmpty (.elem a) s
        = (findNode eng ctx l.ser (.elem a) >>= fun o => match o with
          | none => pure false
          | some f => foundRef f >>= fun left => removeXml eng ctx (.step ax t es) ifEmpty left >>= fun removed =>
            if removed then removeXml eng ctx l true (.elem a) >>= fun _ => pure true else pure false) s := by
  rw [removeXml]; rfl

/-- `SingleNodeManager.delete`, when there is something to delete. -/
theorem removeXml_run (heng : EngineOk eng) {e p} (hr : res ctx e = some (p, none))
    (hc : e.canonical = true) (hok : pathOk p = true) (hap : attrPreds p = true) {a s n}
    (hs : Node.get a s = some n) (hal : Aligned p n) {x} (hx : (Step.matches p n).head? = some x) (hnt : ∀ b, x ≠ .tail b) :
    removeXml eng ctx e false (.elem a) s = (.ok true, s.modify a (delete p)) := by
  cases e with
  | step ax t es =>
    obtain ⟨st, rfl⟩ := res_step hr
    rw [removeLast_run heng hr hc (by simpa [attrPreds] using hap) hok hs hx hnt]
    congr 1
    apply Node.modify_congr hs
    unfold delete
    rw [hx]
    rfl
  | binary l op r =>
    cases op with
    | slash =>
      obtain ⟨hcl, hcr, ax, t, es, rfl⟩ := canonical_slash hc hr
      simp only [res] at hr
      split at hr <;> simp only [reduceCtorEq, Option.some.injEq, Prod.mk.injEq, and_true] at hr
      rename_i p1 p2 hl hr'
      subst hr
      have hr : res ctx (.step ax t es) = some (p2, none) := hr'
      obtain ⟨st, rfl⟩ := res_step hr
      obtain ⟨h1, h2, h3⟩ := pathOk_append hok (by simp)
      obtain ⟨hap1, hap2⟩ := attrPreds_append hap
      have hhold := hal x hx
      rw [List.dropLast_concat] at hhold
      obtain ⟨b, m, y, hb, hm, hy, hxy⟩ := (mem_matches_append h1).mp (List.mem_of_mem_head? hx)
      have hbe : Ref.holder x = b := by rw [hxy]; exact holder_under hy b
      rw [hbe] at hhold
      obtain ⟨y0, hy0⟩ : ∃ y0, (Step.matches [st] m).head? = some y0 := by
        cases hhd : Step.matches [st] m with
        | nil => rw [hhd] at hy; simp at hy
        | cons z zs => exact ⟨z, rfl⟩
      have hx' := head_append h2 hhold hm hy0
      rw [hx] at hx'
      simp only [Option.some.injEq] at hx'
      subst hx'
      have hy0m := List.mem_of_mem_head? hy0
      have hgb : Node.get (a ++ b) s = some m := by rw [Node.get_append, hs]; exact hm
      have hnt0 : ∀ b', y0 ≠ .tail b' := by rintro b' rfl; exact hnt (b ++ b') rfl
      rw [removeXml_slash, bind_ok (findNode_path heng (parse0_ser hcl) hl hs), hhold]
      simp only [Option.map_some]
      rw [bind_ok (show foundRef (.ref ((Ref.elem b).under a)) s = (.ok (.elem (a ++ b)), s) from rfl)]
      rw [bind_ok (removeLast_run heng hr hcr (by simpa [attrPreds] using hap2) h3 hgb hy0 hnt0)]
      simp only [if_true]
      have hs' : Node.get a (s.modify (a ++ b) (removeRef y0)) = some (n.modify b (removeRef y0)) := by
        rw [Node.modify_append, Node.get_modify, hs]; rfl
      have hfirst : (Step.matches p1 (n.modify b (removeRef y0))).head? = some (.elem b) := by
        apply first_stays h2 hhold hm (removeRef_tag hy0m)
        intro q' ps' hl' hsat'
        obtain ⟨o1, o2⟩ := last_ok hok hl'
        rw [satAll_removeRef o1 o2 hy0m]
        exact hsat'
      obtain ⟨r', hcln⟩ := removeXml_clean heng l p1 hl h2 h1 hap1 hcl a _ _ b hs' hfirst
      rw [bind_ok hcln, pure_run]
      congr 1
      rw [Node.modify_append, Node.modify_modify]
      apply Node.modify_congr hs
      simp only [Function.comp]
      unfold delete
      rw [hx]
      simp only
      rw [hbe, List.dropLast_concat, removeRef_under hy0m hm]
    | eq =>
      simp only [res] at hr
      split at hr <;> simp at hr
    | _ => simp [res] at hr
  | _ => simp [res] at hr

theorem managerDelete_run (heng : EngineOk eng) {xp e p} (hp : parse0 xp = .ok e) (hr : res ctx e = some (p, none))
    (hc : e.canonical = true) (hok : pathOk p = true) (hap : attrPreds p = true) {a s n}
    (hs : Node.get a s = some n) (hal : Aligned p n) (hnt : ∀ b, (Step.matches p n).head? ≠ some (.tail b)) :
    managerDelete eng ctx xp e (.elem a) s = (.ok (), s.modify a (delete p)) := by
  unfold managerDelete
  rw [bind_ok (findNode_path heng hp hr hs)]
  cases hh : (Step.matches p n).head? with
  | none =>
    simp only [Option.map_none, pure_run, Prod.mk.injEq, true_and]
    symm
    apply Node.modify_id hs
    unfold delete; rw [hh]
  | some x =>
    simp only [Option.map_some]
    rw [bind_ok (removeXml_run heng hr hc hok hap hs hal hh (fun b hb => hnt b (by rw [hh, hb]))), pure_run]

end Fields
