import Verif.XmlMap.DeepListLemmas
import Verif.XmlMap.ReadLemmas
/-
`NodeList` on a path of several child steps: what the operations do.
-/
namespace Fields
open Xml XPath Spec

section
variable {p : List Step} {q : QName} {ps : List Pred} {α : Type} {good : Node → Prop} {value : Node → α}

/-- The list shown by the element `n`: the parent is there once and has these members, or it is not there. -/
def DeepHolds (p : List Step) (q : QName) (ps : List Pred) (good : Node → Prop) (value : Node → α) (n : Node) (l : List α) : Prop :=
  (∃ b m, Step.matches p n = [.elem b] ∧ n.get b = some m ∧ Holds q ps good value m l) ∨ (Step.matches p n = [] ∧ l = [])

/-- What an operation does: the result, the list afterwards, and what changed. -/
def DeepStep (p : List Step) (q : QName) (ps : List Pred) (good : Node → Prop) (value : Node → α) (o : Node.Addr) (s n : Node) {β : Type}
    (r : Except PyErr β × Node) (e : Except PyErr β × List α) : Prop :=
  ∃ n', r = (e.1, s.modify o (fun _ => n')) ∧ DeepHolds p q ps good value n' e.2 ∧ DeepSame p q ps n n'

theorem ensure_there {n : Node} {b : Node.Addr} (h : Step.matches p n = [.elem b]) : ensure p n = n := by
  unfold ensure; rw [h]

theorem ensure_absent {n : Node} (h : Step.matches p n = []) : ensure p n = n.modify (missing p n).1 (buildPath (missing p n).2 id) := by
  unfold ensure; rw [h]

theorem deepSame_there [PyUnicode] (hok : pathOk (p ++ [.child q ps]) = true) {n m m' : Node} {b : Node.Addr} (hb : Step.matches p (ensure p n) = [.elem b])
    (hm : (ensure p n).get b = some m) (hs : SameButMembers q ps m m') : Step.matches p ((ensure p n).modify b (fun _ => m')) = [.elem b] :=
  parent_kept hok hb hm hs

theorem deepSame_trans [PyUnicode] (hok : pathOk (p ++ [.child q ps]) = true) {n n' n'' : Node} (h : DeepSame p q ps n n') (h' : DeepSame p q ps n' n'') :
    DeepSame p q ps n n'' := by
  rcases h with rfl | ⟨b, m, m', h1, h2, h3, rfl⟩
  · exact h'
  · rcases h' with rfl | ⟨b', k, k', g1, g2, g3, rfl⟩
    · exact .inr ⟨b, m, m', h1, h2, h3, rfl⟩
    · have hk := deepSame_there hok h1 h2 h3
      rw [ensure_there hk] at g1 g2 ⊢
      rw [hk] at g1
      simp only [List.cons.injEq, Ref.elem.injEq, and_true] at g1
      subst g1
      rw [Node.get_modify, h2] at g2
      simp only [Option.map_some, Option.some.injEq] at g2
      subst g2
      refine .inr ⟨b, m, k', h1, h2, same_trans h3 g3, ?_⟩
      rw [Node.modify_modify]
      rfl

theorem deepStep_same {o : Node.Addr} {s n : Node} {l : List α} (hs : s.get o = some n) (hl : DeepHolds p q ps good value n l) {β : Type} (e : Except PyErr β) :
    DeepStep p q ps good value o s n (e, s) (e, l) := by
  refine ⟨n, ?_, hl, .inl rfl⟩
  show (e, s) = (e, _)
  congr 1
  exact (Node.modify_id hs rfl).symm

theorem DeepStep.cast {o : Node.Addr} {s n : Node} {β : Type} {r : Except PyErr β × Node} {e e' : Except PyErr β × List α}
    (h : DeepStep p q ps good value o s n r e) (he : e' = e) : DeepStep p q ps good value o s n r e' := he ▸ h

/-- From the parent to the element. -/
theorem deepStep_of [PyUnicode] (hok : pathOk (p ++ [.child q ps]) = true) {o b : Node.Addr} {s s0 n n0 m : Node} (hso : s.get o = some n)
    (h0 : ensure p n = n0) (hs0 : s0 = s.modify o (fun _ => n0)) (h : There p o b s0 n0 m)
    {β : Type} {r : Except PyErr β × Node} {e : Except PyErr β × List α} (hst : Step1 q ps good value (o ++ b) s0 m r e) :
    DeepStep p q ps good value o s n r e := by
  obtain ⟨m', h1, h2, h3⟩ := hst
  refine ⟨n0.modify b (fun _ => m'), ?_, .inl ⟨b, m', parent_kept hok h.one h.elem h3, ?_, h2⟩, .inr ⟨b, m, m', by rw [h0]; exact h.one, by rw [h0]; exact h.elem, h3, by rw [h0]⟩⟩
  · rw [h1]
    congr 1
    rw [Node.modify_append, hs0, Node.modify_modify]
    exact Node.modify_congr hso rfl
  · rw [Node.get_modify, h.elem]; rfl

end

section
variable [PyUnicode] {eng : Engine} {ctx : Ctx} {xp : Str} {lx : Expr} {ax : Option Str} {t : NodeTest} {es : List Expr} {p : List Step} {q : QName} {ps : List Pred}

omit [PyUnicode] in
theorem allChildApp : ∀ (l r : List Step), allChild (l ++ r) = (allChild l && allChild r)
  | [], r => by simp [allChild]
  | .child q ps :: l, r => by simp only [List.cons_append, allChild]; exact allChildApp l r
  | .attr q :: l, r => by simp [allChild]
  | .text :: l, r => by simp [allChild]

/-- The operations that create an element if the list is empty. -/
def creates {α : Type} : ListOp α → Bool
  | .set i _ | .insert i _ => decide (i = 0)
  | .append _ => true
  | .extend vs => !vs.isEmpty
  | _ => false

variable {α : Type} [DecidableEq α] {mapper : Item → Except PyErr α} {store : Ref → α → M Unit}

/-- Operations on a list without members that do not create anything. -/
theorem runOp_empty {node : Ref} {s : Node} {e : Expr} (h : listMatches eng ctx xp node s = (.ok [], s)) (op : ListOp α) (hc : creates op = false) :
    runOp eng ctx mapper store xp e node op s = ((pyList [] op).1, s) ∧ (pyList [] op).2 = [] := by
  have hdata : listData eng ctx mapper xp node s = (.ok [], s) := by
    unfold listData
    rw [bind_ok h, bind_ok (getDoc_run s)]
    rfl
  have hlen : listLen eng ctx mapper xp node s = (.ok 0, s) := by
    unfold listLen
    rw [bind_ok hdata]
    rfl
  have hpos : ∀ i : Int, pos 0 i = none := by
    intro i
    unfold pos
    rw [if_neg (by omega), if_neg (by omega)]
  have hgetE : ∀ i : Int, (pyGet ([] : List Ref) i) = .error .indexError := by
    intro i
    rw [pyGet_pos]
    simp only [List.length_nil, hpos]
  have hget : ∀ i : Int, listGet eng ctx mapper xp node i s = (.error .indexError, s) := by
    intro i
    unfold listGet
    rw [bind_ok h, hgetE, bind_err (ofExcept_err _ _)]
  have hdel : ∀ i : Int, listDel eng ctx xp node i s = (.error .indexError, s) := by
    intro i
    unfold listDel
    rw [bind_ok h]
    by_cases hi : i ≥ ([] : List Ref).length
    · rw [if_pos hi]; rfl
    · rw [if_neg hi, hgetE, bind_err (ofExcept_err _ _)]
  have hset : ∀ (i : Int) (v : α), i ≠ 0 → listSet eng ctx store xp e node i v s = (.error .indexError, s) := by
    intro i v hi
    unfold listSet
    rw [bind_ok h, if_neg (by simpa using hi)]
    by_cases h2 : i > ([] : List Ref).length
    · rw [if_pos h2]; exact bind_err rfl
    · rw [if_neg h2, hgetE, bind_err (ofExcept_err _ _)]
  cases op with
  | len => exact ⟨by simp only [runOp]; rw [bind_ok hlen]; rfl, rfl⟩
  | get i => refine ⟨?_, ?_⟩ <;> simp only [pyList, List.length_nil, hpos]; simp only [runOp]; exact bind_err (hget i)
  | set i v =>
    have hi : i ≠ 0 := by simpa [creates] using hc
    refine ⟨?_, ?_⟩ <;> simp only [pyList, List.length_nil, hpos, if_neg (show ¬ i = ((0 : Nat) : Int) from hi)]
    simp only [runOp]
    exact bind_err (hset i v hi)
  | del i => refine ⟨?_, ?_⟩ <;> simp only [pyList, List.length_nil, hpos]; simp only [runOp]; exact bind_err (hdel i)
  | append v => simp [creates] at hc
  | extend vs =>
    have : vs = [] := by simpa [creates] using hc
    subst this
    exact ⟨rfl, rfl⟩
  | insert i v =>
    have hi : i ≠ 0 := by simpa [creates] using hc
    have hp : pyList ([] : List α) (.insert i v) = (.error .indexError, []) := by
      simp only [pyList, List.length_nil]
      rw [if_neg (by omega)]
    rw [hp]
    refine ⟨?_, rfl⟩
    simp only [runOp]
    refine bind_err ?_
    unfold listInsert
    rw [bind_ok hlen, if_neg (show ¬ i = ((0 : Nat) : Int) from hi), bind_ok h]
    by_cases h2 : (([] : List Ref).length : Int) > i
    · rw [if_pos h2, hgetE, bind_err (ofExcept_err _ _)]
    · rw [if_neg h2]; rfl
  | pop i =>
    refine ⟨?_, ?_⟩ <;> simp only [pyList, List.length_nil, hpos]
    simp only [runOp]
    refine bind_err ?_
    unfold listPop
    cases i with
    | some i => rw [bind_ok (show (pure i : M Int) s = (.ok i, s) from rfl)]; exact bind_err (hget i)
    | none =>
      simp only [bind_assoc']
      rw [bind_ok hlen, bind_ok (show (pure (((0 : Nat) : Int) - 1) : M Int) s = (.ok _, s) from rfl)]
      exact bind_err (hget _)
  | remove v =>
    refine ⟨?_, rfl⟩
    simp only [runOp]
    refine bind_err ?_
    unfold listRemove
    refine bind_err ?_
    unfold listIndex
    rw [bind_ok hdata]
    rfl
  | index v =>
    refine ⟨?_, rfl⟩
    simp only [runOp]
    refine bind_err ?_
    unfold listIndex
    rw [bind_ok hdata]
    rfl
  | count v => exact ⟨by simp only [runOp, listCount]; rw [bind_assoc', bind_ok hdata]; rfl, rfl⟩
  | contains v => exact ⟨by simp only [runOp, listContains]; rw [bind_assoc', bind_ok hdata]; rfl, rfl⟩
  | eq l => exact ⟨by simp only [runOp, listEq]; rw [bind_assoc', bind_ok hdata]; rfl, rfl⟩

variable {o b : Node.Addr} {s n m : Node} (heng : EngineOk eng) (hd : Deep ctx xp lx ax t es p q ps)

section
include heng hd
omit [DecidableEq α]

theorem absentMatches (hs : s.get o = some n) (h : Step.matches p n = []) : listMatches eng ctx xp (.elem o) s = (.ok [], s) := by
  have h0 := heng.path ctx xp _ (p ++ [.child q ps]) s n o hd.parse (by simp [resPath, hd.full]) hs
  have h1 : evalXPath eng ctx xp (.elem o) s = (.ok (.nodes ((Step.matches (p ++ [.child q ps]) n).map (Ref.under o))), s) := by
    show (eng.xpath xp s o ctx, s) = _
    rw [h0]
  unfold listMatches
  rw [bind_ok h1, matches_absent (pathOk_append hd.ok (by simp)).1 h]
  rfl

/-- A missing parent is created: then it is there, without members, and creating a member is the same as before. -/
theorem absent_create (hs : s.get o = some n) (h : Step.matches p n = []) :
    ∃ b m, There p o b (s.modify o (fun _ => ensure p n)) (ensure p n) m ∧ members q ps m = [] ∧
      createNode eng ctx (.binary lx .slash (.step ax t es)) (.elem o) none s
        = createNode eng ctx (.binary lx .slash (.step ax t es)) (.elem o) none (s.modify o (fun _ => ensure p n)) := by
  obtain ⟨hac, hpok, hqok⟩ := pathOk_append hd.ok (by simp)
  have hp0 : p ≠ [] := by rintro rfl; simp [Step.matches] at h
  obtain ⟨m0, hm0⟩ := missing_get hpok n hp0
  obtain ⟨pre, hpre, hhead, hne⟩ := missing_spec p n
  have hne := hne hp0
  have hrc : allChild (missing p n).2 = true := by
    have := hac
    rw [hpre, allChildApp, Bool.and_eq_true] at this
    exact this.2
  have hLE : LastEdit (missing p n).2.getLast? id := ⟨fun _ => rfl, fun _ => rfl, fun _ _ _ => rfl, fun _ _ h => h⟩
  have hnt : (missing p n).2.getLast? ≠ some .text := by
    intro hl
    have hx : ∀ l : List Step, allChild l = true → l.getLast? ≠ some .text := by
      intro l hl h
      rcases List.eq_nil_or_concat l with rfl | ⟨l', x, rfl⟩
      · simp at h
      · rw [List.concat_eq_append] at h hl
        rw [allChildApp, Bool.and_eq_true] at hl
        simp only [List.getLast?_append, List.getLast?_singleton, Option.some_or, Option.some.injEq] at h
        subst h
        simp [allChild] at hl
    exact hx _ hrc hl
  obtain ⟨-, hmat⟩ := matches_create hpok hp0 h hm0 hLE (fun h => absurd h hnt)
  have hen := ensure_absent h
  rw [← hen] at hmat
  rw [target_allChild hrc] at hmat
  have hget : (ensure p n).get ((missing p n).1 ++ (target (missing p n).2 m0).addr) = some (leafNode (missing p n).2 m0) := by
    rw [hen]; exact get_built hm0 _ _
  have hs0 : s.modify o (fun _ => ensure p n) = s.modify (o ++ (missing p n).1) (buildPath (missing p n).2 id) := by
    rw [Node.modify_append, hen]
    exact Node.modify_congr hs rfl
  have hth : There p o ((missing p n).1 ++ (target (missing p n).2 m0).addr) (s.modify o (fun _ => ensure p n)) (ensure p n) (leafNode (missing p n).2 m0) :=
    ⟨by rw [Node.get_modify, hs]; rfl, hmat, hget⟩
  refine ⟨_, _, hth, ?_, ?_⟩
  · -- the new parent has no members
    obtain ⟨r, x, hrx⟩ : ∃ r x, (missing p n).2 = r ++ [x] := by
      rcases List.eq_nil_or_concat (missing p n).2 with h | ⟨l', x, h⟩
      · exact absurd h hne
      · exact ⟨l', x, by rw [h, List.concat_eq_append]⟩
    rw [hrx, allChildApp, Bool.and_eq_true] at hrc
    cases x with
    | attr _ => simp [allChild] at hrc
    | text => simp [allChild] at hrc
    | child q2 ps2 =>
      rw [hrx, leafNode_append hrc.1]
      obtain ⟨o1, o2⟩ := last_ok (q := q2) (ps := ps2) hd.ok (by rw [hpre, hrx]; simp)
      have := newElem_nomatch (q := q2) o1 o2 (by simp)
      rw [matches_single, List.map_eq_nil_iff] at this
      have hlen := idxs_length (isMember q ps) (newElem q2 ps2).children
      rw [this] at hlen
      exact List.length_eq_zero_iff.1 hlen.symm
  · rw [deepCreate heng hd hth none]
    have hf := findNode_path heng (parse0_ser hd.canon) hd.left hs
    have hcn : createNode eng ctx (.binary lx .slash (.step ax t es)) (.elem o) none s
        = (findNode eng ctx lx.ser (.elem o) >>= fun o' => match o' with
          | some f => foundRef f >>= fun left => createNode eng ctx (.step ax t es) left none
          | none => createNode eng ctx lx (.elem o) none >>= fun left => createNode eng ctx (.step ax t es) left none) s := by
      rw [createNode]; rfl
    rw [hcn, bind_ok hf, h]
    simp only [List.head?_nil, Option.map_none]
    rw [bind_ok (createNode_run heng lx p hd.left hpok hd.canon o s n hs (.inl h) m0 hm0), created_allChild (by rw [hpre, allChildApp, Bool.and_eq_true] at hac; exact hac.2),
      ← hs0]
    have hok : okAll ps = true := by
      simp only [pathOk, Bool.and_eq_true] at hqok
      exact hqok.1.1
    have := createNode_end (eng := eng) hd.step hok hth.get
    simp only [Ref.under, List.append_assoc] at this ⊢
    exact this

end

variable {good : Node → Prop} {value : Node → α}
  {put : α → Node → Node} {okv : α → Prop} (hS : StoreOk q ps mapper store good value put okv)
include heng hd hS

/-- The operations if the parent is there. -/
theorem thereRunOp {l} (h : There p o b s n m) (hl : Holds q ps good value m l) (op : ListOp α) (hat : op.atEnd l) (hv : ∀ v ∈ op.values, okv v) :
    Step1 q ps good value (o ++ b) s m (runOp eng ctx mapper store xp (.binary lx .slash (.step ax t es)) (.elem o) op s) (pyList l op) := by
  have hok : okAll ps = true := by
    have := (pathOk_append hd.ok (by simp)).2.2
    simp only [pathOk, Bool.and_eq_true] at this
    exact this.1.1
  have hrun := runOp_run heng (parse0_ser hd.canonStep) hd.step hok hS h.get hl op
    (by cases op <;> simp only [ListOp.supported, ListOp.atEnd] at hat ⊢; simp only [decide_eq_true_eq]; omega) hv
  have happ : ∀ v, okv v → Step1 q ps good value (o ++ b) s m (runOp eng ctx mapper store xp (.binary lx .slash (.step ax t es)) (.elem o) (.append v) s) (.ok .unit, l ++ [v]) := by
    intro v hv
    exact Step1.wrap (x := listAppend eng ctx mapper store xp (.binary lx .slash (.step ax t es)) (.elem o) v) (deepAppend_run heng hd hS h hl hv) (fun _ => ListRes.unit)
  cases op with
  | append v => exact happ v (hv v (by simp [ListOp.values]))
  | extend vs =>
    exact Step1.wrap (x := listExtend eng ctx mapper store xp (.binary lx .slash (.step ax t es)) (.elem o) vs)
      (deepExtend_run heng hd hS vs h hl (fun v hv' => hv v (by simpa [ListOp.values] using hv'))) (fun _ => ListRes.unit)
  | set i v =>
    by_cases hi : i = l.length
    · obtain ⟨h1, h2, h3⟩ := deepSet_end heng hd hS h hl (hv v (by simp [ListOp.values]))
      rw [hi]
      refine (Step1.wrap (x := listSet eng ctx store xp (.binary lx .slash (.step ax t es)) (.elem o) l.length v) (e := (.ok (), l ++ [v])) ⟨_, h1, h2, h3⟩ (fun _ => ListRes.unit)).cast ?_
      simp only [pyList, if_true]
      rfl
    · rw [deepRunOp_eq heng hd hS h hl (.set i v) hi]
      exact hrun
  | insert i v =>
    by_cases hi : i = l.length
    · have hlen := (listLen_congr (deepMatches_eq heng hd h)).trans (listLen_run heng (parse0_ser hd.canonStep) hd.step hS h.get hl)
      have : runOp eng ctx mapper store xp (.binary lx .slash (.step ax t es)) (.elem o) (.insert i v) s
          = runOp eng ctx mapper store xp (.binary lx .slash (.step ax t es)) (.elem o) (.append v) s := by
        simp only [runOp]
        refine bind_congr_run ?_ (fun _ _ _ => rfl)
        unfold listInsert
        rw [bind_ok hlen, if_pos hi]
      rw [this]
      refine (happ v (hv v (by simp [ListOp.values]))).cast ?_
      simp only [pyList]
      rw [if_pos ⟨by omega, by omega⟩, hi]
      simp
    · rw [deepRunOp_eq heng hd hS h hl (.insert i v) (by simp only [ListOp.atEnd] at hat; show (l.length : Int) < i; omega)]
      exact hrun
  | _ => rw [deepRunOp_eq heng hd hS h hl _ trivial]; exact hrun

/-- Creating operations on a list whose parent is missing. -/
theorem absentRunOp (hs : s.get o = some n) (h : Step.matches p n = []) (op : ListOp α) (hc : creates op = true) :
    runOp eng ctx mapper store xp (.binary lx .slash (.step ax t es)) (.elem o) op s
      = runOp eng ctx mapper store xp (.binary lx .slash (.step ax t es)) (.elem o) op (s.modify o (fun _ => ensure p n)) := by
  obtain ⟨b, m, hth, hm, hcr⟩ := absent_create heng hd hs h
  have h1 := absentMatches heng hd hs h
  have h2 := deepMatches_run heng hd hth
  have hi : idxs (isMember q ps) m.children = [] := by
    rw [← List.length_eq_zero_iff, idxs_length]
    have hm : m.children.filter (isMember q ps) = [] := hm
    rw [hm]
    rfl
  rw [hi] at h2
  simp only [List.map_nil] at h2
  generalize hs0 : s.modify o (fun _ => ensure p n) = s0 at *
  have hset : ∀ v : α, listSet eng ctx store xp (.binary lx .slash (.step ax t es)) (.elem o) 0 v s = listSet eng ctx store xp (.binary lx .slash (.step ax t es)) (.elem o) 0 v s0 := by
    intro v
    unfold listSet
    rw [bind_ok h1, bind_ok h2]
    simp only [List.length_nil, Int.natCast_zero, if_true]
    have e1 : ∀ x, (appendIndex [] >>= fun idx => createNode eng ctx (.binary lx .slash (.step ax t es)) (.elem o) idx) x
        = createNode eng ctx (.binary lx .slash (.step ax t es)) (.elem o) none x := fun x => rfl
    have e2 : ∀ x y, createNode eng ctx (.binary lx .slash (.step ax t es)) (.elem o) none x = createNode eng ctx (.binary lx .slash (.step ax t es)) (.elem o) none y →
        ((appendIndex [] >>= fun idx => createNode eng ctx (.binary lx .slash (.step ax t es)) (.elem o) idx) >>= fun m => store m v) x
        = ((appendIndex [] >>= fun idx => createNode eng ctx (.binary lx .slash (.step ax t es)) (.elem o) idx) >>= fun m => store m v) y := by
      intro x y hxy
      rw [← e1, ← e1] at hxy
      cases hy : (appendIndex [] >>= fun idx => createNode eng ctx (.binary lx .slash (.step ax t es)) (.elem o) idx) y with
      | mk r s' =>
        rw [hy] at hxy
        cases r with
        | ok r => rw [bind_ok hxy, bind_ok hy]
        | error r => rw [bind_err hxy, bind_err hy]
    exact e2 s s0 hcr
  have hlen : ∀ x, listMatches eng ctx xp (.elem o) x = (.ok [], x) → listLen eng ctx mapper xp (.elem o) x = (.ok 0, x) := by
    intro x hx
    unfold listLen listData
    rw [bind_assoc', bind_ok hx]
    rfl
  have happ : ∀ v : α, listAppend eng ctx mapper store xp (.binary lx .slash (.step ax t es)) (.elem o) v s = listAppend eng ctx mapper store xp (.binary lx .slash (.step ax t es)) (.elem o) v s0 := by
    intro v
    unfold listAppend
    rw [bind_ok (hlen s h1), bind_ok (hlen s0 h2)]
    exact hset v
  have hb : ∀ {β γ : Type} {x y : M β} {f : β → M γ} {u w : Node}, x u = y w → (x >>= f) u = (y >>= f) w := by
    intro β γ x y f u w hxy
    cases hy : y w with
    | mk r s' =>
      rw [hy] at hxy
      cases r with
      | ok r => rw [bind_ok hxy, bind_ok hy]
      | error r => rw [bind_err hxy, bind_err hy]
  cases op with
  | set i v =>
    have : i = 0 := by simpa [creates] using hc
    subst this
    exact hb (hset v)
  | append v => exact hb (happ v)
  | extend vs =>
    cases vs with
    | nil => simp [creates] at hc
    | cons v vs =>
      simp only [runOp]
      refine hb ?_
      rw [listExtend]
      exact hb (happ v)
  | insert i v =>
    have : i = 0 := by simpa [creates] using hc
    subst this
    simp only [runOp]
    refine hb ?_
    unfold listInsert
    rw [bind_ok (hlen s h1), bind_ok (hlen s0 h2)]
    simp only [Int.natCast_zero, if_true]
    exact happ v
  | _ => simp [creates] at hc

/-- One operation. -/
theorem deepRunOp {l} (hs : s.get o = some n) (hl : DeepHolds p q ps good value n l) (op : ListOp α) (hat : op.atEnd l) (hv : ∀ v ∈ op.values, okv v) :
    DeepStep p q ps good value o s n (runOp eng ctx mapper store xp (.binary lx .slash (.step ax t es)) (.elem o) op s) (pyList l op) := by
  rcases hl with ⟨b, m, h1, h2, h3⟩ | ⟨h1, rfl⟩
  · have hth : There p o b s n m := ⟨hs, h1, h2⟩
    exact deepStep_of hd.ok hs (ensure_there h1) (Node.modify_id hs rfl).symm hth (thereRunOp heng hd hS hth h3 op hat hv)
  · cases hc : creates op with
    | false =>
      obtain ⟨k1, k2⟩ := runOp_empty (e := .binary lx .slash (.step ax t es)) (mapper := mapper) (store := store) (absentMatches heng hd hs h1) op hc
      rw [k1]
      exact (deepStep_same hs (.inr ⟨h1, rfl⟩) (pyList [] op).1).cast (Prod.ext rfl k2)
    | true =>
      rw [absentRunOp heng hd hS hs h1 op hc]
      obtain ⟨b, m, hth, hm, -⟩ := absent_create heng hd hs h1
      exact deepStep_of hd.ok hs rfl rfl hth (thereRunOp heng hd hS hth ⟨by rw [hm]; simp, by rw [hm]; rfl⟩ op hat hv)

omit [DecidableEq α] in
/-- Reading the list. -/
theorem deepData {l} (hs : s.get o = some n) (hl : DeepHolds p q ps good value n l) : listData eng ctx mapper xp (.elem o) s = (.ok l, s) := by
  rcases hl with ⟨b, m, h1, h2, h3⟩ | ⟨h1, rfl⟩
  · have hth : There p o b s n m := ⟨hs, h1, h2⟩
    exact (listData_congr (deepMatches_eq heng hd hth)).trans (listData_run heng (parse0_ser hd.canonStep) hd.step hS hth.get h3)
  · unfold listData
    rw [bind_ok (absentMatches heng hd hs h1), bind_ok (getDoc_run s)]
    rfl

omit [DecidableEq α] in
theorem deepLen {l} (hs : s.get o = some n) (hl : DeepHolds p q ps good value n l) : listLen eng ctx mapper xp (.elem o) s = (.ok l.length, s) := by
  unfold listLen
  rw [bind_ok (deepData heng hd hS hs hl)]
  rfl

/-- An operation that fails changes nothing. -/
theorem deepRunOp_error {l} (hs : s.get o = some n) (hl : DeepHolds p q ps good value n l) (op : ListOp α) (hat : op.atEnd l) {er : PyErr}
    (her : (pyList l op).1 = .error er) :
    runOp eng ctx mapper store xp (.binary lx .slash (.step ax t es)) (.elem o) op s = (.error er, s) := by
  rcases hl with ⟨b, m, h1, h2, h3⟩ | ⟨h1, rfl⟩
  · have hth : There p o b s n m := ⟨hs, h1, h2⟩
    rw [deepRunOp_eq heng hd hS hth h3 op ?_]
    · refine runOp_error heng (parse0_ser hd.canonStep) hd.step hS hth.get h3 op ?_ her
      cases op <;> simp only [ListOp.supported, ListOp.atEnd] at hat ⊢
      simp only [decide_eq_true_eq]
      omega
    · cases op with
      | set i v =>
        show i ≠ _
        intro hi
        simp [pyList, hi] at her
      | append v => simp [pyList] at her
      | extend v => simp [pyList] at her
      | insert i v =>
        show (l.length : Int) < i
        have hat : (l.length : Int) ≤ i := hat
        by_contra hlt
        have : i = l.length := by omega
        simp [pyList, this] at her
      | _ => trivial
  · cases hc : creates op with
    | false =>
      obtain ⟨k1, k2⟩ := runOp_empty (e := .binary lx .slash (.step ax t es)) (mapper := mapper) (store := store) (absentMatches heng hd hs h1) op hc
      rw [k1, her]
    | true =>
      exfalso
      cases op with
      | set i v =>
        have : i = 0 := by simpa [creates] using hc
        simp [pyList, this] at her
      | append v => simp [pyList] at her
      | extend vs => simp [pyList] at her
      | insert i v =>
        have : i = 0 := by simpa [creates] using hc
        simp [pyList, this] at her
      | _ => simp [creates] at hc

/-- A sequence of operations. -/
theorem deepRunOps : ∀ (ops : List (ListOp α)) {s n l}, s.get o = some n → DeepHolds p q ps good value n l → atEnds l ops →
    (∀ op ∈ ops, ∀ v ∈ op.values, okv v) →
    ∃ n', runOps eng ctx mapper store xp (.binary lx .slash (.step ax t es)) (.elem o) ops s = ((pyListAll l ops).1, s.modify o (fun _ => n')) ∧
      DeepHolds p q ps good value n' (pyListAll l ops).2 ∧ DeepSame p q ps n n'
  | [], s, n, l, hs, hl, _, _ => by
    refine ⟨n, ?_, hl, .inl rfl⟩
    rw [Node.modify_id hs rfl]
    rfl
  | op :: ops, s, n, l, hs, hl, hat, h => by
    obtain ⟨n', h1, h2, h3⟩ := deepRunOp heng hd hS hs hl op hat.1 (h op (by simp))
    have hs' : (s.modify o (fun _ => n')).get o = some n' := by rw [Node.get_modify, hs]; rfl
    obtain ⟨n'', k1, k2, k3⟩ := deepRunOps ops hs' h2 hat.2 (fun o ho => h o (by simp [ho]))
    refine ⟨n'', ?_, k2, deepSame_trans hd.ok h3 k3⟩
    simp only [runOps, h1, k1, pyListAll, Node.modify_modify]
    rfl

omit heng hd hS [PyUnicode] [DecidableEq α] in
/-- The operation inside of a wrapped one. -/
theorem unwrap {β γ : Type} {x : M β} {f : β → γ} {s s' : Node} {c : γ} (h : (x >>= fun b => pure (f b)) s = (.ok c, s')) : ∃ b, x s = (.ok b, s') ∧ f b = c := by
  cases hx : x s with
  | mk r s1 =>
    cases r with
    | error e => rw [bind_err hx] at h; simp at h
    | ok b =>
      rw [bind_ok hx] at h
      have h : (Except.ok (f b), s1) = (Except.ok c, s') := h
      simp only [Prod.mk.injEq, Except.ok.injEq] at h
      exact ⟨b, by rw [h.2], h.1⟩

theorem deepSetFrom : ∀ (vs : List α) (i : Nat) {s n l}, s.get o = some n → DeepHolds p q ps good value n l → i ≤ l.length → (∀ v ∈ vs, okv v) →
    DeepStep p q ps good value o s n (listSetFrom eng ctx store xp (.binary lx .slash (.step ax t es)) (.elem o) i vs s) (.ok (), l.take i ++ vs ++ l.drop (i + vs.length))
  | [], i, s, n, l, hs, hl, _, _ => by
    simp only [List.append_nil, List.length_nil, Nat.add_zero, List.take_append_drop]
    exact deepStep_same hs hl (.ok ())
  | v :: vs, i, s, n, l, hs, hl, hi, hv => by
    obtain ⟨n', h1, h2, h3⟩ := deepRunOp heng hd hS hs hl (.set i v) trivial (by simpa [ListOp.values] using hv v (by simp))
    have key : ∃ l', pyList l (.set (i : Int) v) = (.ok .unit, l') ∧ i + 1 ≤ l'.length ∧
        l'.take (i + 1) ++ vs ++ l'.drop (i + 1 + vs.length) = l.take i ++ (v :: vs) ++ l.drop (i + (v :: vs).length) := by
      rcases Nat.lt_or_ge i l.length with h | h
      · have hk : pos l.length (i : Int) = some i := by unfold pos; rw [if_pos ⟨by omega, by omega⟩]; rfl
        refine ⟨l.set i v, ?_, by simp; omega, ?_⟩
        · simp only [pyList, hk]
          rw [if_neg (by omega)]
        · rw [List.take_set, List.drop_set_of_lt (by omega), List.take_add_one, List.getElem?_eq_getElem h]
          have : (List.take i l ++ (some l[i]).toList).set i v = l.take i ++ [v] := by
            rw [List.set_append_right _ _ (by simp)]
            simp [Nat.min_eq_left (Nat.le_of_lt h)]
          rw [this]
          simp [Nat.add_assoc, Nat.add_comm 1]
      · have : i = l.length := by omega
        subst this
        refine ⟨l ++ [v], ?_, by simp, ?_⟩
        · simp [pyList]
        · rw [List.take_of_length_le (by simp), List.drop_eq_nil_of_le (by simp), List.take_of_length_le (by simp),
            List.drop_eq_nil_of_le (by simp)]
          simp
    obtain ⟨l', e1, e2, e3⟩ := key
    rw [e1] at h1 h2
    obtain ⟨u, g1, -⟩ := unwrap (x := listSet eng ctx store xp (.binary lx .slash (.step ax t es)) (.elem o) i v) (f := fun _ => ListRes.unit) h1
    have hs' : (s.modify o (fun _ => n')).get o = some n' := by rw [Node.get_modify, hs]; rfl
    obtain ⟨n'', k1, k2, k3⟩ := deepSetFrom vs (i + 1) hs' h2 e2 (fun w hw => hv w (by simp [hw]))
    refine ⟨n'', ?_, ?_, deepSame_trans hd.ok h3 k3⟩
    · rw [listSetFrom, bind_ok g1, k1, Node.modify_modify]
      rfl
    · rw [← e3]
      exact k2

theorem deepTrim : ∀ (fuel : Nat) {s n l} (len : Nat), s.get o = some n → DeepHolds p q ps good value n l → l.length ≤ len + fuel →
    DeepStep p q ps good value o s n (listTrim eng ctx mapper xp (.elem o) len fuel s) (.ok (), l.take len)
  | 0, s, n, l, len, hs, hl, h => by
    rw [List.take_of_length_le (by omega)]
    exact deepStep_same hs hl (.ok ())
  | fuel + 1, s, n, l, len, hs, hl, h => by
    have hrun : listTrim eng ctx mapper xp (.elem o) len (fuel + 1) s
        = (if l.length > len then (listPop eng ctx mapper xp (.elem o) none >>= fun _ => listTrim eng ctx mapper xp (.elem o) len fuel) else pure ()) s := by
      rw [listTrim, bind_ok (deepLen heng hd hS hs hl)]
    rw [hrun]
    by_cases hg : l.length > len
    · rw [if_pos hg]
      have hk : pos l.length ((l.length : Int) - 1) = some (l.length - 1) := by
        unfold pos; rw [if_pos ⟨by omega, by omega⟩]; congr 1; omega
      obtain ⟨n', h1, h2, h3⟩ := deepRunOp heng hd hS hs hl (.pop none) trivial (by simp [ListOp.values])
      have e1 : pyList l (.pop none) = (.ok (.val (l[l.length - 1]'(pos_lt hk))), l.eraseIdx (l.length - 1)) := by
        simp only [pyList, Option.getD_none, hk, List.getElem?_eq_getElem (pos_lt hk)]
      rw [e1] at h1 h2
      obtain ⟨x, hx, -⟩ := unwrap (x := listPop eng ctx mapper xp (.elem o) none) (f := ListRes.val) h1
      have hs' : (s.modify o (fun _ => n')).get o = some n' := by rw [Node.get_modify, hs]; rfl
      obtain ⟨n'', k1, k2, k3⟩ := deepTrim fuel len hs' h2 (by rw [List.length_eraseIdx, if_pos (by omega)]; omega)
      refine ⟨n'', ?_, ?_, deepSame_trans hd.ok h3 k3⟩
      · rw [bind_ok hx, k1, Node.modify_modify]; rfl
      · simp only at k2 ⊢
        rw [List.eraseIdx_eq_dropLast (by omega), List.dropLast_eq_take, List.take_take, Nat.min_eq_left (by omega)] at k2
        exact k2
    · rw [if_neg hg, List.take_of_length_le (by omega)]
      exact deepStep_same hs hl (.ok ())

/-- Assigning a list. -/
theorem deepAssign (vs : List α) {l} (hs : s.get o = some n) (hl : DeepHolds p q ps good value n l) (hv : ∀ v ∈ vs, okv v) :
    DeepStep p q ps good value o s n (listAssign eng ctx mapper store xp (.binary lx .slash (.step ax t es)) (.elem o) vs s) (.ok (), vs) := by
  obtain ⟨n', h1, h2, h3⟩ := deepSetFrom heng hd hS vs 0 hs hl (by omega) hv
  simp only [List.take_zero, List.nil_append, Nat.zero_add] at h2
  have hs' : (s.modify o (fun _ => n')).get o = some n' := by rw [Node.get_modify, hs]; rfl
  obtain ⟨n'', k1, k2, k3⟩ := deepTrim heng hd hS ((vs ++ l.drop vs.length).length + (s.modify o (fun _ => n')).nodes) vs.length hs' h2 (by omega)
  refine ⟨n'', ?_, ?_, deepSame_trans hd.ok h3 k3⟩
  · unfold listAssign
    rw [bind_ok h1, bind_ok (deepLen heng hd hS hs' h2), listTrimAll_run, k1, Node.modify_modify]
    rfl
  · simpa using k2

theorem deepDelete_go (doc : Node) : ∀ (rs : List Ref) {s n} {l : List α}, mapMatches mapper doc rs = .ok l → s.get o = some n →
    DeepHolds p q ps good value n l → DeepStep p q ps good value o s n (listDeleteAll.go eng ctx mapper xp (.elem o) doc rs s) (.ok (), [])
  | [], s, n, l, hm, hs, hl => by
    simp only [mapMatches, Except.ok.injEq] at hm
    subst hm
    exact deepStep_same hs hl (.ok ())
  | r :: rs, s, n, l, hm, hs, hl => by
    rw [mapMatches] at hm
    cases h1 : mapMatch mapper doc r with
    | error e => rw [h1] at hm; simp at hm
    | ok x =>
      cases h2 : mapMatches mapper doc rs with
      | error e => rw [h1, h2] at hm; simp at hm
      | ok xs =>
        rw [h1, h2] at hm
        simp only [Except.ok.injEq] at hm
        subst hm
        obtain ⟨n', k1, k2, k3⟩ := deepRunOp heng hd hS hs hl (.remove x) trivial (by simp [ListOp.values])
        have e1 : pyList (x :: xs) (.remove x) = (.ok .unit, xs) := by simp [pyList]
        rw [e1] at k1 k2
        obtain ⟨u, g1, -⟩ := unwrap (x := listRemove eng ctx mapper xp (.elem o) x) (f := fun _ => ListRes.unit) k1
        have hs' : (s.modify o (fun _ => n')).get o = some n' := by rw [Node.get_modify, hs]; rfl
        obtain ⟨n'', j1, j2, j3⟩ := deepDelete_go doc rs h2 hs' k2
        refine ⟨n'', ?_, j2, deepSame_trans hd.ok k3 j3⟩
        have : listDeleteAll.go eng ctx mapper xp (.elem o) doc (r :: rs) s
            = (ofExcept (mapMatch mapper doc r) >>= fun x => listRemove eng ctx mapper xp (.elem o) x >>= fun _ =>
                listDeleteAll.go eng ctx mapper xp (.elem o) doc rs) s := by rw [listDeleteAll.go]
        rw [this, h1, bind_ok (ofExcept_run _ _), bind_ok g1, j1, Node.modify_modify]
        rfl

/-- Deleting the whole list. -/
theorem deepDelete {l} (hs : s.get o = some n) (hl : DeepHolds p q ps good value n l) :
    DeepStep p q ps good value o s n (listDeleteAll eng ctx mapper xp (.elem o) s) (.ok (), []) := by
  have hdata := deepData heng hd hS hs hl
  unfold listData at hdata
  have hms : ∃ ms, listMatches eng ctx xp (.elem o) s = (.ok ms, s) := by
    rcases hl with ⟨b, m, h1, h2, h3⟩ | ⟨h1, rfl⟩
    · exact ⟨_, deepMatches_run heng hd ⟨hs, h1, h2⟩⟩
    · exact ⟨_, absentMatches heng hd hs h1⟩
  obtain ⟨ms, hms⟩ := hms
  rw [bind_ok hms, bind_ok (getDoc_run s)] at hdata
  unfold listDeleteAll
  rw [bind_ok hms, bind_ok (getDoc_run s)]
  refine deepDelete_go heng hd hS s ms (l := l) ?_ hs hl
  cases hmm : mapMatches mapper s ms with
  | error e => rw [hmm, ofExcept_err] at hdata; simp at hdata
  | ok l' =>
    rw [hmm, ofExcept_run] at hdata
    simp only [Prod.mk.injEq, Except.ok.injEq, and_true] at hdata
    rw [hdata]

end
end Fields
