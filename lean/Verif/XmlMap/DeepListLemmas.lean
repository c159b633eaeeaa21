import Verif.XmlMap.NodeListLemmas
import Verif.Spec.DeepList
/-
`NodeList` on a path of several child steps: lemmas.
-/
namespace Fields
open Xml XPath Spec

/-! ### the matches of a path below the match of its prefix -/

/-- The matches of `r` below a match. -/
def below (r : List Step) (n : Node) : Ref → List Ref
  | .elem b => match n.get b with
    | some m => (Step.matches r m).map (Ref.under b)
    | none => []
  | _ => []

theorem below_under {r : List Step} {n c : Node} {i : Nat} (hc : n.children[i]? = some c) : ∀ {l : List Ref}, (∀ x ∈ l, ∃ b, x = .elem b) →
    (l.map (Ref.under [i])).flatMap (below r n) = (l.flatMap (below r c)).map (Ref.under [i])
  | [], _ => rfl
  | x :: l, h => by
    obtain ⟨b, rfl⟩ := h x (by simp)
    have ih := below_under (r := r) hc (l := l) (fun y hy => h y (by simp [hy]))
    rw [List.map_cons, List.flatMap_cons, List.flatMap_cons, List.map_append, ih]
    congr 1
    show below r n (.elem (i :: b)) = _
    simp only [below, Node.get_cons, hc, Option.bind_some]
    cases c.get b with
    | none => rfl
    | some m => rw [map_under_under]; rfl

theorem mapIdx_flatten_congr {α β : Type} {f g : Nat → α → List β} {h : β → List β} : ∀ {cs : List α} {k : Nat},
    (∀ i c, cs[i]? = some c → f (i + k) c = (g (i + k) c).flatMap h) →
    (cs.mapIdx (fun i c => f (i + k) c)).flatten = (cs.mapIdx (fun i c => g (i + k) c)).flatten.flatMap h
  | [], _, _ => rfl
  | c :: cs, k, hf => by
    rw [List.mapIdx_cons, List.mapIdx_cons, List.flatten_cons, List.flatten_cons, List.flatMap_append, hf 0 c rfl]
    congr 1
    have := mapIdx_flatten_congr (f := f) (g := g) (h := h) (cs := cs) (k := k + 1) (fun i c hc => by
      have := hf (i + 1) c (by simpa using hc)
      rwa [Nat.add_right_comm, Nat.add_assoc] at this)
    rw [show (fun (i : Nat) (c : α) => f (i + 1 + k) c) = (fun i c => f (i + (k + 1)) c) by funext i c; rw [Nat.add_right_comm, Nat.add_assoc],
      show (fun (i : Nat) (c : α) => g (i + 1 + k) c) = (fun i c => g (i + (k + 1)) c) by funext i c; rw [Nat.add_right_comm, Nat.add_assoc]]
    exact this

theorem matches_append [PyUnicode] : ∀ {p : List Step}, allChild p = true → ∀ (r : List Step) (n : Node),
    Step.matches (p ++ r) n = (Step.matches p n).flatMap (below r n)
  | [], _, r, n => by simp [Step.matches, below, map_under_nil]
  | .child q ps :: p, h, r, n => by
    rw [List.cons_append, matches_child, matches_child]
    refine mapIdx_flatten_congr (f := stepG q ps (p ++ r)) (g := stepG q ps p) (k := 0) (fun i c hc => ?_)
    simp only [stepG, Nat.add_zero]
    split_ifs
    · rw [matches_append (p := p) h r c, below_under hc (fun x hx => matches_allChild (p := p) h hx)]
    · rfl

theorem matches_below [PyUnicode] {p : List Step} (h : allChild p = true) {n m : Node} {b : Node.Addr} (hb : Step.matches p n = [.elem b]) (hm : n.get b = some m)
    (r : List Step) : Step.matches (p ++ r) n = (Step.matches r m).map (Ref.under b) := by
  rw [matches_append h, hb]
  simp [below, hm]

theorem matches_absent [PyUnicode] {p : List Step} (h : allChild p = true) {n : Node} (hb : Step.matches p n = []) (r : List Step) :
    Step.matches (p ++ r) n = [] := by
  rw [matches_append h, hb]
  rfl

/-- Changing only members keeps the match of the parent path. -/
theorem parent_kept [PyUnicode] {p : List Step} {q : QName} {ps : List Pred} (hok : pathOk (p ++ [.child q ps]) = true) {n m m' : Node} {b : Node.Addr}
    (hb : Step.matches p n = [.elem b]) (hm : n.get b = some m) (hsame : SameButMembers q ps m m') :
    Step.matches p (n.modify b (fun _ => m')) = [.elem b] := by
  obtain ⟨hac, hpok, -⟩ := pathOk_append hok (by simp)
  obtain ⟨m0, h0, hk, hsp⟩ := matches_split p n b hpok (by rw [hb]; simp)
  rw [hm] at h0
  simp only [Option.some.injEq] at h0
  subst h0
  obtain ⟨L, R, hL, hf⟩ := hsp []
  have h1 := hf id hk
  rw [List.append_nil, Node.modify_id hm rfl, hb, hL (by rw [hb]; rfl)] at h1
  simp only [Step.matches, List.map_cons, List.map_nil, List.nil_append, List.singleton_append, List.cons.injEq] at h1
  have h2 := hf (fun _ => m') (keeps_of_sat hsame.1 (by
    intro q' ps' hl
    obtain ⟨o1, o2⟩ := last_ok hok hl
    rw [hl] at hk
    rw [← hk.2]
    refine satAll_local o1 hsame.2.1 (fun pr hpr q2 hq2 => ?_)
    simp only [nextOk, List.all_eq_true, bne_iff_ne, ne_eq] at o2
    have hne : q2 ≠ q := by rintro rfl; exact o2 pr hpr hq2
    have key : ∀ x : Node, x.children.filter (·.isElem q2) = (others q ps x).filter (·.isElem q2) := by
      intro x
      simp only [others, List.filter_filter]
      apply List.filter_congr
      intro c _
      by_cases hc : c.isElem q2 = true
      · have : c.isElem q = false := by
          simp only [Node.isElem, beq_iff_eq] at hc
          simp only [Node.isElem, hc, beq_eq_false_iff_ne, ne_eq, Tag.elem.injEq]
          exact hne
        simp [hc, isMember, this]
      · simp [hc]
    rw [key, key, hsame.2.2.2.2]))
  rw [List.append_nil, hL (by rw [hb]; rfl)] at h2
  rw [h2, ← h1.2]
  simp [Step.matches, Ref.under]

/-! ### operations that do not create anything -/

section
variable {α β : Type}

theorem bind_congr_run {m m' : M α} {f f' : α → M β} {s : Node} (h : m s = m' s) (hf : ∀ x s', m' s = (.ok x, s') → f x s' = f' x s') :
    (m >>= f) s = (m' >>= f') s := by
  cases hm : m' s with
  | mk r s' =>
    cases r with
    | ok x => rw [bind_ok (h.trans hm), bind_ok hm]; exact hf x s' hm
    | error e => rw [bind_err (h.trans hm), bind_err hm]

theorem getDoc_run (s : Node) : getDoc s = (.ok s, s) := rfl

variable [PyUnicode] {eng : Engine} {ctx : Ctx}

theorem listMatches_state (xp : Str) (node : Ref) (s : Node) : (listMatches eng ctx xp node s).2 = s := by
  cases node with
  | elem a =>
    unfold listMatches
    have h1 : evalXPath eng ctx xp (.elem a) s = (eng.xpath xp s a ctx, s) := rfl
    cases he : eng.xpath xp s a ctx with
    | error e => rw [he] at h1; rw [bind_err h1]
    | ok v => rw [he] at h1; rw [bind_ok h1]; cases v <;> rfl
  | attr a q => rfl
  | text a => rfl
  | tail a => rfl

variable [DecidableEq α] {mapper : Item → Except PyErr α} {store : Ref → α → M Unit} {xp xp' : Str} {e e' : Expr} {node node' : Ref} {s : Node}

section congr
variable (h : listMatches eng ctx xp node s = listMatches eng ctx xp' node' s)
include h

omit [DecidableEq α] in
theorem listData_congr : listData eng ctx mapper xp node s = listData eng ctx mapper xp' node' s :=
  bind_congr_run h (fun _ _ _ => rfl)

omit [DecidableEq α] in
theorem listLen_congr : listLen eng ctx mapper xp node s = listLen eng ctx mapper xp' node' s :=
  bind_congr_run (listData_congr h) (fun _ _ _ => rfl)

theorem listIndex_congr (x : α) : listIndex eng ctx mapper xp node x s = listIndex eng ctx mapper xp' node' x s :=
  bind_congr_run (listData_congr h) (fun _ _ _ => rfl)

omit [DecidableEq α] in
theorem listGet_congr (i : Int) : listGet eng ctx mapper xp node i s = listGet eng ctx mapper xp' node' i s :=
  bind_congr_run h (fun _ _ _ => rfl)

theorem listDel_congr (i : Int) : listDel eng ctx xp node i s = listDel eng ctx xp' node' i s :=
  bind_congr_run h (fun _ _ _ => rfl)

omit [DecidableEq α] in
theorem listSet_congr {ms : List Ref} (hms : listMatches eng ctx xp' node' s = (.ok ms, s)) {i : Int} (hi : i ≠ ms.length) (v : α) :
    listSet eng ctx store xp e node i v s = listSet eng ctx store xp' e' node' i v s := by
  refine bind_congr_run h (fun x s' hx => ?_)
  rw [hms] at hx
  simp only [Prod.mk.injEq, Except.ok.injEq] at hx
  obtain ⟨rfl, rfl⟩ := hx
  simp only [if_neg hi]
end congr

end

/-! ### the list at the end of a path -/

section
variable [PyUnicode] {eng : Engine} {ctx : Ctx} {xp : Str} {lx : Expr} {ax : Option Str} {t : NodeTest} {es : List Expr} {p : List Step} {q : QName} {ps : List Pred}

/-- The field: its XPath is `lx/step`, with the parent path `p` and the step `q[ps]`. -/
structure Deep (ctx : Ctx) (xp : Str) (lx : Expr) (ax : Option Str) (t : NodeTest) (es : List Expr) (p : List Step) (q : QName) (ps : List Pred) : Prop where
  parse : parse0 xp = .ok (.binary lx .slash (.step ax t es))
  left : res ctx lx = some (p, none)
  step : res ctx (.step ax t es) = some ([.child q ps], none)
  full : res ctx (.binary lx .slash (.step ax t es)) = some (p ++ [.child q ps], none)
  canon : lx.canonical = true
  canonStep : (Expr.step ax t es).canonical = true
  canonFull : (Expr.binary lx .slash (.step ax t es)).canonical = true
  ok : pathOk (p ++ [.child q ps]) = true

theorem deep_of {e : Expr} (hf : SimpleField ctx xp e (p ++ [.child q ps])) (hp : p ≠ []) : ∃ lx ax t es, e = .binary lx .slash (.step ax t es) ∧
    Deep ctx xp lx ax t es p q ps := by
  have hpath := hf.path
  cases e with
  | binary l op r =>
    cases op with
    | slash =>
      obtain ⟨h1, h2, ax, t, es, rfl⟩ := canonical_slash hf.canonical hf.path
      have hpath' := hpath
      rw [res] at hpath'
      split at hpath' <;> simp only [reduceCtorEq, Option.some.injEq, Prod.mk.injEq, and_true] at hpath'
      rename_i p1 p2 hl hr
      obtain ⟨st, rfl⟩ := res_step hr
      obtain ⟨rfl, hst⟩ := List.append_inj' hpath' rfl
      simp only [List.cons.injEq, and_true] at hst
      subst hst
      exact ⟨l, ax, t, es, rfl, ⟨hf.parse, hl, hr, hpath, h1, h2, hf.canonical, hf.ok⟩⟩
    | eq =>
      rw [res] at hpath
      split at hpath <;> simp at hpath
    | _ => simp [res] at hpath
  | step ax t es =>
    obtain ⟨st, hst⟩ := res_step hpath
    have := congrArg List.length hst
    have h2 := List.length_pos_iff.2 hp
    simp at this
    exact absurd this (by simpa using hp)
  | _ => simp [res] at hpath

/-- The parent is there, once. -/
structure There (p : List Step) (o b : Node.Addr) (s n m : Node) : Prop where
  obj : s.get o = some n
  one : Step.matches p n = [.elem b]
  elem : n.get b = some m

omit [PyUnicode] in
theorem There.get {o b s n m} (h : There p o b s n m) : s.get (o ++ b) = some m := by
  rw [Node.get_append, h.obj]; exact h.elem

theorem There.kept {o b s n m m'} (h : There p o b s n m) (hok : pathOk (p ++ [.child q ps]) = true) (hs : SameButMembers q ps m m') :
    There p o b (s.modify (o ++ b) (fun _ => m')) (n.modify b (fun _ => m')) m' where
  obj := by rw [Node.modify_append, Node.get_modify, h.obj]; rfl
  one := parent_kept hok h.one h.elem hs
  elem := by rw [Node.get_modify, h.elem]; rfl

variable {o b : Node.Addr} {s n m : Node} (heng : EngineOk eng) (hd : Deep ctx xp lx ax t es p q ps)
include heng hd

theorem deepMatches_run (h : There p o b s n m) :
    listMatches eng ctx xp (.elem o) s = (.ok ((idxs (isMember q ps) m.children).map (fun i => .elem (o ++ b ++ [i]))), s) := by
  have h0 := heng.path ctx xp _ (p ++ [.child q ps]) s n o hd.parse (by simp [resPath, hd.full]) h.obj
  have h1 : evalXPath eng ctx xp (.elem o) s = (.ok (.nodes ((Step.matches (p ++ [.child q ps]) n).map (Ref.under o))), s) := by
    show (eng.xpath xp s o ctx, s) = _
    rw [h0]
  unfold listMatches
  rw [bind_ok h1, matches_below (pathOk_append hd.ok (by simp)).1 h.one h.elem, matches_single, List.map_map, List.map_map]
  show (Except.ok _, s) = _
  congr 2
  apply List.map_congr_left
  intro i _
  simp [Ref.under]

/-- The same as for the list of the parent itself. -/
theorem deepMatches_eq (h : There p o b s n m) :
    listMatches eng ctx xp (.elem o) s = listMatches eng ctx (Expr.step ax t es).ser (.elem (o ++ b)) s := by
  rw [deepMatches_run heng hd h, listMatches_run heng (parse0_ser hd.canonStep) hd.step h.get]

theorem deepCreate (h : There p o b s n m) (idx : Option Nat) :
    createNode eng ctx (.binary lx .slash (.step ax t es)) (.elem o) idx s
      = (.ok (.elem (o ++ b ++ [m.children.length])), s.modify (o ++ b) (fun _ => m.withChildren (m.children ++ [newElem q ps]))) := by
  have hf := findNode_path heng (parse0_ser hd.canon) hd.left h.obj
  have hcn : createNode eng ctx (.binary lx .slash (.step ax t es)) (.elem o) idx s
      = (findNode eng ctx lx.ser (.elem o) >>= fun o' => match o' with
        | some f => foundRef f >>= fun left => createNode eng ctx (.step ax t es) left none
        | none => createNode eng ctx lx (.elem o) none >>= fun left => createNode eng ctx (.step ax t es) left none) s := by
    rw [createNode]; rfl
  rw [hcn, bind_ok hf, h.one]
  simp only [List.head?_cons, Option.map_some]
  rw [bind_ok (show foundRef (.ref ((Ref.elem b).under o)) s = (.ok (.elem (o ++ b)), s) from rfl)]
  have hok := (pathOk_append hd.ok (by simp)).2.2
  simp only [pathOk, Bool.and_eq_true] at hok
  exact createNode_end hd.step hok.1.1 h.get

variable {α : Type} [DecidableEq α] {mapper : Item → Except PyErr α} {store : Ref → α → M Unit} {good : Node → Prop} {value : Node → α}
  {put : α → Node → Node} {okv : α → Prop} (hS : StoreOk q ps mapper store good value put okv)
include hS

omit [DecidableEq α] in
/-- Appending. -/
theorem deepSet_end {l} (h : There p o b s n m) (hl : Holds q ps good value m l) {v : α} (hv : okv v) :
    listSet eng ctx store xp (.binary lx .slash (.step ax t es)) (.elem o) l.length v s
      = (.ok (), s.modify (o ++ b) (fun _ => m.withChildren (m.children ++ [put v (newElem q ps)]))) ∧
    Holds q ps good value (m.withChildren (m.children ++ [put v (newElem q ps)])) (l ++ [v]) ∧
    SameButMembers q ps m (m.withChildren (m.children ++ [put v (newElem q ps)])) := by
  have hok := (pathOk_append hd.ok (by simp)).2.2
  simp only [pathOk, Bool.and_eq_true] at hok
  have hok := hok.1.1
  have hnew : isMember q ps (newElem q ps) = true := by simp [isMember, newElem_isElem, newElem_sat hok]
  have hnewp := hS.new.member hnew v hv
  have hg := h.get
  refine ⟨?_, ⟨?_, ?_⟩, ?_⟩
  · have hz : ∃ z, appendIndex ((idxs (isMember q ps) m.children).map (fun i => Ref.elem (o ++ b ++ [i]))) s = (.ok z, s) := by
      unfold appendIndex
      cases hgl : ((idxs (isMember q ps) m.children).map (fun i => Ref.elem (o ++ b ++ [i]))).getLast? with
      | none => exact ⟨none, rfl⟩
      | some x =>
        obtain ⟨i, -, rfl⟩ := List.mem_map.1 (List.mem_of_getLast? hgl)
        have hpos : positionOf (.elem (o ++ b ++ [i])) s = (.ok i, s) := by simp [positionOf]; rfl
        simp only
        rw [bind_ok hpos]
        exact ⟨some (i + 1), rfl⟩
    obtain ⟨z, hz⟩ := hz
    unfold listSet
    rw [bind_ok (deepMatches_run heng hd h), matches_length hl (o ++ b), if_pos rfl, bind_assoc', bind_ok hz, bind_ok (deepCreate heng hd h z)]
    have hs' : (s.modify (o ++ b) (fun _ => m.withChildren (m.children ++ [newElem q ps]))).get (o ++ b) = some (m.withChildren (m.children ++ [newElem q ps])) := by
      rw [Node.get_modify, hg]; rfl
    rw [store_mid heng (parse0_ser hd.canonStep) hd.step hok hS hs' (Node.withChildren_children _ _) hS.new hv, Node.modify_modify]
    simp only [Node.withChildren_withChildren]
    rfl
  · intro m' hm'
    rw [members_mid hnewp] at hm'
    simp only [List.mem_append, List.mem_cons, List.filter_nil, List.not_mem_nil, or_false] at hm'
    rcases hm' with hm' | rfl
    · exact hl.1 m' hm'
    · exact hS.new.stays v hv
  · rw [members_mid hnewp, List.map_append]
    rw [show (m.children.filter (isMember q ps)).map value = l from hl.2]
    simp [hS.new.value v hv]
  · simp [SameButMembers, others, hnewp]

theorem deepAppend_run {l} (h : There p o b s n m) (hl : Holds q ps good value m l) {v : α} (hv : okv v) :
    Step1 q ps good value (o ++ b) s m (listAppend eng ctx mapper store xp (.binary lx .slash (.step ax t es)) (.elem o) v s) (.ok (), l ++ [v]) := by
  obtain ⟨h1, h2, h3⟩ := deepSet_end heng hd hS h hl hv
  refine ⟨_, ?_, h2, h3⟩
  unfold listAppend
  rw [bind_ok ((listLen_congr (deepMatches_eq heng hd h)).trans (listLen_run heng (parse0_ser hd.canonStep) hd.step hS h.get hl))]
  exact h1

theorem deepExtend_run : ∀ (vs : List α) {s n m l}, There p o b s n m → Holds q ps good value m l → (∀ v ∈ vs, okv v) →
    Step1 q ps good value (o ++ b) s m (listExtend eng ctx mapper store xp (.binary lx .slash (.step ax t es)) (.elem o) vs s) (.ok (), l ++ vs)
  | [], s, n, m, l, h, hl, _ => by
    rw [List.append_nil]
    exact step1_same h.get hl (.ok ())
  | v :: vs, s, n, m, l, h, hl, hv => by
    obtain ⟨m', h1, h2, h3⟩ := deepAppend_run heng hd hS h hl (hv v (by simp))
    obtain ⟨m'', k1, k2, k3⟩ := deepExtend_run vs (h.kept hd.ok h3) h2 (fun w hw => hv w (by simp [hw]))
    refine ⟨m'', ?_, by simpa using k2, same_trans h3 k3⟩
    have : listExtend eng ctx mapper store xp (.binary lx .slash (.step ax t es)) (.elem o) (v :: vs) s
        = (listAppend eng ctx mapper store xp (.binary lx .slash (.step ax t es)) (.elem o) v >>= fun _ =>
            listExtend eng ctx mapper store xp (.binary lx .slash (.step ax t es)) (.elem o) vs) s := by
      rw [listExtend]
    rw [this, bind_ok h1, k1, Node.modify_modify]
    rfl

/-- An operation that does not create anything does what it does for the list of the parent itself. -/
theorem deepRunOp_eq {l} (h : There p o b s n m) (hl : Holds q ps good value m l) (op : ListOp α)
    (hop : match op with
      | .set i _ => i ≠ l.length
      | .append _ | .extend _ => False
      | .insert i _ => (l.length : Int) < i
      | _ => True) :
    runOp eng ctx mapper store xp (.binary lx .slash (.step ax t es)) (.elem o) op s
      = runOp eng ctx mapper store (Expr.step ax t es).ser (.step ax t es) (.elem (o ++ b)) op s := by
  have hm := deepMatches_eq heng hd h
  have hms := listMatches_run heng (parse0_ser hd.canonStep) hd.step h.get
  have hlen := listLen_run heng (parse0_ser hd.canonStep) hd.step hS h.get hl
  have hget := fun i => listGet_run heng (parse0_ser hd.canonStep) hd.step hS h.get hl i
  have hdata := listData_run heng (parse0_ser hd.canonStep) hd.step hS h.get hl
  have hpop : ∀ j : Int, (do let val ← listGet eng ctx mapper xp (.elem o) j; listDel eng ctx xp (.elem o) j; pure val : M α) s
      = (do let val ← listGet eng ctx mapper (Expr.step ax t es).ser (.elem (o ++ b)) j; listDel eng ctx (Expr.step ax t es).ser (.elem (o ++ b)) j; pure val : M α) s := by
    intro j
    refine bind_congr_run (listGet_congr hm j) (fun x s' hx => ?_)
    rw [hget] at hx
    simp only [Prod.mk.injEq] at hx
    rw [← hx.2]
    exact bind_congr_run (listDel_congr hm j) (fun _ _ _ => rfl)
  cases op with
  | len => exact bind_congr_run (listLen_congr hm) (fun _ _ _ => rfl)
  | get i => exact bind_congr_run (listGet_congr hm i) (fun _ _ _ => rfl)
  | set i v =>
    refine bind_congr_run (listSet_congr hm hms ?_ v) (fun _ _ _ => rfl)
    rw [matches_length hl (o ++ b)]
    exact hop
  | del i => exact bind_congr_run (listDel_congr hm i) (fun _ _ _ => rfl)
  | append v => exact absurd hop id
  | extend vs => exact absurd hop id
  | insert i v =>
    refine bind_congr_run ?_ (fun _ _ _ => rfl)
    refine bind_congr_run (listLen_congr hm) (fun x s' hx => ?_)
    rw [hlen] at hx
    simp only [Prod.mk.injEq, Except.ok.injEq] at hx
    obtain ⟨rfl, rfl⟩ := hx
    have hop : (l.length : Int) < i := hop
    simp only [if_neg (show ¬ i = (l.length : Int) by omega)]
    refine bind_congr_run hm (fun x s' hx => ?_)
    rw [hms] at hx
    simp only [Prod.mk.injEq, Except.ok.injEq] at hx
    obtain ⟨rfl, rfl⟩ := hx
    rw [matches_length hl (o ++ b)]
    simp only [if_neg (show ¬ (l.length : Int) > i by omega)]
  | pop i =>
    refine bind_congr_run ?_ (fun _ _ _ => rfl)
    unfold listPop
    cases i with
    | some i => exact hpop i
    | none =>
      simp only [bind_assoc']
      refine bind_congr_run (listLen_congr hm) (fun x s' hx => ?_)
      rw [hlen] at hx
      simp only [Prod.mk.injEq, Except.ok.injEq] at hx
      obtain ⟨rfl, rfl⟩ := hx
      exact hpop _
  | remove v =>
    refine bind_congr_run ?_ (fun _ _ _ => rfl)
    refine bind_congr_run (listIndex_congr hm v) (fun x s' hx => ?_)
    have : s' = s := by
      unfold listIndex at hx
      rw [bind_ok hdata] at hx
      cases hi : l.idxOf? v with
      | none => rw [hi] at hx; simp [raise] at hx
      | some i => rw [hi] at hx; have hx : ((Except.ok i : Except PyErr Nat), s) = (.ok x, s') := hx; simp only [Prod.mk.injEq] at hx; exact hx.2.symm
    rw [this]
    exact listDel_congr hm _
  | index v => exact bind_congr_run (listIndex_congr hm v) (fun _ _ _ => rfl)
  | count v =>
    refine bind_congr_run ?_ (fun _ _ _ => rfl)
    exact bind_congr_run (listData_congr hm) (fun _ _ _ => rfl)
  | contains v =>
    refine bind_congr_run ?_ (fun _ _ _ => rfl)
    exact bind_congr_run (listData_congr hm) (fun _ _ _ => rfl)
  | eq l' =>
    refine bind_congr_run ?_ (fun _ _ _ => rfl)
    exact bind_congr_run (listData_congr hm) (fun _ _ _ => rfl)

end
end Fields
