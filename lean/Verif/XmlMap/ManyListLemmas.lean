import Verif.XmlMap.DeepListRun
import Verif.Spec.ManyList
import Mathlib.Data.List.Forall2
import Mathlib.Data.List.Nodup
/-
`NodeList` on a path of several child steps whose parent path selects several elements: lemmas.
-/
namespace Fields
open Xml XPath Spec

/-! ### the lists of the parents -/

section
variable {α : Type}

theorem setIn_mid {l : List α} {j : Nat} (hj : j < l.length) (v : α) (ls2 : List (List α)) : ∀ ls1 : List (List α),
    setIn (ls1 ++ l :: ls2) (ls1.flatten.length + j) v = ls1 ++ l.set j v :: ls2
  | [] => by simp [setIn, hj]
  | g :: ls1 => by
    rw [List.cons_append, setIn, if_neg (by simp; omega), List.flatten_cons, List.length_append,
      show g.length + ls1.flatten.length + j - g.length = ls1.flatten.length + j by omega, setIn_mid hj v ls2 ls1]
    rfl

theorem eraseIn_mid {l : List α} {j : Nat} (hj : j < l.length) (ls2 : List (List α)) : ∀ ls1 : List (List α),
    eraseIn (ls1 ++ l :: ls2) (ls1.flatten.length + j) = ls1 ++ l.eraseIdx j :: ls2
  | [] => by simp [eraseIn, hj]
  | g :: ls1 => by
    rw [List.cons_append, eraseIn, if_neg (by simp; omega), List.flatten_cons, List.length_append,
      show g.length + ls1.flatten.length + j - g.length = ls1.flatten.length + j by omega, eraseIn_mid hj ls2 ls1]
    rfl

/-- Where the item at a position is. -/
theorem place_of : ∀ {gs : List (List α)} {k : Nat}, k < gs.flatten.length →
    ∃ ls1 l ls2 j, gs = ls1 ++ l :: ls2 ∧ k = ls1.flatten.length + j ∧ j < l.length
  | [], k, h => by simp at h
  | g :: gs, k, h => by
    by_cases hk : k < g.length
    · exact ⟨[], g, gs, k, rfl, by simp, hk⟩
    · obtain ⟨ls1, l, ls2, j, h1, h2, h3⟩ := place_of (gs := gs) (k := k - g.length) (by simp at h ⊢; omega)
      refine ⟨g :: ls1, l, ls2, j, by rw [h1]; rfl, ?_, h3⟩
      simp only [List.flatten_cons, List.length_append]
      omega

theorem flatten_setIn : ∀ {gs : List (List α)} {k : Nat} (v : α), k < gs.flatten.length → (setIn gs k v).flatten = gs.flatten.set k v := by
  intro gs k v h
  obtain ⟨ls1, l, ls2, j, rfl, rfl, hj⟩ := place_of h
  rw [setIn_mid hj]
  simp only [List.flatten_append, List.flatten_cons]
  rw [List.set_append_right _ _ (by omega), List.set_append_left _ _ (by omega)]
  simp

theorem flatten_eraseIn : ∀ {gs : List (List α)} {k : Nat}, k < gs.flatten.length → (eraseIn gs k).flatten = gs.flatten.eraseIdx k := by
  intro gs k h
  obtain ⟨ls1, l, ls2, j, rfl, rfl, hj⟩ := place_of h
  rw [eraseIn_mid hj]
  simp only [List.flatten_append, List.flatten_cons]
  rw [List.eraseIdx_append_of_length_le (by omega), List.eraseIdx_append_of_lt_length (by omega)]
  simp

theorem flatten_addFirst (vs g : List α) (gs : List (List α)) : (addFirst vs (g :: gs)).flatten = g ++ vs ++ gs.flatten := by
  simp [addFirst]

/-- An operation gives the result of the Python list of all items. -/
theorem groupOp_fst [DecidableEq α] (gs : List (List α)) (op : ListOp α)
    (h : op.atEnd gs.flatten) : (groupOp gs op).1 = (pyList gs.flatten op).1 := by
  cases op with
  | set i v =>
    simp only [groupOp, pyList]
    split_ifs with h0
    · rfl
    · cases pos gs.flatten.length i <;> rfl
  | del i => simp only [groupOp, pyList]; cases pos gs.flatten.length i <;> rfl
  | pop i =>
    simp only [groupOp, pyList]
    cases pos gs.flatten.length (i.getD (gs.flatten.length - 1)) with
    | none => rfl
    | some k => simp only; cases gs.flatten[k]? <;> rfl
  | remove v => simp only [groupOp, pyList]; split_ifs <;> rfl
  | insert i v =>
    have h : (gs.flatten.length : Int) ≤ i := h
    simp only [groupOp, pyList]
    by_cases hi : i = gs.flatten.length
    · rw [if_pos hi, if_pos ⟨by omega, by omega⟩]
    · rw [if_neg hi, if_neg (show ¬ (0 ≤ i ∧ i ≤ (gs.flatten.length : Int)) by omega)]
  | _ => rfl

/-- An operation that adds nothing does to all items what it does to the Python list. -/
theorem groupOp_flatten [DecidableEq α] (gs : List (List α)) (op : ListOp α) (h : op.addsNone gs.flatten.length) :
    (groupOp gs op).2.flatten = (pyList gs.flatten op).2 := by
  cases op with
  | set i v =>
    have h : i ≠ gs.flatten.length := h
    simp only [groupOp, pyList, if_neg h]
    cases hk : pos gs.flatten.length i with
    | none => rfl
    | some k => exact flatten_setIn v (pos_lt hk)
  | del i =>
    simp only [groupOp, pyList]
    cases hk : pos gs.flatten.length i with
    | none => rfl
    | some k => exact flatten_eraseIn (pos_lt hk)
  | pop i =>
    simp only [groupOp, pyList]
    cases hk : pos gs.flatten.length (i.getD (gs.flatten.length - 1)) with
    | none => rfl
    | some k =>
      simp only [List.getElem?_eq_getElem (pos_lt hk)]
      exact flatten_eraseIn (pos_lt hk)
  | remove v =>
    simp only [groupOp, pyList]
    by_cases hv : v ∈ gs.flatten
    · rw [if_pos hv, if_pos hv, List.erase_eq_eraseIdx_of_idxOf rfl]
      exact flatten_eraseIn (List.idxOf_lt_length_iff.2 hv)
    · rw [if_neg hv, if_neg hv]
  | append v => exact absurd h id
  | extend v => exact absurd h id
  | insert i v => exact absurd h id
  | get i =>
    simp only [groupOp, pyList]
    cases pos gs.flatten.length i with
    | none => rfl
    | some k => simp only; cases gs.flatten[k]? <;> rfl
  | index v => simp only [groupOp, pyList]; split_ifs <;> rfl
  | _ => rfl

end

/-! ### the parents -/

section
variable {p : List Step} {q : QName} {ps : List Pred}

theorem matches_addr_length : ∀ {p : List Step}, allChild p = true → ∀ {n : Node} {b : Node.Addr}, .elem b ∈ Step.matches p n → b.length = p.length
  | [], _, n, b, h => by simp [Step.matches] at h; simp [h]
  | .child q ps :: p, ha, n, b, h => by
    rw [matches_child] at h
    simp only [List.mem_flatten, List.mem_mapIdx] at h
    obtain ⟨l, ⟨i, hi, rfl⟩, hb⟩ := h
    unfold stepG at hb
    split_ifs at hb
    · obtain ⟨y, hy, hyb⟩ := List.mem_map.1 hb
      obtain ⟨a', rfl, rfl⟩ := elem_under_iff hyb.symm
      simp [matches_addr_length (p := p) ha hy]
    · simp at hb

theorem nodup_mapIdx_flatten {f : Nat → Node → List Ref} : ∀ {cs : List Node} {k : Nat}, (∀ i c, (f (i + k) c).Nodup) →
    (∀ i c x, x ∈ f i c → ∃ y : Ref, x = y.under [i]) → ((cs.mapIdx (fun i c => f (i + k) c)).flatten).Nodup
  | [], _, _, _ => by simp
  | c :: cs, k, h1, h2 => by
    rw [List.mapIdx_cons, List.flatten_cons]
    have ih := nodup_mapIdx_flatten (f := f) (cs := cs) (k := k + 1) (fun i c => by have := h1 (i + 1) c; rwa [Nat.add_right_comm, Nat.add_assoc] at this) h2
    rw [show (fun (i : Nat) (c : Node) => f (i + 1 + k) c) = (fun i c => f (i + (k + 1)) c) by funext i c; rw [Nat.add_right_comm, Nat.add_assoc]]
    refine List.nodup_append.2 ⟨h1 0 c, ih, ?_⟩
    rintro x hx y hy rfl
    simp only [List.mem_flatten, List.mem_mapIdx] at hy
    obtain ⟨l, ⟨i, hi, rfl⟩, hxi⟩ := hy
    obtain ⟨y1, e1⟩ := h2 _ _ _ hx
    obtain ⟨y2, e2⟩ := h2 _ _ _ hxi
    rw [e1] at e2
    have : (0 + k) = (i + (k + 1)) := by
      cases y1 <;> cases y2 <;> simp [Ref.under] at e2 <;> omega
    omega

theorem under_inj {i : Nat} {x y : Ref} (h : x.under [i] = y.under [i]) : x = y := by
  cases x <;> cases y <;> simp [Ref.under] at h ⊢ <;> exact h

theorem matches_nodup : ∀ {p : List Step}, allChild p = true → ∀ (n : Node), (Step.matches p n).Nodup
  | [], _, n => by simp [Step.matches]
  | .child q ps :: p, ha, n => by
    rw [matches_child]
    refine nodup_mapIdx_flatten (f := stepG q ps p) (k := 0) (fun i c => ?_) (fun i c x hx => ?_)
    · unfold stepG
      split_ifs
      · exact List.Nodup.map (fun _ _ h => under_inj h) (matches_nodup (p := p) ha c)
      · simp
    · unfold stepG at hx
      split_ifs at hx
      · obtain ⟨y, -, rfl⟩ := List.mem_map.1 hx
        exact ⟨y, rfl⟩
      · simp at hx

/-- Changing only members of one parent keeps the matches of the parent path. -/
theorem parents_kept [PyUnicode] (hok : pathOk (p ++ [.child q ps]) = true) {n m m' : Node} {b : Node.Addr}
    (hb : .elem b ∈ Step.matches p n) (hm : n.get b = some m) (hsame : SameButMembers q ps m m') :
    Step.matches p (n.modify b (fun _ => m')) = Step.matches p n := by
  obtain ⟨hac, hpok, -⟩ := pathOk_append hok (by simp)
  obtain ⟨m0, h0, hk, hsp⟩ := matches_split p n b hpok hb
  rw [hm] at h0
  simp only [Option.some.injEq] at h0
  subst h0
  obtain ⟨L, R, -, hf⟩ := hsp []
  have h1 := hf id hk
  rw [List.append_nil, Node.modify_id hm rfl] at h1
  have h2 := hf (fun _ => m') (keeps_of_sat hsame.1 (by
    intro q' ps' hl
    obtain ⟨o1, o2⟩ := last_ok hok hl
    rw [hl] at hk
    rw [← hk.2]
    refine satAll_local o1 hsame.2.1 (fun pr hpr q2 hq2 => ?_)
    simp only [nextOk, List.all_eq_true, bne_iff_ne, ne_eq] at o2
    have hne : q2 ≠ q := by rintro rfl; exact o2 pr hpr hq2
    have key : ∀ x : Node, x.children.filter (·.isElem q2) = (others q ps x).filter (·.isElem q2) := by
      intro x
      simp only [others, List.filter_filter]
      apply List.filter_congr
      intro c _
      by_cases hc : c.isElem q2 = true
      · have : c.isElem q = false := by
          simp only [Node.isElem, beq_iff_eq] at hc
          simp only [Node.isElem, hc, beq_eq_false_iff_ne, ne_eq, Tag.elem.injEq]
          exact hne
        simp [hc, isMember, this]
      · simp [hc]
    rw [key, key, hsame.2.2.2.2]))
  rw [List.append_nil] at h2
  rw [h2, h1]
  simp [Step.matches]

/-- Parents are apart from each other. -/
theorem parents_apart (hac : allChild p = true) {n : Node} {b b' : Node.Addr} (hb : .elem b ∈ Step.matches p n) (hb' : .elem b' ∈ Step.matches p n) (hne : b ≠ b') :
    ¬ b <+: b' := by
  intro h
  exact hne (h.eq_of_length (by rw [matches_addr_length hac hb, matches_addr_length hac hb']))

/-- What the field leaves unchanged: the parents stay, each of them changes only in its members. -/
theorem OnlyMembers.keeps [PyUnicode] (hok : pathOk (p ++ [.child q ps]) = true) {n n' : Node} (h : OnlyMembers p q ps n n') :
    Step.matches p n' = Step.matches p n ∧ ∀ b m, .elem b ∈ Step.matches p n → n.get b = some m → ∃ m', n'.get b = some m' ∧ SameButMembers q ps m m' := by
  induction h with
  | same n => exact ⟨rfl, fun b m _ hm => ⟨m, hm, same_refl m⟩⟩
  | @change n k k' n' c hc hk hs _ ih =>
    have hkept := parents_kept hok hc hk hs
    rw [hkept] at ih
    refine ⟨ih.1, fun b m hb hm => ?_⟩
    by_cases hbc : b = c
    · subst hbc
      rw [hk] at hm
      simp only [Option.some.injEq] at hm
      subst hm
      obtain ⟨m', e1, e2⟩ := ih.2 b k' hb (by rw [Node.get_modify, hk]; rfl)
      exact ⟨m', e1, same_trans hs e2⟩
    · have hac := (pathOk_append hok (by simp)).1
      exact ih.2 b m hb (by rw [Node.get_modify_other _ _ (parents_apart hac hc hb (Ne.symm hbc)) (parents_apart hac hb hc hbc)]; exact hm)

theorem OnlyMembers.trans {n n' n'' : Node} (h : OnlyMembers p q ps n n') (h' : OnlyMembers p q ps n' n'') : OnlyMembers p q ps n n'' := by
  induction h with
  | same n => exact h'
  | change hc hk hs _ ih => exact .change hc hk hs (ih h')

end

/-! ### the list on the parents -/

section
variable [PyUnicode] {eng : Engine} {ctx : Ctx} {xp : Str} {lx : Expr} {ax : Option Str} {t : NodeTest} {es : List Expr} {p : List Step} {q : QName} {ps : List Pred}
variable {α : Type} {good : Node → Prop} {value : Node → α}

/-- The parents are at `bs`, and hold the lists `ls`. -/
structure Parents (p : List Step) (q : QName) (ps : List Pred) (good : Node → Prop) (value : Node → α) (n : Node) (bs : List Node.Addr) (ls : List (List α)) : Prop where
  all : Step.matches p n = bs.map .elem
  each : List.Forall₂ (fun b l => ∃ m, n.get b = some m ∧ Holds q ps good value m l) bs ls

theorem forall₂_mid {β γ : Type} {R : β → γ → Prop} {l : γ} {ls2 : List γ} : ∀ {ls1 : List γ} {bs : List β}, List.Forall₂ R bs (ls1 ++ l :: ls2) →
    ∃ bs1 b bs2, bs = bs1 ++ b :: bs2 ∧ List.Forall₂ R bs1 ls1 ∧ R b l ∧ List.Forall₂ R bs2 ls2
  | [], _, .cons h hs => ⟨[], _, _, rfl, .nil, h, hs⟩
  | _ :: _, _, .cons h hs => by
    obtain ⟨bs1, b, bs2, rfl, h1, h2, h3⟩ := forall₂_mid hs
    exact ⟨_ :: bs1, b, bs2, rfl, .cons h h1, h2, h3⟩

theorem forall₂_join {β γ : Type} {R : β → γ → Prop} {b : β} {l : γ} {bs2 : List β} {ls2 : List γ} (h : R b l) (h2 : List.Forall₂ R bs2 ls2) :
    ∀ {bs1 : List β} {ls1 : List γ}, List.Forall₂ R bs1 ls1 → List.Forall₂ R (bs1 ++ b :: bs2) (ls1 ++ l :: ls2)
  | _, _, .nil => .cons h h2
  | _, _, .cons h' hs => .cons h' (forall₂_join h h2 hs)

theorem forall₂_imp_mem {β γ : Type} {R S : β → γ → Prop} : ∀ {bs : List β} {ls : List γ}, List.Forall₂ R bs ls → (∀ b ∈ bs, ∀ l, R b l → S b l) →
    List.Forall₂ S bs ls
  | _, _, .nil, _ => .nil
  | _, _, .cons h hs, hf => .cons (hf _ (by simp) _ h) (forall₂_imp_mem hs (fun b hb => hf b (by simp [hb])))

/-- The parent with the list `l`: changing its members changes this list. -/
theorem Parents.at {n : Node} {bs : List Node.Addr} {ls1 ls2 : List (List α)} {l : List α} (hok : pathOk (p ++ [.child q ps]) = true)
    (h : Parents p q ps good value n bs (ls1 ++ l :: ls2)) : ∃ bs1 b bs2 m, bs = bs1 ++ b :: bs2 ∧ bs1.length = ls1.length ∧ n.get b = some m ∧ Holds q ps good value m l ∧
      List.Forall₂ (fun b l => ∃ m, n.get b = some m ∧ Holds q ps good value m l) bs1 ls1 ∧
      List.Forall₂ (fun b l => ∃ m, n.get b = some m ∧ Holds q ps good value m l) bs2 ls2 ∧
      ∀ m' l', SameButMembers q ps m m' → Holds q ps good value m' l' →
        Parents p q ps good value (n.modify b (fun _ => m')) bs (ls1 ++ l' :: ls2) ∧ OnlyMembers p q ps n (n.modify b (fun _ => m')) := by
  obtain ⟨bs1, b, bs2, rfl, h1, ⟨m, hm, hl⟩, h2⟩ := forall₂_mid h.each
  have hac := (pathOk_append hok (by simp)).1
  have hb : .elem b ∈ Step.matches p n := by rw [h.all]; simp
  refine ⟨bs1, b, bs2, m, rfl, h1.length_eq, hm, hl, h1, h2, fun m' l' hs hl' => ⟨⟨by rw [parents_kept hok hb hm hs]; exact h.all, ?_⟩, .change hb hm hs (.same _)⟩⟩
  have hnd : (bs1 ++ b :: bs2).Nodup := by
    have := matches_nodup hac n
    rw [h.all] at this
    exact List.Nodup.of_map _ this
  have hother : ∀ b' ∈ bs1 ++ bs2, ∀ l'', (∃ k, n.get b' = some k ∧ Holds q ps good value k l'') →
      ∃ k, (n.modify b (fun _ => m')).get b' = some k ∧ Holds q ps good value k l'' := by
    rintro b' hb' l'' ⟨k, hk, hkl⟩
    have hmem : .elem b' ∈ Step.matches p n := by
      rw [h.all]
      simp only [List.mem_append] at hb'
      rcases hb' with hb' | hb' <;> simp [hb']
    have hne : b ≠ b' := by
      rintro rfl
      rw [List.nodup_append] at hnd
      simp only [List.mem_append] at hb'
      rcases hb' with hb' | hb'
      · exact hnd.2.2 b hb' b (by simp) rfl
      · exact (List.nodup_cons.1 hnd.2.1).1 hb'
    exact ⟨k, by rw [Node.get_modify_other _ _ (parents_apart hac hb hmem hne) (parents_apart hac hmem hb (Ne.symm hne))]; exact hk, hkl⟩
  refine forall₂_join ⟨m', by rw [Node.get_modify, hm]; rfl, hl'⟩ ?_ ?_
  · exact forall₂_imp_mem h2 (fun b' hb' => hother b' (by simp [hb']))
  · exact forall₂_imp_mem h1 (fun b' hb' => hother b' (by simp [hb']))

/-- The matches of the list below a parent. -/
def refsAt (q : QName) (ps : List Pred) (o : Node.Addr) (n : Node) (b : Node.Addr) : List Ref := (below [.child q ps] n (.elem b)).map (Ref.under o)

omit [PyUnicode] in
theorem refsAt_eq {o b : Node.Addr} {n m : Node} (hm : n.get b = some m) :
    refsAt q ps o n b = (idxs (isMember q ps) m.children).map (fun i => Ref.elem (o ++ b ++ [i])) := by
  unfold refsAt below
  simp only [hm]
  rw [matches_single, List.map_map, List.map_map]
  apply List.map_congr_left
  intro i _
  simp [Ref.under]

omit [PyUnicode] in
theorem refs_length {o : Node.Addr} {n : Node} : ∀ {bs : List Node.Addr} {ls : List (List α)},
    List.Forall₂ (fun b l => ∃ m, n.get b = some m ∧ Holds q ps good value m l) bs ls → (bs.flatMap (refsAt q ps o n)).length = ls.flatten.length
  | _, _, .nil => rfl
  | _, _, .cons ⟨m, hm, hl⟩ hs => by
    rw [List.flatMap_cons, List.flatten_cons, List.length_append, List.length_append, refs_length hs, refsAt_eq hm, matches_length hl]

theorem mapMatches_append {mapper : Item → Except PyErr α} {doc : Node} : ∀ {rs1 rs2 : List Ref} {l1 l2 : List α}, mapMatches mapper doc rs1 = .ok l1 →
    mapMatches mapper doc rs2 = .ok l2 → mapMatches mapper doc (rs1 ++ rs2) = .ok (l1 ++ l2)
  | [], rs2, l1, l2, h1, h2 => by
    simp only [mapMatches, Except.ok.injEq] at h1
    subst h1
    exact h2
  | r :: rs1, rs2, l1, l2, h1, h2 => by
    rw [mapMatches] at h1
    cases hr : mapMatch mapper doc r with
    | error e => rw [hr] at h1; simp at h1
    | ok x =>
      cases hrs : mapMatches mapper doc rs1 with
      | error e => rw [hr, hrs] at h1; simp at h1
      | ok xs =>
        rw [hr, hrs] at h1
        simp only [Except.ok.injEq] at h1
        subst h1
        rw [List.cons_append, mapMatches, hr, mapMatches_append hrs h2]
        rfl

variable {o : Node.Addr} {s n : Node} {bs : List Node.Addr} {ls : List (List α)} (heng : EngineOk eng) (hd : Deep ctx xp lx ax t es p q ps)
include heng hd

theorem manyMatches (hs : s.get o = some n) (hall : Step.matches p n = bs.map .elem) :
    listMatches eng ctx xp (.elem o) s = (.ok (bs.flatMap (refsAt q ps o n)), s) := by
  have h0 := heng.path ctx xp _ (p ++ [.child q ps]) s n o hd.parse (by simp [resPath, hd.full]) hs
  have h1 : evalXPath eng ctx xp (.elem o) s = (.ok (.nodes ((Step.matches (p ++ [.child q ps]) n).map (Ref.under o))), s) := by
    show (eng.xpath xp s o ctx, s) = _
    rw [h0]
  unfold listMatches
  rw [bind_ok h1, matches_append (pathOk_append hd.ok (by simp)).1, hall]
  show (Except.ok _, s) = _
  congr 2
  rw [List.flatMap_map, List.map_flatMap]
  rfl

variable [DecidableEq α] {mapper : Item → Except PyErr α} {store : Ref → α → M Unit}
  {put : α → Node → Node} {okv : α → Prop} (hS : StoreOk q ps mapper store good value put okv)

section
include hS
omit [DecidableEq α] heng hd in
theorem mapRefs (hs : s.get o = some n) : ∀ {bs : List Node.Addr} {ls : List (List α)}, List.Forall₂ (fun b l => ∃ m, n.get b = some m ∧ Holds q ps good value m l) bs ls →
    mapMatches mapper s (bs.flatMap (refsAt q ps o n)) = .ok ls.flatten
  | _, _, .nil => rfl
  | b :: _, _, .cons ⟨m, hm, hl⟩ h => by
    rw [List.flatMap_cons, List.flatten_cons]
    refine mapMatches_append ?_ (mapRefs hs h)
    have hg : s.get (o ++ b) = some m := by rw [Node.get_append, hs]; exact hm
    have := mapMatches_run hS hg m.children [] rfl hl.1
    rw [refsAt_eq hm]
    simp only [List.length_nil, Nat.zero_add] at this
    rw [this]
    exact congrArg Except.ok hl.2

omit [DecidableEq α] in
theorem manyData (hs : s.get o = some n) (h : Parents p q ps good value n bs ls) : listData eng ctx mapper xp (.elem o) s = (.ok ls.flatten, s) := by
  unfold listData
  rw [bind_ok (manyMatches heng hd hs h.all), bind_ok (getDoc_run s), mapRefs hS hs h.each]
  rfl

omit [DecidableEq α] in
theorem manyLen (hs : s.get o = some n) (h : Parents p q ps good value n bs ls) : listLen eng ctx mapper xp (.elem o) s = (.ok ls.flatten.length, s) := by
  unfold listLen
  rw [bind_ok (manyData heng hd hS hs h)]
  rfl
end

end
end Fields
