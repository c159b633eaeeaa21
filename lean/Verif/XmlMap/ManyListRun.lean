import Verif.XmlMap.ManyListLemmas
/-
`NodeList` on a path of several child steps whose parent path selects several elements: its operations.
-/
namespace Fields
open Xml XPath Spec

section
variable [PyUnicode] {eng : Engine} {ctx : Ctx} {xp : Str} {lx : Expr} {ax : Option Str} {t : NodeTest} {es : List Expr} {p : List Step} {q : QName} {ps : List Pred}
variable {α : Type} {good : Node → Prop} {value : Node → α}

/-- One step of the field: its result, the lists of the parents after it, and only members changed. -/
def ManyStep (p : List Step) (q : QName) (ps : List Pred) (good : Node → Prop) (value : Node → α) (o : Node.Addr) (s n : Node) (bs : List Node.Addr) {β : Type}
    (r : Except PyErr β × Node) (e : Except PyErr β × List (List α)) : Prop :=
  ∃ n', r = (e.1, s.modify o (fun _ => n')) ∧ Parents p q ps good value n' bs e.2 ∧ OnlyMembers p q ps n n'

variable {o : Node.Addr} {s n : Node} {bs : List Node.Addr} {ls : List (List α)}

omit [PyUnicode] in
theorem manyStep_same (hs : s.get o = some n) (h : Parents p q ps good value n bs ls) {β : Type} (e : Except PyErr β) :
    ManyStep p q ps good value o s n bs (e, s) (e, ls) := by
  refine ⟨n, ?_, h, .same n⟩
  show (e, s) = (e, _)
  congr 1
  exact (Node.modify_id hs rfl).symm

omit [PyUnicode] in
theorem ManyStep.cast {β : Type} {r : Except PyErr β × Node} {e e' : Except PyErr β × List (List α)} (h : ManyStep p q ps good value o s n bs r e) (he : e' = e) :
    ManyStep p q ps good value o s n bs r e' := he ▸ h

omit [PyUnicode] in
theorem ManyStep.wrap {β γ : Type} {x : M β} {e : Except PyErr β × List (List α)} (h : ManyStep p q ps good value o s n bs (x s) e) (f : β → γ) :
    ManyStep p q ps good value o s n bs ((x >>= fun b => pure (f b)) s) (e.1.map f, e.2) := by
  obtain ⟨n', h1, h2, h3⟩ := h
  refine ⟨n', ?_, h2, h3⟩
  cases he : e.1 with
  | error er => rw [he] at h1; rw [bind_err h1]; rfl
  | ok b => rw [he] at h1; rw [bind_ok h1]; rfl

/-- Position `j` of the list `l` of the parent at `b`. -/
structure AtParent (p : List Step) (q : QName) (ps : List Pred) (good : Node → Prop) (value : Node → α) (o : Node.Addr) (s n : Node) (bs : List Node.Addr)
    (ls1 : List (List α)) (l : List α) (ls2 : List (List α)) (b : Node.Addr) (m : Node) : Prop where
  get : s.get (o ++ b) = some m
  holds : Holds q ps good value m l
  step : ∀ {β : Type} {r : Except PyErr β × Node} {e : Except PyErr β} {l' : List α}, Step1 q ps good value (o ++ b) s m r (e, l') →
    ManyStep p q ps good value o s n bs r (e, ls1 ++ l' :: ls2)
  refs : ∀ j, j < l.length → (bs.flatMap (refsAt q ps o n))[ls1.flatten.length + j]? = ((idxs (isMember q ps) m.children).map (fun i => Ref.elem (o ++ b ++ [i])))[j]?

theorem Parents.place {ls1 ls2 : List (List α)} {l : List α} (hok : pathOk (p ++ [.child q ps]) = true) (hs : s.get o = some n)
    (h : Parents p q ps good value n bs (ls1 ++ l :: ls2)) : ∃ b m, AtParent p q ps good value o s n bs ls1 l ls2 b m ∧ (ls1 = [] → bs.head? = some b) := by
  obtain ⟨bs1, b, bs2, m, rfl, hlen, hm, hl, h1, h2, hch⟩ := h.at hok
  refine ⟨b, m, ⟨by rw [Node.get_append, hs]; exact hm, hl, ?_, ?_⟩, ?_⟩
  · rintro β r e l' ⟨m', rfl, g2, g3⟩
    obtain ⟨k1, k2⟩ := hch m' l' g3 g2
    refine ⟨n.modify b (fun _ => m'), ?_, k1, k2⟩
    congr 1
    rw [Node.modify_append]
    exact Node.modify_congr hs rfl
  · intro j hj
    have hlen : (bs1.flatMap (refsAt q ps o n)).length = ls1.flatten.length := refs_length h1
    rw [List.flatMap_append, List.flatMap_cons, List.getElem?_append_right (by omega), hlen, Nat.add_sub_cancel_left, List.getElem?_append_left, refsAt_eq hm]
    rw [refsAt_eq hm, matches_length hl]
    exact hj
  · rintro rfl
    have : bs1 = [] := by simpa using hlen
    subst this
    rfl

variable [DecidableEq α] (heng : EngineOk eng) (hd : Deep ctx xp lx ax t es p q ps)
include heng hd

omit [DecidableEq α] heng hd in
theorem pick {l : List α} {ls1 ls2 : List (List α)} {b : Node.Addr} {m : Node}
    (hP : Parents p q ps good value n bs (ls1 ++ l :: ls2)) (h : AtParent p q ps good value o s n bs ls1 l ls2 b m) {j : Nat} (hj : j < l.length) {i : Int}
    (hi : pos (ls1 ++ l :: ls2).flatten.length i = some (ls1.flatten.length + j)) :
    ∃ r, pyGet (bs.flatMap (refsAt q ps o n)) i = .ok r ∧ pyGet ((idxs (isMember q ps) m.children).map (fun i => Ref.elem (o ++ b ++ [i]))) (j : Int) = .ok r := by
  have hlen := matches_length h.holds (o ++ b)
  have hr := h.refs j hj
  obtain ⟨r, hr'⟩ : ∃ r, ((idxs (isMember q ps) m.children).map (fun i => Ref.elem (o ++ b ++ [i])))[j]? = some r :=
    ⟨_, List.getElem?_eq_getElem (by omega)⟩
  rw [hr'] at hr
  refine ⟨r, ?_, ?_⟩
  · rw [pyGet_pos, refs_length hP.each, hi]
    simp only [hr]
  · rw [pyGet_pos, hlen, show pos l.length (j : Int) = some j by unfold pos; rw [if_pos ⟨by omega, by omega⟩]; simp]
    simp only [hr']

omit [DecidableEq α] in
theorem manyGet_eq {l : List α} {ls1 ls2 : List (List α)} {b : Node.Addr} {m : Node} (hs : s.get o = some n)
    (hP : Parents p q ps good value n bs (ls1 ++ l :: ls2)) (h : AtParent p q ps good value o s n bs ls1 l ls2 b m) {j : Nat} (hj : j < l.length) {i : Int}
    (hi : pos (ls1 ++ l :: ls2).flatten.length i = some (ls1.flatten.length + j)) (mapper : Item → Except PyErr α) :
    listGet eng ctx mapper xp (.elem o) i s = listGet eng ctx mapper (Expr.step ax t es).ser (.elem (o ++ b)) j s := by
  obtain ⟨r, h1, h2⟩ := pick hP h hj hi
  unfold listGet
  rw [bind_ok (manyMatches heng hd hs hP.all), bind_ok (listMatches_run heng (parse0_ser hd.canonStep) hd.step h.get), h1, h2]

omit [DecidableEq α] in
theorem manyDel_eq {l : List α} {ls1 ls2 : List (List α)} {b : Node.Addr} {m : Node} (hs : s.get o = some n)
    (hP : Parents p q ps good value n bs (ls1 ++ l :: ls2)) (h : AtParent p q ps good value o s n bs ls1 l ls2 b m) {j : Nat} (hj : j < l.length) {i : Int}
    (hi : pos (ls1 ++ l :: ls2).flatten.length i = some (ls1.flatten.length + j)) :
    listDel eng ctx xp (.elem o) i s = listDel eng ctx (Expr.step ax t es).ser (.elem (o ++ b)) j s := by
  obtain ⟨r, h1, h2⟩ := pick hP h hj hi
  have hi' : ¬ i ≥ ((ls1 ++ l :: ls2).flatten.length : Int) := by
    have := hi
    unfold pos at this
    split_ifs at this with a1 a2 <;> omega
  unfold listDel
  rw [bind_ok (manyMatches heng hd hs hP.all), bind_ok (listMatches_run heng (parse0_ser hd.canonStep) hd.step h.get), h1, h2, refs_length hP.each,
    matches_length h.holds, if_neg hi', if_neg (show ¬ (j : Int) ≥ (l.length : Int) by omega)]

omit [DecidableEq α] in
theorem manySet_eq {l : List α} {ls1 ls2 : List (List α)} {b : Node.Addr} {m : Node} (hs : s.get o = some n)
    (hP : Parents p q ps good value n bs (ls1 ++ l :: ls2)) (h : AtParent p q ps good value o s n bs ls1 l ls2 b m) {j : Nat} (hj : j < l.length) {i : Int}
    (hi : pos (ls1 ++ l :: ls2).flatten.length i = some (ls1.flatten.length + j)) (store : Ref → α → M Unit) (v : α) :
    listSet eng ctx store xp (.binary lx .slash (.step ax t es)) (.elem o) i v s
      = listSet eng ctx store (Expr.step ax t es).ser (.step ax t es) (.elem (o ++ b)) j v s := by
  obtain ⟨r, h1, h2⟩ := pick hP h hj hi
  have hi' : ¬ i = ((ls1 ++ l :: ls2).flatten.length : Int) ∧ ¬ i > ((ls1 ++ l :: ls2).flatten.length : Int) := by
    have := hi
    unfold pos at this
    split_ifs at this with a1 a2 <;> omega
  unfold listSet
  rw [bind_ok (manyMatches heng hd hs hP.all), bind_ok (listMatches_run heng (parse0_ser hd.canonStep) hd.step h.get), h1, h2, refs_length hP.each,
    matches_length h.holds, if_neg hi'.1, if_neg hi'.2, if_neg (show ¬ (j : Int) = (l.length : Int) by omega), if_neg (show ¬ (j : Int) > (l.length : Int) by omega)]

omit [DecidableEq α] in
/-- An index that is out of range. -/
theorem manyOut (hs : s.get o = some n) (hP : Parents p q ps good value n bs ls) {i : Int} (hi : pos ls.flatten.length i = none) (mapper : Item → Except PyErr α)
    (store : Ref → α → M Unit) :
    listGet eng ctx mapper xp (.elem o) i s = (.error .indexError, s) ∧ listDel eng ctx xp (.elem o) i s = (.error .indexError, s) ∧
    (∀ v, i ≠ ls.flatten.length → listSet eng ctx store xp (.binary lx .slash (.step ax t es)) (.elem o) i v s = (.error .indexError, s)) := by
  have hg : pyGet (bs.flatMap (refsAt q ps o n)) i = .error .indexError := by rw [pyGet_pos, refs_length hP.each, hi]
  refine ⟨?_, ?_, fun v hne => ?_⟩
  · unfold listGet
    rw [bind_ok (manyMatches heng hd hs hP.all), hg]
    exact bind_err (ofExcept_err _ _)
  · unfold listDel
    rw [bind_ok (manyMatches heng hd hs hP.all), hg]
    split_ifs
    · rfl
    · exact bind_err (ofExcept_err _ _)
  · unfold listSet
    rw [bind_ok (manyMatches heng hd hs hP.all), hg, refs_length hP.each, if_neg hne]
    split_ifs
    · exact bind_err rfl
    · exact bind_err (ofExcept_err _ _)

variable {mapper : Item → Except PyErr α} {store : Ref → α → M Unit}
  {put : α → Node → Node} {okv : α → Prop} (hS : StoreOk q ps mapper store good value put okv)

theorem manyCreate (hs : s.get o = some n) {b : Node.Addr} {m : Node} (hb : (Step.matches p n).head? = some (.elem b)) (hm : n.get b = some m) (idx : Option Nat) :
    createNode eng ctx (.binary lx .slash (.step ax t es)) (.elem o) idx s
      = (.ok (.elem (o ++ b ++ [m.children.length])), s.modify (o ++ b) (fun _ => m.withChildren (m.children ++ [newElem q ps]))) := by
  have hf := findNode_path heng (parse0_ser hd.canon) hd.left hs
  have hcn : createNode eng ctx (.binary lx .slash (.step ax t es)) (.elem o) idx s
      = (findNode eng ctx lx.ser (.elem o) >>= fun o' => match o' with
        | some f => foundRef f >>= fun left => createNode eng ctx (.step ax t es) left none
        | none => createNode eng ctx lx (.elem o) none >>= fun left => createNode eng ctx (.step ax t es) left none) s := by
    rw [createNode]; rfl
  rw [hcn, bind_ok hf, hb]
  simp only [Option.map_some]
  rw [bind_ok (show foundRef (.ref ((Ref.elem b).under o)) s = (.ok (.elem (o ++ b)), s) from rfl)]
  have hok := (pathOk_append hd.ok (by simp)).2.2
  simp only [pathOk, Bool.and_eq_true] at hok
  exact createNode_end hd.step hok.1.1 (by rw [Node.get_append, hs]; exact hm)

include hS

omit [DecidableEq α] in
/-- Adding an item: it goes to the end of the first parent's children. -/
theorem manySet_end {l : List α} {ls2 : List (List α)} (hs : s.get o = some n) (hP : Parents p q ps good value n bs (l :: ls2)) {v : α} (hv : okv v) :
    ∃ b m, bs.head? = some b ∧ n.get b = some m ∧
    listSet eng ctx store xp (.binary lx .slash (.step ax t es)) (.elem o) (l :: ls2).flatten.length v s
      = (.ok (), s.modify (o ++ b) (fun _ => m.withChildren (m.children ++ [put v (newElem q ps)]))) ∧
    ManyStep p q ps good value o s n bs (listSet eng ctx store xp (.binary lx .slash (.step ax t es)) (.elem o) (l :: ls2).flatten.length v s)
      (.ok (), (l ++ [v]) :: ls2) := by
  obtain ⟨b, m, hA, hb⟩ := hP.place (ls1 := []) hd.ok hs
  have hb := hb rfl
  have hm : n.get b = some m := by have := hA.get; rwa [Node.get_append, hs] at this
  have hl := hA.holds
  have hok := (pathOk_append hd.ok (by simp)).2.2
  simp only [pathOk, Bool.and_eq_true] at hok
  have hok := hok.1.1
  have hnew : isMember q ps (newElem q ps) = true := by simp [isMember, newElem_isElem, newElem_sat hok]
  have hnewp := hS.new.member hnew v hv
  have hg := hA.get
  have hrun : listSet eng ctx store xp (.binary lx .slash (.step ax t es)) (.elem o) (l :: ls2).flatten.length v s
      = (.ok (), s.modify (o ++ b) (fun _ => m.withChildren (m.children ++ [put v (newElem q ps)]))) := by
    have hz : ∃ z, appendIndex (bs.flatMap (refsAt q ps o n)) s = (.ok z, s) := by
      unfold appendIndex
      cases hgl : (bs.flatMap (refsAt q ps o n)).getLast? with
      | none => exact ⟨none, rfl⟩
      | some x =>
        obtain ⟨b', hb', hx⟩ := List.mem_flatMap.1 (List.mem_of_getLast? hgl)
        have : ∃ m', n.get b' = some m' := by
          have key : ∀ {bs : List Node.Addr} {ls : List (List α)}, List.Forall₂ (fun b l => ∃ m, n.get b = some m ∧ Holds q ps good value m l) bs ls →
              b' ∈ bs → ∃ m', n.get b' = some m' := by
            intro bs ls h
            induction h with
            | nil => intro h; simp at h
            | cons h _ ih =>
              intro hb'
              rcases List.mem_cons.1 hb' with rfl | hb'
              · obtain ⟨m', h', -⟩ := h; exact ⟨m', h'⟩
              · exact ih hb'
          exact key hP.each hb'
        obtain ⟨m', hm'⟩ := this
        rw [refsAt_eq hm'] at hx
        obtain ⟨i, -, rfl⟩ := List.mem_map.1 hx
        have hpos : positionOf (.elem (o ++ b' ++ [i])) s = (.ok i, s) := by simp [positionOf]; rfl
        simp only
        rw [bind_ok hpos]
        exact ⟨some (i + 1), rfl⟩
    obtain ⟨z, hz⟩ := hz
    unfold listSet
    rw [bind_ok (manyMatches heng hd hs hP.all), refs_length hP.each, if_pos rfl, bind_assoc', bind_ok hz,
      bind_ok (manyCreate heng hd hs (by rw [hP.all, List.head?_map, hb]; rfl) hm z)]
    have hs' : (s.modify (o ++ b) (fun _ => m.withChildren (m.children ++ [newElem q ps]))).get (o ++ b) = some (m.withChildren (m.children ++ [newElem q ps])) := by
      rw [Node.get_modify, hg]; rfl
    rw [store_mid heng (parse0_ser hd.canonStep) hd.step hok hS hs' (Node.withChildren_children _ _) hS.new hv, Node.modify_modify]
    simp only [Node.withChildren_withChildren]
    rfl
  refine ⟨b, m, hb, hm, hrun, ?_⟩
  rw [hrun]
  refine hA.step (l' := l ++ [v]) ⟨_, rfl, ⟨?_, ?_⟩, ?_⟩
  · intro m' hm'
    rw [members_mid hnewp] at hm'
    simp only [List.mem_append, List.mem_cons, List.filter_nil, List.not_mem_nil, or_false] at hm'
    rcases hm' with hm' | rfl
    · exact hl.1 m' hm'
    · exact hS.new.stays v hv
  · rw [members_mid hnewp, List.map_append]
    rw [show (m.children.filter (isMember q ps)).map value = l from hl.2]
    simp [hS.new.value v hv]
  · simp [SameButMembers, others, hnewp]

theorem manyAppend {l : List α} {ls2 : List (List α)} (hs : s.get o = some n) (hP : Parents p q ps good value n bs (l :: ls2)) {v : α} (hv : okv v) :
    ManyStep p q ps good value o s n bs (listAppend eng ctx mapper store xp (.binary lx .slash (.step ax t es)) (.elem o) v s) (.ok (), (l ++ [v]) :: ls2) := by
  obtain ⟨b, m, -, -, -, h⟩ := manySet_end heng hd hS hs hP hv
  have : listAppend eng ctx mapper store xp (.binary lx .slash (.step ax t es)) (.elem o) v s
      = listSet eng ctx store xp (.binary lx .slash (.step ax t es)) (.elem o) (l :: ls2).flatten.length v s := by
    unfold listAppend
    rw [bind_ok (manyLen heng hd hS hs hP)]
  rw [this]
  exact h

theorem manyExtend : ∀ (vs : List α) {s n} {l : List α} {ls2 : List (List α)}, s.get o = some n → Parents p q ps good value n bs (l :: ls2) → (∀ v ∈ vs, okv v) →
    ManyStep p q ps good value o s n bs (listExtend eng ctx mapper store xp (.binary lx .slash (.step ax t es)) (.elem o) vs s) (.ok (), (l ++ vs) :: ls2)
  | [], s, n, l, ls2, hs, hP, _ => by
    rw [List.append_nil]
    exact manyStep_same hs hP (.ok ())
  | v :: vs, s, n, l, ls2, hs, hP, hv => by
    obtain ⟨n', h1, h2, h3⟩ := manyAppend heng hd hS hs hP (hv v (by simp))
    have hs' : (s.modify o (fun _ => n')).get o = some n' := by rw [Node.get_modify, hs]; rfl
    obtain ⟨n'', k1, k2, k3⟩ := manyExtend vs hs' h2 (fun w hw => hv w (by simp [hw]))
    refine ⟨n'', ?_, by simpa using k2, OnlyMembers.trans h3 k3⟩
    have : listExtend eng ctx mapper store xp (.binary lx .slash (.step ax t es)) (.elem o) (v :: vs) s
        = (listAppend eng ctx mapper store xp (.binary lx .slash (.step ax t es)) (.elem o) v >>= fun _ =>
            listExtend eng ctx mapper store xp (.binary lx .slash (.step ax t es)) (.elem o) vs) s := by
      rw [listExtend]
    rw [this, bind_ok h1, k1, Node.modify_modify]
    rfl


/-- Getting an item. -/
theorem manyGet (hs : s.get o = some n) (hP : Parents p q ps good value n bs ls) (i : Int) :
    listGet eng ctx mapper xp (.elem o) i s = (pyGet ls.flatten i, s) := by
  cases hi : pos ls.flatten.length i with
  | none => rw [pyGet_pos, hi]; exact (manyOut heng hd hs hP hi mapper store).1
  | some k =>
    obtain ⟨ls1, l, ls2, j, rfl, rfl, hj⟩ := place_of (pos_lt hi)
    obtain ⟨b, m, hA, -⟩ := hP.place hd.ok hs
    rw [manyGet_eq heng hd hs hP hA hj hi, listGet_run heng (parse0_ser hd.canonStep) hd.step hS hA.get hA.holds, pyGet_pos, pyGet_pos, hi,
      show pos l.length (j : Int) = some j by unfold pos; rw [if_pos ⟨by omega, by omega⟩]; simp]
    simp only [List.flatten_append, List.flatten_cons]
    rw [List.getElem?_append_right (by omega), Nat.add_sub_cancel_left, List.getElem?_append_left hj]

omit [DecidableEq α] in
/-- Taking an item out. -/
theorem manyDel (hs : s.get o = some n) (hP : Parents p q ps good value n bs ls) {i : Int} {k : Nat} (hi : pos ls.flatten.length i = some k) :
    ManyStep p q ps good value o s n bs (listDel eng ctx xp (.elem o) i s) (.ok (), eraseIn ls k) := by
  obtain ⟨ls1, l, ls2, j, rfl, rfl, hj⟩ := place_of (pos_lt hi)
  obtain ⟨b, m, hA, -⟩ := hP.place hd.ok hs
  rw [eraseIn_mid hj, manyDel_eq heng hd hs hP hA hj hi]
  have := listDel_run (good := good) (value := value) heng (parse0_ser hd.canonStep) hd.step hA.get hA.holds (j : Int)
  rw [show pos l.length (j : Int) = some j by unfold pos; rw [if_pos ⟨by omega, by omega⟩]; simp] at this
  exact hA.step this

omit [DecidableEq α] in
/-- Setting an item. -/
theorem manySet (hs : s.get o = some n) (hP : Parents p q ps good value n bs ls) {i : Int} {k : Nat} (hi : pos ls.flatten.length i = some k) {v : α} (hv : okv v) :
    ManyStep p q ps good value o s n bs (listSet eng ctx store xp (.binary lx .slash (.step ax t es)) (.elem o) i v s) (.ok (), setIn ls k v) := by
  obtain ⟨ls1, l, ls2, j, rfl, rfl, hj⟩ := place_of (pos_lt hi)
  obtain ⟨b, m, hA, -⟩ := hP.place hd.ok hs
  rw [setIn_mid hj, manySet_eq heng hd hs hP hA hj hi]
  have hok := (pathOk_append hd.ok (by simp)).2.2
  simp only [pathOk, Bool.and_eq_true] at hok
  obtain ⟨m', h1, h2, h3⟩ := listSet_mid heng (parse0_ser hd.canonStep) hd.step hok.1.1 hS hA.get hA.holds
    (show pos l.length (j : Int) = some j by unfold pos; rw [if_pos ⟨by omega, by omega⟩]; simp) hv
  exact hA.step (l' := l.set j v) ⟨m', h1, h2, h3⟩

theorem manyIndex (hs : s.get o = some n) (hP : Parents p q ps good value n bs ls) (v : α) :
    listIndex eng ctx mapper xp (.elem o) v s = ((if v ∈ ls.flatten then .ok (ls.flatten.idxOf v) else .error .valueError), s) := by
  unfold listIndex
  rw [bind_ok (manyData heng hd hS hs hP)]
  by_cases hv : v ∈ ls.flatten
  · rw [idxOf?_mem hv, if_pos hv]
    rfl
  · rw [List.idxOf?_eq_none_iff.2 hv, if_neg hv]
    rfl

/-- One operation. -/
theorem manyRunOp (hs : s.get o = some n) (hP : Parents p q ps good value n bs ls) (hne : ls ≠ []) (op : ListOp α)
    (hat : op.atEnd ls.flatten) (hv : ∀ v ∈ op.values, okv v) :
    ManyStep p q ps good value o s n bs (runOp eng ctx mapper store xp (.binary lx .slash (.step ax t es)) (.elem o) op s) (groupOp ls op) := by
  obtain ⟨g, gs, rfl⟩ := List.exists_cons_of_ne_nil hne
  have hdata := manyData heng hd hS hs hP
  have hlen := manyLen heng hd hS hs hP
  have hpop : ∀ j : Int, ManyStep p q ps good value o s n bs
      ((listGet eng ctx mapper xp (.elem o) j >>= fun val => listDel eng ctx xp (.elem o) j >>= fun _ => pure val : M α) s)
      (match pos (g :: gs).flatten.length j with
        | some k => match (g :: gs).flatten[k]? with
          | some v => (.ok v, eraseIn (g :: gs) k)
          | none => (.error .indexError, g :: gs)
        | none => (.error .indexError, g :: gs)) := by
    intro j
    cases hi : pos (g :: gs).flatten.length j with
    | none =>
      have hg := manyGet heng hd hS hs hP j
      rw [pyGet_pos, hi] at hg
      rw [bind_err hg]
      exact manyStep_same hs hP _
    | some k =>
      have hg := manyGet heng hd hS hs hP j
      rw [pyGet_some hi] at hg
      rw [bind_ok hg]
      simp only [List.getElem?_eq_getElem (pos_lt hi)]
      exact (manyDel heng hd hS hs hP hi).wrap (fun _ => (g :: gs).flatten[k]'(pos_lt hi))
  cases op with
  | len => exact ManyStep.wrap (x := listLen eng ctx mapper xp (.elem o)) (by rw [hlen]; exact manyStep_same hs hP _) ListRes.nat
  | get i =>
    have h := ManyStep.wrap (x := listGet eng ctx mapper xp (.elem o) i) (by rw [manyGet heng hd hS hs hP]; exact manyStep_same hs hP _) ListRes.val
    refine h.cast ?_
    simp only [groupOp, pyList, pyGet_pos]
    cases hk : pos (g :: gs).flatten.length i with
    | none => rfl
    | some k => simp only [List.getElem?_eq_getElem (pos_lt hk)]; rfl
  | set i v =>
    have hv := hv v (by simp [ListOp.values])
    simp only [groupOp]
    by_cases h0 : i = (g :: gs).flatten.length
    · rw [if_pos h0, h0]
      obtain ⟨b, m, -, -, -, h⟩ := manySet_end heng hd hS hs hP hv
      exact h.wrap (fun _ => ListRes.unit)
    · rw [if_neg h0]
      cases hk : pos (g :: gs).flatten.length i with
      | none =>
        have := (manyOut heng hd hs hP hk mapper store).2.2 v h0
        exact ManyStep.wrap (x := listSet eng ctx store xp (.binary lx .slash (.step ax t es)) (.elem o) i v) (by rw [this]; exact manyStep_same hs hP _) (fun _ => ListRes.unit)
      | some k => exact (manySet heng hd hS hs hP hk hv).wrap (fun _ => ListRes.unit)
  | del i =>
    simp only [groupOp]
    cases hk : pos (g :: gs).flatten.length i with
    | none =>
      have := (manyOut heng hd hs hP hk mapper store).2.1
      exact ManyStep.wrap (x := listDel eng ctx xp (.elem o) i) (by rw [this]; exact manyStep_same hs hP _) (fun _ => ListRes.unit)
    | some k => exact (manyDel heng hd hS hs hP hk).wrap (fun _ => ListRes.unit)
  | append v => exact (manyAppend heng hd hS hs hP (hv v (by simp [ListOp.values]))).wrap (fun _ => ListRes.unit)
  | extend vs => exact (manyExtend heng hd hS vs hs hP (fun v h => hv v (by simpa [ListOp.values] using h))).wrap (fun _ => ListRes.unit)
  | insert i v =>
    have hat : ((g :: gs).flatten.length : Int) ≤ i := hat
    simp only [groupOp]
    by_cases h0 : i = (g :: gs).flatten.length
    · rw [if_pos h0]
      have : listInsert eng ctx mapper store xp (.binary lx .slash (.step ax t es)) (.elem o) i v s
          = listAppend eng ctx mapper store xp (.binary lx .slash (.step ax t es)) (.elem o) v s := by
        unfold listInsert
        rw [bind_ok hlen, if_pos h0]
      exact ManyStep.wrap (x := listInsert eng ctx mapper store xp (.binary lx .slash (.step ax t es)) (.elem o) i v)
        (by rw [this]; exact manyAppend heng hd hS hs hP (hv v (by simp [ListOp.values]))) (fun _ => ListRes.unit)
    · rw [if_neg h0]
      have : listInsert eng ctx mapper store xp (.binary lx .slash (.step ax t es)) (.elem o) i v s = (.error .indexError, s) := by
        unfold listInsert
        rw [bind_ok hlen, if_neg h0, bind_ok (manyMatches heng hd hs hP.all), refs_length hP.each,
          if_neg (show ¬ ((g :: gs).flatten.length : Int) > i by omega)]
        rfl
      exact ManyStep.wrap (x := listInsert eng ctx mapper store xp (.binary lx .slash (.step ax t es)) (.elem o) i v)
        (by rw [this]; exact manyStep_same hs hP _) (fun _ => ListRes.unit)
  | pop i =>
    simp only [groupOp]
    have : listPop eng ctx mapper xp (.elem o) i s = (listGet eng ctx mapper xp (.elem o) (i.getD ((g :: gs).flatten.length - 1)) >>= fun val =>
        listDel eng ctx xp (.elem o) (i.getD ((g :: gs).flatten.length - 1)) >>= fun _ => pure val : M α) s := by
      unfold listPop
      cases i with
      | some i => rfl
      | none => simp only [bind_assoc']; rw [bind_ok hlen]; rfl
    have h := ManyStep.wrap (x := listPop eng ctx mapper xp (.elem o) i) (by rw [this]; exact hpop _) ListRes.val
    refine h.cast ?_
    cases hk : pos (g :: gs).flatten.length (i.getD ((g :: gs).flatten.length - 1)) with
    | none => rfl
    | some k => simp only [List.getElem?_eq_getElem (pos_lt hk)]; rfl
  | remove v =>
    simp only [groupOp]
    have hidx := manyIndex heng hd hS hs hP v
    by_cases hm : v ∈ (g :: gs).flatten
    · rw [if_pos hm] at hidx ⊢
      have hlt := List.idxOf_lt_length_iff.2 hm
      have hk : pos (g :: gs).flatten.length (((g :: gs).flatten.idxOf v : Nat) : Int) = some ((g :: gs).flatten.idxOf v) := by
        unfold pos; rw [if_pos ⟨by omega, by omega⟩]; simp
      have : listRemove eng ctx mapper xp (.elem o) v s = listDel eng ctx xp (.elem o) (((g :: gs).flatten.idxOf v : Nat) : Int) s := by
        unfold listRemove
        rw [bind_ok hidx]
      exact ManyStep.wrap (x := listRemove eng ctx mapper xp (.elem o) v) (by rw [this]; exact manyDel heng hd hS hs hP hk) (fun _ => ListRes.unit)
    · rw [if_neg hm] at hidx ⊢
      have : listRemove eng ctx mapper xp (.elem o) v s = (.error .valueError, s) := by
        unfold listRemove
        exact bind_err hidx
      exact ManyStep.wrap (x := listRemove eng ctx mapper xp (.elem o) v) (by rw [this]; exact manyStep_same hs hP _) (fun _ => ListRes.unit)
  | index v =>
    have h := ManyStep.wrap (x := listIndex eng ctx mapper xp (.elem o) v) (by rw [manyIndex heng hd hS hs hP]; exact manyStep_same hs hP _) (ListRes.nat (α := α))
    refine h.cast ?_
    simp only [groupOp, pyList]
    split_ifs <;> rfl
  | count v =>
    refine ManyStep.wrap (x := listCount eng ctx mapper xp (.elem o) v) (e := (.ok ((g :: gs).flatten.count v), g :: gs)) ?_ ListRes.nat
    unfold listCount
    rw [bind_ok hdata]
    exact manyStep_same hs hP _
  | contains v =>
    refine ManyStep.wrap (x := listContains eng ctx mapper xp (.elem o) v) (e := (.ok (decide (v ∈ (g :: gs).flatten)), g :: gs)) ?_ ListRes.bool
    unfold listContains
    rw [bind_ok hdata]
    exact manyStep_same hs hP _
  | eq l' =>
    refine ManyStep.wrap (x := listEq eng ctx mapper xp (.elem o) l') (e := (.ok (decide ((g :: gs).flatten = l')), g :: gs)) ?_ ListRes.bool
    unfold listEq
    rw [bind_ok hdata]
    exact manyStep_same hs hP _

/-- An operation that fails changes nothing. -/
theorem manyRunOp_error (hs : s.get o = some n) (hP : Parents p q ps good value n bs ls) (op : ListOp α)
    (hat : op.atEnd ls.flatten) {er : PyErr} (her : (groupOp ls op).1 = .error er) :
    runOp eng ctx mapper store xp (.binary lx .slash (.step ax t es)) (.elem o) op s = (.error er, s) := by
  have hdata := manyData heng hd hS hs hP
  have hlen := manyLen heng hd hS hs hP
  cases op with
  | len => simp [groupOp, pyList] at her
  | get i =>
    have h := manyGet heng hd hS hs hP i
    simp only [groupOp, pyList] at her
    cases hk : pos ls.flatten.length i with
    | none =>
      rw [hk] at her
      simp only [Except.error.injEq] at her
      subst her
      rw [pyGet_pos, hk] at h
      exact bind_err h
    | some k => rw [hk] at her; simp only [List.getElem?_eq_getElem (pos_lt hk)] at her; simp at her
  | set i v =>
    simp only [groupOp] at her
    by_cases h0 : i = ls.flatten.length
    · rw [if_pos h0] at her; simp at her
    · rw [if_neg h0] at her
      cases hk : pos ls.flatten.length i with
      | none =>
        rw [hk] at her
        simp only [Except.error.injEq] at her
        subst her
        exact bind_err ((manyOut heng hd hs hP hk mapper store).2.2 v h0)
      | some k => rw [hk] at her; simp at her
  | del i =>
    simp only [groupOp] at her
    cases hk : pos ls.flatten.length i with
    | none =>
      rw [hk] at her
      simp only [Except.error.injEq] at her
      subst her
      exact bind_err (manyOut heng hd hs hP hk mapper store).2.1
    | some k => rw [hk] at her; simp at her
  | append v => simp [groupOp] at her
  | extend vs => simp [groupOp] at her
  | insert i v =>
    have hat : (ls.flatten.length : Int) ≤ i := hat
    simp only [groupOp] at her
    by_cases h0 : i = ls.flatten.length
    · rw [if_pos h0] at her; simp at her
    · rw [if_neg h0] at her
      simp only [Except.error.injEq] at her
      subst her
      have : listInsert eng ctx mapper store xp (.binary lx .slash (.step ax t es)) (.elem o) i v s = (.error .indexError, s) := by
        unfold listInsert
        rw [bind_ok hlen, if_neg h0, bind_ok (manyMatches heng hd hs hP.all), refs_length hP.each, if_neg (show ¬ (ls.flatten.length : Int) > i by omega)]
        rfl
      exact bind_err this
  | pop i =>
    simp only [groupOp] at her
    have : listPop eng ctx mapper xp (.elem o) i s = (listGet eng ctx mapper xp (.elem o) (i.getD (ls.flatten.length - 1)) >>= fun val =>
        listDel eng ctx xp (.elem o) (i.getD (ls.flatten.length - 1)) >>= fun _ => pure val : M α) s := by
      unfold listPop
      cases i with
      | some i => rfl
      | none => simp only [bind_assoc']; rw [bind_ok hlen]; rfl
    cases hk : pos ls.flatten.length (i.getD (ls.flatten.length - 1)) with
    | none =>
      rw [hk] at her
      simp only [Except.error.injEq] at her
      subst her
      have hg := manyGet heng hd hS hs hP (i.getD (ls.flatten.length - 1))
      rw [pyGet_pos, hk] at hg
      exact bind_err (this.trans (bind_err hg))
    | some k => rw [hk] at her; simp only [List.getElem?_eq_getElem (pos_lt hk)] at her; simp at her
  | remove v =>
    simp only [groupOp] at her
    have hidx := manyIndex heng hd hS hs hP v
    by_cases hm : v ∈ ls.flatten
    · rw [if_pos hm] at her; simp at her
    · rw [if_neg hm] at her hidx
      simp only [Except.error.injEq] at her
      subst her
      exact bind_err (show listRemove eng ctx mapper xp (.elem o) v s = (.error .valueError, s) from bind_err hidx)
  | index v =>
    simp only [groupOp, pyList] at her
    have hidx := manyIndex heng hd hS hs hP v
    by_cases hm : v ∈ ls.flatten
    · rw [if_pos hm] at her; simp at her
    · rw [if_neg hm] at her hidx
      simp only [Except.error.injEq] at her
      subst her
      exact bind_err hidx
  | count v => simp [groupOp, pyList] at her
  | contains v => simp [groupOp, pyList] at her
  | eq l' => simp [groupOp, pyList] at her

omit [PyUnicode] [DecidableEq α] heng hd hS in
theorem Parents.ne (hP : Parents p q ps good value n bs ls) (hne : bs ≠ []) : ls ≠ [] := by
  rintro rfl
  exact hne (List.forall₂_nil_right_iff.1 hP.each)

/-- A sequence of operations. -/
theorem manyRunOps (hne : bs ≠ []) : ∀ (ops : List (ListOp α)) {s n} {ls : List (List α)}, s.get o = some n → Parents p q ps good value n bs ls → groupEnds ls ops →
    (∀ op ∈ ops, ∀ v ∈ op.values, okv v) →
    ∃ n', runOps eng ctx mapper store xp (.binary lx .slash (.step ax t es)) (.elem o) ops s = ((groupOps ls ops).1, s.modify o (fun _ => n')) ∧
      Parents p q ps good value n' bs (groupOps ls ops).2 ∧ OnlyMembers p q ps n n'
  | [], s, n, ls, hs, hP, _, _ => by
    refine ⟨n, ?_, hP, .same n⟩
    rw [Node.modify_id hs rfl]
    rfl
  | op :: ops, s, n, ls, hs, hP, hat, hv => by
    obtain ⟨n', h1, h2, h3⟩ := manyRunOp heng hd hS hs hP (hP.ne hne) op hat.1 (hv op (by simp))
    have hs' : (s.modify o (fun _ => n')).get o = some n' := by rw [Node.get_modify, hs]; rfl
    obtain ⟨n'', k1, k2, k3⟩ := manyRunOps hne ops hs' h2 hat.2 (fun op' ho => hv op' (by simp [ho]))
    refine ⟨n'', ?_, k2, OnlyMembers.trans h3 k3⟩
    rw [runOps, h1]
    simp only [k1, Node.modify_modify]
    rfl

omit [PyUnicode] [DecidableEq α] heng hd hS in
theorem setIn_lengths (v : α) : ∀ (gs : List (List α)) (k : Nat), (setIn gs k v).map List.length = gs.map List.length
  | [], _ => rfl
  | g :: gs, k => by
    rw [setIn]
    split_ifs
    · simp
    · simp [setIn_lengths v gs]

omit hS in
/-- Assigning to items that are there. -/
theorem manySetFrom_in (hS : StoreOk q ps mapper store good value put okv) : ∀ (vs : List α) (i : Nat) {s n} {ls : List (List α)}, s.get o = some n →
    Parents p q ps good value n bs ls → i + vs.length ≤ ls.flatten.length →
    (∀ v ∈ vs, okv v) → ∃ ls', ls'.flatten = ls.flatten.take i ++ vs ++ ls.flatten.drop (i + vs.length) ∧ ls'.map List.length = ls.map List.length ∧
      ManyStep p q ps good value o s n bs (listSetFrom eng ctx store xp (.binary lx .slash (.step ax t es)) (.elem o) i vs s) (.ok (), ls')
  | [], i, s, n, ls, hs, hP, _, _ => ⟨ls, by simp, rfl, manyStep_same hs hP (.ok ())⟩
  | v :: vs, i, s, n, ls, hs, hP, hi, hv => by
    simp only [List.length_cons] at hi
    have hk : pos ls.flatten.length (i : Int) = some i := by unfold pos; rw [if_pos ⟨by omega, by omega⟩]; simp
    obtain ⟨n', h1, h2, h3⟩ := manySet heng hd hS hs hP hk (hv v (by simp))
    have hs' : (s.modify o (fun _ => n')).get o = some n' := by rw [Node.get_modify, hs]; rfl
    have hfl := flatten_setIn v (pos_lt hk)
    obtain ⟨ls', e1, e2, n'', k1, k2, k3⟩ := manySetFrom_in hS vs (i + 1) hs' h2 (by rw [hfl, List.length_set]; omega) (fun w hw => hv w (by simp [hw]))
    refine ⟨ls', ?_, e2.trans (setIn_lengths v _ _), n'', ?_, k2, OnlyMembers.trans h3 k3⟩
    · rw [e1, hfl, List.take_set, List.drop_set_of_lt (by omega)]
      rw [List.take_add_one, List.set_append_right _ _ (by simp)]
      have hlt : i < ls.flatten.length := by omega
      simp only [List.getElem?_eq_getElem hlt, Option.toList_some, List.length_take, Nat.min_eq_left (Nat.le_of_lt hlt), Nat.sub_self, List.set_cons_zero,
        List.append_assoc, List.cons_append, List.nil_append, List.length_cons]
      rw [show i + 1 + vs.length = i + (vs.length + 1) by omega]
    · rw [listSetFrom, bind_ok h1, k1, Node.modify_modify]
      rfl

/-- Assigning behind the end. -/
theorem manySetFrom_out : ∀ (vs : List α) {s n} {l : List α} {ls2 : List (List α)}, s.get o = some n → Parents p q ps good value n bs (l :: ls2) →
    (∀ v ∈ vs, okv v) →
      ManyStep p q ps good value o s n bs (listSetFrom eng ctx store xp (.binary lx .slash (.step ax t es)) (.elem o) (l :: ls2).flatten.length vs s)
        (.ok (), (l ++ vs) :: ls2)
  | [], s, n, l, ls2, hs, hP, _ => by rw [List.append_nil]; exact manyStep_same hs hP (.ok ())
  | v :: vs, s, n, l, ls2, hs, hP, hv => by
    obtain ⟨b, m, -, -, -, n', h1, h2, h3⟩ := manySet_end heng hd hS hs hP (hv v (by simp))
    have hs' : (s.modify o (fun _ => n')).get o = some n' := by rw [Node.get_modify, hs]; rfl
    obtain ⟨n'', k1, k2, k3⟩ := manySetFrom_out vs hs' h2 (fun w hw => hv w (by simp [hw]))
    refine ⟨n'', ?_, by simpa using k2, OnlyMembers.trans h3 k3⟩
    rw [show ((l ++ [v]) :: ls2).flatten.length = (l :: ls2).flatten.length + 1 by simp; omega] at k1
    rw [listSetFrom, bind_ok h1, k1, Node.modify_modify]
    rfl

theorem manyTrim (hne : bs ≠ []) : ∀ (fuel : Nat) {s n} {ls : List (List α)} (len : Nat), s.get o = some n → Parents p q ps good value n bs ls → ls.flatten.length ≤ len + fuel →
    ∃ ls', ls'.flatten = ls.flatten.take len ∧ ManyStep p q ps good value o s n bs (listTrim eng ctx mapper xp (.elem o) len fuel s) (.ok (), ls')
  | 0, s, n, ls, len, hs, hP, h => ⟨ls, by rw [List.take_of_length_le (by omega)], manyStep_same hs hP (.ok ())⟩
  | fuel + 1, s, n, ls, len, hs, hP, h => by
    have hrun : listTrim eng ctx mapper xp (.elem o) len (fuel + 1) s
        = (if ls.flatten.length > len then (listPop eng ctx mapper xp (.elem o) none >>= fun _ => listTrim eng ctx mapper xp (.elem o) len fuel) else pure ()) s := by
      rw [listTrim, bind_ok (manyLen heng hd hS hs hP)]
    rw [hrun]
    by_cases hg : ls.flatten.length > len
    · rw [if_pos hg]
      have hk : pos ls.flatten.length ((ls.flatten.length : Int) - 1) = some (ls.flatten.length - 1) := by
        unfold pos; rw [if_pos ⟨by omega, by omega⟩]; congr 1; omega
      obtain ⟨n', h1, h2, h3⟩ := manyRunOp heng hd hS hs hP (hP.ne hne) (.pop none) trivial (by simp [ListOp.values])
      have e1 : groupOp ls (.pop none) = (.ok (.val (ls.flatten[ls.flatten.length - 1]'(pos_lt hk))), eraseIn ls (ls.flatten.length - 1)) := by
        simp only [groupOp, Option.getD_none, hk, List.getElem?_eq_getElem (pos_lt hk)]
      rw [e1] at h1 h2
      obtain ⟨x, hx, -⟩ := unwrap (x := listPop eng ctx mapper xp (.elem o) none) (f := ListRes.val) h1
      have hs' : (s.modify o (fun _ => n')).get o = some n' := by rw [Node.get_modify, hs]; rfl
      have hfl := flatten_eraseIn (pos_lt hk)
      obtain ⟨ls', e2, n'', k1, k2, k3⟩ := manyTrim hne fuel len hs' h2 (by rw [hfl, List.length_eraseIdx, if_pos (by omega)]; omega)
      refine ⟨ls', ?_, n'', ?_, k2, OnlyMembers.trans h3 k3⟩
      · rw [e2, hfl, List.eraseIdx_eq_dropLast (by omega), List.dropLast_eq_take, List.take_take, Nat.min_eq_left (by omega)]
      · rw [bind_ok hx, k1, Node.modify_modify]; rfl
    · rw [if_neg hg]
      exact ⟨ls, by rw [List.take_of_length_le (by omega)], manyStep_same hs hP (.ok ())⟩

/-- Assigning at most as many values as there are items. -/
theorem manyAssign_short (hne : bs ≠ []) (vs : List α) (hs : s.get o = some n) (hP : Parents p q ps good value n bs ls) (hlen : vs.length ≤ ls.flatten.length)
    (hv : ∀ v ∈ vs, okv v) : ∃ ls', ls'.flatten = vs ∧
      ManyStep p q ps good value o s n bs (listAssign eng ctx mapper store xp (.binary lx .slash (.step ax t es)) (.elem o) vs s) (.ok (), ls') := by
  obtain ⟨ls1, e1, -, n', h1, h2, h3⟩ := manySetFrom_in heng hd hS vs 0 hs hP (by omega) hv
  simp only [List.take_zero, List.nil_append, Nat.zero_add] at e1
  have hs' : (s.modify o (fun _ => n')).get o = some n' := by rw [Node.get_modify, hs]; rfl
  obtain ⟨ls', e2, n'', k1, k2, k3⟩ := manyTrim heng hd hS hne (ls1.flatten.length + (s.modify o (fun _ => n')).nodes) vs.length hs' h2 (by show ls1.flatten.length ≤ _; omega)
  refine ⟨ls', by rw [e2, e1]; simp, n'', ?_, k2, OnlyMembers.trans h3 k3⟩
  unfold listAssign
  rw [bind_ok h1, bind_ok (manyLen heng hd hS hs' h2), listTrimAll_run, k1, Node.modify_modify]
  rfl

omit [DecidableEq α] heng hd hS in
theorem listSetFrom_append (node : Ref) (e : Expr) : ∀ (vs ws : List α) (i : Nat) {s s' : Node}, listSetFrom eng ctx store xp e node i vs s = (.ok (), s') →
    listSetFrom eng ctx store xp e node i (vs ++ ws) s = listSetFrom eng ctx store xp e node (i + vs.length) ws s'
  | [], ws, i, s, s', h => by
    have h : ((Except.ok () : Except PyErr Unit), s) = (.ok (), s') := h
    simp only [Prod.mk.injEq, true_and] at h
    subst h
    rfl
  | v :: vs, ws, i, s, s', h => by
    have h : (listSet eng ctx store xp e node i v >>= fun _ => listSetFrom eng ctx store xp e node (i + 1) vs) s = (.ok (), s') := h
    show (listSet eng ctx store xp e node i v >>= fun _ => listSetFrom eng ctx store xp e node (i + 1) (vs ++ ws)) s = _
    cases h1 : listSet eng ctx store xp e node i v s with
    | mk r s1 =>
      cases r with
      | error er => rw [bind_err h1] at h; simp at h
      | ok u =>
        rw [bind_ok h1] at h
        rw [bind_ok h1, listSetFrom_append node e vs ws (i + 1) h, List.length_cons]
        congr 1
        omega

/-- Assigning more values than there are items: the rest goes to the first parent. -/
theorem manyAssign_long (hne : bs ≠ []) {l : List α} {ls2 : List (List α)} (vs : List α) (hs : s.get o = some n) (hP : Parents p q ps good value n bs (l :: ls2))
    (hlen : (l :: ls2).flatten.length ≤ vs.length) (hv : ∀ v ∈ vs, okv v) : ∃ ls',
      ls'.flatten = vs.take l.length ++ vs.drop (l :: ls2).flatten.length ++ (vs.take (l :: ls2).flatten.length).drop l.length ∧
      ManyStep p q ps good value o s n bs (listAssign eng ctx mapper store xp (.binary lx .slash (.step ax t es)) (.elem o) vs s) (.ok (), ls') := by
  have hT : (vs.take (l :: ls2).flatten.length).length = (l :: ls2).flatten.length := by rw [List.length_take]; omega
  obtain ⟨ls1, e1, e1', n', h1, h2, h3⟩ := manySetFrom_in heng hd hS (vs.take (l :: ls2).flatten.length) 0 hs hP (by omega) (fun v h => hv v (List.mem_of_mem_take h))
  simp only [List.take_zero, List.nil_append, Nat.zero_add] at e1
  rw [hT, List.drop_length, List.append_nil] at e1
  have hs' : (s.modify o (fun _ => n')).get o = some n' := by rw [Node.get_modify, hs]; rfl
  obtain ⟨g, gs, rfl⟩ := List.exists_cons_of_ne_nil (h2.ne hne)
  simp only [List.map_cons, List.cons.injEq] at e1'
  obtain ⟨n2, g1, g2, g3⟩ := manySetFrom_out heng hd hS (vs.drop (l :: ls2).flatten.length) hs' h2 (fun v h => hv v (List.mem_of_mem_drop h))
  have hs2 : ((s.modify o (fun _ => n')).modify o (fun _ => n2)).get o = some n2 := by rw [Node.get_modify, hs']; rfl
  have hg : g = vs.take l.length := by
    have := congrArg (List.take l.length) e1
    rw [List.flatten_cons, ← e1'.1, List.take_left', e1'.1, List.take_take, Nat.min_eq_left (by simp)] at this
    · exact this
    · rfl
  have hgs : gs.flatten = (vs.take (l :: ls2).flatten.length).drop l.length := by
    have := congrArg (List.drop l.length) e1
    rw [List.flatten_cons, ← e1'.1, List.drop_left', e1'.1] at this
    · exact this
    · rfl
  have hfl : ((g ++ vs.drop (l :: ls2).flatten.length) :: gs).flatten
      = vs.take l.length ++ vs.drop (l :: ls2).flatten.length ++ (vs.take (l :: ls2).flatten.length).drop l.length := by
    rw [List.flatten_cons, hg, hgs]
  have hsame : (g :: gs).flatten.length = (l :: ls2).flatten.length := by rw [e1, hT]
  obtain ⟨ls', e2, n'', k1, k2, k3⟩ := manyTrim heng hd hS hne (((g ++ vs.drop (l :: ls2).flatten.length) :: gs).flatten.length + ((s.modify o (fun _ => n')).modify o (fun _ => n2)).nodes) vs.length hs2 g2 (by show ((g ++ vs.drop (l :: ls2).flatten.length) :: gs).flatten.length ≤ _; omega)
  refine ⟨ls', ?_, n'', ?_, k2, OnlyMembers.trans (OnlyMembers.trans h3 g3) k3⟩
  · have htot : ((g ++ vs.drop (l :: ls2).flatten.length) :: gs).flatten.length = vs.length := by
      have : (g :: gs).flatten.length = g.length + gs.flatten.length := by rw [List.flatten_cons, List.length_append]
      rw [List.flatten_cons, List.length_append, List.length_append, List.length_drop]
      omega
    rw [e2]
    show List.take vs.length ((g ++ vs.drop (l :: ls2).flatten.length) :: gs).flatten = _
    rw [List.take_of_length_le (by omega), hfl]
  · have hset : listSetFrom eng ctx store xp (.binary lx .slash (.step ax t es)) (.elem o) 0 vs s = (.ok (), (s.modify o (fun _ => n')).modify o (fun _ => n2)) := by
      have := listSetFrom_append (ws := vs.drop (l :: ls2).flatten.length) (.elem o) (.binary lx .slash (.step ax t es)) _ _ h1
      rw [List.take_append_drop, hT, Nat.zero_add] at this
      rw [hsame] at g1
      exact this.trans g1
    unfold listAssign
    rw [bind_ok hset, bind_ok (manyLen heng hd hS hs2 g2), listTrimAll_run, k1, Node.modify_modify, Node.modify_modify]
    rfl

theorem manyDelete_go (hne : bs ≠ []) (doc : Node) : ∀ (rs : List Ref) {s n} {ls : List (List α)} {l : List α}, ls.flatten = l → mapMatches mapper doc rs = .ok l → s.get o = some n →
    Parents p q ps good value n bs ls → ∃ ls', ls'.flatten = [] ∧
      ManyStep p q ps good value o s n bs (listDeleteAll.go eng ctx mapper xp (.elem o) doc rs s) (.ok (), ls')
  | [], s, n, ls, l, he, hm, hs, hP => by
    simp only [mapMatches, Except.ok.injEq] at hm
    subst hm
    exact ⟨ls, he, manyStep_same hs hP (.ok ())⟩
  | r :: rs, s, n, ls, l, he, hm, hs, hP => by
    rw [mapMatches] at hm
    cases h1 : mapMatch mapper doc r with
    | error e => rw [h1] at hm; simp at hm
    | ok x =>
      cases h2 : mapMatches mapper doc rs with
      | error e => rw [h1, h2] at hm; simp at hm
      | ok xs =>
        rw [h1, h2] at hm
        simp only [Except.ok.injEq] at hm
        subst hm
        obtain ⟨n', k1, k2, k3⟩ := manyRunOp heng hd hS hs hP (hP.ne hne) (.remove x) trivial (by simp [ListOp.values])
        have e1 : groupOp ls (.remove x) = (.ok .unit, eraseIn ls 0) := by simp [groupOp, he]
        rw [e1] at k1 k2
        obtain ⟨u, g1, -⟩ := unwrap (x := listRemove eng ctx mapper xp (.elem o) x) (f := fun _ => ListRes.unit) k1
        have hs' : (s.modify o (fun _ => n')).get o = some n' := by rw [Node.get_modify, hs]; rfl
        have hfl : (eraseIn ls 0).flatten = xs := by rw [flatten_eraseIn (by rw [he]; simp), he]; rfl
        obtain ⟨ls', e2, n'', j1, j2, j3⟩ := manyDelete_go hne doc rs hfl h2 hs' k2
        refine ⟨ls', e2, n'', ?_, j2, OnlyMembers.trans k3 j3⟩
        have : listDeleteAll.go eng ctx mapper xp (.elem o) doc (r :: rs) s
            = (ofExcept (mapMatch mapper doc r) >>= fun x => listRemove eng ctx mapper xp (.elem o) x >>= fun _ =>
                listDeleteAll.go eng ctx mapper xp (.elem o) doc rs) s := by rw [listDeleteAll.go]
        rw [this, h1, bind_ok (ofExcept_run _ _), bind_ok g1, j1, Node.modify_modify]
        rfl

/-- Deleting the whole list. -/
theorem manyDelete (hne : bs ≠ []) (hs : s.get o = some n) (hP : Parents p q ps good value n bs ls) : ∃ ls', ls'.flatten = [] ∧
      ManyStep p q ps good value o s n bs (listDeleteAll eng ctx mapper xp (.elem o) s) (.ok (), ls') := by
  unfold listDeleteAll
  rw [bind_ok (manyMatches heng hd hs hP.all), bind_ok (getDoc_run s)]
  exact manyDelete_go heng hd hS hne s _ rfl (mapRefs hS hs hP.each) hs hP

end
end Fields
