import Verif.XmlMap.NodeList
import Verif.XmlMap.GraftLemmas
import Verif.Spec.ListField
/-
`NodeList` on a single child step: lemmas.
-/
namespace Fields
open Xml XPath Spec

/-- One operation of a list field. -/
def runOp [PyUnicode] {α} [DecidableEq α] (eng : Engine) (ctx : Ctx) (mapper : Item → Except PyErr α) (store : Ref → α → M Unit) (xpath : Str)
    (xast : Expr) (node : Ref) : ListOp α → M (ListRes α)
  | .len => do pure (.nat (← listLen eng ctx mapper xpath node))
  | .get i => do pure (.val (← listGet eng ctx mapper xpath node i))
  | .set i v => do listSet eng ctx store xpath xast node i v; pure .unit
  | .del i => do listDel eng ctx xpath node i; pure .unit
  | .append v => do listAppend eng ctx mapper store xpath xast node v; pure .unit
  | .extend vs => do listExtend eng ctx mapper store xpath xast node vs; pure .unit
  | .insert i v => do listInsert eng ctx mapper store xpath xast node i v; pure .unit
  | .pop i => do pure (.val (← listPop eng ctx mapper xpath node i))
  | .remove v => do listRemove eng ctx mapper xpath node v; pure .unit
  | .index v => do pure (.nat (← listIndex eng ctx mapper xpath node v))
  | .count v => do pure (.nat (← listCount eng ctx mapper xpath node v))
  | .contains v => do pure (.bool (← listContains eng ctx mapper xpath node v))
  | .eq l => do pure (.bool (← listEq eng ctx mapper xpath node l))

/-- A sequence of operations; the caller catches exceptions. -/
def runOps [PyUnicode] {α} [DecidableEq α] (eng : Engine) (ctx : Ctx) (mapper : Item → Except PyErr α) (store : Ref → α → M Unit) (xpath : Str)
    (xast : Expr) (node : Ref) : List (ListOp α) → Node → List (Except PyErr (ListRes α)) × Node
  | [], s => ([], s)
  | op :: ops, s =>
    let r := runOp eng ctx mapper store xpath xast node op s
    let rs := runOps eng ctx mapper store xpath xast node ops r.2
    (r.1 :: rs.1, rs.2)

/-! ### positions of members -/

/-- The indices of the selected children. -/
def idxs (sel : Node → Bool) : List Node → List Nat
  | [] => []
  | c :: cs => if sel c then 0 :: (idxs sel cs).map (· + 1) else (idxs sel cs).map (· + 1)

theorem idxs_length (sel : Node → Bool) (cs : List Node) : (idxs sel cs).length = (cs.filter sel).length := by
  induction cs with
  | nil => rfl
  | cons c cs ih => simp only [idxs, List.filter_cons]; split_ifs <;> simp [ih]

theorem idxs_get {sel : Node → Bool} : ∀ {cs : List Node} {k i : Nat}, (idxs sel cs)[k]? = some i →
    ∃ A m B, cs = A ++ m :: B ∧ A.length = i ∧ sel m = true ∧ (A.filter sel).length = k
  | [], k, i, h => by simp [idxs] at h
  | c :: cs, k, i, h => by
    rw [idxs] at h
    by_cases hc : sel c = true
    · rw [if_pos hc] at h
      cases k with
      | zero =>
        simp only [List.getElem?_cons_zero, Option.some.injEq] at h
        exact ⟨[], c, cs, rfl, h, hc, rfl⟩
      | succ k =>
        simp only [List.getElem?_cons_succ, List.getElem?_map, Option.map_eq_some_iff] at h
        obtain ⟨j, hj, rfl⟩ := h
        obtain ⟨A, m, B, rfl, hA, hm, hk⟩ := idxs_get hj
        exact ⟨c :: A, m, B, rfl, by simp [hA], hm, by simp [hc, hk]⟩
    · rw [if_neg hc] at h
      simp only [List.getElem?_map, Option.map_eq_some_iff] at h
      obtain ⟨j, hj, rfl⟩ := h
      obtain ⟨A, m, B, rfl, hA, hm, hk⟩ := idxs_get hj
      exact ⟨c :: A, m, B, rfl, by simp [hA], hm, by simp [hc, hk]⟩

theorem idxs_mid {sel : Node → Bool} {m : Node} (hm : sel m = true) (B : List Node) : ∀ A : List Node,
    (idxs sel (A ++ m :: B))[(A.filter sel).length]? = some A.length
  | [] => by simp [idxs, hm]
  | c :: A => by
    rw [List.cons_append, idxs]
    by_cases hc : sel c = true
    · rw [if_pos hc]; simp [hc, idxs_mid hm B A]
    · rw [if_neg hc]; simp [hc, idxs_mid hm B A]

theorem matches_single (q : QName) (ps : List Pred) (n : Node) :
    Step.matches [.child q ps] n = (idxs (isMember q ps) n.children).map (fun i => .elem [i]) := by
  rw [matches_child]
  have key : ∀ (cs : List Node) (k : Nat), (cs.mapIdx (fun i c => stepG q ps [] (i + k) c)).flatten
      = (idxs (isMember q ps) cs).map (fun i => Ref.elem [i + k]) := by
    intro cs
    induction cs with
    | nil => intro k; rfl
    | cons c cs ih =>
      intro k
      rw [List.mapIdx_cons, List.flatten_cons, idxs]
      have := ih (k + 1)
      rw [show (fun (i : Nat) (c : Node) => stepG q ps [] (i + 1 + k) c) = (fun i c => stepG q ps [] (i + (k + 1)) c) by
        funext i c; rw [Nat.add_right_comm, Nat.add_assoc], this]
      by_cases hc : isMember q ps c = true
      · rw [if_pos hc]
        rw [isMember] at hc
        simp [stepG, hc, Step.matches, Ref.under, Nat.add_comm, Nat.add_left_comm]
      · rw [if_neg hc]
        rw [isMember] at hc
        simp [stepG, hc, Nat.add_comm, Nat.add_left_comm]
  simpa using key n.children 0

theorem pyGet_pos {α} (l : List α) (key : Int) : pyGet l key = match pos l.length key with
    | some k => match l[k]? with
      | some x => .ok x
      | none => .error .indexError
    | none => .error .indexError := by
  by_cases h0 : 0 ≤ key
  · by_cases h1 : key < l.length
    · rw [show pos l.length key = some key.toNat by unfold pos; rw [if_pos ⟨h0, h1⟩]]
      unfold pyGet
      rw [if_pos h0]
      rfl
    · rw [show pos l.length key = none by unfold pos; rw [if_neg (fun h => h1 h.2), if_neg (fun h => by omega)]]
      unfold pyGet
      rw [if_pos h0, List.getElem?_eq_none (by omega)]
  · by_cases h1 : -key ≤ l.length
    · rw [show pos l.length key = some (l.length - (-key).toNat) by
        unfold pos; rw [if_neg (fun h => h0 h.1), if_pos ⟨by omega, by omega⟩]; congr 1; omega]
      unfold pyGet
      rw [if_neg h0, if_pos h1]
      rfl
    · rw [show pos l.length key = none by unfold pos; rw [if_neg (fun h => h0 h.1), if_neg (fun h => by omega)]]
      unfold pyGet
      rw [if_neg h0, if_neg h1]

theorem pos_lt {len : Nat} {i : Int} {k : Nat} (h : pos len i = some k) : k < len := by
  unfold pos at h
  split_ifs at h with h1 h2 <;> simp at h <;> omega

/-! ### the contract of mapper and store -/

/-- Storing `v` (one of the `ok` values) turns the member `m` into `put v m`, which is a `good` member whose Python value is `v`. -/
structure PutOk {α} (q : QName) (ps : List Pred) (store : Ref → α → M Unit) (good : Node → Prop) (value : Node → α) (put : α → Node → Node)
    (ok : α → Prop) (m : Node) : Prop where
  store : ∀ v, ok v → ∀ (s : Node) b, b ≠ [] → s.get b = some m → store (.elem b) v s = (.ok (), s.modify b (put v))
  member : isMember q ps m = true → ∀ v, ok v → isMember q ps (put v m) = true
  stays : ∀ v, ok v → good (put v m)
  value : ∀ v, ok v → value (put v m) = v

/-- What the list operations need of the mapper and the way values are stored, for the members of `q[ps]` that are `good`: `value m` is the
Python value of the member `m`, and values can be stored in good members and in a new element (which need not be good: an empty element is no date). -/
structure StoreOk {α} (q : QName) (ps : List Pred) (mapper : Item → Except PyErr α) (store : Ref → α → M Unit) (good : Node → Prop)
    (value : Node → α) (put : α → Node → Node) (ok : α → Prop) : Prop where
  map : ∀ m, isMember q ps m = true → good m → mapper (.elem m) = .ok (value m)
  puts : ∀ m, isMember q ps m = true → good m → PutOk q ps store good value put ok m
  new : PutOk q ps store good value put ok (newElem q ps)

section
variable [PyUnicode] {eng : Engine} {ctx : Ctx} {xp : Str} {ax : Option Str} {t : NodeTest} {es : List Expr} {q : QName} {ps : List Pred}

theorem listMatches_run (heng : EngineOk eng) (hp : parse0 xp = .ok (.step ax t es)) (hr : res ctx (.step ax t es) = some ([.child q ps], none))
    {a s n} (hs : Node.get a s = some n) :
    listMatches eng ctx xp (.elem a) s = (.ok ((idxs (isMember q ps) n.children).map (fun i => .elem (a ++ [i]))), s) := by
  have h := heng.path ctx xp _ [.child q ps] s n a hp (by simp [resPath, hr]) hs
  have h1 : evalXPath eng ctx xp (.elem a) s = (.ok (.nodes ((Step.matches [.child q ps] n).map (Ref.under a))), s) := by
    show (eng.xpath xp s a ctx, s) = _
    rw [h]
  unfold listMatches
  rw [bind_ok h1, matches_single, List.map_map]
  rfl

omit [PyUnicode] in
theorem modify_mid {α} (A B : List α) (m : α) (f : α → α) : (A ++ m :: B).modify A.length f = A ++ f m :: B := by
  induction A with
  | nil => rfl
  | cons c A ih => simp [ih]

omit [PyUnicode] in
theorem eraseIdx_mid {α} (A B : List α) (m : α) : (A ++ m :: B).eraseIdx A.length = A ++ B := by
  induction A with
  | nil => rfl
  | cons c A ih => simp [ih]

omit [PyUnicode] in
theorem getElem?_mid {α} (A B : List α) (m : α) : (A ++ m :: B)[A.length]? = some m := by simp

omit [PyUnicode] in
/-- The member at a position. -/
theorem get_mid {a s n} (hs : Node.get a s = some n) {A B : List Node} {m : Node} (hc : n.children = A ++ m :: B) :
    s.get (a ++ [A.length]) = some m := by
  rw [Node.get_append, hs]
  simp [Node.get_cons, hc, Node.get]

omit [PyUnicode] in
/-- Changing the member at a position. -/
theorem modify_at_mid {a s n} (hs : Node.get a s = some n) {A B : List Node} {m : Node} (hc : n.children = A ++ m :: B) (f : Node → Node) :
    s.modify (a ++ [A.length]) f = s.modify a (fun _ => n.withChildren (A ++ f m :: B)) := by
  rw [Node.modify_append]
  apply Node.modify_congr hs
  simp only [Node.modify_cons, hc]
  congr 1
  rw [modify_mid]
  rfl

/-- Creating a member at a position. -/
theorem createNode_at (hr : res ctx (.step ax t es) = some ([.child q ps], none)) (hok : okAll ps = true) {a s n} (hs : Node.get a s = some n)
    {A B : List Node} (hc : n.children = A ++ B) :
    createNode eng ctx (.step ax t es) (.elem a) (some A.length) s
      = (.ok (.elem (a ++ [A.length])), s.modify a (fun _ => n.withChildren (A ++ newElem q ps :: B))) := by
  obtain ⟨pfx, nm, rfl, hax, hps⟩ := res_child_step hr
  have hq : resName ctx pfx nm = some q := by
    simp only [res, if_pos hax, hps] at hr
    cases h : resName ctx pfx nm with
    | none => rw [h] at hr; simp at hr
    | some q' => rw [h] at hr; simp at hr; rw [hr]
  have hcons := allConstructible_of_res (ctx := ctx) es hps
  simp only [createNode, createStep, hcons, Bool.true_eq_false, if_false, if_pos hax]
  rw [bind_ok (createChild_insert hq A.length hs), Nat.min_eq_left (by simp [hc])]
  have h1 : s.modify a (Node.insertChild A.length (Node.empty q)) = s.modify a (fun _ => n.withChildren (A ++ Node.empty q :: B)) := by
    apply Node.modify_congr hs
    simp [Node.insertChild, hc]
  rw [h1]
  have hs' : (s.modify a (fun _ => n.withChildren (A ++ Node.empty q :: B))).get a = some (n.withChildren (A ++ Node.empty q :: B)) := by
    rw [Node.get_modify, hs]; rfl
  rw [bind_ok (construct_all es ps hps hok _ _ _ (get_mid hs' (Node.withChildren_children _ _))), pure_run,
    modify_at_mid hs' (Node.withChildren_children _ _), Node.modify_modify]
  simp only [Node.withChildren_withChildren]
  rfl

/-- Creating a member at the end. -/
theorem createNode_end (hr : res ctx (.step ax t es) = some ([.child q ps], none)) (hok : okAll ps = true) {a s n} (hs : Node.get a s = some n) :
    createNode eng ctx (.step ax t es) (.elem a) none s
      = (.ok (.elem (a ++ [n.children.length])), s.modify a (fun _ => n.withChildren (n.children ++ [newElem q ps]))) := by
  rw [createNode_step hr (by simp [pathOk, hok, nextOk]) hs]
  congr 1
  exact Node.modify_congr hs rfl

/-! ### operations -/

variable {α : Type} [DecidableEq α] {mapper : Item → Except PyErr α} {store : Ref → α → M Unit} {good : Node → Prop} {value : Node → α}
  {put : α → Node → Node} {ok : α → Prop}

/-- The element `n` holds the list `l`. -/
def Holds (q : QName) (ps : List Pred) (good : Node → Prop) (value : Node → α) (n : Node) (l : List α) : Prop :=
  (∀ m ∈ members q ps n, good m) ∧ (members q ps n).map value = l

omit [PyUnicode] [DecidableEq α] in
theorem mapMatches_run (hS : StoreOk q ps mapper store good value put ok) {a s n} (hs : Node.get a s = some n) :
    ∀ (B A : List Node), n.children = A ++ B → (∀ m ∈ B.filter (isMember q ps), good m) →
      mapMatches mapper s ((idxs (isMember q ps) B).map (fun i => Ref.elem (a ++ [A.length + i]))) = .ok ((B.filter (isMember q ps)).map value)
  | [], A, _, _ => rfl
  | c :: B, A, hc, hg => by
    have ih := mapMatches_run hS hs B (A ++ [c]) (by simp [hc]) (fun m hm => hg m (by
      rw [List.filter_cons]; split_ifs <;> simp [hm]))
    have ih' : mapMatches mapper s (((idxs (isMember q ps) B).map (· + 1)).map (fun i => Ref.elem (a ++ [A.length + i])))
        = .ok ((B.filter (isMember q ps)).map value) := by
      rw [List.map_map, ← ih]
      congr 2
      funext i
      simp [Nat.add_comm, Nat.add_left_comm]
    rw [idxs]
    by_cases hm : isMember q ps c = true
    · rw [if_pos hm, List.map_cons, mapMatches]
      have h1 : mapMatch mapper s (Ref.elem (a ++ [A.length + 0])) = .ok (value c) := by
        simp only [mapMatch, itemOf]
        rw [Nat.add_zero, get_mid hs hc]
        exact hS.map c hm (hg c (by simp [hm]))
      rw [h1, ih']
      simp [hm]
    · rw [if_neg hm, ih']
      simp [hm]

section ops
variable (heng : EngineOk eng) (hp : parse0 xp = .ok (.step ax t es)) (hr : res ctx (.step ax t es) = some ([.child q ps], none))
  (hok : okAll ps = true) (hS : StoreOk q ps mapper store good value put ok)
include heng hp hr hS

omit [DecidableEq α] in
theorem listData_run {a s n l} (hs : Node.get a s = some n) (hl : Holds q ps good value n l) :
    listData eng ctx mapper xp (.elem a) s = (.ok l, s) := by
  unfold listData
  rw [bind_ok (listMatches_run heng hp hr hs), bind_ok (show getDoc s = (.ok s, s) from rfl)]
  have := mapMatches_run hS hs n.children [] rfl hl.1
  simp only [List.length_nil, Nat.zero_add] at this
  rw [this, ofExcept_run]
  rw [← hl.2]
  rfl

omit [DecidableEq α] in
theorem listLen_run {a s n l} (hs : Node.get a s = some n) (hl : Holds q ps good value n l) :
    listLen eng ctx mapper xp (.elem a) s = (.ok l.length, s) := by
  unfold listLen
  rw [bind_ok (listData_run heng hp hr hS hs hl)]
  rfl

omit [PyUnicode] heng hp hr hS in
theorem members_mid {n : Node} {A B : List Node} {m : Node} (hm : isMember q ps m = true) :
    members q ps (n.withChildren (A ++ m :: B)) = A.filter (isMember q ps) ++ m :: B.filter (isMember q ps) := by
  simp [members, hm]

omit [PyUnicode] [DecidableEq α] heng hp hr hS in
/-- The member at position `k` of the list. -/
theorem member_at {n : Node} {l : List α} (hl : Holds q ps good value n l) {k : Nat} (hk : k < l.length) :
    ∃ A m B, n.children = A ++ m :: B ∧ isMember q ps m = true ∧ good m ∧ (A.filter (isMember q ps)).length = k ∧
      (idxs (isMember q ps) n.children)[k]? = some A.length ∧
      l = (A.filter (isMember q ps)).map value ++ value m :: (B.filter (isMember q ps)).map value ∧
      (∀ m ∈ A.filter (isMember q ps), good m) ∧ (∀ m ∈ B.filter (isMember q ps), good m) := by
  have hlen : (idxs (isMember q ps) n.children).length = l.length := by
    rw [idxs_length, ← hl.2, List.length_map]; rfl
  obtain ⟨A, m, B, h1, h2, h3, h4⟩ := idxs_get (List.getElem?_eq_getElem (l := idxs (isMember q ps) n.children) (i := k) (by omega))
  have hmem : members q ps n = A.filter (isMember q ps) ++ m :: B.filter (isMember q ps) := by
    simp [members, h1, h3]
  have hg := hl.1
  rw [hmem] at hg
  refine ⟨A, m, B, h1, h3, hg m (by simp), h4, ?_, ?_, fun m' hm' => hg m' (by simp [hm']), fun m' hm' => hg m' (by simp [hm'])⟩
  · rw [List.getElem?_eq_getElem (by omega), h2]
  · rw [← hl.2, hmem]; simp

omit [PyUnicode] [DecidableEq α] heng hp hr hS in
theorem matches_length {n : Node} {l : List α} (hl : Holds q ps good value n l) (a : Node.Addr) :
    ((idxs (isMember q ps) n.children).map (fun i => Ref.elem (a ++ [i]))).length = l.length := by
  rw [List.length_map, idxs_length, ← hl.2, List.length_map]; rfl

omit [PyUnicode] heng hp hr hS in
theorem same_mid {n : Node} {A B : List Node} {m m' : Node} (hc : n.children = A ++ m :: B) (hm : isMember q ps m = true)
    (hm' : isMember q ps m' = true) : SameButMembers q ps n (n.withChildren (A ++ m' :: B)) := by
  simp [SameButMembers, others, hc, hm, hm']

omit [PyUnicode] heng hp hr hS in
theorem same_refl (n : Node) : SameButMembers q ps n n := ⟨rfl, rfl, rfl, rfl, rfl⟩

omit [PyUnicode] heng hp hr hS in
theorem same_trans {n n' n'' : Node} (h : SameButMembers q ps n n') (h' : SameButMembers q ps n' n'') : SameButMembers q ps n n'' :=
  ⟨h'.1.trans h.1, h'.2.1.trans h.2.1, h'.2.2.1.trans h.2.2.1, h'.2.2.2.1.trans h.2.2.2.1, h'.2.2.2.2.trans h.2.2.2.2⟩

omit [DecidableEq α] in
theorem listGet_run {a s n l} (hs : Node.get a s = some n) (hl : Holds q ps good value n l) (i : Int) :
    listGet eng ctx mapper xp (.elem a) i s = (pyGet l i, s) := by
  unfold listGet
  rw [bind_ok (listMatches_run heng hp hr hs), pyGet_pos, pyGet_pos, matches_length hl a]
  cases h : pos l.length i with
  | none => rfl
  | some k =>
    obtain ⟨A, m, B, h1, h2, h3, h4, h5, h6, -, -⟩ := member_at hl (pos_lt h)
    have h7 : l[k]? = some (value m) := by
      rw [h6, ← h4, ← List.length_map (f := value)]; exact getElem?_mid _ _ _
    simp only [List.getElem?_map, h5, h7, Option.map_some]
    rw [bind_ok (ofExcept_run _ _), bind_ok (show getDoc s = (.ok s, s) from rfl)]
    have : mapMatch mapper s (.elem (a ++ [A.length])) = .ok (value m) := by
      simp only [mapMatch, itemOf]
      rw [get_mid hs h1]
      exact hS.map m h2 h3
    rw [this]
    rfl

omit heng hp hr hS in
theorem ofExcept_err {α} (e : PyErr) (s : Node) : (ofExcept (.error e) : M α) s = (.error e, s) := rfl

omit [DecidableEq α] hS in
theorem listDel_run {a s n l} (hs : Node.get a s = some n) (hl : Holds q ps good value n l) (i : Int) :
    match pos l.length i with
    | none => listDel eng ctx xp (.elem a) i s = (.error .indexError, s)
    | some k => ∃ n', listDel eng ctx xp (.elem a) i s = (.ok (), s.modify a (fun _ => n')) ∧ Holds q ps good value n' (l.eraseIdx k) ∧
        SameButMembers q ps n n' := by
  have hrun : listDel eng ctx xp (.elem a) i s = (if i ≥ (l.length : Int) then raise .indexError
      else ofExcept (pyGet ((idxs (isMember q ps) n.children).map (fun i => Ref.elem (a ++ [i]))) i) >>= removeMatch) s := by
    unfold listDel
    rw [bind_ok (listMatches_run heng hp hr hs), matches_length hl a]
  cases h : pos l.length i with
  | none =>
    simp only
    rw [hrun, pyGet_pos, matches_length hl a, h]
    split_ifs <;> rfl
  | some k =>
    simp only
    have hk := pos_lt h
    obtain ⟨A, m, B, h1, h2, h3, h4, h5, h6, h7, h8⟩ := member_at hl hk
    refine ⟨n.withChildren (A ++ B), ?_, ⟨?_, ?_⟩, ?_⟩
    · rw [hrun, pyGet_pos, matches_length hl a, h, if_neg (by unfold pos at h; split_ifs at h <;> omega)]
      simp only [List.getElem?_map, h5, Option.map_some]
      rw [bind_ok (ofExcept_run _ _)]
      simp only [removeMatch]
      rw [if_neg (by simp)]
      simp only [List.dropLast_concat, List.getLast?_append, List.getLast?_singleton, Option.some_or, Option.getD_some]
      show (Except.ok (), s.modify a (Node.removeChild A.length)) = _
      congr 1
      apply Node.modify_congr hs
      rw [Node.removeChild, h1, eraseIdx_mid]
    · intro m' hm'
      simp only [members, Node.withChildren_children, List.filter_append, List.mem_append] at hm'
      rcases hm' with hm' | hm'
      · exact h7 m' hm'
      · exact h8 m' hm'
    · simp only [members, Node.withChildren_children, List.filter_append, List.map_append]
      rw [h6, ← h4, ← List.length_map (f := value), eraseIdx_mid]
    · simp [SameButMembers, others, h1, h2]

omit [PyUnicode] heng hp hr hS [DecidableEq α] in
theorem set_mid {α} (A B : List α) (m v : α) : (A ++ m :: B).set A.length v = A ++ v :: B := by
  induction A with
  | nil => rfl
  | cons c A ih => simp [ih]

include hok
omit [DecidableEq α] in
/-- Storing a value in a member that is there (or was just created). -/
theorem store_mid {a s n} (hs : Node.get a s = some n) {A B : List Node} {m : Node} (hc : n.children = A ++ m :: B)
    (hm : PutOk q ps store good value put ok m) {v : α} (hv : ok v) :
    store (.elem (a ++ [A.length])) v s = (.ok (), s.modify a (fun _ => n.withChildren (A ++ put v m :: B))) := by
  rw [hm.store v hv s _ (by simp) (get_mid hs hc), modify_at_mid hs hc]

omit [DecidableEq α] in
/-- Assigning to the member behind `A`. -/
theorem listSet_at {a s n} (hs : Node.get a s = some n) {A B : List Node} {m : Node} (hc : n.children = A ++ m :: B) (hm : isMember q ps m = true)
    (hP : PutOk q ps store good value put ok m) {i : Int} (hk : pos (members q ps n).length i = some (A.filter (isMember q ps)).length) {v : α} (hv : ok v) :
    listSet eng ctx store xp (.step ax t es) (.elem a) i v s = (.ok (), s.modify a (fun _ => n.withChildren (A ++ put v m :: B))) := by
  have hlen : ((idxs (isMember q ps) n.children).map (fun i => Ref.elem (a ++ [i]))).length = (members q ps n).length := by
    rw [List.length_map, idxs_length]; rfl
  have h5 : (idxs (isMember q ps) n.children)[(A.filter (isMember q ps)).length]? = some A.length := by
    rw [hc]; exact idxs_mid hm B A
  unfold listSet
  rw [bind_ok (listMatches_run heng hp hr hs), hlen, if_neg (by unfold pos at hk; split_ifs at hk <;> omega),
    if_neg (by unfold pos at hk; split_ifs at hk <;> omega), pyGet_pos, hlen, hk]
  simp only [List.getElem?_map, h5, Option.map_some]
  rw [bind_ok (ofExcept_run _ _)]
  exact store_mid heng hp hr hok hS hs hc hP hv

omit [DecidableEq α] in
theorem listSet_mid {a s n l} (hs : Node.get a s = some n) (hl : Holds q ps good value n l) {i : Int} {k : Nat} (hk : pos l.length i = some k)
    {v : α} (hv : ok v) :
    ∃ n', listSet eng ctx store xp (.step ax t es) (.elem a) i v s = (.ok (), s.modify a (fun _ => n')) ∧
      Holds q ps good value n' (l.set k v) ∧ SameButMembers q ps n n' := by
  obtain ⟨A, m, B, h1, h2, h3, h4, h5, h6, h7, h8⟩ := member_at hl (pos_lt hk)
  have hP := hS.puts m h2 h3
  have hpm := hP.member h2 v hv
  refine ⟨n.withChildren (A ++ put v m :: B), ?_, ⟨?_, ?_⟩, same_mid h1 h2 hpm⟩
  · refine listSet_at heng hp hr hok hS hs h1 h2 hP ?_ hv
    rw [h4, ← hk, ← hl.2, List.length_map]
  · rw [members_mid hpm]
    intro m' hm'
    simp only [List.mem_append, List.mem_cons] at hm'
    rcases hm' with hm' | rfl | hm'
    · exact h7 m' hm'
    · exact hP.stays v hv
    · exact h8 m' hm'
  · rw [members_mid hpm, List.map_append, List.map_cons, hP.value v hv, h6]
    conv_rhs => rw [← h4, ← List.length_map (f := value)]
    rw [set_mid]

omit [DecidableEq α] in
theorem listSet_end {a s n l} (hs : Node.get a s = some n) (hl : Holds q ps good value n l) {v : α} (hv : ok v) :
    ∃ n', listSet eng ctx store xp (.step ax t es) (.elem a) l.length v s = (.ok (), s.modify a (fun _ => n')) ∧
      Holds q ps good value n' (l ++ [v]) ∧ SameButMembers q ps n n' ∧ InsertedLast q ps (put v (newElem q ps)) n n' := by
  have hnew : isMember q ps (newElem q ps) = true := by simp [isMember, newElem_isElem, newElem_sat hok]
  have hnewp := hS.new.member hnew v hv
  have fin : ∀ (A B : List Node), n.children = A ++ B → (∀ m ∈ B, isMember q ps m = false) →
      (createNode eng ctx (.step ax t es) (.elem a) (if l.length = 0 then none else some A.length) s
        = (.ok (.elem (a ++ [A.length])), s.modify a (fun _ => n.withChildren (A ++ newElem q ps :: B)))) →
      (do let m ← createNode eng ctx (.step ax t es) (.elem a) (if l.length = 0 then none else some A.length); store m v : M Unit) s
          = (.ok (), s.modify a (fun _ => n.withChildren (A ++ put v (newElem q ps) :: B))) ∧
        Holds q ps good value (n.withChildren (A ++ put v (newElem q ps) :: B)) (l ++ [v]) ∧
        SameButMembers q ps n (n.withChildren (A ++ put v (newElem q ps) :: B)) := by
    intro A B hc hB hcr
    have hBf : B.filter (isMember q ps) = [] := by rw [List.filter_eq_nil_iff]; intro m hm; simp [hB m hm]
    have hmem : members q ps n = A.filter (isMember q ps) := by simp [members, hc, hBf]
    have hs' : (s.modify a (fun _ => n.withChildren (A ++ newElem q ps :: B))).get a = some (n.withChildren (A ++ newElem q ps :: B)) := by
      rw [Node.get_modify, hs]; rfl
    refine ⟨?_, ⟨?_, ?_⟩, ?_⟩
    · rw [bind_ok hcr, store_mid heng hp hr hok hS hs' (Node.withChildren_children _ _) hS.new hv, Node.modify_modify]
      simp only [Node.withChildren_withChildren]
      rfl
    · rw [members_mid hnewp, hBf]
      intro m' hm'
      simp only [List.mem_append, List.mem_cons, List.not_mem_nil, or_false] at hm'
      rcases hm' with hm' | rfl
      · exact hl.1 m' (by rw [hmem]; exact hm')
      · exact hS.new.stays v hv
    · rw [members_mid hnewp, hBf, List.map_append, ← hmem, hl.2]
      simp [hS.new.value v hv]
    · simp [SameButMembers, others, hc, hnewp]
  have hrun : ∀ z : Option Nat, appendIndex ((idxs (isMember q ps) n.children).map (fun i => Ref.elem (a ++ [i]))) s = (.ok z, s) →
      listSet eng ctx store xp (.step ax t es) (.elem a) l.length v s
        = (do let m ← createNode eng ctx (.step ax t es) (.elem a) z; store m v : M Unit) s := by
    intro z hz
    unfold listSet
    rw [bind_ok (listMatches_run heng hp hr hs), matches_length hl a, if_pos rfl, bind_assoc', bind_ok hz]
  rcases Nat.eq_zero_or_pos l.length with h0 | h0
  · have hid : (idxs (isMember q ps) n.children) = [] := by
      rw [← List.length_eq_zero_iff, ← List.length_map (f := fun i => Ref.elem (a ++ [i])), matches_length hl a, h0]
    have hno : ∀ m ∈ n.children, isMember q ps m = false := by
      intro m hm
      have : n.children.filter (isMember q ps) = [] := by rw [← List.length_eq_zero_iff, ← idxs_length, hid]; rfl
      rw [List.filter_eq_nil_iff] at this
      simpa using this m hm
    obtain ⟨h1, h2, h3⟩ := fin n.children [] (by simp) (by simp) (by rw [if_pos h0]; exact createNode_end hr hok hs)
    rw [if_pos h0] at h1
    refine ⟨_, ?_, h2, h3, ⟨n.children, [], by simp, rfl, by simp, .inr ⟨rfl, by
      rw [members, List.filter_eq_nil_iff]; intro m hm; simp [hno m hm]⟩⟩⟩
    rw [hrun none (by rw [hid]; rfl)]
    exact h1
  · obtain ⟨A, m, B, h1, h2, h3, h4, h5, h6, h7, h8⟩ := member_at hl (k := l.length - 1) (by omega)
    have hB : ∀ m ∈ B, isMember q ps m = false := by
      have hlen := congrArg List.length h6
      simp only [List.length_append, List.length_map, List.length_cons] at hlen
      have : B.filter (isMember q ps) = [] := by rw [← List.length_eq_zero_iff]; omega
      rw [List.filter_eq_nil_iff] at this
      intro m hm
      simpa using this m hm
    obtain ⟨k1, k2, k3⟩ := fin (A ++ [m]) B (by simp [h1]) hB (by
      rw [if_neg (by omega)]; exact createNode_at hr hok hs (by simp [h1]))
    rw [if_neg (by omega)] at k1
    refine ⟨_, ?_, k2, k3, ⟨A ++ [m], B, by simp [h1], rfl, hB, .inl (by simp [h2])⟩⟩
    rw [hrun (some (A ++ [m]).length) ?_]
    · exact k1
    · have hgl : ((idxs (isMember q ps) n.children).map (fun i => Ref.elem (a ++ [i]))).getLast? = some (.elem (a ++ [A.length])) := by
        rw [List.getLast?_eq_getElem?, matches_length hl a, List.getElem?_map, h5]; rfl
      unfold appendIndex
      rw [hgl]
      have hpos : positionOf (.elem (a ++ [A.length])) s = (.ok A.length, s) := by simp [positionOf]; rfl
      simp only
      rw [bind_ok hpos]
      simp
      rfl

/-- What one operation does: the result and the list are those of the Python list, everything but the members stays. -/
def Step1 (q : QName) (ps : List Pred) (good : Node → Prop) (value : Node → α) (a : Node.Addr) (s n : Node) {β : Type} (r : Except PyErr β × Node)
    (e : Except PyErr β × List α) : Prop :=
  ∃ n', r = (e.1, s.modify a (fun _ => n')) ∧ Holds q ps good value n' e.2 ∧ SameButMembers q ps n n'

omit [PyUnicode] [DecidableEq α] heng hp hr hok hS in
theorem step1_same {a s n} {l : List α} (hs : Node.get a s = some n) (hl : Holds q ps good value n l) {β : Type} (e : Except PyErr β) :
    Step1 q ps good value a s n (e, s) (e, l) := by
  refine ⟨n, ?_, hl, same_refl n⟩
  show (e, s) = (e, s.modify a (fun _ => n))
  congr 1
  exact (Node.modify_id hs rfl).symm

theorem listAppend_run {a s n l} (hs : Node.get a s = some n) (hl : Holds q ps good value n l) {v : α} (hv : ok v) :
    Step1 q ps good value a s n (listAppend eng ctx mapper store xp (.step ax t es) (.elem a) v s) (.ok (), l ++ [v]) := by
  obtain ⟨n', h1, h2, h3, -⟩ := listSet_end heng hp hr hok hS hs hl hv
  refine ⟨n', ?_, h2, h3⟩
  unfold listAppend
  rw [bind_ok (listLen_run heng hp hr hS hs hl)]
  exact h1

theorem listExtend_run : ∀ (vs : List α) {a s n l}, Node.get a s = some n → Holds q ps good value n l → (∀ v ∈ vs, ok v) →
    Step1 q ps good value a s n (listExtend eng ctx mapper store xp (.step ax t es) (.elem a) vs s) (.ok (), l ++ vs)
  | [], a, s, n, l, hs, hl, _ => by
    rw [List.append_nil]
    exact step1_same hs hl (.ok ())
  | v :: vs, a, s, n, l, hs, hl, hv => by
    obtain ⟨n', h1, h2, h3⟩ := listAppend_run heng hp hr hok hS hs hl (hv v (by simp))
    have hs' : (s.modify a (fun _ => n')).get a = some n' := by rw [Node.get_modify, hs]; rfl
    obtain ⟨n'', k1, k2, k3⟩ := listExtend_run vs hs' h2 (fun w hw => hv w (by simp [hw]))
    refine ⟨n'', ?_, by simpa using k2, same_trans h3 k3⟩
    have : listExtend eng ctx mapper store xp (.step ax t es) (.elem a) (v :: vs) s
        = (listAppend eng ctx mapper store xp (.step ax t es) (.elem a) v >>= fun _ =>
            listExtend eng ctx mapper store xp (.step ax t es) (.elem a) vs) s := by
      rw [listExtend]
    rw [this, bind_ok h1, k1, Node.modify_modify]
    rfl

theorem listInsert_run {a s n l} (hs : Node.get a s = some n) (hl : Holds q ps good value n l) {v : α} (hv : ok v) {i : Int} (hi : 0 ≤ i) :
    Step1 q ps good value a s n (listInsert eng ctx mapper store xp (.step ax t es) (.elem a) i v s)
      (if i ≤ l.length then (.ok (), l.take i.toNat ++ v :: l.drop i.toNat) else (.error .indexError, l)) := by
  by_cases h0 : i = l.length
  · rw [if_pos (by omega), h0]
    simp only [Int.toNat_natCast, List.take_length, List.drop_length]
    unfold listInsert
    rw [bind_ok (listLen_run heng hp hr hS hs hl), if_pos rfl]
    exact listAppend_run heng hp hr hok hS hs hl hv
  · by_cases h1 : i ≤ l.length
    · rw [if_pos h1]
      have hpos : pos l.length i = some i.toNat := by unfold pos; rw [if_pos ⟨hi, by omega⟩]
      obtain ⟨A, m, B, c1, c2, c3, c4, c5, c6, c7, c8⟩ := member_at hl (pos_lt hpos)
      have hnew : isMember q ps (newElem q ps) = true := by simp [isMember, newElem_isElem, newElem_sat hok]
      have hcr := createNode_at (eng := eng) hr hok hs c1
      have hs' : (s.modify a (fun _ => n.withChildren (A ++ newElem q ps :: m :: B))).get a = some (n.withChildren (A ++ newElem q ps :: m :: B)) := by
        rw [Node.get_modify, hs]; rfl
      have hlen : (A.filter (isMember q ps)).length = i.toNat := c4
      have hpm := hS.new.member hnew v hv
      have k1 := listSet_at heng hp hr hok hS hs' (Node.withChildren_children _ _) hnew hS.new (i := i) (by
        rw [members_mid hnew]
        unfold pos
        rw [if_pos ⟨hi, by simp; omega⟩, hlen]) hv
      refine ⟨n.withChildren (A ++ put v (newElem q ps) :: m :: B), ?_, ⟨?_, ?_⟩, ?_⟩
      · unfold listInsert
        rw [bind_ok (listLen_run heng hp hr hS hs hl), if_neg h0, bind_ok (listMatches_run heng hp hr hs), matches_length hl a,
          if_pos (by omega), pyGet_pos, matches_length hl a, hpos]
        simp only [List.getElem?_map, c5, Option.map_some]
        rw [bind_ok (ofExcept_run _ _), bind_ok (show positionOf (.elem (a ++ [A.length])) s = (.ok A.length, s) by simp [positionOf]; rfl),
          bind_ok hcr, k1, Node.modify_modify]
        simp only [Node.withChildren_withChildren]
        rfl
      · rw [members_mid hpm]
        intro m' hm'
        simp only [List.mem_append, List.mem_cons, List.filter_cons, c2, if_true] at hm'
        rcases hm' with hm' | rfl | rfl | hm'
        · exact c7 m' hm'
        · exact hS.new.stays v hv
        · exact c3
        · exact c8 m' hm'
      · have : l.take i.toNat ++ v :: l.drop i.toNat
            = (A.filter (isMember q ps)).map value ++ v :: value m :: (B.filter (isMember q ps)).map value := by
          rw [c6, ← hlen, ← List.length_map (f := value), List.take_left', List.drop_left'] <;> rfl
        rw [this, members_mid hpm]
        simp [c2, hS.new.value v hv]
      · simp [SameButMembers, others, c1, hpm, c2]
    · rw [if_neg h1]
      have : listInsert eng ctx mapper store xp (.step ax t es) (.elem a) i v s = (.error .indexError, s) := by
        unfold listInsert
        rw [bind_ok (listLen_run heng hp hr hS hs hl), if_neg h0, bind_ok (listMatches_run heng hp hr hs), matches_length hl a,
          if_neg (by omega)]
        rfl
      rw [this]
      exact step1_same hs hl _

omit [PyUnicode] heng hp hr hok hS [DecidableEq α] in
theorem Step1.cast {a s n} {β : Type} {r : Except PyErr β × Node} {e e' : Except PyErr β × List α} (h : Step1 q ps good value a s n r e)
    (he : e' = e) : Step1 q ps good value a s n r e' := he ▸ h

omit [PyUnicode] heng hp hr hok hS [DecidableEq α] in
theorem idxOf?_mem {α : Type} [DecidableEq α] {l : List α} {x : α} (h : x ∈ l) : l.idxOf? x = some (l.idxOf x) := by
  induction l with
  | nil => simp at h
  | cons y l ih =>
    rw [List.idxOf?_cons, List.idxOf_cons]
    by_cases hy : y = x
    · simp [hy]
    · have : x ∈ l := by
        rcases List.mem_cons.1 h with h | h
        · exact absurd h.symm hy
        · exact h
      rw [ih this, show (y == x) = false by simpa using hy]
      rfl

omit [PyUnicode] heng hp hr hok hS [DecidableEq α] in
/-- Wrapping the result. -/
theorem Step1.wrap {a s n} {β γ : Type} {x : M β} {e : Except PyErr β × List α} (h : Step1 q ps good value a s n (x s) e) (f : β → γ) :
    Step1 q ps good value a s n ((x >>= fun b => pure (f b)) s) (e.1.map f, e.2) := by
  obtain ⟨n', h1, h2, h3⟩ := h
  refine ⟨n', ?_, h2, h3⟩
  cases he : e.1 with
  | ok b => rw [he] at h1; rw [bind_ok h1]; rfl
  | error er => rw [he] at h1; rw [bind_err h1]; rfl

omit heng hp hr hok hS [DecidableEq α] in
theorem pyGet_some {l : List α} {i : Int} {k : Nat} (hk : pos l.length i = some k) : pyGet l i = .ok (l[k]'(pos_lt hk)) := by
  rw [pyGet_pos, hk]; simp only [List.getElem?_eq_getElem (pos_lt hk)]

theorem runOp_run {a s n l} (hs : Node.get a s = some n) (hl : Holds q ps good value n l) (op : ListOp α) (hsup : op.supported = true)
    (hv : ∀ v ∈ op.values, ok v) :
    Step1 q ps good value a s n (runOp eng ctx mapper store xp (.step ax t es) (.elem a) op s) (pyList l op) := by
  have hdata := listData_run heng hp hr hS hs hl
  cases op with
  | len =>
    exact Step1.wrap (x := listLen eng ctx mapper xp (.elem a)) (by rw [listLen_run heng hp hr hS hs hl]; exact step1_same hs hl _) ListRes.nat
  | get i =>
    have h := Step1.wrap (x := listGet eng ctx mapper xp (.elem a) i) (by rw [listGet_run heng hp hr hS hs hl]; exact step1_same hs hl _) ListRes.val
    refine h.cast ?_
    simp only [pyList, pyGet_pos]
    cases hk : pos l.length i with
    | none => rfl
    | some k => simp only [List.getElem?_eq_getElem (pos_lt hk)]; rfl
  | set i v =>
    have hv := hv v (by simp [ListOp.values])
    simp only [pyList]
    by_cases h0 : i = l.length
    · rw [if_pos h0, h0]
      obtain ⟨n', h1, h2, h3, -⟩ := listSet_end heng hp hr hok hS hs hl hv
      exact Step1.wrap (x := listSet eng ctx store xp (.step ax t es) (.elem a) l.length v) (e := (.ok (), l ++ [v])) ⟨n', h1, h2, h3⟩ (fun _ => ListRes.unit)
    · rw [if_neg h0]
      cases hk : pos l.length i with
      | some k =>
        exact Step1.wrap (x := listSet eng ctx store xp (.step ax t es) (.elem a) i v) (e := (.ok (), l.set k v))
          (listSet_mid heng hp hr hok hS hs hl hk hv) (fun _ => ListRes.unit)
      | none =>
        refine Step1.wrap (x := listSet eng ctx store xp (.step ax t es) (.elem a) i v) (e := (.error .indexError, l)) ?_ (fun _ => ListRes.unit)
        have : listSet eng ctx store xp (.step ax t es) (.elem a) i v s = (.error .indexError, s) := by
          unfold listSet
          rw [bind_ok (listMatches_run heng hp hr hs), matches_length hl a, if_neg h0]
          by_cases h1 : i > (l.length : Int)
          · rw [if_pos h1]; rfl
          · rw [if_neg h1, pyGet_pos, matches_length hl a, hk]; rfl
        rw [this]
        exact step1_same hs hl _
  | del i =>
    simp only [pyList]
    have h := listDel_run heng hp hr hs hl i
    cases hk : pos l.length i with
    | some k =>
      rw [hk] at h
      exact Step1.wrap (x := listDel eng ctx xp (.elem a) i) (e := (.ok (), l.eraseIdx k)) h (fun _ => ListRes.unit)
    | none =>
      rw [hk] at h
      exact Step1.wrap (x := listDel eng ctx xp (.elem a) i) (e := (.error .indexError, l)) (by rw [h]; exact step1_same hs hl _) (fun _ => ListRes.unit)
  | append v =>
    exact (listAppend_run heng hp hr hok hS hs hl (hv v (by simp [ListOp.values]))).wrap (fun _ => ListRes.unit)
  | extend vs =>
    exact (listExtend_run heng hp hr hok hS vs hs hl hv).wrap (fun _ => ListRes.unit)
  | insert i v =>
    simp only [ListOp.supported, decide_eq_true_eq] at hsup
    have h := (listInsert_run heng hp hr hok hS hs hl (hv v (by simp [ListOp.values])) hsup).wrap (fun _ => (ListRes.unit : ListRes α))
    refine h.cast ?_
    simp only [pyList]
    by_cases h0 : i ≤ (l.length : Int)
    · rw [if_pos h0, if_pos ⟨hsup, h0⟩]; rfl
    · rw [if_neg h0, if_neg (fun h => h0 h.2)]; rfl
  | pop i =>
    simp only [pyList]
    have hi : ∀ j : Int, Step1 q ps good value a s n
        ((do let val ← listGet eng ctx mapper xp (.elem a) j; listDel eng ctx xp (.elem a) j; pure val : M α) s)
        (match pos l.length j with
          | some k => match l[k]? with
            | some v => (.ok v, l.eraseIdx k)
            | none => (.error .indexError, l)
          | none => (.error .indexError, l)) := by
      intro j
      have h := listDel_run heng hp hr hs hl j
      have hg := listGet_run heng hp hr hS hs hl j
      cases hk : pos l.length j with
      | some k =>
        rw [hk] at h
        obtain ⟨n', h1, h2, h3⟩ := h
        rw [pyGet_some hk] at hg
        simp only [List.getElem?_eq_getElem (pos_lt hk)]
        refine ⟨n', ?_, h2, h3⟩
        rw [bind_ok hg, bind_ok h1]
        rfl
      | none =>
        rw [pyGet_pos, hk] at hg
        rw [bind_err hg]
        exact step1_same hs hl _
    have hj : listPop eng ctx mapper xp (.elem a) i s
        = (do let val ← listGet eng ctx mapper xp (.elem a) (i.getD (l.length - 1)); listDel eng ctx xp (.elem a) (i.getD (l.length - 1)); pure val : M α) s := by
      unfold listPop
      cases i with
      | some i => rfl
      | none =>
        simp only [bind_assoc']
        rw [bind_ok (listLen_run heng hp hr hS hs hl)]
        rfl
    have h := hi (i.getD (l.length - 1))
    rw [← hj] at h
    have h := h.wrap ListRes.val
    refine h.cast ?_
    clear h hj hi
    cases hk : pos l.length (i.getD (l.length - 1)) with
    | none => rfl
    | some k => simp only [List.getElem?_eq_getElem (pos_lt hk)]; rfl
  | remove v =>
    simp only [pyList]
    by_cases hm : v ∈ l
    · rw [if_pos hm]
      have hlt := List.idxOf_lt_length_of_mem hm
      have hidx : listIndex eng ctx mapper xp (.elem a) v s = (.ok (l.idxOf v), s) := by
        unfold listIndex
        rw [bind_ok hdata, idxOf?_mem hm]
        rfl
      have hd := listDel_run heng hp hr hs hl (l.idxOf v)
      rw [show pos l.length (l.idxOf v) = some (l.idxOf v) by unfold pos; rw [if_pos ⟨by omega, by omega⟩]; rfl] at hd
      obtain ⟨n', h1, h2, h3⟩ := hd
      refine Step1.wrap (x := listRemove eng ctx mapper xp (.elem a) v) (e := (.ok (), l.erase v)) ⟨n', ?_, ?_, h3⟩ (fun _ => ListRes.unit)
      · unfold listRemove
        rw [bind_ok hidx, h1]
      · rw [List.erase_eq_eraseIdx_of_idxOf rfl]; exact h2
    · rw [if_neg hm]
      refine Step1.wrap (x := listRemove eng ctx mapper xp (.elem a) v) (e := (.error .valueError, l)) ?_ (fun _ => ListRes.unit)
      have hidx : listIndex eng ctx mapper xp (.elem a) v s = (.error .valueError, s) := by
        unfold listIndex
        rw [bind_ok hdata, List.idxOf?_eq_none_iff.2 hm]
        rfl
      have : listRemove eng ctx mapper xp (.elem a) v s = (.error .valueError, s) := by
        unfold listRemove
        rw [bind_err hidx]
      rw [this]
      exact step1_same hs hl _
  | index v =>
    simp only [pyList]
    by_cases hm : v ∈ l
    · rw [if_pos hm]
      refine Step1.wrap (x := listIndex eng ctx mapper xp (.elem a) v) (e := (.ok (l.idxOf v), l)) ?_ ListRes.nat
      have hidx : listIndex eng ctx mapper xp (.elem a) v s = (.ok (l.idxOf v), s) := by
        unfold listIndex
        rw [bind_ok hdata, idxOf?_mem hm]
        rfl
      rw [hidx]
      exact step1_same hs hl _
    · rw [if_neg hm]
      refine Step1.wrap (x := listIndex eng ctx mapper xp (.elem a) v) (e := (.error .valueError, l)) ?_ ListRes.nat
      have hidx : listIndex eng ctx mapper xp (.elem a) v s = (.error .valueError, s) := by
        unfold listIndex
        rw [bind_ok hdata, List.idxOf?_eq_none_iff.2 hm]
        rfl
      rw [hidx]
      exact step1_same hs hl _
  | count v =>
    refine Step1.wrap (x := listCount eng ctx mapper xp (.elem a) v) (e := (.ok (l.count v), l)) ?_ ListRes.nat
    unfold listCount
    rw [bind_ok hdata]
    exact step1_same hs hl _
  | contains v =>
    refine Step1.wrap (x := listContains eng ctx mapper xp (.elem a) v) (e := (.ok (decide (v ∈ l)), l)) ?_ ListRes.bool
    unfold listContains
    rw [bind_ok hdata]
    exact step1_same hs hl _
  | eq l' =>
    refine Step1.wrap (x := listEq eng ctx mapper xp (.elem a) l') (e := (.ok (decide (l = l')), l)) ?_ ListRes.bool
    unfold listEq
    rw [bind_ok hdata]
    exact step1_same hs hl _

/-- Every sequence of operations. -/
theorem runOps_run : ∀ (ops : List (ListOp α)) {a s n l}, Node.get a s = some n → Holds q ps good value n l →
    (∀ op ∈ ops, op.supported = true ∧ ∀ v ∈ op.values, ok v) →
    ∃ n', runOps eng ctx mapper store xp (.step ax t es) (.elem a) ops s = ((pyListAll l ops).1, s.modify a (fun _ => n')) ∧
      Holds q ps good value n' (pyListAll l ops).2 ∧ SameButMembers q ps n n'
  | [], a, s, n, l, hs, hl, _ => by
    refine ⟨n, ?_, hl, same_refl n⟩
    rw [Node.modify_id hs rfl]
    rfl
  | op :: ops, a, s, n, l, hs, hl, h => by
    obtain ⟨n', h1, h2, h3⟩ := runOp_run heng hp hr hok hS hs hl op (h op (by simp)).1 (h op (by simp)).2
    have hs' : (s.modify a (fun _ => n')).get a = some n' := by rw [Node.get_modify, hs]; rfl
    obtain ⟨n'', k1, k2, k3⟩ := runOps_run ops hs' h2 (fun o ho => h o (by simp [ho]))
    refine ⟨n'', ?_, k2, same_trans h3 k3⟩
    simp only [runOps, h1, k1, pyListAll, Node.modify_modify]
    rfl

/-! ### assignment and deletion of the whole list -/

theorem listSetFrom_run : ∀ (vs : List α) (i : Nat) {a s n l}, Node.get a s = some n → Holds q ps good value n l → i ≤ l.length → (∀ v ∈ vs, ok v) →
    Step1 q ps good value a s n (listSetFrom eng ctx store xp (.step ax t es) (.elem a) i vs s) (.ok (), l.take i ++ vs ++ l.drop (i + vs.length))
  | [], i, a, s, n, l, hs, hl, _, _ => by
    simp only [List.append_nil, List.length_nil, Nat.add_zero, List.take_append_drop]
    exact step1_same hs hl (.ok ())
  | v :: vs, i, a, s, n, l, hs, hl, hi, hv => by
    have hrun : listSetFrom eng ctx store xp (.step ax t es) (.elem a) i (v :: vs) s
        = (listSet eng ctx store xp (.step ax t es) (.elem a) i v >>= fun _ =>
            listSetFrom eng ctx store xp (.step ax t es) (.elem a) (i + 1) vs) s := by
      rw [listSetFrom]
    have key : ∃ n' l', listSet eng ctx store xp (.step ax t es) (.elem a) i v s = (.ok (), s.modify a (fun _ => n')) ∧
        Holds q ps good value n' l' ∧ SameButMembers q ps n n' ∧ i + 1 ≤ l'.length ∧
        l'.take (i + 1) ++ vs ++ l'.drop (i + 1 + vs.length) = l.take i ++ (v :: vs) ++ l.drop (i + (v :: vs).length) := by
      rcases Nat.lt_or_ge i l.length with h | h
      · have hk : pos l.length (i : Int) = some i := by unfold pos; rw [if_pos ⟨by omega, by omega⟩]; rfl
        obtain ⟨n', h1, h2, h3⟩ := listSet_mid heng hp hr hok hS hs hl hk (hv v (by simp))
        refine ⟨n', _, h1, h2, h3, by simp; omega, ?_⟩
        rw [List.take_set, List.drop_set_of_lt (by omega), List.take_add_one, List.getElem?_eq_getElem h]
        have : (List.take i l ++ (some l[i]).toList).set i v = l.take i ++ [v] := by
          rw [List.set_append_right _ _ (by simp)]
          simp [Nat.min_eq_left (Nat.le_of_lt h)]
        rw [this]
        simp [Nat.add_assoc, Nat.add_comm 1]
      · have : i = l.length := by omega
        subst this
        obtain ⟨n', h1, h2, h3, -⟩ := listSet_end heng hp hr hok hS hs hl (hv v (by simp))
        refine ⟨n', _, h1, h2, h3, by simp, ?_⟩
        rw [List.take_of_length_le (by simp), List.drop_eq_nil_of_le (by simp), List.take_of_length_le (by simp),
          List.drop_eq_nil_of_le (by simp)]
        simp
    obtain ⟨n', l', h1, h2, h3, h4, h5⟩ := key
    have hs' : (s.modify a (fun _ => n')).get a = some n' := by rw [Node.get_modify, hs]; rfl
    obtain ⟨n'', k1, k2, k3⟩ := listSetFrom_run vs (i + 1) hs' h2 h4 (fun w hw => hv w (by simp [hw]))
    refine ⟨n'', ?_, ?_, same_trans h3 k3⟩
    · rw [hrun, bind_ok h1, k1, Node.modify_modify]
      rfl
    · simp only at k2 ⊢
      rw [← h5]
      exact k2

omit hok in
theorem listTrim_run : ∀ (fuel : Nat) {a s n l} (len : Nat), Node.get a s = some n → Holds q ps good value n l → l.length ≤ len + fuel →
    Step1 q ps good value a s n (listTrim eng ctx mapper xp (.elem a) len fuel s) (.ok (), l.take len)
  | 0, a, s, n, l, len, hs, hl, h => by
    rw [List.take_of_length_le (by omega)]
    exact step1_same hs hl (.ok ())
  | fuel + 1, a, s, n, l, len, hs, hl, h => by
    have hrun : listTrim eng ctx mapper xp (.elem a) len (fuel + 1) s
        = (if l.length > len then (listPop eng ctx mapper xp (.elem a) none >>= fun _ => listTrim eng ctx mapper xp (.elem a) len fuel) else pure ()) s := by
      rw [listTrim, bind_ok (listLen_run heng hp hr hS hs hl)]
    rw [hrun]
    by_cases hg : l.length > len
    · rw [if_pos hg]
      have hk : pos l.length ((l.length : Int) - 1) = some (l.length - 1) := by
        unfold pos; rw [if_pos ⟨by omega, by omega⟩]; congr 1; omega
      have hd := listDel_run heng hp hr hs hl ((l.length : Int) - 1)
      rw [hk] at hd
      obtain ⟨n', h1, h2, h3⟩ := hd
      have hgt := listGet_run heng hp hr hS hs hl ((l.length : Int) - 1)
      rw [pyGet_some hk] at hgt
      have hpop : ∃ x, listPop eng ctx mapper xp (.elem a) none s = (.ok x, s.modify a (fun _ => n')) := by
        refine ⟨l[l.length - 1]'(pos_lt hk), ?_⟩
        unfold listPop
        simp only [bind_assoc']
        rw [bind_ok (listLen_run heng hp hr hS hs hl), bind_ok (show (pure ((l.length : Int) - 1) : M Int) s = (.ok _, s) from rfl), bind_ok hgt, bind_ok h1]
        rfl
      obtain ⟨x, hx⟩ := hpop
      have hs' : (s.modify a (fun _ => n')).get a = some n' := by rw [Node.get_modify, hs]; rfl
      obtain ⟨n'', k1, k2, k3⟩ := listTrim_run fuel len hs' h2 (by rw [List.length_eraseIdx, if_pos (by omega)]; omega)
      refine ⟨n'', ?_, ?_, same_trans h3 k3⟩
      · rw [bind_ok hx, k1, Node.modify_modify]; rfl
      · simp only at k2 ⊢
        rw [List.eraseIdx_eq_dropLast (by omega), List.dropLast_eq_take, List.take_take, Nat.min_eq_left (by omega)] at k2
        exact k2
    · rw [if_neg hg, List.take_of_length_le (by omega)]
      exact step1_same hs hl (.ok ())

/-- Assigning a list. -/
theorem listAssign_run (vs : List α) {a s n l} (hs : Node.get a s = some n) (hl : Holds q ps good value n l) (hv : ∀ v ∈ vs, ok v) :
    Step1 q ps good value a s n (listAssign eng ctx mapper store xp (.step ax t es) (.elem a) vs s) (.ok (), vs) := by
  obtain ⟨n', h1, h2, h3⟩ := listSetFrom_run heng hp hr hok hS vs 0 hs hl (by omega) hv
  simp only [List.take_zero, List.nil_append, Nat.zero_add] at h2
  have hs' : (s.modify a (fun _ => n')).get a = some n' := by rw [Node.get_modify, hs]; rfl
  obtain ⟨n'', k1, k2, k3⟩ := listTrim_run heng hp hr hS ((vs ++ l.drop vs.length).length + (s.modify a (fun _ => n')).nodes) vs.length hs' h2 (by omega)
  refine ⟨n'', ?_, ?_, same_trans h3 k3⟩
  · unfold listAssign
    rw [bind_ok h1, bind_ok (listLen_run heng hp hr hS hs' h2), listTrimAll_run, k1, Node.modify_modify]
    rfl
  · simpa using k2

omit hok in
/-- Removing the first value. -/
theorem listRemove_head {a s n} {v : α} {l : List α} (hs : Node.get a s = some n) (hl : Holds q ps good value n (v :: l)) :
    Step1 q ps good value a s n (listRemove eng ctx mapper xp (.elem a) v s) (.ok (), l) := by
  have hidx : listIndex eng ctx mapper xp (.elem a) v s = (.ok 0, s) := by
    unfold listIndex
    rw [bind_ok (listData_run heng hp hr hS hs hl), idxOf?_mem (by simp)]
    simp
    rfl
  have hd := listDel_run heng hp hr hs hl 0
  rw [show pos (v :: l).length 0 = some 0 by unfold pos; rw [if_pos ⟨by omega, by simp⟩]; rfl] at hd
  obtain ⟨n', h1, h2, h3⟩ := hd
  refine ⟨n', ?_, h2, h3⟩
  unfold listRemove
  rw [bind_ok hidx]
  exact h1

omit hok in
theorem listDeleteAll_go (doc : Node) : ∀ (rs : List Ref) {a s n} {l : List α}, mapMatches mapper doc rs = .ok l → Node.get a s = some n →
    Holds q ps good value n l → Step1 q ps good value a s n (listDeleteAll.go eng ctx mapper xp (.elem a) doc rs s) (.ok (), [])
  | [], a, s, n, l, hm, hs, hl => by
    simp only [mapMatches, Except.ok.injEq] at hm
    subst hm
    exact step1_same hs hl (.ok ())
  | r :: rs, a, s, n, l, hm, hs, hl => by
    rw [mapMatches] at hm
    cases h1 : mapMatch mapper doc r with
    | error e => rw [h1] at hm; simp at hm
    | ok x =>
      cases h2 : mapMatches mapper doc rs with
      | error e => rw [h1, h2] at hm; simp at hm
      | ok xs =>
        rw [h1, h2] at hm
        simp only [Except.ok.injEq] at hm
        subst hm
        obtain ⟨n', k1, k2, k3⟩ := listRemove_head heng hp hr hS hs hl
        have hs' : (s.modify a (fun _ => n')).get a = some n' := by rw [Node.get_modify, hs]; rfl
        obtain ⟨n'', j1, j2, j3⟩ := listDeleteAll_go doc rs h2 hs' k2
        refine ⟨n'', ?_, j2, same_trans k3 j3⟩
        have : listDeleteAll.go eng ctx mapper xp (.elem a) doc (r :: rs) s
            = (ofExcept (mapMatch mapper doc r) >>= fun x => listRemove eng ctx mapper xp (.elem a) x >>= fun _ =>
                listDeleteAll.go eng ctx mapper xp (.elem a) doc rs) s := by rw [listDeleteAll.go]
        rw [this, h1, bind_ok (ofExcept_run _ _), bind_ok k1, j1, Node.modify_modify]
        rfl

omit hok in
/-- Deleting the whole list. -/
theorem listDeleteAll_run {a s n} {l : List α} (hs : Node.get a s = some n) (hl : Holds q ps good value n l) :
    Step1 q ps good value a s n (listDeleteAll eng ctx mapper xp (.elem a) s) (.ok (), []) := by
  unfold listDeleteAll
  rw [bind_ok (listMatches_run heng hp hr hs), bind_ok (show getDoc s = (.ok s, s) from rfl)]
  refine listDeleteAll_go heng hp hr hS s _ (l := l) ?_ hs hl
  have := mapMatches_run hS hs n.children [] rfl hl.1
  simp only [List.length_nil, Nat.zero_add] at this
  rw [this, ← hl.2]
  rfl

omit hok in
/-- An operation that fails changes nothing. -/
theorem runOp_error {a s n l} (hs : Node.get a s = some n) (hl : Holds q ps good value n l) (op : ListOp α) (hsup : op.supported = true)
    {er : PyErr} (her : (pyList l op).1 = .error er) :
    runOp eng ctx mapper store xp (.step ax t es) (.elem a) op s = (.error er, s) := by
  have hdata := listData_run heng hp hr hS hs hl
  cases op with
  | len => simp [pyList] at her
  | append v => simp [pyList] at her
  | extend vs => simp [pyList] at her
  | count v => simp [pyList] at her
  | contains v => simp [pyList] at her
  | eq l' => simp [pyList] at her
  | get i =>
    have hg := listGet_run heng hp hr hS hs hl i
    rw [pyGet_pos] at hg
    simp only [pyList] at her
    cases hk : pos l.length i with
    | none =>
      rw [hk] at hg her
      simp only [Except.error.injEq] at her
      subst her
      exact bind_err hg
    | some k => rw [hk] at her; simp [List.getElem?_eq_getElem (pos_lt hk)] at her
  | set i v =>
    simp only [pyList] at her
    by_cases h0 : i = l.length
    · rw [if_pos h0] at her; simp at her
    · rw [if_neg h0] at her
      cases hk : pos l.length i with
      | some k => rw [hk] at her; simp at her
      | none =>
        rw [hk] at her
        simp only [Except.error.injEq] at her
        subst her
        have : listSet eng ctx store xp (.step ax t es) (.elem a) i v s = (.error .indexError, s) := by
          unfold listSet
          rw [bind_ok (listMatches_run heng hp hr hs), matches_length hl a, if_neg h0]
          by_cases h1 : i > (l.length : Int)
          · rw [if_pos h1]; rfl
          · rw [if_neg h1, pyGet_pos, matches_length hl a, hk]; rfl
        exact bind_err this
  | del i =>
    simp only [pyList] at her
    have h := listDel_run heng hp hr hs hl i
    cases hk : pos l.length i with
    | some k => rw [hk] at her; simp at her
    | none =>
      rw [hk] at h her
      simp only [Except.error.injEq] at her
      subst her
      exact bind_err h
  | insert i v =>
    simp only [ListOp.supported, decide_eq_true_eq] at hsup
    simp only [pyList] at her
    by_cases h0 : 0 ≤ i ∧ i ≤ (l.length : Int)
    · rw [if_pos h0] at her; simp at her
    · rw [if_neg h0] at her
      simp only [Except.error.injEq] at her
      subst her
      have : listInsert eng ctx mapper store xp (.step ax t es) (.elem a) i v s = (.error .indexError, s) := by
        unfold listInsert
        rw [bind_ok (listLen_run heng hp hr hS hs hl), if_neg (by omega), bind_ok (listMatches_run heng hp hr hs), matches_length hl a,
          if_neg (by omega)]
        rfl
      exact bind_err this
  | pop i =>
    simp only [pyList] at her
    cases hk : pos l.length (i.getD (l.length - 1)) with
    | some k => rw [hk] at her; simp [List.getElem?_eq_getElem (pos_lt hk)] at her
    | none =>
      rw [hk] at her
      simp only [Except.error.injEq] at her
      subst her
      have hg := listGet_run heng hp hr hS hs hl (i.getD (l.length - 1))
      rw [pyGet_pos, hk] at hg
      have : listPop eng ctx mapper xp (.elem a) i s = (.error .indexError, s) := by
        unfold listPop
        cases i with
        | some i =>
          rw [bind_ok (show (pure i : M Int) s = (.ok i, s) from rfl)]
          exact bind_err hg
        | none =>
          simp only [bind_assoc']
          rw [bind_ok (listLen_run heng hp hr hS hs hl), bind_ok (show (pure ((l.length : Int) - 1) : M Int) s = (.ok _, s) from rfl)]
          exact bind_err hg
      exact bind_err this
  | remove v =>
    simp only [pyList] at her
    by_cases hm : v ∈ l
    · rw [if_pos hm] at her; simp at her
    · rw [if_neg hm] at her
      simp only [Except.error.injEq] at her
      subst her
      have hidx : listIndex eng ctx mapper xp (.elem a) v s = (.error .valueError, s) := by
        unfold listIndex
        rw [bind_ok hdata, List.idxOf?_eq_none_iff.2 hm]
        rfl
      have : listRemove eng ctx mapper xp (.elem a) v s = (.error .valueError, s) := by
        unfold listRemove
        rw [bind_err hidx]
      exact bind_err this
  | index v =>
    simp only [pyList] at her
    by_cases hm : v ∈ l
    · rw [if_pos hm] at her; simp at her
    · rw [if_neg hm] at her
      simp only [Except.error.injEq] at her
      subst her
      have hidx : listIndex eng ctx mapper xp (.elem a) v s = (.error .valueError, s) := by
        unfold listIndex
        rw [bind_ok hdata, List.idxOf?_eq_none_iff.2 hm]
        rfl
      exact bind_err hidx

end ops

/-! ### instances of the contract -/

omit [PyUnicode] in
theorem res_single {e : Expr} {st : Spec.Step} (h : res ctx e = some ([st], none)) : ∃ ax t es, e = .step ax t es := by
  cases e with
  | step ax t es => exact ⟨ax, t, es, rfl⟩
  | binary l op r =>
    cases op with
    | slash =>
      simp only [res] at h
      cases hl : res ctx l with
      | none => rw [hl] at h; simp at h
      | some x =>
        obtain ⟨p, c⟩ := x
        cases hr : res ctx r with
        | none => rw [hl, hr] at h; cases c <;> simp at h
        | some y =>
          obtain ⟨p', c'⟩ := y
          rw [hl, hr] at h
          cases c <;> cases c' <;> simp at h
          have h1 := List.length_pos_iff.2 (res_ne_nil l hl)
          have h2 := List.length_pos_iff.2 (res_ne_nil r hr)
          have := congrArg List.length h
          simp at this
          omega
    | eq =>
      simp only [res] at h
      cases hl : res ctx l with
      | none => rw [hl] at h; simp at h
      | some x =>
        obtain ⟨p, c⟩ := x
        cases hr : resLit ctx r with
        | none => rw [hl, hr] at h; cases c <;> simp at h
        | some y => rw [hl, hr] at h; cases c <;> simp at h
    | _ => simp [res] at h
  | _ => simp [res] at h

theorem satAll_setText {ps : List Pred} (h : attrOnly ps = true) (v : Option Str) (m : Node) : satAll ps (m.setText v) = satAll ps m := by
  induction ps with
  | nil => rfl
  | cons p ps ih =>
    obtain ⟨⟨q, c, rfl⟩, h'⟩ := attrOnly_cons h
    simp only [satAll, Pred.sat, Node.attr?, Node.setText_attrs, ih h']

theorem isMember_setText {q : QName} {ps : List Pred} (h : attrOnly ps = true) (v : Option Str) (m : Node) :
    isMember q ps (m.setText v) = isMember q ps m := by
  simp [isMember, satAll_setText h, Node.isElem]

omit [DecidableEq α] in
/-- Lists of values that are written as text. -/
theorem storeText_ok {e : Expr} (hao : attrOnly ps = true) {toXml : α → Except PyErr (Option Str)} {txt : α → Str}
    (hmap : ∀ m, m.children = [] → good m → mapper (.elem m) = .ok (value m)) (hgood : ∀ m, good m → m.children = [])
    (hx : ∀ v, ok v → toXml v = .ok (some (txt v)) ∧ xmlOk (txt v) = true)
    (hst : ∀ m : Node, m.children = [] → ∀ v, ok v → good (m.setText (some (txt v))) ∧ value (m.setText (some (txt v))) = v) :
    StoreOk q ps mapper (storeText ctx toXml e) good value (fun v => Node.setText (some (txt v))) ok := by
  have key : ∀ m, m.children = [] → PutOk q ps (storeText ctx toXml e) good value (fun v => Node.setText (some (txt v))) ok m :=
    fun m hc =>
    { store := by
        intro v hv s b _ hb
        unfold storeText
        rw [(hx v hv).1, bind_ok (ofExcept_run _ _)]
        exact setInXml_elem (hx v hv).2 hb hc
      member := fun hm v _ => by rw [isMember_setText hao]; exact hm
      stays := fun v hv => (hst m hc v hv).1
      value := fun v hv => (hst m hc v hv).2 }
  exact
  { map := fun m _ hg => hmap m (hgood m hg) hg
    puts := fun m _ hg => key m (hgood m hg)
    new := key _ (newElem_attrOnly hao) }

omit [PyUnicode] in
/-- Lists of elements: values are elements from elsewhere. -/
theorem storeNode_ok (q : QName) (ps : List Pred) :
    StoreOk q ps (fun it => match it with | .elem m => .ok m | _ => .error .typeError) (fun r v => storeNode r (.foreign v)) (fun _ => True) id
      (fun v _ => v) (fun v => isMember q ps v = true) where
  map m _ _ := rfl
  puts m _ _ := key m
  new := key _
where
  /-- Every member can be replaced. -/
  key (m : Node) : PutOk q ps (fun r v => storeNode r (.foreign v)) (fun _ => True) id (fun v _ => v) (fun v => isMember q ps v = true) m :=
  { store := by
      intro v _ s b hb _
      simp only [storeNode]
      rw [if_neg hb]
      rfl
    member := fun _ v hv => hv
    stays := fun v _ => trivial
    value := fun v _ => rfl }

end
end Fields
