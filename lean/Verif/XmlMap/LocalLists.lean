import Verif.XmlMap.LocalLemmas
import Verif.XmlMap.NodeListLemmas
import Verif.XmlMap.TrimEnds
/-
The operations of lists act on the object's element only.
-/
namespace Fields
open Xml XPath Spec

section
variable {a : Node.Addr} {n : Node}
variable [PyUnicode] {eng : Engine} {ctx : Ctx}

omit [PyUnicode] in
theorem ok_of_bind {α β : Type} {m : M α} {k : α → M β} {n n' : Node} {y : β} (h : (m >>= k) n = (.ok y, n')) : ∃ x n1, m n = (.ok x, n1) ∧ k x n1 = (.ok y, n') := by
  cases h1 : m n with
  | mk r n1 =>
    cases r with
    | error er => rw [bind_err h1] at h; cases h
    | ok x => rw [bind_ok h1] at h; exact ⟨x, n1, rfl, h⟩

omit [PyUnicode] in
theorem createChild_inner {node : Ref} {pfx : Option Str} {nm : Str} {idx : Option Nat} {n n' : Node} {r : Ref} (h : createChild ctx node pfx nm idx n = (.ok r, n')) : r ≠ .elem [] := by
  unfold createChild at h
  cases h0 : childName ctx pfx nm with
  | error er => simp only [h0] at h; cases h
  | ok q =>
    simp only [h0] at h
    split_ifs at h with h1
    · cases h
    · cases node with
      | elem b =>
        obtain ⟨x, n1, -, h⟩ := ok_of_bind h
        cases idx with
        | some i =>
          obtain ⟨y, n2, -, h⟩ := ok_of_bind h
          cases h; simp
        | none =>
          obtain ⟨y, n2, -, h⟩ := ok_of_bind h
          cases h; simp
      | _ => cases h

omit [PyUnicode] in
theorem createAttr_inner {node : Ref} {pfx : Option Str} {nm : Str} {n n' : Node} {r : Ref} (h : createAttr ctx node pfx nm n = (.ok r, n')) : r ≠ .elem [] := by
  unfold createAttr at h
  cases node with
  | elem b =>
    generalize attrName ctx pfx nm = qk at h
    obtain ⟨q, k⟩ := qk
    obtain ⟨x, n1, -, h⟩ := ok_of_bind h
    cases k <;> cases h
    simp
  | _ => cases h

theorem create_inner : ∀ (e : Expr), textEnd e = false → ∀ (node : Ref) (idx : Option Nat) (n n' : Node) (r : Ref), createNode eng ctx e node idx n = (.ok r, n') → r ≠ .elem []
  | .step ax t ps, ht, node, idx, n, n', r, h => by
    rw [createNode] at h
    cases t with
    | type nm lit => cases ht
    | name pfx nm =>
      unfold createStep at h
      simp only at h
      split at h
      · cases h
      · obtain ⟨x, n1, h1, h⟩ := ok_of_bind h
        obtain ⟨y, n2, h2, h⟩ := ok_of_bind h
        cases h
        split at h1
        · exact createChild_inner h1
        · split at h1
          · exact createAttr_inner h1
          · cases h1
  | .binary l op r', ht, node, idx, n, n', r, h => by
    cases op with
    | slash =>
      rw [createNode] at h
      obtain ⟨x, n1, h1, h⟩ := ok_of_bind h
      cases x with
      | some f =>
        obtain ⟨left, n2, h2, h⟩ := ok_of_bind h
        exact create_inner r' ht _ _ _ _ _ h
      | none =>
        obtain ⟨left, n2, h2, h⟩ := ok_of_bind h
        exact create_inner r' ht _ _ _ _ _ h
    | _ => rw [createNode] at h <;> first | cases h | simp
  | .lit _, _, node, idx, n, n', r, h => by rw [createNode] at h <;> first | cases h | simp
  | .int _, _, node, idx, n, n', r, h => by rw [createNode] at h <;> first | cases h | simp
  | .float _, _, node, idx, n, n', r, h => by rw [createNode] at h <;> first | cases h | simp
  | .neg _, _, node, idx, n, n', r, h => by rw [createNode] at h <;> first | cases h | simp
  | .pred _ _, _, node, idx, n, n', r, h => by rw [createNode] at h <;> first | cases h | simp
  | .root, _, node, idx, n, n', r, h => by rw [createNode] at h <;> first | cases h | simp
  | .abs _ _, _, node, idx, n, n', r, h => by rw [createNode] at h <;> first | cases h | simp
  | .abbrev _, _, node, idx, n, n', r, h => by rw [createNode] at h <;> first | cases h | simp
  | .var _ _, _, node, idx, n, n', r, h => by rw [createNode] at h <;> first | cases h | simp
  | .call _ _ _, _, node, idx, n, n', r, h => by rw [createNode] at h <;> first | cases h | simp

theorem lifts_matches {xp : Str} (hx : Downward eng ctx xp) : LiftsAt a (List.map (Ref.under a)) (listMatches eng ctx xp (.elem a)) (listMatches eng ctx xp (.elem [])) n := by
  have h := lifts_xpath hx (a := a) (n := n) (b := []) rfl
  rw [List.append_nil] at h
  refine lifts_bind h (fun v n' _ => ?_)
  cases v with
  | nodes l => exact lifts_pure rfl
  | _ => exact lifts_raise _

theorem pyGet_map {α β} (f : α → β) (l : List α) (i : Int) : pyGet (l.map f) i = (pyGet l i).map f := by
  unfold pyGet
  simp only [List.length_map, List.getElem?_map]
  split_ifs
  · cases l[i.toNat]? <;> rfl
  · cases l[l.length - (-i).toNat]? <;> rfl
  · rfl

theorem pyGet_mem {α} {l : List α} {i : Int} {x : α} (h : pyGet l i = .ok x) : x ∈ l := by
  unfold pyGet at h
  split_ifs at h
  · cases e : l[i.toNat]? with
    | none => rw [e] at h; cases h
    | some y => rw [e] at h; cases h; exact List.mem_of_getElem? e
  · cases e : l[l.length - (-i).toNat]? with
    | none => rw [e] at h; cases h
    | some y => rw [e] at h; cases h; exact List.mem_of_getElem? e

variable {α : Type} [DecidableEq α] {mapper : Item → Except PyErr α} {store : Ref → α → M Unit} {xp : Str} {e : Expr}

theorem mapMatch_under {s : Node} (hs : s.get a = some n) (r : Ref) : mapMatch mapper s (r.under a) = mapMatch mapper n r := by
  unfold mapMatch
  rw [show itemOf s (.ref (r.under a)) = itemOf n (.ref r) from itemOf_under hs (.ref r)]

theorem mapMatches_under {s : Node} (hs : s.get a = some n) (l : List Ref) : mapMatches mapper s (l.map (Ref.under a)) = mapMatches mapper n l := by
  induction l with
  | nil => rfl
  | cons r l ih => simp only [List.map_cons, mapMatches, mapMatch_under hs, ih]

theorem matches_keep {n' : Node} {ms : List Ref} (h : listMatches eng ctx xp (.elem []) n = (.ok ms, n')) : n' = n ∧ eng.xpath xp n [] ctx = .ok (.nodes ms) := by
  unfold listMatches at h
  cases hv : eng.xpath xp n [] ctx with
  | error er =>
    rw [bind_err (show evalXPath eng ctx xp (.elem []) n = (.error er, n) from by show (eng.xpath xp n [] ctx, n) = _; rw [hv])] at h
    cases h
  | ok v =>
    rw [bind_ok (show evalXPath eng ctx xp (.elem []) n = (.ok v, n) from by show (eng.xpath xp n [] ctx, n) = _; rw [hv])] at h
    cases v with
    | nodes l => cases h; exact ⟨rfl, rfl⟩
    | _ => cases h

theorem lifts_doc {γ δ : Type} {g : δ → γ} {fa : Node → M γ} {f0 : Node → M δ} (h : ∀ s, s.get a = some n → LiftsAt a g (fa s) (f0 n) n) : LiftsAt a g (getDoc >>= fa) (getDoc >>= f0) n := by
  intro s hs
  rw [bind_ok (show getDoc s = (.ok s, s) from rfl), bind_ok (show getDoc n = (.ok n, n) from rfl)]
  exact h s hs s hs

theorem lifts_data (hx : Downward eng ctx xp) : LiftsAt a id (listData eng ctx mapper xp (.elem a)) (listData eng ctx mapper xp (.elem [])) n :=
  lifts_bind (lifts_matches hx) (fun ms n' _ => lifts_doc (fun s hs => lifts_ofExcept (by rw [mapMatches_under hs]; cases mapMatches mapper n' ms <;> rfl)))

theorem lifts_len (hx : Downward eng ctx xp) : LiftsAt a id (listLen eng ctx mapper xp (.elem a)) (listLen eng ctx mapper xp (.elem [])) n :=
  lifts_bind (lifts_data hx) (fun _ _ _ => lifts_pure rfl)

theorem lifts_index (hx : Downward eng ctx xp) (x : α) : LiftsAt a id (listIndex eng ctx mapper xp (.elem a) x) (listIndex eng ctx mapper xp (.elem []) x) n := by
  refine lifts_bind (lifts_data hx) (fun d _ _ => ?_)
  simp only [id]
  cases d.idxOf? x with
  | none => exact lifts_raise _
  | some i => exact lifts_pure rfl

theorem lifts_getItem (hx : Downward eng ctx xp) (i : Int) : LiftsAt a id (listGet eng ctx mapper xp (.elem a) i) (listGet eng ctx mapper xp (.elem []) i) n :=
  lifts_bind (lifts_matches hx) (fun ms n' _ => lifts_bind (lifts_ofExcept (pyGet_map _ _ _)) (fun r n'' _ => lifts_doc (fun s hs =>
    lifts_ofExcept (by rw [mapMatch_under hs]; cases mapMatch mapper n'' r <;> rfl))))

theorem lifts_position {r : Ref} (hr : r ≠ .elem []) : LiftsAt a id (positionOf (r.under a)) (positionOf r) n := by
  cases r with
  | elem b =>
    have hb : b ≠ [] := fun h => hr (by rw [h])
    simp only [Ref.under, positionOf]
    rw [List.getLast?_append]
    cases h : b.getLast? with
    | none => exact absurd (List.getLast?_eq_none_iff.1 h) hb
    | some i => exact lifts_pure rfl
  | _ => exact lifts_raise _

theorem lifts_appendIndex {ms : List Ref} (hm : Ref.elem [] ∉ ms) : LiftsAt a id (appendIndex (ms.map (Ref.under a))) (appendIndex ms) n := by
  unfold appendIndex
  rw [List.getLast?_map]
  cases h : ms.getLast? with
  | none => exact lifts_pure rfl
  | some r =>
    exact lifts_bind (lifts_position (fun e => hm (e ▸ List.mem_of_getLast? h))) (fun p _ _ => lifts_pure rfl)

theorem lifts_removeMatch {r : Ref} (hr : r ≠ .elem []) : LiftsAt a id (removeMatch (r.under a)) (removeMatch r) n := by
  cases r with
  | elem b =>
    have hb : b ≠ [] := fun h => hr (by rw [h])
    simp only [Ref.under, removeMatch]
    rw [if_neg hb, if_neg (by simp [hb]), List.dropLast_append_of_ne_nil hb, List.getLast?_append]
    cases h : b.getLast? with
    | none => exact absurd (List.getLast?_eq_none_iff.1 h) hb
    | some i => exact lifts_edit _ _
  | _ => exact lifts_raise _

variable (hx : Downward eng ctx xp) (hi : Inside eng ctx xp)
include hx hi

theorem lifts_delItem (i : Int) : LiftsAt a id (listDel eng ctx xp (.elem a) i) (listDel eng ctx xp (.elem []) i) n := by
  refine lifts_bind (lifts_matches hx) (fun ms n' h1 => ?_)
  obtain ⟨rfl, h2⟩ := matches_keep h1
  rw [List.length_map]
  refine lifts_ite Iff.rfl (lifts_raise _) (lifts_bind (lifts_ofExcept (pyGet_map _ _ _)) (fun r n'' h3 => lifts_removeMatch (fun e => hi _ _ h2 (e ▸ pyGet_mem (l := ms) (i := i) ?_))))
  cases h4 : pyGet ms i with
  | error er => rw [h4] at h3; cases h3
  | ok y => rw [h4] at h3; cases h3; rfl

theorem lifts_removeItem (x : α) : LiftsAt a id (listRemove eng ctx mapper xp (.elem a) x) (listRemove eng ctx mapper xp (.elem []) x) n :=
  lifts_bind (lifts_index hx x) (fun i _ _ => lifts_delItem hx hi i)

theorem lifts_pop (i : Option Int) : LiftsAt a id (listPop eng ctx mapper xp (.elem a) i) (listPop eng ctx mapper xp (.elem []) i) n := by
  refine lifts_bind (g := id) ?_ (fun j _ _ => lifts_bind (lifts_getItem hx j) (fun v _ _ => lifts_bind (lifts_delItem hx hi j) (fun _ _ _ => lifts_pure rfl)))
  cases i with
  | some i => exact lifts_pure rfl
  | none => exact lifts_bind (lifts_len hx) (fun _ _ _ => lifts_pure rfl)

theorem lifts_deleteAll : LiftsAt a id (listDeleteAll eng ctx mapper xp (.elem a)) (listDeleteAll eng ctx mapper xp (.elem [])) n := by
  refine lifts_bind (lifts_matches hx) (fun ms n' _ => lifts_doc (fun s hs => ?_))
  have go : ∀ (ms : List Ref) (m : Node), LiftsAt a id (listDeleteAll.go eng ctx mapper xp (.elem a) s (ms.map (Ref.under a))) (listDeleteAll.go eng ctx mapper xp (.elem []) n' ms) m := by
    intro ms
    induction ms with
    | nil => intro m; exact lifts_pure rfl
    | cons r ms ih =>
      intro m
      refine lifts_bind (g := id) (lifts_ofExcept ?_) (fun x _ _ => lifts_bind (lifts_removeItem hx hi x) (fun _ m' _ => ih m'))
      rw [mapMatch_under hs]; cases mapMatch mapper n' r <;> rfl
  exact go ms n'

theorem lifts_trim (len fuel : Nat) : ∀ n, LiftsAt a id (listTrim eng ctx mapper xp (.elem a) len fuel) (listTrim eng ctx mapper xp (.elem []) len fuel) n := by
  induction fuel with
  | zero => intro n; exact lifts_pure rfl
  | succ k ih =>
    intro n
    exact lifts_bind (lifts_len hx) (fun m _ _ => lifts_ite Iff.rfl (lifts_bind (lifts_pop hx hi none) (fun _ n' _ => ih n')) (lifts_pure rfl))

theorem lifts_trimAll (len k : Nat) : LiftsAt a id (listTrimAll eng ctx mapper xp (.elem a) len k) (listTrimAll eng ctx mapper xp (.elem []) len k) n := by
  intro s hs
  have h := Node.nodes_get hs
  rw [listTrimAll_run, listTrimAll_run, listTrim_rounds len (k + n.nodes) (k + s.nodes) n (by omega) (by omega)]
  exact lifts_trim hx hi len (k + s.nodes) n s hs

variable (hf : flat e = true) (hl : ∀ x ∈ lookups e, Downward eng ctx x)
  (hs : ∀ (r : Ref) (v : α) (n : Node), (textEnd e = false → r ≠ .elem []) → LiftsAt a id (store (r.under a) v) (store r v) n)
include hf hl hs

theorem lifts_setItem (i : Int) (v : α) : LiftsAt a id (listSet eng ctx store xp e (.elem a) i v) (listSet eng ctx store xp e (.elem []) i v) n := by
  refine lifts_bind (lifts_matches hx) (fun ms n' h1 => ?_)
  obtain ⟨rfl, h2⟩ := matches_keep h1
  rw [List.length_map]
  refine lifts_bind (g := Ref.under a) (lifts_ite Iff.rfl ?_ (lifts_ite Iff.rfl (lifts_raise _) (lifts_ofExcept (pyGet_map _ _ _)))) (fun r n'' h3 => hs r v n'' (fun hte => ?_))
  · refine lifts_bind (lifts_appendIndex (hi _ _ h2)) (fun idx n1 h4 => ?_)
    have := lifts_create (a := a) e hf hl [] idx n1 rfl
    rw [List.append_nil] at this; exact this
  · split_ifs at h3 with c1 c2
    · cases h5 : appendIndex ms n' with
      | mk r5 n5 =>
        cases r5 with
        | error er => rw [bind_err h5] at h3; cases h3
        | ok idx => rw [bind_ok h5] at h3; exact create_inner e hte _ _ _ _ _ h3
    · cases h3
    · intro e; subst e
      refine hi _ _ h2 (pyGet_mem (l := ms) (i := i) ?_)
      cases h4 : pyGet ms i with
      | error er => rw [h4] at h3; cases h3
      | ok y => rw [h4] at h3; cases h3; rfl

theorem lifts_append (v : α) : LiftsAt a id (listAppend eng ctx mapper store xp e (.elem a) v) (listAppend eng ctx mapper store xp e (.elem []) v) n :=
  lifts_bind (lifts_len hx) (fun i _ _ => lifts_setItem hx hi hf hl hs i v)

theorem lifts_extend (vs : List α) : ∀ n, LiftsAt a id (listExtend eng ctx mapper store xp e (.elem a) vs) (listExtend eng ctx mapper store xp e (.elem []) vs) n := by
  induction vs with
  | nil => intro n; exact lifts_pure rfl
  | cons v vs ih => intro n; exact lifts_bind (lifts_append hx hi hf hl hs v) (fun _ n' _ => ih n')

theorem lifts_setFrom (vs : List α) : ∀ i n, LiftsAt a id (listSetFrom eng ctx store xp e (.elem a) i vs) (listSetFrom eng ctx store xp e (.elem []) i vs) n := by
  induction vs with
  | nil => intro i n; exact lifts_pure rfl
  | cons v vs ih => intro i n; exact lifts_bind (lifts_setItem hx hi hf hl hs i v) (fun _ n' _ => ih (i + 1) n')

theorem lifts_assign (vs : List α) : LiftsAt a id (listAssign eng ctx mapper store xp e (.elem a) vs) (listAssign eng ctx mapper store xp e (.elem []) vs) n :=
  lifts_bind (lifts_setFrom hx hi hf hl hs vs 0 n) (fun _ _ _ => lifts_bind (lifts_len hx) (fun m _ _ => lifts_trimAll hx hi vs.length m))

theorem lifts_insert (i : Int) (v : α) : LiftsAt a id (listInsert eng ctx mapper store xp e (.elem a) i v) (listInsert eng ctx mapper store xp e (.elem []) i v) n := by
  refine lifts_bind (lifts_len hx) (fun m n' _ => lifts_ite Iff.rfl (lifts_append hx hi hf hl hs v) (lifts_bind (lifts_matches hx) (fun ms n1 h1 => ?_)))
  obtain ⟨rfl, h2⟩ := matches_keep h1
  rw [List.length_map]
  refine lifts_ite Iff.rfl (lifts_bind (lifts_ofExcept (pyGet_map _ _ _)) (fun r n2 h3 => lifts_bind (lifts_position (fun e => hi _ _ h2 (e ▸ pyGet_mem (l := ms) (i := i) ?_)))
    (fun p n3 _ => lifts_bind (g := Ref.under a) ?_ (fun _ n4 _ => lifts_setItem hx hi hf hl hs i v)))) (lifts_raise _)
  · cases h4 : pyGet ms i with
    | error er => rw [h4] at h3; cases h3
    | ok y => rw [h4] at h3; cases h3; rfl
  · have := lifts_create (a := a) e hf hl [] (some p) n3 rfl
    rw [List.append_nil] at this; exact this

theorem lifts_op (op : ListOp α) : LiftsAt a id (runOp eng ctx mapper store xp e (.elem a) op) (runOp eng ctx mapper store xp e (.elem []) op) n := by
  cases op with
  | len => exact lifts_bind (lifts_len hx) (fun _ _ _ => lifts_pure rfl)
  | get i => exact lifts_bind (lifts_getItem hx i) (fun _ _ _ => lifts_pure rfl)
  | set i v => exact lifts_bind (lifts_setItem hx hi hf hl hs i v) (fun _ _ _ => lifts_pure rfl)
  | del i => exact lifts_bind (lifts_delItem hx hi i) (fun _ _ _ => lifts_pure rfl)
  | append v => exact lifts_bind (lifts_append hx hi hf hl hs v) (fun _ _ _ => lifts_pure rfl)
  | extend vs => exact lifts_bind (lifts_extend hx hi hf hl hs vs n) (fun _ _ _ => lifts_pure rfl)
  | insert i v => exact lifts_bind (lifts_insert hx hi hf hl hs i v) (fun _ _ _ => lifts_pure rfl)
  | pop i => exact lifts_bind (lifts_pop hx hi i) (fun _ _ _ => lifts_pure rfl)
  | remove v => exact lifts_bind (lifts_removeItem hx hi v) (fun _ _ _ => lifts_pure rfl)
  | index v => exact lifts_bind (lifts_index hx v) (fun _ _ _ => lifts_pure rfl)
  | count v => exact lifts_bind (lifts_bind (lifts_data hx) (fun _ _ _ => lifts_pure rfl)) (fun _ _ _ => lifts_pure rfl)
  | contains v => exact lifts_bind (lifts_bind (lifts_data hx) (fun _ _ _ => lifts_pure rfl)) (fun _ _ _ => lifts_pure rfl)
  | eq l => exact lifts_bind (lifts_bind (lifts_data hx) (fun _ _ _ => lifts_pure rfl)) (fun _ _ _ => lifts_pure rfl)

end

section
variable {a : Node.Addr} [PyUnicode]

theorem lifts_storeText {α : Type} (ctx : Ctx) (toXml : α → Except PyErr (Option Str)) (e : Expr) (r : Ref) (v : α) (n : Node) :
    LiftsAt a id (storeText ctx toXml e (r.under a) v) (storeText ctx toXml e r v) n :=
  lifts_bind (g := id) (lifts_ofExcept (by cases toXml v <;> rfl)) (fun _ _ _ => lifts_setInXml (.ref r) _ _)

omit [PyUnicode] in
theorem lifts_storeNode (r : Ref) (w : Node) (n : Node) (hr : r ≠ .elem []) :
    LiftsAt a id (storeNode (r.under a) (.foreign w)) (storeNode r (.foreign w)) n := by
  cases r with
  | elem b =>
    have hb : b ≠ [] := fun h => hr (by rw [h])
    simp only [Ref.under, storeNode]
    rw [if_neg hb, if_neg (by simp [hb])]
    exact lifts_edit _ _
  | _ => exact lifts_raise _

end
end Fields
