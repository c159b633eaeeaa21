import Verif.Props.AnyDelete
/-
Property C123: taking from a list with any XPath takes exactly the selected item, or raises and changes nothing.

Model: `listDel`, `listPop`, `listRemove` (Verif/XmlMap/NodeList.lean).
-/
namespace Props
open XPath Xml Spec Fields

section
variable [PyUnicode] (eng : Engine) (ctx : Ctx) {α : Type} [DecidableEq α] (mapper : Item → Except PyErr α) (xp : Str)

/-- The XPath selects these nodes for the object with the element at `b`. -/
def Selects (b : Node.Addr) (s : Node) (ms : List Ref) : Prop := eng.xpath xp s b ctx = .ok (.nodes ms)

/-- The mapper reads this value from a selected node. -/
def Yields (mapper : Item → Except PyErr α) (s : Node) (r : Ref) (v : α) : Prop := ∃ it, itemOf s (.ref r) = some it ∧ mapper it = .ok v

/-- The selected node number `j` is an element with a parent, and it has been removed from it, with its content and the text behind it. -/
def TakenOut (s : Node) (ms : List Ref) (j : Nat) (s' : Node) : Prop := ∃ a k, ms[j]? = some (.elem (a ++ [k])) ∧ s' = s.modify a (Node.removeChild k)

omit [DecidableEq α] in
theorem anyMatches_cases (b : Node.Addr) (s : Node) : (∃ er, listMatches eng ctx xp (.elem b) s = (.error er, s)) ∨ ∃ ms, listMatches eng ctx xp (.elem b) s = (.ok ms, s) ∧ Selects eng ctx xp b s ms := by
  unfold listMatches Selects
  cases h : eng.xpath xp s b ctx with
  | error er => exact .inl ⟨er, bind_err (show evalXPath eng ctx xp (.elem b) s = (.error er, s) from by rw [evalXPath_elem, h])⟩
  | ok v =>
    have h1 : evalXPath eng ctx xp (.elem b) s = (.ok v, s) := by rw [evalXPath_elem, h]
    cases v with
    | nodes ms => exact .inr ⟨ms, bind_ok h1, rfl⟩
    | _ => exact .inl ⟨.typeError, bind_ok h1⟩

omit [DecidableEq α] in
theorem pyGet_shows {l : List α} {i : Int} {x : α} (h : pyGet l i = .ok x) : ∃ j, pos l.length i = some j ∧ l[j]? = some x := by
  rw [pyGet_pos] at h
  cases hp : pos l.length i with
  | none => rw [hp] at h; cases h
  | some j =>
    rw [hp] at h
    simp only at h
    refine ⟨j, rfl, ?_⟩
    cases hl : l[j]? with
    | none => rw [hl] at h; cases h
    | some y => rw [hl] at h; cases h; rfl

omit [DecidableEq α] in
/-- C123.  `del obj.list[i]`, with any XPath and engine: if it raises, nothing has changed; otherwise exactly the item at that index (negative ones count from the back) has been taken out. -/
theorem C123_del (b : Node.Addr) (i : Int) (s : Node) :
    (∃ er, listDel eng ctx xp (.elem b) i s = (.error er, s)) ∨
    ∃ s' ms j, listDel eng ctx xp (.elem b) i s = (.ok (), s') ∧ Selects eng ctx xp b s ms ∧ pos ms.length i = some j ∧ TakenOut s ms j s' := by
  unfold listDel
  rcases anyMatches_cases eng ctx xp b s with ⟨er, h⟩ | ⟨ms, h, hsel⟩
  · exact .inl ⟨er, bind_err h⟩
  · rw [bind_ok h]
    split_ifs with h1
    · exact .inl ⟨_, rfl⟩
    · cases hg : pyGet ms i with
      | error er => exact .inl ⟨er, by rw [bind_err (ofExcept_err _ _)]⟩
      | ok r =>
        rw [bind_ok (ofExcept_run _ _)]
        obtain ⟨j, hj, hr⟩ := pyGet_shows hg
        cases r with
        | elem a =>
          unfold removeMatch
          simp only
          split_ifs with h2
          · exact .inl ⟨_, rfl⟩
          · refine .inr ⟨_, ms, j, rfl, hsel, hj, a.dropLast, a.getLast?.getD 0, ?_, rfl⟩
            rw [hr]
            congr 2
            rw [List.getLast?_eq_getLast_of_ne_nil h2, Option.getD_some, List.dropLast_append_getLast]
        | _ => exact .inl ⟨_, rfl⟩

omit [DecidableEq α] in
theorem mapMatch_shows {s : Node} {r : Ref} {v : α} (h : mapMatch mapper s r = .ok v) : Yields mapper s r v := by
  unfold mapMatch at h
  cases hi : itemOf s (.ref r) with
  | none => rw [hi] at h; cases h
  | some it => rw [hi] at h; exact ⟨it, hi, h⟩

omit [DecidableEq α] in
theorem mapMatches_shows {s : Node} : ∀ {ms : List Ref} {d : List α}, mapMatches mapper s ms = .ok d → d.length = ms.length ∧ ∀ (j : Nat) v, d[j]? = some v → ∃ r, ms[j]? = some r ∧ Yields mapper s r v
  | [], d, h => by cases h; exact ⟨rfl, fun j v hv => by simp at hv⟩
  | r :: ms, d, h => by
    rw [mapMatches] at h
    cases h1 : mapMatch mapper s r with
    | error er => rw [h1] at h; cases h
    | ok x =>
      rw [h1] at h
      cases h2 : mapMatches mapper s ms with
      | error er => rw [h2] at h; cases h
      | ok xs =>
        rw [h2] at h
        cases h
        obtain ⟨k1, k2⟩ := mapMatches_shows h2
        refine ⟨by simp [k1], fun j v hv => ?_⟩
        cases j with
        | zero => cases hv; exact ⟨r, rfl, mapMatch_shows mapper h1⟩
        | succ j => exact k2 j v hv

omit [DecidableEq α] in
theorem anyData_cases (b : Node.Addr) (s : Node) : (∃ er, listData eng ctx mapper xp (.elem b) s = (.error er, s)) ∨
    ∃ ms d, listData eng ctx mapper xp (.elem b) s = (.ok d, s) ∧ Selects eng ctx xp b s ms ∧ mapMatches mapper s ms = .ok d := by
  unfold listData
  rcases anyMatches_cases eng ctx xp b s with ⟨er, h⟩ | ⟨ms, h, hsel⟩
  · exact .inl ⟨er, bind_err h⟩
  · rw [bind_ok h]
    cases hd : mapMatches mapper s ms with
    | error er => exact .inl ⟨er, by show ofExcept (mapMatches mapper s ms) s = _; rw [hd]; rfl⟩
    | ok d => exact .inr ⟨ms, d, by show ofExcept (mapMatches mapper s ms) s = _; rw [hd]; rfl, hsel, hd⟩

omit [DecidableEq α] in
/-- Popping, when the index is known. -/
theorem pop_at (b : Node.Addr) (i : Int) (s : Node) :
    (∃ er, (listGet eng ctx mapper xp (.elem b) i >>= fun v => listDel eng ctx xp (.elem b) i >>= fun _ => pure v) s = (.error er, s)) ∨
    ∃ v s' ms j r, (listGet eng ctx mapper xp (.elem b) i >>= fun v => listDel eng ctx xp (.elem b) i >>= fun _ => pure v) s = (.ok v, s') ∧ Selects eng ctx xp b s ms ∧ pos ms.length i = some j ∧
      ms[j]? = some r ∧ Yields mapper s r v ∧ TakenOut s ms j s' := by
  rcases anyMatches_cases eng ctx xp b s with ⟨er, h⟩ | ⟨ms, h, hsel⟩
  · exact .inl ⟨er, bind_err (by unfold listGet; exact bind_err h)⟩
  · have hget : listGet eng ctx mapper xp (.elem b) i s = (ofExcept (pyGet ms i) >>= fun r => getDoc >>= fun doc => ofExcept (mapMatch mapper doc r)) s := by unfold listGet; exact bind_ok h
    cases hg : pyGet ms i with
    | error er =>
      rw [hg, bind_err (ofExcept_err _ _)] at hget
      exact .inl ⟨er, bind_err hget⟩
    | ok r =>
      rw [hg, bind_ok (ofExcept_run _ _)] at hget
      cases hm : mapMatch mapper s r with
      | error er => exact .inl ⟨er, bind_err (hget.trans (by show ofExcept (mapMatch mapper s r) s = _; rw [hm]; rfl))⟩
      | ok v =>
        have hget' := hget.trans (show ofExcept (mapMatch mapper s r) s = (.ok v, s) from by rw [hm]; rfl)
        rw [bind_ok hget']
        obtain ⟨j, hj, hr⟩ := pyGet_shows hg
        rcases C123_del eng ctx xp b i s with ⟨er, hd⟩ | ⟨s', ms', j', hd, hsel', hj', ht⟩
        · exact .inl ⟨er, bind_err hd⟩
        · obtain rfl : ms = ms' := by rw [Selects] at hsel hsel'; rw [hsel] at hsel'; injection hsel' with h1; injection h1
          obtain rfl : j = j' := by rw [hj] at hj'; injection hj'
          exact .inr ⟨v, s', ms, j, r, bind_ok hd, hsel, hj, hr, mapMatch_shows mapper hm, ht⟩

omit [DecidableEq α] in
/-- C123.  `obj.list.pop(i)`, and `pop()` without an index for the last item: if it raises, nothing has changed; otherwise it returns what the item at that index reads, and exactly this item has been
taken out. -/
theorem C123_pop (b : Node.Addr) (i : Option Int) (s : Node) :
    (∃ er, listPop eng ctx mapper xp (.elem b) i s = (.error er, s)) ∨
    ∃ v s' ms j r, listPop eng ctx mapper xp (.elem b) i s = (.ok v, s') ∧ Selects eng ctx xp b s ms ∧ (∀ i', i = some i' → pos ms.length i' = some j) ∧ (i = none → j + 1 = ms.length) ∧
      ms[j]? = some r ∧ Yields mapper s r v ∧ TakenOut s ms j s' := by
  unfold listPop
  cases i with
  | some i =>
    rw [bind_ok (show (pure i : M Int) s = (.ok i, s) from rfl)]
    rcases pop_at eng ctx mapper xp b i s with h | ⟨v, s', ms, j, r, h1, h2, h3, h4⟩
    · exact .inl h
    · exact .inr ⟨v, s', ms, j, r, h1, h2, fun i' hi => by cases hi; exact h3, fun h => (by cases h), h4⟩
  | none =>
    rcases anyData_cases eng ctx mapper xp b s with ⟨er, h⟩ | ⟨ms, d, h, hsel, hd⟩
    · exact .inl ⟨er, bind_err (bind_err (show listLen eng ctx mapper xp (.elem b) s = (.error er, s) from by unfold listLen; exact bind_err h))⟩
    · rw [bind_ok (show (listLen eng ctx mapper xp (.elem b) >>= fun n => (pure ((n : Int) - 1) : M Int)) s = (.ok ((d.length : Int) - 1), s) from
        bind_ok (show listLen eng ctx mapper xp (.elem b) s = (.ok d.length, s) from by unfold listLen; exact bind_ok h))]
      rcases pop_at eng ctx mapper xp b ((d.length : Int) - 1) s with h | ⟨v, s', ms', j, r, h1, h2, h3, h4⟩
      · exact .inl h
      · obtain rfl : ms = ms' := by rw [Selects] at hsel h2; rw [hsel] at h2; injection h2 with h9; injection h9
        refine .inr ⟨v, s', ms, j, r, h1, h2, fun i' hi => (by cases hi), fun _ => ?_, h4⟩
        rw [(mapMatches_shows mapper hd).1] at h3
        unfold pos at h3
        split_ifs at h3 <;> (injection h3; omega)

/-- C123.  `obj.list.remove(x)`: if it raises, nothing has changed; otherwise the first item that reads `x` has been taken out, and nothing else. -/
theorem C123_remove (b : Node.Addr) (x : α) (s : Node) :
    (∃ er, listRemove eng ctx mapper xp (.elem b) x s = (.error er, s)) ∨
    ∃ s' ms j r, listRemove eng ctx mapper xp (.elem b) x s = (.ok (), s') ∧ Selects eng ctx xp b s ms ∧ ms[j]? = some r ∧ Yields mapper s r x ∧
      (∀ k r', k < j → ms[k]? = some r' → ¬ Yields mapper s r' x) ∧ TakenOut s ms j s' := by
  rcases anyData_cases eng ctx mapper xp b s with ⟨er, h⟩ | ⟨ms, d, h, hsel, hd⟩
  · exact .inl ⟨er, by unfold listRemove; exact bind_err (by unfold listIndex; exact bind_err h)⟩
  · obtain ⟨hlen, hshow⟩ := mapMatches_shows mapper hd
    cases hi : d.idxOf? x with
    | none => exact .inl ⟨.valueError, by unfold listRemove; exact bind_err (by unfold listIndex; rw [bind_ok h, hi]; rfl)⟩
    | some j =>
      have hidx : listIndex eng ctx mapper xp (.elem b) x s = (.ok j, s) := by unfold listIndex; rw [bind_ok h, hi]; rfl
      have hrun : listRemove eng ctx mapper xp (.elem b) x s = listDel eng ctx xp (.elem b) (j : Int) s := by unfold listRemove; exact bind_ok hidx
      rw [hrun]
      rcases C123_del eng ctx xp b (j : Int) s with h1 | ⟨s', ms', j', h1, h2, h3, h4⟩
      · exact .inl h1
      · obtain rfl : ms = ms' := by rw [Selects] at hsel h2; rw [hsel] at h2; injection h2 with h9; injection h9
        unfold List.idxOf? at hi
        rw [List.findIdx?_eq_some_iff_getElem] at hi
        obtain ⟨hj, hx, hfirst⟩ := hi
        have hjj : j' = j := by
          unfold pos at h3
          split_ifs at h3 <;> (injection h3; omega)
        subst hjj
        have hdj : d[j']? = some x := by rw [List.getElem?_eq_getElem hj]; simpa using hx
        obtain ⟨r, hr, hs⟩ := hshow j' x hdj
        refine .inr ⟨s', ms, j', r, h1, hsel, hr, hs, fun k r' hk hr' hs' => ?_, h4⟩
        have hkd : k < d.length := by omega
        obtain ⟨r2, hr2, it2, hi2, hm2⟩ := hshow k d[k] (List.getElem?_eq_getElem hkd)
        rw [hr'] at hr2
        injection hr2 with hr2
        subst hr2
        obtain ⟨it3, hi3, hm3⟩ := hs'
        rw [hi2] at hi3
        injection hi3 with hi3
        subst hi3
        rw [hm2] at hm3
        injection hm3 with hm3
        exact hfirst k hk (by simp [hm3])

omit [DecidableEq α] in
theorem matches_of {b : Node.Addr} {s : Node} {ms : List Ref} (h : Selects eng ctx xp b s ms) : listMatches eng ctx xp (.elem b) s = (.ok ms, s) := by
  rcases anyMatches_cases eng ctx xp b s with ⟨er, h1⟩ | ⟨ms', h1, h2⟩
  · unfold listMatches at h1
    rw [bind_ok (show evalXPath eng ctx xp (.elem b) s = (.ok (.nodes ms), s) from by rw [evalXPath_elem]; unfold Selects at h; rw [h])] at h1
    cases h1
  · unfold Selects at h h2
    rw [h] at h2
    cases h2
    exact h1

omit [PyUnicode] [DecidableEq α] in
theorem pos_bound {n : Nat} {i : Int} {j : Nat} (h : pos n i = some j) : i < n := by
  unfold pos at h
  split_ifs at h <;> omega

omit [DecidableEq α] in
/-- C123.  It does not raise when the item is an element with a parent. -/
theorem C123_del_works {b : Node.Addr} {i : Int} {s : Node} {ms : List Ref} {j : Nat} {a : Node.Addr} {k : Nat} (hsel : Selects eng ctx xp b s ms) (hj : pos ms.length i = some j)
    (hr : ms[j]? = some (.elem (a ++ [k]))) : listDel eng ctx xp (.elem b) i s = (.ok (), s.modify a (Node.removeChild k)) := by
  have h1 : pyGet ms i = .ok (.elem (a ++ [k])) := by rw [pyGet_pos, hj]; simp only [hr]
  unfold listDel
  rw [bind_ok (matches_of eng ctx xp hsel), if_neg (show ¬ i ≥ (ms.length : Int) from Int.not_le.mpr (pos_bound hj)), h1, bind_ok (ofExcept_run _ _)]
  unfold removeMatch
  simp only
  rw [if_neg (by simp)]
  simp [edit]

omit [DecidableEq α] in
/-- C123.  An index that the list does not have: IndexError. -/
theorem C123_del_outside {b : Node.Addr} {i : Int} {s : Node} {ms : List Ref} (hsel : Selects eng ctx xp b s ms) (hj : pos ms.length i = none) :
    listDel eng ctx xp (.elem b) i s = (.error .indexError, s) := by
  have h1 : pyGet ms i = .error .indexError := by rw [pyGet_pos, hj]
  unfold listDel
  rw [bind_ok (matches_of eng ctx xp hsel)]
  split_ifs
  · rfl
  · rw [h1]
    exact bind_err (ofExcept_err _ _)

omit [DecidableEq α] in
theorem mapMatches_of {s : Node} : ∀ {ms : List Ref} {d : List α}, ms.length = d.length → (∀ (j : Nat) r v, ms[j]? = some r → d[j]? = some v → Yields mapper s r v) → mapMatches mapper s ms = .ok d
  | [], [], _, _ => rfl
  | r :: ms, v :: d, hl, h => by
    obtain ⟨it, h1, h2⟩ := h 0 r v rfl rfl
    have h3 : mapMatch mapper s r = .ok v := by unfold mapMatch; rw [h1]; exact h2
    rw [mapMatches, h3, mapMatches_of (ms := ms) (d := d) (by simpa using hl) (fun j r' v' h4 h5 => h (j + 1) r' v' h4 h5)]

omit [DecidableEq α] in
/-- C123.  `pop(i)` returns the value when the item is an element with a parent that can be read. -/
theorem C123_pop_works {b : Node.Addr} {i : Int} {s : Node} {ms : List Ref} {j : Nat} {a : Node.Addr} {k : Nat} {v : α} (hsel : Selects eng ctx xp b s ms) (hj : pos ms.length i = some j)
    (hr : ms[j]? = some (.elem (a ++ [k]))) (hv : Yields mapper s (.elem (a ++ [k])) v) : listPop eng ctx mapper xp (.elem b) (some i) s = (.ok v, s.modify a (Node.removeChild k)) := by
  have h1 : pyGet ms i = .ok (.elem (a ++ [k])) := by rw [pyGet_pos, hj]; simp only [hr]
  have h2 : mapMatch mapper s (.elem (a ++ [k])) = .ok v := by obtain ⟨it, h3, h4⟩ := hv; unfold mapMatch; rw [h3]; exact h4
  have hget : listGet eng ctx mapper xp (.elem b) i s = (.ok v, s) := by
    unfold listGet
    rw [bind_ok (matches_of eng ctx xp hsel), h1, bind_ok (ofExcept_run _ _)]
    show ofExcept (mapMatch mapper s _) s = _
    rw [h2]
    rfl
  unfold listPop
  rw [bind_ok (show (pure i : M Int) s = (.ok i, s) from rfl), bind_ok hget, bind_ok (C123_del_works eng ctx xp hsel hj hr)]
  rfl

omit [DecidableEq α] in
/-- C123.  An index that the list does not have: IndexError. -/
theorem C123_pop_outside {b : Node.Addr} {i : Int} {s : Node} {ms : List Ref} (hsel : Selects eng ctx xp b s ms) (hj : pos ms.length i = none) :
    listPop eng ctx mapper xp (.elem b) (some i) s = (.error .indexError, s) := by
  have h1 : pyGet ms i = .error .indexError := by rw [pyGet_pos, hj]
  unfold listPop
  rw [bind_ok (show (pure i : M Int) s = (.ok i, s) from rfl)]
  refine bind_err ?_
  unfold listGet
  rw [bind_ok (matches_of eng ctx xp hsel), h1]
  exact bind_err (ofExcept_err _ _)

omit [DecidableEq α] in
/-- C123.  `pop()` is `pop(len - 1)` when the items can be read; of an empty list it raises IndexError. -/
theorem C123_pop_last {b : Node.Addr} {s : Node} {ms : List Ref} {d : List α} (hsel : Selects eng ctx xp b s ms) (hl : ms.length = d.length)
    (hd : ∀ (j : Nat) r v, ms[j]? = some r → d[j]? = some v → Yields mapper s r v) :
    listPop eng ctx mapper xp (.elem b) none s = listPop eng ctx mapper xp (.elem b) (some ((ms.length : Int) - 1)) s ∧
    (ms = [] → listPop eng ctx mapper xp (.elem b) none s = (.error .indexError, s)) := by
  have hlen : listLen eng ctx mapper xp (.elem b) s = (.ok ms.length, s) := by
    unfold listLen listData
    rw [hl]
    refine bind_ok ?_
    rw [bind_ok (matches_of eng ctx xp hsel)]
    show ofExcept (mapMatches mapper s ms) s = _
    rw [mapMatches_of mapper hl hd]
    rfl
  have h1 : listPop eng ctx mapper xp (.elem b) none s = listPop eng ctx mapper xp (.elem b) (some ((ms.length : Int) - 1)) s := by
    unfold listPop
    rw [bind_ok (show (listLen eng ctx mapper xp (.elem b) >>= fun n => (pure ((n : Int) - 1) : M Int)) s = (.ok ((ms.length : Int) - 1), s) from bind_ok hlen)]
    rfl
  refine ⟨h1, fun he => ?_⟩
  rw [h1]
  exact C123_pop_outside eng ctx mapper xp hsel (by rw [he]; rfl)

/-- C123.  `remove(x)` when all the items can be read: the first one that reads `x` is removed if it is an element with a parent; ValueError if there is none. -/
theorem C123_remove_works {b : Node.Addr} {x : α} {s : Node} {ms : List Ref} {d : List α} (hsel : Selects eng ctx xp b s ms) (hl : ms.length = d.length)
    (hd : ∀ (j : Nat) r v, ms[j]? = some r → d[j]? = some v → Yields mapper s r v) :
    (x ∉ d → listRemove eng ctx mapper xp (.elem b) x s = (.error .valueError, s)) ∧
    (∀ (j : Nat) a k, d[j]? = some x → (∀ k' < j, d[k']? ≠ some x) → ms[j]? = some (.elem (a ++ [k])) → listRemove eng ctx mapper xp (.elem b) x s = (.ok (), s.modify a (Node.removeChild k))) := by
  have hdata : listData eng ctx mapper xp (.elem b) s = (.ok d, s) := by
    unfold listData
    rw [bind_ok (matches_of eng ctx xp hsel)]
    show ofExcept (mapMatches mapper s ms) s = _
    rw [mapMatches_of mapper hl hd]
    rfl
  constructor
  · intro hx
    have hi : d.idxOf? x = none := by simpa using hx
    unfold listRemove
    refine bind_err ?_
    unfold listIndex
    rw [bind_ok hdata, hi]
    rfl
  · intro j a k hj hfirst hr
    have hjl : j < d.length := (List.getElem?_eq_some_iff.mp hj).1
    have hi : d.idxOf? x = some j := by
      unfold List.idxOf?
      rw [List.findIdx?_eq_some_iff_getElem]
      refine ⟨hjl, by rw [List.getElem?_eq_getElem hjl] at hj; injection hj with hj; simp [hj], fun k' hk => ?_⟩
      have := hfirst k' hk
      rw [List.getElem?_eq_getElem (by omega)] at this
      simpa using this
    have hidx : listIndex eng ctx mapper xp (.elem b) x s = (.ok j, s) := by unfold listIndex; rw [bind_ok hdata, hi]; rfl
    have hrun : listRemove eng ctx mapper xp (.elem b) x s = listDel eng ctx xp (.elem b) (j : Int) s := by unfold listRemove; exact bind_ok hidx
    rw [hrun]
    refine C123_del_works eng ctx xp hsel ?_ hr
    unfold pos
    rw [if_pos (by omega)]
    simp

end
/-- The text of an element. -/
def readElem : Item → Except PyErr Str
  | .elem n => .ok (n.text.getD [])
  | _ => .error .typeError

/-- An engine that finds the last `a` and then the first one of `listDoc`, whatever the XPath. -/
def backEngine : Engine := ⟨fun _ _ _ _ => .ok (.nodes [.elem [3], .elem [0]])⟩

/-- The hypotheses are met: a list in an order other than that of the document.  `del list[-1]` takes the first element away, `pop(0)` returns "two" and takes the last one away, `remove("one")`
takes the first one away. -/
example : Selects backEngine sampleCtx c%"//a" [] listDoc [.elem [3], .elem [0]] ∧
    listDel backEngine sampleCtx c%"//a" (.elem []) (-1) listDoc = (.ok (), listDoc.modify [] (Node.removeChild 0)) ∧
    listPop backEngine sampleCtx readElem c%"//a" (.elem []) (some 0) listDoc = (.ok c%"two", listDoc.modify [] (Node.removeChild 3)) ∧
    listPop backEngine sampleCtx readElem c%"//a" (.elem []) none listDoc = (.ok c%"one", listDoc.modify [] (Node.removeChild 0)) ∧
    listRemove backEngine sampleCtx readElem c%"//a" (.elem []) c%"one" listDoc = (.ok (), listDoc.modify [] (Node.removeChild 0)) ∧
    listRemove backEngine sampleCtx readElem c%"//a" (.elem []) c%"four" listDoc = (.error .valueError, listDoc) := by
  have hsel : Selects backEngine sampleCtx c%"//a" [] listDoc [.elem [3], .elem [0]] := rfl
  have hd : ∀ (j : Nat) r v, ([.elem [3], .elem [0]] : List Ref)[j]? = some r → ([c%"two", c%"one"] : List Str)[j]? = some v → Yields readElem listDoc r v := by
    intro j r v h1 h2
    match j, h1, h2 with
    | 0, h1, h2 => cases h1; cases h2; exact ⟨_, rfl, rfl⟩
    | 1, h1, h2 => cases h1; cases h2; exact ⟨_, rfl, rfl⟩
  refine ⟨hsel, C123_del_works (j := 1) (a := []) (k := 0) _ _ _ hsel rfl rfl, C123_pop_works (j := 0) (a := []) (k := 3) _ _ _ _ hsel rfl rfl ⟨_, rfl, rfl⟩,
    ((C123_pop_last (d := [c%"two", c%"one"]) _ _ readElem _ hsel rfl hd).1).trans (C123_pop_works (j := 1) (a := []) (k := 0) _ _ _ _ hsel rfl rfl ⟨_, rfl, rfl⟩),
    (C123_remove_works (d := [c%"two", c%"one"]) _ _ readElem _ hsel rfl hd).2 1 [] 0 rfl (by decide) rfl, (C123_remove_works (d := [c%"two", c%"one"]) _ _ readElem _ hsel rfl hd).1 (by decide)⟩

end Props
