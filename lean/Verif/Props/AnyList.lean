import Verif.Props.Taking
import Verif.XmlMap.NodeListLemmas
/-
Property C126: the operations of a list field with any XPath agree with those of the Python list of what its items read.

Model: the operations of `NodeList` (Verif/XmlMap/NodeList.lean).  Specification: `pyList` (Verif/Spec/PyList.lean).
-/
namespace Props
open XPath Xml Spec Fields

section
variable [PyUnicode] (eng : Engine) (ctx : Ctx) {α : Type} [DecidableEq α] (mapper : Item → Except PyErr α) (store : Ref → α → M Unit) (xp : Str) (e : Expr)

/-- The XPath selects items that read these values. -/
structure Lists (b : Node.Addr) (s : Node) (ms : List Ref) (d : List α) : Prop where
  selects : Selects eng ctx xp b s ms
  length : ms.length = d.length
  reads : ∀ (j : Nat) r v, ms[j]? = some r → d[j]? = some v → Yields mapper s r v

/-- Operations that only read. -/
def ListOp.reading {α : Type} : ListOp α → Bool
  | .len | .get _ | .index _ | .count _ | .contains _ | .eq _ => true
  | _ => false

/-- Operations that take something out. -/
def ListOp.taking {α : Type} : ListOp α → Bool
  | .del _ | .pop _ | .remove _ => true
  | _ => false

variable {eng ctx mapper xp} {b : Node.Addr} {s : Node} {ms : List Ref} {d : List α}

omit [DecidableEq α] in
theorem data_of (h : Lists eng ctx mapper xp b s ms d) : listData eng ctx mapper xp (.elem b) s = (.ok d, s) := by
  unfold listData
  rw [bind_ok (matches_of eng ctx xp h.selects)]
  show ofExcept (mapMatches mapper s ms) s = _
  rw [mapMatches_of mapper h.length h.reads]
  rfl

theorem idxOf_of_mem {l : List α} {x : α} (h : x ∈ l) : l.idxOf? x = some (l.idxOf x) := by
  induction l with
  | nil => cases h
  | cons y l ih =>
    by_cases hy : y = x
    · subst hy; simp [List.idxOf?_cons]
    · have hx : x ∈ l := (List.mem_cons.mp h).resolve_left (fun h => hy h.symm)
      rw [List.idxOf?_cons, List.idxOf_cons_ne _ hy]
      simp [hy, ih hx]

theorem get_of (h : Lists eng ctx mapper xp b s ms d) (i : Int) : runOp eng ctx mapper store xp e (.elem b) (.get i) s = ((pyList d (.get i)).1, s) := by
  have hget : listGet eng ctx mapper xp (.elem b) i s = (ofExcept (pyGet ms i) >>= fun r => getDoc >>= fun doc => ofExcept (mapMatch mapper doc r)) s := by unfold listGet; exact bind_ok (matches_of eng ctx xp h.selects)
  simp only [runOp, pyList]
  cases hp : pos ms.length i with
  | none =>
    have hg : pyGet ms i = .error .indexError := by rw [pyGet_pos, hp]
    rw [hg, bind_err (ofExcept_err _ _)] at hget
    rw [bind_err hget, ← h.length, hp]
  | some j =>
    have hj := pos_lt hp
    have hjd : j < d.length := h.length ▸ hj
    obtain ⟨it, h1, h2⟩ := h.reads j ms[j] d[j] (List.getElem?_eq_getElem hj) (List.getElem?_eq_getElem hjd)
    have hg : pyGet ms i = .ok ms[j] := by rw [pyGet_pos, hp]; simp only [List.getElem?_eq_getElem hj]
    rw [hg, bind_ok (ofExcept_run _ _)] at hget
    have hget' := hget.trans (show ofExcept (mapMatch mapper s ms[j]) s = (.ok d[j], s) from by unfold mapMatch; rw [h1]; show ofExcept (mapper it) s = _; rw [h2]; rfl)
    rw [bind_ok hget', ← h.length, hp]
    simp only [List.getElem?_eq_getElem hjd]
    rfl

/-- C126.  `len`, indexing, `index`, `count`, `in` and `==` give what they give for the Python list of the values, with the same exceptions, and change nothing. -/
theorem C126_reading (h : Lists eng ctx mapper xp b s ms d) (op : ListOp α) (hop : ListOp.reading op = true) : runOp eng ctx mapper store xp e (.elem b) op s = ((pyList d op).1, s) := by
  have hd := data_of h
  cases op with
  | len => exact bind_ok (bind_ok hd)
  | get i => exact get_of store e h i
  | index x =>
    simp only [runOp, pyList]
    split
    · rename_i hx
      exact bind_ok (by unfold listIndex; rw [bind_ok hd, idxOf_of_mem hx]; rfl)
    · rename_i hx
      exact bind_err (by unfold listIndex; rw [bind_ok hd, show d.idxOf? x = none by simpa using hx]; rfl)
  | count x => exact bind_ok (bind_ok hd)
  | contains x => exact bind_ok (bind_ok hd)
  | eq l => exact bind_ok (bind_ok hd)
  | _ => cases hop

theorem getElem_pos {i : Int} {j : Nat} (h : Lists eng ctx mapper xp b s ms d) (hp : pos ms.length i = some j) : ∃ (hm : j < ms.length) (hd : j < d.length), Yields mapper s ms[j] d[j] :=
  ⟨pos_lt hp, h.length ▸ pos_lt hp, h.reads j _ _ (List.getElem?_eq_getElem _) (List.getElem?_eq_getElem _)⟩

/-- C126.  `del`, `pop` and `remove`, when the items are elements with parents: the results and exceptions are those of the Python list of the values, and the item that Python takes out of the list has been
taken out of the document. -/
theorem C126_taking (h : Lists eng ctx mapper xp b s ms d) (hms : ∀ r ∈ ms, ∃ a k, r = .elem (a ++ [k])) (op : ListOp α) (hop : ListOp.taking op = true) :
    (runOp eng ctx mapper store xp e (.elem b) op s).1 = (pyList d op).1 ∧
    (((pyList d op).2 = d ∧ (∃ er, (pyList d op).1 = .error er) ∧ (runOp eng ctx mapper store xp e (.elem b) op s).2 = s) ∨
     ∃ j, j < d.length ∧ (pyList d op).2 = d.eraseIdx j ∧ TakenOut s ms j (runOp eng ctx mapper store xp e (.elem b) op s).2) := by
  cases op with
  | del i =>
    cases hp : pos ms.length i with
    | none =>
      have h1 := C123_del_outside eng ctx xp h.selects hp
      have h2 : pyList d (.del i) = (.error .indexError, d) := by simp only [pyList, ← h.length, hp]
      simp only [runOp]
      rw [bind_err h1, h2]
      exact ⟨rfl, .inl ⟨rfl, ⟨_, rfl⟩, rfl⟩⟩
    | some j =>
      obtain ⟨hm, hd, -⟩ := getElem_pos h hp
      obtain ⟨a, k, hr⟩ := hms ms[j] (List.getElem_mem hm)
      have hr' : ms[j]? = some (.elem (a ++ [k])) := by rw [List.getElem?_eq_getElem hm, hr]
      have h1 := C123_del_works eng ctx xp h.selects hp hr'
      have h2 : pyList d (.del i) = (.ok .unit, d.eraseIdx j) := by simp only [pyList, ← h.length, hp]
      simp only [runOp]
      rw [bind_ok h1, h2]
      exact ⟨rfl, .inr ⟨j, hd, rfl, a, k, hr', rfl⟩⟩
  | pop i =>
    have hrun : listPop eng ctx mapper xp (.elem b) i s = listPop eng ctx mapper xp (.elem b) (some (i.getD ((ms.length : Int) - 1))) s := by
      cases i with
      | some i => rfl
      | none => exact (C123_pop_last eng ctx mapper xp h.selects h.length h.reads).1
    simp only [runOp]
    cases hp : pos ms.length (i.getD ((ms.length : Int) - 1)) with
    | none =>
      have h1 := hrun.trans (C123_pop_outside eng ctx mapper xp h.selects hp)
      have h2 : pyList d (.pop i) = (.error .indexError, d) := by simp only [pyList, ← h.length, hp]
      rw [bind_err h1, h2]
      exact ⟨rfl, .inl ⟨rfl, ⟨_, rfl⟩, rfl⟩⟩
    | some j =>
      obtain ⟨hm, hd, hy⟩ := getElem_pos h hp
      obtain ⟨a, k, hr⟩ := hms ms[j] (List.getElem_mem hm)
      have hr' : ms[j]? = some (.elem (a ++ [k])) := by rw [List.getElem?_eq_getElem hm, hr]
      have h1 := hrun.trans (C123_pop_works eng ctx mapper xp h.selects hp hr' (hr ▸ hy))
      have h2 : pyList d (.pop i) = (.ok (.val d[j]), d.eraseIdx j) := by simp only [pyList, ← h.length, hp, List.getElem?_eq_getElem hd]
      rw [bind_ok h1, h2]
      exact ⟨rfl, .inr ⟨j, hd, rfl, a, k, hr', rfl⟩⟩
  | remove x =>
    have hw := C123_remove_works eng ctx mapper xp (x := x) h.selects h.length h.reads
    simp only [runOp]
    by_cases hx : x ∈ d
    · have hi := List.idxOf_lt_length_of_mem hx
      have hm : d.idxOf x < ms.length := h.length ▸ hi
      obtain ⟨a, k, hr⟩ := hms ms[d.idxOf x] (List.getElem_mem hm)
      have hr' : ms[d.idxOf x]? = some (.elem (a ++ [k])) := by rw [List.getElem?_eq_getElem hm, hr]
      have h1 := hw.2 (d.idxOf x) a k (by rw [List.getElem?_eq_getElem hi]; simp) (fun k' hk hc => by
        have hl : k' < d.length := by omega
        rw [List.getElem?_eq_getElem hl] at hc
        injection hc with hc
        have hn := List.not_of_lt_findIdx (p := (· == x)) (xs := d) (i := k') hk
        rw [hc] at hn
        simp at hn) hr'
      have h2 : pyList d (.remove x) = (.ok .unit, d.erase x) := by simp only [pyList, if_pos hx]
      rw [bind_ok h1, h2]
      exact ⟨rfl, .inr ⟨d.idxOf x, hi, by rw [List.erase_eq_eraseIdx_of_idxOf rfl], a, k, hr', rfl⟩⟩
    · have h2 : pyList d (.remove x) = (.error .valueError, d) := by simp only [pyList, if_neg hx]
      rw [bind_err (hw.1 hx), h2]
      exact ⟨rfl, .inl ⟨rfl, ⟨_, rfl⟩, rfl⟩⟩
  | _ => cases hop

omit [PyUnicode] in
theorem pos_negative {n : Nat} {i : Int} (h1 : i < 0) (h2 : -(n : Int) ≤ i) : pos n i = pos n (i + n) := by
  unfold pos
  rw [if_neg (by omega), if_pos ⟨h1, h2⟩, if_pos (by omega)]
  congr 2
  omega

omit [PyUnicode] in
theorem pyGet_negative {β : Type} {l : List β} {i : Int} (h1 : i < 0) (h2 : -(l.length : Int) ≤ i) : pyGet l i = pyGet l (i + l.length) := by
  rw [pyGet_pos, pyGet_pos, pos_negative h1 h2]

variable (mapper) in
/-- C126.  Negative indexes count from the back: for getting, setting, deleting and popping, `list[-k]` is `list[n - k]`, for a list of n items, whatever they read (and with the same exceptions). -/
theorem C126_negative {i : Int} (hsel : Selects eng ctx xp b s ms) (h1 : i < 0) (h2 : -(ms.length : Int) ≤ i) (v : α) :
    runOp eng ctx mapper store xp e (.elem b) (.get i) s = runOp eng ctx mapper store xp e (.elem b) (.get (i + ms.length)) s ∧
    runOp eng ctx mapper store xp e (.elem b) (.set i v) s = runOp eng ctx mapper store xp e (.elem b) (.set (i + ms.length) v) s ∧
    runOp eng ctx mapper store xp e (.elem b) (.del i) s = runOp eng ctx mapper store xp e (.elem b) (.del (i + ms.length)) s ∧
    runOp eng ctx mapper store xp e (.elem b) (.pop (some i)) s = runOp eng ctx mapper store xp e (.elem b) (.pop (some (i + ms.length))) s := by
  have hm := matches_of eng ctx xp hsel
  have hg : listGet eng ctx mapper xp (.elem b) i s = listGet eng ctx mapper xp (.elem b) (i + ms.length) s := by
    unfold listGet
    rw [bind_ok hm, bind_ok hm, pyGet_negative h1 h2]
  have hd : listDel eng ctx xp (.elem b) i s = listDel eng ctx xp (.elem b) (i + ms.length) s := by
    unfold listDel
    rw [bind_ok hm, bind_ok hm, pyGet_negative h1 h2, if_neg (by omega), if_neg (by omega)]
  have hs : listSet eng ctx store xp e (.elem b) i v s = listSet eng ctx store xp e (.elem b) (i + ms.length) v s := by
    unfold listSet
    rw [bind_ok hm, bind_ok hm, pyGet_negative h1 h2, if_neg (by omega), if_neg (by omega), if_neg (by omega), if_neg (by omega)]
  have cong : ∀ {β γ : Type} {c c' : M β} {f : β → M γ}, c s = c' s → (c >>= f) s = (c' >>= f) s := fun {β γ c c' f} h => by
    cases hx : c s with
    | mk r s1 =>
      cases r with
      | ok y => rw [bind_ok hx, bind_ok (h ▸ hx)]
      | error er => rw [bind_err hx, bind_err (h ▸ hx)]
  refine ⟨cong hg, cong hs, cong hd, ?_⟩
  simp only [runOp]
  refine cong ?_
  unfold listPop
  show (listGet eng ctx mapper xp (.elem b) i >>= fun val => listDel eng ctx xp (.elem b) i >>= fun _ => pure val) s = (listGet eng ctx mapper xp (.elem b) (i + ms.length) >>= fun val => listDel eng ctx xp (.elem b) (i + ms.length) >>= fun _ => pure val) s
  have hst : (listGet eng ctx mapper xp (.elem b) i s).2 = s := by
    unfold listGet
    rw [bind_ok hm]
    cases hx : pyGet ms i with
    | error er => rw [bind_err (ofExcept_err _ _)]
    | ok r =>
      rw [bind_ok (ofExcept_run _ _)]
      show (ofExcept (mapMatch mapper s r) s).2 = s
      cases mapMatch mapper s r <;> rfl
  cases hx : listGet eng ctx mapper xp (.elem b) i s with
  | mk r s1 =>
    rw [hx] at hst
    simp only at hst
    subst hst
    cases r with
    | error er => rw [bind_err hx, bind_err (hg ▸ hx)]
    | ok y => exact (bind_ok hx).trans ((cong hd).trans (bind_ok (f := fun val => listDel eng ctx xp (.elem b) (i + ms.length) >>= fun _ => pure val) (hg.symm.trans hx)).symm)

/-- C126.  An index that the list does not have: setting and inserting raise IndexError and change nothing. -/
theorem C126_outside {i : Int} (h : Lists eng ctx mapper xp b s ms d) (v : α) :
    ((i : Int) > ms.length ∨ i < -(ms.length : Int) → runOp eng ctx mapper store xp e (.elem b) (.set i v) s = (.error .indexError, s)) ∧
    ((i : Int) > ms.length → runOp eng ctx mapper store xp e (.elem b) (.insert i v) s = (.error .indexError, s)) := by
  have hm := matches_of eng ctx xp h.selects
  constructor
  · intro hi
    refine bind_err ?_
    unfold listSet
    rw [bind_ok hm, if_neg (by omega)]
    refine bind_err ?_
    rcases hi with hi | hi
    · rw [if_pos hi]; rfl
    · rw [if_neg (by omega), pyGet_pos, show pos ms.length i = none from by unfold pos; rw [if_neg (by omega), if_neg (by omega)]]
      rfl
  · intro hi
    refine bind_err ?_
    unfold listInsert
    rw [bind_ok (show listLen eng ctx mapper xp (.elem b) s = (.ok d.length, s) from by unfold listLen; exact bind_ok (data_of h)), if_neg (by rw [← h.length]; omega), bind_ok hm, if_neg (by omega)]
    rfl

/-- C126.  `append(x)` is `list[len(list)] = x`, and so is `insert(len(list), x)`. -/
theorem C126_append (h : Lists eng ctx mapper xp b s ms d) (v : α) :
    runOp eng ctx mapper store xp e (.elem b) (.append v) s = runOp eng ctx mapper store xp e (.elem b) (.set ms.length v) s ∧
    runOp eng ctx mapper store xp e (.elem b) (.insert ms.length v) s = runOp eng ctx mapper store xp e (.elem b) (.set ms.length v) s := by
  have hl : listLen eng ctx mapper xp (.elem b) s = (.ok ms.length, s) := by unfold listLen; rw [h.length]; exact bind_ok (data_of h)
  have ha : listAppend eng ctx mapper store xp e (.elem b) v s = listSet eng ctx store xp e (.elem b) ms.length v s := by unfold listAppend; exact bind_ok hl
  have cong : ∀ {β γ : Type} {c c' : M β} {f : β → M γ}, c s = c' s → (c >>= f) s = (c' >>= f) s := fun {β γ c c' f} h => by
    cases hx : c s with
    | mk r s1 =>
      cases r with
      | ok y => rw [bind_ok hx, bind_ok (h ▸ hx)]
      | error er => rw [bind_err hx, bind_err (h ▸ hx)]
  refine ⟨cong ha, cong ?_⟩
  unfold listInsert
  rw [bind_ok hl, if_pos rfl]
  exact ha

/-- C126.  `extend(l + l')` is `extend(l)` and then, if that has not raised, `extend(l')`, in any state: what comes before an exception has been added, what comes behind has not been looked at. -/
theorem C126_extend (mapper : Item → Except PyErr α) (node : Ref) (l l' : List α) (s : Node) :
    listExtend eng ctx mapper store xp e node (l ++ l') s = (listExtend eng ctx mapper store xp e node l >>= fun _ => listExtend eng ctx mapper store xp e node l') s := by
  induction l generalizing s with
  | nil => rfl
  | cons x l ih =>
    rw [List.cons_append]
    simp only [listExtend]
    cases hx : listAppend eng ctx mapper store xp e node x s with
    | mk r s1 =>
      cases r with
      | error er => rw [bind_err hx, bind_err (bind_err hx)]
      | ok y =>
        rw [bind_ok hx, ih]
        cases hy : listExtend eng ctx mapper store xp e node l s1 with
        | mk r2 s2 =>
          cases r2 with
          | error er => rw [bind_err hy, bind_err ((bind_ok hx).trans hy)]
          | ok z => rw [bind_ok hy, bind_ok ((bind_ok hx).trans hy)]

end

/-- Non-vacuity: the list `["two", "one"]`, that the engine gives the wrong way round. -/
example [PyUnicode] (store : Ref → Str → M Unit) (e : Expr) : Lists backEngine sampleCtx readElem c%"//a" [] listDoc [.elem [3], .elem [0]] [c%"two", c%"one"] ∧
    runOp backEngine sampleCtx readElem store c%"//a" e (.elem []) (.get (-1)) listDoc = (.ok (.val c%"one"), listDoc) ∧
    runOp backEngine sampleCtx readElem store c%"//a" e (.elem []) (.index c%"one") listDoc = (.ok (.nat 1), listDoc) ∧
    runOp backEngine sampleCtx readElem store c%"//a" e (.elem []) (.index c%"four") listDoc = (.error .valueError, listDoc) ∧
    runOp backEngine sampleCtx readElem store c%"//a" e (.elem []) (.insert 3 c%"x") listDoc = (.error .indexError, listDoc) ∧
    ∃ j, j < 2 ∧ [c%"two"] = [c%"two", c%"one"].eraseIdx j ∧ TakenOut listDoc [.elem [3], .elem [0]] j (runOp backEngine sampleCtx readElem store c%"//a" e (.elem []) (.remove c%"one") listDoc).2 := by
  have h : Lists backEngine sampleCtx readElem c%"//a" [] listDoc [.elem [3], .elem [0]] [c%"two", c%"one"] := ⟨rfl, rfl, fun j r v h1 h2 => by
    match j, h1, h2 with
    | 0, h1, h2 => cases h1; cases h2; exact ⟨_, rfl, rfl⟩
    | 1, h1, h2 => cases h1; cases h2; exact ⟨_, rfl, rfl⟩⟩
  refine ⟨h, C126_reading store e h (.get (-1)) rfl, C126_reading store e h (.index _) rfl, C126_reading store e h (.index _) rfl, (C126_outside store e h c%"x").2 (by decide), ?_⟩
  rcases (C126_taking store e h (fun r hr => by simp only [List.mem_cons, List.not_mem_nil, or_false] at hr; rcases hr with rfl | rfl; exacts [⟨[], 3, rfl⟩, ⟨[], 0, rfl⟩]) (.remove c%"one") rfl).2 with ⟨hx, -⟩ | ⟨j, h1, h2, h3⟩
  · exact absurd hx (by decide)
  · exact ⟨j, h1, h2, h3⟩

end Props
