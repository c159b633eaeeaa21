import Verif.XmlMap.SelfAssign
import Verif.XmlMap.ManyListRun
import Verif.XmlMap.LocalLists
import Verif.Props.ListEnds
/-
Property C132: assigning a list of objects to where they are, with any XPath.

Model: `listSet`, `listAssign`, `storeNode` (Verif/XmlMap/NodeList.lean), `listAssignAgain` (Verif/XmlMap/SelfAssign.lean).
-/
namespace Props
open XPath Xml Spec Fields

section
variable [PyUnicode] {α : Type} {eng : Engine} {ctx : Ctx} {mapper : Item → Except PyErr α} {store : Ref → α → M Unit} {xp : Str} {e : Expr} {a : Node.Addr} {s : Node} {rs : List Ref}

theorem listSet_kept {key : Int} {r : Ref} {v : α} (hsel : Selects eng ctx xp a s rs) (hkey : pyGet rs key = .ok r) (hk : store r v s = (.ok (), s)) :
    listSet eng ctx store xp e (.elem a) key v s = (.ok (), s) := by
  have hlt : ¬ key ≥ rs.length := fun h => by
    rw [pyGet_pos, show pos rs.length key = none from by unfold pos; rw [if_neg (by omega), if_neg (by omega)]] at hkey
    cases hkey
  unfold listSet
  rw [bind_ok (matches_of eng ctx xp hsel), if_neg (by omega), if_neg (by omega), hkey]
  exact (bind_ok (show (ofExcept (.ok r) : M Ref) s = (.ok r, s) from rfl)).trans hk

omit [PyUnicode] in
theorem pyGet_nat {rs : List Ref} {i : Nat} {r : Ref} (h : rs[i]? = some r) : pyGet rs (i : Int) = .ok r := by
  have hlen := (List.getElem?_eq_some_iff.mp h).1
  rw [pyGet_pos, show pos rs.length (i : Int) = some i from by unfold pos; rw [if_pos (by omega)]; simp]
  simp only [h]

theorem setFrom_kept (hsel : Selects eng ctx xp a s rs) : ∀ (l : List α) (i : Nat), (∀ (k : Nat) v, l[k]? = some v → ∃ r, rs[i + k]? = some r ∧ store r v s = (.ok (), s)) →
    listSetFrom eng ctx store xp e (.elem a) i l s = (.ok (), s)
  | [], _, _ => rfl
  | v :: l, i, h => by
    obtain ⟨r, hr, hv⟩ := h 0 v rfl
    rw [Nat.add_zero] at hr
    unfold listSetFrom
    rw [bind_ok (listSet_kept hsel (pyGet_nat hr) hv)]
    exact setFrom_kept hsel l (i + 1) (fun k w hw => by
      obtain ⟨r', h2, h3⟩ := h (k + 1) w (by simpa using hw)
      exact ⟨r', by rw [← h2]; congr 1; omega, h3⟩)

theorem selfSetFrom_kept {item : Ref → M α} (hsel : Selects eng ctx xp a s rs) (hi : ∀ (j : Nat) r, rs[j]? = some r → ∃ v, item r s = (.ok v, s) ∧ listSet eng ctx store xp e (.elem a) (j : Int) v s = (.ok (), s)) : ∀ (k i : Nat), i + k ≤ rs.length →
    selfSetFrom eng ctx store xp e (.elem a) item i k s = (.ok (), s)
  | 0, _, _ => rfl
  | k + 1, i, h => by
    have hr : rs[i]? = some rs[i] := List.getElem?_eq_getElem (by omega)
    obtain ⟨v, h1, h2⟩ := hi i rs[i] hr
    have hv : liveItem eng ctx xp (.elem a) item i s = (.ok v, s) := by
      unfold liveItem
      rw [bind_ok (matches_of eng ctx xp hsel), pyGet_nat hr]
      exact (bind_ok (show (ofExcept (.ok rs[i]) : M Ref) s = (.ok rs[i], s) from rfl)).trans h1
    unfold selfSetFrom
    rw [bind_ok hv, bind_ok h2]
    exact selfSetFrom_kept hsel hi k (i + 1) (by omega)

theorem len_kept (hsel : Selects eng ctx xp a s rs) (hread : ∀ r ∈ rs, ∃ v, Yields mapper s r v) : listLen eng ctx mapper xp (.elem a) s = (.ok rs.length, s) := by
  have : ∀ rs : List Ref, (∀ r ∈ rs, ∃ v, Yields mapper s r v) → ∃ d : List α, mapMatches mapper s rs = .ok d ∧ d.length = rs.length := by
    intro rs
    induction rs with
    | nil => intro _; exact ⟨[], rfl, rfl⟩
    | cons r rs ih =>
      intro h
      obtain ⟨v, it, h1, h2⟩ := h r List.mem_cons_self
      obtain ⟨d, h3, h4⟩ := ih (fun r hr => h r (List.mem_cons_of_mem _ hr))
      refine ⟨v :: d, ?_, by simp [h4]⟩
      have h5 : mapMatch mapper s r = .ok v := by unfold mapMatch; rw [h1]; exact h2
      simp only [mapMatches, h5, h3]
  obtain ⟨d, h1, h2⟩ := this rs hread
  unfold listLen listData
  rw [← h2]
  refine bind_ok ?_
  rw [bind_ok (matches_of eng ctx xp hsel)]
  show ofExcept (mapMatches mapper s rs) s = _
  rw [h1]
  rfl

theorem assignSelf_kept {item : Ref → M α} (hsel : Selects eng ctx xp a s rs) (hread : ∀ r ∈ rs, ∃ v, Yields mapper s r v)
    (hi : ∀ (j : Nat) r, rs[j]? = some r → ∃ v, item r s = (.ok v, s) ∧ listSet eng ctx store xp e (.elem a) (j : Int) v s = (.ok (), s)) : listAssignAgain eng ctx mapper store xp e (.elem a) item s = (.ok (), s) := by
  unfold listAssignAgain
  have hl := len_kept hsel hread
  rw [bind_ok hl, bind_ok (selfSetFrom_kept hsel hi rs.length 0 (by omega)), bind_ok hl, bind_ok hl, if_neg (Nat.lt_irrefl _)]
  rfl

omit [PyUnicode] in
/-- `match.getparent().replace(match, match)`. -/
theorem storeNode_same {b : Node.Addr} (hb : b ≠ []) {n : Node} (hn : s.get b = some n) : storeNode (.elem b) (.own b) s = (.ok (), s) := by
  unfold storeNode
  simp only
  rw [if_neg hb, bind_ok (show nodeAt b s = (.ok n, s) from by unfold nodeAt; rw [hn]), if_neg]
  · rfl
  · intro h
    have := h.length_le
    rw [List.length_dropLast] at this
    have := List.length_pos_iff.mpr hb
    omega
end

/-- The XPath selects these elements, none of which is the root of the document, and the mapper makes objects of them. -/
structure Elements (eng : Engine) (ctx : Ctx) (mapper : Item → Except PyErr ElemVal) (xp : Str) (a : Node.Addr) (s : Node) (bs : List Node.Addr) : Prop where
  selects : Selects eng ctx xp a s (bs.map Ref.elem)
  inside : ∀ b ∈ bs, b ≠ [] ∧ ∃ n v, s.get b = some n ∧ mapper (.elem n) = .ok v

section
variable [PyUnicode] {eng : Engine} {ctx : Ctx} {mapper : Item → Except PyErr ElemVal} {xp : Str} {a : Node.Addr} {s : Node} {bs : List Node.Addr} (e : Expr)

omit [PyUnicode] in
theorem Elements.reads (h : Elements eng ctx mapper xp a s bs) : ∀ r ∈ bs.map Ref.elem, ∃ v, Yields mapper s r v := fun r hr => by
  obtain ⟨b, hb, rfl⟩ := List.mem_map.mp hr
  obtain ⟨-, n, v, h1, h2⟩ := h.inside b hb
  exact ⟨v, .elem n, by show (s.get b).map Item.elem = _; rw [h1]; rfl, h2⟩

omit [PyUnicode] in
theorem Elements.keeps (h : Elements eng ctx mapper xp a s bs) {b : Node.Addr} (hb : b ∈ bs) : storeNode (.elem b) (.own b) s = (.ok (), s) := by
  obtain ⟨h1, n, -, h2, -⟩ := h.inside b hb
  exact storeNode_same h1 h2

/-- C132.  `obj.list[i] = obj.list[i]` for a list of objects, with any XPath: the document is the same. -/
theorem C132_item (h : Elements eng ctx mapper xp a s bs) {key : Int} {b : Node.Addr} (hkey : pyGet bs key = .ok b) : listSet eng ctx storeNode xp e (.elem a) key (.own b) s = (.ok (), s) := by
  have hp : pyGet (bs.map Ref.elem) key = .ok (.elem b) := by rw [pyGet_map, hkey]; rfl
  exact listSet_kept h.selects hp (h.keeps (pyGet_mem hkey))

/-- C132.  `obj.list = obj.list` for a list of objects, with any XPath: the document is the same. -/
theorem C132_self (h : Elements eng ctx mapper xp a s bs) : listAssignAgain eng ctx mapper storeNode xp e (.elem a) ownItem s = (.ok (), s) :=
  assignSelf_kept h.selects h.reads (fun j r hr => by
    obtain ⟨b, hb, rfl⟩ := List.mem_map.mp (List.mem_of_getElem? hr)
    exact ⟨.own b, rfl, listSet_kept h.selects (pyGet_nat hr) (h.keeps hb)⟩)

theorem own_prefix (h : Elements eng ctx mapper xp a s bs) (j : Nat) : listSetFrom eng ctx storeNode xp e (.elem a) 0 ((bs.take j).map ElemVal.own) s = (.ok (), s) :=
  setFrom_kept h.selects _ 0 (fun k v hv => by
    rw [List.getElem?_map] at hv
    obtain ⟨b, hb, rfl⟩ := Option.map_eq_some_iff.mp hv
    have hb' : bs[k]? = some b := by
      rw [List.getElem?_take] at hb
      split_ifs at hb
      exact hb
    exact ⟨.elem b, by rw [Nat.zero_add, List.getElem?_map, hb']; rfl, h.keeps (List.mem_of_getElem? hb')⟩)

/-- C132.  `obj.list = list(obj.list)[:j]`, with any XPath, is Python's loop `while len(obj.list) > j: obj.list.pop()`. -/
theorem C132_prefix (h : Elements eng ctx mapper xp a s bs) (j : Nat) (hj : j ≤ bs.length) :
    ∃ k, Trims eng ctx mapper xp (.elem a) j s (listAssign eng ctx mapper storeNode xp e (.elem a) ((bs.take j).map ElemVal.own) s).1 (listAssign eng ctx mapper storeNode xp e (.elem a) ((bs.take j).map ElemVal.own) s).2 k := by
  have : listAssign eng ctx mapper storeNode xp e (.elem a) ((bs.take j).map ElemVal.own) s = listTrimAll eng ctx mapper xp (.elem a) j bs.length s := by
    unfold listAssign
    rw [bind_ok (own_prefix e h j), bind_ok (len_kept h.selects h.reads), List.length_map, List.length_take, Nat.min_eq_left hj, List.length_map]
  rw [this]
  obtain ⟨k, -, hk⟩ := C130_ends eng ctx mapper xp (.elem a) j bs.length s
  exact ⟨k, hk⟩

/-- C132.  `obj.list = list(obj.list)`, with any XPath: the document is the same. -/
theorem C132_copy (h : Elements eng ctx mapper xp a s bs) : listAssign eng ctx mapper storeNode xp e (.elem a) (bs.map ElemVal.own) s = (.ok (), s) := by
  have h1 := own_prefix e h bs.length
  rw [List.take_length] at h1
  have hl := len_kept h.selects h.reads
  unfold listAssign
  rw [bind_ok h1, bind_ok hl]
  exact listTrimAll_stop hl (by simp)

/-- C132.  `obj.list = list(obj.list) + more`, with any XPath: the objects of the list are left alone, then those of `more` are assigned at the indices behind them. -/
theorem C132_more (h : Elements eng ctx mapper xp a s bs) (more : List ElemVal) :
    listSetFrom eng ctx storeNode xp e (.elem a) 0 (bs.map ElemVal.own ++ more) s = listSetFrom eng ctx storeNode xp e (.elem a) bs.length more s := by
  have h1 := own_prefix e h bs.length
  rw [List.take_length] at h1
  have := listSetFrom_append (.elem a) e (bs.map ElemVal.own) more 0 h1
  rwa [List.length_map, Nat.zero_add] at this

end

section
variable [PyUnicode] {α : Type} {eng : Engine} {ctx : Ctx} {mapper : Item → Except PyErr α} {toXml : α → Except PyErr (Option Str)} {xp : Str} {e : Expr} {a : Node.Addr} {s : Node} {rs : List Ref}

/-- C132.  The same for values: `obj.list = obj.list`, where each item shows what would be written for its value. -/
theorem C132_self_values (hsel : Selects eng ctx xp a s rs) (hv : ∀ r ∈ rs, ∃ v, Yields mapper s r v ∧ Stores ctx e toXml s r v) :
    listAssignAgain eng ctx mapper (storeText ctx toXml e) xp e (.elem a) (readItem mapper) s = (.ok (), s) :=
  assignSelf_kept hsel (fun r hr => by obtain ⟨v, h, -⟩ := hv r hr; exact ⟨v, h⟩) (fun j r hr => by
    obtain ⟨v, ⟨it, h1, h2⟩, h⟩ := hv r (List.mem_of_getElem? hr)
    refine ⟨v, ?_, C125_item_works hsel (pyGet_nat hr) h⟩
    unfold readItem
    rw [bind_ok (show getDoc s = (.ok s, s) from rfl)]
    unfold mapMatch
    rw [h1]
    show ofExcept (mapper it) s = _
    rw [h2]; rfl)

end

/-- Objects for elements. -/
def anyObject : Item → Except PyErr ElemVal
  | .elem n => .ok (.foreign n)
  | _ => .error .typeError

/-- The case is there: the list of two elements `a` in an order other than that of the document. -/
theorem elements_back : Elements backEngine sampleCtx anyObject c%"//a" [] listDoc [[3], [0]] := ⟨rfl, fun b hb => by
  simp only [List.mem_cons, List.not_mem_nil, or_false] at hb
  rcases hb with rfl | rfl
  · exact ⟨by decide, _, _, rfl, rfl⟩
  · exact ⟨by decide, _, _, rfl, rfl⟩⟩

example : listAssign backEngine sampleCtx anyObject storeNode c%"//a" (ast c%"//a") (.elem []) [.own [3], .own [0]] listDoc = (.ok (), listDoc) := C132_copy _ elements_back
example : listSet backEngine sampleCtx storeNode c%"//a" (ast c%"//a") (.elem []) (-1) (.own [0]) listDoc = (.ok (), listDoc) := C132_item _ elements_back (key := -1) rfl
/-- Another order does change the document. -/
example : (listAssign backEngine sampleCtx anyObject storeNode c%"//a" (ast c%"//a") (.elem []) [.own [0], .own [3]] listDoc).2 ≠ listDoc := by decide

end Props
