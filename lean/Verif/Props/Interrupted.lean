import Verif.XmlMap.TrimEnds
import Verif.Props.ListField
import Verif.Props.BadValue
import Verif.Props.AnyList
/-
Property C129: a value that cannot be stored stops an assignment to a list, or `extend`, where it stands.

Model: `listSet`, `listSetFrom`, `listAssign`, `listExtend` (Verif/XmlMap/NodeList.lean).  Specification: Verif/Spec/ListField.lean.
-/
namespace Props
open XPath Xml Spec Fields

/-- Whatever node it is given to, this value cannot be stored: there is an exception, and the document stays as it is. -/
def Refused {α : Type} (store : Ref → α → M Unit) (v : α) : Prop := ∀ r s, ∃ er, store r v s = (.error er, s)

/-- C129.  Values stored as text are refused if the mapper raises, or makes a text with a character that XML does not allow. -/
theorem C129_refused_text {α : Type} {ctx : Ctx} {e : Expr} {toXml : α → Except PyErr (Option Str)} {v : α}
    (h : (∃ er, toXml v = .error er) ∨ ∃ t, toXml v = .ok (some t) ∧ ∃ c ∈ t, forbiddenChar c) : Refused (storeText ctx toXml e) v := by
  intro r s
  unfold storeText
  rcases h with ⟨er, h⟩ | ⟨t, h, hc⟩
  · rw [h]; exact ⟨er, bind_err (ofExcept_err _ _)⟩
  · rw [h, bind_ok (ofExcept_run _ _)]
    exact setInXml_bad (xmlOk_false hc) r _ s

section
variable [PyUnicode] {eng : Engine} {ctx : Ctx} {α : Type} [DecidableEq α] {mapper : Item → Except PyErr α} {store : Ref → α → M Unit} {xp : Str} {e : Expr}

/-- Storing nothing. -/
def noStore : Ref → Unit → M Unit := fun _ _ => pure ()

omit [DecidableEq α] in
theorem listSet_refused {v : α} (hv : Refused store v) (node : Ref) (key : Int) (s : Node) :
    ∃ er, listSet eng ctx store xp e node key v s = (.error er, (listSet eng ctx noStore xp e node key () s).2) := by
  unfold listSet
  cases hm : listMatches eng ctx xp node s with
  | mk r s1 =>
    cases r with
    | error er => exact ⟨er, by rw [bind_err hm, bind_err hm]⟩
    | ok ms =>
      rw [bind_ok hm, bind_ok hm]
      generalize (if key = ms.length then _ else if key > ms.length then raise .indexError else ofExcept (pyGet ms key) : M Ref) = c
      cases hc : c s1 with
      | mk r s2 =>
        cases r with
        | error er => exact ⟨er, by rw [bind_err hc, bind_err hc]⟩
        | ok m =>
          obtain ⟨er, h⟩ := hv m s2
          exact ⟨er, by rw [bind_ok hc, bind_ok hc, h]; rfl⟩

omit [DecidableEq α] in
/-- C129, for any XPath.  `obj.list[i] = v` with a value that is refused raises; if the list has an item with this index, the document stays as it was. -/
theorem C129_item {v : α} (hv : Refused store v) {b : Node.Addr} {s : Node} {ms : List Ref} (hsel : eng.xpath xp s b ctx = .ok (.nodes ms)) {i : Int} {r : Ref} (hi : pyGet ms i = .ok r) :
    ∃ er, listSet eng ctx store xp e (.elem b) i v s = (.error er, s) := by
  have hm : listMatches eng ctx xp (.elem b) s = (.ok ms, s) := by
    unfold listMatches
    rw [bind_ok (show evalXPath eng ctx xp (.elem b) s = (.ok (.nodes ms), s) from by show (eng.xpath xp s b ctx, s) = _; rw [hsel])]
    rfl
  have hlt : i < ms.length := by
    rw [pyGet_pos] at hi
    cases hp : pos ms.length i with
    | none => rw [hp] at hi; cases hi
    | some j => unfold pos at hp; split_ifs at hp <;> omega
  obtain ⟨er, h⟩ := hv r s
  refine ⟨er, ?_⟩
  unfold listSet
  rw [bind_ok hm, if_neg (by omega), if_neg (by omega), hi, bind_ok (ofExcept_run _ _)]
  exact h

omit [DecidableEq α] in
theorem setFrom_append (node : Ref) (l l' : List α) (i : Nat) (s : Node) :
    listSetFrom eng ctx store xp e node i (l ++ l') s = (listSetFrom eng ctx store xp e node i l >>= fun _ => listSetFrom eng ctx store xp e node (i + l.length) l') s := by
  induction l generalizing i s with
  | nil => rfl
  | cons x l ih =>
    rw [List.cons_append]
    simp only [listSetFrom]
    cases hx : listSet eng ctx store xp e node i x s with
    | mk r s1 =>
      cases r with
      | error er => rw [bind_err hx, bind_err (bind_err hx)]
      | ok y =>
        rw [bind_ok hx, ih, List.length_cons, show i + (l.length + 1) = i + 1 + l.length from by omega]
        cases hy : listSetFrom eng ctx store xp e node (i + 1) l s1 with
        | mk r2 s2 =>
          cases r2 with
          | error er => rw [bind_err hy, bind_err ((bind_ok hx).trans hy)]
          | ok z => rw [bind_ok hy, bind_ok ((bind_ok hx).trans hy)]

/-- C129, for any XPath.  `obj.list = good + [bad] + rest`: if the assignments of the values in front have worked, the assignment of the one that is refused raises, and that is all: the values behind are not looked at, and
no surplus items are removed. -/
theorem C129_stops {bad : α} (hbad : Refused store bad) (node : Ref) (good rest : List α) {s s1 : Node} (hgood : listSetFrom eng ctx store xp e node 0 good s = (.ok (), s1)) :
    ∃ er, listAssign eng ctx mapper store xp e node (good ++ bad :: rest) s = (.error er, (listSet eng ctx noStore xp e node good.length () s1).2) := by
  obtain ⟨er, h⟩ := listSet_refused (eng := eng) (ctx := ctx) (xp := xp) (e := e) hbad node good.length s1
  refine ⟨er, ?_⟩
  unfold listAssign
  refine bind_err ?_
  rw [setFrom_append, bind_ok hgood]
  simp only [listSetFrom, Nat.zero_add]
  exact bind_err h

end

section
variable [PyUnicode] {eng : Engine} {number : Str → XNum} {ctx : Ctx} {xp : Str} {e : Expr} {q : QName} {ps : List Pred} {α : Type} [DecidableEq α]
  {k : ListKind α} {V : ListView α} {a : Node.Addr} {s n : Node}

theorem noStore_ok (q : QName) (ps : List Pred) : StoreOk q ps (fun _ => .ok ()) noStore (fun _ => True) (fun _ => ()) (fun _ m => m) (fun _ => True) where
  map := fun _ _ _ => rfl
  puts := fun m _ _ => ⟨fun v _ s b _ h => by show (Except.ok (), s) = (Except.ok (), s.modify b (fun m => m)); rw [Node.modify_id h rfl], fun h _ _ => h, fun _ _ => trivial, fun _ _ => rfl⟩
  new := ⟨fun v _ s b _ h => by show (Except.ok (), s) = (Except.ok (), s.modify b (fun m => m)); rw [Node.modify_id h rfl], fun h _ _ => h, fun _ _ => trivial, fun _ _ => rfl⟩

omit [DecidableEq α] in
/-- Adding an item behind the last one, without a value. -/
theorem noStore_end (heng : EngineOk eng) (hf : SimpleField ctx xp e [.child q ps]) (hs : s.get a = some n) :
    ∃ n', listSet eng ctx noStore xp e (.elem a) (members q ps n).length () s = (.ok (), s.modify a (fun _ => n')) ∧ InsertedLast q ps (newElem q ps) n n' := by
  obtain ⟨ax, t, es, rfl⟩ := res_single hf.path
  obtain ⟨n', h1, -, -, h4⟩ := listSet_end heng hf.parse hf.path (pathOk_single hf.ok) (noStore_ok q ps) hs (l := (members q ps n).map (fun _ => ())) ⟨fun _ _ => trivial, rfl⟩ (v := ()) trivial
  rw [List.length_map] at h1
  exact ⟨n', h1, h4⟩

/-- C129.  `obj.list = good + [bad] + rest`, where the list is longer than `good`: an exception; the list then shows `good`, and behind it what it showed before at these places; nothing but members has changed. -/
theorem C129_inside (h : ListAt eng number ctx xp e q ps k V a s n) (good rest : List α) {bad : α} (hgood : ∀ v ∈ good, V.storable v) (hbad : Refused k.store bad) (hlen : good.length < (members q ps n).length) :
    ∃ er n', writeList eng ctx k xp e a (good ++ bad :: rest) s = (.error er, s.modify a (fun _ => n')) ∧
      readList eng ctx k xp a (s.modify a (fun _ => n')) = (.ok (good ++ ((members q ps n).map V.item).drop good.length), s.modify a (fun _ => n')) ∧ SameButMembers q ps n n' := by
  obtain ⟨put, hS⟩ := h.kind.store_ok h.num
  obtain ⟨ax, t, es, rfl⟩ := res_single h.field.path
  obtain ⟨n', h1, h2, h3⟩ := listSetFrom_run h.engine h.field.parse h.field.path (pathOk_single h.field.ok) hS good 0 h.node ⟨h.fits, rfl⟩ (Nat.zero_le _) hgood
  obtain ⟨er, h4⟩ := C129_stops (mapper := k.read) hbad (.elem a) good rest h1
  have hs' : (s.modify a (fun _ => n')).get a = some n' := by rw [Node.get_modify, h.node]; rfl
  have hl := congrArg List.length h2.2
  simp only [List.length_map, List.length_append, List.length_take, List.length_drop, Nat.zero_add] at hl
  obtain ⟨A, m, B, g1, g2, g3, g4, -⟩ := member_at h2 (k := good.length) (by simp [List.length_append, List.length_drop]; omega)
  have hsame : listSet eng ctx noStore xp (.step ax t es) (.elem a) good.length () (s.modify a (fun _ => n')) = (.ok (), (s.modify a (fun _ => n')).modify a (fun _ => n'.withChildren (A ++ m :: B))) :=
    listSet_at h.engine h.field.parse h.field.path (pathOk_single h.field.ok) (noStore_ok q ps) hs' g1 g2 ((noStore_ok q ps).puts m g2 trivial)
      (by rw [g4]; unfold pos; rw [if_pos ⟨by omega, by omega⟩]; rfl) (v := ()) trivial
  refine ⟨er, n', ?_, ?_, h3⟩
  · show listAssign _ _ _ _ _ _ _ _ _ = _
    rw [h4, hsame]
    refine congrArg _ (Node.modify_id hs' ?_)
    rw [← g1, Node.withChildren_self]
  · have := listData_run h.engine h.field.parse h.field.path hS hs' h2
    show listData _ _ _ _ _ _ = _
    simpa using this

/-- C129.  The same where `good` is not shorter than the list: the values in front are there, as if they alone had been assigned, and behind the last one an empty new item. -/
theorem C129_behind (h : ListAt eng number ctx xp e q ps k V a s n) (good rest : List α) {bad : α} (hgood : ∀ v ∈ good, V.storable v) (hbad : Refused k.store bad) (hlen : (members q ps n).length ≤ good.length) :
    ∃ er n' n'', writeList eng ctx k xp e a good s = (.ok (), s.modify a (fun _ => n')) ∧ readList eng ctx k xp a (s.modify a (fun _ => n')) = (.ok good, s.modify a (fun _ => n')) ∧
      writeList eng ctx k xp e a (good ++ bad :: rest) s = (.error er, s.modify a (fun _ => n'')) ∧ InsertedLast q ps (newElem q ps) n' n'' := by
  obtain ⟨put, hS⟩ := h.kind.store_ok h.num
  obtain ⟨ax, t, es, rfl⟩ := res_single h.field.path
  obtain ⟨n', h1, h2, h3⟩ := listSetFrom_run h.engine h.field.parse h.field.path (pathOk_single h.field.ok) hS good 0 h.node ⟨h.fits, rfl⟩ (Nat.zero_le _) hgood
  obtain ⟨er, h4⟩ := C129_stops (mapper := k.read) hbad (.elem a) good rest h1
  have hs' : (s.modify a (fun _ => n')).get a = some n' := by rw [Node.get_modify, h.node]; rfl
  rw [List.take_zero, List.nil_append, List.drop_eq_nil_of_le (by simpa using hlen), List.append_nil] at h2
  have hl := congrArg List.length h2.2
  rw [List.length_map] at hl
  obtain ⟨n'', h5, h6⟩ := noStore_end (e := .step ax t es) h.engine h.field hs'
  refine ⟨er, n', n'', ?_, listData_run h.engine h.field.parse h.field.path hS hs' h2, ?_, h6⟩
  · show listAssign _ _ _ _ _ _ _ _ _ = _
    unfold listAssign
    rw [bind_ok h1, bind_ok (listLen_run h.engine h.field.parse h.field.path hS hs' h2)]
    exact listTrimAll_stop (listLen_run h.engine h.field.parse h.field.path hS hs' h2) (Nat.le_refl _)
  · show listAssign _ _ _ _ _ _ _ _ _ = _
    rw [h4, ← hl, h5, Node.modify_modify]
    rfl

/-- C129.  `extend(good + [bad] + rest)`: the values in front are in the list, behind the last one there is an empty new item, and the values behind have not been looked at.  (For `append`, take `good = []`.) -/
theorem C129_extend (h : ListAt eng number ctx xp e q ps k V a s n) (good rest : List α) {bad : α} (hgood : ∀ v ∈ good, V.storable v) (hbad : Refused k.store bad) :
    ∃ er n' n'', listOp eng ctx k xp e a (.extend good) s = (.ok .unit, s.modify a (fun _ => n')) ∧
      readList eng ctx k xp a (s.modify a (fun _ => n')) = (.ok ((members q ps n).map V.item ++ good), s.modify a (fun _ => n')) ∧
      listOp eng ctx k xp e a (.extend (good ++ bad :: rest)) s = (.error er, s.modify a (fun _ => n'')) ∧ InsertedLast q ps (newElem q ps) n' n'' := by
  obtain ⟨put, hS⟩ := h.kind.store_ok h.num
  obtain ⟨ax, t, es, rfl⟩ := res_single h.field.path
  obtain ⟨n', h1, h2, h3⟩ := listExtend_run h.engine h.field.parse h.field.path (pathOk_single h.field.ok) hS good h.node ⟨h.fits, rfl⟩ hgood
  have hs' : (s.modify a (fun _ => n')).get a = some n' := by rw [Node.get_modify, h.node]; rfl
  have hl := congrArg List.length h2.2
  rw [List.length_map] at hl
  obtain ⟨n'', h5, h6⟩ := noStore_end (e := .step ax t es) h.engine h.field hs'
  obtain ⟨er, h7⟩ := listSet_refused (eng := eng) (ctx := ctx) (xp := xp) (e := .step ax t es) hbad (.elem a) (members q ps n').length (s.modify a (fun _ => n'))
  refine ⟨er, n', n'', bind_ok h1, listData_run h.engine h.field.parse h.field.path hS hs' h2, bind_err ?_, h6⟩
  rw [C126_extend, bind_ok h1]
  simp only [listExtend]
  refine bind_err ?_
  unfold listAppend
  rw [bind_ok (listLen_run h.engine h.field.parse h.field.path hS hs' h2), ← hl, h7, h5, Node.modify_modify]
  rfl

end

/-- Non-vacuity: a string with a NUL character in a list of strings. -/
def badStr : Option Str := some ['a', Char.ofNat 0]
theorem badStr_refused : Refused (strKind sampleCtx (ast c%"a[@n='1']")).store badStr := C129_refused_text (.inr ⟨_, rfl, Char.ofNat 0, by simp, .inl (by decide)⟩)

theorem ok_strs (l : List Str) (h : l.all xmlOk = true) : ∀ v ∈ l.map some, strView.storable v := by
  intro v hv
  obtain ⟨t, h1, rfl⟩ := List.mem_map.mp hv
  exact ⟨_, rfl, List.all_eq_true.mp h t h1⟩

example := C129_inside listAt_str [some c%"x"] [some c%"y"] (ok_strs [c%"x"] (by decide)) badStr_refused (by decide +kernel)
example := C129_behind listAt_str [some c%"x", some c%"z"] [some c%"y"] (ok_strs [c%"x", c%"z"] (by decide)) badStr_refused (by decide +kernel)
example := C129_extend listAt_str [some c%"x"] [some c%"y"] (ok_strs [c%"x"] (by decide)) badStr_refused

end Props
