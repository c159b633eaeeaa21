import Verif.Props.TypedField
import Verif.Props.Computed
import Verif.XmlMap.SearchRun
import Verif.Domain.Tei
/-
Property C117: list fields and single-value fields with XPaths that look at names and attributes at any depth: child steps with names, `*` or `p:*` and attribute predicates,
joined by `/` and `//`, and unions of such paths.

Model: Verif/XmlMap/NodeList.lean, Verif/XmlMap/Manager.lean.  Specification: Verif/Spec/Search.lean, Verif/Spec/PyList.lean.

`P` says which elements the XPath selects, by what is on the way to them.  `s` is the document, `o` the address of the XmlObject's element `n` in it.  Members may be at any depth,
but none inside of another one (`Scattered`; see `C117_counterexample_nested`).
-/
namespace Props
open XPath Xml Spec Fields

/-- Elements: all members; the item is the element itself; values are elements that the XPath selects wherever it selects some element, and that hold no further member. -/
def wayView (P : Lang) : ListView Node :=
  ⟨id, fun _ => True, fun v => ∀ w l, P (w ++ [l]) = true → P (w ++ [label v]) = true ∧ inside (fun x => P (w ++ label v :: x)) v = []⟩

/-- The kinds of list fields: texts, numbers and dates as for C25, whatever the name of the member, with members without children; and elements. -/
inductive Searched (number : Str → XNum) (ctx : Ctx) (e : Expr) (P : Lang) : {α : Type} → ListKind α → ListView α → Prop
  | text {α : Type} {k : ListKind α} {V : ListView α} : (∀ q, Covered number ctx e q [] k V) → (∀ m, V.fits m → m.children = []) → Searched number ctx e P k V
  | node : Searched number ctx e P nodeKind (wayView P)

/-- A list field with such an XPath on the element at `o` of the document `s`: the members it has now are such that it can handle them; no member is inside of another one. -/
structure SearchAt [PyUnicode] (eng : Engine) (number : Str → XNum) (ctx : Ctx) (xp : Str) (e : Expr) (P : Lang) {α : Type}
    (k : ListKind α) (V : ListView α) (o : Node.Addr) (s n : Node) : Prop where
  engine : SearchOk eng
  num : NumberOk number
  field : SearchPath ctx xp e P
  kind : Searched number ctx e P k V
  node : s.get o = some n
  fits : ∀ m ∈ inside P n, V.fits m
  apart : Scattered P n

theorem inside_leaf {P : Lang} {c : Node} (h : c.children = []) : inside P c = [] := by rw [inside_def, h]; rfl

theorem label_setText (m : Node) (t : Option Str) : label (m.setText t) = label m := by cases m; simp [Node.setText, label, Node.tag, Node.attrs]

theorem Searched.store_ok [PyUnicode] {number : Str → XNum} (hn : NumberOk number) {ctx : Ctx} {e : Expr} {P : Lang} {α : Type} {k : ListKind α} {V : ListView α}
    (h : Searched number ctx e P k V) : SearchStore P k.read k.store V.fits V.item V.storable := by
  cases h with
  | text hk hl =>
    have hmem : ∀ {m : Node} {q : QName}, m.tag = .elem q → isMember q [] m = true := by
      intro m q hq
      simp [isMember, Node.isElem, hq, satAll]
    refine ⟨fun m ⟨q, hq⟩ hg => ?_, fun m v ⟨q, hq⟩ hg hv => ?_⟩
    · obtain ⟨f, hS⟩ := (hk q).text_ok hn hl
      exact hS.map m (hmem hq) hg
    · obtain ⟨f, hS⟩ := (hk q).text_ok hn hl
      have hp := hS.puts m (hmem hq) hg
      refine ⟨m.setText (some (f v)), fun s b hb hs => ?_, hp.stays v hv, hp.value v hv, fun w hw => ?_⟩
      · rw [hp.store v hv s b hb hs]
        congr 1
        exact Node.modify_congr hs rfl
      · rw [label_setText]
        exact ⟨hw, inside_leaf (hl _ (hp.stays v hv))⟩
  | node =>
    refine ⟨fun m _ _ => rfl, fun m v _ _ hv => ⟨v, fun s b hb hs => ?_, trivial, rfl, fun w hw => hv w _ hw⟩⟩
    simp only [nodeKind, storeNode]
    rw [if_neg hb]
    rfl

section
variable [PyUnicode] {eng : Engine} {number : Str → XNum} {ctx : Ctx} {xp : Str} {e : Expr} {P : Lang} {α : Type} [DecidableEq α]
  {k : ListKind α} {V : ListView α} {o : Node.Addr} {s n : Node}

omit [DecidableEq α] in
theorem SearchAt.shows (h : SearchAt eng number ctx xp e P k V o s n) : Shows P V.fits V.item n ((inside P n).map V.item) := ⟨h.apart, h.fits, rfl⟩

omit [DecidableEq α] in
/-- C117.  The field shows the items of the members at all depths, in document order. -/
theorem C117_read (h : SearchAt eng number ctx xp e P k V o s n) : readList eng ctx k xp o s = (.ok ((inside P n).map V.item), s) := by
  have hS := h.kind.store_ok h.num
  exact searchData h.engine h.field hS h.node h.shows

/-- C117.  If the last operation of the XPath is a union or `//` (`refuses`), every sequence of operations gives the results and errors of the same sequence on a Python list to which nothing can be added (`fixedOp`); at the end the field shows
the list that Python has, nothing but the members changed, and no member is inside of another one. -/
theorem C117_operations (h : SearchAt eng number ctx xp e P k V o s n) (hr : refuses e = true) (ops : List (ListOp α))
    (hops : ∀ op ∈ ops, ∀ v ∈ op.values, V.storable v) :
    ∃ n', listOps eng ctx k xp e o ops s = ((fixedOps ((inside P n).map V.item) ops).1, s.modify o (fun _ => n')) ∧
      readList eng ctx k xp o (s.modify o (fun _ => n')) = (.ok (fixedOps ((inside P n).map V.item) ops).2, s.modify o (fun _ => n')) ∧
      around P n' = around P n ∧ Scattered P n' := by
  have hS := h.kind.store_ok h.num
  obtain ⟨n', h1, h2, h3⟩ := searchRunOps h.engine h.field hS ops h.node h.shows (.inl hr) hops
  exact ⟨n', h1, searchData h.engine h.field hS (by rw [Node.get_modify, h.node]; rfl) h2, h3, h2.apart⟩

theorem fixedOps_py {l : List α} : ∀ {ops : List (ListOp α)}, addNone l ops → fixedOps l ops = pyListAll l ops
  | [], _ => rfl
  | op :: ops, h => by
    have h1 : fixedOp l op = pyList l op := fixedOp_py h.1
    rw [fixedOps, pyListAll, h1, fixedOps_py h.2]

/-- C117.  A sequence of operations that puts no new item in the list gives the results and errors of the same sequence on the Python list of the items, and at the end the
field shows the list that Python has, nothing but the members changed, and no member is inside of another one. -/
theorem C117_list_refinement (h : SearchAt eng number ctx xp e P k V o s n) (ops : List (ListOp α)) (hadd : addNone ((inside P n).map V.item) ops)
    (hops : ∀ op ∈ ops, ∀ v ∈ op.values, V.storable v) :
    ∃ n', listOps eng ctx k xp e o ops s = ((pyListAll ((inside P n).map V.item) ops).1, s.modify o (fun _ => n')) ∧
      readList eng ctx k xp o (s.modify o (fun _ => n')) = (.ok (pyListAll ((inside P n).map V.item) ops).2, s.modify o (fun _ => n')) ∧
      around P n' = around P n ∧ Scattered P n' := by
  have hS := h.kind.store_ok h.num
  obtain ⟨n', h1, h2, h3⟩ := searchRunOps h.engine h.field hS ops h.node h.shows (.inr hadd) hops
  rw [fixedOps_py hadd] at h1 h2
  exact ⟨n', h1, searchData h.engine h.field hS (by rw [Node.get_modify, h.node]; rfl) h2, h3, h2.apart⟩

/-- C117.  If the last operation of the XPath is a union or `//`, nothing can be added: `append`, `extend` with at least one value, `insert` at an index of the list or at its end, and assignment at index `len` raise an exception;
the document stays as it was. -/
theorem C117_adding_is_refused (h : SearchAt eng number ctx xp e P k V o s n) (hr : refuses e = true) (v : α) (vs : List α) (i : Nat) (hi : i ≤ (inside P n).length) :
    listOp eng ctx k xp e o (.append v) s = (.error .exception, s) ∧ listOp eng ctx k xp e o (.extend (v :: vs)) s = (.error .exception, s) ∧
    listOp eng ctx k xp e o (.insert i v) s = (.error .exception, s) ∧ listOp eng ctx k xp e o (.set (inside P n).length v) s = (.error .exception, s) := by
  have hS := h.kind.store_ok h.num
  have happ := searchAppend h.engine h.field hS hr h.node h.shows v
  have hins := searchInsert h.engine h.field hS hr h.node h.shows (i : Int) v
  have hset := searchSet_end (store := k.store) h.engine h.field hr h.node h.shows v
  rw [List.length_map] at hset hins
  have hc : (i : Int) = ((inside P n).length : Int) ∨ (pos (inside P n).length (i : Int)).isSome = true := by
    rcases Nat.lt_or_eq_of_le hi with hlt | rfl
    · right; unfold pos; rw [if_pos ⟨by omega, by omega⟩]; rfl
    · left; rfl
  rw [if_pos hc] at hins
  refine ⟨bind_err happ, ?_, bind_err hins, bind_err hset⟩
  refine bind_err (m := listExtend eng ctx k.read k.store xp e (.elem o) (v :: vs)) ?_
  rw [listExtend, bind_err happ]

/-- C117.  An operation that raises, and does not add to a list to which this is not refused, leaves the document as it was. -/
theorem C117_errors_change_nothing (h : SearchAt eng number ctx xp e P k V o s n) (op : ListOp α)
    (hadd : refuses e = true ∨ op.addsNone (inside P n).length) (hop : ∀ v ∈ op.values, V.storable v) (er : PyErr)
    (her : (listOp eng ctx k xp e o op s).1 = .error er) : (listOp eng ctx k xp e o op s).2 = s := by
  have hS := h.kind.store_ok h.num
  obtain ⟨n', h1, -, -, h4⟩ := searchRunOp h.engine h.field hS h.node h.shows op (by rw [List.length_map]; exact hadd) hop
  have h1' : listOp eng ctx k xp e o op s = ((fixedOp ((inside P n).map V.item) op).1, s.modify o (fun _ => n')) := h1
  rw [h1'] at her ⊢
  rw [h4 er her]
  exact Node.modify_id h.node rfl

/-- C117.  After `obj.field = vs` with at most as many values as there are items, the field shows `vs`, and nothing but the members changed. -/
theorem C117_assign (h : SearchAt eng number ctx xp e P k V o s n) (vs : List α) (hvs : ∀ v ∈ vs, V.storable v) (hlen : vs.length ≤ (inside P n).length) :
    ∃ n', writeList eng ctx k xp e o vs s = (.ok (), s.modify o (fun _ => n')) ∧
      readList eng ctx k xp o (s.modify o (fun _ => n')) = (.ok vs, s.modify o (fun _ => n')) ∧ around P n' = around P n := by
  have hS := h.kind.store_ok h.num
  obtain ⟨n', h1, h2, h3, -⟩ := searchAssign h.engine h.field hS vs h.node h.shows (by rw [List.length_map]; exact hlen) hvs
  exact ⟨n', h1, searchData h.engine h.field hS (by rw [Node.get_modify, h.node]; rfl) h2, h3⟩

/-- C117.  If nothing can be added, `obj.field = vs` with more values than there are items raises an exception, but only after the items were set: the field shows the first values then. -/
theorem C117_assign_longer (h : SearchAt eng number ctx xp e P k V o s n) (hr : refuses e = true) (vs : List α) (hvs : ∀ v ∈ vs, V.storable v) (hlen : (inside P n).length < vs.length) :
    ∃ n', writeList eng ctx k xp e o vs s = (.error .exception, s.modify o (fun _ => n')) ∧
      readList eng ctx k xp o (s.modify o (fun _ => n')) = (.ok (vs.take (inside P n).length), s.modify o (fun _ => n')) ∧ around P n' = around P n := by
  have hS := h.kind.store_ok h.num
  obtain ⟨n', h1, h2, h3⟩ := searchAssign_long h.engine h.field hS hr vs h.node h.shows (by rw [List.length_map]; exact hlen) hvs
  rw [List.length_map] at h2
  exact ⟨n', h1, searchData h.engine h.field hS (by rw [Node.get_modify, h.node]; rfl) h2, h3⟩

/-- C117.  `del obj.field` takes out every member at every depth, and nothing else. -/
theorem C117_delete (h : SearchAt eng number ctx xp e P k V o s n) : deleteList eng ctx k xp o s = (.ok (), s.modify o (fun _ => around P n)) := by
  have hS := h.kind.store_ok h.num
  obtain ⟨n', h1, h2, h3, -⟩ := searchDelete h.engine h.field hS h.node h.shows
  have : n' = around P n := by rw [← h3, around_none n' P (by have := h2.items; simpa using this)]
  rw [← this]
  exact h1

/-! ### single-value fields -/

omit [DecidableEq α] in
theorem search_find (heng : SearchOk eng) (hf : SearchPath ctx xp e P) (hn : s.get o = some n) :
    findNode eng ctx xp (.elem o) s = (.ok ((found P n).head?.map (fun b => .ref (.elem (o ++ b)))), s) := by
  rw [findNode_value (heng ctx xp e P s n o hf.parse hf.lang hf.proper hn)]
  cases found P n <;> rfl

/-- C117.  A single-value field with such an XPath, with any mapper, reads the first member in document order, or `None` if there is none. -/
theorem C117_single_read {β : Type} (toPython : Option Item → Except PyErr β) (heng : SearchOk eng) (hf : SearchPath ctx xp e P) (hn : s.get o = some n) :
    readAs toPython eng ctx xp e (.elem o) s = (toPython ((inside P n).head?.map .elem), s) := by
  unfold readAs managerGet
  rw [bind_ok (search_find heng hf hn), if_neg (by simp), bind_ok (getDoc_run s), ofExcept_eq]
  congr 1
  have h2 := found_inside n P
  generalize found P n = bs at h2 ⊢
  generalize inside P n = ms at h2 ⊢
  cases h2 with
  | nil => rfl
  | @cons b m bs ms hr _ =>
    show toPython ((s.get (o ++ b)).map Item.elem) = toPython (some (Item.elem m))
    rw [Node.get_append, hn, Option.bind_some, hr.2.1]
    rfl

/-- C117.  Assigning a text to such a field sets the text of the first member, which may be anywhere and has no children, and changes nothing else. -/
theorem C117_single_write (heng : SearchOk eng) (hf : SearchPath ctx xp e P) (hn : s.get o = some n) (hsc : Scattered P n) {m : Node} {ms : List Node}
    (hm : inside P n = m :: ms) (hc : m.children = []) {t : Str} (ht : xmlOk t = true) :
    ∃ n', writeStr eng ctx t xp e (.elem o) s = (.ok (), s.modify o (fun _ => n')) ∧ inside P n' = m.setText (some t) :: ms ∧ around P n' = around P n := by
  obtain ⟨b, hb, hne, hg, -⟩ := found_at (show (inside P n)[0]? = some m by rw [hm]; rfl)
  have hch : (m.setText (some t)).children = [] := by cases m; simpa [Node.setText, Node.children] using hc
  have hC := change_node n P hsc hb (show (inside P n)[0]? = some m by rw [hm]; rfl) (m' := m.setText (some t)) (fun w hw => by
    rw [label_setText]; exact ⟨hw, inside_leaf hch⟩)
  refine ⟨_, ?_, by rw [hC.inside, hm]; rfl, hC.around⟩
  have hhead : (found P n).head? = some b := by rw [List.head?_eq_getElem?]; exact hb
  have hgs : s.get (o ++ b) = some m := by rw [Node.get_append, hn]; exact hg
  have hset : setInXml ctx (.ref (.elem (o ++ b))) (some t) (findTerminalStep e) s = (.ok (), s.modify (o ++ b) (Node.setText (some t))) := by
    simp only [setInXml]
    rw [bind_ok (show nodeAt (o ++ b) s = (.ok m, s) by simp only [nodeAt, hgs]), if_pos hc]
    unfold setElemText
    rw [if_neg (show ¬ ((some t).elim true xmlOk = false) by show ¬ (xmlOk t = false); rw [ht]; simp)]
    rfl
  unfold writeStr managerSet
  rw [bind_ok (show ofExcept (.ok (some (XValue.str t))) s = (.ok (some (.str t)), s) from rfl), bind_ok (search_find heng hf hn), hhead]
  show setInXml ctx (.ref (.elem (o ++ b))) (some t) (findTerminalStep e) s = _
  rw [hset, Node.modify_append]
  congr 1
  exact Node.modify_congr hn (Node.modify_congr hg rfl)

/-- C117.  If the last operation of the XPath is a union or `//`, and there is no member, assigning to such a field raises an exception, and `create_<field>` does; deleting such a field, or assigning `None`, never does anything.  The
document stays as it was. -/
theorem C117_single_refused (heng : SearchOk eng) (hf : SearchPath ctx xp e P) (hr : refuses e = true) (hn : s.get o = some n) :
    (inside P n = [] → ∀ v : XValue, managerSet eng ctx (.ok (some v)) xp e (.elem o) s = (.error .exception, s) ∧ managerCreate eng ctx xp e (.elem o) s = (.error .exception, s)) ∧
    managerDelete eng ctx xp e (.elem o) s = (.ok (), s) ∧ managerSet eng ctx (.ok none) xp e (.elem o) s = (.ok (), s) := by
  have hrem : removeXml eng ctx e false (.elem o) s = (.ok false, s) := by
    cases e with
    | binary l op r => cases op <;> first | rfl | simp [refuses] at hr
    | _ => simp [refuses] at hr
  refine ⟨fun hi v => ?_, ?_, ?_⟩
  · have hfo : found P n = [] := found_none hi
    have hfind := search_find heng hf hn
    rw [hfo] at hfind
    refine ⟨?_, ?_⟩
    · unfold managerSet
      rw [bind_ok (show ofExcept (.ok (some v)) s = (.ok (some v), s) from rfl), bind_ok hfind]
      exact bind_err (searchCreate hr none)
    · unfold managerCreate
      rw [bind_ok hfind]
      exact bind_err (searchCreate hr none)
  · unfold managerDelete
    rw [bind_ok (search_find heng hf hn)]
    cases (found P n).head? with
    | none => rfl
    | some b => exact bind_ok hrem
  · unfold managerSet
    rw [bind_ok (show ofExcept (.ok none) s = (.ok none, s) from rfl), bind_ok (search_find heng hf hn)]
    cases (found P n).head? with
    | none => rfl
    | some b => exact bind_ok hrem

end

/-! ### values that are elements -/

mutual
theorem inside_congr : ∀ (n : Node) {P Q : Lang}, (∀ x, x ≠ [] → P x = Q x) → inside P n = inside Q n
  | .mk t a x c l, P, Q, h => by simp only [inside]; exact insideL_congr c h
theorem insideL_congr : ∀ (cs : List Node) {P Q : Lang}, (∀ x, x ≠ [] → P x = Q x) → insideL P cs = insideL Q cs
  | [], _, _, _ => rfl
  | c :: cs, P, Q, h => by
    simp only [insideL]
    rw [h _ (by simp), inside_congr c (P := P.after (label c)) (Q := Q.after (label c)) (fun x _ => h _ (by simp)), insideL_congr cs h]
end

/-- C117.  If the XPath looks only at the selected element itself, as `.//q[ps]` does (`last_of_search`), the values that can be stored in a list of elements are those that pass
the test and hold no further member. -/
theorem C117_storable_last {P : Lang} {test : Label → Bool} (hP : ∀ w l, P (w ++ [l]) = test l) {v : Node} (h1 : test (label v) = true) (h2 : inside P v = []) :
    (wayView P).storable v := by
  intro w l _
  refine ⟨by rw [hP]; exact h1, ?_⟩
  rw [← h2]
  refine inside_congr v (fun x hx => ?_)
  rcases List.eq_nil_or_concat x with rfl | ⟨x, y, rfl⟩
  · exact absurd rfl hx
  · rw [List.concat_eq_append, hP, ← List.cons_append, ← List.append_assoc, hP]

/-- `.//q[ps]` looks only at the selected element itself. -/
theorem last_of_search (test : Label → Bool) (w : List Label) (l : Label) : Lang.seq (fun w => w.isEmpty) (Lang.any.seq (.one test)) (w ++ [l]) = test l := by
  rw [Bool.eq_iff_iff, seq_iff]
  constructor
  · rintro ⟨u1, u2, he, h1, h2⟩
    obtain ⟨u3, u4, rfl, -, h4⟩ := seq_iff.1 h2
    match u4, h4 with
    | [], h => simp [Lang.one] at h
    | _ :: _ :: _, h => simp [Lang.one] at h
    | [x], h =>
      rw [← List.append_assoc] at he
      rw [(List.cons.inj (List.append_inj' he rfl).2).1]
      exact h
  · intro h
    exact ⟨[], _, rfl, rfl, seq_iff.2 ⟨w, [l], rfl, rfl, h⟩⟩

/-! ### the hypotheses can be met -/

/-- `<r><a>1</a><d><a>2</a><c/><d x="y"><a>3</a>u</d></d>t</r>`: members at three depths. -/
def spreadDoc : Node := .mk (.elem ⟨none, c%"r"⟩) [] none
  [.mk (.elem ⟨none, c%"a"⟩) [] (some c%"1") [] none,
   .mk (.elem ⟨none, c%"d"⟩) [] none
    [.mk (.elem ⟨none, c%"a"⟩) [] (some c%"2") [] none, .mk (.elem ⟨none, c%"c"⟩) [] none [] none,
     .mk (.elem ⟨none, c%"d"⟩) [(⟨none, c%"x"⟩, c%"y")] none [.mk (.elem ⟨none, c%"a"⟩) [] (some c%"3") [] (some c%"u")] none] (some c%"t")] none

/-- The language of `.//a`: any way that ends in an `a`. -/
def anyA : Lang := (ast c%".//a" |> lang sampleCtx).getD (fun _ => false)

theorem spread_path : SearchPath sampleCtx c%".//a" (ast c%".//a") anyA := ⟨by decide, by rfl, by decide⟩

theorem covered_str (number : Str → XNum) (ctx : Ctx) (e : Expr) (P : Lang) : Searched number ctx e P (strKind ctx e) strView := .text (fun _ => .str rfl) (fun _ h => h)

theorem spread_at : SearchAt searchEngine xpathNumber sampleCtx c%".//a" (ast c%".//a") anyA (strKind sampleCtx (ast c%".//a")) strView [] spreadDoc spreadDoc where
  engine := searchEngine_ok
  num := xpathNumber_ok
  field := spread_path
  kind := covered_str _ _ _ _
  node := rfl
  fits := by
    have : ∀ m ∈ inside anyA spreadDoc, m.children = [] := by decide
    exact this
  apart := by simp [Scattered, ScatteredL, spreadDoc]; decide

/-- The items. -/
example : (inside anyA spreadDoc).map strView.item = [some c%"1", some c%"2", some c%"3"] := by decide

/-- A history with operations that are refused. -/
example : ∃ s', listOps searchEngine sampleCtx (strKind sampleCtx (ast c%".//a")) c%".//a" (ast c%".//a") []
      [.set (-1) (some c%"z"), .append (some c%"x"), .pop (some 1), .insert 0 (some c%"x"), .insert 7 (some c%"x"), .index (some c%"z")] spreadDoc
      = ([.ok .unit, .error .exception, .ok (.val (some c%"2")), .error .exception, .error .indexError, .ok (.nat 1)], s') ∧
    readList searchEngine sampleCtx (strKind sampleCtx (ast c%".//a")) c%".//a" [] s' = (.ok [some c%"1", some c%"z"], s') := by
  obtain ⟨n', h1, h2, -⟩ := C117_operations spread_at rfl
    [.set (-1) (some c%"z"), .append (some c%"x"), .pop (some 1), .insert 0 (some c%"x"), .insert 7 (some c%"x"), .index (some c%"z")] (by
      intro op hop v hv
      simp only [List.mem_cons, List.not_mem_nil, or_false] at hop
      rcases hop with rfl | rfl | rfl | rfl | rfl | rfl <;> simp only [ListOp.values, List.mem_cons, List.not_mem_nil, or_false] at hv <;>
        (subst hv; exact ⟨_, rfl, by decide⟩))
  exact ⟨_, h1, h2⟩

example := C117_read spread_at
example := C117_list_refinement spread_at [.set 0 (some c%"x"), .del 2, .remove (some c%"2"), .pop none, .pop none]
  ⟨by show (0 : Int) ≠ _; decide, trivial, trivial, trivial, trivial, trivial⟩ (by
    intro op hop v hv
    simp only [List.mem_cons, List.not_mem_nil, or_false] at hop
    rcases hop with rfl | rfl | rfl | rfl | rfl
    · rw [show v = (some c%"x" : Option Str) from (List.mem_singleton (α := Option Str)).mp hv]; exact ⟨_, rfl, by decide⟩
    all_goals cases hv)
example := C117_adding_is_refused spread_at rfl (some c%"x") [] 1 (by decide)
example := C117_errors_change_nothing spread_at (.pop (some 7)) (.inl rfl) (by intro v hv; cases hv) .indexError (by decide +kernel)
example := C117_assign spread_at [some c%"x", some c%"y"] (by
  intro v hv
  simp only [List.mem_cons, List.not_mem_nil, or_false] at hv
  rcases hv with rfl | rfl <;> exact ⟨_, rfl, by decide⟩) (by decide)
example := C117_assign_longer spread_at rfl [some c%"x", some c%"y", some c%"z", some c%"w"] (by
  intro v hv
  simp only [List.mem_cons, List.not_mem_nil, or_false] at hv
  rcases hv with rfl | rfl | rfl | rfl <;> exact ⟨_, rfl, by decide⟩) (by decide)
example := C117_delete spread_at
/-- What `del obj.field` leaves: `<r><d><c/><d x="y"/></d>t</r>`; the tail of a member goes with it. -/
example : around anyA spreadDoc = .mk (.elem ⟨none, c%"r"⟩) [] none
    [.mk (.elem ⟨none, c%"d"⟩) [] none [.mk (.elem ⟨none, c%"c"⟩) [] none [] none, .mk (.elem ⟨none, c%"d"⟩) [(⟨none, c%"x"⟩, c%"y")] none [] none] (some c%"t")] none := by decide
example := C117_single_read (strToPython false) searchEngine_ok spread_path (s := spreadDoc) (o := []) rfl
example := C117_single_write searchEngine_ok spread_path (s := spreadDoc) (o := []) rfl spread_at.apart
  (m := .mk (.elem ⟨none, c%"a"⟩) [] (some c%"1") [] none) (by rfl) rfl (t := c%"x") (by decide)
example := (C117_single_refused searchEngine_ok spread_path rfl (s := .empty ⟨none, c%"r"⟩) (o := []) rfl).1 (by decide) (.str c%"x")

/-- A union: `a | d/a`, of which `spreadDoc` has two members; and `*`. -/
example : (inside ((lang sampleCtx (ast c%"a | d/a")).getD Lang.any) spreadDoc).map strView.item = [some c%"1", some c%"2"] := by decide
example : (inside ((lang sampleCtx (ast c%"d/*")).getD Lang.any) spreadDoc).map Node.tag = [.elem ⟨none, c%"a"⟩, .elem ⟨none, c%"c"⟩, .elem ⟨none, c%"d"⟩] := by decide
example : (inside ((lang sampleCtx (ast c%"d//d[@x='y']/a")).getD Lang.any) spreadDoc).map strView.item = [some c%"3"] := by decide
/-- What may be assigned to an item of the list of elements `.//a`: for instance `<a><c/></a>`. -/
example : (wayView anyA).storable (.mk (.elem ⟨none, c%"a"⟩) [] none [.empty ⟨none, c%"c"⟩] none) :=
  C117_storable_last (test := fun x => (nameTest sampleCtx none c%"a").getD (fun _ => false) x.tag && satAll [] (.mk x.tag x.attrs none [] none)) (fun w l => last_of_search _ w l)
    (by decide) (by decide)

/-- `<r><a><a/></a></r>` -/
def nestedDoc : Node := .mk (.elem ⟨none, c%"r"⟩) [] none [.mk (.elem ⟨none, c%"a"⟩) [] none [.mk (.elem ⟨none, c%"a"⟩) [] none [] none] none] none

/-- C117 is false if a member is inside of another one: `del obj.field[0]` of two items leaves none. -/
theorem C117_counterexample_nested :
    (listOp searchEngine sampleCtx (nodeKind) c%".//a" (ast c%".//a") [] .len nestedDoc).1 = .ok (.nat 2) ∧
    (listOp searchEngine sampleCtx (nodeKind) c%".//a" (ast c%".//a") [] .len
      (listOp searchEngine sampleCtx (nodeKind) c%".//a" (ast c%".//a") [] (.del 0) nestedDoc).2).1 = .ok (.nat 0) := by
  constructor <;> decide +kernel

end Props
