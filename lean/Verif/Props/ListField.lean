import Verif.XmlMap.NodeListLemmas
import Verif.XmlMap.DateText
import Verif.XmlMap.Floats
import Verif.Spec.Calendar
import Verif.Spec.RefEngine
import Verif.Props.FieldSet
/-
Properties C25 - C30: list fields.

Model: Verif/XmlMap/NodeList.lean (`NodeList`, `NodeListManager`).
Specification: the Python list (Verif/Spec/PyList.lean), members of the list and what stays (Verif/Spec/ListField.lean).

A list field has a single child step `q[ps]` as XPath.  `s` is the document, `a` the address of the XmlObject's element `n` in it.
-/
namespace Props
open XPath Xml Spec Fields

/-! ### the kinds of list fields -/

/-- How a list field reads a match and stores a value. -/
structure ListKind (α : Type) where
  /-- `mapper.to_python` -/
  read : Item → Except PyErr α
  /-- the end of `__setitem__` -/
  store : Ref → α → M Unit

/-- `StringListField` (fields.py:876-894): `StringMapper`. -/
def strKind (ctx : Ctx) (e : Expr) : ListKind (Option Str) := ⟨fun it => strToPython false (some it), storeText ctx strToXml e⟩
/-- `IntegerListField` (fields.py:941-955): `IntegerMapper`. -/
def intKind (number : Str → XNum) (ctx : Ctx) (e : Expr) : ListKind (Option Int) :=
  ⟨fun it => intToPython number (some it), storeText ctx intToXml e⟩
/-- `StringListField` with `normalize=True`. -/
def normKind (ctx : Ctx) (e : Expr) : ListKind (Option Str) := ⟨fun it => strToPython true (some it), storeText ctx strToXml e⟩
/-- `DateTimeListField` (fields.py:1019-1043): `DateTimeMapper`, without format. -/
def dateTimeKind (normalize : Bool) (ctx : Ctx) (e : Expr) : ListKind (Option DateTime) :=
  ⟨fun it => dateTimeToPython normalize (some it), storeText ctx dateTimeToXml e⟩
/-- `DateTimeListField` with a format. -/
def dateTimeFmtKind (fmt : List FTok) (normalize : Bool) (ctx : Ctx) (e : Expr) : ListKind (Option DateTime) :=
  ⟨fun it => dateTimeFmtToPython fmt normalize (some it), storeText ctx (dateTimeFmtToXml fmt) e⟩
/-- `DateListField` (fields.py:1066-1076): `DateMapper`, without format. -/
def dateKind (ctx : Ctx) (e : Expr) : ListKind (Option DateTime) := ⟨fun it => dateToPython (some it), storeText ctx dateToXml e⟩
/-- `DateListField` with a format. -/
def dateFmtKind (fmt : List FTok) (ctx : Ctx) (e : Expr) : ListKind (Option DateTime) :=
  ⟨fun it => dateFmtToPython fmt (some it), storeText ctx (dateFmtToXml fmt) e⟩
/-- `FloatListField` (fields.py:911-924): `FloatMapper`. -/
def floatKind {F : Type} (L : FloatLib F) (ctx : Ctx) (e : Expr) : ListKind (Option F) := ⟨fun it => floatToPython L (some it), storeText ctx (floatToXml L) e⟩
/-- `NodeListField` (fields.py:1118-1142): `NodeMapper`; an XmlObject is represented by its element.  The assigned ones are not (yet) part of
the document. -/
def nodeKind : ListKind Node := ⟨fun it => match it with | .elem m => .ok m | _ => .error .typeError, fun r v => storeNode r (.foreign v)⟩

section
variable [PyUnicode] {α : Type} [DecidableEq α] (eng : Engine) (ctx : Ctx) (k : ListKind α) (xp : Str) (e : Expr) (a : Node.Addr)

/-- `obj.field` as a Python list, fields.py:703-706. -/
def readList : M (List α) := listData eng ctx k.read xp (.elem a)
/-- One operation on `obj.field`. -/
def listOp (op : ListOp α) : M (ListRes α) := runOp eng ctx k.read k.store xp e (.elem a) op
/-- A sequence of operations on `obj.field`: their results and the document at the end. -/
def listOps (ops : List (ListOp α)) (s : Node) : List (Except PyErr (ListRes α)) × Node := runOps eng ctx k.read k.store xp e (.elem a) ops s
/-- `obj.field = vs`, fields.py:837-846. -/
def writeList (vs : List α) : M Unit := listAssign eng ctx k.read k.store xp e (.elem a) vs
/-- `del obj.field`, fields.py:833-835. -/
def deleteList : M Unit := listDeleteAll eng ctx k.read xp (.elem a)

end

/-- libxml2's `number()` on strings: what integer fields rely on.  It is exact for integers up to 2^53, and the empty string is not a number. -/
structure NumberOk (number : Str → XNum) : Prop where
  exact : ∀ n : Int, n.natAbs ≤ 2 ^ 53 → number (intStr n) = .dec (decide (n < 0)) n.natAbs 0
  empty : number [] = .nan

/-- What float fields rely on: `str(x)` is read by `float()` as `x`, and has no control characters. -/
structure FloatOk {F : Type} (L : FloatLib F) : Prop where
  round : ∀ x, L.plain x → L.ofStr (L.repr x) = some x
  chars : ∀ x, xmlOk (L.repr x) = true

/-- What a kind of list shows: the item for a member, the members it can handle, the values it can store. -/
structure ListView (α : Type) where
  item : Node → α
  fits : Node → Prop
  storable : α → Prop

/-- Strings: members without children, which show their text; values are strings that XML can hold. -/
def strView : ListView (Option Str) := ⟨fun m => some m.strVal, fun m => m.children = [], fun v => ∃ t, v = some t ∧ xmlOk t = true⟩
/-- Integers: members without children; the item is the number in the text, truncated, or `None` if there is none (infinities are
left out); values are integers up to 2^53. -/
def intView (number : Str → XNum) : ListView (Option Int) :=
  ⟨fun m => match number m.strVal with
    | .dec neg x k => some (if neg then -((x / 10 ^ k : Nat) : Int) else ((x / 10 ^ k : Nat) : Int))
    | _ => none,
   fun m => m.children = [] ∧ ∀ b, number m.strVal ≠ .inf b, fun v => ∃ n : Int, v = some n ∧ n.natAbs ≤ 2 ^ 53⟩
/-- Elements: all members; the item is the element itself; values are elements that match the step. -/
def nodeView (q : QName) (ps : List Pred) : ListView Node := ⟨id, fun _ => True, fun v => isMember q ps v = true⟩

/-- Values read from text: members without children that can be read; the item is what is read. -/
def readView {β : Type} (read : Item → Except PyErr (Option β)) (ok : β → Prop) : ListView (Option β) :=
  ⟨fun m => match read (.elem m) with
    | .ok v => v
    | .error _ => none,
   fun m => m.children = [] ∧ ∃ v, read (.elem m) = .ok v, fun v => ∃ b, v = some b ∧ ok b⟩

/-- Floats: members without children; the item is the number in the text; values are floats that `number()` reads exactly.  (NaN and negative zeros, for which
Python's `==` is not equality, are left out.) -/
def floatView {F : Type} (L : FloatLib F) : ListView (Option F) :=
  ⟨fun m => some (L.number m.strVal), fun m => m.children = [] ∧ L.plain (L.number m.strVal), fun v => ∃ x, v = some x ∧ L.plain x ∧ L.number (L.repr x) = x⟩

/-- The list fields covered, for the step `q[ps]`.  Stored are: strings of single-spaced words if they are normalised; real dates and times (dates from
the year 1000 on); with a format, dates and times that the format shows completely (see C80). -/
inductive Covered (number : Str → XNum) (ctx : Ctx) (e : Expr) (q : QName) (ps : List Pred) : {α : Type} → ListKind α → ListView α → Prop
  | str : attrOnly ps = true → Covered number ctx e q ps (strKind ctx e) strView
  | int : attrOnly ps = true → Covered number ctx e q ps (intKind number ctx e) (intView number)
  | node : Covered number ctx e q ps nodeKind (nodeView q ps)
  | norm : attrOnly ps = true → Covered number ctx e q ps (normKind ctx e) (readView (normKind ctx e).read (fun t => xmlOk t = true ∧ unwords (words t) = t))
  | dateTime (normalize : Bool) : attrOnly ps = true →
      Covered number ctx e q ps (dateTimeKind normalize ctx e) (readView (dateTimeKind normalize ctx e).read RealDateTime)
  | date : attrOnly ps = true →
      Covered number ctx e q ps (dateKind ctx e) (readView (dateKind ctx e).read (fun d => RealDateTime d ∧ d.isDate = true ∧ 1000 ≤ d.year))
  | float {F : Type} (L : FloatLib F) : attrOnly ps = true → FloatOk L → Covered number ctx e q ps (floatKind L ctx e) (floatView L)
  | dateTimeFmt (fmt : Str) (ts : List FTok) (normalize : Bool) : attrOnly ps = true → parseFormat fmt = some ts → xmlOk fmt = true →
      (ts.filter FTok.named).Nodup → zoneSafe ts → (normalize = true → tidy ts = true) →
      Covered number ctx e q ps (dateTimeFmtKind ts normalize ctx e)
        (readView (dateTimeFmtKind ts normalize ctx e).read (fun d => RealDateTime d ∧ yearOk ts d.year ∧ shown ts d = d))
  | dateFmt (fmt : Str) (ts : List FTok) : attrOnly ps = true → parseFormat fmt = some ts → xmlOk fmt = true →
      (ts.filter FTok.named).Nodup → showsYear ts → .dir .m ∈ ts → .dir .d ∈ ts →
      Covered number ctx e q ps (dateFmtKind ts ctx e)
        (readView (dateFmtKind ts ctx e).read (fun d => RealDateTime d ∧ d.isDate = true ∧ yearOk ts d.year))

theorem strKind_ok [PyUnicode] (ctx : Ctx) (e : Expr) {q : QName} {ps : List Pred} (h : attrOnly ps = true) :
    StoreOk q ps (strKind ctx e).read (strKind ctx e).store strView.fits strView.item (fun v => Node.setText (some (Option.getD v [])))
      strView.storable :=
  storeText_ok (txt := fun v => Option.getD v []) h (fun m _ _ => rfl) (fun _ h => h)
    (by rintro v ⟨t, rfl, ht⟩; exact ⟨rfl, ht⟩)
    (by
      rintro m hm v ⟨t, rfl, ht⟩
      refine ⟨?_, ?_⟩
      · simpa [strView] using hm
      · simp [strView, strVal_setText (show m.children = [] from hm)])

theorem intStr_xmlOk [PyUnicode] (n : Int) : xmlOk (intStr n) = true := by
  unfold intStr
  split_ifs
  · have := natStr_xmlOk n.natAbs
    simp only [xmlOk, List.all_cons, Bool.and_eq_true] at this ⊢
    exact ⟨by decide, this⟩
  · exact natStr_xmlOk _

theorem intKind_ok [PyUnicode] {number : Str → XNum} (hn : NumberOk number) (ctx : Ctx) (e : Expr) {q : QName} {ps : List Pred}
    (h : attrOnly ps = true) :
    StoreOk q ps (intKind number ctx e).read (intKind number ctx e).store (intView number).fits (intView number).item
      (fun v => Node.setText (some (intStr (Option.getD v 0)))) (intView number).storable :=
  storeText_ok (txt := fun v => intStr (Option.getD v 0)) h
    (by
      rintro m hc ⟨-, hi⟩
      simp only [intKind, intToPython, intView]
      cases hx : number m.strVal with
      | nan => rfl
      | inf b => exact absurd hx (hi b)
      | dec neg x k => rfl)
    (fun _ h => h.1)
    (by rintro v ⟨n, rfl, hn⟩; exact ⟨rfl, intStr_xmlOk n⟩)
    (by
      rintro m hc v ⟨n, rfl, hb⟩
      have hx := hn.exact n hb
      have hv : (m.setText (some (intStr n))).strVal = intStr n := strVal_setText hc _
      refine ⟨⟨by simpa using hc, ?_⟩, ?_⟩
      · simp only [Option.getD_some, hv, hx]; simp
      · simp only [intView, Option.getD_some, hv, hx, Nat.pow_zero, Nat.div_one, Option.some.injEq, decide_eq_true_eq]
        split_ifs <;> omega)

/-- Values that are read from the text that is written for them. -/
theorem readView_ok [PyUnicode] {β : Type} {read : Item → Except PyErr (Option β)} {toXml : Option β → Except PyErr (Option Str)} {ok : β → Prop} (txt : β → Str)
    (ctx : Ctx) (e : Expr) {q : QName} {ps : List Pred} (h : attrOnly ps = true) (hx : ∀ b, ok b → toXml (some b) = .ok (some (txt b)) ∧ xmlOk (txt b) = true)
    (hr : ∀ b, ok b → ∀ m : Node, m.children = [] → m.strVal = txt b → read (.elem m) = .ok (some b)) :
    ∃ f : Option β → Str, StoreOk q ps read (storeText ctx toXml e) (readView read ok).fits (readView read ok).item (fun v => Node.setText (some (f v)))
      (readView read ok).storable := by
  classical
  refine ⟨fun v => (v.map txt).getD [], storeText_ok (txt := fun v : Option β => (v.map txt).getD []) h ?_ (fun _ h => h.1) ?_ ?_⟩
  · rintro m _ ⟨-, v, hv⟩
    simp only [readView, hv]
  · rintro v ⟨b, rfl, hb⟩
    exact hx b hb
  · rintro m hc v ⟨b, rfl, hb⟩
    have hv := hr b hb (m.setText (some (txt b))) (by simpa using hc) (strVal_setText hc _)
    refine ⟨⟨by simpa using hc, some b, hv⟩, ?_⟩
    simp only [readView, Option.map_some, Option.getD_some, hv]

/-- Values of all kinds but elements are stored by setting the text of the member. -/
theorem Covered.text_ok [PyUnicode] {number : Str → XNum} (hn : NumberOk number) {ctx : Ctx} {e : Expr} {q : QName} {ps : List Pred} {α : Type}
    {k : ListKind α} {V : ListView α} (h : Covered number ctx e q ps k V) (hleaf : ∀ m, V.fits m → m.children = []) :
    ∃ f : α → Str, StoreOk q ps k.read k.store V.fits V.item (fun v => Node.setText (some (f v))) V.storable := by
  cases h with
  | str h => exact ⟨fun v => Option.getD v [], strKind_ok ctx e h⟩
  | int h => exact ⟨fun v => intStr (Option.getD v 0), intKind_ok hn ctx e h⟩
  | node => exact absurd (hleaf (.mk .comment [] none [.empty q] none) trivial) (by simp [Node.children])
  | norm h =>
    refine readView_ok id ctx e h (fun t ht => ⟨rfl, ht.1⟩) (fun t ht m _ hm => ?_)
    simp only [id] at hm
    simp only [normKind, strToPython, hm, if_true, normSpace_eq, ht.2]
  | dateTime normalize h =>
    refine readView_ok isoformat ctx e h (fun d hd => ⟨rfl, (isoformat_chars ((valid_iff d).mpr hd)).1⟩) (fun d hd m _ hm => ?_)
    exact dateTime_elem ((valid_iff d).mpr hd) normalize hm
  | date h =>
    refine readView_ok strftimeDate ctx e h (fun d hd => ⟨rfl, strftime_xmlOk ((valid_iff d).mpr hd.1)⟩) (fun d hd m hc hm => ?_)
    exact date_elem ((valid_iff d).mpr hd.1) hd.2.1 hd.2.2 hc hm
  | float L h hL =>
    refine ⟨fun v => (Option.map L.repr v).getD [], storeText_ok (txt := fun v => (Option.map L.repr v).getD []) h (fun m _ _ => rfl) (fun _ h => h.1) ?_ ?_⟩
    · rintro v ⟨x, rfl, -⟩
      exact ⟨rfl, hL.chars x⟩
    · rintro m hc v ⟨x, rfl, h1, h2⟩
      have hv : (m.setText (some (L.repr x))).strVal = L.repr x := strVal_setText hc _
      refine ⟨⟨by simpa using hc, ?_⟩, ?_⟩ <;> simp only [floatView, Option.map_some, Option.getD_some, hv, h2]
      exact h1
  | dateTimeFmt fmt ts normalize h hp hx hnd hz ht =>
    refine readView_ok (strftimeAny ts) ctx e h (fun d hd => ⟨rfl, strftimeAny_xmlOk ((valid_iff d).mpr hd.1) hp hx hd.2.1⟩) (fun d hd m _ hm => ?_)
    have hv := (valid_iff d).mpr hd.1
    have := dateTimeFmt_elem (parseFormat_ok fmt ts hp).1 hnd hz normalize ht hv hd.2.1 hm
    rw [hd.2.2, if_pos hv] at this
    exact this
  | dateFmt fmt ts h hp hx hnd hY hm hdd =>
    refine readView_ok (strftimeAny ts) ctx e h (fun d hd => ⟨?_, strftimeAny_xmlOk ((valid_iff d).mpr hd.1) hp hx hd.2.2⟩) (fun d hd m' hc hm' => ?_)
    · simp only [dateFmtToXml, dateOf_isDate hd.2.1]
    · exact dateFmt_elem (parseFormat_ok fmt ts hp).1 hnd hY hm hdd ((valid_iff d).mpr hd.1) hd.2.1 hd.2.2 hc hm'

/-- The members that a kind other than elements can handle have no children. -/
theorem Covered.leaf_or_node [PyUnicode] {number : Str → XNum} {ctx : Ctx} {e : Expr} {q : QName} {ps : List Pred} {α : Type}
    {k : ListKind α} {V : ListView α} (h : Covered number ctx e q ps k V) :
    (∀ m, V.fits m → m.children = []) ∨ ∃ put, StoreOk q ps k.read k.store V.fits V.item put V.storable := by
  cases h with
  | node => exact .inr ⟨_, storeNode_ok q ps⟩
  | str h => exact .inl (fun m h => h)
  | _ => exact .inl (fun m h => h.1)

theorem Covered.store_ok [PyUnicode] {number : Str → XNum} (hn : NumberOk number) {ctx : Ctx} {e : Expr} {q : QName} {ps : List Pred} {α : Type}
    {k : ListKind α} {V : ListView α} (h : Covered number ctx e q ps k V) :
    ∃ put, StoreOk q ps k.read k.store V.fits V.item put V.storable := by
  rcases h.leaf_or_node with hl | hp
  · obtain ⟨f, hf⟩ := h.text_ok hn hl
    exact ⟨_, hf⟩
  · exact hp

/-- A list field on the element at `a` of the document `s`: its XPath is the child step `q[ps]`, its kind is covered, and the members it has now
are such that it can handle them. -/
structure ListAt [PyUnicode] (eng : Engine) (number : Str → XNum) (ctx : Ctx) (xp : Str) (e : Expr) (q : QName) (ps : List Pred) {α : Type}
    (k : ListKind α) (V : ListView α) (a : Node.Addr) (s n : Node) : Prop where
  engine : EngineOk eng
  num : NumberOk number
  field : SimpleField ctx xp e [.child q ps]
  kind : Covered number ctx e q ps k V
  node : s.get a = some n
  fits : ∀ m ∈ members q ps n, V.fits m

section
variable [PyUnicode] {eng : Engine} {number : Str → XNum} {ctx : Ctx} {xp : Str} {e : Expr} {q : QName} {ps : List Pred} {α : Type} [DecidableEq α]
  {k : ListKind α} {V : ListView α} {a : Node.Addr} {s n : Node}

omit [PyUnicode] in
theorem pathOk_single {q : QName} {ps : List Pred} (h : pathOk [.child q ps] = true) : okAll ps = true := by
  simp only [pathOk, Bool.and_eq_true] at h
  exact h.1.1

/-- C25.  Every sequence of operations on a list field gives the results and errors of the same sequence on the Python list of its items, and at the
end the field shows the list that Python has.  Deviations (Spec.pyList): assigning at index `len` appends, inserting behind the end raises;
inserting at a negative index is excluded (`ListOp.supported`). -/
theorem C25_list_refinement (h : ListAt eng number ctx xp e q ps k V a s n) (ops : List (ListOp α))
    (hops : ∀ op ∈ ops, op.supported = true ∧ ∀ v ∈ op.values, V.storable v) :
    ∃ s', listOps eng ctx k xp e a ops s = ((pyListAll ((members q ps n).map V.item) ops).1, s') ∧
      readList eng ctx k xp a s' = (.ok (pyListAll ((members q ps n).map V.item) ops).2, s') := by
  obtain ⟨put, hS⟩ := h.kind.store_ok h.num
  obtain ⟨ax, t, es, rfl⟩ := res_single h.field.path
  obtain ⟨n', h1, h2, -⟩ := runOps_run h.engine h.field.parse h.field.path (pathOk_single h.field.ok) hS ops h.node ⟨h.fits, rfl⟩ hops
  refine ⟨_, h1, ?_⟩
  exact listData_run h.engine h.field.parse h.field.path hS (by rw [Node.get_modify, h.node]; rfl) h2

/-- C29.  Every sequence of operations on a list field leaves everything as it is except for the members: only the field's element changes, and of
that the tag, attributes, text, tail and the other children stay, in the same order. -/
theorem C29_list_frame (h : ListAt eng number ctx xp e q ps k V a s n) (ops : List (ListOp α))
    (hops : ∀ op ∈ ops, op.supported = true ∧ ∀ v ∈ op.values, V.storable v) :
    ∃ n', (listOps eng ctx k xp e a ops s).2 = s.modify a (fun _ => n') ∧ SameButMembers q ps n n' := by
  obtain ⟨put, hS⟩ := h.kind.store_ok h.num
  obtain ⟨ax, t, es, rfl⟩ := res_single h.field.path
  obtain ⟨n', h1, -, h3⟩ := runOps_run h.engine h.field.parse h.field.path (pathOk_single h.field.ok) hS ops h.node ⟨h.fits, rfl⟩ hops
  exact ⟨n', congrArg Prod.snd h1, h3⟩

/-- C26.  After `obj.field = vs` the field shows `vs`, whatever it showed before, and nothing but the members changed. -/
theorem C26_assign_reads_back (h : ListAt eng number ctx xp e q ps k V a s n) (vs : List α) (hvs : ∀ v ∈ vs, V.storable v) :
    ∃ n', writeList eng ctx k xp e a vs s = (.ok (), s.modify a (fun _ => n')) ∧
      readList eng ctx k xp a (s.modify a (fun _ => n')) = (.ok vs, s.modify a (fun _ => n')) ∧ SameButMembers q ps n n' := by
  obtain ⟨put, hS⟩ := h.kind.store_ok h.num
  obtain ⟨ax, t, es, rfl⟩ := res_single h.field.path
  obtain ⟨n', h1, h2, h3⟩ := listAssign_run h.engine h.field.parse h.field.path (pathOk_single h.field.ok) hS vs h.node ⟨h.fits, rfl⟩ hvs
  exact ⟨n', h1, listData_run h.engine h.field.parse h.field.path hS (by rw [Node.get_modify, h.node]; rfl) h2, h3⟩

/-- C27.  `del obj.field` removes every member and nothing else; the field then shows the empty list. -/
theorem C27_delete_empties (h : ListAt eng number ctx xp e q ps k V a s n) :
    ∃ n', deleteList eng ctx k xp a s = (.ok (), s.modify a (fun _ => n')) ∧ members q ps n' = [] ∧ SameButMembers q ps n n' ∧
      readList eng ctx k xp a (s.modify a (fun _ => n')) = (.ok [], s.modify a (fun _ => n')) := by
  obtain ⟨put, hS⟩ := h.kind.store_ok h.num
  obtain ⟨ax, t, es, rfl⟩ := res_single h.field.path
  obtain ⟨n', h1, h2, h3⟩ := listDeleteAll_run h.engine h.field.parse h.field.path hS h.node ⟨h.fits, rfl⟩
  exact ⟨n', h1, by simpa using h2.2, h3, listData_run h.engine h.field.parse h.field.path hS (by rw [Node.get_modify, h.node]; rfl) h2⟩

/-- C28.  `obj.field.append(v)` puts a new member that shows `v` directly behind the last member, or at the end of the element if there is none;
nothing else changes. -/
theorem C28_append_position (h : ListAt eng number ctx xp e q ps k V a s n) (v : α) (hv : V.storable v) :
    ∃ c n', listOp eng ctx k xp e a (.append v) s = (.ok .unit, s.modify a (fun _ => n')) ∧ isMember q ps c = true ∧ V.item c = v ∧
      InsertedLast q ps c n n' := by
  obtain ⟨put, hS⟩ := h.kind.store_ok h.num
  obtain ⟨ax, t, es, rfl⟩ := res_single h.field.path
  have hok := pathOk_single h.field.ok
  obtain ⟨n', h1, -, -, h4⟩ := listSet_end h.engine h.field.parse h.field.path hok hS h.node ⟨h.fits, rfl⟩ hv
  have hnew : isMember q ps (newElem q ps) = true := by simp [isMember, newElem_isElem, newElem_sat hok]
  refine ⟨_, n', ?_, hS.new.member hnew v hv, hS.new.value v hv, h4⟩
  have : listAppend eng ctx k.read k.store xp (.step ax t es) (.elem a) v s = (.ok (), s.modify a (fun _ => n')) := by
    unfold listAppend
    rw [bind_ok (listLen_run h.engine h.field.parse h.field.path hS h.node ⟨h.fits, rfl⟩)]
    exact h1
  show (listAppend eng ctx k.read k.store xp (.step ax t es) (.elem a) v >>= fun _ => pure ListRes.unit) s = _
  rw [bind_ok this]
  rfl

/-- C30.  An operation that fails on the Python list (index out of range, value not in the list) raises the same error on the field and leaves the
document as it was. -/
theorem C30_errors_change_nothing (h : ListAt eng number ctx xp e q ps k V a s n) (op : ListOp α) (hsup : op.supported = true) (er : PyErr)
    (her : (pyList ((members q ps n).map V.item) op).1 = .error er) : listOp eng ctx k xp e a op s = (.error er, s) := by
  obtain ⟨put, hS⟩ := h.kind.store_ok h.num
  obtain ⟨ax, t, es, rfl⟩ := res_single h.field.path
  exact runOp_error h.engine h.field.parse h.field.path hS h.node ⟨h.fits, rfl⟩ op hsup her

/-- C30, spelled out for indices: reading, assigning, deleting, popping outside of `-len .. len-1` (assigning: `len`) and inserting behind the end
raise `IndexError` and change nothing. -/
theorem C30_index_out_of_range (h : ListAt eng number ctx xp e q ps k V a s n) (i : Int) (v : α) :
    (i < -((members q ps n).length : Int) ∨ ((members q ps n).length : Int) ≤ i →
      listOp eng ctx k xp e a (.get i) s = (.error .indexError, s) ∧ listOp eng ctx k xp e a (.del i) s = (.error .indexError, s) ∧
      listOp eng ctx k xp e a (.pop (some i)) s = (.error .indexError, s)) ∧
    (i < -((members q ps n).length : Int) ∨ ((members q ps n).length : Int) < i → listOp eng ctx k xp e a (.set i v) s = (.error .indexError, s)) ∧
    (((members q ps n).length : Int) < i → listOp eng ctx k xp e a (.insert i v) s = (.error .indexError, s)) := by
  have hpos : i < -((members q ps n).length : Int) ∨ ((members q ps n).length : Int) ≤ i → pos ((members q ps n).map V.item).length i = none := by
    intro hi
    rw [List.length_map]
    unfold pos
    rw [if_neg (by omega), if_neg (by omega)]
  refine ⟨fun hi => ⟨?_, ?_, ?_⟩, fun hi => ?_, fun hi => ?_⟩
  · exact C30_errors_change_nothing h _ rfl _ (by simp only [pyList, hpos hi])
  · exact C30_errors_change_nothing h _ rfl _ (by simp only [pyList, hpos hi])
  · exact C30_errors_change_nothing h _ rfl _ (by simp only [pyList, Option.getD_some, hpos hi])
  · refine C30_errors_change_nothing h _ rfl _ ?_
    simp only [pyList]
    rw [if_neg (by rw [List.length_map]; omega), hpos (by omega)]
  · refine C30_errors_change_nothing h _ (by simp [ListOp.supported]; omega) _ ?_
    simp only [pyList]
    rw [if_neg (by rw [List.length_map]; omega)]

/-- C30, spelled out for values: `remove` and `index` of a value that is not there raise `ValueError` and change nothing. -/
theorem C30_absent_value (h : ListAt eng number ctx xp e q ps k V a s n) (v : α) (hv : ∀ m ∈ members q ps n, V.item m ≠ v) :
    listOp eng ctx k xp e a (.remove v) s = (.error .valueError, s) ∧ listOp eng ctx k xp e a (.index v) s = (.error .valueError, s) := by
  have : v ∉ (members q ps n).map V.item := by
    intro hm
    obtain ⟨m, h1, h2⟩ := List.mem_map.1 hm
    exact hv m h1 h2
  constructor
  · exact C30_errors_change_nothing h _ rfl _ (by simp only [pyList, if_neg this])
  · exact C30_errors_change_nothing h _ rfl _ (by simp only [pyList, if_neg this])

end

/-! ### the hypotheses can be met -/

/-- `<r k="v">t<a n="1">one</a>x<!--c--><b/><a n="1">two</a><a n="2">three</a></r>` -/
def listDoc : Node := .mk (.elem ⟨none, c%"r"⟩) [(⟨none, c%"k"⟩, c%"v")] (some c%"t")
  [.mk (.elem ⟨none, c%"a"⟩) [(⟨none, c%"n"⟩, c%"1")] (some c%"one") [] (some c%"x"),
   .mk .comment [] (some c%"c") [] none,
   .mk (.elem ⟨none, c%"b"⟩) [] none [] none,
   .mk (.elem ⟨none, c%"a"⟩) [(⟨none, c%"n"⟩, c%"1")] (some c%"two") [] none,
   .mk (.elem ⟨none, c%"a"⟩) [(⟨none, c%"n"⟩, c%"2")] (some c%"three") [] none] none

theorem strip_noWs {s : Str} (h : ∀ c ∈ s, isXmlWs c = false) : strip s = s := by
  have key : ∀ s : Str, (∀ c ∈ s, isXmlWs c = false) → s.dropWhile isXmlWs = s := by
    intro s h
    cases s with
    | nil => rfl
    | cons c s => rw [List.dropWhile_cons, if_neg (by simp [h c (by simp)])]
  unfold strip
  rw [key s h, key s.reverse (by simpa using h), List.reverse_reverse]

theorem isDigit_not_ws {c : Char} (h : isDigit c = true) : isXmlWs c = false := by
  simp only [isDigit, Bool.and_eq_true, decide_eq_true_eq] at h
  simp only [isXmlWs, Bool.or_eq_false_iff, beq_eq_false_iff_ne]
  refine ⟨⟨⟨?_, ?_⟩, ?_⟩, ?_⟩ <;> rintro rfl <;> revert h <;> decide

theorem takeWhile_all {s : Str} (h : ∀ c ∈ s, isDigit c = true) : s.takeWhile isDigit = s := by
  induction s with
  | nil => rfl
  | cons c s ih => rw [List.takeWhile_cons, if_pos (h c (by simp)), ih (fun d hd => h d (by simp [hd]))]

/-- The exact `number()` meets the contract. -/
theorem xpathNumber_ok : NumberOk xpathNumber where
  exact := by
    intro n _
    obtain ⟨h1, h2, h3, -⟩ := natStr_spec n.natAbs
    by_cases hn : n < 0
    · have : intStr n = '-' :: natStr n.natAbs := by unfold intStr; rw [if_pos hn]
      have hs : strip (intStr n) = intStr n := strip_noWs (by
        rw [this]; intro c hc
        rcases List.mem_cons.1 hc with rfl | hc
        · decide
        · exact isDigit_not_ws (h2 c hc))
      rw [this] at hs
      unfold xpathNumber
      simp only [hs, this, List.head?_cons, beq_self_eq_true, if_true, List.drop_one, List.tail_cons, takeWhile_all h2, List.drop_length, h3,
        if_neg h1, hn, decide_true]
    · have : intStr n = natStr n.natAbs := by unfold intStr; rw [if_neg hn]
      have hs : strip (intStr n) = intStr n := strip_noWs (by
        rw [this]; intro c hc; exact isDigit_not_ws (h2 c hc))
      rw [this] at hs
      have hm : ((natStr n.natAbs).head? == some '-') = false := by
        cases hh : natStr n.natAbs with
        | nil => rfl
        | cons c s =>
          have := h2 c (by rw [hh]; simp)
          simp only [List.head?_cons, beq_eq_false_iff_ne, ne_eq, Option.some.injEq]
          rintro rfl
          revert this
          decide
      unfold xpathNumber
      simp only [hs, this, hm, Bool.false_eq_true, if_false, takeWhile_all h2, List.drop_length, h3, if_neg h1, hn, decide_false]
  empty := by decide

theorem listField : SimpleField sampleCtx c%"a[@n='1']" (ast c%"a[@n='1']") [.child ⟨none, c%"a"⟩ [.attr ⟨none, c%"n"⟩ (some (.str c%"1"))]] where
  parse := by decide
  path := by rfl
  canonical := by decide
  ok := by decide

/-- A string list with two members among five children. -/
theorem listAt_str : ListAt refEngine xpathNumber sampleCtx c%"a[@n='1']" (ast c%"a[@n='1']") ⟨none, c%"a"⟩ [.attr ⟨none, c%"n"⟩ (some (.str c%"1"))]
    (strKind sampleCtx (ast c%"a[@n='1']")) strView [] listDoc listDoc where
  engine := refEngine_ok
  num := xpathNumber_ok
  field := listField
  kind := .str (by decide)
  node := rfl
  fits := by
    have : ∀ m ∈ members ⟨none, c%"a"⟩ [.attr ⟨none, c%"n"⟩ (some (.str c%"1"))] listDoc, m.children = [] := by decide
    exact this

/-- An integer list. -/
theorem listAt_int : ListAt refEngine xpathNumber sampleCtx c%"a[@n='1']" (ast c%"a[@n='1']") ⟨none, c%"a"⟩ [.attr ⟨none, c%"n"⟩ (some (.str c%"1"))]
    (intKind xpathNumber sampleCtx (ast c%"a[@n='1']")) (intView xpathNumber) [] listDoc listDoc where
  engine := refEngine_ok
  num := xpathNumber_ok
  field := listField
  kind := .int (by decide)
  node := rfl
  fits := by
    have : ∀ m ∈ members ⟨none, c%"a"⟩ [.attr ⟨none, c%"n"⟩ (some (.str c%"1"))] listDoc, m.children = [] ∧ xpathNumber m.strVal = .nan := by decide
    intro m hm
    exact ⟨(this m hm).1, by rw [(this m hm).2]; simp⟩

/-- A list of elements. -/
theorem listAt_node : ListAt refEngine xpathNumber sampleCtx c%"a[@n='1']" (ast c%"a[@n='1']") ⟨none, c%"a"⟩ [.attr ⟨none, c%"n"⟩ (some (.str c%"1"))]
    nodeKind (nodeView ⟨none, c%"a"⟩ [.attr ⟨none, c%"n"⟩ (some (.str c%"1"))]) [] listDoc listDoc where
  engine := refEngine_ok
  num := xpathNumber_ok
  field := listField
  kind := .node
  node := rfl
  fits := by intro m _; trivial

/-- `<r><d>2024-02-29</d><d>1999-12-31</d></r>` -/
def dateDoc : Node := .mk (.elem ⟨none, c%"r"⟩) [] none
  [.mk (.elem ⟨none, c%"d"⟩) [] (some c%"2024-02-29") [] none, .mk (.elem ⟨none, c%"d"⟩) [] (some c%"1999-12-31") [] none] none

/-- A list of dates. -/
theorem listAt_date : ListAt refEngine xpathNumber sampleCtx c%"d" (ast c%"d") ⟨none, c%"d"⟩ []
    (dateKind sampleCtx (ast c%"d")) (readView (dateKind sampleCtx (ast c%"d")).read (fun d => RealDateTime d ∧ d.isDate = true ∧ 1000 ≤ d.year)) [] dateDoc dateDoc where
  engine := refEngine_ok
  num := xpathNumber_ok
  field := { parse := by decide, path := by rfl, canonical := by decide, ok := by decide }
  kind := .date (by decide)
  node := rfl
  fits := by
    have : members ⟨none, c%"d"⟩ [] dateDoc = [.mk (.elem ⟨none, c%"d"⟩) [] (some c%"2024-02-29") [] none, .mk (.elem ⟨none, c%"d"⟩) [] (some c%"1999-12-31") [] none] := by decide
    rw [this]
    intro m hm
    simp only [List.mem_cons, List.not_mem_nil, or_false] at hm
    rcases hm with rfl | rfl
    · exact ⟨rfl, some ⟨2024, 2, 29, 0, 0, 0, 0⟩, by decide⟩
    · exact ⟨rfl, some ⟨1999, 12, 31, 0, 0, 0, 0⟩, by decide⟩

/-- C25 for a list of dates: insert in front, remove, assign at the end. -/
example : ∃ s', listOps refEngine sampleCtx (dateKind sampleCtx (ast c%"d")) c%"d" (ast c%"d") []
      [.insert 0 (some ⟨2000, 1, 1, 0, 0, 0, 0⟩), .remove (some ⟨2024, 2, 29, 0, 0, 0, 0⟩), .len] dateDoc = ([.ok .unit, .ok .unit, .ok (.nat 2)], s') ∧
    readList refEngine sampleCtx (dateKind sampleCtx (ast c%"d")) c%"d" [] s' = (.ok [some ⟨2000, 1, 1, 0, 0, 0, 0⟩, some ⟨1999, 12, 31, 0, 0, 0, 0⟩], s') := by
  obtain ⟨s', h1, h2⟩ := C25_list_refinement listAt_date
    [.insert 0 (some ⟨2000, 1, 1, 0, 0, 0, 0⟩), .remove (some ⟨2024, 2, 29, 0, 0, 0, 0⟩), .len] (by
      intro op hop
      simp only [List.mem_cons, List.not_mem_nil, or_false] at hop
      rcases hop with rfl | rfl | rfl <;>
        refine ⟨by decide, fun v hv => ?_⟩ <;> simp only [ListOp.values, List.mem_cons, List.not_mem_nil, or_false] at hv
      subst hv
      exact ⟨_, rfl, (valid_iff _).mp (by decide), by decide, by decide⟩)
  refine ⟨s', ?_, ?_⟩
  · rw [h1]; congr 1
  · rw [h2]; congr 1

/-- What C25 says for a concrete history: append, insert in front, pop, assign from the back, remove something absent. -/
example : ∃ s', listOps refEngine sampleCtx (strKind sampleCtx (ast c%"a[@n='1']")) c%"a[@n='1']" (ast c%"a[@n='1']") []
      [.append (some c%"z"), .insert 0 (some c%"y"), .pop (some 1), .set (-1) (some c%"w"), .remove (some c%"q"), .len] listDoc
      = ([.ok .unit, .ok .unit, .ok (.val (some c%"one")), .ok .unit, .error .valueError, .ok (.nat 3)], s') ∧
    readList refEngine sampleCtx (strKind sampleCtx (ast c%"a[@n='1']")) c%"a[@n='1']" [] s' = (.ok [some c%"y", some c%"two", some c%"w"], s') := by
  obtain ⟨s', h1, h2⟩ := C25_list_refinement listAt_str
    [.append (some c%"z"), .insert 0 (some c%"y"), .pop (some 1), .set (-1) (some c%"w"), .remove (some c%"q"), .len] (by
      intro op hop
      simp only [List.mem_cons, List.not_mem_nil, or_false] at hop
      rcases hop with rfl | rfl | rfl | rfl | rfl | rfl <;>
        refine ⟨by decide, fun v hv => ?_⟩ <;> simp only [ListOp.values, List.mem_cons, List.not_mem_nil, or_false] at hv <;>
        subst hv <;> exact ⟨_, rfl, by decide⟩)
  refine ⟨s', ?_, ?_⟩
  · rw [h1]; congr 1
  · rw [h2]; congr 1

/-! ### counterexamples: what the restrictions exclude -/

/-- C25 is false for insertion at a negative index: `insert(-1, x)` overwrites the last item and leaves an empty member. -/
theorem C25_counterexample_negative_insert :
    let k := strKind sampleCtx (ast c%"a[@n='1']")
    readList refEngine sampleCtx k c%"a[@n='1']" [] listDoc = (.ok [some c%"one", some c%"two"], listDoc) ∧
    (readList refEngine sampleCtx k c%"a[@n='1']" []
      (listOp refEngine sampleCtx k c%"a[@n='1']" (ast c%"a[@n='1']") [] (.insert (-1) (some c%"x")) listDoc).2).1 =
      .ok [some c%"one", some [], some c%"x"] := by
  constructor <;> decide

/-- `<r><b><a>1</a></b><b><a>2</a></b></r>` -/
def twoParents : Node := .mk (.elem ⟨none, c%"r"⟩) [] none
  [.mk (.elem ⟨none, c%"b"⟩) [] none [.mk (.elem ⟨none, c%"a"⟩) [] (some c%"1") [] none] none,
   .mk (.elem ⟨none, c%"b"⟩) [] none [.mk (.elem ⟨none, c%"a"⟩) [] (some c%"2") [] none] none] none

/-- C25 and C28 are false for paths of several steps: `append` on `b/a` puts the new item under the first `b`, so that it is not the last one. -/
theorem C28_counterexample_two_steps :
    let k := strKind sampleCtx (ast c%"b/a")
    (readList refEngine sampleCtx k c%"b/a" [] (listOp refEngine sampleCtx k c%"b/a" (ast c%"b/a") [] (.append (some c%"3")) twoParents).2).1 =
      .ok [some c%"1", some c%"3", some c%"2"] := by
  decide

/-- C25 is false for lists of attributes: items cannot be deleted (`TypeError`), and C27 is false for them. -/
theorem C27_counterexample_attributes :
    let k := strKind sampleCtx (ast c%"a/@n")
    readList refEngine sampleCtx k c%"a/@n" [] listDoc = (.ok [some c%"1", some c%"1", some c%"2"], listDoc) ∧
    listOp refEngine sampleCtx k c%"a/@n" (ast c%"a/@n") [] (.del 0) listDoc = (.error .typeError, listDoc) ∧
    deleteList refEngine sampleCtx k c%"a/@n" [] listDoc = (.error .typeError, listDoc) := by
  refine ⟨?_, ?_, ?_⟩ <;> decide

/-- C25 is false for lists of elements if the assigned element is a member itself: `lst[0] = lst[1]` moves it, the list becomes shorter. -/
theorem C25_counterexample_own_element :
    let k : ListKind Node := nodeKind
    ∃ x y, (readList refEngine sampleCtx k c%"a[@n='1']" [] listDoc).1 = .ok [x, y] ∧
      (readList refEngine sampleCtx k c%"a[@n='1']" [] 
        (listSet refEngine sampleCtx storeNode c%"a[@n='1']" (ast c%"a[@n='1']") (.elem []) 0 (.own [3]) listDoc).2).1 = .ok [y] := by
  refine ⟨.mk (.elem ⟨none, c%"a"⟩) [(⟨none, c%"n"⟩, c%"1")] (some c%"one") [] (some c%"x"),
   .mk (.elem ⟨none, c%"a"⟩) [(⟨none, c%"n"⟩, c%"1")] (some c%"two") [] none, ?_, ?_⟩ <;> decide

/-- A list field whose XPath gives a number or a boolean, e.g. `count(a)`: `len()`, reading, and appending raise `TypeError`, nothing changes. -/
theorem C25_counterexample_scalar [PyUnicode] {α : Type} [DecidableEq α] (eng : Engine) (ctx : Ctx) (k : ListKind α) (xp : Str) (e : Expr) (a : Node.Addr) (s : Node) (v : XVal)
    (hv : eng.xpath xp s a ctx = .ok v) (hs : (∃ x, v = .num x) ∨ ∃ b, v = .bool b) (op : ListOp α) (ho : op = .len ∨ (∃ i, op = .get i) ∨ ∃ x, op = .append x) :
    readList eng ctx k xp a s = (.error .typeError, s) ∧ listOp eng ctx k xp e a op s = (.error .typeError, s) := by
  have hm : listMatches eng ctx xp (.elem a) s = (.error .typeError, s) := by
    unfold listMatches
    rw [bind_ok (show evalXPath eng ctx xp (.elem a) s = (.ok v, s) by show (eng.xpath xp s a ctx, s) = _; rw [hv])]
    rcases hs with ⟨x, rfl⟩ | ⟨b, rfl⟩ <;> rfl
  have hd : listData eng ctx k.read xp (.elem a) s = (.error .typeError, s) := bind_err hm
  have hl : listLen eng ctx k.read xp (.elem a) s = (.error .typeError, s) := bind_err hd
  refine ⟨hd, ?_⟩
  rcases ho with rfl | ⟨i, rfl⟩ | ⟨x, rfl⟩
  · exact bind_err hl
  · exact bind_err (bind_err hm)
  · exact bind_err (bind_err hl)

/-! ### the other theorems applied to this document -/

example := C26_assign_reads_back listAt_str [some c%"x", some c%"y"] (by
  intro v hv
  simp only [List.mem_cons, List.not_mem_nil, or_false] at hv
  rcases hv with rfl | rfl <;> exact ⟨_, rfl, by decide⟩)
example := C27_delete_empties listAt_str
example := C28_append_position listAt_str (some c%"x") ⟨_, rfl, by decide⟩
example := C29_list_frame listAt_str [.append (some c%"z"), .pop none] (by
  intro op hop
  simp only [List.mem_cons, List.not_mem_nil, or_false] at hop
  rcases hop with rfl | rfl <;>
    refine ⟨by decide, fun v hv => ?_⟩ <;> simp only [ListOp.values, List.mem_cons, List.not_mem_nil, or_false] at hv <;>
    subst hv <;> exact ⟨_, rfl, by decide⟩)
example := C30_errors_change_nothing listAt_str (.pop (some 7)) rfl .indexError (by decide +kernel)
example := (C30_index_out_of_range listAt_str 7 (some c%"x")).1 (by decide +kernel)
example := C30_absent_value listAt_str (some c%"zzz") (by decide +kernel)

end Props
