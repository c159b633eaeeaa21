import Verif.Props.Record
/-
Property C74: an XmlObject with single-value fields and list fields side by side behaves like a record of values and Python lists.

Model: `managerSet`, `managerDelete` (Verif/XmlMap/Manager.lean), the operations of `NodeList` (Verif/XmlMap/NodeList.lean).
Specification: the replay of a history on a record and on Python lists (Verif/Spec/PyList.lean), below.
-/
namespace Props
open XPath Xml Spec Fields

/-- A list field: the child step `q[ps]`, its items, and how it reads and stores them. -/
structure LField where
  α : Type
  dec : DecidableEq α
  xp : Str
  e : Expr
  q : QName
  ps : List Pred
  k : ListKind α
  V : ListView α

instance (f : LField) : DecidableEq f.α := f.dec

/-- A list field of one of the three kinds of C25, with attribute predicates. -/
structure LField.Ok [PyUnicode] (number : Str → XNum) (ctx : Ctx) (f : LField) : Prop where
  field : SimpleField ctx f.xp f.e [.child f.q f.ps]
  kind : Covered number ctx f.e f.q f.ps f.k f.V
  preds : attrOnly f.ps = true

section
variable {ι κ : Type} (fs : ι → RField) (ls : κ → LField)

/-- An operation: on a single-value field, on a list, `obj.l = vs`, or `del obj.l`. -/
inductive MOp where
  | field (op : ROp fs)
  | list (l : κ) (op : ListOp (ls l).α)
  | assign (l : κ) (vs : List (ls l).α)
  | clear (l : κ)

/-- What an operation gives back. -/
inductive MRes where
  | done (r : Except PyErr Unit)
  | list (l : κ) (r : Except PyErr (ListRes (ls l).α))

/-- What the object shows: values of the single-value fields, and lists. -/
structure MState where
  vals : Rec fs
  lists : (l : κ) → List (ls l).α

variable {fs ls}

/-- The effect of an operation on a record with Python lists. -/
def MOp.replay [DecidableEq ι] [DecidableEq κ] (st : MState fs ls) : MOp fs ls → MRes ls × MState fs ls
  | .field op => (.done (.ok ()), { st with vals := op.replay st.vals })
  | .list l op => (.list l (pyList (st.lists l) op).1, { st with lists := Function.update st.lists l (pyList (st.lists l) op).2 })
  | .assign l vs => (.done (.ok ()), { st with lists := Function.update st.lists l vs })
  | .clear l => (.done (.ok ()), { st with lists := Function.update st.lists l [] })

/-- A history on a record with Python lists: the results, and the end. -/
def replayAll [DecidableEq ι] [DecidableEq κ] (st : MState fs ls) : List (MOp fs ls) → List (MRes ls) × MState fs ls
  | [] => ([], st)
  | op :: ops => ((op.replay st).1 :: (replayAll (op.replay st).2 ops).1, (replayAll (op.replay st).2 ops).2)

/-- The operation on the object whose element is at `a`. -/
def MOp.run [PyUnicode] (eng : Engine) (ctx : Ctx) (a : Node.Addr) (s : Node) : MOp fs ls → MRes ls × Node
  | .field op => (.done (op.run eng ctx a s).1, (op.run eng ctx a s).2)
  | .list l op => (.list l (listOp eng ctx (ls l).k (ls l).xp (ls l).e a op s).1, (listOp eng ctx (ls l).k (ls l).xp (ls l).e a op s).2)
  | .assign l vs => (.done (writeList eng ctx (ls l).k (ls l).xp (ls l).e a vs s).1, (writeList eng ctx (ls l).k (ls l).xp (ls l).e a vs s).2)
  | .clear l => (.done (deleteList eng ctx (ls l).k (ls l).xp a s).1, (deleteList eng ctx (ls l).k (ls l).xp a s).2)

/-- A history: the results (exceptions do not end it), and the document at the end. -/
def runMixed [PyUnicode] (eng : Engine) (ctx : Ctx) (a : Node.Addr) (s : Node) : List (MOp fs ls) → List (MRes ls) × Node
  | [] => ([], s)
  | op :: ops => ((op.run eng ctx a s).1 :: (runMixed eng ctx a (op.run eng ctx a s).2 ops).1, (runMixed eng ctx a (op.run eng ctx a s).2 ops).2)

/-- Only values are assigned that the fields keep, no insertion at negative indices. -/
def MOp.Ok : MOp fs ls → Prop
  | .field op => op.Ok
  | .list l op => op.supported = true ∧ ∀ v ∈ op.values, (ls l).V.storable v
  | .assign l vs => ∀ v ∈ vs, (ls l).V.storable v
  | .clear _ => True

/-- The object shows the state. -/
def Shows [PyUnicode] (eng : Engine) (ctx : Ctx) (a : Node.Addr) (s : Node) (st : MState fs ls) : Prop :=
  (∀ i, readAs (fs i).toPython eng ctx (fs i).xp (fs i).e (.elem a) s = (st.vals i, s)) ∧
  ∀ l, readList eng ctx (ls l).k (ls l).xp a s = (.ok (st.lists l), s)

variable (fs ls) in
/-- The fields do not interfere: the paths part pairwise (a list is for its step). -/
structure NoClash : Prop where
  fields : ∀ i j, i ≠ j → Part (fs i).p (fs j).p
  lists : ∀ l m, l ≠ m → Apart (ls l).q (ls l).ps (ls m).q (ls m).ps
  both : ∀ i l, Part (fs i).p [.child (ls l).q (ls l).ps]

/-- The element has room for the single-value fields, and the lists can handle their members. -/
def Roomy (fs : ι → RField) (ls : κ → LField) (n : Node) : Prop := Tidy fs n ∧ ∀ l, ∀ m ∈ members (ls l).q (ls l).ps n, (ls l).V.fits m

/-! ### proof -/

theorem hits_members (q : QName) (ps : List Pred) (n : Node) : hits [.child q ps] n = (members q ps n).map .inl := by
  show (n.children.filter (okc q ps)).flatMap (fun m => [Sum.inl m]) = _
  rw [← List.map_eq_flatMap]
  rfl

theorem members_of_hits {q ps} {n n' : Node} (h : hits [.child q ps] n' = hits [.child q ps] n) : members q ps n' = members q ps n := by
  rw [hits_members, hits_members] at h
  exact (List.map_inj_right (fun x y h => by simpa using h)).mp h

/-- A child step that is apart from the list sees only children that are not members. -/
theorem filter_others {q ps q' ps'} (h : Apart q ps q' ps') (n : Node) : n.children.filter (okc q ps) = (others q' ps' n).filter (okc q ps) := by
  unfold others
  rw [List.filter_filter]
  apply List.filter_congr
  intro c _
  by_cases hc : okc q ps c = true
  · have := apart_okc h hc
    rw [hc, show isMember q' ps' c = false from this]
    rfl
  · rw [Bool.not_eq_true] at hc
    rw [hc]
    rfl

theorem hits_same {p : List Step} {q ps} (hp : Part p [.child q ps]) {n n' : Node} (hs : SameButMembers q ps n n') : hits p n' = hits p n := by
  match p, hp with
  | .attr t :: r, _ => simp only [hits, Node.attr?, hs.2.1]
  | .child q' ps' :: r, hp =>
    have ha : Apart q' ps' q ps := by
      rcases hp with h | ⟨-, -, h⟩
      · exact h
      · cases r <;> simp [Part] at h
    simp only [hits, filter_others ha, hs.2.2.2.2]

theorem uniq_same {p : List Step} {q ps} (hp : Part p [.child q ps]) {n n' : Node} (hs : SameButMembers q ps n n') (hu : Uniq p n) : Uniq p n' := by
  match p, hp with
  | .attr t :: r, _ => trivial
  | .child q' ps' :: r, hp =>
    have ha : Apart q' ps' q ps := by
      rcases hp with h | ⟨-, -, h⟩
      · exact h
      · cases r <;> simp [Part] at h
    have he : n'.children.filter (okc q' ps') = n.children.filter (okc q' ps') := by rw [filter_others ha, filter_others ha, hs.2.2.2.2]
    refine ⟨by rw [he]; exact hu.1, fun c hc hok => ?_⟩
    have : c ∈ n.children.filter (okc q' ps') := by rw [← he]; exact List.mem_filter.mpr ⟨hc, hok⟩
    exact hu.2 c (List.mem_filter.mp this).1 hok

theorem apart_symm {q ps q' ps'} (h : Apart q ps q' ps') : Apart q' ps' q ps := fun m h1 h2 h3 h4 => h m h3 h4 h1 h2

section
variable [PyUnicode] [DecidableEq ι] [DecidableEq κ] {eng : Engine} (heng : EngineOk eng) {number : Str → XNum} (hnum : NumberOk number) {ctx : Ctx}
  (hf : ∀ i, (fs i).Ok ctx) (hl : ∀ l, (ls l).Ok number ctx) (hsep : NoClash fs ls)

include heng hnum hf hl hsep

omit hsep [DecidableEq ι] [DecidableEq κ] in
/-- What the object shows is determined by the hits and the members. -/
theorem shows_iff {a : Node.Addr} {s n : Node} (hs : s.get a = some n) (hr : Roomy fs ls n) (st : MState fs ls) :
    Shows eng ctx a s st ↔ (∀ i, st.vals i = (fs i).toPython ((hits (fs i).p n).head?.map hitItem)) ∧
      ∀ l, st.lists l = (members (ls l).q (ls l).ps n).map (ls l).V.item := by
  have h1 : ∀ i, readAs (fs i).toPython eng ctx (fs i).xp (fs i).e (.elem a) s = ((fs i).toPython ((hits (fs i).p n).head?.map hitItem), s) :=
    fun i => read_item heng (hf i) hs (uniq_of_single (hf i).good (hr.1 i).1)
  have h2 : ∀ l, readList eng ctx (ls l).k (ls l).xp a s = (.ok ((members (ls l).q (ls l).ps n).map (ls l).V.item), s) := by
    intro l
    obtain ⟨put, hS⟩ := (hl l).kind.store_ok hnum
    obtain ⟨ax, t, es, he⟩ := res_single (hl l).field.path
    have hp := (hl l).field.parse
    have hpath := (hl l).field.path
    rw [he] at hp hpath
    exact listData_run heng hp hpath hS hs ⟨hr.2 l, rfl⟩
  constructor
  · rintro ⟨k1, k2⟩
    refine ⟨fun i => ?_, fun l => ?_⟩
    · have := (k1 i).symm.trans (h1 i)
      simpa using this
    · have := (k2 l).symm.trans (h2 l)
      simpa using this
  · rintro ⟨k1, k2⟩
    exact ⟨fun i => by rw [h1 i, k1 i], fun l => by rw [h2 l, k2 l]⟩

/-- A change of the members of one list. -/
theorem list_changed {a : Node.Addr} {s n : Node} (hs : s.get a = some n) (hr : Roomy fs ls n) {st : MState fs ls} (hst : Shows eng ctx a s st) (l : κ)
    {n' : Node} {v : List (ls l).α} (hh : Holds (ls l).q (ls l).ps (ls l).V.fits (ls l).V.item n' v) (hsame : SameButMembers (ls l).q (ls l).ps n n') :
    Roomy fs ls n' ∧ Shows eng ctx a (s.modify a (fun _ => n')) { st with lists := Function.update st.lists l v } := by
  have hs' : Node.get a (s.modify a (fun _ => n')) = some n' := by rw [Node.get_modify, hs]; rfl
  have hhits : ∀ i, hits (fs i).p n' = hits (fs i).p n := fun i => hits_same (hsep.both i l) hsame
  have hmem : ∀ m, m ≠ l → members (ls m).q (ls m).ps n' = members (ls m).q (ls m).ps n := by
    intro m hm
    have ha := hsep.lists m l hm
    show n'.children.filter (okc _ _) = n.children.filter (okc _ _)
    rw [filter_others ha, filter_others ha, hsame.2.2.2.2]
  have hr' : Roomy fs ls n' := by
    refine ⟨fun i => ?_, fun m => ?_⟩
    · have hg := (hf i).good
      have hp := ne_nil_of_field (hf i).simple
      have hu := uniq_of_single hg (hr.1 i).1
      have hu' := uniq_same (hsep.both i l) hsame hu
      refine ⟨single_of_uniq hg hu', ?_⟩
      rw [writable_hits hg hp hu', hhits i, ← writable_hits hg hp hu]
      exact (hr.1 i).2
    · by_cases hm : m = l
      · subst hm; exact hh.1
      · rw [hmem m hm]; exact hr.2 m
  obtain ⟨k1, k2⟩ := (shows_iff heng hnum hf hl hs hr st).mp hst
  refine ⟨hr', (shows_iff heng hnum hf hl hs' hr' _).mpr ⟨fun i => ?_, fun m => ?_⟩⟩
  · rw [hhits i]; exact k1 i
  · by_cases hm : m = l
    · subst hm
      simp only [Function.update_self]
      exact hh.2.symm
    · simp only [Function.update_of_ne hm]
      rw [hmem m hm]
      exact k2 m

/-- One operation. -/
theorem mop_run {a : Node.Addr} {s n : Node} (hs : s.get a = some n) (hr : Roomy fs ls n) {st : MState fs ls} (hst : Shows eng ctx a s st) (op : MOp fs ls)
    (hop : op.Ok) : ∃ n', op.run eng ctx a s = ((op.replay st).1, s.modify a (fun _ => n')) ∧ Roomy fs ls n' ∧
      Shows eng ctx a (s.modify a (fun _ => n')) (op.replay st).2 := by
  obtain ⟨k1, k2⟩ := (shows_iff heng hnum hf hl hs hr st).mp hst
  cases op with
  | field op =>
    obtain ⟨n', h1, h2, h3, h4⟩ := rop_run heng hf hsep.fields hs hr.1 op hop
    have hmem : ∀ l, members (ls l).q (ls l).ps n' = members (ls l).q (ls l).ps n := by
      intro l
      refine members_of_hits (h4 _ ?_ (fun i => hsep.both i l))
      have hok := pathOk_single (hl l).field.ok
      simp [Spec.good, hok, (hl l).preds, nextOk]
    have hr' : Roomy fs ls n' := ⟨h2, fun l => by rw [hmem l]; exact hr.2 l⟩
    have hs' : Node.get a (s.modify a (fun _ => n')) = some n' := by rw [Node.get_modify, hs]; rfl
    refine ⟨n', by simp only [MOp.run, h1]; rfl, hr', ?_⟩
    have hrec : readRec fs eng ctx a s = st.vals := by
      funext i
      unfold readRec
      rw [hst.1 i]
    refine ⟨fun i => ?_, fun l => ?_⟩
    · have := congrFun h3 i
      rw [hrec] at this
      show _ = (op.replay st.vals i, _)
      rw [← this]
      unfold readRec
      rw [read_item heng (hf i) hs' (uniq_of_single (hf i).good (h2 i).1)]
    · have h5 := ((shows_iff heng hnum hf hl hs' hr' ⟨fun i => (fs i).toPython ((hits (fs i).p n').head?.map hitItem), st.lists⟩).mpr
        ⟨fun _ => rfl, fun l => by rw [hmem l]; exact k2 l⟩).2 l
      exact h5
  | list l op =>
    obtain ⟨put, hS⟩ := (hl l).kind.store_ok hnum
    obtain ⟨ax, t, es, he⟩ := res_single (hl l).field.path
    have hp := (hl l).field.parse
    have hpath := (hl l).field.path
    rw [he] at hp hpath
    obtain ⟨n', h1, h2, h3⟩ := runOp_run heng hp hpath (pathOk_single (hl l).field.ok) hS hs ⟨hr.2 l, (k2 l).symm⟩ op hop.1 hop.2
    obtain ⟨r1, r2⟩ := list_changed heng hnum hf hl hsep hs hr hst l h2 h3
    refine ⟨n', ?_, r1, r2⟩
    simp only [MOp.run, MOp.replay]
    unfold listOp
    rw [he, h1]
  | assign l vs =>
    obtain ⟨put, hS⟩ := (hl l).kind.store_ok hnum
    obtain ⟨ax, t, es, he⟩ := res_single (hl l).field.path
    have hp := (hl l).field.parse
    have hpath := (hl l).field.path
    rw [he] at hp hpath
    obtain ⟨n', h1, h2, h3⟩ := listAssign_run heng hp hpath (pathOk_single (hl l).field.ok) hS vs hs ⟨hr.2 l, (k2 l).symm⟩ hop
    obtain ⟨r1, r2⟩ := list_changed heng hnum hf hl hsep hs hr hst l h2 h3
    refine ⟨n', ?_, r1, r2⟩
    simp only [MOp.run, MOp.replay]
    unfold writeList
    rw [he, h1]
  | clear l =>
    obtain ⟨put, hS⟩ := (hl l).kind.store_ok hnum
    obtain ⟨ax, t, es, he⟩ := res_single (hl l).field.path
    have hp := (hl l).field.parse
    have hpath := (hl l).field.path
    rw [he] at hp hpath
    obtain ⟨n', h1, h2, h3⟩ := listDeleteAll_run heng hp hpath hS hs ⟨hr.2 l, (k2 l).symm⟩
    obtain ⟨r1, r2⟩ := list_changed heng hnum hf hl hsep hs hr hst l h2 h3
    refine ⟨n', ?_, r1, r2⟩
    simp only [MOp.run, MOp.replay]
    unfold deleteList
    rw [h1]

/-- C74.  Let an object have single-value fields as in C69 and list fields as in C25 that do not interfere, and let it show the values and lists `st`.
Then every history of operations on fields and lists gives the results and errors of the same history on a record with Python lists, changes nothing outside
of the object's element, and at the end the object shows what the record holds. -/
theorem C74_mixed_history {a : Node.Addr} (ops : List (MOp fs ls)) (hops : ∀ op ∈ ops, op.Ok) {s n : Node} (hs : s.get a = some n) (hr : Roomy fs ls n)
    {st : MState fs ls} (hst : Shows eng ctx a s st) :
    ∃ n', runMixed eng ctx a s ops = ((replayAll st ops).1, s.modify a (fun _ => n')) ∧ Roomy fs ls n' ∧
      Shows eng ctx a (s.modify a (fun _ => n')) (replayAll st ops).2 := by
  induction ops generalizing s n st with
  | nil => exact ⟨n, by rw [Node.modify_id hs rfl]; rfl, hr, by rw [Node.modify_id hs rfl]; exact hst⟩
  | cons op ops ih =>
    obtain ⟨n1, h1, h2, h3⟩ := mop_run heng hnum hf hl hsep hs hr hst op (hops op (by simp))
    have hs1 : Node.get a (s.modify a (fun _ => n1)) = some n1 := by rw [Node.get_modify, hs]; rfl
    obtain ⟨n2, k1, k2, k3⟩ := ih (fun o ho => hops o (by simp [ho])) hs1 h2 h3
    rw [Node.modify_modify] at k1 k3
    refine ⟨n2, ?_, k2, k3⟩
    simp only [runMixed, replayAll, h1, k1]
    rfl

omit hsep [DecidableEq ι] [DecidableEq κ] in
/-- C74.  There always are values and lists that the object shows. -/
theorem C74_shows {a : Node.Addr} {s n : Node} (hs : s.get a = some n) (hr : Roomy fs ls n) : ∃ st : MState fs ls, Shows eng ctx a s st :=
  ⟨⟨fun i => (fs i).toPython ((hits (fs i).p n).head?.map hitItem), fun l => (members (ls l).q (ls l).ps n).map (ls l).V.item⟩,
    (shows_iff heng hnum hf hl hs hr _).mpr ⟨fun _ => rfl, fun _ => rfl⟩⟩

omit heng hnum hsep [DecidableEq ι] [DecidableEq κ] in
omit hl in
/-- C74.  A new element has room for all fields. -/
theorem C74_new_element (q : QName) : Roomy fs ls (Node.empty q) :=
  ⟨C69_new_element fs ctx hf q, fun l m hm => by simp [members] at hm⟩

end
end

/-! ### an example -/

/-- `<r>` with `n = IntegerField('info/@n')`, `title = StringField('title')`, and two lists: `names = StringListField('name')` and
`notes = StringListField("note[@type='x']")`. -/
def mixFields : Fin 2 → RField
  | 0 => intField xpathNumber c%"info/@n" (ast c%"info/@n") [.child ⟨none, c%"info"⟩ [], .attr ⟨none, c%"n"⟩]
  | 1 => strField c%"title" (ast c%"title") [.child ⟨none, c%"title"⟩ []]
def mixLists : Fin 2 → LField
  | 0 => ⟨Option Str, inferInstance, c%"name", ast c%"name", ⟨none, c%"name"⟩, [], strKind sampleCtx (ast c%"name"), strView⟩
  | 1 => ⟨Option Str, inferInstance, c%"note[@type='x']", ast c%"note[@type='x']", ⟨none, c%"note"⟩, [.attr ⟨none, c%"type"⟩ (some (.str c%"x"))],
      strKind sampleCtx (ast c%"note[@type='x']"), strView⟩

theorem mixFields_ok : ∀ i, (mixFields i).Ok sampleCtx
  | 0 => ⟨⟨by decide, by rfl, by decide, by decide⟩, by decide, by simp [mixFields, intField]⟩
  | 1 => ⟨⟨by decide, by rfl, by decide, by decide⟩, by decide, by simp [mixFields, strField]⟩

theorem mixLists_ok : ∀ l, (mixLists l).Ok xpathNumber sampleCtx
  | 0 => ⟨⟨by decide, by rfl, by decide, by decide⟩, .str rfl, rfl⟩
  | 1 => ⟨⟨by decide, by rfl, by decide, by decide⟩, .str rfl, rfl⟩

theorem mix_separate : NoClash mixFields mixLists where
  fields := by
    intro i j h
    match i, j, h with
    | 0, 0, h | 1, 1, h => exact absurd rfl h
    | 0, 1, _ | 1, 0, _ => exact .inl (C69_apart_names (by decide) _ _)
  lists := by
    intro i j h
    match i, j, h with
    | 0, 0, h | 1, 1, h => exact absurd rfl h
    | 0, 1, _ | 1, 0, _ => exact C69_apart_names (by decide) _ _
  both := by
    intro i j
    match i, j with
    | 0, 0 | 0, 1 | 1, 0 | 1, 1 => exact .inl (C69_apart_names (by decide) _ _)

/-- `names.append('A'); n = 5; notes = ['p', 'q']; names.append('B'); title = 'T'; names.pop(0); n` reads 5, the lists are `['B']` and `['p', 'q']`. -/
example : ∃ s', (runMixed (fs := mixFields) (ls := mixLists) refEngine sampleCtx [] bare [.list 0 (.append (some c%"A" : Option Str)),
      .field (.set 0 (some 5 : Option Int)), .assign 1 [(some c%"p" : Option Str), (some c%"q" : Option Str)], .list 0 (.append (some c%"B" : Option Str)),
      .field (.set 1 (some c%"T" : Option Str)), .list 0 (.pop (some 0))]).2 = s' ∧
    (readAs (mixFields 0).toPython refEngine sampleCtx (mixFields 0).xp (mixFields 0).e (.elem []) s').1 = .ok (some 5 : Option Int) ∧
    (readList refEngine sampleCtx (mixLists 0).k (mixLists 0).xp [] s').1 = .ok [(some c%"B" : Option Str)] ∧
    (readList refEngine sampleCtx (mixLists 1).k (mixLists 1).xp [] s').1 = .ok [(some c%"p" : Option Str), (some c%"q" : Option Str)] := by
  have hr : Roomy mixFields mixLists bare := C74_new_element mixFields_ok _
  obtain ⟨st, hst⟩ := C74_shows (a := []) refEngine_ok xpathNumber_ok mixFields_ok mixLists_ok (s := bare) rfl hr
  have hst0 := (shows_iff refEngine_ok xpathNumber_ok mixFields_ok mixLists_ok (a := []) (s := bare) rfl hr st).mp hst
  obtain ⟨n', h1, -, h3⟩ := C74_mixed_history refEngine_ok xpathNumber_ok mixFields_ok mixLists_ok mix_separate (a := [])
    [.list 0 (.append (some c%"A" : Option Str)),
      .field (.set 0 (some 5 : Option Int)), .assign 1 [(some c%"p" : Option Str), (some c%"q" : Option Str)], .list 0 (.append (some c%"B" : Option Str)),
      .field (.set 1 (some c%"T" : Option Str)), .list 0 (.pop (some 0))]
    (by
      intro op hop
      simp only [List.mem_cons, List.not_mem_nil, or_false] at hop
      rcases hop with rfl | rfl | rfl | rfl | rfl | rfl
      · exact ⟨rfl, fun v hv => by rw [show v = (some c%"A" : Option Str) from (List.mem_singleton (α := Option Str)).mp hv]; exact ⟨_, rfl, by decide⟩⟩
      · exact C69_keeps_integer xpathNumber xpathNumber_ok _ _ _ _ (fun n h => .inl rfl)
      · intro v hv
        rcases (List.mem_cons (b := (some c%"p" : Option Str))).mp hv with h | h
        · rw [show v = (some c%"p" : Option Str) from h]; exact ⟨_, rfl, by decide⟩
        · rw [show v = (some c%"q" : Option Str) from (List.mem_singleton (α := Option Str)).mp h]; exact ⟨_, rfl, by decide⟩
      · exact ⟨rfl, fun v hv => by rw [show v = (some c%"B" : Option Str) from (List.mem_singleton (α := Option Str)).mp hv]; exact ⟨_, rfl, by decide⟩⟩
      · exact C69_keeps_string _ _ _ _ (fun v hv => by cases hv; decide)
      · exact ⟨rfl, fun v hv => by simp [ListOp.values] at hv⟩) (s := bare) rfl hr hst
  have hl0 : st.lists 0 = [] := by rw [hst0.2 0]; rfl
  have hl1 : st.lists 1 = [] := by rw [hst0.2 1]; rfl
  refine ⟨_, rfl, ?_, ?_, ?_⟩
  · rw [h1]; exact congrArg Prod.fst (h3.1 0)
  · rw [h1, h3.2 0]
    simp [replayAll, MOp.replay, hl0, pyList, Function.update, pos]
    rfl
  · rw [h1, h3.2 1]
    simp [replayAll, MOp.replay, hl1, pyList, Function.update]
end Props
