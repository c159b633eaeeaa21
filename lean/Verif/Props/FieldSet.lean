import Verif.XmlMap.RefuseLemmas
import Verif.XmlMap.Mappers
import Verif.Spec.RefEngine
import Verif.Props.XPathParse
/-
Properties C12 - C15, C20, C21, C23: reading, writing and creating single-value fields.

Model: `managerGet`, `managerSet`, `managerCreate` (Verif/XmlMap/Manager.lean), on top of Verif/XmlMap/Fields.lean; mappers in
Verif/XmlMap/Mappers.lean.
Specification: simple paths and what they select (Verif/Spec/SimplePath.lean), what creating them means (Verif/Spec/Create.lean), frame
conditions (Verif/Spec/Frame.lean), refused steps (Verif/Spec/Field.lean).

`s` is the document, `a` the address of the XmlObject's element `n` in it.  The XPath engine is any engine that evaluates simple paths
correctly (`EngineOk`); `refEngine` is one.
-/
namespace Props
open XPath Xml Spec Fields

/-- Reading a string field (`normalize=False`), fields.py:100-111 with 620-625. -/
def readStr [PyUnicode] (eng : Engine) (ctx : Ctx) (xp : Str) (e : Expr) (node : Ref) : M (Option Str) :=
  managerGet eng ctx false (fun doc m => strToPython false (m.bind (itemOf doc))) xp e node

/-- Assigning to a string field, fields.py:627-645. -/
def writeStr [PyUnicode] (eng : Engine) (ctx : Ctx) (v : Str) (xp : Str) (e : Expr) (node : Ref) : M Unit :=
  managerSet eng ctx (.ok (some (.str v))) xp e node

/-! ### sample data -/

/-- Context with one declared prefix. -/
def sampleCtx : Ctx := ⟨some [(c%"m", c%"http://m")], [(c%"KIND", .str c%"k")]⟩

/-- `<r>t<m:a/><m:a id="1"><x/></m:a>u</r>` -/
def sampleDoc : Node := .mk (.elem ⟨none, c%"r"⟩) [] (some c%"t")
  [.mk (.elem ⟨some c%"http://m", c%"a"⟩) [] none [] none,
   .mk (.elem ⟨some c%"http://m", c%"a"⟩) [(⟨none, c%"id"⟩, c%"1")] none [.mk (.elem ⟨none, c%"x"⟩) [] none [] none] (some c%"u")] none

/-- The AST of an XPath that parses. -/
def ast (s : Str) : Expr := match parse0 s with | .ok e => e | .error _ => .root

/-- The steps of a simple path. -/
def steps (ctx : Ctx) (s : Str) : List Step := (resPath ctx (ast s)).getD []

/-- The hypotheses on the field hold for `m:a[@id='1']/b[@type=$KIND][c/@d]/e`. -/
theorem sampleField : SimpleField sampleCtx c%"m:a[@id='1']/b[@type=$KIND][c/@d]/e" (ast c%"m:a[@id='1']/b[@type=$KIND][c/@d]/e")
    [.child ⟨some c%"http://m", c%"a"⟩ [.attr ⟨none, c%"id"⟩ (some (.str c%"1"))],
     .child ⟨none, c%"b"⟩ [.attr ⟨none, c%"type"⟩ (some (.str c%"k")), .child ⟨none, c%"c"⟩ [] (.attr ⟨none, c%"d"⟩ none)],
     .child ⟨none, c%"e"⟩ []] where
  parse := by decide
  path := by rfl
  canonical := by decide
  ok := by decide

/-! ### C12 -/

theorem ne_nil_of_field [PyUnicode] {ctx xp e p} (h : SimpleField ctx xp e p) : p ≠ [] := res_ne_nil e h.path

theorem readStr_run0 [PyUnicode] {eng : Engine} (heng : EngineOk eng) {ctx xp e p} (hp : parse0 xp = .ok e) (hr : res ctx e = some (p, none)) {a s n}
    (hs : Node.get a s = some n) :
    readStr eng ctx xp e (.elem a) s
      = (.ok ((Step.matches p n).head?.bind (fun x => refText n x)), s) := by
  unfold readStr managerGet
  rw [bind_ok (findNode_path heng hp hr hs)]
  simp only [Bool.false_eq_true, and_false, if_false]
  rw [bind_ok (show getDoc s = (.ok s, s) from rfl)]
  cases hh : (Step.matches p n).head? with
  | none => rfl
  | some x =>
    obtain ⟨m, hm⟩ := get_of_match p n x (List.mem_of_mem_head? hh)
    have hg : s.get (a ++ x.addr) = some m := by rw [Node.get_append, hs]; exact hm
    cases x with
    | elem b =>
      simp only [Ref.addr] at hm hg
      simp only [Option.map_some, Ref.under, itemOf, hg, Option.bind_some, refText, hm]
      rfl
    | attr b q =>
      simp only [Ref.addr] at hm hg
      simp only [Option.map_some, Ref.under, itemOf, hg, Option.bind_some, refText, hm]
      cases Node.attr? q m <;> rfl
    | text b =>
      simp only [Ref.addr] at hm hg
      simp only [Option.map_some, Ref.under, itemOf, hg, Option.bind_some, refText, hm]
      cases m.text <;> rfl
    | tail b =>
      simp only [Ref.addr] at hm hg
      simp only [Option.map_some, Ref.under, itemOf, hg, Option.bind_some, refText, hm]
      cases m.tail <;> rfl

theorem readStr_run [PyUnicode] {eng : Engine} (heng : EngineOk eng) {ctx xp e p} (hf : SimpleField ctx xp e p) {a s n}
    (hs : Node.get a s = some n) :
    readStr eng ctx xp e (.elem a) s
      = (.ok ((Step.matches p n).head?.bind (fun x => refText n x)), s) := readStr_run0 heng hf.parse hf.path hs

/-- C12.  Assigning a string to a field with a simple path succeeds, and reading the field then returns the string: for every document in which
the first match (if any) can hold a string. -/
theorem C12_set_then_get [PyUnicode] (eng : Engine) (heng : EngineOk eng) (ctx : Ctx) (xp : Str) (e : Expr) (p : List Step)
    (hf : SimpleField ctx xp e p) (hso : stringOk p = true) (v : Str) (hv : xmlOk v = true) (a : Node.Addr) (s n : Node)
    (hs : s.get a = some n) (hw : Writable p n) :
    ∃ s', writeStr eng ctx v xp e (.elem a) s = (.ok (), s') ∧ readStr eng ctx xp e (.elem a) s' = (.ok (some v), s') := by
  refine ⟨_, managerSet_str heng hf.parse hf.path hf.canonical hf.ok hso hv hs hw, ?_⟩
  obtain ⟨x, h1, h2, -⟩ := write_read (v := v) hf.ok hso (ne_nil_of_field hf) hw
  rw [readStr_run heng hf (n := write p v n) (by rw [Node.get_modify, hs]; rfl), h1]
  simp [h2]

/-- The hypotheses can be met, with a missing suffix and a namespace. -/
example : ∃ s', writeStr refEngine sampleCtx c%"v" c%"m:a[@id='1']/b[@type=$KIND][c/@d]/e" (ast c%"m:a[@id='1']/b[@type=$KIND][c/@d]/e") (.elem []) sampleDoc
      = (.ok (), s') ∧
    readStr refEngine sampleCtx c%"m:a[@id='1']/b[@type=$KIND][c/@d]/e" (ast c%"m:a[@id='1']/b[@type=$KIND][c/@d]/e") (.elem []) s' = (.ok (some c%"v"), s') :=
  C12_set_then_get refEngine refEngine_ok _ _ _ _ sampleField (by decide) _ (by decide) _ _ sampleDoc rfl (by
    intro h
    have := congrArg List.length h
    revert this
    decide)

/-- C12, the other documents, part 1: if the first match is an element with children, the assignment is refused and nothing changes. -/
theorem C12_refused_children [PyUnicode] (eng : Engine) (heng : EngineOk eng) (ctx : Ctx) (xp : Str) (e : Expr) (p : List Step)
    (hf : SimpleField ctx xp e p) (v : Str) (a : Node.Addr) (s n : Node) (hs : s.get a = some n) (b : Node.Addr) (m : Node)
    (hx : (Step.matches p n).head? = some (.elem b)) (hm : n.get b = some m) (hc : m.children ≠ []) :
    writeStr eng ctx v xp e (.elem a) s = (.error .exception, s) := by
  unfold writeStr managerSet
  rw [bind_ok (ofExcept_run _ s), bind_ok (findNode_path heng hf.parse hf.path hs)]
  simp only [hx, Option.map_some, setValue]
  show setInXml ctx (.ref (.elem (a ++ b))) (some v) (findTerminalStep e) s = _
  have hg : s.get (a ++ b) = some m := by rw [Node.get_append, hs]; exact hm
  simp only [setInXml]
  rw [bind_ok (nodeAt_run hg), if_neg hc]
  rfl

example : writeStr refEngine sampleCtx c%"v" c%"m:a[@id='1']" (ast c%"m:a[@id='1']") (.elem []) sampleDoc = (.error .exception, sampleDoc) :=
  C12_refused_children refEngine refEngine_ok sampleCtx _ _ (steps sampleCtx c%"m:a[@id='1']")
    ⟨by decide, by rfl, by decide, by decide⟩ _ _ _ sampleDoc rfl [1] _ (by rfl) rfl (by simp)

/-- The unrestricted claim fails for an attribute called `text`: the element's text is written instead (`_is_text_nodetest`, fields.py:601-608). -/
theorem C12_counterexample_attribute_named_text :
    ∃ (eng : Engine), eng.xpath c%"@text" (.mk (.elem ⟨none, c%"r"⟩) [(⟨none, c%"text"⟩, c%"old")] none [] none) [] sampleCtx = .ok (.nodes [.attr [] ⟨none, c%"text"⟩]) ∧
      writeStr eng sampleCtx c%"new" c%"@text" (ast c%"@text") (.elem []) (.mk (.elem ⟨none, c%"r"⟩) [(⟨none, c%"text"⟩, c%"old")] none [] none)
        = (.ok (), .mk (.elem ⟨none, c%"r"⟩) [(⟨none, c%"text"⟩, c%"old")] (some c%"new") [] none) :=
  ⟨⟨fun _ _ _ _ => .ok (.nodes [.attr [] ⟨none, c%"text"⟩])⟩, rfl, by decide⟩

/-- The unrestricted claim fails if a predicate speaks about the next step: `a[b='x']/b` set to `y` on an empty element creates
`<a><b>x</b><b>y</b></a>` and then reads `x`. -/
theorem C12_counterexample_predicate_names_target :
    let doc : Node := .mk (.elem ⟨none, c%"r"⟩) [] none [] none
    let r := writeStr refEngine sampleCtx c%"y" c%"a[b='x']/b" (ast c%"a[b='x']/b") (.elem []) doc
    r.1 = .ok () ∧ (readStr refEngine sampleCtx c%"a[b='x']/b" (ast c%"a[b='x']/b") (.elem []) r.2).1 = .ok (some c%"x") := by decide

/-- The unrestricted claim fails for `text()` whose first match is the text after a child: the child's own text is written. -/
theorem C12_counterexample_tail_text :
    let doc : Node := .mk (.elem ⟨none, c%"r"⟩) [] none [.mk (.elem ⟨none, c%"a"⟩) [] none [] (some c%"t")] none
    let r := writeStr refEngine sampleCtx c%"y" c%"text()" (ast c%"text()") (.elem []) doc
    r.1 = .ok () ∧ (readStr refEngine sampleCtx c%"text()" (ast c%"text()") (.elem []) r.2).1 = .ok (some c%"t") := by decide

/-! ### C13 -/

/-- C13, for every XPath expression, every engine and both outcomes (success or exception): all elements stay where they are, with their tag and
tail; and there is at most one element whose text and attributes may change - the element of the match, if there is a match. -/
theorem C13_one_element [PyUnicode] (eng : Engine) (ctx : Ctx) (v xp : Str) (e : Expr) (node : Ref) (s : Node) :
    ∃ c0, Extends c0 s (writeStr eng ctx v xp e node s).2 ∧
      ∀ r, findNode eng ctx xp node s = (.ok (some (.ref r)), s) → c0 = some r.addr :=
  managerSet_frame v xp e node s

/-- C13, for simple paths: after the assignment the path selects `x` first, and the only differences are the text or attribute `x` and at most
one new last child (of `grown`), and no new child if there was a match. -/
theorem C13_only_target [PyUnicode] (eng : Engine) (heng : EngineOk eng) (ctx : Ctx) (xp : Str) (e : Expr) (p : List Step)
    (hf : SimpleField ctx xp e p) (hso : stringOk p = true) (v : Str) (hv : xmlOk v = true) (s : Node) (hw : Writable p s) :
    ∃ s' x grown, writeStr eng ctx v xp e (.elem []) s = (.ok (), s') ∧ (Step.matches p s').head? = some x ∧
      Kept x grown s s' ∧ (Step.matches p s ≠ [] → grown = none) := by
  obtain ⟨x, grown, h1, h2, h3⟩ := write_kept (v := v) hf.ok hso (ne_nil_of_field hf) hw
  exact ⟨_, x, grown, managerSet_str heng hf.parse hf.path hf.canonical hf.ok hso hv rfl hw, h1, h2, h3⟩

/-- C13, seen from the whole document: what is outside of the XmlObject's element is as before. -/
theorem C13_outside [PyUnicode] (eng : Engine) (heng : EngineOk eng) (ctx : Ctx) (xp : Str) (e : Expr) (p : List Step)
    (hf : SimpleField ctx xp e p) (hso : stringOk p = true) (v : Str) (hv : xmlOk v = true) (a : Node.Addr) (s n : Node)
    (hs : s.get a = some n) (hw : Writable p n) :
    ∃ n', writeStr eng ctx v xp e (.elem a) s = (.ok (), s.modify a (fun _ => n')) ∧
      writeStr eng ctx v xp e (.elem []) n = (.ok (), n') := by
  refine ⟨write p v n, ?_, managerSet_str heng hf.parse hf.path hf.canonical hf.ok hso hv rfl hw⟩
  rw [show writeStr eng ctx v xp e (.elem a) s = _ from managerSet_str heng hf.parse hf.path hf.canonical hf.ok hso hv hs hw]
  congr 1
  exact Node.modify_congr hs rfl

/-- The element and attribute of the sample field exist afterwards, and the rest is as it was. -/
example : writeStr refEngine sampleCtx c%"v" c%"m:a[@id='1']/b/@c" (ast c%"m:a[@id='1']/b/@c") (.elem []) sampleDoc = (.ok (),
    .mk (.elem ⟨none, c%"r"⟩) [] (some c%"t")
      [.mk (.elem ⟨some c%"http://m", c%"a"⟩) [] none [] none,
       .mk (.elem ⟨some c%"http://m", c%"a"⟩) [(⟨none, c%"id"⟩, c%"1")] none
        [.mk (.elem ⟨none, c%"x"⟩) [] none [] none, .mk (.elem ⟨none, c%"b"⟩) [(⟨none, c%"c"⟩, c%"v")] none [] none] (some c%"u")] none) := by
  decide

/-! ### C14 -/

/-- C14.  If the path has no match, the assignment creates exactly the steps behind the longest proper prefix that has a match, as a new last
child (or attribute, or text) of the first match of that prefix. -/
theorem C14_creates_missing [PyUnicode] (eng : Engine) (heng : EngineOk eng) (ctx : Ctx) (xp : Str) (e : Expr) (p : List Step)
    (hf : SimpleField ctx xp e p) (hso : stringOk p = true) (v : Str) (hv : xmlOk v = true) (a : Node.Addr) (s n : Node)
    (hs : s.get a = some n) (hw : Writable p n) (hno : Step.matches p n = []) :
    ∃ i b, i < p.length ∧ (Step.matches (p.take i) n).head? = some (.elem b) ∧
      (∀ j, i < j → j < p.length → Step.matches (p.take j) n = []) ∧
      writeStr eng ctx v xp e (.elem a) s = (.ok (), s.modify (a ++ b) (buildPath (p.drop i) (writeLast p v))) := by
  obtain ⟨i, hi, h2, h3, h4⟩ := missing_max hf.ok (ne_nil_of_field hf) n
  refine ⟨i, _, hi, h3, h4, ?_⟩
  rw [show writeStr eng ctx v xp e (.elem a) s = _ from managerSet_str heng hf.parse hf.path hf.canonical hf.ok hso hv hs hw]
  rw [Node.modify_append]
  congr 1
  apply Node.modify_congr hs
  unfold write
  rw [hno, ← h2]
  rfl

/-- C14, what "creating the steps" means for a child step: one new last child, which has the step's name and satisfies the step's
predicates; the existing children are the same. -/
theorem C14_one_new_child (q : QName) (ps : List Pred) (r : List Step) (k : Node → Node) (n : Node)
    (hok : pathOk (.child q ps :: r) = true) (hk : ∀ m, (k m).tag = m.tag ∧ (k m).children = m.children ∧ (k m).attrs = m.attrs) :
    ∃ c, buildPath (.child q ps :: r) k n = n.withChildren (n.children ++ [c]) ∧ c.tag = .elem q ∧ satAll ps c = true := by
  have hk' : LastEdit r.getLast? k := ⟨fun m => (hk m).1, fun m => (hk m).2.1, fun m q _ => by simp [Node.attr?, (hk m).2.2],
    fun m q h => by simpa [Node.attr?, (hk m).2.2] using h⟩
  simp only [pathOk, Bool.and_eq_true] at hok
  refine ⟨buildPath r k (newElem q ps), rfl, ?_, ?_⟩
  · rw [buildPath_tag r hk'.tag, newElem, buildAll_tag]; rfl
  · rw [satAll_buildPath hok.1.1 hok.1.2 hok.2 hk']; exact newElem_sat hok.1.1

/-! ### C15 -/

/-- C15, for every engine: if the field has no match and creation would start at a step that cannot be created (another axis, a node-type test,
a wildcard, a predicate that is refused), or the XPath is no path of steps at all, the assignment raises and the document is unchanged.
(The engine has to return nodes, not scalars, for the prefixes.) -/
theorem C15_refused [PyUnicode] (eng : Engine) (ctx : Ctx) (v xp : Str) (e : Expr) (node : Ref) (s : Node)
    (hnode : ∀ x r, ∀ o, (findNode eng ctx x r s).1 = .ok (some o) → ∃ y, o = .ref y)
    (hno : findNode eng ctx xp node s = (.ok none, s)) (hr : Refused (lookupIn eng ctx s) e node) :
    ∃ er, writeStr eng ctx v xp e node s = (.error er, s) := by
  obtain ⟨er, h⟩ := createNode_refused hnode e node hr
  refine ⟨er, ?_⟩
  unfold writeStr managerSet
  rw [bind_ok (ofExcept_run _ s), bind_ok hno]
  exact bind_err h

/-- An engine that finds nothing. -/
def emptyEngine : Engine := ⟨fun _ _ _ _ => .ok (.nodes [])⟩

theorem emptyEngine_nodes [PyUnicode] (ctx : Ctx) (s : Node) : ∀ x r, ∀ o, (findNode emptyEngine ctx x r s).1 = .ok (some o) → ∃ y, o = .ref y := by
  intro x r o h
  cases r <;> cases h

/-- The hypotheses hold for `following::b[1]/c` in an empty document, and for `//b`. -/
example : ∃ er, writeStr emptyEngine sampleCtx c%"v" c%"following::b/c" (ast c%"following::b/c") (.elem []) sampleDoc = (.error er, sampleDoc) :=
  C15_refused _ _ _ _ _ _ _ (emptyEngine_nodes _ _) rfl
    (.missing (l := .step (some c%"following") (.name none c%"b") []) (r := .step none (.name none c%"c") []) rfl (.step (by decide)))
example : ∃ er, writeStr emptyEngine sampleCtx c%"v" c%"//b" (ast c%"//b") (.elem []) sampleDoc = (.error er, sampleDoc) :=
  C15_refused _ _ _ _ _ _ _ (emptyEngine_nodes _ _) rfl (.other
    (by rw [show ast c%"//b" = .abs true (.step none (.name none c%"b") []) by decide]; intro ax t ps h; cases h)
    (by rw [show ast c%"//b" = .abs true (.step none (.name none c%"b") []) by decide]; intro l r h; cases h))

/-- Counterexample to the unrestricted claim: if a step in front of the refused one is missing too, it is created before the exception. -/
theorem C15_counterexample_garbage :
    let doc : Node := .mk (.elem ⟨none, c%"r"⟩) [] none [] none
    writeStr emptyEngine sampleCtx c%"v" c%"a/following::b" (ast c%"a/following::b") (.elem []) doc
      = (.error .nameError, .mk (.elem ⟨none, c%"r"⟩) [] none [.mk (.elem ⟨none, c%"a"⟩) [] none [] none] none) := by decide

/-- Counterexample: predicates other than steps, `/` and `=` are accepted silently and not built: `a[2]` creates a single `a`. -/
theorem C15_counterexample_silent :
    let doc : Node := .mk (.elem ⟨none, c%"r"⟩) [] none [] none
    writeStr emptyEngine sampleCtx c%"v" c%"a[2]" (ast c%"a[2]") (.elem []) doc
      = (.ok (), .mk (.elem ⟨none, c%"r"⟩) [] none [.mk (.elem ⟨none, c%"a"⟩) [] (some c%"v") [] none] none) := by decide

/-! ### C20 -/

/-- C20.  Reading a field (any expression, engine, mapper) does not change the document, whether it succeeds or raises. -/
theorem C20_read_is_pure [PyUnicode] {α : Type} (eng : Engine) (ctx : Ctx) (toPython : Node → Option Found → Except PyErr α) (xp : Str) (e : Expr)
    (node : Ref) (s : Node) : (managerGet eng ctx false toPython xp e node s).2 = s := by
  unfold managerGet
  obtain ⟨o, ho⟩ := findNode_state (eng := eng) (ctx := ctx) xp node s
  cases o with
  | error er => rw [bind_err ho]
  | ok o =>
    rw [bind_ok ho]
    simp only [Bool.false_eq_true, and_false, if_false]
    rw [bind_ok (show getDoc s = (.ok s, s) from rfl)]
    cases toPython s o <;> rfl

/-- C20.  If the XPath selects nothing, the field reads what its mapper makes of `None`: -/
theorem C20_absent [PyUnicode] {α : Type} (eng : Engine) (ctx : Ctx) (toPython : Node → Option Found → Except PyErr α) (xp : Str) (e : Expr)
    (node : Ref) (s : Node) (h : findNode eng ctx xp node s = (.ok none, s)) :
    managerGet eng ctx false toPython xp e node s = (ofExcept (toPython s none) : M α) s := by
  unfold managerGet
  rw [bind_ok h]
  simp only [Bool.false_eq_true, and_false, if_false]
  rw [bind_ok (show getDoc s = (.ok s, s) from rfl)]

/-- - `None` for strings, integers, dates and datetimes; `False` for a boolean without false value, else `None`. -/
theorem C20_none_values (norm : Bool) (number : Str → XNum) (t f : Str) :
    strToPython norm none = .ok none ∧ intToPython number none = .ok none ∧ dateTimeToPython norm none = .ok none ∧
    dateToPython none = .ok none ∧ boolToPython t none none = .ok (some false) ∧ boolToPython t (some f) none = .ok none :=
  ⟨rfl, rfl, rfl, rfl, rfl, rfl⟩

/-- C20 for simple paths: the field reads `None` exactly if nothing matches (or the match is a leading text that is absent, which cannot
be selected). -/
theorem C20_reads_first_match [PyUnicode] (eng : Engine) (heng : EngineOk eng) (ctx : Ctx) (xp : Str) (e : Expr) (p : List Step)
    (hf : SimpleField ctx xp e p) (a : Node.Addr) (s n : Node) (hs : s.get a = some n) :
    readStr eng ctx xp e (.elem a) s = (.ok ((Step.matches p n).head?.bind (fun x => refText n x)), s) :=
  readStr_run heng hf hs

example : readStr refEngine sampleCtx c%"m:a/@id" (ast c%"m:a/@id") (.elem []) sampleDoc = (.ok (some c%"1"), sampleDoc) := by decide
example : readStr refEngine sampleCtx c%"m:a/@idx" (ast c%"m:a/@idx") (.elem []) sampleDoc = (.ok none, sampleDoc) := by decide

/-! ### C21 -/

/-- C21.  `create_<field>()` makes the path match; a second call returns the same node and changes nothing; if there was a match, the first
call changes nothing either. -/
theorem C21_create_idempotent [PyUnicode] (eng : Engine) (heng : EngineOk eng) (ctx : Ctx) (xp : Str) (e : Expr) (p : List Step)
    (hf : SimpleField ctx xp e p) (hnt : p.getLast? ≠ some .text) (a : Node.Addr) (s n : Node) (hs : s.get a = some n) :
    ∃ r s' n', managerCreate eng ctx xp e (.elem a) s = (.ok (.ref r), s') ∧ managerCreate eng ctx xp e (.elem a) s' = (.ok (.ref r), s') ∧
      s'.get a = some n' ∧ (∃ x, (Step.matches p n').head? = some x ∧ r = x.under a) ∧ (Step.matches p n ≠ [] → s' = s) := by
  have hfn := findNode_path heng hf.parse hf.path hs
  cases hh : (Step.matches p n).head? with
  | some x =>
    rw [hh] at hfn
    have hc : managerCreate eng ctx xp e (.elem a) s = (.ok (.ref (x.under a)), s) := by
      unfold managerCreate
      rw [bind_ok hfn]
      rfl
    exact ⟨x.under a, s, n, hc, hc, hs, ⟨x, hh, rfl⟩, fun _ => rfl⟩
  | none =>
    have hno : Step.matches p n = [] := by simpa using hh
    have hp := ne_nil_of_field hf
    obtain ⟨m, hm⟩ := missing_get hf.ok n hp
    have hrun := createNode_run heng e p hf.path hf.ok hf.canonical a s n hs (.inl hno) m hm
    obtain ⟨pre, hpre, -, hne⟩ := missing_spec p n
    have hne := hne hp
    have hpl : p.getLast? = (missing p n).2.getLast? := getLast?_of_suffix hpre hne
    have hrok : pathOk (missing p n).2 = true := by
      have := hf.ok
      rw [hpre] at this
      exact (pathOk_append this hne).2.2
    obtain ⟨-, hcr⟩ := matches_create hf.ok hp hno hm (k := id) (lastEdit_id _) (fun h => absurd (hpl.trans h) hnt)
    have hcreated : created (missing p n).2 m = target (missing p n).2 m := by
      by_cases hq : ∃ q, (missing p n).2.getLast? = some (.attr q)
      · obtain ⟨q, hq⟩ := hq
        rw [created_attr hrok hq]
        have key : ∀ (r : List Step) (m : Node), pathOk r = true → r.getLast? = some (.attr q) → Ref.attr (target r m).addr q = target r m := by
          intro r
          induction r with
          | nil => intro m _ h; simp at h
          | cons st r ih =>
            intro m hok h
            cases st with
            | attr q' =>
              simp only [pathOk, List.isEmpty_iff] at hok
              subst hok
              simp only [List.getLast?_singleton, Option.some.injEq, Step.attr.injEq] at h
              subst h
              rfl
            | text =>
              simp only [pathOk, List.isEmpty_iff] at hok
              subst hok
              simp at h
            | child q' ps =>
              simp only [pathOk, Bool.and_eq_true] at hok
              cases r with
              | nil => simp at h
              | cons st' r =>
                rw [List.getLast?_cons_cons] at h
                have := ih (newElem q' ps) hok.2 h
                rw [target, under_addr, ← this]
                rfl
        exact key _ m hrok hq
      · have hac : allChild (missing p n).2 = true := by
          have key : ∀ (r : List Step), pathOk r = true → (∀ q, r.getLast? ≠ some (.attr q)) → r.getLast? ≠ some .text → allChild r = true := by
            intro r
            induction r with
            | nil => intros; rfl
            | cons st r ih =>
              intro hok h1 h2
              cases st with
              | attr q' =>
                simp only [pathOk, List.isEmpty_iff] at hok
                subst hok
                simp at h1
              | text =>
                simp only [pathOk, List.isEmpty_iff] at hok
                subst hok
                simp at h2
              | child q' ps =>
                simp only [pathOk, Bool.and_eq_true] at hok
                cases r with
                | nil => rfl
                | cons st' r =>
                  simp only [List.getLast?_cons_cons] at h1 h2
                  exact ih hok.2 h1 h2
          exact key _ hrok (fun q h => hq ⟨q, h⟩) (fun h => hnt (hpl.trans h))
        rw [created_allChild hac, ← target_allChild hac]
    have hc : managerCreate eng ctx xp e (.elem a) s
        = (.ok (.ref ((created (missing p n).2 m).under (a ++ (missing p n).1))), s.modify (a ++ (missing p n).1) (buildPath (missing p n).2 id)) := by
      unfold managerCreate
      rw [hh] at hfn
      rw [bind_ok hfn]
      exact bind_ok hrun
    have hg : (s.modify (a ++ (missing p n).1) (buildPath (missing p n).2 id)).get a
        = some (n.modify (missing p n).1 (buildPath (missing p n).2 id)) := by
      rw [Node.modify_append, Node.get_modify, hs]; rfl
    refine ⟨_, _, _, hc, ?_, hg, ⟨_, by rw [hcr]; rfl, by rw [hcreated, under_under]⟩, fun h => absurd hno h⟩
    have hfn' := findNode_path heng hf.parse hf.path hg
    rw [hcr] at hfn'
    unfold managerCreate
    rw [bind_ok hfn', hcreated]
    simp only [List.head?_cons, Option.map_some, under_under]
    rfl

example : (managerCreate refEngine sampleCtx c%"m:a/b" (ast c%"m:a/b") (.elem []) sampleDoc).1 = .ok (.ref (.elem [0, 0])) := by decide

/-! ### C23 -/

/-- C23.  Writing `v` and then `w` leaves the document that writing `w` leaves. -/
theorem C23_last_write_wins [PyUnicode] (eng : Engine) (heng : EngineOk eng) (ctx : Ctx) (xp : Str) (e : Expr) (p : List Step)
    (hf : SimpleField ctx xp e p) (hso : stringOk p = true) (v w : Str) (hv : xmlOk v = true) (hw : xmlOk w = true) (a : Node.Addr) (s n : Node)
    (hs : s.get a = some n) (hwr : Writable p n) :
    ∃ s₁ s₂, writeStr eng ctx v xp e (.elem a) s = (.ok (), s₁) ∧ writeStr eng ctx w xp e (.elem a) s₁ = (.ok (), s₂) ∧
      writeStr eng ctx w xp e (.elem a) s = (.ok (), s₂) := by
  have hp := ne_nil_of_field hf
  refine ⟨_, _, managerSet_str heng hf.parse hf.path hf.canonical hf.ok hso hv hs hwr, ?_,
    managerSet_str heng hf.parse hf.path hf.canonical hf.ok hso hw hs hwr⟩
  rw [show writeStr eng ctx w xp e (.elem a) _ = _ from managerSet_str heng hf.parse hf.path hf.canonical hf.ok hso hw
    (n := write p v n) (by rw [Node.get_modify, hs]; rfl) (writable_write hf.ok hso hp hwr)]
  rw [Node.modify_modify]
  congr 1
  apply Node.modify_congr hs
  exact write_write hf.ok hso hp hwr

/-- C23.  Writing the same value again changes nothing. -/
theorem C23_idempotent [PyUnicode] (eng : Engine) (heng : EngineOk eng) (ctx : Ctx) (xp : Str) (e : Expr) (p : List Step)
    (hf : SimpleField ctx xp e p) (hso : stringOk p = true) (v : Str) (hv : xmlOk v = true) (a : Node.Addr) (s n : Node)
    (hs : s.get a = some n) (hwr : Writable p n) :
    ∃ s₁, writeStr eng ctx v xp e (.elem a) s = (.ok (), s₁) ∧ writeStr eng ctx v xp e (.elem a) s₁ = (.ok (), s₁) := by
  obtain ⟨s₁, s₂, h1, h2, h3⟩ := C23_last_write_wins eng heng ctx xp e p hf hso v v hv hv a s n hs hwr
  rw [h1] at h3
  simp only [Prod.mk.injEq, true_and] at h3
  subst h3
  exact ⟨s₁, h1, h2⟩

/-! ### the theorems on concrete documents -/

/-- The XPath `m:a[@id='1']/b/@c`. -/
def newAttrXPath : Str := c%"m:a[@id='1']/b/@c"

theorem newAttr_field : SimpleField sampleCtx newAttrXPath (ast newAttrXPath) (steps sampleCtx newAttrXPath) := ⟨by decide, by rfl, by decide, by decide⟩

theorem newAttr_missing : Step.matches (steps sampleCtx newAttrXPath) sampleDoc = [] := by decide +kernel

theorem newAttr_writable : Writable (steps sampleCtx newAttrXPath) sampleDoc := by
  unfold Writable
  rw [newAttr_missing]
  intro h
  have h2 : (missing (steps sampleCtx newAttrXPath) sampleDoc).2.length = 2 := by decide +kernel
  rw [h] at h2
  cases h2

/-- The document in another one. -/
def outerDoc : Node := .mk (.elem ⟨none, c%"o"⟩) [] none [.mk .comment [] (some c%"-") [] none, sampleDoc] none

example : ∃ s' x grown, writeStr refEngine sampleCtx c%"v" newAttrXPath (ast newAttrXPath) (.elem []) sampleDoc = (.ok (), s') ∧
    (Step.matches (steps sampleCtx newAttrXPath) s').head? = some x ∧ Kept x grown sampleDoc s' ∧ (Step.matches (steps sampleCtx newAttrXPath) sampleDoc ≠ [] → grown = none) :=
  C13_only_target refEngine refEngine_ok _ _ _ _ newAttr_field (by decide) _ (by decide) _ newAttr_writable

example : ∃ n', writeStr refEngine sampleCtx c%"v" newAttrXPath (ast newAttrXPath) (.elem [1]) outerDoc = (.ok (), outerDoc.modify [1] (fun _ => n')) ∧
    writeStr refEngine sampleCtx c%"v" newAttrXPath (ast newAttrXPath) (.elem []) sampleDoc = (.ok (), n') :=
  C13_outside refEngine refEngine_ok _ _ _ _ newAttr_field (by decide) _ (by decide) [1] outerDoc sampleDoc rfl newAttr_writable

example : ∃ i b, i < (steps sampleCtx newAttrXPath).length ∧ (Step.matches ((steps sampleCtx newAttrXPath).take i) sampleDoc).head? = some (.elem b) ∧
    (∀ j, i < j → j < (steps sampleCtx newAttrXPath).length → Step.matches ((steps sampleCtx newAttrXPath).take j) sampleDoc = []) ∧
    writeStr refEngine sampleCtx c%"v" newAttrXPath (ast newAttrXPath) (.elem [1]) outerDoc
      = (.ok (), outerDoc.modify ([1] ++ b) (buildPath ((steps sampleCtx newAttrXPath).drop i) (writeLast (steps sampleCtx newAttrXPath) c%"v"))) :=
  C14_creates_missing refEngine refEngine_ok _ _ _ _ newAttr_field (by decide) _ (by decide) [1] outerDoc sampleDoc rfl newAttr_writable newAttr_missing

example (n : Node) : ∃ c, buildPath [.child ⟨none, c%"b"⟩ [.attr ⟨none, c%"t"⟩ (some (.str c%"1"))], .attr ⟨none, c%"c"⟩] id n = n.withChildren (n.children ++ [c]) ∧ c.tag = .elem ⟨none, c%"b"⟩ ∧
    satAll [.attr ⟨none, c%"t"⟩ (some (.str c%"1"))] c = true :=
  C14_one_new_child _ _ _ id n (by decide) (fun m => ⟨rfl, rfl, rfl⟩)

example : managerGet refEngine sampleCtx false (fun _ o => .ok o.isNone) newAttrXPath (ast newAttrXPath) (.elem []) sampleDoc = (.ok true, sampleDoc) :=
  C20_absent refEngine sampleCtx (fun _ o => .ok o.isNone) newAttrXPath _ _ _ (by decide +kernel)

example : readStr refEngine sampleCtx c%"m:a/@id" (ast c%"m:a/@id") (.elem [1]) outerDoc = (.ok (some c%"1"), outerDoc) :=
  (C20_reads_first_match refEngine refEngine_ok sampleCtx c%"m:a/@id" _ (steps sampleCtx c%"m:a/@id") ⟨by decide, by rfl, by decide, by decide⟩ [1] outerDoc sampleDoc rfl).trans (by decide +kernel)

example : ∃ r s' n', managerCreate refEngine sampleCtx newAttrXPath (ast newAttrXPath) (.elem [1]) outerDoc = (.ok (.ref r), s') ∧
    managerCreate refEngine sampleCtx newAttrXPath (ast newAttrXPath) (.elem [1]) s' = (.ok (.ref r), s') ∧ s'.get [1] = some n' ∧
    (∃ x, (Step.matches (steps sampleCtx newAttrXPath) n').head? = some x ∧ r = x.under [1]) ∧ (Step.matches (steps sampleCtx newAttrXPath) sampleDoc ≠ [] → s' = outerDoc) :=
  C21_create_idempotent refEngine refEngine_ok _ _ _ _ newAttr_field (by intro h; cases h) [1] outerDoc sampleDoc rfl

example : ∃ s₁ s₂, writeStr refEngine sampleCtx c%"v" newAttrXPath (ast newAttrXPath) (.elem [1]) outerDoc = (.ok (), s₁) ∧
    writeStr refEngine sampleCtx c%"w" newAttrXPath (ast newAttrXPath) (.elem [1]) s₁ = (.ok (), s₂) ∧
    writeStr refEngine sampleCtx c%"w" newAttrXPath (ast newAttrXPath) (.elem [1]) outerDoc = (.ok (), s₂) :=
  C23_last_write_wins refEngine refEngine_ok _ _ _ _ newAttr_field (by decide) _ _ (by decide) (by decide) [1] outerDoc sampleDoc rfl newAttr_writable

example : ∃ s₁, writeStr refEngine sampleCtx c%"v" newAttrXPath (ast newAttrXPath) (.elem [1]) outerDoc = (.ok (), s₁) ∧
    writeStr refEngine sampleCtx c%"v" newAttrXPath (ast newAttrXPath) (.elem [1]) s₁ = (.ok (), s₁) :=
  C23_idempotent refEngine refEngine_ok _ _ _ _ newAttr_field (by decide) _ (by decide) [1] outerDoc sampleDoc rfl newAttr_writable

end Props
