import Verif.Props.LeafRecord
import Verif.Props.Domain
import Verif.Spec.SelfPath
import Verif.Spec.Words
import Verif.Core.ObjText
/-
Property C97: fields for the object's own element (XPath `.`), and `str()` and `repr()` of objects.

Model: `managerGet`, `managerSet`, `managerDelete` (Verif/XmlMap/Manager.lean), `objStr`, `fieldStr`, `referenceStr`, `pairStr`, `fieldRepr`, `accountRepr` (Verif/Core/ObjText.lean).
Specification: `SelfOk` (Verif/Spec/SelfPath.lean): `.` is the context node; `words`, `unwords` (Verif/Spec/Words.lean).
-/
namespace Props
open XPath Xml Spec Fields Domain Core

/-- What `.` parses to: an abbreviated step. -/
def dot : Expr := .abbrev false

theorem dot_parse : parse0 c%"." = .ok dot := by decide

theorem dot_xast : xast c%"." = dot := by decide

section
variable [PyUnicode] {eng : Engine} {ctx : Ctx} {a : Node.Addr} {s n : Node}

theorem findNode_dot (hself : SelfOk eng) (hs : Node.get a s = some n) : findNode eng ctx c%"." (.elem a) s = (.ok (some (.ref (.elem a))), s) := by
  have h1 : evalXPath eng ctx c%"." (.elem a) s = (.ok (.nodes [.elem a]), s) := by
    show (eng.xpath c%"." s a ctx, s) = _
    rw [hself s n a ctx hs]
  unfold findNode
  rw [bind_ok h1]
  rfl

theorem readAs_dot {α} (hself : SelfOk eng) (hs : Node.get a s = some n) (conv : Option Item → Except PyErr α) :
    readAs conv eng ctx c%"." dot (.elem a) s = (conv (some (.elem n)), s) := by
  unfold readAs managerGet
  rw [bind_ok (findNode_dot hself hs)]
  simp only [reduceCtorEq, false_and, if_false]
  rw [bind_ok (show getDoc s = (.ok s, s) from rfl), ofExcept_eq]
  simp [itemOf, hs]

omit [PyUnicode] in
theorem setInXml_elem {v st} (hs : Node.get a s = some n) : setInXml ctx (.ref (.elem a)) v st s = (if n.children = [] then setElemText a v else raise .exception) s := by
  show (nodeAt a >>= fun n => if n.children = [] then setElemText a v else raise .exception) s = _
  rw [bind_ok (show nodeAt a s = (.ok n, s) by simp [nodeAt, hs])]

theorem set_dot (hself : SelfOk eng) (hs : Node.get a s = some n) (hn : n.children = []) {v : Str} (hv : xmlOk v = true) :
    managerSet eng ctx (.ok (some (.str v))) c%"." dot (.elem a) s = (.ok (), s.modify a (Node.setText (some v))) := by
  unfold managerSet
  rw [bind_ok (ofExcept_run _ _), bind_ok (findNode_dot hself hs)]
  show setInXml ctx (.ref (.elem a)) (some v) none s = _
  rw [setInXml_elem hs, if_pos hn, setElemText, if_neg (by simp [hv])]
  rfl

theorem delete_dot (hself : SelfOk eng) (hs : Node.get a s = some n) : managerDelete eng ctx c%"." dot (.elem a) s = (.ok (), s) := by
  unfold managerDelete
  rw [bind_ok (findNode_dot hself hs)]
  rfl

theorem getString_dot (hself : SelfOk eng) (hs : Node.get a s = some n) (normalize : Bool) :
    readString eng ctx normalize c%"." a s = (.ok (some (if normalize then unwords (words n.strVal) else n.strVal)), s) := by
  rw [show readString eng ctx normalize c%"." a s = readAs (strToPython normalize) eng ctx c%"." dot (.elem a) s by rw [readString, dot_xast]; rfl, readAs_dot hself hs]
  simp [strToPython, normSpace_eq]

end

/-! ### reading, assigning, deleting -/

/-- C97.  A StringField with XPath `.` reads all the text of the object's element (with `normalize=True`: its words with one blank between them). -/
theorem C97_read [PyUnicode] (eng : Engine) (hself : SelfOk eng) (ctx : Ctx) (normalize : Bool) (a : Node.Addr) (s n : Node) (hs : s.get a = some n) :
    readString eng ctx normalize c%"." a s = (.ok (some (if normalize then unwords (words n.strVal) else n.strVal)), s) := getString_dot hself hs normalize

/-- C97.  If the object's element has no children, assigning a value to a field with XPath `.` replaces the text of the element and changes nothing else; the field then
reads the value, if its mapper gets it back from a text. -/
theorem C97_write [PyUnicode] (eng : Engine) (hself : SelfOk eng) (ctx : Ctx) (a : Node.Addr) (s n : Node) (hs : s.get a = some n) (hn : n.children = []) (t : Str)
    (ht : xmlOk t = true) :
    writeAs (.ok (some t)) eng ctx c%"." dot (.elem a) s = (.ok (), s.modify a (Node.setText (some t))) ∧
    ∀ {α : Type} (conv : Option Item → Except PyErr α) (v : α), (∀ m : Node, m.strVal = t → conv (some (.elem m)) = .ok v) →
      readAs conv eng ctx c%"." dot (.elem a) (s.modify a (Node.setText (some t))) = (.ok v, s.modify a (Node.setText (some t))) := by
  refine ⟨set_dot hself hs hn ht, fun conv v h => ?_⟩
  rw [readAs_dot hself (n := n.setText (some t)) (by rw [Node.get_modify, hs]; rfl), h _ (strVal_setText hn t)]

/-- C97.  If the element has children, assigning a text raises and changes nothing; so does assigning a text that XML cannot hold. -/
theorem C97_refused [PyUnicode] (eng : Engine) (hself : SelfOk eng) (ctx : Ctx) (a : Node.Addr) (s n : Node) (hs : s.get a = some n) (t : Str) :
    (n.children ≠ [] → writeAs (.ok (some t)) eng ctx c%"." dot (.elem a) s = (.error .exception, s)) ∧
    (n.children = [] → xmlOk t = false → writeAs (.ok (some t)) eng ctx c%"." dot (.elem a) s = (.error .valueError, s)) := by
  have h : writeAs (.ok (some t)) eng ctx c%"." dot (.elem a) s = setInXml ctx (.ref (.elem a)) (some t) none s := by
    show managerSet eng ctx (.ok (some (.str t))) c%"." dot (.elem a) s = _
    unfold managerSet
    rw [bind_ok (ofExcept_run _ _), bind_ok (findNode_dot hself hs)]
    rfl
  rw [h, setInXml_elem hs]
  constructor
  · intro hn
    rw [if_neg hn]
    rfl
  · intro hn ht
    rw [if_pos hn, setElemText, if_pos (by exact ht)]
    rfl

/-- C97.  Deleting a field with XPath `.`, or assigning `None`, changes nothing and raises nothing: the element keeps its text, and the field reads it as before. -/
theorem C97_delete [PyUnicode] (eng : Engine) (hself : SelfOk eng) (ctx : Ctx) (a : Node.Addr) (s n : Node) (hs : s.get a = some n) :
    managerDelete eng ctx c%"." dot (.elem a) s = (.ok (), s) ∧ writeAs (.ok none) eng ctx c%"." dot (.elem a) s = (.ok (), s) := by
  refine ⟨delete_dot hself hs, ?_⟩
  show managerSet eng ctx (.ok none) _ _ _ _ = _
  rw [C17_none_is_delete, delete_dot hself hs]

/-- C97.  Assigning an object of another document to a NodeField with XPath `.` gives the element the text, the children and the attributes of that object's element, and
keeps its name and its tail. -/
theorem C97_assign_object [PyUnicode] (eng : Engine) (hself : SelfOk eng) (ctx : Ctx) (a : Node.Addr) (s n : Node) (hs : s.get a = some n) (v : Node) :
    managerSet eng ctx (.ok (some (.elem (.foreign v)))) c%"." dot (.elem a) s = (.ok (), s.modify a (graftOnto v)) := by
  unfold managerSet
  rw [bind_ok (ofExcept_run _ _), bind_ok (findNode_dot hself hs)]
  rfl

/-! ### histories -/

section
variable {ι : Type} {fs : ι → RField}

/-- A field for the element itself (its `p` is empty: no steps), or for one of its attributes. -/
structure OwnField [PyUnicode] (ctx : Ctx) (f : RField) : Prop where
  shape : (f.p = [] ∧ f.xp = c%"." ∧ f.e = dot) ∨ ∃ q, f.p = [.attr q] ∧ SimpleField ctx f.xp f.e f.p

/-- The effect of an operation on the texts: a deletion removes an attribute, but not the text. -/
def ROp.replayOwn [DecidableEq ι] (r : ι → Option Str) : ROp fs → ι → Option Str
  | .set i v => match (fs i).toXml v with
    | .ok (some t) => Function.update r i (some t)
    | _ => if (fs i).p = [] then r else Function.update r i none
  | .delete i => if (fs i).p = [] then r else Function.update r i none

theorem selfOp_run [PyUnicode] [DecidableEq ι] {eng : Engine} (heng : EngineOk eng) (hself : SelfOk eng) {ctx : Ctx} (hf : ∀ i, OwnField ctx (fs i))
    (hpart : ∀ i j, (fs i).p = (fs j).p → i = j) {a s n} (hs : Node.get a s = some n) (hn : n.children = []) (op : ROp fs) (hop : op.Textual) :
    ∃ n', op.run eng ctx a s = (.ok (), s.modify a (fun _ => n')) ∧ n'.children = [] ∧ n'.tag = n.tag ∧ n'.tail = n.tail ∧
      (fun i => heldText (fs i).p n') = op.replayOwn (fun i => heldText (fs i).p n) := by
  -- operations on attributes
  have hattrDel : ∀ i q, (fs i).p = [.attr q] → SimpleField ctx (fs i).xp (fs i).e (fs i).p →
      managerDelete eng ctx (fs i).xp (fs i).e (.elem a) s = (.ok (), s.modify a (fun _ => if (n.attr? q).isSome then n.delAttr q else n)) := by
    intro i q h hsf
    rw [← leaf_delete_attr, ← h, managerDelete_run heng hsf.parse hsf.path hsf.canonical hsf.ok (by rw [h]; rfl) hs ?_ ?_]
    · congr 1
      exact Node.modify_congr hs rfl
    · intro x hx
      rw [h] at hx ⊢
      cases ht : n.attr? q <;> simp [Step.matches, ht] at hx
      subst hx; rfl
    · intro b hx
      rw [h] at hx
      cases ht : n.attr? q <;> simp [Step.matches, ht] at hx
  have hdel : ∀ i, ∃ n', managerDelete eng ctx (fs i).xp (fs i).e (.elem a) s = (.ok (), s.modify a (fun _ => n')) ∧ n'.children = [] ∧ n'.tag = n.tag ∧
      n'.tail = n.tail ∧ (fun j => heldText (fs j).p n') =
        if (fs i).p = [] then (fun j => heldText (fs j).p n) else Function.update (fun j => heldText (fs j).p n) i none := by
    intro i
    rcases (hf i).shape with ⟨hp, hx, he⟩ | ⟨q, hp, hsf⟩
    · refine ⟨n, ?_, hn, rfl, rfl, by rw [if_pos hp]⟩
      rw [hx, he, delete_dot hself hs, Node.modify_id hs rfl]
    · refine ⟨_, hattrDel i q hp hsf, by split_ifs <;> simpa using hn, by split_ifs <;> simp, by split_ifs <;> simp, ?_⟩
      rw [if_neg (show ¬ (fs i).p = [] by rw [hp]; simp)]
      funext j
      by_cases hj : j = i
      · subst hj
        rw [Function.update_self, hp]
        cases ht : n.attr? q with
        | none => simp [heldText, ht]
        | some t => simp [heldText, Node.attr?_delAttr]
      · rw [Function.update_of_ne hj]
        rcases (hf j).shape with ⟨hp', -, -⟩ | ⟨q', hp', -⟩
        · simp only [hp', heldText]; split_ifs <;> simp
        · have hq : q' ≠ q := by rintro rfl; exact hj (hpart j i (hp'.trans hp.symm))
          simp only [hp', heldText]
          split_ifs
          · simp [Node.attr?, Node.lookup_filter_ne, hq]
          · rfl
  cases op with
  | delete i => exact hdel i
  | set i v =>
    obtain ⟨o, h1, h2⟩ := hop
    cases o with
    | none =>
      obtain ⟨n', k1, k2, k3, k4, k5⟩ := hdel i
      refine ⟨n', ?_, k2, k3, k4, ?_⟩
      · show writeAs _ _ _ _ _ _ _ = _
        rw [h1]
        show managerSet eng ctx (.ok none) _ _ _ _ = _
        rw [C17_none_is_delete, k1]
      · rw [k5, ROp.replayOwn, h1]
    | some t =>
      have hx := h2 t rfl
      have hr : ROp.run (fs := fs) eng ctx a (.set i v) s = managerSet eng ctx (.ok (some (.str t))) (fs i).xp (fs i).e (.elem a) s := by
        show writeAs _ _ _ _ _ _ _ = _
        rw [h1]
        rfl
      rw [hr]
      rcases (hf i).shape with ⟨hp, hxp, he⟩ | ⟨q, hp, hsf⟩
      · refine ⟨n.setText (some t), ?_, by simpa using hn, by simp, by simp, ?_⟩
        · rw [hxp, he, set_dot hself hs hn hx]
          congr 1
          exact Node.modify_congr hs rfl
        · rw [ROp.replayOwn, h1]
          funext j
          by_cases hj : j = i
          · subst hj
            simp [Function.update_self, hp, heldText]
          · simp only [Function.update_of_ne hj]
            rcases (hf j).shape with ⟨hp', -, -⟩ | ⟨q', hp', -⟩
            · exact absurd (hpart j i (hp'.trans hp.symm)) hj
            · simp [hp', heldText, Node.attr?]
      · refine ⟨n.setAttr q t, ?_, by simpa using hn, by simp, by simp, ?_⟩
        · rw [managerSet_str heng hsf.parse hsf.path hsf.canonical hsf.ok (by rw [hp]; rfl) hx hs
            (by rw [hp]; cases ht : n.attr? q <;> simp [Writable, Step.matches, ht, missing, place])]
          congr 1
          exact Node.modify_congr hs (by rw [hp, leaf_write_attr])
        · rw [ROp.replayOwn, h1]
          funext j
          by_cases hj : j = i
          · subst hj
            simp [Function.update_self, hp, heldText, Node.attr?_setAttr]
          · simp only [Function.update_of_ne hj]
            rcases (hf j).shape with ⟨hp', -, -⟩ | ⟨q', hp', -⟩
            · simp [hp', heldText]
            · have hq : q' ≠ q := by rintro rfl; exact hj (hpart j i (hp'.trans hp.symm))
              simp [hp', heldText, Node.attr?_setAttr, hq]

/-- C97.  Let the fields of an object be for its element (`.`, at most one field) and for different attributes of it, and let the element have no children.  Then every
history of assignments and deletions runs without exception, changes nothing outside of the element and neither its name nor its tail, adds no children, and afterwards
every field reads what its mapper makes of the text that the replay of the history says: the last text assigned to `.` stays, whatever is deleted. -/
theorem C97_history [PyUnicode] [DecidableEq ι] (eng : Engine) (heng : EngineOk eng) (hself : SelfOk eng) (ctx : Ctx) (hf : ∀ i, OwnField ctx (fs i))
    (hpart : ∀ i j, (fs i).p = (fs j).p → i = j) (a : Node.Addr) (ops : List (ROp fs)) (hops : ∀ op ∈ ops, op.Textual) (s n : Node) (hs : s.get a = some n)
    (hn : n.children = []) :
    ∃ n', runHistory eng ctx a ops s = (.ok (), s.modify a (fun _ => n')) ∧ n'.children = [] ∧ n'.tag = n.tag ∧ n'.tail = n.tail ∧
      ∀ i, readAs (fs i).toPython eng ctx (fs i).xp (fs i).e (.elem a) (s.modify a (fun _ => n')) =
        (if (fs i).p = [] then (fs i).toPython (some (.elem n'))
          else (fs i).toPython ((List.foldl (ROp.replayOwn (fs := fs)) (fun j => heldText (fs j).p n) ops i).map .str), s.modify a (fun _ => n')) ∧
        ((fs i).p = [] → n'.strVal = (List.foldl (ROp.replayOwn (fs := fs)) (fun j => heldText (fs j).p n) ops i).getD []) := by
  have key : ∀ (ops : List (ROp fs)), (∀ op ∈ ops, op.Textual) → ∀ (s n : Node), s.get a = some n → n.children = [] →
      ∃ n', runHistory eng ctx a ops s = (.ok (), s.modify a (fun _ => n')) ∧ n'.children = [] ∧ n'.tag = n.tag ∧ n'.tail = n.tail ∧
        (fun i => heldText (fs i).p n') = List.foldl (ROp.replayOwn (fs := fs)) (fun j => heldText (fs j).p n) ops := by
    intro ops
    induction ops with
    | nil =>
      intro _ s n hs hn
      have : s.modify a (fun _ => n) = s := Node.modify_id hs rfl
      exact ⟨n, by rw [this]; rfl, hn, rfl, rfl, rfl⟩
    | cons op ops ih =>
      intro hops s n hs hn
      obtain ⟨n1, h1, h2, h3, h4, h5⟩ := selfOp_run heng hself hf hpart hs hn op (hops op (by simp))
      have hs1 : Node.get a (s.modify a (fun _ => n1)) = some n1 := by rw [Node.get_modify, hs]; rfl
      obtain ⟨n2, k1, k2, k3, k4, k5⟩ := ih (fun o ho => hops o (by simp [ho])) _ n1 hs1 h2
      rw [Node.modify_modify] at k1
      refine ⟨n2, ?_, k2, k3.trans h3, k4.trans h4, ?_⟩
      · show (op.run eng ctx a >>= fun _ => runHistory eng ctx a ops) s = _
        rw [bind_ok h1, k1]
        rfl
      · rw [List.foldl_cons, ← h5]
        exact k5
  obtain ⟨n', h1, h2, h3, h4, h5⟩ := key ops hops s n hs hn
  refine ⟨n', h1, h2, h3, h4, fun i => ?_⟩
  have hg : Node.get a (s.modify a (fun _ => n')) = some n' := by rw [Node.get_modify, hs]; rfl
  rw [← h5]
  rcases (hf i).shape with ⟨hp, hx, he⟩ | ⟨q, hp, hsf⟩
  · refine ⟨by rw [if_pos hp, hx, he, readAs_dot hself hg], fun _ => ?_⟩
    show n'.strVal = (heldText (fs i).p n').getD []
    rw [hp]
    cases n' with
    | mk t as x cs tl =>
      simp only [Node.children] at h2
      subst h2
      cases x <;> simp [heldText, Node.text, Node.strVal, Node.strValL]
  · refine ⟨?_, fun h => by rw [hp] at h; cases h⟩
    rw [if_neg (by rw [hp]; simp), readAs_run heng hsf hg, leaf_matches (.inr ⟨q, hp⟩) h2]

end

/-! ### `str()` and `repr()` -/

section
variable [PyUnicode] {eng : Engine} {a : Node.Addr} {s n : Node}

/-- C97.  `str(obj)` of an object is the words of its element's text with one blank between them; it never raises and changes nothing. -/
theorem C97_str (hs : s.get a = some n) : objStr a s = (.ok (unwords (words n.strVal)), s) := by
  unfold objStr
  rw [bind_ok (show nodeAt a s = (.ok n, s) by simp [nodeAt, hs]), normSpace_eq]
  rfl

/-- C97.  `str()` of the bundled objects that are one text (`eadmap.Heading`, `Container`, `DateField`): all the text of the element, for headings with normalised white
space.  It never raises. -/
theorem C97_str_text (hself : SelfOk eng) (ctx : Ctx) (normalize : Bool) (hs : s.get a = some n) :
    fieldStr eng ctx normalize c%"." a s = (.ok (if normalize then unwords (words n.strVal) else n.strVal), s) := by
  unfold fieldStr
  rw [bind_ok (getString_dot hself hs normalize)]
  rfl

/-- C97.  `str()` of an `eadmap.Reference` always raises TypeError: it returns an object, not a string. -/
theorem C97_counterexample_reference (hself : SelfOk eng) (ctx : Ctx) (hs : s.get a = some n) : referenceStr eng ctx a s = (.error .typeError, s) := by
  unfold referenceStr
  have h : getNode eng ctx c%"." a s = (.ok (some a), s) := by
    unfold getNode
    rw [bind_ok (findNode_dot hself hs)]
    rfl
  rw [bind_ok h]
  rfl

/-- A StringField of a CERP object with a child's name as XPath. -/
theorem readString_child (heng : EngineOk eng) {xp tag : Str} (hf : SimpleField Cerp.ctx xp (xast xp) [.child (Cerp.q tag) []]) (hs : s.get a = some n) :
    readString eng Cerp.ctx false xp a s = (.ok (childText (Cerp.q tag) n), s) := getStr_child heng hf hs

theorem name_field : SimpleField Cerp.ctx c%"xm:Name" (xast c%"xm:Name") [.child (Cerp.q c%"Name") []] := ⟨by decide, by rfl, by rfl, by decide⟩
theorem value_field : SimpleField Cerp.ctx c%"xm:Value" (xast c%"xm:Value") [.child (Cerp.q c%"Value") []] := ⟨by decide, by rfl, by rfl, by decide⟩
theorem gid_field : SimpleField Cerp.ctx c%"xm:GlobalId" (xast c%"xm:GlobalId") [.child (Cerp.q c%"GlobalId") []] := ⟨by decide, by rfl, by rfl, by decide⟩
theorem address_field : SimpleField Cerp.ctx c%"xm:EmailAddress" (xast c%"xm:EmailAddress") [.child (Cerp.q c%"EmailAddress") []] := ⟨by decide, by rfl, by rfl, by decide⟩

/-- C97.  `str()` of a CERP parameter or header is always a string: the texts of the first `Name` and `Value` children with `=` or `: ` between them, `None` for a missing
child. -/
theorem C97_str_pair (heng : EngineOk eng) (sep : Str) (hs : s.get a = some n) :
    pairStr eng Cerp.ctx sep a s =
      (.ok ((childText (Cerp.q c%"Name") n).getD c%"None" ++ sep ++ (childText (Cerp.q c%"Value") n).getD c%"None"), s) := by
  unfold pairStr
  rw [bind_ok (readString_child heng name_field hs), bind_ok (readString_child heng value_field hs)]
  cases childText (Cerp.q c%"Name") n <;> cases childText (Cerp.q c%"Value") n <;> rfl

/-- C97.  `str()` of a CERP hash is the text of its first `Value` child; without one it raises TypeError. -/
theorem C97_str_hash (heng : EngineOk eng) (hs : s.get a = some n) :
    fieldStr eng Cerp.ctx false c%"xm:Value" a s = ((childText (Cerp.q c%"Value") n).elim (.error .typeError) .ok, s) := by
  unfold fieldStr
  rw [bind_ok (readString_child heng value_field hs)]
  cases childText (Cerp.q c%"Value") n <;> rfl

/-- C97.  `repr()` of a CERP header, hash, incomplete part or folder is always a string: the class and the text of the first child that identifies it. -/
theorem C97_repr_field (heng : EngineOk eng) (cls xp tag : Str) (hf : SimpleField Cerp.ctx xp (xast xp) [.child (Cerp.q tag) []]) (hs : s.get a = some n) :
    fieldRepr eng Cerp.ctx cls xp a s = (.ok (c%"<" ++ cls ++ c%" " ++ (childText (Cerp.q tag) n).getD c%"None" ++ c%">"), s) := by
  unfold fieldRepr
  rw [bind_ok (readString_child heng hf hs)]
  cases childText (Cerp.q tag) n <;> rfl

/-- What identifies an account: the first of the texts that is there and not empty. -/
def accountId (n : Node) : Str :=
  (([childText (Cerp.q c%"GlobalId") n, childText (Cerp.q c%"EmailAddress") n].filterMap id).find? (fun t => t ≠ [])).getD c%"(no id)"

/-- C97.  `repr()` of a CERP account is always a string: its global id, else its address, else `(no id)`. -/
theorem C97_repr_account (heng : EngineOk eng) (hs : s.get a = some n) :
    accountRepr eng Cerp.ctx a s = (.ok (c%"<Account " ++ accountId n ++ c%">"), s) := by
  unfold accountRepr
  rw [bind_ok (readString_child heng gid_field hs)]
  have h2 := readString_child heng address_field hs
  unfold accountId
  rcases hx : childText (Cerp.q c%"GlobalId") n with _ | ⟨_ | ⟨c, cs⟩⟩
  · rw [if_neg (by simp [Domain.truthy]), bind_ok h2]
    rcases hy : childText (Cerp.q c%"EmailAddress") n with _ | ⟨_ | ⟨d, ds⟩⟩ <;> rfl
  · rw [if_neg (by simp [Domain.truthy]), bind_ok h2]
    rcases hy : childText (Cerp.q c%"EmailAddress") n with _ | ⟨_ | ⟨d, ds⟩⟩ <;> rfl
  · rw [if_pos (by simp [Domain.truthy])]
    rfl

theorem date_field : SimpleField Mods.ctx c%"text()" (xast c%"text()") [.text] := ⟨by decide, by rfl, by rfl, by decide⟩

/-- C97.  `str()` of a `mods.Date` with a text in front of its first child is that text. -/
theorem C97_str_date (heng : EngineOk eng) (hs : s.get a = some n) (t : Str) (ht : n.text = some t) :
    fieldStr eng Mods.ctx false c%"text()" a s = (.ok t, s) := by
  unfold fieldStr
  have h := readAs_run (conv := strToPython false) heng date_field hs
  have h' : readString eng Mods.ctx false c%"text()" a s = (.ok (some t), s) := by
    refine Eq.trans (show _ = readAs (strToPython false) eng Mods.ctx c%"text()" (xast c%"text()") (.elem a) s from rfl) (h.trans ?_)
    simp [Step.matches, ht, seen, refText, Node.get, strToPython]
  rw [bind_ok h']
  rfl

end

/-! ### examples -/

/-- The reference engine with `.` follows XPath on simple paths. -/
theorem selfEngine_ok : EngineOk selfEngine := by
  constructor
  · intro ctx s e p doc n a hp hr hd
    have hne : s ≠ c%"." := by
      rintro rfl
      rw [dot_parse] at hp
      cases hp
      simp [resPath, res, dot] at hr
    show (if s = c%"." then _ else _) = _
    rw [if_neg hne]
    exact refEngine_ok.path ctx s e p doc n a hp hr hd
  · intro ctx s e p v q doc n a hp hr hq hd
    have hne : s ≠ c%"." := by
      rintro rfl
      rw [dot_parse] at hp
      cases hp
      simp [res, dot] at hr
    show (if s = c%"." then _ else _) = _
    rw [if_neg hne]
    exact refEngine_ok.cmp ctx s e p v q doc n a hp hr hq hd

/-- The class `eadmap.Unitid` (eadmap.py:147-157), without the identifier (an IntegerField): `country_code = StringField('@countrycode')`,
`repository_code = StringField('@repositorycode')`, `value = StringField('.')`. -/
def unitidFields : Fin 3 → RField
  | 0 => strField c%"@countrycode" (ast c%"@countrycode") [.attr ⟨none, c%"countrycode"⟩]
  | 1 => strField c%"@repositorycode" (ast c%"@repositorycode") [.attr ⟨none, c%"repositorycode"⟩]
  | 2 => strField c%"." dot []

theorem unitidFields_own : ∀ i, OwnField sampleCtx (unitidFields i)
  | 0 => ⟨.inr ⟨_, rfl, ⟨by decide, by rfl, by decide, by decide⟩⟩⟩
  | 1 => ⟨.inr ⟨_, rfl, ⟨by decide, by rfl, by decide, by decide⟩⟩⟩
  | 2 => ⟨.inl ⟨rfl, rfl, rfl⟩⟩

def unitidOps : List (ROp unitidFields) := [.set 2 (some c%"a" : Option Str), .set 0 (some c%"us" : Option Str), .delete 2, .set 1 (some c%"t" : Option Str), .delete 0]

/-- `value = 'a'; country_code = 'us'; del value; repository_code = 't'; del country_code`: the value is still `'a'`. -/
example : ∃ s', runHistory selfEngine sampleCtx [] unitidOps bare = (.ok (), s') ∧
    (readAs (unitidFields 0).toPython selfEngine sampleCtx c%"@countrycode" (ast c%"@countrycode") (.elem []) s').1 = .ok (none : Option Str) ∧
    (readAs (unitidFields 1).toPython selfEngine sampleCtx c%"@repositorycode" (ast c%"@repositorycode") (.elem []) s').1 = .ok (some c%"t" : Option Str) ∧
    (readAs (unitidFields 2).toPython selfEngine sampleCtx c%"." dot (.elem []) s').1 = .ok (some c%"a" : Option Str) := by
  obtain ⟨n', h1, -, -, -, h3⟩ := C97_history (fs := unitidFields) selfEngine selfEngine_ok selfEngine_self sampleCtx unitidFields_own
    (by
      intro i j h
      match i, j, h with
      | 0, 0, _ | 1, 1, _ | 2, 2, _ => rfl
      | 0, 1, h | 1, 0, h => exact absurd h (by simp [unitidFields, strField])
      | 0, 2, h | 1, 2, h | 2, 0, h | 2, 1, h => exact absurd h (by simp [unitidFields, strField]))
    [] unitidOps
    (by
      intro op hop
      simp only [unitidOps, List.mem_cons, List.not_mem_nil, or_false] at hop
      rcases hop with rfl | rfl | rfl | rfl | rfl
      · exact ⟨_, rfl, fun t ht => by cases ht; decide⟩
      · exact ⟨_, rfl, fun t ht => by cases ht; decide⟩
      · trivial
      · exact ⟨_, rfl, fun t ht => by cases ht; decide⟩
      · trivial) bare bare rfl rfl
  refine ⟨_, h1, congrArg Prod.fst (h3 0).1, congrArg Prod.fst (h3 1).1, ?_⟩
  refine (congrArg Prod.fst (h3 2).1).trans ?_
  have h4 := (h3 2).2 rfl
  show Except.ok (some (n'.strVal)) = Except.ok (some c%"a")
  rw [h4]
  rfl

/-- Deletion does not make the field read `None`, and assigning `None` does not make it read the empty string. -/
theorem C97_counterexample_delete :
    let r := writeAs (.ok (some c%"a")) selfEngine sampleCtx c%"." dot (.elem []) bare
    let r' := managerDelete selfEngine sampleCtx c%"." dot (.elem []) r.2
    let r'' := writeAs (.ok none) selfEngine sampleCtx c%"." dot (.elem []) r'.2
    r.1 = .ok () ∧ r'.1 = .ok () ∧ r''.1 = .ok () ∧ (readString selfEngine sampleCtx false c%"." [] r''.2).1 = .ok (some c%"a") := by decide +kernel

/-- `obj.value = obj.value` on a NodeField with XPath `.` (`eadmap.Reference.value`) empties the element: it loses its text, its attributes and its children. -/
theorem C97_counterexample_assign_itself :
    let doc : Node := .mk (.elem ⟨none, c%"ref"⟩) [(⟨none, c%"id"⟩, c%"1")] (some c%"t") [.mk (.elem ⟨none, c%"x"⟩) [] none [] none] none
    managerSet selfEngine sampleCtx (.ok (some (.elem (.own [])))) c%"." dot (.elem []) doc = (.ok (), .mk (.elem ⟨none, c%"ref"⟩) [] none [] none) := by decide +kernel

/-- `str()` of an empty `mods.Date` raises TypeError. -/
theorem C97_counterexample_date : (fieldStr refEngine Mods.ctx false c%"text()" [] bare).1 = .error .typeError := by decide +kernel

/-- `str()` of a hash without a value raises TypeError. -/
theorem C97_counterexample_hash : (fieldStr refEngine Cerp.ctx false c%"xm:Value" [] bare).1 = .error .typeError := by decide +kernel

/-- `<h> a <b>b</b>  c</h>` -/
def headDoc : Node := .mk (.elem ⟨none, c%"h"⟩) [] (some c%" a ") [.mk (.elem ⟨none, c%"b"⟩) [] (some c%"b") [] (some c%"  c")] none

example : objStr [] headDoc = (.ok c%"a b c", headDoc) := by decide
example : fieldStr selfEngine sampleCtx true c%"." [] headDoc = (.ok c%"a b c", headDoc) := by decide
example : fieldStr selfEngine sampleCtx false c%"." [] headDoc = (.ok c%" a b  c", headDoc) := by decide
/-- The heading has a child, so its value cannot be assigned. -/
example : writeAs (.ok (some c%"x")) selfEngine sampleCtx c%"." dot (.elem []) headDoc = (.error .exception, headDoc) :=
  (C97_refused selfEngine selfEngine_self sampleCtx [] headDoc headDoc rfl c%"x").1 (by decide)

/-- `<Account><EmailAddress>a@b</EmailAddress></Account>` -/
def accountDoc : Node := .mk (.elem (Cerp.q c%"Account")) [] none [.mk (.elem (Cerp.q c%"EmailAddress")) [] (some c%"a@b") [] none] none
example : accountRepr refEngine Cerp.ctx [] accountDoc = (.ok c%"<Account a@b>", accountDoc) := (C97_repr_account refEngine_ok (n := accountDoc) rfl).trans (by decide)
example : pairStr refEngine Cerp.ctx c%"=" [] accountDoc = (.ok c%"None=None", accountDoc) := (C97_str_pair refEngine_ok c%"=" (n := accountDoc) rfl).trans (by decide)

/-! ### C97 applied -/

example := C97_read selfEngine selfEngine_self sampleCtx true [] bare bare rfl
example := C97_write selfEngine selfEngine_self sampleCtx [] bare bare rfl rfl c%"a" (by decide)
example := C97_delete selfEngine selfEngine_self sampleCtx [] bare bare rfl
example := C97_assign_object selfEngine selfEngine_self sampleCtx [] bare bare rfl bare
example := C97_str (a := []) (s := sampleDoc) rfl
example := C97_str_text (a := [0]) (s := sampleDoc) selfEngine_self sampleCtx true rfl
example := C97_str_hash (a := [0]) (s := sampleDoc) refEngine_ok rfl
example := C97_repr_field (a := [0]) (s := sampleDoc) refEngine_ok c%"Hash" c%"xm:Value" c%"Value" ⟨by decide, by rfl, by decide, by decide⟩ rfl

end Props
