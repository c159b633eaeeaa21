import Verif.XmlMap.TextListLemmas
import Verif.Props.AttrList
/-
C118: list fields whose XPath ends in `text()`.
-/
namespace Props
open Xml XPath Fields Spec

/-- The field's XPath is a path `pp` of child steps followed by `text()`; the predicates are about attributes. -/
structure TextsField [PyUnicode] (ctx : Ctx) (xp : Str) (e : Expr) (pp : List Step) : Prop where
  field : SimpleField ctx xp e (pp ++ [.text])
  steps : childSteps pp = true
  keeps : attrSteps pp = true

section
variable [PyUnicode] {α : Type} [DecidableEq α] (read : Item → Except PyErr α) (toXml : α → Except PyErr (Option Str)) (eng : Engine) (heng : EngineOk eng)
  (ctx : Ctx) (xp : Str) (e : Expr) (pp : List Step) (hf : TextsField ctx xp e pp) (a : Node.Addr) (s n : Node) (hs : s.get a = some n) (l : List α)
  (hl : TextsRead read pp n l)
include heng hf hs hl

/-- C118.  The list holds the values of the texts in document order. -/
theorem C118_read : readList eng ctx (textKind read toXml ctx e) xp a s = (.ok l, s) :=
  textData_run heng hf.field.parse hf.field.path hf.steps hs hl

/-- C118.  Any operations on a list that is not empty: those that leave the length as it is act as on a Python list, the others raise `TypeError` without a change.  Then the texts are the values
of the list, and apart from their values the document is as before. -/
theorem C118_ops (hne : l ≠ []) (ops : List (ListOp α)) (hsup : ∀ op ∈ ops, op.supported = true) (hv : ∀ op ∈ ops, ∀ v ∈ op.values, Keeps read toXml v) :
    (listOps eng ctx (textKind read toXml ctx e) xp e a ops s).1 = (fixedListAll l ops).1 ∧
      ∃ n', (listOps eng ctx (textKind read toXml ctx e) xp e a ops s).2 = s.modify a (fun _ => n') ∧ TextsRead read pp n' (fixedListAll l ops).2 ∧ blanked pp n' = blanked pp n :=
  textOps_run heng hf.field.parse hf.field.path hf.steps hf.keeps ops s n l hs hl hne hsup hv

/-- C118.  Assigning as many values as there are texts sets them. -/
theorem C118_assign (hne : l ≠ []) (vs : List α) (hlen : vs.length = l.length) (hv : ∀ v ∈ vs, Keeps read toXml v) :
    ∃ n', writeList eng ctx (textKind read toXml ctx e) xp e a vs s = (.ok (), s.modify a (fun _ => n')) ∧ TextsRead read pp n' vs ∧ blanked pp n' = blanked pp n := by
  obtain ⟨n', h1, h2, h3⟩ := textAssign_run (toXml := toXml) heng hf.field.parse hf.field.path hf.steps hf.keeps hs hl hne vs hv
  refine ⟨n', ?_, ?_, h3⟩
  · rw [if_pos hlen] at h1; exact h1
  · have e1 : vs.take l.length ++ l.drop vs.length = vs := by rw [← hlen, List.take_length, hlen, List.drop_length, List.append_nil]
    rw [e1] at h2; exact h2

/-- C118.  Assigning more or fewer values raises `TypeError`, but changes the texts first: each is set to the value given for it, if there is one. -/
theorem C118_assign_other (hne : l ≠ []) (vs : List α) (hlen : vs.length ≠ l.length) (hv : ∀ v ∈ vs, Keeps read toXml v) :
    ∃ n', writeList eng ctx (textKind read toXml ctx e) xp e a vs s = (.error .typeError, s.modify a (fun _ => n')) ∧ TextsRead read pp n' (vs.take l.length ++ l.drop vs.length) ∧
      blanked pp n' = blanked pp n := by
  obtain ⟨n', h1, h2, h3⟩ := textAssign_run (toXml := toXml) heng hf.field.parse hf.field.path hf.steps hf.keeps hs hl hne vs hv
  exact ⟨n', by rw [if_neg hlen] at h1; exact h1, h2, h3⟩

/-- C118.  `del obj.field` raises `TypeError` and changes nothing, -/
theorem C118_delete (hne : l ≠ []) : deleteList eng ctx (textKind read toXml ctx e) xp a s = (.error .typeError, s) :=
  textDelete_run heng hf.field.parse hf.field.path hf.steps hs hl hne

/-- C118.  Inserting at a negative index: `TypeError` if there is a value at that index, else `IndexError`; in both cases without a change.  (A Python list would insert.) -/
theorem C118_insert_negative (i : Int) (hi : i < 0) (v : α) :
    listInsert eng ctx read (storeText ctx toXml e) xp e (.elem a) i v s = (.error (if -(l.length : Int) ≤ i then .typeError else .indexError), s) := by
  unfold listInsert
  rw [bind_ok (textLen_run heng hf.field.parse hf.field.path hf.steps hs hl), if_neg (by omega), bind_ok (textMatches_run heng hf.field.parse hf.field.path hf.steps hs hl.1), List.length_map,
    textHolders_len hl, if_pos (by omega), pyGet_pos, List.length_map, textHolders_len hl]
  by_cases h : -(l.length : Int) ≤ i
  · have hkk : pos l.length i = some (l.length + i).toNat := by unfold pos; rw [if_neg (by omega), if_pos (by omega)]
    have hlt := pos_lt hkk
    obtain ⟨b, hb⟩ : ∃ b, (textHolders pp n)[(l.length + i).toNat]? = some b := ⟨_, List.getElem?_eq_getElem (by rw [textHolders_len hl]; exact hlt)⟩
    rw [hkk, if_pos h]
    simp only [List.getElem?_map, hb, Option.map_some]
    rw [bind_ok (ofExcept_run _ _)]
    exact bind_err rfl
  · have hkk : pos l.length i = none := by unfold pos; rw [if_neg (by omega), if_neg (by omega)]
    rw [hkk, if_neg h]
    exact bind_err rfl

end

section
variable [PyUnicode] {α : Type} [DecidableEq α] (read : Item → Except PyErr α) (toXml : α → Except PyErr (Option Str)) (eng : Engine) (heng : EngineOk eng)
  (ctx : Ctx) (xp : Str) (e : Expr) (pp : List Step) (hf : TextsField ctx xp e pp) (a : Node.Addr) (s n : Node) (hs : s.get a = some n)
  (ho : oneText pp n) (hno : textsAt pp n = [])
include heng hf hs ho hno

/-- C118.  On an empty list, appending a value is the same as assigning it to a single-value field with the XPath (see C12-C15). -/
theorem C118_append_empty (v : α) (t : Str) (ht : toXml v = .ok (some t)) :
    (listAppend eng ctx read (storeText ctx toXml e) xp e (.elem a) v) s = writeAs (toXml v) eng ctx xp e (.elem a) s := by
  rw [textAppend_empty heng hf.field.parse hf.field.path hf.steps hs ho hno v t ht, ht]
  rfl

/-- C118.  Deleting an empty list does nothing. -/
theorem C118_delete_empty : deleteList eng ctx (textKind read toXml ctx e) xp a s = (.ok (), s) := by
  have hl : TextsRead read pp n [] := ⟨ho, by rw [hno]; exact .nil⟩
  have hh : textHolders pp n = [] := List.length_eq_zero_iff.1 (by rw [textHolders_len hl]; rfl)
  show listDeleteAll eng ctx read xp (.elem a) s = _
  unfold listDeleteAll
  rw [bind_ok (textMatches_run heng hf.field.parse hf.field.path hf.steps hs ho), bind_ok (show getDoc s = (.ok s, s) from rfl), hh]
  rfl

end

/-! ### strings and integers -/

section
variable [PyUnicode] (eng : Engine) (heng : EngineOk eng) (ctx : Ctx) (xp : Str) (e : Expr) (pp : List Step) (hf : TextsField ctx xp e pp) (a : Node.Addr) (s n : Node)
  (hs : s.get a = some n) (ho : oneText pp n)

include heng hf hs ho

/-- C118.  A StringListField holds the elements' texts; after any operations that assign strings which XML can hold the texts have the values of the list. -/
theorem C118_strings (hne : textsAt pp n ≠ []) (ops : List (ListOp (Option Str))) (hsup : ∀ op ∈ ops, op.supported = true)
    (hv : ∀ op ∈ ops, ∀ v ∈ op.values, ∃ t, v = some t ∧ xmlOk t = true) :
    readList eng ctx (strKind ctx e) xp a s = (.ok ((textsAt pp n).map some), s) ∧
    (listOps eng ctx (strKind ctx e) xp e a ops s).1 = (fixedListAll ((textsAt pp n).map some) ops).1 ∧
      ∃ n', (listOps eng ctx (strKind ctx e) xp e a ops s).2 = s.modify a (fun _ => n') ∧ oneText pp n' ∧ (textsAt pp n').map some = (fixedListAll ((textsAt pp n).map some) ops).2 ∧
        blanked pp n' = blanked pp n := by
  have hl : TextsRead (fun it => strToPython false (some it)) pp n _ := ⟨ho, (reads_strings false (textsAt pp n) _).2 rfl⟩
  refine ⟨C118_read _ strToXml eng heng ctx xp e pp hf a s n hs _ hl, ?_⟩
  obtain ⟨h1, n', h2, h3, h4⟩ := C118_ops _ strToXml eng heng ctx xp e pp hf a s n hs _ hl (by simpa using hne) ops hsup
    (fun op ho v hvm => by obtain ⟨t, rfl, ht⟩ := hv op ho v hvm; exact ⟨t, rfl, ht, rfl⟩)
  exact ⟨h1, n', h2, h3.1, ((reads_strings false _ _).1 h3.2).symm, h4⟩

/-- C118.  An IntegerListField holds the elements' texts, `None` for one that is no integer; after any operations that assign integers (of any size) the texts have the values of the list. -/
theorem C118_integers (number : Str → XNum) (hne : textsAt pp n ≠ []) (ops : List (ListOp (Option Int))) (hsup : ∀ op ∈ ops, op.supported = true)
    (hv : ∀ op ∈ ops, ∀ v ∈ op.values, ∃ k, v = some k) :
    readList eng ctx (intKind number ctx e) xp a s = (.ok ((textsAt pp n).map pyInt), s) ∧
    (listOps eng ctx (intKind number ctx e) xp e a ops s).1 = (fixedListAll ((textsAt pp n).map pyInt) ops).1 ∧
      ∃ n', (listOps eng ctx (intKind number ctx e) xp e a ops s).2 = s.modify a (fun _ => n') ∧ oneText pp n' ∧ (textsAt pp n').map pyInt = (fixedListAll ((textsAt pp n).map pyInt) ops).2 ∧
        blanked pp n' = blanked pp n := by
  have hl : TextsRead (fun it => intToPython number (some it)) pp n _ := ⟨ho, (reads_integers number (textsAt pp n) _).2 rfl⟩
  refine ⟨C118_read _ intToXml eng heng ctx xp e pp hf a s n hs _ hl, ?_⟩
  obtain ⟨h1, n', h2, h3, h4⟩ := C118_ops _ intToXml eng heng ctx xp e pp hf a s n hs _ hl (by simpa using hne) ops hsup
    (fun op ho v hvm => by
      obtain ⟨k, rfl⟩ := hv op ho v hvm
      refine ⟨intStr k, rfl, intStr_xmlOk k, ?_⟩
      simp only [intToPython, pyInt_intStr]; rfl)
  exact ⟨h1, n', h2, h3.1, ((reads_integers number _ _).1 h3.2).symm, h4⟩

end

/-! ### examples -/

/-- An XPath of this kind. -/
def noteXPath : Str := c%"l/i[@k='x']/text()"
/-- The steps in front of `text()`. -/
def noteSteps : List Step := [.child ⟨none, c%"l"⟩ [], .child ⟨none, c%"i"⟩ [.attr ⟨none, c%"k"⟩ (some (.str c%"x"))]]

/-- `<r><l><i k="x">one<b/></i>, <i>no</i><i k="x"/><i k="x">two</i></l></r>` -/
def noteDoc : Node :=
  .mk (.elem ⟨none, c%"r"⟩) [] none
    [.mk (.elem ⟨none, c%"l"⟩) [] none
      [.mk (.elem ⟨none, c%"i"⟩) [(⟨none, c%"k"⟩, c%"x")] (some c%"one") [.mk (.elem ⟨none, c%"b"⟩) [] none [] none] (some c%", "),
       .mk (.elem ⟨none, c%"i"⟩) [] (some c%"no") [] none,
       .mk (.elem ⟨none, c%"i"⟩) [(⟨none, c%"k"⟩, c%"x")] none [] none,
       .mk (.elem ⟨none, c%"i"⟩) [(⟨none, c%"k"⟩, c%"x")] (some c%"two") [] none] none] none

theorem noteField : TextsField sampleCtx noteXPath (ast noteXPath) noteSteps :=
  ⟨⟨by decide +kernel, by rfl, by decide +kernel, by decide +kernel⟩, by decide, by decide⟩

theorem noteDoc_oneText : oneText noteSteps noteDoc := by
  intro c hc _
  simp only [noteDoc, Node.children, List.mem_singleton] at hc
  subst hc
  intro c hc _ d hd
  simp only [Node.children, List.mem_cons, List.not_mem_nil, or_false] at hc
  rcases hc with rfl | rfl | rfl | rfl <;> simp [Node.children] at hd
  subst hd; rfl

/-- The hypotheses can be met; a sequence of operations. -/
example :
    (listOps refEngine sampleCtx (strKind sampleCtx (ast noteXPath)) noteXPath (ast noteXPath) [] [.set (-1) (some c%"2"), .append (some c%"3"), .pop none, .get 1, .del 5] noteDoc).1 =
      [.ok .unit, .error .typeError, .error .typeError, .ok (.val (some c%"2")), .error .indexError] ∧
    textsAt noteSteps
      (listOps refEngine sampleCtx (strKind sampleCtx (ast noteXPath)) noteXPath (ast noteXPath) [] [.set (-1) (some c%"2"), .append (some c%"3"), .pop none, .get 1, .del 5] noteDoc).2 =
      [c%"one", c%"2"] := by
  obtain ⟨-, h1, n', h2, -, h3, -⟩ := C118_strings refEngine refEngine_ok sampleCtx noteXPath (ast noteXPath) noteSteps noteField [] noteDoc noteDoc rfl noteDoc_oneText (by decide)
    [.set (-1) (some c%"2"), .append (some c%"3"), .pop none, .get 1, .del 5] (by decide) (by
      intro op ho v hv
      simp only [List.mem_cons, List.not_mem_nil, or_false] at ho
      rcases ho with rfl | rfl | rfl | rfl | rfl <;> simp [ListOp.values] at hv <;> subst hv <;> exact ⟨_, rfl, by decide⟩)
  refine ⟨by rw [h1]; decide +kernel, ?_⟩
  rw [h2]
  have : (textsAt noteSteps n').map some = [c%"one", c%"2"].map some := by rw [h3]; decide +kernel
  exact List.map_injective_iff.2 (Option.some_injective _) this

/-- What the frame says: everything but the texts stays. -/
example : blanked noteSteps noteDoc =
    .mk (.elem ⟨none, c%"r"⟩) [] none
    [.mk (.elem ⟨none, c%"l"⟩) [] none
      [.mk (.elem ⟨none, c%"i"⟩) [(⟨none, c%"k"⟩, c%"x")] (some []) [.mk (.elem ⟨none, c%"b"⟩) [] none [] none] (some c%", "),
       .mk (.elem ⟨none, c%"i"⟩) [] (some c%"no") [] none,
       .mk (.elem ⟨none, c%"i"⟩) [(⟨none, c%"k"⟩, c%"x")] none [] none,
       .mk (.elem ⟨none, c%"i"⟩) [(⟨none, c%"k"⟩, c%"x")] (some []) [] none] none] none := by decide +kernel

/-- `<r><a>x<b>old</b>y</a></r>` -/
def mixedTextDoc : Node :=
  .mk (.elem ⟨none, c%"r"⟩) [] none
    [.mk (.elem ⟨none, c%"a"⟩) [] (some c%"x") [.mk (.elem ⟨none, c%"b"⟩) [] (some c%"old") [] (some c%"y")] none] none

/-- With text behind a child the claim is false: the field shows `["x", "y"]`, but setting the second item writes the text of the child element instead, and the list is as before. -/
theorem C118_counterexample_tail :
    let k := strKind sampleCtx (ast c%"a/text()")
    let r := listOps refEngine sampleCtx k c%"a/text()" (ast c%"a/text()") [] [.set 1 (some c%"new"), .get 1] mixedTextDoc
    (readList refEngine sampleCtx k c%"a/text()" [] mixedTextDoc).1 = .ok [some c%"x", some c%"y"] ∧
    r.1 = [.ok .unit, .ok (.val (some c%"y"))] ∧
    r.2 = .mk (.elem ⟨none, c%"r"⟩) [] none
      [.mk (.elem ⟨none, c%"a"⟩) [] (some c%"x") [.mk (.elem ⟨none, c%"b"⟩) [] (some c%"new") [] (some c%"y")] none] none := by decide +kernel

/-- The list is not a Python list: what works with elements (C25) fails with texts. -/
theorem C118_counterexample_append :
    (listOps refEngine sampleCtx (strKind sampleCtx (ast noteXPath)) noteXPath (ast noteXPath) [] [.append (some c%"3")] noteDoc).1 = [.error .typeError] ∧
    (pyListAll [some c%"one", some c%"two"] [.append (some c%"3")]).1 = [.ok .unit] := by decide +kernel

end Props
