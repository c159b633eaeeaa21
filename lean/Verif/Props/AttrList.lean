import Verif.XmlMap.AttrListLemmas
import Verif.Props.ListField
import Verif.Props.TypedField
import Verif.Domain.Ead
/-
C105: list fields whose XPath ends in an attribute, e.g. `language_codes` of a finding aid (eadmap.py:456, `e:langusage/e:language/@langcode`).
-/
namespace Props
open Xml XPath Fields Spec

/-- The field's XPath is a path `pp` of child steps followed by the attribute `q`; which elements are selected does not depend on the values of the attributes in the list. -/
structure AttrsField [PyUnicode] (ctx : Ctx) (xp : Str) (e : Expr) (pp : List Step) (q : QName) : Prop where
  field : SimpleField ctx xp e (pp ++ [.attr q])
  steps : childSteps pp = true
  keeps : keepsAttr pp q = true

/-- A list field whose values are written as text. -/
def textKind {α : Type} (read : Item → Except PyErr α) (toXml : α → Except PyErr (Option Str)) (ctx : Ctx) (e : Expr) : ListKind α := ⟨read, storeText ctx toXml e⟩

section
variable [PyUnicode] {α : Type} [DecidableEq α] (read : Item → Except PyErr α) (toXml : α → Except PyErr (Option Str)) (eng : Engine) (heng : EngineOk eng)
  (ctx : Ctx) (xp : Str) (e : Expr) (pp : List Step) (q : QName) (hf : AttrsField ctx xp e pp q) (a : Node.Addr) (s n : Node) (hs : s.get a = some n) (l : List α)
  (hl : ReadsAs read (attrsAt pp q n) l)
include heng hf hs hl

/-- C105.  The list holds the values of the attributes in document order. -/
theorem C105_read : readList eng ctx (textKind read toXml ctx e) xp a s = (.ok l, s) :=
  attrData_run heng hf.field.parse hf.field.path hf.steps hs hl

/-- C105.  Any operations on a list that is not empty: those that leave the length as it is act as on a Python list, the others raise `TypeError` without a change.  Then the attributes hold the values
of the list, and apart from their values the document is as before. -/
theorem C105_ops (hne : l ≠ []) (ops : List (ListOp α)) (hsup : ∀ op ∈ ops, op.supported = true) (hv : ∀ op ∈ ops, ∀ v ∈ op.values, Keeps read toXml v) :
    (listOps eng ctx (textKind read toXml ctx e) xp e a ops s).1 = (fixedListAll l ops).1 ∧
      ∃ n', (listOps eng ctx (textKind read toXml ctx e) xp e a ops s).2 = s.modify a (fun _ => n') ∧ ReadsAs read (attrsAt pp q n') (fixedListAll l ops).2 ∧ wiped pp q n' = wiped pp q n :=
  attrOps_run heng hf.field.parse hf.field.path hf.steps hf.keeps ops s n l hs hl hne hsup hv

/-- C105.  Assigning as many values as there are attributes sets them. -/
theorem C105_assign (hne : l ≠ []) (vs : List α) (hlen : vs.length = l.length) (hv : ∀ v ∈ vs, Keeps read toXml v) :
    ∃ n', writeList eng ctx (textKind read toXml ctx e) xp e a vs s = (.ok (), s.modify a (fun _ => n')) ∧ ReadsAs read (attrsAt pp q n') vs ∧ wiped pp q n' = wiped pp q n := by
  obtain ⟨n', h1, h2, h3⟩ := attrAssign_run (toXml := toXml) heng hf.field.parse hf.field.path hf.steps hf.keeps hs hl hne vs hv
  refine ⟨n', ?_, ?_, h3⟩
  · rw [if_pos hlen] at h1; exact h1
  · have e1 : vs.take l.length ++ l.drop vs.length = vs := by rw [← hlen, List.take_length, hlen, List.drop_length, List.append_nil]
    rw [e1] at h2; exact h2

/-- C105.  Assigning more or fewer values raises `TypeError`, but changes the attributes first: each is set to the value given for it, if there is one. -/
theorem C105_assign_other (hne : l ≠ []) (vs : List α) (hlen : vs.length ≠ l.length) (hv : ∀ v ∈ vs, Keeps read toXml v) :
    ∃ n', writeList eng ctx (textKind read toXml ctx e) xp e a vs s = (.error .typeError, s.modify a (fun _ => n')) ∧ ReadsAs read (attrsAt pp q n') (vs.take l.length ++ l.drop vs.length) ∧
      wiped pp q n' = wiped pp q n := by
  obtain ⟨n', h1, h2, h3⟩ := attrAssign_run (toXml := toXml) heng hf.field.parse hf.field.path hf.steps hf.keeps hs hl hne vs hv
  exact ⟨n', by rw [if_neg hlen] at h1; exact h1, h2, h3⟩

/-- C105.  `del obj.field` raises `TypeError` and changes nothing, -/
theorem C105_delete (hne : l ≠ []) : deleteList eng ctx (textKind read toXml ctx e) xp a s = (.error .typeError, s) :=
  attrDelete_run heng hf.field.parse hf.field.path hf.steps hs hl hne

/-- C105.  Inserting at a negative index: `TypeError` if there is a value at that index, else `IndexError`; in both cases without a change.  (A Python list would insert.) -/
theorem C105_insert_negative (i : Int) (hi : i < 0) (v : α) :
    listInsert eng ctx read (storeText ctx toXml e) xp e (.elem a) i v s = (.error (if -(l.length : Int) ≤ i then .typeError else .indexError), s) := by
  unfold listInsert
  rw [bind_ok (attrLen_run heng hf.field.parse hf.field.path hf.steps hs hl), if_neg (by omega), bind_ok (attrMatches_run heng hf.field.parse hf.field.path hf.steps hs), List.length_map,
    holders_len hl, if_pos (by omega), pyGet_pos, List.length_map, holders_len hl]
  by_cases h : -(l.length : Int) ≤ i
  · have hkk : pos l.length i = some (l.length + i).toNat := by unfold pos; rw [if_neg (by omega), if_pos (by omega)]
    have hlt := pos_lt hkk
    obtain ⟨b, hb⟩ : ∃ b, (holders pp q n)[(l.length + i).toNat]? = some b := ⟨_, List.getElem?_eq_getElem (by rw [holders_len hl]; exact hlt)⟩
    rw [hkk, if_pos h]
    simp only [List.getElem?_map, hb, Option.map_some]
    rw [bind_ok (ofExcept_run _ _)]
    exact bind_err rfl
  · have hkk : pos l.length i = none := by unfold pos; rw [if_neg (by omega), if_neg (by omega)]
    rw [hkk, if_neg h]
    exact bind_err rfl

end

section
variable [PyUnicode] {α : Type} [DecidableEq α] (read : Item → Except PyErr α) (toXml : α → Except PyErr (Option Str)) (eng : Engine) (heng : EngineOk eng)
  (ctx : Ctx) (xp : Str) (e : Expr) (pp : List Step) (q : QName) (hf : AttrsField ctx xp e pp q) (a : Node.Addr) (s n : Node) (hs : s.get a = some n)
  (hno : attrsAt pp q n = [])
include heng hf hs hno

/-- C105.  On an empty list, appending a value is the same as assigning it to a single-value field with the XPath (see C12-C15). -/
theorem C105_append_empty (v : α) (t : Str) (ht : toXml v = .ok (some t)) :
    (listAppend eng ctx read (storeText ctx toXml e) xp e (.elem a) v) s = writeAs (toXml v) eng ctx xp e (.elem a) s := by
  rw [attrAppend_empty heng hf.field.parse hf.field.path hf.steps hs hno v t ht, ht]
  rfl

/-- C105.  Deleting an empty list does nothing. -/
theorem C105_delete_empty : deleteList eng ctx (textKind read toXml ctx e) xp a s = (.ok (), s) := by
  have hl : ReadsAs read (attrsAt pp q n) [] := by rw [hno]; exact .nil
  have hh : holders pp q n = [] := List.length_eq_zero_iff.1 (by rw [holders_len hl]; rfl)
  show listDeleteAll eng ctx read xp (.elem a) s = _
  unfold listDeleteAll
  rw [bind_ok (attrMatches_run heng hf.field.parse hf.field.path hf.steps hs), bind_ok (show getDoc s = (.ok s, s) from rfl), hh]
  rfl

end

/-! ### strings and integers -/

section
variable [PyUnicode] (eng : Engine) (heng : EngineOk eng) (ctx : Ctx) (xp : Str) (e : Expr) (pp : List Step) (q : QName) (hf : AttrsField ctx xp e pp q) (a : Node.Addr) (s n : Node)
  (hs : s.get a = some n)

omit [PyUnicode] in
/-- Attributes are read as they are; `normalize` does not matter. -/
theorem reads_strings (normalize : Bool) (ts : List Str) (l : List (Option Str)) : ReadsAs (fun it => strToPython normalize (some it)) ts l ↔ l = ts.map some := by
  induction ts generalizing l with
  | nil => exact ⟨fun h => by cases h; rfl, fun h => by subst h; exact .nil⟩
  | cons t ts ih =>
    constructor
    · rintro (_ | ⟨h1, h2⟩)
      cases h1
      rw [(ih _).1 h2]; rfl
    · rintro rfl
      exact .cons rfl ((ih _).2 rfl)

omit [PyUnicode] in
/-- Attributes that are no integers are read as `None`. -/
theorem reads_integers (number : Str → XNum) (ts : List Str) (l : List (Option Int)) : ReadsAs (fun it => intToPython number (some it)) ts l ↔ l = ts.map pyInt := by
  have h0 : ∀ t, intToPython number (some (.str t)) = .ok (pyInt t) := by
    intro t
    simp only [intToPython]
    cases pyInt t <;> rfl
  induction ts generalizing l with
  | nil => exact ⟨fun h => by cases h; rfl, fun h => by subst h; exact .nil⟩
  | cons t ts ih =>
    constructor
    · rintro (_ | ⟨h1, h2⟩)
      cases (show Except.ok (pyInt t) = _ from (h0 t).symm.trans h1)
      rw [(ih _).1 h2]; rfl
    · rintro rfl
      exact .cons (h0 t) ((ih _).2 rfl)

include heng hf hs

/-- C105.  A StringListField holds the attributes' values; after any operations that assign strings which XML can hold the attributes have the values of the list. -/
theorem C105_strings (hne : attrsAt pp q n ≠ []) (ops : List (ListOp (Option Str))) (hsup : ∀ op ∈ ops, op.supported = true)
    (hv : ∀ op ∈ ops, ∀ v ∈ op.values, ∃ t, v = some t ∧ xmlOk t = true) :
    readList eng ctx (strKind ctx e) xp a s = (.ok ((attrsAt pp q n).map some), s) ∧
    (listOps eng ctx (strKind ctx e) xp e a ops s).1 = (fixedListAll ((attrsAt pp q n).map some) ops).1 ∧
      ∃ n', (listOps eng ctx (strKind ctx e) xp e a ops s).2 = s.modify a (fun _ => n') ∧ (attrsAt pp q n').map some = (fixedListAll ((attrsAt pp q n).map some) ops).2 ∧
        wiped pp q n' = wiped pp q n := by
  have hl := (reads_strings false (attrsAt pp q n) _).2 rfl
  refine ⟨C105_read _ strToXml eng heng ctx xp e pp q hf a s n hs _ hl, ?_⟩
  obtain ⟨h1, n', h2, h3, h4⟩ := C105_ops _ strToXml eng heng ctx xp e pp q hf a s n hs _ hl (by simpa using hne) ops hsup
    (fun op ho v hvm => by obtain ⟨t, rfl, ht⟩ := hv op ho v hvm; exact ⟨t, rfl, ht, rfl⟩)
  exact ⟨h1, n', h2, ((reads_strings false _ _).1 h3).symm, h4⟩

/-- C105.  An IntegerListField holds the attributes' values, `None` for one that is no integer; after any operations that assign integers (of any size) the attributes have the values of the list. -/
theorem C105_integers (number : Str → XNum) (hne : attrsAt pp q n ≠ []) (ops : List (ListOp (Option Int))) (hsup : ∀ op ∈ ops, op.supported = true)
    (hv : ∀ op ∈ ops, ∀ v ∈ op.values, ∃ k, v = some k) :
    readList eng ctx (intKind number ctx e) xp a s = (.ok ((attrsAt pp q n).map pyInt), s) ∧
    (listOps eng ctx (intKind number ctx e) xp e a ops s).1 = (fixedListAll ((attrsAt pp q n).map pyInt) ops).1 ∧
      ∃ n', (listOps eng ctx (intKind number ctx e) xp e a ops s).2 = s.modify a (fun _ => n') ∧ (attrsAt pp q n').map pyInt = (fixedListAll ((attrsAt pp q n).map pyInt) ops).2 ∧
        wiped pp q n' = wiped pp q n := by
  have hl := (reads_integers number (attrsAt pp q n) _).2 rfl
  refine ⟨C105_read _ intToXml eng heng ctx xp e pp q hf a s n hs _ hl, ?_⟩
  obtain ⟨h1, n', h2, h3, h4⟩ := C105_ops _ intToXml eng heng ctx xp e pp q hf a s n hs _ hl (by simpa using hne) ops hsup
    (fun op ho v hvm => by
      obtain ⟨k, rfl⟩ := hv op ho v hvm
      refine ⟨intStr k, rfl, intStr_xmlOk k, ?_⟩
      simp only [intToPython, pyInt_intStr]; rfl)
  exact ⟨h1, n', h2, ((reads_integers number _ _).1 h3).symm, h4⟩

end

/-! ### examples -/

/-- eadmap.py:456 `language_codes`. -/
def langXPath : Str := c%"e:langusage/e:language/@langcode"
/-- The steps in front of the attribute. -/
def langSteps : List Step := [.child (Ead.q c%"langusage") [], .child (Ead.q c%"language") []]

/-- `<e:profiledesc><e:langusage>Written in <e:language langcode="eng"/> and <e:language/><e:language langcode="fre"/></e:langusage></e:profiledesc>` -/
def langDoc : Node :=
  .mk (.elem (Ead.q c%"profiledesc")) [] none
    [.mk (.elem (Ead.q c%"langusage")) [] (some c%"Written in ")
      [.mk (.elem (Ead.q c%"language")) [(⟨none, c%"langcode"⟩, c%"eng")] none [] (some c%" and "),
       .mk (.elem (Ead.q c%"language")) [] none [] none,
       .mk (.elem (Ead.q c%"language")) [(⟨none, c%"langcode"⟩, c%"fre"), (⟨none, c%"id"⟩, c%"x")] none [] none] none] none

/-- `language_codes` is a field of this kind. -/
theorem langField : AttrsField Ead.ctx langXPath (ast langXPath) langSteps ⟨none, c%"langcode"⟩ :=
  ⟨⟨by decide +kernel, by rfl, by decide +kernel, by decide +kernel⟩, by decide, by decide⟩

/-- The hypotheses can be met; a sequence of operations. -/
example :
    (listOps refEngine Ead.ctx (strKind Ead.ctx (ast langXPath)) langXPath (ast langXPath) [] [.set (-1) (some c%"ger"), .append (some c%"spa"), .pop none, .get 1, .del 5] langDoc).1 =
      [.ok .unit, .error .typeError, .error .typeError, .ok (.val (some c%"ger")), .error .indexError] ∧
    attrsAt langSteps ⟨none, c%"langcode"⟩
      (listOps refEngine Ead.ctx (strKind Ead.ctx (ast langXPath)) langXPath (ast langXPath) [] [.set (-1) (some c%"ger"), .append (some c%"spa"), .pop none, .get 1, .del 5] langDoc).2 =
      [c%"eng", c%"ger"] := by
  obtain ⟨-, h1, n', h2, h3, -⟩ := C105_strings refEngine refEngine_ok Ead.ctx langXPath (ast langXPath) langSteps ⟨none, c%"langcode"⟩ langField [] langDoc langDoc rfl (by decide)
    [.set (-1) (some c%"ger"), .append (some c%"spa"), .pop none, .get 1, .del 5] (by decide) (by
      intro op ho v hv
      simp only [List.mem_cons, List.not_mem_nil, or_false] at ho
      rcases ho with rfl | rfl | rfl | rfl | rfl <;> simp [ListOp.values] at hv <;> subst hv <;> exact ⟨_, rfl, by decide⟩)
  refine ⟨by rw [h1]; decide +kernel, ?_⟩
  rw [h2]
  have : (attrsAt langSteps ⟨none, c%"langcode"⟩ n').map some = [c%"eng", c%"ger"].map some := by rw [h3]; decide +kernel
  exact List.map_injective_iff.2 (Option.some_injective _) this

/-- What the frame says: everything but the codes stays. -/
example : wiped langSteps ⟨none, c%"langcode"⟩ langDoc =
    .mk (.elem (Ead.q c%"profiledesc")) [] none
      [.mk (.elem (Ead.q c%"langusage")) [] (some c%"Written in ")
        [.mk (.elem (Ead.q c%"language")) [(⟨none, c%"langcode"⟩, [])] none [] (some c%" and "),
         .mk (.elem (Ead.q c%"language")) [] none [] none,
         .mk (.elem (Ead.q c%"language")) [(⟨none, c%"langcode"⟩, []), (⟨none, c%"id"⟩, c%"x")] none [] none] none] none := by decide +kernel

/-- The list is not a Python list: what works with elements (C25) fails with attributes. -/
theorem C105_counterexample_append :
    (listOps refEngine Ead.ctx (strKind Ead.ctx (ast langXPath)) langXPath (ast langXPath) [] [.append (some c%"spa")] langDoc).1 = [.error .typeError] ∧
    (pyListAll [some c%"eng", some c%"fre"] [.append (some c%"spa")]).1 = [.ok .unit] := by decide +kernel

/-- Assigning a shorter list raises `TypeError`, after the first values have been changed. -/
theorem C105_counterexample_assign :
    let r := writeList refEngine Ead.ctx (strKind Ead.ctx (ast langXPath)) langXPath (ast langXPath) [] [some c%"spa"] langDoc
    r.1 = .error .typeError ∧ attrsAt langSteps ⟨none, c%"langcode"⟩ r.2 = [c%"spa", c%"fre"] := by decide +kernel

/-- A predicate about the attribute itself: setting a value removes it from the list. -/
theorem C105_counterexample_predicate :
    let doc : Node := .mk (.elem ⟨none, c%"r"⟩) [] none [.mk (.elem ⟨none, c%"b"⟩) [(⟨none, c%"x"⟩, c%"1")] none [] none] none
    let r := listOps refEngine sampleCtx (strKind sampleCtx (ast c%"b[@x='1']/@x")) c%"b[@x='1']/@x" (ast c%"b[@x='1']/@x") [] [.set 0 (some c%"2"), .len] doc
    r.1 = [.ok .unit, .ok (.nat 0)] := by decide +kernel

/-- A `NodeListField` over attributes or text: an element cannot take the place of one; `TypeError`, without a change.  For every engine and XPath. -/
theorem C105_refuses_elements [PyUnicode] (eng : Engine) (ctx : Ctx) (xp : Str) (e : Expr) (a : Node.Addr) (s : Node) (l : List Ref) (hv : eng.xpath xp s a ctx = .ok (.nodes l))
    (i : Nat) (r : Ref) (hr : l[i]? = some r) (hne : ∀ b, r ≠ .elem b) (v : ElemVal) :
    listSet eng ctx storeNode xp e (.elem a) i v s = (.error .typeError, s) := by
  have hlt : i < l.length := by
    by_contra h
    rw [List.getElem?_eq_none (by omega)] at hr; cases hr
  have hm : listMatches eng ctx xp (.elem a) s = (.ok l, s) := by
    unfold listMatches
    rw [bind_ok (show evalXPath eng ctx xp (.elem a) s = (.ok (.nodes l), s) by show (eng.xpath xp s a ctx, s) = _; rw [hv])]
    rfl
  unfold listSet
  rw [bind_ok hm, if_neg (show ¬ (i : Int) = l.length by omega), if_neg (show ¬ (i : Int) > l.length by omega)]
  have hg : pyGet l i = .ok r := by
    unfold pyGet
    rw [if_pos (show (0 : Int) ≤ i by omega)]
    simp only [Int.toNat_natCast, hr]
  rw [hg, bind_ok (show ofExcept (.ok r) s = (.ok r, s) from rfl)]
  cases r with
  | elem b => exact absurd rfl (hne b)
  | _ => rfl

example : listSet refEngine Ead.ctx storeNode langXPath (ast langXPath) (.elem []) 1 (.foreign langDoc) langDoc = (.error .typeError, langDoc) :=
  C105_refuses_elements _ _ _ _ _ _ [.attr [0, 0] ⟨none, c%"langcode"⟩, .attr [0, 2] ⟨none, c%"langcode"⟩] (by decide +kernel) 1 _ rfl (by intro b h; cases h) _

end Props
