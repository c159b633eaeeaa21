import Verif.Spec.Computed
import Verif.Props.DateField
/-
Property C113: fields whose XPath computes a value (`count(a)`, `string(b)`, `a = 'x'`, `a + 1`, ...) can be read but never change the document.

Model: `managerGet`, `managerSet`, `managerCreate`, `managerDelete` (Verif/XmlMap/Manager.lean).  Specification: Verif/Spec/Computed.lean.
-/
namespace Props
open XPath Xml Spec Fields

section
variable [PyUnicode] {eng : Engine} {ctx : Ctx} {xp : Str} {e : Expr} {a : Node.Addr} {s : Node}

theorem findNode_value {v : XVal} (hv : eng.xpath xp s a ctx = .ok v) : findNode eng ctx xp (.elem a) s = (.ok (foundOf v), s) := by
  have : evalXPath eng ctx xp (.elem a) s = (.ok v, s) := by
    show (eng.xpath xp s a ctx, s) = _
    rw [hv]
  unfold findNode
  rw [bind_ok this]; rfl

theorem foundOf_falsy {v : XVal} (h : Falsy v) : foundOf v = none := by cases h <;> simp [foundOf, numTruthy]

theorem create_computed (he : computed e = true) (node : Ref) (i : Option Nat) (s : Node) : createNode eng ctx e node i s = (.error .exception, s) := by
  cases e with
  | step ax t ps => cases he
  | binary l op r =>
    cases op with
    | slash => cases he
    | _ => rw [createNode] <;> first | rfl | simp
  | _ => rw [createNode] <;> first | rfl | simp

theorem remove_computed (he : computed e = true) (b : Bool) (node : Ref) (s : Node) : removeXml eng ctx e b node s = (.ok false, s) := by
  cases e with
  | step ax t ps => cases he
  | binary l op r =>
    cases op with
    | slash => cases he
    | _ => rw [removeXml] <;> first | rfl | simp
  | _ => rw [removeXml] <;> first | rfl | simp

/-- C113.  Assigning a value (text or element) to a field with a computed XPath: with a string as result it raises `AttributeError`; a number other than 0, NaN, an infinity or true: the assignment is silently ignored; with an empty string, zero,
false or no nodes an `Exception` is raised, as such an XPath cannot be constructed.  The document never changes. -/
theorem C113_assign (x : XValue) (v : XVal) (hv : eng.xpath xp s a ctx = .ok v) :
    (∀ t, v = .str t → t ≠ [] → managerSet eng ctx (.ok (some x)) xp e (.elem a) s = (.error .attributeError, s)) ∧
    (TrueValue v → managerSet eng ctx (.ok (some x)) xp e (.elem a) s = (.ok (), s)) ∧
    (Falsy v → computed e = true → managerSet eng ctx (.ok (some x)) xp e (.elem a) s = (.error .exception, s)) := by
  have start : ∀ f, foundOf v = some f → managerSet eng ctx (.ok (some x)) xp e (.elem a) s = setValue ctx f x (findTerminalStep e) s := by
    intro f hf
    unfold managerSet
    rw [bind_ok (show ofExcept (.ok (some x)) s = (.ok (some x), s) from rfl), bind_ok (findNode_value hv), hf]
  refine ⟨fun t ht hne => ?_, fun h => ?_, fun h he => ?_⟩
  · subst ht
    rw [start (.str t) (by simp [foundOf, hne])]
    cases x with
    | str y => rfl
    | elem w => cases w <;> rfl
  · have num : ∀ y, foundOf v = some (.num y) → managerSet eng ctx (.ok (some x)) xp e (.elem a) s = (.ok (), s) := by
      intro y hy
      rw [start _ hy]
      cases x with
      | str y => rfl
      | elem w => cases w <;> rfl
    cases h with
    | dec neg m k hm => exact num (.dec neg m k) (by simp [foundOf, numTruthy, hm])
    | nan => exact num _ rfl
    | inf neg => exact num _ rfl
    | bool =>
      rw [start (.bool true) rfl]
      cases x with
      | str y => rfl
      | elem w => cases w <;> rfl
  · unfold managerSet
    rw [bind_ok (show ofExcept (.ok (some x)) s = (.ok (some x), s) from rfl), bind_ok (findNode_value hv), foundOf_falsy h]
    exact bind_err (create_computed he (.elem a) none s)

/-- C113.  `obj.field = None` and `del obj.field` do nothing, whatever the result, and raise nothing: also if nodes were selected. -/
theorem C113_delete (he : computed e = true) (v : XVal) (hv : eng.xpath xp s a ctx = .ok v) :
    managerDelete eng ctx xp e (.elem a) s = (.ok (), s) ∧ managerSet eng ctx (.ok none) xp e (.elem a) s = (.ok (), s) := by
  constructor
  · unfold managerDelete
    rw [bind_ok (findNode_value hv)]
    cases foundOf v with
    | none => rfl
    | some f => exact bind_ok (remove_computed he false (.elem a) s)
  · unfold managerSet
    rw [bind_ok (show ofExcept (.ok none) s = (.ok (none : Option XValue), s) from rfl), bind_ok (findNode_value hv)]
    cases foundOf v with
    | none => rfl
    | some f => exact bind_ok (remove_computed he false (.elem a) s)

/-- C113.  Numbers that are no integers, read by an `IntegerField`: NaN is `None`, an infinity raises `OverflowError`; an `ItemField` shows them. -/
theorem C113_not_finite (number : Str → XNum) :
    (eng.xpath xp s a ctx = .ok (.num .nan) → readAs .ok eng ctx xp e (.elem a) s = (.ok (some (.num .nan)), s) ∧
      readAs (intToPython number) eng ctx xp e (.elem a) s = (.ok none, s)) ∧
    (∀ neg, eng.xpath xp s a ctx = .ok (.num (.inf neg)) → readAs .ok eng ctx xp e (.elem a) s = (.ok (some (.num (.inf neg))), s) ∧
      readAs (intToPython number) eng ctx xp e (.elem a) s = (.error .overflowError, s)) := by
  refine ⟨fun hv => ⟨?_, ?_⟩, fun neg hv => ⟨?_, ?_⟩⟩ <;> rw [readAs_scalar _ _ _ _ _ _ _ hv] <;> rfl

/-- C113.  With `instantiate_on_get`, a computed field with a false result raises an exception when it is read; the same for `create_<field>`.  Nothing changes. -/
theorem C113_instantiate {α : Type} (toPy : Node → Option Found → Except PyErr α) (he : computed e = true) (v : XVal) (hv : eng.xpath xp s a ctx = .ok v) (hf : Falsy v) :
    managerGet eng ctx true toPy xp e (.elem a) s = (.error .exception, s) ∧ managerCreate eng ctx xp e (.elem a) s = (.error .exception, s) := by
  constructor
  · unfold managerGet
    rw [bind_ok (findNode_value hv), foundOf_falsy hf]
    simp only [and_self, if_true]
    exact bind_err (create_computed he (.elem a) none s)
  · unfold managerCreate
    rw [bind_ok (findNode_value hv), foundOf_falsy hf]
    exact bind_err (create_computed he (.elem a) none s)

end

/-! ### the hypotheses can be met -/

/-- An engine that counts the children: what lxml says about `count(*)`. -/
def countEngine : Engine := ⟨fun _ s a _ => .ok (.num (.dec false (((s.get a).map (fun n => n.children.length)).getD 0) 0))⟩

example : computed (ast c%"count(a)") = true ∧ computed (ast c%"a = 'x'") = true ∧ computed (ast c%"string(a/b)") = true ∧ computed (ast c%"a/b") = false := by decide +kernel

/-- `obj.n = 5` with XPath `count(*)` is ignored if there are children, and raises an exception if there are none. -/
example : managerSet countEngine sampleCtx (.ok (some (.str c%"5"))) c%"count(*)" (ast c%"count(*)") (.elem []) sampleDoc = (.ok (), sampleDoc) ∧
    managerSet countEngine sampleCtx (.ok (some (.str c%"5"))) c%"count(*)" (ast c%"count(*)") (.elem [0]) sampleDoc = (.error .exception, sampleDoc) :=
  ⟨(C113_assign _ _ rfl).2.1 (.dec _ _ _ (by decide)), (C113_assign _ _ rfl).2.2 (.zero _ _) (by decide +kernel)⟩

/-- `string(a)` refuses assignments. -/
example : managerSet ⟨fun _ _ _ _ => .ok (.str c%"t")⟩ sampleCtx (.ok (some (.str c%"5"))) c%"string(a)" (ast c%"string(a)") (.elem []) sampleDoc = (.error .attributeError, sampleDoc) :=
  (C113_assign _ _ rfl).1 _ rfl (by decide)

end Props
