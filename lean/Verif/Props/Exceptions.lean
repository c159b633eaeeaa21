import Verif.XmlMap.ErrorLemmas
import Verif.Props.Taking
import Verif.Props.Provenance
/-
Property C124: which exceptions statements about fields and lists can raise, and for which reasons.

Model: `managerSet`, `managerGet`, `managerCreate`, `managerDelete` (Verif/XmlMap/Manager.lean), `runOp` and the operations of lists (Verif/XmlMap/NodeList.lean).  Specification: Verif/Spec/Errors.lean.
-/
namespace Props
open XPath Xml Spec Fields

section
variable [PyUnicode] (eng : Engine) (ctx : Ctx)

/-- C124.  `obj.field = text`, any XPath, engine and document: an exception is one of the engine, or one that creating nodes can raise for its reasons, or `ValueError` for a text that XML does not allow. -/
theorem C124_assign (t : Str) (xp : Str) (e : Expr) (node : Ref) (s : Node) (er : PyErr) (h : (managerSet eng ctx (.ok (some (.str t))) xp e node s).1 = .error er) :
    EngineError eng ctx er ∨ CreateError ctx e er ∨ (er = .valueError ∧ xmlOk t = false) := by
  let P : PyErr → Prop := fun er => EngineError eng ctx er ∨ CreateError ctx e er ∨ (er = .valueError ∧ xmlOk t = false)
  have hg : ∀ er, EngineError eng ctx er → P er := fun _ h => .inl h
  have he : Grants P ctx e := fun _ h => .inr (.inl h)
  have hset : ∀ f, Raises P (setValue ctx f (.str t) (findTerminalStep e)) := fun f => by
    have h1 : Raises P (setInXml ctx f (some t) (findTerminalStep e)) := raises_setInXml he f (fun h => by cases h) (fun t' ht hx => by cases ht; exact .inr (.inr ⟨rfl, hx⟩))
    intro s er
    rw [setValue]
    exact h1 s er
  have hall : Raises P (managerSet eng ctx (.ok (some (.str t))) xp e node) := by
    unfold managerSet
    refine raises_value (fun _ h => by cases h) (fun xv hxv => raises_bind (raises_find (he _ trivial) hg xp node) (fun m => ?_))
    cases hxv
    cases m with
    | some f => exact hset f
    | none => exact raises_bind (raises_createNode hg e node none he) (fun r => hset _)
  exact hall s er h

/-- C124.  A field that instantiates what it does not find, and `obj.create_field()`: the same without a text. -/
theorem C124_create (xp : Str) (e : Expr) (node : Ref) (s : Node) (er : PyErr) (h : (managerCreate eng ctx xp e node s).1 = .error er) : EngineError eng ctx er ∨ CreateError ctx e er := by
  let P : PyErr → Prop := fun er => EngineError eng ctx er ∨ CreateError ctx e er
  have hg : ∀ er, EngineError eng ctx er → P er := fun _ h => .inl h
  have he : Grants P ctx e := fun _ h => .inr h
  have hall : Raises P (managerCreate eng ctx xp e node) := by
    unfold managerCreate
    refine raises_bind (raises_find (he _ trivial) hg xp node) (fun m => ?_)
    cases m with
    | some f => exact raises_pure _
    | none => exact raises_bind (raises_createNode hg e node none he) (fun r => raises_pure _)
  exact hall s er h

/-- C124.  Reading: an exception is one of the engine, one of the mapper, `AttributeError` (there is no element); for a field that instantiates what it does not find also one that creating nodes can raise. -/
theorem C124_read {α : Type} (inst : Bool) (toPython : Node → Option Found → Except PyErr α) (xp : Str) (e : Expr) (node : Ref) (s : Node) (er : PyErr)
    (h : (managerGet eng ctx inst toPython xp e node s).1 = .error er) :
    EngineError eng ctx er ∨ (∃ d f, toPython d f = .error er) ∨ er = .attributeError ∨ (inst = true ∧ CreateError ctx e er) := by
  let P : PyErr → Prop := fun er => EngineError eng ctx er ∨ (∃ d f, toPython d f = .error er) ∨ er = .attributeError ∨ (inst = true ∧ CreateError ctx e er)
  have hg : ∀ er, EngineError eng ctx er → P er := fun _ h => .inl h
  have hall : Raises P (managerGet eng ctx inst toPython xp e node) := by
    unfold managerGet
    refine raises_bind (raises_find (.inr (.inr (.inl rfl))) hg xp node) (fun m => ?_)
    split
    · rename_i hi
      have he : Grants P ctx e := fun _ h => .inr (.inr (.inr ⟨hi.2, h⟩))
      exact raises_bind (raises_createNode hg e node none he) (fun r => raises_bind raises_getDoc (fun d => raises_ofExcept (fun _ h => .inr (.inl ⟨d, _, h⟩))))
    · exact raises_bind raises_getDoc (fun d => raises_ofExcept (fun _ h => .inr (.inl ⟨d, m, h⟩)))
  exact hall s er h

/-- C124.  With an XPath that gives no reason for another exception and a text that XML allows, and when the engine does not raise, an assignment raises nothing but `Exception` and `AttributeError`. -/
theorem C124_blameless {e : Expr} (he : Blameless ctx e) (heng : ∀ er, ¬ EngineError eng ctx er) {t : Str} (ht : xmlOk t = true) (xp : Str) (node : Ref) (s : Node) (er : PyErr)
    (h : (managerSet eng ctx (.ok (some (.str t))) xp e node s).1 = .error er) : er = .exception ∨ er = .attributeError := by
  rcases C124_assign eng ctx t xp e node s er h with h | h | ⟨-, h⟩
  · exact absurd h (heng er)
  · cases er with
    | exception => exact .inl rfl
    | attributeError => exact .inr rfl
    | nameError => exact absurd h he.axes
    | keyError => exact (h.elim he.prefixes he.variables).elim
    | typeError => exact absurd h he.prefixes
    | valueError =>
      rcases h with h | ⟨v, hv, hx⟩
      · exact absurd h he.stars
      · rw [he.values v hv] at hx; cases hx
    | _ => exact h.elim
  · rw [ht] at h; cases h

/-! ### deletion -/

/-- Somewhere in the XPath there is an attribute step. -/
def HasAttrStep (e : Expr) : Prop := ∃ ax t ps, Expr.step (some ax) t ps ∈ subExprs e ∧ (ax = c%"@" ∨ ax = c%"attribute")

/-- What deleting can raise. -/
def DeleteError (e : Expr) : PyErr → Prop
  | .attributeError => True
  | .typeError => True
  | .valueError => True
  | .keyError => HasAttrStep e
  | _ => False

/-- Everything that deleting what this XPath finds may raise satisfies `P`. -/
def Concedes (P : PyErr → Prop) (e : Expr) : Prop := ∀ er, DeleteError e er → P er

theorem concedes_sub {P : PyErr → Prop} {e e' : Expr} (h : Concedes P e) (hs : ∀ x ∈ subExprs e', x ∈ subExprs e) : Concedes P e' := by
  intro er her
  refine h er ?_
  cases er with
  | keyError => obtain ⟨ax, t, ps, h1, h2⟩ := her; exact ⟨ax, t, ps, hs _ h1, h2⟩
  | attributeError => trivial
  | typeError => trivial
  | valueError => trivial
  | _ => exact her.elim

variable {eng ctx} {P : PyErr → Prop}

theorem raises_removeAttr {ax : Option Str} {pfx : Option Str} {nm : Str} {ps : List Expr} (he : Concedes P (.step ax (.name pfx nm) ps)) (hax : ax = some c%"@" ∨ ax = some c%"attribute") (node : Ref) :
    Raises P (removeAttr ctx pfx nm node) := by
  unfold removeAttr
  cases node with
  | elem a =>
    simp only
    refine raises_bind (raises_nodeAt (he _ trivial) a) (fun n => ?_)
    split
    · exact raises_bind (raises_edit _ _) (fun _ => raises_pure _)
    · refine raises_raise (he _ ?_)
      rcases hax with rfl | rfl
      · exact ⟨_, _, _, sub_self _, .inl rfl⟩
      · exact ⟨_, _, _, sub_self _, .inr rfl⟩
  | _ => exact raises_raise (he _ trivial)

theorem raises_removeChildNode {e : Expr} (he : Concedes P e) (hg : ∀ er, EngineError eng ctx er → P er) {preds : Ref → M Unit} (hp : ∀ r, Raises P (preds r)) (xp : Str) (b : Bool) (node : Ref) :
    Raises P (removeChildNode eng ctx xp preds b node) := by
  unfold removeChildNode
  refine raises_bind (raises_find (he _ trivial) hg xp node) (fun o => ?_)
  split
  · exact raises_pure _
  · refine raises_bind (raises_nodeAt (he _ trivial) _) (fun child => raises_bind (raises_ofExcept (fun er h => ?_)) (fun go => ?_))
    · split at h
      · unfold emptyExcept at h
        cases hr : preds (.elem []) child with
        | mk r n' =>
          rw [hr] at h
          cases r with
          | ok u => cases h
          | error er' => cases h; exact hp _ child er (by rw [hr])
      · cases h
    · split
      · split
        · exact raises_bind (raises_edit _ _) (fun _ => raises_pure _)
        · exact raises_raise (he _ trivial)
      · exact raises_pure _
  · exact raises_raise (he _ trivial)

theorem raises_removeStep {ax : Option Str} {t : NodeTest} {ps : List Expr} (he : Concedes P (.step ax t ps)) (hg : ∀ er, EngineError eng ctx er → P er) {preds : Ref → M Unit} (hp : ∀ r, Raises P (preds r))
    (xp : Str) (b : Bool) (node : Ref) : Raises P (removeStep eng ctx xp ax t preds b node) := by
  unfold removeStep
  cases t with
  | name pfx nm =>
    simp only
    split
    · exact raises_removeChildNode he hg hp xp b node
    · split
      · rename_i hax
        exact raises_removeAttr he hax node
      · exact raises_pure _
  | type nm a =>
    simp only
    split
    · unfold clearText
      cases node with
      | elem a => exact raises_bind (raises_edit _ _) (fun _ => raises_pure _)
      | _ => exact raises_raise (he _ trivial)
    · exact raises_pure _

theorem raises_ite {c : Prop} [Decidable c] {β : Type} {x y : M β} (hx : Raises P x) (hy : Raises P y) : Raises P (if c then x else y) := by
  split
  · exact hx
  · exact hy

theorem concedes_left {l r : Expr} {op : BinOp} (h : Concedes P (.binary l op r)) : Concedes P l :=
  concedes_sub h (fun x hx => by simp only [subExprs, List.mem_cons, List.mem_append]; exact .inr (.inl hx))
theorem concedes_right {l r : Expr} {op : BinOp} (h : Concedes P (.binary l op r)) : Concedes P r :=
  concedes_sub h (fun x hx => by simp only [subExprs, List.mem_cons, List.mem_append]; exact .inr (.inr hx))
theorem concedes_pred {ax : Option Str} {t : NodeTest} {ps : List Expr} {p : Expr} (h : Concedes P (.step ax t ps)) (hp : p ∈ ps) : Concedes P p :=
  concedes_sub h (fun x hx => by simp only [subExprs, List.mem_cons]; exact .inr (sub_list hp x hx))

mutual
theorem raises_removeXml (hg : ∀ er, EngineError eng ctx er → P er) : ∀ (e : Expr) (b : Bool) (node : Ref), Concedes P e → Raises P (removeXml eng ctx e b node)
  | .step ax t ps, b, node, he => by
    rw [removeXml]
    exact raises_removeStep he hg (fun r => raises_removePreds hg ps r (fun p hp => concedes_pred he hp)) _ b node
  | .binary l op r, b, node, he => by
    cases op with
    | slash =>
      rw [removeXml]
      refine raises_bind (raises_find (he _ trivial) hg _ _) (fun o => ?_)
      cases o with
      | none => exact raises_pure _
      | some f =>
        exact raises_bind (raises_foundRef (he _ trivial) f) (fun left => raises_bind (raises_removeXml hg r b left (concedes_right he)) (fun removed =>
          raises_ite (raises_bind (raises_removeXml hg l true node (concedes_left he)) (fun _ => raises_pure _)) (raises_pure _)))
    | _ => simp only [removeXml]; exact raises_pure _
  | .lit _, _, _, _ | .int _, _, _, _ | .float _, _, _, _ | .neg _, _, _, _ | .pred _ _, _, _, _ | .root, _, _, _ | .abs _ _, _, _, _ | .abbrev _, _, _, _ | .var _ _, _, _, _ | .call _ _ _, _, _, _ => by
    simp only [removeXml]; exact raises_pure _
theorem raises_removePred (hg : ∀ er, EngineError eng ctx er → P er) : ∀ (e : Expr) (node : Ref), Concedes P e → Raises P (removePred eng ctx e node)
  | .binary l op r, node, he => by
    cases op with
    | eq =>
      have outer : ∀ {c : M Unit}, Raises P c → Raises P (if isConstructible (.binary l .eq r) = false then pure () else
          evalXPath eng ctx (Expr.ser (.binary l .eq r)) node >>= fun v => if v = .bool true then c else pure ()) := fun hc =>
        raises_ite (raises_pure _) (raises_bind (raises_eval (he _ trivial) hg _ _) (fun v => raises_ite hc (raises_pure _)))
      cases l with
      | step ax t ps =>
        have hl : Concedes P (.step ax t ps) := concedes_left he
        cases t with
        | name pfx nm =>
          simp only [removePred]
          refine outer ?_
          split
          · rename_i hax
            exact raises_bind (raises_removeAttr hl hax node) (fun _ => raises_pure _)
          · exact raises_bind (raises_removeChildNode hl hg (fun r => raises_removePreds hg ps r (fun p hp => concedes_pred hl hp)) _ true node) (fun _ => raises_pure _)
        | type nm a => simp only [removePred]; exact outer (raises_pure _)
      | binary ll op lr => simp only [removePred]; exact outer (raises_bind (raises_removeXml hg (.binary ll op lr) true node (concedes_left he)) (fun _ => raises_pure _))
      | _ => simp only [removePred]; exact outer (raises_pure _)
    | _ => simp only [removePred]; exact raises_pure _
  | .step _ _ _, _, _ | .lit _, _, _ | .int _, _, _ | .float _, _, _ | .neg _, _, _ | .pred _ _, _, _ | .root, _, _ | .abs _ _, _, _ | .abbrev _, _, _ | .var _ _, _, _ | .call _ _ _, _, _ => by
    simp only [removePred]; exact raises_pure _
theorem raises_removePreds (hg : ∀ er, EngineError eng ctx er → P er) : ∀ (ps : List Expr) (node : Ref), (∀ p ∈ ps, Concedes P p) → Raises P (removePreds eng ctx ps node)
  | [], node, _ => by rw [removePreds]; exact raises_pure _
  | p :: ps, node, h => by
    rw [removePreds]
    exact raises_bind (raises_removePred hg p node (h p List.mem_cons_self)) (fun _ => raises_removePreds hg ps node (fun p hp => h p (List.mem_cons_of_mem _ hp)))
end

variable (eng ctx)

/-- C124.  `del obj.field` and `obj.field = None`: an exception is one of the engine, `AttributeError`, `TypeError` or `ValueError` (what was found is not where it can be removed), or, with an attribute step
in the XPath, `KeyError` (the element does not have the attribute). -/
theorem C124_delete (xp : Str) (e : Expr) (node : Ref) (s : Node) (er : PyErr) :
    ((managerDelete eng ctx xp e node s).1 = .error er → EngineError eng ctx er ∨ DeleteError e er) ∧ ((managerSet eng ctx (.ok none) xp e node s).1 = .error er → EngineError eng ctx er ∨ DeleteError e er) := by
  let P : PyErr → Prop := fun er => EngineError eng ctx er ∨ DeleteError e er
  have hg : ∀ er, EngineError eng ctx er → P er := fun _ h => .inl h
  have he : Concedes P e := fun _ h => .inr h
  have h1 : Raises P (managerDelete eng ctx xp e node) := by
    unfold managerDelete
    refine raises_bind (raises_find (he _ trivial) hg xp node) (fun m => ?_)
    cases m with
    | none => exact raises_pure _
    | some f => exact raises_bind (raises_removeXml hg e false node he) (fun _ => raises_pure _)
  have h2 : Raises P (managerSet eng ctx (.ok none) xp e node) := by
    unfold managerSet
    refine raises_value (fun _ h => by cases h) (fun xv hxv => raises_bind (raises_find (he _ trivial) hg xp node) (fun m => ?_))
    cases hxv
    cases m with
    | none => exact raises_pure _
    | some f => exact raises_bind (raises_removeXml hg e false node he) (fun _ => raises_pure _)
  exact ⟨h1 s er, h2 s er⟩

/-! ### lists -/

/-- The operation is given a position. -/
def ListOp.positional {α : Type} : ListOp α → Prop
  | .get _ | .set _ _ | .del _ | .insert _ _ | .pop _ => True
  | _ => False

/-- The operation looks for a value that has to be there. -/
def ListOp.seeks {α : Type} : ListOp α → Prop
  | .remove _ | .index _ => True
  | _ => False

/-- What an operation of a list can raise. -/
def ListError {α : Type} (mapper : Item → Except PyErr α) (toXml : α → Except PyErr (Option Str)) (e : Expr) (op : ListOp α) (er : PyErr) : Prop :=
  EngineError eng ctx er ∨ (∃ it, mapper it = .error er) ∨ er = .typeError ∨ er = .attributeError ∨ (er = .indexError ∧ ListOp.positional op) ∨ (er = .valueError ∧ ListOp.seeks op) ∨
  ∃ x ∈ ListOp.given op, CreateError ctx e er ∨ toXml x = .error er ∨ (er = .valueError ∧ ∃ t, toXml x = .ok (some t) ∧ xmlOk t = false)

variable {eng ctx} {α : Type} [DecidableEq α] {mapper : Item → Except PyErr α} {toXml : α → Except PyErr (Option Str)} {e : Expr}

theorem raises_matches (hg : ∀ er, EngineError eng ctx er → P er) (ha : P .attributeError) (ht : P .typeError) (xp : Str) (node : Ref) : Raises P (listMatches eng ctx xp node) := by
  unfold listMatches
  refine raises_bind (raises_eval ha hg xp node) (fun v => ?_)
  cases v with
  | nodes l => exact raises_pure _
  | _ => exact raises_raise ht

theorem mapMatch_error {d : Node} {r : Ref} (hm : ∀ er, (∃ it, mapper it = .error er) → P er) (ha : P .attributeError) : ∀ er, mapMatch mapper d r = .error er → P er := by
  intro er h
  unfold mapMatch at h
  split at h
  · exact hm er ⟨_, h⟩
  · cases h; exact ha

theorem mapMatches_error {d : Node} (hm : ∀ er, (∃ it, mapper it = .error er) → P er) (ha : P .attributeError) : ∀ (ms : List Ref) er, mapMatches mapper d ms = .error er → P er
  | [], er, h => by cases h
  | r :: ms, er, h => by
    rw [mapMatches] at h
    cases h1 : mapMatch mapper d r with
    | error e1 => rw [h1] at h; cases h; exact mapMatch_error hm ha er h1
    | ok x =>
      rw [h1] at h
      cases h2 : mapMatches mapper d ms with
      | error e2 => rw [h2] at h; cases h; exact mapMatches_error hm ha ms er h2
      | ok xs => rw [h2] at h; cases h

theorem pyGet_error {l : List α} {i : Int} (hi : P .indexError) : ∀ er, pyGet l i = .error er → P er := by
  intro er h
  rw [pyGet_pos] at h
  cases hp : pos l.length i with
  | none => rw [hp] at h; cases h; exact hi
  | some j =>
    rw [hp] at h
    simp only at h
    cases hl : l[j]? with
    | none => rw [hl] at h; cases h; exact hi
    | some y => rw [hl] at h; cases h

/-- What all the operations may raise. -/
structure ListGrants (eng : Engine) (ctx : Ctx) (mapper : Item → Except PyErr α) (P : PyErr → Prop) : Prop where
  engine : ∀ er, EngineError eng ctx er → P er
  mapper : ∀ er, (∃ it, mapper it = .error er) → P er
  type : P .typeError
  attr : P .attributeError

variable (H : ListGrants eng ctx mapper P)
include H

theorem raises_data (xp : Str) (node : Ref) : Raises P (listData eng ctx mapper xp node) :=
  raises_bind (raises_matches H.engine H.attr H.type xp node) (fun ms => raises_bind raises_getDoc (fun d => raises_ofExcept (mapMatches_error H.mapper H.attr ms)))
theorem raises_len (xp : Str) (node : Ref) : Raises P (listLen eng ctx mapper xp node) := raises_bind (raises_data H xp node) (fun _ => raises_pure _)
theorem raises_index (hv : P .valueError) (xp : Str) (node : Ref) (x : α) : Raises P (listIndex eng ctx mapper xp node x) := by
  unfold listIndex
  refine raises_bind (raises_data H xp node) (fun d => ?_)
  split
  · exact raises_pure _
  · exact raises_raise hv
theorem raises_get (hi : P .indexError) (xp : Str) (node : Ref) (i : Int) : Raises P (listGet eng ctx mapper xp node i) :=
  raises_bind (raises_matches H.engine H.attr H.type xp node) (fun ms => raises_bind (raises_ofExcept (pyGet_error hi)) (fun r => raises_bind raises_getDoc (fun d =>
    raises_ofExcept (mapMatch_error H.mapper H.attr))))
theorem raises_removeMatch (r : Ref) : Raises P (removeMatch r) := by
  cases r with
  | elem a => exact raises_ite (raises_raise H.attr) (raises_edit _ _)
  | _ => exact raises_raise H.type
theorem raises_listDel (hi : P .indexError) (xp : Str) (node : Ref) (i : Int) : Raises P (listDel eng ctx xp node i) :=
  raises_bind (raises_matches H.engine H.attr H.type xp node) (fun ms => raises_ite (raises_raise hi) (raises_bind (raises_ofExcept (pyGet_error hi)) (fun r => raises_removeMatch H r)))
theorem raises_pop (hi : P .indexError) (xp : Str) (node : Ref) (i : Option Int) : Raises P (listPop eng ctx mapper xp node i) := by
  unfold listPop
  refine raises_bind ?_ (fun i => raises_bind (raises_get H hi xp node i) (fun v => raises_bind (raises_listDel H hi xp node i) (fun _ => raises_pure _)))
  cases i with
  | some i => exact raises_pure _
  | none => exact raises_bind (raises_len H xp node) (fun _ => raises_pure _)

/-- `remove` deletes at an index that the list has. -/
theorem raises_remove (hv : P .valueError) (xp : Str) (node : Ref) (x : α) : Raises P (listRemove eng ctx mapper xp node x) := by
  intro s er h
  cases node with
  | elem b =>
    unfold listRemove at h
    rcases anyData_cases eng ctx mapper xp b s with ⟨e1, h1⟩ | ⟨ms, d, h1, hsel, hd⟩
    · rw [bind_err (show listIndex eng ctx mapper xp (.elem b) x s = (.error e1, s) from by unfold listIndex; exact bind_err h1)] at h
      cases h
      exact raises_data H xp (.elem b) s er (by rw [h1])
    · cases hi : d.idxOf? x with
      | none =>
        rw [bind_err (show listIndex eng ctx mapper xp (.elem b) x s = (.error .valueError, s) from by unfold listIndex; rw [bind_ok h1, hi]; rfl)] at h
        cases h
        exact hv
      | some j =>
        rw [bind_ok (show listIndex eng ctx mapper xp (.elem b) x s = (.ok j, s) from by unfold listIndex; rw [bind_ok h1, hi]; rfl)] at h
        unfold List.idxOf? at hi
        rw [List.findIdx?_eq_some_iff_getElem] at hi
        obtain ⟨hj, -, -⟩ := hi
        rw [(mapMatches_shows mapper hd).1] at hj
        unfold listDel at h
        rw [bind_ok (matches_of eng ctx xp hsel), if_neg (show ¬ (j : Int) ≥ (ms.length : Int) from by omega)] at h
        have hp : pyGet ms (j : Int) = .ok ms[j] := by
          rw [pyGet_pos, show pos ms.length (j : Int) = some j from by unfold pos; rw [if_pos (by omega)]; simp]
          simp only [List.getElem?_eq_getElem hj]
        rw [hp, bind_ok (ofExcept_run _ _)] at h
        exact raises_removeMatch H _ s er h
  | _ =>
    cases h
    exact H.attr

theorem raises_appendIndex (ms : List Ref) : Raises P (appendIndex ms) := by
  unfold appendIndex
  split
  · refine raises_bind ?_ (fun _ => raises_pure _)
    unfold positionOf
    split
    · split
      · exact raises_pure _
      · exact raises_raise H.attr
    · exact raises_raise H.type
  · exact raises_pure _

theorem raises_listSet (he : Grants P ctx e) (hi : P .indexError) {store : Ref → α → M Unit} {x : α} (hs : ∀ r, Raises P (store r x)) (xp : Str) (node : Ref) (i : Int) :
    Raises P (listSet eng ctx store xp e node i x) :=
  raises_bind (raises_matches H.engine H.attr H.type xp node) (fun ms => raises_bind
    (raises_ite (raises_bind (raises_appendIndex H ms) (fun idx => raises_createNode H.engine e node idx he)) (raises_ite (raises_raise hi) (raises_ofExcept (pyGet_error hi)))) hs)

/-- `append` sets at the index just behind the list. -/
theorem raises_append (he : Grants P ctx e) {store : Ref → α → M Unit} {x : α} (hs : ∀ r, Raises P (store r x)) (xp : Str) (node : Ref) : Raises P (listAppend eng ctx mapper store xp e node x) := by
  intro s er h
  cases node with
  | elem b =>
    unfold listAppend at h
    rcases anyData_cases eng ctx mapper xp b s with ⟨e1, h1⟩ | ⟨ms, d, h1, hsel, hd⟩
    · rw [bind_err (show listLen eng ctx mapper xp (.elem b) s = (.error e1, s) from by unfold listLen; exact bind_err h1)] at h
      cases h
      exact raises_data H xp (.elem b) s er (by rw [h1])
    · rw [bind_ok (show listLen eng ctx mapper xp (.elem b) s = (.ok d.length, s) from by unfold listLen; exact bind_ok h1)] at h
      unfold listSet at h
      rw [bind_ok (matches_of eng ctx xp hsel), (mapMatches_shows mapper hd).1, if_pos rfl] at h
      exact raises_bind (raises_bind (raises_appendIndex H ms) (fun idx => raises_createNode H.engine e (.elem b) idx he)) hs s er h
  | _ =>
    cases h
    exact H.attr

theorem raises_extend (he : Grants P ctx e) {store : Ref → α → M Unit} (xp : Str) (node : Ref) : ∀ (l : List α), (∀ x ∈ l, ∀ r, Raises P (store r x)) → Raises P (listExtend eng ctx mapper store xp e node l)
  | [], _ => by unfold listExtend; exact raises_pure _
  | x :: l, hs => by
    unfold listExtend
    exact raises_bind (raises_append H he (hs x List.mem_cons_self) xp node) (fun _ => raises_extend he xp node l (fun y hy => hs y (List.mem_cons_of_mem _ hy)))

theorem raises_insert (he : Grants P ctx e) (hi : P .indexError) {store : Ref → α → M Unit} {x : α} (hs : ∀ r, Raises P (store r x)) (xp : Str) (node : Ref) (i : Int) :
    Raises P (listInsert eng ctx mapper store xp e node i x) := by
  unfold listInsert
  refine raises_bind (raises_len H xp node) (fun n => raises_ite (raises_append H he hs xp node) (raises_bind (raises_matches H.engine H.attr H.type xp node) (fun ms => raises_ite ?_ (raises_raise hi))))
  refine raises_bind (raises_ofExcept (pyGet_error hi)) (fun r => raises_bind ?_ (fun p => raises_bind (raises_createNode H.engine e node (some p) he) (fun _ => raises_listSet H he hi hs xp node i)))
  unfold positionOf
  split
  · split
    · exact raises_pure _
    · exact raises_raise H.attr
  · exact raises_raise H.type

omit H in
omit [PyUnicode] [DecidableEq α] in
theorem raises_storeText (he : Grants P ctx e) (ht : P .typeError) {x : α} (h1 : ∀ er, toXml x = .error er → P er) (h2 : ∀ t, toXml x = .ok (some t) → xmlOk t = false → P .valueError) (r : Ref) :
    Raises P (storeText ctx toXml e r x) := by
  unfold storeText
  exact raises_value h1 (fun v hv => raises_setInXml he _ (fun _ => ht) (fun t h => by subst h; exact h2 t hv))

theorem raises_runOp (xp : Str) (node : Ref) (op : ListOp α) {store : Ref → α → M Unit} (hi : ListOp.positional op → P .indexError) (hv : ListOp.seeks op → P .valueError)
    (he : ∀ x ∈ ListOp.given op, Grants P ctx e) (hs : ∀ x ∈ ListOp.given op, ∀ r, Raises P (store r x)) : Raises P (runOp eng ctx mapper store xp e node op) := by
  cases op with
  | len => exact raises_bind (raises_len H xp node) (fun _ => raises_pure _)
  | get i => exact raises_bind (raises_get H (hi trivial) xp node i) (fun _ => raises_pure _)
  | set i x => exact raises_bind (raises_listSet H (he x List.mem_cons_self) (hi trivial) (hs x List.mem_cons_self) xp node i) (fun _ => raises_pure _)
  | del i => exact raises_bind (raises_listDel H (hi trivial) xp node i) (fun _ => raises_pure _)
  | append x => exact raises_bind (raises_append H (he x List.mem_cons_self) (hs x List.mem_cons_self) xp node) (fun _ => raises_pure _)
  | extend l =>
    cases l with
    | nil => exact raises_pure _
    | cons x l => exact raises_bind (raises_extend H (he x List.mem_cons_self) xp node (x :: l) hs) (fun _ => raises_pure _)
  | insert i x => exact raises_bind (raises_insert H (he x List.mem_cons_self) (hi trivial) (hs x List.mem_cons_self) xp node i) (fun _ => raises_pure _)
  | pop i => exact raises_bind (raises_pop H (hi trivial) xp node i) (fun _ => raises_pure _)
  | remove x => exact raises_bind (raises_remove H (hv trivial) xp node x) (fun _ => raises_pure _)
  | index x => exact raises_bind (raises_index H (hv trivial) xp node x) (fun _ => raises_pure _)
  | count x => exact raises_bind (raises_bind (raises_data H xp node) (fun _ => raises_pure _)) (fun _ => raises_pure _)
  | contains x => exact raises_bind (raises_bind (raises_data H xp node) (fun _ => raises_pure _)) (fun _ => raises_pure _)
  | eq l => exact raises_bind (raises_bind (raises_data H xp node) (fun _ => raises_pure _)) (fun _ => raises_pure _)

theorem raises_listTrim (hi : P .indexError) (xp : Str) (node : Ref) (len : Nat) : ∀ fuel, Raises P (listTrim eng ctx mapper xp node len fuel)
  | 0 => raises_pure _
  | fuel + 1 => raises_bind (raises_len H xp node) (fun n => raises_ite (raises_bind (raises_pop H hi xp node none) (fun _ => raises_listTrim hi xp node len fuel)) (raises_pure _))

theorem raises_listSetFrom (he : Grants P ctx e) (hi : P .indexError) {store : Ref → α → M Unit} (xp : Str) (node : Ref) : ∀ (l : List α) (i : Nat), (∀ x ∈ l, ∀ r, Raises P (store r x)) →
    Raises P (listSetFrom eng ctx store xp e node i l)
  | [], _, _ => by unfold listSetFrom; exact raises_pure _
  | x :: l, i, hs => by
    unfold listSetFrom
    exact raises_bind (raises_listSet H he hi (hs x List.mem_cons_self) xp node i) (fun _ => raises_listSetFrom he hi xp node l (i + 1) (fun y hy => hs y (List.mem_cons_of_mem _ hy)))

theorem raises_deleteAll (hv : P .valueError) (xp : Str) (node : Ref) : Raises P (listDeleteAll eng ctx mapper xp node) := by
  have go : ∀ (d : Node) (ms : List Ref), Raises P (listDeleteAll.go eng ctx mapper xp node d ms) := fun d ms => by
    induction ms with
    | nil => exact raises_pure _
    | cons r ms ih => exact raises_bind (raises_ofExcept (mapMatch_error H.mapper H.attr)) (fun x => raises_bind (raises_remove H hv xp node x) (fun _ => ih))
  exact raises_bind (raises_matches H.engine H.attr H.type xp node) (fun ms => raises_bind raises_getDoc (fun d => go d ms))

omit H
variable (eng ctx mapper toXml)

/-- C124.  An operation of a list, with any XPath, engine and document: an exception is one of the engine or of the mapper, `AttributeError` or `TypeError` (the XPath finds something that is no element with
a parent); for operations with an index `IndexError`, for `remove` and `index` `ValueError`; for operations that are given values also one that creating nodes can raise, one of converting the value, or
`ValueError` for a text that XML does not allow. -/
theorem C124_list (xp : Str) (e : Expr) (node : Ref) (op : ListOp α) (s : Node) (er : PyErr) (h : (runOp eng ctx mapper (storeText ctx toXml e) xp e node op s).1 = .error er) :
    ListError eng ctx mapper toXml e op er := by
  let P : PyErr → Prop := ListError eng ctx mapper toXml e op
  have H : ListGrants eng ctx mapper P := ⟨fun _ h => .inl h, fun _ h => .inr (.inl h), .inr (.inr (.inl rfl)), .inr (.inr (.inr (.inl rfl)))⟩
  have hi : ListOp.positional op → P .indexError := fun h => .inr (.inr (.inr (.inr (.inl ⟨rfl, h⟩))))
  have hv : ListOp.seeks op → P .valueError := fun h => .inr (.inr (.inr (.inr (.inr (.inl ⟨rfl, h⟩)))))
  have he : ∀ x ∈ ListOp.given op, Grants P ctx e := fun x hx er h => .inr (.inr (.inr (.inr (.inr (.inr ⟨x, hx, .inl h⟩)))))
  have hs : ∀ x ∈ ListOp.given op, ∀ r, Raises P (storeText ctx toXml e r x) := fun x hx r =>
    raises_storeText (he x hx) H.type (fun er h => .inr (.inr (.inr (.inr (.inr (.inr ⟨x, hx, .inr (.inl h)⟩))))))
      (fun t h1 h2 => .inr (.inr (.inr (.inr (.inr (.inr ⟨x, hx, .inr (.inr ⟨rfl, t, h1, h2⟩)⟩))))) ) r
  exact raises_runOp H xp node op hi hv he hs s er h

/-- C124.  `obj.list = values`: the same, and `IndexError`. -/
theorem C124_list_assign (xp : Str) (e : Expr) (node : Ref) (l : List α) (s : Node) (er : PyErr) (h : (listAssign eng ctx mapper (storeText ctx toXml e) xp e node l s).1 = .error er) :
    EngineError eng ctx er ∨ (∃ it, mapper it = .error er) ∨ er = .typeError ∨ er = .attributeError ∨ er = .indexError ∨
    ∃ x ∈ l, CreateError ctx e er ∨ toXml x = .error er ∨ (er = .valueError ∧ ∃ t, toXml x = .ok (some t) ∧ xmlOk t = false) := by
  let P : PyErr → Prop := fun er => EngineError eng ctx er ∨ (∃ it, mapper it = .error er) ∨ er = .typeError ∨ er = .attributeError ∨ er = .indexError ∨
    ∃ x ∈ l, CreateError ctx e er ∨ toXml x = .error er ∨ (er = .valueError ∧ ∃ t, toXml x = .ok (some t) ∧ xmlOk t = false)
  have H : ListGrants eng ctx mapper P := ⟨fun _ h => .inl h, fun _ h => .inr (.inl h), .inr (.inr (.inl rfl)), .inr (.inr (.inr (.inl rfl)))⟩
  have hi : P .indexError := .inr (.inr (.inr (.inr (.inl rfl))))
  have he : ∀ x ∈ l, Grants P ctx e := fun x hx er h => .inr (.inr (.inr (.inr (.inr ⟨x, hx, .inl h⟩))))
  have hs : ∀ x ∈ l, ∀ r, Raises P (storeText ctx toXml e r x) := fun x hx r =>
    raises_storeText (he x hx) H.type (fun er h => .inr (.inr (.inr (.inr (.inr ⟨x, hx, .inr (.inl h)⟩))))) (fun t h1 h2 => .inr (.inr (.inr (.inr (.inr ⟨x, hx, .inr (.inr ⟨rfl, t, h1, h2⟩)⟩))))) r
  have hfrom : Raises P (listSetFrom eng ctx (storeText ctx toXml e) xp e node 0 l) := by
    cases l with
    | nil => exact raises_pure _
    | cons x l => exact raises_listSetFrom H (he x List.mem_cons_self) hi xp node (x :: l) 0 hs
  exact raises_bind hfrom (fun _ => raises_bind (raises_len H xp node) (fun n s => raises_listTrim H hi xp node l.length (n + s.nodes) s)) s er h

/-- C124.  `del obj.list`: engine, mapper, `AttributeError`, `TypeError`, `ValueError`. -/
theorem C124_list_clear (xp : Str) (node : Ref) (s : Node) (er : PyErr) (h : (listDeleteAll eng ctx mapper xp node s).1 = .error er) :
    EngineError eng ctx er ∨ (∃ it, mapper it = .error er) ∨ er = .typeError ∨ er = .attributeError ∨ er = .valueError := by
  let P : PyErr → Prop := fun er => EngineError eng ctx er ∨ (∃ it, mapper it = .error er) ∨ er = .typeError ∨ er = .attributeError ∨ er = .valueError
  have H : ListGrants eng ctx mapper P := ⟨fun _ h => .inl h, fun _ h => .inr (.inl h), .inr (.inr (.inl rfl)), .inr (.inr (.inr (.inl rfl)))⟩
  exact raises_deleteAll H (.inr (.inr (.inr (.inr rfl)))) xp node s er h

end

/-! ### objects as values -/
section
variable [PyUnicode] {eng : Engine} {ctx : Ctx} {P : PyErr → Prop}

theorem raises_graftOwn (ha : P .attributeError) (hv : P .valueError) (a b : Node.Addr) : Raises P (graftOwn a b) := by
  unfold graftOwn
  refine raises_ite (raises_edit _ _) (raises_ite (raises_bind (raises_edit _ _) (fun _ => raises_raise hv)) (raises_bind (raises_nodeAt ha b) (fun v => ?_)))
  split
  · exact raises_bind (raises_edit _ _) (fun _ => raises_edit _ _)
  · exact raises_edit _ _

theorem raises_setObject (ha : P .attributeError) (ht : P .typeError) {v : ElemVal} (hv : ∀ b, v = .own b → P .valueError) (f : Found) (step : Option (Option Str × NodeTest)) :
    Raises P (setValue ctx f (.elem v) step) := by
  cases f with
  | ref r =>
    cases r with
    | elem a =>
      cases v with
      | foreign n => exact raises_edit _ _
      | own b => exact raises_graftOwn ha (hv b rfl) a b
    | _ => cases v <;> exact raises_raise ht
  | str _ => cases v <;> exact raises_raise ha
  | _ => cases v <;> exact raises_pure _

theorem raises_storeNode (ha : P .attributeError) (ht : P .typeError) {v : ElemVal} (hv : ∀ b, v = .own b → P .valueError) (r : Ref) : Raises P (storeNode r v) := by
  cases r with
  | elem a =>
    simp only [storeNode]
    refine raises_ite (raises_raise ha) ?_
    cases v with
    | foreign n => exact raises_edit _ _
    | own b =>
      exact raises_bind (raises_nodeAt ha b) (fun v => raises_ite (raises_raise (hv b rfl)) (raises_ite (raises_pure _) (raises_ite (raises_edit _ _) (raises_bind (raises_edit _ _) (fun _ => raises_edit _ _)))))
  | _ => exact raises_raise ht

variable (eng ctx)

/-- C124.  `obj.field = other`: like a text, and `TypeError` (what was found is no element), and `ValueError` if the object is one of the same document (it contains the place where it should go). -/
theorem C124_object (v : ElemVal) (xp : Str) (e : Expr) (node : Ref) (s : Node) (er : PyErr) (h : (managerSet eng ctx (.ok (some (.elem v))) xp e node s).1 = .error er) :
    EngineError eng ctx er ∨ CreateError ctx e er ∨ er = .typeError ∨ (er = .valueError ∧ ∃ b, v = .own b) := by
  let P : PyErr → Prop := fun er => EngineError eng ctx er ∨ CreateError ctx e er ∨ er = .typeError ∨ (er = .valueError ∧ ∃ b, v = .own b)
  have hg : ∀ er, EngineError eng ctx er → P er := fun _ h => .inl h
  have he : Grants P ctx e := fun _ h => .inr (.inl h)
  have hset : ∀ f, Raises P (setValue ctx f (.elem v) (findTerminalStep e)) := fun f => raises_setObject (he _ trivial) (.inr (.inr (.inl rfl))) (fun b hb => .inr (.inr (.inr ⟨rfl, b, hb⟩))) f _
  have hall : Raises P (managerSet eng ctx (.ok (some (.elem v))) xp e node) := by
    unfold managerSet
    refine raises_value (fun _ h => by cases h) (fun xv hxv => raises_bind (raises_find (he _ trivial) hg xp node) (fun m => ?_))
    cases hxv
    cases m with
    | some f => exact hset f
    | none => exact raises_bind (raises_createNode hg e node none he) (fun r => hset _)
  exact hall s er h

/-- C124.  An operation of a list of objects. -/
theorem C124_object_list (mapper : Item → Except PyErr ElemVal) (xp : Str) (e : Expr) (node : Ref) (op : ListOp ElemVal) (s : Node) (er : PyErr)
    (h : (runOp eng ctx mapper storeNode xp e node op s).1 = .error er) :
    EngineError eng ctx er ∨ (∃ it, mapper it = .error er) ∨ er = .typeError ∨ er = .attributeError ∨ (er = .indexError ∧ ListOp.positional op) ∨ (er = .valueError ∧ ListOp.seeks op) ∨
    ∃ x ∈ ListOp.given op, CreateError ctx e er ∨ (er = .valueError ∧ ∃ b, x = .own b) := by
  let P : PyErr → Prop := fun er => EngineError eng ctx er ∨ (∃ it, mapper it = .error er) ∨ er = .typeError ∨ er = .attributeError ∨ (er = .indexError ∧ ListOp.positional op) ∨
    (er = .valueError ∧ ListOp.seeks op) ∨ ∃ x ∈ ListOp.given op, CreateError ctx e er ∨ (er = .valueError ∧ ∃ b, x = .own b)
  have H : ListGrants eng ctx mapper P := ⟨fun _ h => .inl h, fun _ h => .inr (.inl h), .inr (.inr (.inl rfl)), .inr (.inr (.inr (.inl rfl)))⟩
  exact raises_runOp H xp node op (fun h => .inr (.inr (.inr (.inr (.inl ⟨rfl, h⟩))))) (fun h => .inr (.inr (.inr (.inr (.inr (.inl ⟨rfl, h⟩))))))
    (fun x hx er h => .inr (.inr (.inr (.inr (.inr (.inr ⟨x, hx, .inl h⟩))))))
    (fun x hx r => raises_storeNode H.attr H.type (fun b hb => .inr (.inr (.inr (.inr (.inr (.inr ⟨x, hx, .inr ⟨rfl, b, hb⟩⟩)))))) r) s er h

end
/-- An engine that never finds anything. -/
def blindEngine : Engine := ⟨fun _ _ _ _ => .ok (.nodes [])⟩

/-- The exception of assigning `x` to a field, when nothing is found. -/
def assignError (xp : Str) (t : Str) : Option PyErr := match (managerSet blindEngine sampleCtx (.ok (some (.str t))) xp (ast xp) (.elem []) listDoc).1 with
  | .error er => some er
  | .ok _ => none

/-- Each exception of the list happens, for its reason: a prefix that the class does not know, on a child and on an attribute; a variable that it does not know; a star; a text with a control character;
another axis; a predicate that cannot be constructed.  With none of these the assignment works. -/
example : assignError c%"q:a" c%"x" = some .keyError ∧ assignError c%"a/@q:b" c%"x" = some .typeError ∧ assignError c%"a[b = $nope]" c%"x" = some .keyError ∧ assignError c%"*" c%"x" = some .valueError ∧
    assignError c%"a" ['\x01'] = some .valueError ∧ assignError c%"descendant::a" c%"x" = some .nameError ∧ assignError c%"a[b < 2]/c" c%"x" = none ∧ assignError c%"a[last()/b = c]" c%"x" = some .exception ∧
    assignError c%"a[@k = $KIND]/m:b" c%"x" = none ∧ assignError c%"a | b" c%"x" = some .exception := by decide +kernel

/-- The hypotheses of C124_blameless are met. -/
example : Blameless sampleCtx (ast c%"a[@k = 'v']/m:b") ∧ (∀ er, ¬ EngineError blindEngine sampleCtx er) := by
  have h : subExprs (ast c%"a[@k = 'v']/m:b") = [.binary (.step none (.name none c%"a") [.binary (.step (some c%"@") (.name none c%"k") []) .eq (.lit c%"v")]) .slash (.step none (.name (some c%"m") c%"b") []),
    .step none (.name none c%"a") [.binary (.step (some c%"@") (.name none c%"k") []) .eq (.lit c%"v")], .binary (.step (some c%"@") (.name none c%"k") []) .eq (.lit c%"v"),
    .step (some c%"@") (.name none c%"k") [], .lit c%"v", .step none (.name (some c%"m") c%"b") []] := by decide +kernel
  refine ⟨⟨?_, ?_, ?_, ?_, ?_⟩, fun er ⟨xp, s, a, h⟩ => by cases h⟩
  · rintro ⟨ax, p, nm, ps, h1, h2, h3⟩
    rw [h] at h1
    simp at h1
    obtain ⟨-, ⟨rfl, rfl⟩, -⟩ := h1
    cases h3
  · rintro ⟨p, nm, h1, -⟩
    rw [h] at h1
    simp at h1
  · rintro ⟨ax, p, ps, h1⟩
    rw [h] at h1
    simp at h1
  · rintro ⟨ax, t, ps, h1, h2, h3, h4⟩
    rw [h] at h1
    simp at h1
    exact h3 h1.1
  · rintro v (h1 | ⟨n, h1, -⟩ | ⟨p, nm, h1, -⟩)
    · rw [h] at h1
      simp at h1
      subst h1
      decide
    · rw [h] at h1
      simp at h1
    · rw [h] at h1
      simp at h1

end Props
