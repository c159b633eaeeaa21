import Verif.Props.Grown
import Verif.XmlMap.ProgramLemmas
/-
Property C121: programs that read, assign, clear, create, and do anything with lists, in any order and with any XPaths, never make, copy or move a comment, a processing instruction or a text
behind an element.

Model: `managerGet`, `managerSet`, `managerCreate`, `managerDelete` (Verif/XmlMap/Manager.lean), the operations of lists (Verif/XmlMap/NodeList.lean).  Specification: Verif/Spec/Programs.lean.
-/
namespace Props
open XPath Xml Spec Fields

/-- A statement about a field or list field with any XPath, of any object.  For lists: the type of the values and the two directions of the mapper. -/
inductive AnyStmt : Type 1 where
  /-- `obj.field`, also if it instantiates what it does not find. -/
  | read {α : Type} (instantiate : Bool) (toPython : Node → Option Found → Except PyErr α) (xp : Str) (e : Expr) (node : Ref)
  /-- `obj.field = value`; the value can be `None`, or one that cannot be converted. -/
  | assign (v : Except PyErr (Option Str)) (xp : Str) (e : Expr) (node : Ref)
  /-- `obj.create_field()` -/
  | create (xp : Str) (e : Expr) (node : Ref)
  /-- `del obj.field` -/
  | clear (xp : Str) (e : Expr) (node : Ref)
  /-- an operation of the list `obj.list` -/
  | list {α : Type} (eq : DecidableEq α) (mapper : Item → Except PyErr α) (toXml : α → Except PyErr (Option Str)) (xp : Str) (e : Expr) (node : Ref) (op : ListOp α)
  /-- `obj.list = values` -/
  | listAssign {α : Type} (eq : DecidableEq α) (mapper : Item → Except PyErr α) (toXml : α → Except PyErr (Option Str)) (xp : Str) (e : Expr) (node : Ref) (l : List α)
  /-- `del obj.list` -/
  | listClear {α : Type} (eq : DecidableEq α) (mapper : Item → Except PyErr α) (xp : Str) (e : Expr) (node : Ref)

/-- The document after a statement; an exception is caught. -/
def AnyStmt.after [PyUnicode] (eng : Engine) (ctx : Ctx) (s : Node) : AnyStmt → Node
  | .read inst toPython xp e node => (managerGet eng ctx inst toPython xp e node s).2
  | .assign v xp e node => (managerSet eng ctx (v.map (Option.map .str)) xp e node s).2
  | .create xp e node => (managerCreate eng ctx xp e node s).2
  | .clear xp e node => (managerDelete eng ctx xp e node s).2
  | .list _ mapper toXml xp e node op => (runOp eng ctx mapper (storeText ctx toXml e) xp e node op s).2
  | .listAssign _ mapper toXml xp e node l => (Fields.listAssign eng ctx mapper (storeText ctx toXml e) xp e node l s).2
  | .listClear _ mapper xp _ node => (listDeleteAll eng ctx mapper xp node s).2

section
variable [PyUnicode] (eng : Engine) (ctx : Ctx)

theorem keepsafe_assign (t : Str) (xp : Str) (e : Expr) (node : Ref) : Keepsafe (managerSet eng ctx (.ok (some (.str t))) xp e node) :=
  fun s => survives_of_written (C116_assignment eng ctx t xp e node s)

theorem keepsafe_managerCreate (xp : Str) (e : Expr) (node : Ref) : Keepsafe (managerCreate eng ctx xp e node) :=
  fun s => survives_of_written (C116_create eng ctx xp e node s)

theorem keepsafe_find (xp : Str) (node : Ref) : Keepsafe (findNode eng ctx xp node) := fun s => by
  obtain ⟨o, hf⟩ := findNode_state (eng := eng) (ctx := ctx) xp node s
  rw [hf]; exact survives_refl s

theorem keepsafe_createNode (e : Expr) (node : Ref) (idx : Option Nat) : Keepsafe (createNode eng ctx e node idx) := fun s => by
  obtain ⟨s1, h1, h2⟩ := create_out (eng := eng) (ctx := ctx) e node idx s
  rcases h2 with h2 | ⟨a, q, h2, -⟩
  · rw [h2]; exact survives_of_grown h1
  · rw [h2]; exact survives_of_written (v := none) (written_modify h1 (touched_blankAttr none q))

theorem keepsafe_getDoc : Keepsafe getDoc := fun s => survives_refl s

theorem keepsafe_get {α : Type} (inst : Bool) (toPython : Node → Option Found → Except PyErr α) (xp : Str) (e : Expr) (node : Ref) : Keepsafe (managerGet eng ctx inst toPython xp e node) := by
  refine keepsafe_bind (keepsafe_find eng ctx xp node) (fun m => ?_)
  split
  · exact keepsafe_bind (keepsafe_createNode eng ctx e node none) (fun r => keepsafe_bind keepsafe_getDoc (fun d => keepsafe_ofExcept _))
  · exact keepsafe_bind keepsafe_getDoc (fun d => keepsafe_ofExcept _)

variable {α : Type} [DecidableEq α] (mapper : Item → Except PyErr α) (toXml : α → Except PyErr (Option Str)) (xp : Str) (e : Expr) (node : Ref)

omit [DecidableEq α] in
theorem keepsafe_listSet (i : Int) (x : α) : Keepsafe (listSet eng ctx (storeText ctx toXml e) xp e node i x) := fun s => by
  obtain ⟨v, hv⟩ := value_of toXml x
  exact survives_of_written (C116_item eng ctx toXml xp e node i x v hv s)

omit [DecidableEq α] in
theorem keepsafe_setFrom : ∀ (l : List α) (i : Nat), Keepsafe (listSetFrom eng ctx (storeText ctx toXml e) xp e node i l)
  | [], _ => keepsafe_pure _
  | x :: l, i => keepsafe_bind (keepsafe_listSet eng ctx toXml xp e node i x) (fun _ => keepsafe_setFrom l (i + 1))

theorem onlyTakes_listDel (i : Int) : OnlyTakes ⟨true, false, false⟩ (listDel eng ctx xp node i) := fun s => by
  rcases listDel_oneLess eng ctx xp node i s with h | ⟨a, j, h⟩ <;> rw [h]
  · exact shrunk_refl s
  · exact shrunk_modify (shrunk_removeChild rfl j) a s

theorem onlyTakes_pop (i : Option Int) : OnlyTakes ⟨true, false, false⟩ (listPop eng ctx mapper xp node i) := by
  refine onlyTakes_bind ?_ (fun i => onlyTakes_bind (onlyTakes_get eng ctx mapper xp node i) (fun _ => onlyTakes_bind (onlyTakes_listDel eng ctx xp node i) (fun _ => onlyTakes_pure _)))
  cases i with
  | some i => exact onlyTakes_pure _
  | none => exact onlyTakes_bind (onlyTakes_bind (onlyTakes_data eng ctx mapper xp node) (fun _ => onlyTakes_pure _)) (fun _ => onlyTakes_pure _)

theorem onlyTakes_trim (len : Nat) : ∀ fuel : Nat, OnlyTakes ⟨true, false, false⟩ (listTrim eng ctx mapper xp node len fuel)
  | 0 => onlyTakes_pure _
  | fuel + 1 => by
    refine onlyTakes_bind (onlyTakes_bind (onlyTakes_data eng ctx mapper xp node) (fun _ => onlyTakes_pure _)) (fun n => ?_)
    exact onlyTakes_ite (onlyTakes_bind (onlyTakes_pop eng ctx mapper xp node none) (fun _ => onlyTakes_trim len fuel)) (onlyTakes_pure _)

theorem tame_listAssign (l : List α) : Tame (listAssign eng ctx mapper (storeText ctx toXml e) xp e node l) :=
  tame_bind (tame_of_keepsafe (keepsafe_setFrom eng ctx toXml xp e node l 0)) (fun _ =>
    tame_bind (tame_of_takes (t := ⟨true, false, false⟩) (onlyTakes_bind (onlyTakes_data eng ctx mapper xp node) (fun _ => onlyTakes_pure _)))
      (fun n => tame_of_takes (fun s => onlyTakes_trim eng ctx mapper xp node l.length (n + s.nodes) s)))

theorem tame_runOp (op : ListOp α) : Tame (runOp eng ctx mapper (storeText ctx toXml e) xp e node op) := by
  have reads : ∀ op : ListOp α, ListOp.reads op = true → Tame (runOp eng ctx mapper (storeText ctx toXml e) xp e node op) := fun op h s => by
    rw [(C110_list_reads eng ctx mapper (storeText ctx toXml e) xp e node op h s).1]
  have un : ∀ {β : Type} {c : M β} {x : ListRes α}, Tame c → Tame (c >>= fun _ => pure x) := fun h => tame_bind h (fun _ => tame_pure _)
  cases op with
  | set i v => exact un (tame_of_keepsafe (keepsafe_listSet eng ctx toXml xp e node i v))
  | del i => exact un (tame_of_takes (onlyTakes_listDel eng ctx xp node i))
  | append v => exact un (tame_of_keepsafe (fun s => survives_append eng ctx mapper toXml xp e node v s))
  | extend vs => exact un (tame_of_keepsafe (fun s => survives_extend eng ctx mapper toXml xp e node vs s))
  | insert i v => exact un (tame_of_keepsafe (fun s => survives_insert eng ctx mapper toXml xp e node i v s))
  | pop i => exact tame_bind (tame_of_takes (onlyTakes_pop eng ctx mapper xp node i)) (fun _ => tame_pure _)
  | remove v => exact un (tame_of_takes (onlyTakes_listRemove eng ctx mapper xp node v))
  | _ => exact reads _ rfl

/-- C121.  No program that reads fields (also fields that instantiate what they do not find), assigns texts, numbers, dates, truth values or `None` to them, deletes them, calls `create_` methods, and
does anything with lists (all operations, assignment of a whole list, deletion), with any XPaths on any objects of the document, any behaviour of the engine and any exceptions (caught), makes a comment, a
processing instruction or a text behind an element, or copies one or changes their order: those afterwards are some of those before. -/
theorem C121_no_foreigners (ops : List AnyStmt) (s : Node) : (foreigners (ops.foldl (AnyStmt.after eng ctx) s)).Sublist (foreigners s) := by
  induction ops generalizing s with
  | nil => exact List.Sublist.refl _
  | cons op ops ih =>
    refine (ih _).trans ?_
    cases op with
    | read inst toPython xp e node => exact tame_of_keepsafe (keepsafe_get eng ctx inst toPython xp e node) s
    | assign v xp e node =>
      cases v with
      | error er =>
        show (foreigners (managerSet eng ctx (.error er) xp e node s).2).Sublist _
        unfold managerSet
        rw [bind_err (ofExcept_err er s)]
      | ok v =>
        cases v with
        | none => exact tame_of_takes (fun s => (C110_only_takes_away eng ctx xp e node s).2) s
        | some t => exact tame_of_keepsafe (keepsafe_assign eng ctx t xp e node) s
    | create xp e node => exact tame_of_keepsafe (keepsafe_managerCreate eng ctx xp e node) s
    | clear xp e node => exact tame_of_takes (onlyTakes_managerDelete eng ctx xp e node) s
    | list eq mapper toXml xp e node op => exact tame_runOp eng ctx mapper toXml xp e node op s
    | listAssign eq mapper toXml xp e node l => exact tame_listAssign eng ctx mapper toXml xp e node l s
    | listClear eq mapper xp e node => exact tame_of_takes (fun s => C110_list_clear eng ctx mapper xp node s) s

/-- C121.  Programs that only give (`C116_nothing_lost`) keep exactly those that there were. -/
theorem C121_foreigners_stay (ops : List GiveOp) (s : Node) : foreigners (ops.foldl (GiveOp.after eng ctx) s) = foreigners s :=
  survives_foreign (C116_nothing_lost eng ctx ops s)

end

/-! ### examples -/

/-- `obj.x = '1'`, `obj.items = ['u', 'v']`, `del obj.a`. -/
def stmts : List AnyStmt := [
  .assign (.ok (some c%"1")) c%"a/@x" (ast c%"a/@x") (.elem []),
  .listAssign (α := Str) inferInstance (fun _ => .ok []) (fun t => .ok (some t)) c%"b" (ast c%"b") (.elem []) [c%"u", c%"v"],
  .clear c%"a" (ast c%"a") (.elem [])]

/-- They take away the element with the text behind it, and keep the comment. -/
example : stmts.foldl (AnyStmt.after refEngine sampleCtx) (.mk (.elem ⟨none, c%"r"⟩) [] none [.mk (.elem ⟨none, c%"a"⟩) [] none [] (some c%"gone"), .mk .comment [] (some c%"c") [] (some c%"t")] none)
    = .mk (.elem ⟨none, c%"r"⟩) [] none [.mk .comment [] (some c%"c") [] (some c%"t"), .mk (.elem ⟨none, c%"b"⟩) [] (some c%"u") [] none,
        .mk (.elem ⟨none, c%"b"⟩) [] (some c%"v") [] none] none := by decide +kernel

example : foreigners (.mk (.elem ⟨none, c%"r"⟩) [] none [.mk (.elem ⟨none, c%"a"⟩) [] none [] (some c%"gone"), .mk .comment [] (some c%"c") [] (some c%"t"), .mk (.elem ⟨none, c%"b"⟩) [] none [] none] none)
    = [(.elem ⟨none, c%"a"⟩, some c%"gone"), (.comment, some c%"t")] := by decide

end Props
