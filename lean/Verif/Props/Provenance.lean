import Verif.Props.Programs
import Verif.XmlMap.ProvenanceLemmas
/-
Property C122: where everything in a document comes from: after any program of statements about fields and lists, every name and every value in the document was there before, or was assigned, or is written
in an XPath.

Model: `managerGet`, `managerSet`, `managerCreate`, `managerDelete` (Verif/XmlMap/Manager.lean), the operations of lists (Verif/XmlMap/NodeList.lean).  Specification: Verif/Spec/Programs.lean.
-/
namespace Props
open XPath Xml Spec Fields

/-- The XPath of a statement. -/
def AnyStmt.xpath : AnyStmt → Expr
  | .read _ _ _ e _ => e
  | .assign _ _ e _ => e
  | .create _ e _ => e
  | .clear _ e _ => e
  | .list _ _ _ _ e _ _ => e
  | .listAssign _ _ _ _ e _ _ => e
  | .listClear _ _ _ e _ => e

/-- The values that an operation of a list is given. -/
def ListOp.given {α : Type} : ListOp α → List α
  | .set _ v => [v]
  | .append v => [v]
  | .extend vs => vs
  | .insert _ v => [v]
  | _ => []

/-- The texts that a statement assigns. -/
def AnyStmt.assigns : AnyStmt → Str → Prop
  | .assign v _ _ _, t => v = .ok (some t)
  | .list _ _ toXml _ _ _ op, t => ∃ x ∈ ListOp.given op, toXml x = .ok (some t)
  | .listAssign _ _ toXml _ _ _ l, t => ∃ x ∈ l, toXml x = .ok (some t)
  | _, _ => False

section
variable [PyUnicode] {eng : Engine} {ctx : Ctx} {K : Tag → Prop} {A : QName → Prop} {V T : Str → Prop}

theorem closed_getDoc : Closed K A V T getDoc := fun _ h => h

theorem closed_set (h0 : V []) {e : Expr} (he : Allows K A V ctx e) {t : Str} (ht : V t) (xp : Str) (node : Ref) : Closed K A V T (managerSet eng ctx (.ok (some (.str t))) xp e node) := by
  have hv : ∀ t', some t = some t' → V t' := fun t' h => by cases h; exact ht
  refine closed_value _ (fun xv hxv => ?_)
  cases hxv
  refine closed_bind (closed_find xp node) (fun m => ?_)
  cases m with
  | some f => exact closed_setInXml he f hv
  | none => exact closed_bind (closed_createNode h0 e node none he) (fun r => closed_setInXml he _ hv)

variable {α : Type} {toXml : α → Except PyErr (Option Str)} {store : Ref → α → M Unit} {e : Expr}

theorem closed_store (he : Allows K A V ctx e) {x : α} (hx : ∀ t, toXml x = .ok (some t) → V t) (r : Ref) : Closed K A V T (storeText ctx toXml e r x) :=
  closed_value _ (fun v hv => closed_setInXml he _ (fun t ht => hx t (by rw [hv, ht])))

theorem closed_matches (xp : Str) (node : Ref) : Closed K A V T (listMatches eng ctx xp node) := fun s h => by
  obtain ⟨o, hm⟩ := anyMatches_state eng ctx xp node s
  rw [hm]; exact h

theorem closed_appendIndex (ms : List Ref) : Closed K A V T (appendIndex ms) := fun s h => by
  obtain ⟨o, hm⟩ := appendIndex_state ms s
  rw [hm]; exact h

theorem closed_positionOf (r : Ref) : Closed K A V T (positionOf r) := fun s h => by
  cases r with
  | elem a =>
    simp only [positionOf]
    cases a.getLast? with
    | none => exact h
    | some i => exact h
  | _ => exact h

theorem closed_listSet (h0 : V []) (he : Allows K A V ctx e) {x : α} (hx : ∀ r, Closed K A V T (store r x)) (xp : Str) (node : Ref) (i : Int) :
    Closed K A V T (listSet eng ctx store xp e node i x) := by
  refine closed_bind (closed_matches xp node) (fun ms => closed_bind ?_ (fun m => hx m))
  split
  · exact closed_bind (closed_appendIndex ms) (fun idx => closed_createNode h0 e node idx he)
  · split
    · exact closed_raise _
    · exact closed_ofExcept _

variable (mapper : Item → Except PyErr α)

theorem closed_len (xp : Str) (node : Ref) : Closed K A V T (listLen eng ctx mapper xp node) := fun s h => by
  obtain ⟨o, hm⟩ := anyLen_state eng ctx mapper xp node s
  rw [hm]; exact h

theorem closed_append (h0 : V []) (he : Allows K A V ctx e) {x : α} (hx : ∀ r, Closed K A V T (store r x)) (xp : Str) (node : Ref) :
    Closed K A V T (listAppend eng ctx mapper store xp e node x) :=
  closed_bind (closed_len mapper xp node) (fun n => closed_listSet h0 he hx xp node n)

theorem closed_extend (h0 : V []) (he : Allows K A V ctx e) (xp : Str) (node : Ref) : ∀ l : List α, (∀ x ∈ l, ∀ r, Closed K A V T (store r x)) →
    Closed K A V T (listExtend eng ctx mapper store xp e node l)
  | [], _ => closed_pure _
  | x :: l, h => closed_bind (closed_append mapper h0 he (h x List.mem_cons_self) xp node) (fun _ => closed_extend h0 he xp node l (fun y hy => h y (List.mem_cons_of_mem _ hy)))

theorem closed_insert (h0 : V []) (he : Allows K A V ctx e) {x : α} (hx : ∀ r, Closed K A V T (store r x)) (xp : Str) (node : Ref) (i : Int) :
    Closed K A V T (listInsert eng ctx mapper store xp e node i x) := by
  refine closed_bind (closed_len mapper xp node) (fun n => ?_)
  split
  · exact closed_append mapper h0 he hx xp node
  · refine closed_bind (closed_matches xp node) (fun ms => ?_)
    split
    · exact closed_bind (closed_ofExcept _) (fun r => closed_bind (closed_positionOf r) (fun p => closed_bind (closed_createNode h0 e node _ he) (fun _ => closed_listSet h0 he hx xp node i)))
    · exact closed_raise _

theorem closed_setFrom (h0 : V []) (he : Allows K A V ctx e) (xp : Str) (node : Ref) : ∀ (l : List α) (i : Nat), (∀ x ∈ l, ∀ r, Closed K A V T (store r x)) →
    Closed K A V T (listSetFrom eng ctx store xp e node i l)
  | [], _, _ => closed_pure _
  | x :: l, i, h => closed_bind (closed_listSet h0 he (h x List.mem_cons_self) xp node i) (fun _ => closed_setFrom h0 he xp node l (i + 1) (fun y hy => h y (List.mem_cons_of_mem _ hy)))

theorem closed_runOp [DecidableEq α] (h0 : V []) (he : Allows K A V ctx e) (xp : Str) (node : Ref) (op : ListOp α) (hop : ∀ x ∈ ListOp.given op, ∀ r, Closed K A V T (store r x)) :
    Closed K A V T (runOp eng ctx mapper store xp e node op) := by
  have reads : ∀ op : ListOp α, ListOp.reads op = true → Closed K A V T (runOp eng ctx mapper store xp e node op) := fun op h s hs => by
    rw [(C110_list_reads eng ctx mapper store xp e node op h s).1]; exact hs
  have un : ∀ {β : Type} {c : M β} {x : ListRes α}, Closed K A V T c → Closed K A V T (c >>= fun _ => pure x) := fun h => closed_bind h (fun _ => closed_pure _)
  cases op with
  | set i v => exact un (closed_listSet h0 he (hop v List.mem_cons_self) xp node i)
  | del i => exact un (closed_of_takes h0 (onlyTakes_listDel eng ctx xp node i))
  | append v => exact un (closed_append mapper h0 he (hop v List.mem_cons_self) xp node)
  | extend vs => exact un (closed_extend mapper h0 he xp node vs hop)
  | insert i v => exact un (closed_insert mapper h0 he (hop v List.mem_cons_self) xp node i)
  | pop i => exact closed_bind (closed_of_takes h0 (onlyTakes_pop eng ctx mapper xp node i)) (fun _ => closed_pure _)
  | remove v => exact un (closed_of_takes h0 (onlyTakes_listRemove eng ctx mapper xp node v))
  | _ => exact reads _ rfl

/-- One statement. -/
theorem closed_stmt (h0 : V []) (op : AnyStmt) (he : Allows K A V ctx op.xpath) (hv : ∀ t, op.assigns t → V t) (s : Node) (hs : MadeOf K A V T s) : MadeOf K A V T (op.after eng ctx s) := by
  cases op with
  | read inst toPython xp e node =>
    refine closed_bind (closed_find xp node) (fun m => ?_) s hs
    split
    · exact closed_bind (closed_createNode h0 e node none he) (fun r => closed_bind closed_getDoc (fun d => closed_ofExcept _))
    · exact closed_bind closed_getDoc (fun d => closed_ofExcept _)
  | assign v xp e node =>
    cases v with
    | error er =>
      show MadeOf K A V T (managerSet eng ctx (.error er) xp e node s).2
      unfold managerSet
      rw [bind_err (ofExcept_err er s)]
      exact hs
    | ok v =>
      cases v with
      | none => exact closed_of_takes h0 (fun s => (C110_only_takes_away eng ctx xp e node s).2) s hs
      | some t => exact closed_set h0 he (hv t rfl) xp node s hs
  | create xp e node =>
    refine closed_bind (closed_find xp node) (fun m => ?_) s hs
    cases m with
    | some f => exact closed_pure _
    | none => exact closed_bind (closed_createNode h0 e node none he) (fun r => closed_pure _)
  | clear xp e node => exact closed_of_takes h0 (onlyTakes_managerDelete eng ctx xp e node) s hs
  | list eq mapper toXml xp e node op => exact closed_runOp mapper h0 he xp node op (fun x hx r => closed_store he (fun t ht => hv t ⟨x, hx, ht⟩) r) s hs
  | listAssign eq mapper toXml xp e node l =>
    refine closed_bind (closed_setFrom h0 he xp node l 0 (fun x hx r => closed_store he (fun t ht => hv t ⟨x, hx, ht⟩) r)) (fun _ => ?_) s hs
    exact closed_bind (closed_len mapper xp node) (fun n => closed_of_takes h0 (fun s => onlyTakes_trim eng ctx mapper xp node l.length (n + s.nodes) s))
  | listClear eq mapper xp e node => exact closed_of_takes h0 (fun s => C110_list_clear eng ctx mapper xp node s) s hs

end

/-- A statement about a field or list field, also one that assigns objects or puts objects into a list. -/
inductive ObjStmt : Type 1 where
  | plain (op : AnyStmt)
  /-- `obj.field = other`, an object of this or of another document. -/
  | assign (v : ElemVal) (xp : Str) (e : Expr) (node : Ref)
  /-- an operation of a list of objects -/
  | list (mapper : Item → Except PyErr ElemVal) (xp : Str) (e : Expr) (node : Ref) (op : ListOp ElemVal)
  /-- `obj.list = objects` -/
  | listAssign (mapper : Item → Except PyErr ElemVal) (xp : Str) (e : Expr) (node : Ref) (l : List ElemVal)

/-- The document after a statement; an exception is caught. -/
def ObjStmt.after [PyUnicode] (eng : Engine) (ctx : Ctx) (s : Node) : ObjStmt → Node
  | .plain op => op.after eng ctx s
  | .assign v xp e node => (managerSet eng ctx (.ok (some (.elem v))) xp e node s).2
  | .list mapper xp e node op => (runOp eng ctx mapper storeNode xp e node op s).2
  | .listAssign mapper xp e node l => (Fields.listAssign eng ctx mapper storeNode xp e node l s).2

/-- The XPath of a statement. -/
def ObjStmt.xpath : ObjStmt → Expr
  | .plain op => op.xpath
  | .assign _ _ e _ => e
  | .list _ _ e _ _ => e
  | .listAssign _ _ e _ _ => e

/-- The texts that a statement assigns. -/
def ObjStmt.assigns : ObjStmt → Str → Prop
  | .plain op, t => op.assigns t
  | _, _ => False

/-- The elements of other documents that a statement assigns. -/
def ObjStmt.brings : ObjStmt → Node → Prop
  | .assign v _ _ _, n => v = .foreign n
  | .list _ _ _ _ op, n => .foreign n ∈ ListOp.given op
  | .listAssign _ _ _ _ l, n => .foreign n ∈ l
  | _, _ => False

section
variable [PyUnicode] {eng : Engine} {ctx : Ctx} {K : Tag → Prop} {A : QName → Prop} {V T : Str → Prop}

theorem closed_setObj (h0 : V []) {e : Expr} (he : Allows K A V ctx e) {v : ElemVal} (hv : ∀ n, v = .foreign n → MadeOf K A V T n) (xp : Str) (node : Ref) :
    Closed K A V T (managerSet eng ctx (.ok (some (.elem v))) xp e node) := by
  have hset : ∀ f, Closed K A V T (setValue ctx f (.elem v) (findTerminalStep e)) := by
    intro f
    cases f with
    | ref r =>
      cases r with
      | elem a =>
        cases v with
        | foreign n => exact closed_edit (fun m hm => madeOf_graft (hv n rfl) hm)
        | own b => exact closed_graftOwn a b
      | _ => cases v <;> exact closed_raise _
    | str _ => cases v <;> exact closed_raise _
    | _ => cases v <;> exact closed_pure _
  refine closed_value _ (fun xv hxv => ?_)
  cases hxv
  refine closed_bind (closed_find xp node) (fun m => ?_)
  cases m with
  | some f => exact hset f
  | none => exact closed_bind (closed_createNode h0 e node none he) (fun r => hset _)

theorem closed_objStmt (h0 : V []) (op : ObjStmt) (he : Allows K A V ctx op.xpath) (hv : ∀ t, op.assigns t → V t) (hb : ∀ n, op.brings n → MadeOf K A V T n) (s : Node)
    (hs : MadeOf K A V T s) : MadeOf K A V T (op.after eng ctx s) := by
  cases op with
  | plain op => exact closed_stmt h0 op he hv s hs
  | assign v xp e node => exact closed_setObj h0 he hb xp node s hs
  | list mapper xp e node op => exact closed_runOp mapper h0 he xp node op (fun x hx r => closed_storeNode r (fun n hn => hb n (by subst hn; exact hx))) s hs
  | listAssign mapper xp e node l =>
    refine closed_bind (closed_setFrom h0 he xp node l 0 (fun x hx r => closed_storeNode r (fun n hn => hb n (by subst hn; exact hx)))) (fun _ => ?_) s hs
    exact closed_bind (closed_len mapper xp node) (fun n => closed_of_takes h0 (fun s => onlyTakes_trim eng ctx mapper xp node l.length (n + s.nodes) s))

theorem closed_objStmts (h0 : V []) (ops : List ObjStmt) (he : ∀ op ∈ ops, Allows K A V ctx op.xpath) (hv : ∀ op ∈ ops, ∀ t, op.assigns t → V t)
    (hb : ∀ op ∈ ops, ∀ n, op.brings n → MadeOf K A V T n) (s : Node) (hs : MadeOf K A V T s) : MadeOf K A V T (ops.foldl (ObjStmt.after eng ctx) s) := by
  induction ops generalizing s with
  | nil => exact hs
  | cons op ops ih =>
    exact ih (fun op h => he op (List.mem_cons_of_mem _ h)) (fun op h => hv op (List.mem_cons_of_mem _ h)) (fun op h => hb op (List.mem_cons_of_mem _ h)) _
      (closed_objStmt h0 op (he op List.mem_cons_self) (hv op List.mem_cons_self) (hb op List.mem_cons_self) s hs)

end

/-- Something is in the document, or in an element of another document that the program assigns. -/
def Sources {β : Type} (has : Node → β → Prop) (ops : List ObjStmt) (s : Node) (x : β) : Prop := has s x ∨ ∃ op ∈ ops, ∃ n, op.brings n ∧ has n x

/-- C122.  After any program that reads fields (also fields that instantiate what they do not find), assigns texts, numbers, dates, truth values, `None` and objects to them, deletes them, calls `create_`
methods, and does anything with lists, also lists of objects, with any XPaths on any objects of the document, any behaviour of the engine and any exceptions (caught).  The sources are the document before and
the elements of other documents that the program assigns.  An element has the name of an element in the sources or of an element step in one of the XPaths, a comment or a processing instruction is like one in
the sources; an attribute has the name of an attribute in the sources or of a step; a text or value of an attribute is in the sources, is empty, was assigned, or is a text, a number or a variable in one of
the XPaths; a text behind an element is in the sources. -/
theorem C122_provenance [PyUnicode] (eng : Engine) (ctx : Ctx) (ops : List ObjStmt) (s : Node) :
    (∀ t, HasTag (ops.foldl (ObjStmt.after eng ctx) s) t → Sources HasTag ops s t ∨ ∃ op ∈ ops, ∃ q, t = .elem q ∧ NamesElem ctx op.xpath q) ∧
    (∀ q, HasAttr (ops.foldl (ObjStmt.after eng ctx) s) q → Sources HasAttr ops s q ∨ ∃ op ∈ ops, NamesStep ctx op.xpath q) ∧
    (∀ v, HasValue (ops.foldl (ObjStmt.after eng ctx) s) v → Sources HasValue ops s v ∨ v = [] ∨ ∃ op ∈ ops, op.assigns v ∨ Quotes ctx op.xpath v) ∧
    (∀ v, HasTail (ops.foldl (ObjStmt.after eng ctx) s) v → Sources HasTail ops s v) := by
  have base : ∀ n, (n = s ∨ ∃ op ∈ ops, op.brings n) → MadeOf (fun t => Sources HasTag ops s t ∨ ∃ op ∈ ops, ∃ q, t = .elem q ∧ NamesElem ctx op.xpath q)
      (fun q => Sources HasAttr ops s q ∨ ∃ op ∈ ops, NamesStep ctx op.xpath q)
      (fun v => Sources HasValue ops s v ∨ v = [] ∨ ∃ op ∈ ops, op.assigns v ∨ Quotes ctx op.xpath v) (fun v => Sources HasTail ops s v) n := by
    intro n hn
    have src : ∀ {β : Type} {has : Node → β → Prop} {x : β}, has n x → Sources has ops s x := by
      intro β has x hx
      rcases hn with rfl | ⟨op, hop, hb⟩
      · exact .inl hx
      · exact .inr ⟨op, hop, n, hb, hx⟩
    refine madeOf_of_get n (fun a m hm => ⟨.inl (src ⟨a, m, hm, rfl⟩), fun x hx => ⟨.inl (src ⟨a, m, x.2, hm, hx⟩), .inl (src ⟨a, m, hm, .inr ⟨x.1, hx⟩⟩)⟩,
      fun t ht => .inl (src ⟨a, m, hm, .inl ht⟩), fun t ht => src ⟨a, m, hm, ht⟩⟩)
  have h := closed_objStmts (eng := eng) (ctx := ctx) (.inr (.inl rfl)) ops
    (fun op hop => ⟨fun q hq => .inr ⟨op, hop, q, rfl, hq⟩, fun q hq => .inr ⟨op, hop, hq⟩, fun v hv => .inr (.inr ⟨op, hop, .inr hv⟩)⟩)
    (fun op hop t ht => .inr (.inr ⟨op, hop, .inl ht⟩)) (fun op hop n hn => base n (.inr ⟨op, hop, hn⟩)) s (base s (.inl rfl))
  refine ⟨fun t ⟨a, m, hm, hq⟩ => ?_, fun q ⟨a, m, v, hm, hq⟩ => ?_, fun v ⟨a, m, hm, hv⟩ => ?_, fun v ⟨a, m, hm, hv⟩ => ?_⟩
  · exact hq ▸ (madeOf_here (madeOf_get a _ m h hm)).tag
  · exact ((madeOf_here (madeOf_get a _ m h hm)).attrs _ hq).1
  · rcases hv with hv | ⟨q, hv⟩
    · exact (madeOf_here (madeOf_get a _ m h hm)).text v hv
    · exact ((madeOf_here (madeOf_get a _ m h hm)).attrs _ hv).2
  · exact (madeOf_here (madeOf_get a _ m h hm)).tail v hv

/-! ### examples -/

/-- An item appended to the list with the XPath `m:a[@n='1']/b`: the names come from the XPath, the values from the XPath and from the program. -/
def quoteStmts : List AnyStmt := [
  .list (α := Str) inferInstance (fun _ => .ok []) (fun t => .ok (some t)) c%"m:a[@n='1']/b" (ast c%"m:a[@n='1']/b") (.elem []) (.append c%"new")]

example : quoteStmts.foldl (AnyStmt.after refEngine sampleCtx) (.mk (.elem ⟨none, c%"r"⟩) [] none [] none)
    = .mk (.elem ⟨none, c%"r"⟩) [] none [.mk (.elem ⟨some c%"http://m", c%"a"⟩) [(⟨none, c%"n"⟩, c%"1")] none [.mk (.elem ⟨none, c%"b"⟩) [] (some c%"new") [] none] none] none := by decide +kernel

example : Quotes sampleCtx (ast c%"m:a[@n='1']/b") c%"1" := .inl (by
  show Expr.lit c%"1" ∈ subExprs (.binary (.step none (.name (some c%"m") c%"a") [.binary (.step (some c%"@") (.name none c%"n") []) .eq (.lit c%"1")]) .slash (.step none (.name none c%"b") []))
  simp [subExprs, subExprsList])

example : NamesElem sampleCtx (ast c%"m:a[@n='1']/b") ⟨none, c%"b"⟩ :=
  ⟨none, none, c%"b", [], by
    show _ ∈ subExprs (.binary (.step none (.name (some c%"m") c%"a") [.binary (.step (some c%"@") (.name none c%"n") []) .eq (.lit c%"1")]) .slash (.step none (.name none c%"b") []))
    simp [subExprs, subExprsList], .inl rfl, rfl, .inl ⟨rfl, .inl rfl⟩⟩

/-- `obj.sub = other`: the element gets the attributes and the content of the other object, with the comment in it and the text behind it. -/
def objStmts : List ObjStmt := [
  .plain (.assign (.ok (some c%"1")) c%"a/@x" (ast c%"a/@x") (.elem [])),
  .assign (.foreign (.mk (.elem ⟨none, c%"o"⟩) [(⟨none, c%"k"⟩, c%"2")] none [.mk .comment [] (some c%"c") [] (some c%"t")] none)) c%"b" (ast c%"b") (.elem [])]

example : objStmts.foldl (ObjStmt.after refEngine sampleCtx) (.mk (.elem ⟨none, c%"r"⟩) [] none [] none)
    = .mk (.elem ⟨none, c%"r"⟩) [] none [.mk (.elem ⟨none, c%"a"⟩) [(⟨none, c%"x"⟩, c%"1")] none [] none,
        .mk (.elem ⟨none, c%"b"⟩) [(⟨none, c%"k"⟩, c%"2")] none [.mk .comment [] (some c%"c") [] (some c%"t")] none] none := by decide +kernel

example : Sources HasTail objStmts (.mk (.elem ⟨none, c%"r"⟩) [] none [] none) c%"t" :=
  .inr ⟨_, List.mem_cons_of_mem _ List.mem_cons_self, _, rfl, [0], _, rfl, rfl⟩

end Props
