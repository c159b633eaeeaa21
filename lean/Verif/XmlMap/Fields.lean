import Verif.Xml.Engine
import Verif.XPath.Parser
import Verif.XPath.Serialize
/-
Model of the XML utility functions and managers of eulxml/xmlmap/fields.py (lines 256-846).

The state is the element wrapped by the XmlObject (`obj.node`), seen as a tree; Python element objects are
addresses in that tree.  A Python exception is a value, and the state it leaves behind is kept.
-/
namespace Fields
open Xml XPath

/-- A Python computation that reads and mutates the document and may raise. -/
def M (α : Type) := Node → Except PyErr α × Node

namespace M
def pure {α} (x : α) : M α := fun s => (.ok x, s)
def bind {α β} (m : M α) (f : α → M β) : M β := fun s => match m s with
  | (.ok x, s') => f x s'
  | (.error e, s') => (.error e, s')
instance : Monad M where
  pure := M.pure
  bind := M.bind
end M

/-- `raise e`. -/
def raise {α} (e : PyErr) : M α := fun s => (.error e, s)
/-- The current document. -/
def getDoc : M Node := fun s => (.ok s, s)
/-- The element at an address (the addresses in use always exist; otherwise `None` would be dereferenced). -/
def nodeAt (a : Node.Addr) : M Node := fun s => match s.get a with
  | some n => (.ok n, s)
  | none => (.error .attributeError, s)
/-- Mutate the element at an address. -/
def edit (a : Node.Addr) (f : Node → Node) : M Unit := fun s => (.ok (), s.modify a f)
/-- Lift a result that does not touch the document. -/
def ofExcept {α} : Except PyErr α → M α
  | .ok x => M.pure x
  | .error e => raise e

/-- What `_find_xml_node` returns if not `None`: a node, or the value of a non-node-set expression. -/
inductive Found where
  | ref (r : Ref)
  | str (s : Str)
  | num (x : XNum)
  | bool (b : Bool)
  deriving DecidableEq, Repr

/-- Python truth value of an XPath number: only 0 is false. -/
def numTruthy : XNum → Bool
  | .dec _ m _ => m != 0
  | _ => true

/-- fields.py:267-273 after evaluation: first of a non-empty list, a truthy scalar, else `None`. -/
def foundOf : XVal → Option Found
  | .nodes [] => none
  | .nodes (r :: _) => some (.ref r)
  | .str s => if s = [] then none else some (.str s)
  | .num x => if numTruthy x then some (.num x) else none
  | .bool b => if b then some (.bool b) else none

section
variable [PyUnicode] (eng : Engine) (ctx : Ctx)

/-- fields.py:258-264 `_find_terminal_step`: `some` of a `Step`, or `None`. -/
def findTerminalStep : Expr → Option (Option Str × NodeTest)
  | .step ax t _ => some (ax, t)
  | .binary _ .slash r => findTerminalStep r
  | .binary _ .dslash r => findTerminalStep r
  | _ => none

/-- `node.xpath(string, **context)`; only elements have that method. -/
def evalXPath (xpath : Str) : Ref → M XVal
  | .elem a => fun s => (eng.xpath xpath s a ctx, s)
  | _ => raise .attributeError

/-- fields.py:267-273 `_find_xml_node`. -/
def findNode (xpath : Str) (node : Ref) : M (Option Found) := do
  let v ← evalXPath eng ctx xpath node
  pure (foundOf v)

/-- Truthiness of a prefix: `if step.node_test.prefix`. -/
def truthyPfx : Option Str → Option Str
  | some (c :: cs) => some (c :: cs)
  | _ => none

/-- The expanded name of the new element (fields.py:319-325): `KeyError` for an undeclared prefix. -/
def childName (pfx : Option Str) (nm : Str) : Except PyErr QName :=
  match ctx.namespaces, truthyPfx pfx with
  | some nss, some p => match nss.lookup p with
    | some uri => .ok ⟨some uri, nm⟩
    | none => .error .keyError
  | _, _ => .ok ⟨none, nm⟩

/-- fields.py:318-331 `_create_child_node`.  `E('*')` raises `ValueError`; other lexed names are taken to be valid
tag names. -/
def createChild (node : Ref) (pfx : Option Str) (nm : Str) (idx : Option Nat) : M Ref :=
  match childName ctx pfx nm with
  | .error e => raise e
  | .ok q =>
    if nm = c%"*" then raise .valueError
    else match node with
    | .elem a => do
      let n ← nodeAt a
      match idx with
        | some i => do
          edit a (Node.insertChild i (Node.empty q))
          pure (.elem (a ++ [min i n.children.length]))
        | none => do
          edit a (Node.append (Node.empty q))
          pure (.elem (a ++ [n.children.length]))
    | _ => raise .attributeError

/-- fields.py:579-599 `_get_attribute_name`: the name `{uri}local` and whether the prefix (if any) was found; the
name is `{None}local` if not. -/
def attrName (pfx : Option Str) (nm : Str) : QName × Bool :=
  match truthyPfx pfx with
  | none => (⟨none, nm⟩, true)
  | some p => match ctx.namespaces with
    | some nss => match nss.lookup p with
      | some uri => (⟨some uri, nm⟩, true)
      | none => (⟨some c%"None", nm⟩, false)
    | none => (⟨some c%"None", nm⟩, false)

/-- `node.set(name, v)` on an element; `*` is not a valid attribute name, and the value must be XML compatible. -/
def setAttrib (a : Node.Addr) (q : QName) (v : Option Str) : M Unit :=
  match v with
  | none => raise .typeError
  | some v =>
    if q.loc = c%"*" then raise .valueError
    else if xmlOk v = false then raise .valueError
    else edit a (Node.setAttr q v)

/-- fields.py:334-340 `_create_attribute_node`.  Simplification: the look-up by XPath of the attribute that was just
set returns it; it fails if the prefix is unknown (`namespaces={prefix: None}`). -/
def createAttr (node : Ref) (pfx : Option Str) (nm : Str) : M Ref :=
  match node with
  | .elem a => do
    let (q, known) := attrName ctx pfx nm
    setAttrib a q (some [])
    if known then pure (.attr a q) else raise .typeError
  | _ => raise .attributeError

/-- `isinstance(pred.right, (integer_types, string_types, ast.VariableReference))` (fields.py:367-368). -/
def isValue : Expr → Bool
  | .int _ => true
  | .lit _ => true
  | .var _ _ => true
  | _ => false

/-- fields.py:343-372 `_predicate_is_constructible`; everything that is neither a step nor a binary expression
with `/` or `=` counts as constructible. -/
def isConstructible : Expr → Bool
  | .step ax t ps =>
    if ax ≠ none ∧ ax ≠ some c%"child" ∧ ax ≠ some c%"@" ∧ ax ≠ some c%"attribute" then false
    else match t with
      | .type _ _ => false
      | .name _ _ => allConstructible ps
  | .binary l .slash r => isConstructible l && isConstructible r
  | .binary l .eq r => isConstructible l && isValue r
  | _ => true
where
  /-- `for pred in xast.predicates: if not _predicate_is_constructible(pred)` -/
  allConstructible : List Expr → Bool
  | [] => true
  | p :: ps => isConstructible p && allConstructible ps

/-- fields.py:601-608 `_is_text_nodetest`: the name of the node test is `text` - also for a name test. -/
def isTextTest : Option (Option Str × NodeTest) → Bool
  | some (_, .name _ nm) => nm == c%"text"
  | some (_, .type nm _) => nm == c%"text"
  | none => false

/-- `node.text = v` on an element; the value must be XML compatible. -/
def setElemText (a : Node.Addr) (v : Option Str) : M Unit :=
  if (v.elim true xmlOk) = false then raise .valueError else edit a (Node.setText v)

/-- fields.py:398-427 `_set_in_xml` with a string value (or `None`).
`match` may be a scalar: an XPath string result has `getparent() = None` (AttributeError), numbers and booleans have
no `getparent` and are ignored. -/
def setInXml (node : Found) (val : Option Str) (step : Option (Option Str × NodeTest)) : M Unit :=
  match node with
  | .ref (.elem a) => do
    let n ← nodeAt a
    if n.children = [] then setElemText a val else raise .exception
  | .ref r =>
    if isTextTest step then setElemText r.addr val
    else match step with
      | some (_, .name pfx nm) => setAttrib r.addr (attrName ctx pfx nm).1 val
      | _ => raise .attributeError
  | .str _ => raise .attributeError
  | .num _ => pure ()
  | .bool _ => pure ()

/-- The value of the right side of a constructible `=` (fields.py:386-393): `context.get(name)` is `None` because
`name` is a (prefix, name) tuple, then `context[name[1]]`. -/
def predValue : Expr → Except PyErr Str
  | .var _ nm => match ctx.vars.lookup nm with
    | some (.str s) => .ok s
    | some (.num n) => .ok (natStr n)
    | none => .error .keyError
  | .lit s => .ok s
  | .int n => .ok (natStr n)
  | _ => .ok []

/-- The `Step` branch of `_create_xml_node` (fields.py:277-302), given the loop that constructs the predicates. -/
def createStep (ax : Option Str) (t : NodeTest) (ps : List Expr) (build : Ref → M Unit) (node : Ref)
    (idx : Option Nat) : M Ref :=
  match t with
  | .name pfx nm =>
    if isConstructible.allConstructible ps = false then raise .exception
    else do
      let new ← (if ax = none ∨ ax = some c%"child" then createChild ctx node pfx nm idx
        else if ax = some c%"@" ∨ ax = some c%"attribute" then createAttr ctx node pfx nm
        else raise .nameError)
      build new
      pure new
  | .type nm _ => if nm = c%"text" then pure node else raise .exception

/-- `_create_xml_node(step, None, context)` (fields.py:277-291): the checks of the step, then `None` has neither `append` nor `set`. -/
def stepOnNone (ax : Option Str) (pfx : Option Str) (nm : Str) (ps : List Expr) : PyErr :=
  if isConstructible.allConstructible ps = false then .exception
  else if ax = none ∨ ax = some c%"child" then
    match childName ctx pfx nm with
    | .error e => e
    | .ok _ => if nm = c%"*" then .valueError else .attributeError
  else if ax = some c%"@" ∨ ax = some c%"attribute" then .attributeError
  else .nameError

mutual
/-- fields.py:375-395 `_construct_predicate`; `None` for expressions it does not know. -/
def construct : Expr → Ref → M (Option Ref)
  | .step ax t ps, node => do
    let r ← createStep ctx ax t ps (fun r => constructAll ps r) node none
    pure (some r)
  | .binary l .slash r, node => do
    match ← construct l node with
    | none => constructOnNone r
    | some leaf => construct r leaf
  | .binary l .eq r, node => do
    match ← construct l node with
    | none => do
      let _ ← ofExcept (predValue ctx r)
      pure none
    | some leaf =>
      let v ← ofExcept (predValue ctx r)
      setInXml ctx (.ref leaf) (some v) (findTerminalStep l)
      pure (some leaf)
  | _, _ => pure none
/-- fields.py:293-295: `for pred in xast.predicates: _construct_predicate(pred, new_node, context)`. -/
def constructAll : List Expr → Ref → M Unit
  | [], _ => pure ()
  | p :: ps, node => do
    let _ ← construct p node
    constructAll ps node
/-- `_construct_predicate(xast.right, None, context)`: creating a step under `None` fails; `text()` and other expressions
give `None`; `_set_in_xml(None, ...)` does nothing. -/
def constructOnNone : Expr → M (Option Ref)
  | .step ax (.name pfx nm) ps => raise (stepOnNone ctx ax pfx nm ps)
  | .step _ (.type nm _) _ => if nm = c%"text" then pure none else raise .exception
  | .binary l .slash r => do
    let _ ← constructOnNone l
    constructOnNone r
  | .binary l .eq r => do
    let _ ← constructOnNone l
    let _ ← ofExcept (predValue ctx r)
    pure none
  | _ => pure none
end

/-- The node to descend into: a scalar has none of the methods used. -/
def foundRef : Found → M Ref
  | .ref r => pure r
  | _ => raise .attributeError

/-- fields.py:276-315 `_create_xml_node`. -/
def createNode : Expr → Ref → Option Nat → M Ref
  | .step ax t ps, node, idx => createStep ctx ax t ps (fun r => constructAll ctx ps r) node idx
  | .binary l .slash r, node, _ => do
    match ← findNode eng ctx l.ser node with
    | some f => do
      let left ← foundRef f
      createNode r left none
    | none => do
      let left ← createNode l node none
      createNode r left none
  | _, _, _ => raise .exception

/-- fields.py:508-511 `_remove_attribute_node`: `del node.attrib[name]`. -/
def removeAttr (pfx : Option Str) (nm : Str) (node : Ref) : M Bool :=
  match node with
  | .elem a => do
    let n ← nodeAt a
    let q := (attrName ctx pfx nm).1
    if (n.attr? q).isSome then do
      edit a (Node.delAttr q)
      pure true
    else raise .keyError
  | _ => raise .attributeError

/-- fields.py:561-577 `_empty_except_predicates`: run the removal of the predicates on a copy. -/
def emptyExcept (removePreds : Ref → M Unit) (n : Node) : Except PyErr Bool :=
  match removePreds (.elem []) n with
  | (.ok (), n') => .ok (n'.children.isEmpty && n'.attrs.isEmpty)
  | (.error e, _) => .error e

/-- fields.py:483-506 `_remove_child_node` for the step with text `xpath` (`None`, i.e. falsy, if there is no match).
`node.remove(child)` raises `ValueError` unless `child` is a child of `node`. -/
def removeChildNode (xpath : Str) (removePreds : Ref → M Unit) (ifEmpty : Bool) (node : Ref) : M Bool := do
  match ← findNode eng ctx xpath node with
  | none => pure false
  | some (.ref (.elem b)) => do
    let child ← nodeAt b
    let go ← ofExcept (if ifEmpty then emptyExcept removePreds child else .ok true)
    if go then
      if b ≠ [] ∧ Ref.elem b.dropLast = node then do
        edit b.dropLast (Node.removeChild (b.getLast?.getD 0))
        pure true
      else raise .valueError
    else pure false
  | some _ => raise .typeError

/-- `node.text = ''` for the `text()` case (fields.py:454-456). -/
def clearText (node : Ref) : M Bool :=
  match node with
  | .elem a => do edit a (Node.setText (some [])); pure true
  | _ => raise .attributeError

/-- The `Step` branch of `_remove_xml` (fields.py:446-456), given the predicate removal for the step. -/
def removeStep (xpath : Str) (ax : Option Str) (t : NodeTest) (removePreds : Ref → M Unit) (ifEmpty : Bool)
    (node : Ref) : M Bool :=
  match t with
  | .name pfx nm =>
    if ax = none ∨ ax = some c%"child" then removeChildNode eng ctx xpath removePreds ifEmpty node
    else if ax = some c%"@" ∨ ax = some c%"attribute" then removeAttr ctx pfx nm node
    else pure false
  | .type nm _ => if nm = c%"text" then clearText node else pure false

mutual
/-- fields.py:430-480 `_remove_xml`.  `_predicate_is_constructible(left_xpath)` is called on a string and is always
true (fields.py:473). -/
def removeXml : Expr → Bool → Ref → M Bool
  | .step ax t ps, ifEmpty, node =>
    removeStep eng ctx (Expr.ser (.step ax t ps)) ax t (fun r => removePreds ps r) ifEmpty node
  | .binary l .slash r, ifEmpty, node => do
    match ← findNode eng ctx l.ser node with
    | none => pure false
    | some f => do
      let left ← foundRef f
      let removed ← removeXml r ifEmpty left
      if removed then do
        let _ ← removeXml l true node
        pure true
      else pure false
  | _, _, _ => pure false
/-- One round of the loop of `_remove_predicates` (fields.py:529-557). -/
def removePred : Expr → Ref → M Unit
  | .binary l .eq r, node =>
    if isConstructible (.binary l .eq r) = false then pure ()
    else do
      let v ← evalXPath eng ctx (Expr.ser (.binary l .eq r)) node
      if v = .bool true then do
        match l with
        | .step ax (.name pfx nm) ps => do
          if ax = some c%"@" ∨ ax = some c%"attribute" then do
            let _ ← removeAttr ctx pfx nm node
            pure ()
          else do
            let _ ← removeChildNode eng ctx (Expr.ser (.step ax (.name pfx nm) ps)) (fun r => removePreds ps r) true node
            pure ()
        | .binary ll op lr => do
          let _ ← removeXml (.binary ll op lr) true node
          pure ()
        | _ => pure ()
      else pure ()
  | _, _ => pure ()
/-- fields.py:513-559 `_remove_predicates` (its effect on the node; the returned AST copy is not used). -/
def removePreds : List Expr → Ref → M Unit
  | [], _ => pure ()
  | p :: ps, node => do
    removePred p node
    removePreds ps node
end

end
end Fields
