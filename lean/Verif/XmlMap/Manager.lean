import Verif.XmlMap.Fields
/-
Model of `SingleNodeManager` (eulxml/xmlmap/fields.py:613-658) and of assigning elements.
-/
namespace Fields
open Xml XPath

/-- An element that is assigned to a `NodeField` (`xmlobject.node`): an element of the same document, or the root of
another tree.  Simplification: another tree is given by value (what is left of it is `graftRest`). -/
inductive ElemVal where
  | own (a : Node.Addr)
  | foreign (n : Node)
  deriving DecidableEq, Repr

/-- `xvalue = mapper.to_xml(value)` if not `None`. -/
inductive XValue where
  | str (s : Str)
  | elem (v : ElemVal)
  deriving DecidableEq, Repr

/-- Give `node` (after `node.clear()`) the text, children and attributes of `val` (fields.py:404-409). -/
def graftOnto (val node : Node) : Node :=
  val.attrs.foldl (fun n p => n.setAttr p.1 p.2) ((node.clear.setText val.text).withChildren val.children)

/-- What is left of the assigned tree: `node.append(child)` moves the children. -/
def graftRest (val : Node) : Node := val.withChildren []

/-- fields.py:402-409, the target at address `a` and the value at address `b` of the same document.
* the same element: `node.clear()` empties it before it is read;
* an ancestor of the target: its children in front of the target's branch are moved, then `append` refuses the branch
  (lxml: "cannot append parent to itself"); addresses of the result are not needed afterwards;
* a descendant of the target: cleared away, but still alive and read afterwards;
* otherwise: its children move. -/
def graftOwn (a b : Node.Addr) : M Unit :=
  if a = b then edit a Node.clear
  else if b <+: a then do
    let k := (a.drop b.length).headD 0
    let a' := (a.drop b.length).drop 1
    edit b (fun v => v.withChildren ((v.children.drop k).modify 0
      (Node.modify a' (fun n => (n.clear.setText v.text).withChildren (v.children.take k)))))
    raise .valueError
  else do
    let val ← nodeAt b
    if ¬ a <+: b then edit b graftRest
    edit a (graftOnto val)

/-- fields.py:398-427 `_set_in_xml` with any value.  Text and attributes do not accept an element. -/
def setValue (ctx : Ctx) (node : Found) (val : XValue) (step : Option (Option Str × NodeTest)) : M Unit :=
  match val, node with
  | .str s, _ => setInXml ctx node (some s) step
  | .elem (.foreign v), .ref (.elem a) => edit a (graftOnto v)
  | .elem (.own b), .ref (.elem a) => graftOwn a b
  | .elem _, .ref _ => raise .typeError
  | .elem _, .str _ => raise .attributeError
  | .elem _, _ => pure ()

section
variable [PyUnicode] (eng : Engine) (ctx : Ctx)

/-- fields.py:620-625 `SingleNodeManager.get`.  `toPython` is `mapper.to_python`, which reads the document. -/
def managerGet {α} (instantiate : Bool) (toPython : Node → Option Found → Except PyErr α) (xpath : Str) (xast : Expr)
    (node : Ref) : M α := do
  let m ← findNode eng ctx xpath node
  if m = none ∧ instantiate = true then do
    let r ← createNode eng ctx xast node none
    let doc ← getDoc
    ofExcept (toPython doc (some (.ref r)))
  else do
    let doc ← getDoc
    ofExcept (toPython doc m)

/-- fields.py:627-645 `SingleNodeManager.set`, with `xvalue` the result of `mapper.to_xml(value)`.  The warning for
a node that could not be removed is not modelled. -/
def managerSet (xvalue : Except PyErr (Option XValue)) (xpath : Str) (xast : Expr) (node : Ref) : M Unit := do
  let xv ← ofExcept xvalue
  let m ← findNode eng ctx xpath node
  match xv with
  | none =>
    match m with
    | none => pure ()
    | some _ => do
      let _ ← removeXml eng ctx xast false node
      pure ()
  | some v =>
    match m with
    | some f => setValue ctx f v (findTerminalStep xast)
    | none => do
      let r ← createNode eng ctx xast node none
      setValue ctx (.ref r) v (findTerminalStep xast)

/-- fields.py:647-653 `SingleNodeManager.create`. -/
def managerCreate (xpath : Str) (xast : Expr) (node : Ref) : M Found := do
  match ← findNode eng ctx xpath node with
  | some f => pure f
  | none => do
    let r ← createNode eng ctx xast node none
    pure (.ref r)

/-- fields.py:655-658 `SingleNodeManager.delete`. -/
def managerDelete (xpath : Str) (xast : Expr) (node : Ref) : M Unit := do
  match ← findNode eng ctx xpath node with
  | none => pure ()
  | some _ => do
    let _ ← removeXml eng ctx xast false node
    pure ()

end
end Fields
