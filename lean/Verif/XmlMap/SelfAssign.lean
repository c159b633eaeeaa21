import Verif.XmlMap.NodeList
/-
`obj.list = obj.list`: the value is the list itself, evaluated anew at each access.
-/
namespace Fields
open Xml XPath

section
variable [PyUnicode] {α : Type} (eng : Engine) (ctx : Ctx) (mapper : Item → Except PyErr α) (store : Ref → α → M Unit) (xpath : Str) (xast : Expr) (node : Ref)
  (item : Ref → M α)

/-- fields.py:842 `value[i]`, where `value` is the list (737-739).  `item` is the value for a match: what the mapper reads, or, for objects, the object for the match. -/
def liveItem (i : Nat) : M α := do
  let ms ← listMatches eng ctx xpath node
  let r ← ofExcept (pyGet ms i)
  item r

/-- fields.py:841-842: `for i in range(len(value)): current_list[i] = value[i]`, where `value` is the list; `k`: rounds left. -/
def selfSetFrom : Nat → Nat → M Unit
  | _, 0 => pure ()
  | i, k + 1 => do
    let v ← liveItem eng ctx xpath node item i
    listSet eng ctx store xpath xast node i v
    selfSetFrom (i + 1) k

/-- fields.py:837-846: `obj.list = obj.list`.  The loop of 845-846 compares the length of the list with itself and is not entered; the two lengths are taken once. -/
def listAssignAgain : M Unit := do
  let n ← listLen eng ctx mapper xpath node
  selfSetFrom eng ctx store xpath xast node item 0 n
  let n ← listLen eng ctx mapper xpath node
  let m ← listLen eng ctx mapper xpath node
  if n > m then raise .exception else pure ()

/-- The object for a match: fields.py:246-249 `NodeMapper.to_python`: `self.node_class(node)`; its node is an element of the document. -/
def ownItem : Ref → M ElemVal
  | .elem b => pure (.own b)
  | _ => raise .typeError

/-- What the mapper reads from a match. -/
def readItem (r : Ref) : M α := do
  let doc ← getDoc
  ofExcept (mapMatch mapper doc r)

end
end Fields
