import Verif.XmlMap.NodeListLemmas
/-
Model of assigning to, and extending, a list field with the list field of another object (eulxml/xmlmap/fields.py:809-812, 829-846).

The state is a pair of documents: the one of the object that is changed (the target), and the one the list comes from (the source).
-/
namespace Fields
open XPath Xml

/-- Computations on two documents, target and source. -/
def Both (α : Type) := Node × Node → Except PyErr α × (Node × Node)

namespace Both
def pure {α} (x : α) : Both α := fun s => (.ok x, s)
def bind {α β} (m : Both α) (f : α → Both β) : Both β := fun s => match m s with
  | (.ok x, s') => f x s'
  | (.error e, s') => (.error e, s')
instance : Monad Both where
  pure := Both.pure
  bind := Both.bind
end Both

/-- Something that concerns the target. -/
def onTarget {α} (m : M α) : Both α := fun s => ((m s.1).1, ((m s.1).2, s.2))
/-- Something that concerns the source. -/
def onSource {α} (m : M α) : Both α := fun s => ((m s.2).1, (s.1, (m s.2).2))

section
variable [PyUnicode] {α : Type} (eng : Engine) (mapper : Item → Except PyErr α) (store : Ref → α → M Unit)
  (ctx : Ctx) (xpath : Str) (xast : Expr) (node : Ref) (ctx' : Ctx) (mapper' : Item → Except PyErr α) (xpath' : Str) (node' : Ref) (moves : Bool)

/-- fields.py:842 `current_list[i] = value[j]` (737-739, 741-767).  If the items are elements (`moves`), `match.getparent().replace(match, value.node)` (763) takes the element
out of its old place: in lxml an element, with its tail, is at one place only. -/
def assignItem (i j : Nat) : Both Unit := do
  let v ← onSource (listGet eng ctx' mapper' xpath' node' j)
  onTarget (listSet eng ctx store xpath xast node i v)
  if moves then onSource (listDel eng ctx' xpath' node' j) else pure ()

/-- fields.py:841-842: `for i in range(len(value)): current_list[i] = value[i]`, where `value` is the list field of the source; `k` is the number of rounds left. -/
def assignLive : Nat → Nat → Both Unit
  | _, 0 => pure ()
  | i, k + 1 => do
    assignItem eng store ctx xpath xast node ctx' mapper' xpath' node' moves i i
    assignLive (i + 1) k

/-- fields.py:845-846: `while len(current_list) > len(value): current_list.pop()`, where `value` is the list field of the source, whose length is taken in each round; `fuel`: rounds. -/
def trimLive : Nat → Both Unit
  | 0 => pure ()
  | fuel + 1 => do
    let n ← onTarget (listLen eng ctx mapper xpath node)
    let m ← onSource (listLen eng ctx' mapper' xpath' node')
    if n > m then do
      let _ ← onTarget (listPop eng ctx mapper xpath node none)
      trimLive fuel
    else pure ()

/-- fields.py:845-846, the whole loop: as in `listTrimAll`, there are at most as many rounds as the document of the target has nodes. -/
def trimLiveAll (n : Nat) : Both Unit := fun s => trimLive eng mapper ctx xpath node ctx' mapper' xpath' node' (n + s.1.nodes) s

/-- fields.py:837-846: `obj.field = other.field`. -/
def listAssignLive : Both Unit := do
  let n ← onSource (listLen eng ctx' mapper' xpath' node')
  assignLive eng store ctx xpath xast node ctx' mapper' xpath' node' moves 0 n
  let m ← onTarget (listLen eng ctx mapper xpath node)
  trimLiveAll eng mapper ctx xpath node ctx' mapper' xpath' node' m

/-- fields.py:841-842, for elements, where `value` is the Python list `list(other.field)`: the elements before the one whose turn it is have been moved, so it is the first one that is left. -/
def assignCopy : Nat → Nat → Both Unit
  | _, 0 => pure ()
  | i, k + 1 => do
    assignItem eng store ctx xpath xast node ctx' mapper' xpath' node' true i 0
    assignCopy (i + 1) k

/-- fields.py:837-846: `obj.field = list(other.field)` for elements. -/
def listAssignCopy : Both Unit := do
  let n ← onSource (listLen eng ctx' mapper' xpath' node')
  assignCopy eng store ctx xpath xast node ctx' mapper' xpath' node' 0 n
  let m ← onTarget (listLen eng ctx mapper xpath node)
  onTarget (listTrimAll eng ctx mapper xpath node n m)

/-- fields.py:809-812, 786-788 and 720-722, for elements: `obj.field.extend(other.field)`.  The iteration goes over the matches of the start, which are moved one after the other; `k`: rounds left. -/
def extendMoving : Nat → Both Unit
  | 0 => pure ()
  | k + 1 => do
    let n ← onTarget (listLen eng ctx mapper xpath node)
    assignItem eng store ctx xpath xast node ctx' mapper' xpath' node' true n 0
    extendMoving k

/-- fields.py:809-812: `obj.field.extend(other.field)` for elements. -/
def listExtendMoving : Both Unit := do
  let n ← onSource (listLen eng ctx' mapper' xpath' node')
  extendMoving eng mapper store ctx xpath xast node ctx' mapper' xpath' node' n

end

section
variable [PyUnicode] {α : Type} (eng : Engine) (ctx : Ctx) (mapper : Item → Except PyErr α) (store : Ref → α → M Unit) (xpath : Str) (xast : Expr) (node : Ref)

/-- fields.py:841-842: `current_list[i] = value[i]` where both are the same list field of the same object, for fields whose values are texts. -/
def assignSelf : Nat → Nat → M Unit
  | _, 0 => pure ()
  | i, k + 1 => do
    let v ← listGet eng ctx mapper xpath node i
    listSet eng ctx store xpath xast node i v
    assignSelf (i + 1) k

/-- fields.py:837-846: `obj.field = obj.field` for texts; the loop in 845-846 compares the length of the list with itself, and does nothing. -/
def listAssignSelf : M Unit := do
  let n ← listLen eng ctx mapper xpath node
  assignSelf eng ctx mapper store xpath xast node 0 n

/-- fields.py:837-846: `obj.field = obj.field` for elements: each one replaces itself (759-763). -/
def listAssignSelfNodes : M Unit := do
  let ms ← listMatches eng ctx xpath node
  ms.forM (fun r => match r with
    | .elem a => storeNode r (.own a)
    | _ => raise .typeError)

end

end Fields
