import Verif.XmlMap.Manager
import Verif.XmlMap.Mappers
import Verif.Xml.Count
/-
Model of `NodeList` and `NodeListManager` (eulxml/xmlmap/fields.py:661-846).

The element type `α` is what `mapper.to_python` returns.  `mapper` is `to_python` on a match, `store` is the last part of
`__setitem__` (fields.py:759-767), which differs between NodeListFields and the others: `storeText`, `storeNode`.
`self.matches` re-evaluates the XPath; where the document does not change in between, the model evaluates it once.
-/
namespace Fields
open Xml XPath

section
variable [PyUnicode] (eng : Engine) (ctx : Ctx)

/-- fields.py:690-695 `NodeList.matches`.  Simplification: a scalar XPath result is a `TypeError` (true for numbers and booleans in all
methods; a string result would be treated as a sequence of characters). -/
def listMatches (xpath : Str) (node : Ref) : M (List Ref) := do
  let v ← evalXPath eng ctx xpath node
  match v with
  | .nodes l => pure l
  | _ => raise .typeError

/-- `l[key]` on a Python list, with negative keys. -/
def pyGet {α} (l : List α) (key : Int) : Except PyErr α :=
  if 0 ≤ key then match l[key.toNat]? with
    | some x => .ok x
    | none => .error .indexError
  else if -key ≤ l.length then match l[l.length - (-key).toNat]? with
    | some x => .ok x
    | none => .error .indexError
  else .error .indexError

/-- `self.mapper.to_python(match)`; matches exist in the document. -/
def mapMatch {α} (mapper : Item → Except PyErr α) (doc : Node) (r : Ref) : Except PyErr α :=
  match itemOf doc (.ref r) with
  | some it => mapper it
  | none => .error .attributeError

/-- The list comprehension in `data`: the first exception ends it. -/
def mapMatches {α} (mapper : Item → Except PyErr α) (doc : Node) : List Ref → Except PyErr (List α)
  | [] => .ok []
  | r :: rs => match mapMatch mapper doc r with
    | .error e => .error e
    | .ok x => match mapMatches mapper doc rs with
      | .error e => .error e
      | .ok xs => .ok (x :: xs)

variable {α : Type} [DecidableEq α] (mapper : Item → Except PyErr α) (store : Ref → α → M Unit)
variable (xpath : Str) (xast : Expr) (node : Ref)

/-- fields.py:703-706 `data`. -/
def listData : M (List α) := do
  let ms ← listMatches eng ctx xpath node
  let doc ← getDoc
  ofExcept (mapMatches mapper doc ms)

/-- fields.py:714-715 `__len__`. -/
def listLen : M Nat := do
  let d ← listData eng ctx mapper xpath node
  pure d.length

/-- fields.py:717-718 `__contains__`. -/
def listContains (x : α) : M Bool := do
  let d ← listData eng ctx mapper xpath node
  pure (decide (x ∈ d))

/-- fields.py:724-726 `__eq__` with a Python list. -/
def listEq (l : List α) : M Bool := do
  let d ← listData eng ctx mapper xpath node
  pure (decide (d = l))

/-- fields.py:782-784 `count`. -/
def listCount (x : α) : M Nat := do
  let d ← listData eng ctx mapper xpath node
  pure (d.count x)

/-- fields.py:790-793 `index`: `ValueError` if there is no such item. -/
def listIndex (x : α) : M Nat := do
  let d ← listData eng ctx mapper xpath node
  match d.idxOf? x with
  | some i => pure i
  | none => raise .valueError

/-- fields.py:737-739 `__getitem__` with an integer. -/
def listGet (key : Int) : M α := do
  let ms ← listMatches eng ctx xpath node
  let r ← ofExcept (pyGet ms key)
  let doc ← getDoc
  ofExcept (mapMatch mapper doc r)

/-- `match.getparent().index(match)`: only elements with a parent have a position. -/
def positionOf : Ref → M Nat
  | .elem a => match a.getLast? with
    | some i => pure i
    | none => raise .attributeError
  | _ => raise .typeError

/-- fields.py:747-753: the position behind the last match, if there is one. -/
def appendIndex (ms : List Ref) : M (Option Nat) :=
  match ms.getLast? with
  | some last => do
    let p ← positionOf last
    pure (some (p + 1))
  | none => pure none

/-- fields.py:741-767 `__setitem__` with an integer. -/
def listSet (key : Int) (value : α) : M Unit := do
  let ms ← listMatches eng ctx xpath node
  let m ← (if key = ms.length then do
      let idx ← appendIndex ms
      createNode eng ctx xast node idx
    else if key > ms.length then raise .indexError
    else ofExcept (pyGet ms key))
  store m value

/-- `match.getparent().remove(match)`: attributes and text are no elements; the root has no parent. -/
def removeMatch : Ref → M Unit
  | .elem a => if a = [] then raise .attributeError else edit a.dropLast (Node.removeChild (a.getLast?.getD 0))
  | _ => raise .typeError

/-- fields.py:769-775 `__delitem__` with an integer. -/
def listDel (key : Int) : M Unit := do
  let ms ← listMatches eng ctx xpath node
  if key ≥ ms.length then raise .indexError
  else do
    let r ← ofExcept (pyGet ms key)
    removeMatch r

/-- fields.py:786-788 `append`. -/
def listAppend (x : α) : M Unit := do
  let n ← listLen eng ctx mapper xpath node
  listSet eng ctx store xpath xast node n x

/-- fields.py:795-798 `remove`. -/
def listRemove (x : α) : M Unit := do
  let i ← listIndex eng ctx mapper xpath node x
  listDel eng ctx xpath node i

/-- fields.py:800-807 `pop`. -/
def listPop (i : Option Int) : M α := do
  let i ← (match i with
    | some i => pure i
    | none => do
      let n ← listLen eng ctx mapper xpath node
      pure ((n : Int) - 1))
  let val ← listGet eng ctx mapper xpath node i
  listDel eng ctx xpath node i
  pure val

/-- fields.py:809-812 `extend`. -/
def listExtend : List α → M Unit
  | [] => pure ()
  | x :: xs => do
    listAppend eng ctx mapper store xpath xast node x
    listExtend xs

/-- fields.py:814-826 `insert`. -/
def listInsert (i : Int) (x : α) : M Unit := do
  let n ← listLen eng ctx mapper xpath node
  if i = n then listAppend eng ctx mapper store xpath xast node x
  else do
    let ms ← listMatches eng ctx xpath node
    if (ms.length : Int) > i then do
      let r ← ofExcept (pyGet ms i)
      let p ← positionOf r
      let _ ← createNode eng ctx xast node (some p)
      listSet eng ctx store xpath xast node i x
    else raise .indexError

/-- fields.py:833-835 `NodeListManager.delete`: `[current_list.remove(x) for x in current_list]`.  The matches are evaluated once when the
iteration starts; an iterated element that was removed is still alive.  Simplification: its value is taken from the document at the
start (removing one member could change the value of another only if they were nested). -/
def listDeleteAll : M Unit := do
  let ms ← listMatches eng ctx xpath node
  let doc ← getDoc
  go doc ms
where
  /-- The loop. -/
  go (doc : Node) : List Ref → M Unit
  | [] => pure ()
  | r :: rs => do
    let x ← ofExcept (mapMatch mapper doc r)
    listRemove eng ctx mapper xpath node x
    go doc rs

/-- fields.py:841-842: `for i in range(len(value)): current_list[i] = value[i]`. -/
def listSetFrom : Nat → List α → M Unit
  | _, [] => pure ()
  | i, v :: vs => do
    listSet eng ctx store xpath xast node i v
    listSetFrom (i + 1) vs

/-- fields.py:845-846: `while len(current_list) > len(value): current_list.pop()`.  `fuel`: rounds. -/
def listTrim (len : Nat) : Nat → M Unit
  | 0 => pure ()
  | fuel + 1 => do
    let n ← listLen eng ctx mapper xpath node
    if n > len then do
      let _ ← listPop eng ctx mapper xpath node none
      listTrim len fuel
    else pure ()

/-- fields.py:845-846, the whole loop.  Each `pop` either raises or takes an element out of the document, so that there are at most as many rounds as the document has nodes (C130 shows that more rounds make no difference, whatever
the XPath: with `a[1]` the list does not become shorter with each `pop`).  `n`, the length of the list, is not needed for that. -/
def listTrimAll (len n : Nat) : M Unit := fun s => listTrim eng ctx mapper xpath node len (n + s.nodes) s

/-- fields.py:837-846 `NodeListManager.set`. -/
def listAssign (value : List α) : M Unit := do
  listSetFrom eng ctx store xpath xast node 0 value
  let n ← listLen eng ctx mapper xpath node
  listTrimAll eng ctx mapper xpath node value.length n

omit [DecidableEq α] in
theorem listTrimAll_run (len n : Nat) (s : Node) : listTrimAll eng ctx mapper xpath node len n s = listTrim eng ctx mapper xpath node len (n + s.nodes) s := rfl

end

/-- fields.py:764-767: `_set_in_xml(match, self.mapper.to_xml(value), self.context, step)`. -/
def storeText {α} (ctx : Ctx) (toXml : α → Except PyErr (Option Str)) (xast : Expr) (r : Ref) (value : α) : M Unit := do
  let v ← ofExcept (toXml value)
  setInXml ctx (.ref r) v (findTerminalStep xast)

/-- fields.py:759-763: `match.getparent().replace(match, value.node)`.  lxml: the replaced element goes with its tail, the new one
comes with its tail; an element that is in the document already is moved; the parent of the match must not be inside of it; replacing
an element by itself does nothing. -/
def storeNode (r : Ref) (value : ElemVal) : M Unit :=
  match r with
  | .elem a =>
    if a = [] then raise .attributeError
    else match value with
    | .foreign v => edit a (fun _ => v)
    | .own b => do
      let v ← nodeAt b
      if b <+: a.dropLast then raise .valueError
      else if a = b then pure ()
      else if a <+: b then edit a (fun _ => v)
      else do
        edit a (fun _ => v)
        edit b.dropLast (Node.removeChild (b.getLast?.getD 0))
  | _ => raise .typeError

end Fields
