import Verif.XmlMap.NodeListLemmas
import Verif.Spec.Shelf
/-
Model of `NodeList` and `NodeListManager.set` of a NodeListField (eulxml/xmlmap/fields.py:661-846) for values that are objects for elements which may be in the
list already.

An XmlObject refers to an element, and in lxml an element is at one place only.  The objects in use are numbered; for each one the model keeps where its element
is: a child of the element of the list's owner (all members are such children, as the XPath has one child step), or outside of the document, with its tail.
-/
namespace Fields
open Xml XPath Spec

/-- Where the element of an object is: a child of the owner's element, at this index; or outside, with its content. -/
inductive Place where
  | at (i : Nat)
  | out (n : Node)
  deriving DecidableEq

/-- A child was inserted at index `p`. -/
def Place.shiftIn (p : Nat) : Place → Place
  | .at i => .at (if i < p then i else i + 1)
  | .out n => .out n

/-- The child at index `p`, which is `old`, has left. -/
def Place.takeOut (p : Nat) (old : Node) : Place → Place
  | .at i => if i = p then .out old else .at i
  | .out n => .out n

/-- The children behind index `p` have moved up. -/
def Place.closeGap (p : Nat) : Place → Place
  | .at i => .at (if p < i then i - 1 else i)
  | .out n => .out n

section
variable [PyUnicode] (eng : Engine) (ctx : Ctx) (xpath : Str) (xast : Expr) (a : Node.Addr)

/-- The places of the matches. -/
def placesOf : List Ref → M (List Place)
  | [] => pure []
  | r :: rs => do
    let p ← positionOf r
    let l ← placesOf rs
    pure (.at p :: l)

/-- `items = list(obj.field)` (fields.py:703-706, 734-735): an object for each match, in order; behind them, objects for new elements, which are outside. -/
def itemObjs (news : List Node) : M (List Place) := do
  let ms ← listMatches eng ctx xpath (.elem a)
  let l ← placesOf ms
  pure (l ++ news.map .out)

/-- fields.py:763 `match.getparent().replace(match, value.node)`, where the match is the child `p` of the element at `a` and the value is object `k`. -/
def replaceBy (p k : Nat) (pl : List Place) : M (List Place) := do
  let old ← nodeAt (a ++ [p])
  match pl[k]? with
  | some (.out v) => do
    storeNode (.elem (a ++ [p])) (.foreign v)
    pure ((pl.map (Place.takeOut p old)).set k (.at p))
  | some (.at i) => do
    storeNode (.elem (a ++ [p])) (.own (a ++ [i]))
    if i = p then pure pl
    else pure (((pl.map (Place.takeOut p old)).set k (.at p)).map (Place.closeGap i))
  | none => raise .nameError

/-- fields.py:741-763 `__setitem__` with an integer and object `k`. -/
def setObj (key : Int) (k : Nat) (pl : List Place) : M (List Place) := do
  let ms ← listMatches eng ctx xpath (.elem a)
  if key = ms.length then do
    let idx ← appendIndex ms
    let r ← createNode eng ctx xast (.elem a) idx
    let p ← positionOf r
    replaceBy a p k (pl.map (Place.shiftIn p))
  else if key > ms.length then raise .indexError
  else do
    let r ← ofExcept (pyGet ms key)
    let p ← positionOf r
    replaceBy a p k pl

/-- fields.py:737-739 `__getitem__` with an integer: an object for the element; its number is that of the object that is there. -/
def getObj (key : Int) (pl : List Place) : M (Option Nat) := do
  let ms ← listMatches eng ctx xpath (.elem a)
  let r ← ofExcept (pyGet ms key)
  let p ← positionOf r
  pure (pl.idxOf? (.at p))

/-- fields.py:769-775 `__delitem__` with an integer. -/
def delObj (key : Int) (pl : List Place) : M (List Place) := do
  let ms ← listMatches eng ctx xpath (.elem a)
  if key ≥ ms.length then raise .indexError
  else do
    let r ← ofExcept (pyGet ms key)
    let p ← positionOf r
    let old ← nodeAt (a ++ [p])
    removeMatch r
    pure ((pl.map (Place.takeOut p old)).map (Place.closeGap p))

/-- fields.py:714-715 `__len__`: the number of matches (each one can be mapped to an object). -/
def lenObj : M Nat := do
  let ms ← listMatches eng ctx xpath (.elem a)
  pure ms.length

/-- fields.py:786-788 `append`. -/
def appendObj (k : Nat) (pl : List Place) : M (List Place) := do
  let n ← lenObj eng ctx xpath a
  setObj eng ctx xpath xast a n k pl

/-- fields.py:809-812 `extend`. -/
def extendObj : List Nat → List Place → M (List Place)
  | [], pl => pure pl
  | k :: ks, pl => do
    let pl ← appendObj eng ctx xpath xast a k pl
    extendObj ks pl

/-- fields.py:814-826 `insert`. -/
def insertObj (i : Int) (k : Nat) (pl : List Place) : M (List Place) := do
  let n ← lenObj eng ctx xpath a
  if i = n then appendObj eng ctx xpath xast a k pl
  else do
    let ms ← listMatches eng ctx xpath (.elem a)
    if (ms.length : Int) > i then do
      let r ← ofExcept (pyGet ms i)
      let p ← positionOf r
      let _ ← createNode eng ctx xast (.elem a) (some p)
      setObj eng ctx xpath xast a i k (pl.map (Place.shiftIn p))
    else raise .indexError

/-- fields.py:800-807 `pop`. -/
def popObj (i : Option Int) (pl : List Place) : M (Option Nat × List Place) := do
  let i ← (match i with
    | some i => pure i
    | none => do
      let n ← lenObj eng ctx xpath a
      pure ((n : Int) - 1))
  let val ← getObj eng ctx xpath a i pl
  let pl ← delObj eng ctx xpath a i pl
  pure (val, pl)

/-- fields.py:841-842: `for i in range(len(value)): current_list[i] = value[i]`. -/
def setFromObj : Nat → List Nat → List Place → M (List Place)
  | _, [], pl => pure pl
  | i, k :: ks, pl => do
    let pl ← setObj eng ctx xpath xast a i k pl
    setFromObj (i + 1) ks pl

/-- fields.py:845-846: `while len(current_list) > len(value): current_list.pop()`; `fuel`: rounds. -/
def trimObj (len : Nat) : Nat → List Place → M (List Place)
  | 0, pl => pure pl
  | fuel + 1, pl => do
    let n ← lenObj eng ctx xpath a
    if n > len then do
      let r ← popObj eng ctx xpath a none pl
      trimObj len fuel r.2
    else pure pl

/-- fields.py:845-846, the whole loop: as in `listTrimAll`, there are at most as many rounds as the document has nodes. -/
def trimObjAll (len n : Nat) (pl : List Place) : M (List Place) := fun s => trimObj eng ctx xpath a len (n + s.nodes) pl s

/-- fields.py:837-846 `NodeListManager.set` with a Python list of objects. -/
def assignObj (ks : List Nat) (pl : List Place) : M (List Place) := do
  let pl ← setFromObj eng ctx xpath xast a 0 ks pl
  let n ← lenObj eng ctx xpath a
  trimObjAll eng ctx xpath a ks.length n pl

/-- One operation: what it returns, and where the objects are afterwards. -/
def shelfRun (pl : List Place) : ShelfOp → M (Option Nat × List Place)
  | .get i => do
    let r ← getObj eng ctx xpath a i pl
    pure (r, pl)
  | .set i k => do
    let pl ← setObj eng ctx xpath xast a i k pl
    pure (none, pl)
  | .append k => do
    let pl ← appendObj eng ctx xpath xast a k pl
    pure (none, pl)
  | .extend ks => do
    let pl ← extendObj eng ctx xpath xast a ks pl
    pure (none, pl)
  | .insert i k => do
    let pl ← insertObj eng ctx xpath xast a i k pl
    pure (none, pl)
  | .del i => do
    let pl ← delObj eng ctx xpath a i pl
    pure (none, pl)
  | .pop i => popObj eng ctx xpath a i pl

/-- A sequence of operations; an exception (which leaves the objects where they are) does not end it. -/
def shelfRuns (pl : List Place) : List ShelfOp → Node → List (Except PyErr (Option Nat)) × List Place × Node
  | [], s => ([], pl, s)
  | op :: ops, s => match shelfRun eng ctx xpath xast a pl op s with
    | (.ok (r, pl'), s') => let rest := shelfRuns pl' ops s'; (.ok r :: rest.1, rest.2)
    | (.error er, s') => let rest := shelfRuns pl ops s'; (.error er :: rest.1, rest.2)

end
end Fields
