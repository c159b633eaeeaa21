import Verif.XmlMap.NodeListLemmas
/-
Model of a `for` statement over a list field (`NodeList.__iter__`, eulxml/xmlmap/fields.py:720-722) whose body works on the same list.
-/
namespace Fields
open XPath Xml Spec

/-- What a program does with a list between two points: it operates on the list and goes on according to the result or the exception, raises an exception, or ends, with a
new value of its own variables, and either goes on with the loop or leaves it (`break`). -/
inductive Prog (σ α : Type) where
  | op (o : ListOp α) (next : Except PyErr (ListRes α) → Prog σ α)
  | raises (e : PyErr)
  | done (vars : σ) (goOn : Bool)

section
variable [PyUnicode] {α σ : Type} [DecidableEq α] (eng : Engine) (ctx : Ctx) (mapper : Item → Except PyErr α) (store : Ref → α → M Unit) (xpath : Str) (xast : Expr) (node : Ref)

/-- The program, on the list field. -/
def runProg : Prog σ α → M (σ × Bool)
  | .op o next => fun s => runProg (next (runOp eng ctx mapper store xpath xast node o s).1) (runOp eng ctx mapper store xpath xast node o s).2
  | .raises e => raise e
  | .done v b => pure (v, b)

/-- fields.py:720-722: `for x in obj.field: body`.  The generator evaluates the matches once, when the loop starts, and maps each one when its turn comes; a match that has been removed is
still alive.  Simplification: the value of a match is taken from the document at the start; this is what it is when its turn comes unless the body has assigned to one of the members. -/
def listFor (body : σ → α → Prog σ α) (v : σ) : M σ := do
  let ms ← listMatches eng ctx xpath node
  let doc ← getDoc
  go doc v ms
where
  /-- The loop. -/
  go (doc : Node) (v : σ) : List Ref → M σ
  | [] => pure v
  | r :: rs => do
    let x ← ofExcept (mapMatch mapper doc r)
    let (v', b) ← runProg eng ctx mapper store xpath xast node (body v x)
    if b then go doc v' rs else pure v'

/-- fields.py:720-722: the loop with indices, `for i, x in enumerate(obj.field): body`, for fields whose values are texts and a body that neither adds nor removes members: an assignment changes the text of a member (764-767), so the match whose turn comes is
still the member with the same index, and has its value of that moment.  `k` is the number of matches left. -/
def listForNow (body : Nat → σ → α → Prog σ α) (v : σ) : M σ := do
  let ms ← listMatches eng ctx xpath node
  go 0 ms.length v
where
  /-- The loop. -/
  go (i : Nat) : Nat → σ → M σ
  | 0, v => pure v
  | k + 1, v => do
    let x ← listGet eng ctx mapper xpath node i
    let (v', b) ← runProg eng ctx mapper store xpath xast node (body i v x)
    if b then go (i + 1) k v' else pure v'

/-- fields.py:809-812 `extend`, with the list itself as argument (`l.extend(l)`). -/
def listExtendSelf : M Unit := listFor eng ctx mapper store xpath xast node (fun _ x => .op (.append x) (fun r => match r with | .ok _ => .done () true | .error e => .raises e)) ()

end

/-- fields.py:731-735: the types of keys.  `bool` is a subclass of `int`. -/
inductive Key where
  | int (i : Int)
  | bool (b : Bool)
  | slice
  | other

/-- fields.py:731-735 `_check_key_type`: the integer that a key is.  Assertions are enabled (no `python -O`). -/
def checkKeyType : Key → Except PyErr Int
  | .int i => .ok i
  | .bool b => .ok (if b then 1 else 0)
  | .slice => .error .assertionError
  | .other => .error .typeError

section
variable [PyUnicode] {α : Type} (eng : Engine) (ctx : Ctx) (mapper : Item → Except PyErr α) (store : Ref → α → M Unit) (xpath : Str) (xast : Expr) (node : Ref)

/-- fields.py:737-739 `l[key]`. -/
def listGetKey (key : Key) : M α := do
  let i ← ofExcept (checkKeyType key)
  listGet eng ctx mapper xpath node i

/-- fields.py:741-767 `l[key] = value`. -/
def listSetKey (key : Key) (value : α) : M Unit := do
  let i ← ofExcept (checkKeyType key)
  listSet eng ctx store xpath xast node i value

/-- fields.py:769-775 `del l[key]`. -/
def listDelKey (key : Key) : M Unit := do
  let i ← ofExcept (checkKeyType key)
  listDel eng ctx xpath node i

end
end Fields
