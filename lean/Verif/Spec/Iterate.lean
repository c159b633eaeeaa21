import Verif.XmlMap.Iterate
/-
Specification of C95: loops over a Python list and over a copy of it.
-/
namespace Spec
open Fields

/-- The program, on a Python list. -/
def pyProg {σ α : Type} [DecidableEq α] : Prog σ α → List α → Except PyErr (σ × Bool) × List α
  | .op o next, l => pyProg (next (pyList l o).1) (pyList l o).2
  | .raises e, l => (.error e, l)
  | .done v b, l => (.ok (v, b), l)

/-- `for x in items: body`, where the body works on another list `l`: the result, and `l` at the end. -/
def pyFor {σ α : Type} [DecidableEq α] (body : σ → α → Prog σ α) : σ → List α → List α → Except PyErr σ × List α
  | v, [], l => (.ok v, l)
  | v, x :: items, l => match pyProg (body v x) l with
    | (.error e, l') => (.error e, l')
    | (.ok (v', true), l') => pyFor body v' items l'
    | (.ok (v', false), l') => (.ok v', l')

/-- The program only does what `NodeList` supports, stores only values that can be stored, and assigns to no index. -/
inductive Prog.NoAssign {σ α : Type} (ok : α → Prop) : Prog σ α → Prop
  | op {o next} : o.supported = true → (∀ v ∈ o.values, ok v) → (∀ i v, o ≠ .set i v) → (∀ r, NoAssign ok (next r)) → NoAssign ok (.op o next)
  | raises {e} : NoAssign ok (.raises e)
  | done {v b} : NoAssign ok (.done v b)

/-- `for i, x in enumerate(l): body`, where the body works on `l` itself: Python goes through the indices while there are items.  `fuel` is enough if it is at least the number of items, and the body does
not make the list longer. -/
def pyForSelf {σ α : Type} [DecidableEq α] (body : Nat → σ → α → Prog σ α) : Nat → Nat → σ → List α → Except PyErr σ × List α
  | 0, _, v, l => (.ok v, l)
  | fuel + 1, i, v, l => match l[i]? with
    | none => (.ok v, l)
    | some x => match pyProg (body i v x) l with
      | (.error e, l') => (.error e, l')
      | (.ok (v', true), l') => pyForSelf body fuel (i + 1) v' l'
      | (.ok (v', false), l') => (.ok v', l')

/-- The operation neither adds nor removes items of a list with `n` items. -/
def ListOp.steady {α : Type} (n : Nat) : ListOp α → Prop
  | .set i _ => i ≠ n
  | .len | .get _ | .index _ | .count _ | .contains _ | .eq _ => True
  | _ => False

/-- The program neither adds nor removes items, and stores only values that can be stored. -/
inductive Prog.Steady {σ α : Type} (ok : α → Prop) (n : Nat) : Prog σ α → Prop
  | op {o next} : o.steady n → (∀ v ∈ o.values, ok v) → (∀ r, Steady ok n (next r)) → Steady ok n (.op o next)
  | raises {e} : Steady ok n (.raises e)
  | done {v b} : Steady ok n (.done v b)

/-- `l[i] = f(x)`, as a body. -/
def replaceBody {α : Type} (f : α → α) (i : Nat) (_ : Unit) (x : α) : Prog Unit α := .op (.set i (f x)) (fun r => match r with | .ok _ => .done () true | .error e => .raises e)

/-- `l.remove(x)`, as a body. -/
def removeBody {α : Type} (_ : Unit) (x : α) : Prog Unit α := .op (.remove x) (fun r => match r with | .ok _ => .done () true | .error e => .raises e)
/-- `l.append(f(x))`, as a body. -/
def appendBody {α : Type} (f : α → α) (_ : Unit) (x : α) : Prog Unit α := .op (.append (f x)) (fun r => match r with | .ok _ => .done () true | .error e => .raises e)

end Spec
