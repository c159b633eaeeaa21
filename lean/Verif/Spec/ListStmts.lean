import Verif.Spec.PyList
/-
Statements about one list: its operations, assigning the whole list, deleting it.
-/
namespace Spec

/-- A statement: `l.op(…)`, `obj.l = values`, `del obj.l`. -/
inductive ListStmt (α : Type)
  | op (o : ListOp α)
  | assign (values : List α)
  | delete

namespace ListStmt
variable {α : Type}

/-- What the statement does to a Python list: its result, and the list afterwards. -/
def python [DecidableEq α] (l : List α) : ListStmt α → Except PyErr (ListRes α) × List α
  | .op o => pyList l o
  | .assign vs => (.ok .unit, vs)
  | .delete => (.ok .unit, [])

/-- One statement after the other; exceptions are caught. -/
def pythonAll [DecidableEq α] (l : List α) : List (ListStmt α) → List (Except PyErr (ListRes α)) × List α
  | [] => ([], l)
  | x :: xs => ((python l x).1 :: (pythonAll (python l x).2 xs).1, (pythonAll (python l x).2 xs).2)

/-- No insertion at a negative index, and values that can be stored. -/
def allowed (storable : α → Prop) : ListStmt α → Prop
  | .op o => o.supported = true ∧ ∀ v ∈ o.values, storable v
  | .assign vs => ∀ v ∈ vs, storable v
  | .delete => True

end ListStmt
end Spec
