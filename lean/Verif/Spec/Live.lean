import Verif.Spec.Shelf
import Verif.Spec.Local
import Verif.Spec.ListField
/-
Specification of a shelf with things that can be worked on, wherever they are: a thing is a document of its own.
-/
namespace Spec
open Xml XPath Fields

/-- An operation on the shelf, or a program for thing `k`: anything that may be done with an object (given the address of its element, it runs on the document). -/
inductive LiveOp (ρ : Type) where
  | list (op : ShelfOp)
  | obj (k : Nat) (m : Node.Addr → M ρ)

/-- What an operation returns. -/
inductive LiveRes (ρ : Type) where
  | list (r : Except PyErr (Option Nat))
  | obj (r : Except PyErr ρ)

/-- The things on the shelf, and what each thing (there or elsewhere) looks like. -/
structure LiveState where
  order : List Nat
  val : Nat → Node

/-- The things after `k` has become `v`. -/
def becomes (val : Nat → Node) (k : Nat) (v : Node) : Nat → Node := fun j => if j = k then v else val j

/-- A program for thing `k` works on the thing as a document of its own: it does not matter where it is. -/
def live {ρ : Type} (st : LiveState) : LiveOp ρ → LiveRes ρ × LiveState
  | .list op => (.list (shelf st.order op).1, ⟨(shelf st.order op).2, st.val⟩)
  | .obj k m => (.obj (m [] (st.val k)).1, ⟨st.order, becomes st.val k (m [] (st.val k)).2⟩)

/-- A sequence; an exception does not end it. -/
def liveAll {ρ : Type} (st : LiveState) : List (LiveOp ρ) → List (LiveRes ρ) × LiveState
  | [] => ([], st)
  | op :: ops => ((live st op).1 :: (liveAll (live st op).2 ops).1, (liveAll (live st op).2 ops).2)

/-- The operations use things below `N`; the programs are local, and leave a thing that fits the step of the list's XPath. -/
def LiveOk {ρ : Type} (q : QName) (ps : List Pred) (N : Nat) (st : LiveState) : List (LiveOp ρ) → Prop
  | [] => True
  | op :: ops => (match op with
      | .list o => ∀ k ∈ o.things, k < N
      | .obj k m => k < N ∧ LocalProg (fun _ v => v) m ∧ isMember q ps (m [] (st.val k)).2 = true) ∧
    LiveOk q ps N (live st op).2 ops

end Spec
