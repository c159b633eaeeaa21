import Verif.Spec.Local
/-
Specification: several clients, each with an XmlObject of its own for an element of one document, whose statements are executed in any order.
-/
namespace Spec
open Xml Fields

/-- A program of statements through one object: each statement is run for the object's element, and the program goes on depending on what the statement returned or raised.  At the end it has a result. -/
inductive Client (ρ : Type) : Type 1 where
  | done (x : ρ)
  | ask {α : Type} (m : Node.Addr → M α) (k : Except PyErr α → Client ρ)

/-- All the statements that the client can come to are local to the object's element (C111). -/
inductive Client.Local {ρ : Type} : Client ρ → Prop where
  | done (x : ρ) : Local (.done x)
  | ask {α : Type} {m : Node.Addr → M α} {k : Except PyErr α → Client ρ} (h : LocalProg (fun _ v => v) m) (hk : ∀ r, Local (k r)) : Local (.ask m k)

/-- The client executes its next statement, if there is one. -/
def Client.turn {ρ : Type} (a : Node.Addr) : Client ρ → Node → Client ρ × Node
  | .done x, s => (.done x, s)
  | .ask m k, s => (k (m a s).1, (m a s).2)

/-- Several clients, with their elements at `as`, execute their statements in the order given by a schedule (whose turn it is). -/
def serve {ι ρ : Type} [DecidableEq ι] (as : ι → Node.Addr) : List ι → (ι → Client ρ) → Node → (ι → Client ρ) × Node
  | [], ps, s => (ps, s)
  | i :: l, ps, s => serve as l (fun j => if j = i then ((ps i).turn (as i) s).1 else ps j) ((ps i).turn (as i) s).2

/-- One client with a document to itself, that consists of its element: its first `k` statements. -/
def Client.alone {ρ : Type} : Nat → Client ρ → Node → Client ρ × Node
  | 0, p, n => (p, n)
  | k + 1, p, n => alone k (p.turn [] n).1 (p.turn [] n).2

/-- No element is inside of another one, or the same. -/
def Separate {ι : Type} (as : ι → Node.Addr) : Prop := ∀ i j, i ≠ j → ¬ as i <+: as j

end Spec
