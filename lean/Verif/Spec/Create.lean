import Verif.Spec.SimplePath
import Verif.XPath.Serialize
/-
Specification: the nodes that have to be created for a simple path, and where.
-/
namespace Spec
open Xml XPath

/-- The text that makes a comparison with the literal true. -/
def litText : Lit → Str
  | .str s => s
  | .num n => natStr n

mutual
/-- Add to an element what a predicate requires: an attribute (empty if no value is required), or a child with what its
own predicates and the rest of the path require. -/
def Pred.build : Pred → Node → Node
  | .attr q cmp, n => n.setAttr q ((cmp.map litText).getD [])
  | .here cmp, n => match cmp with
    | some v => n.setText (some (litText v))
    | none => n
  | .child q ps rest, n => Node.append (rest.build (buildAll ps (Node.empty q))) n
/-- Add what all predicates of a step require, in order. -/
def buildAll : List Pred → Node → Node
  | [], n => n
  | p :: ps, n => buildAll ps (p.build n)
end

/-- A new element for a step. -/
def newElem (q : QName) (ps : List Pred) : Node := buildAll ps (Node.empty q)

/-- Add a chain of new nodes for the steps to an element, and apply `k` to the element that the chain ends in (for an
attribute: to the element that carries it; for `text()`: to its parent). -/
def buildPath : List Step → (Node → Node) → Node → Node
  | [], k, n => k n
  | .child q ps :: r, k, n => Node.append (buildPath r k (newElem q ps)) n
  | .attr q :: _, k, n => k (n.setAttr q [])
  | .text :: _, k, n => k n

/-- Where the longest prefix of the path of at most `j` steps that matches something matches first, and the remaining
steps. -/
def place (path : List Step) (n : Node) : Nat → Node.Addr × List Step
  | 0 => ([], path)
  | j + 1 => match (Step.matches (path.take (j + 1)) n).head? with
    | some (.elem b) => (b, path.drop (j + 1))
    | _ => place path n j

/-- The element under which nodes are missing, and the missing steps: the first match of the longest existing proper
prefix. -/
def missing (path : List Step) (n : Node) : Node.Addr × List Step := place path n (path.length - 1)

/-- Write a string to the end of a path: element text, attribute, or text. -/
def writeLast (path : List Step) (v : Str) : Node → Node := match path.getLast? with
  | some (.attr q) => Node.setAttr q v
  | _ => Node.setText (some v)

/-- What writing the string `v` to a field does to the element: overwrite the first match if there is one; else create
exactly the missing steps at the end of the first match of the longest existing prefix, with `v` at the end. -/
def write (path : List Step) (v : Str) (n : Node) : Node :=
  match (Step.matches path n).head? with
  | some r => n.modify r.addr (writeLast path v)
  | none => n.modify (missing path n).1 (buildPath (missing path n).2 (writeLast path v))

/-- The text of a node reference: string value of an element, value of an attribute, content of a text node. -/
def refText (doc : Node) : Ref → Option Str
  | .elem a => (doc.get a).map Node.strVal
  | .attr a q => (doc.get a).bind (Node.attr? q)
  | .text a => (doc.get a).bind Node.text
  | .tail a => (doc.get a).bind Node.tail

/-- A string can be written: an existing match is an attribute, a text node in front of all children, or an element
without children; for a missing `text()`, the element that should get the text has no children. -/
def Writable (path : List Step) (n : Node) : Prop :=
  match (Step.matches path n).head? with
  | some (.elem b) => ∀ m, n.get b = some m → m.children = []
  | some (.tail _) => False
  | some _ => True
  | none => (missing path n).2 = [.text] → ∀ m, n.get (missing path n).1 = some m → m.children = []

end Spec
