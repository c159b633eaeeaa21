import Verif.Basic
/-
The lxml element tree as eulxml sees it.

Not part of /repo: this file states the data model of lxml (`etree._Element`): an element has a tag, ordered
attributes, `text` (the text before the first child), children and a `tail` (the text after its end tag, which
lxml stores with the element).  Comments and processing instructions are children too: `len(node)`, `list(node)`,
`node.index`, `node.insert` count them.  Entity references and CDATA sections are not modelled.
-/
namespace Xml

/-- An expanded name: namespace URI (or none) and local name; lxml writes it `{uri}local`. -/
structure QName where
  ns : Option Str
  loc : Str
  deriving DecidableEq, Repr

inductive Tag where
  | elem (q : QName)
  | comment
  | pi (target : Str)
  deriving DecidableEq, Repr

/-- An lxml node. -/
inductive Node where
  | mk (tag : Tag) (attrs : List (QName × Str)) (text : Option Str) (children : List Node) (tail : Option Str)
  deriving Repr

namespace Node

def tag : Node → Tag
  | .mk t _ _ _ _ => t
def attrs : Node → List (QName × Str)
  | .mk _ a _ _ _ => a
def text : Node → Option Str
  | .mk _ _ t _ _ => t
def children : Node → List Node
  | .mk _ _ _ c _ => c
def tail : Node → Option Str
  | .mk _ _ _ _ t => t

mutual
/-- Structural equality test. -/
def beq : Node → Node → Bool
  | .mk t a x c l, .mk t' a' x' c' l' => t == t' && a == a' && x == x' && beqL c c' && l == l'
def beqL : List Node → List Node → Bool
  | [], [] => true
  | a :: as, b :: bs => a.beq b && beqL as bs
  | _, _ => false
end

mutual
theorem beq_iff : ∀ a b : Node, a.beq b = true ↔ a = b
  | .mk t a x c l, .mk t' a' x' c' l' => by simp [beq, beqL_iff c, and_assoc]
theorem beqL_iff : ∀ as bs : List Node, beqL as bs = true ↔ as = bs
  | [], bs => by cases bs <;> simp [beqL]
  | a :: as, bs => by cases bs <;> simp [beqL, beq_iff a, beqL_iff as]
end

instance : DecidableEq Node := fun a b => decidable_of_iff _ (beq_iff a b)

/-- A fresh element without content: `ElementMaker(namespace=uri)(name)`. -/
def empty (q : QName) : Node := .mk (.elem q) [] none [] none

/-- Is it an element (not a comment or processing instruction)? -/
def isElement (n : Node) : Bool := match n.tag with
  | .elem _ => true
  | _ => false

/-- Is it an element with this name? -/
def isElem (q : QName) (n : Node) : Bool := n.tag == .elem q

/-- `n.text = v`. -/
def setText (v : Option Str) : Node → Node
  | .mk t a _ c l => .mk t a v c l
/-- Replace the children. -/
def withChildren (c : List Node) : Node → Node
  | .mk t a x _ l => .mk t a x c l
/-- Replace the attributes. -/
def withAttrs (a : List (QName × Str)) : Node → Node
  | .mk t _ x c l => .mk t a x c l
/-- `n.tail = v`. -/
def setTail (v : Option Str) : Node → Node
  | .mk t a x c _ => .mk t a x c v

/-- `n.append(c)`; lxml moves the tail of `c` along with it. -/
def append (c : Node) (n : Node) : Node := n.withChildren (n.children ++ [c])

/-- `n.insert(i, c)` for `i ≥ 0`; an index behind the end appends. -/
def insertChild (i : Nat) (c : Node) (n : Node) : Node :=
  n.withChildren (n.children.take i ++ c :: n.children.drop i)

/-- `n.remove(child)` for the child at index `i`: its tail goes with it. -/
def removeChild (i : Nat) (n : Node) : Node := n.withChildren (n.children.eraseIdx i)

/-- `n.get(name)`. -/
def attr? (q : QName) (n : Node) : Option Str := n.attrs.lookup q

/-- Set an attribute in an ordered list: an existing one keeps its place. -/
def setAttrL (q : QName) (v : Str) : List (QName × Str) → List (QName × Str)
  | [] => [(q, v)]
  | (q', v') :: r => if q' = q then (q, v) :: r else (q', v') :: setAttrL q v r

/-- `n.set(name, v)`. -/
def setAttr (q : QName) (v : Str) (n : Node) : Node := n.withAttrs (setAttrL q v n.attrs)

/-- `del n.attrib[name]`, for an attribute that is there. -/
def delAttr (q : QName) (n : Node) : Node := n.withAttrs (n.attrs.filter (fun p => p.1 != q))

/-- `n.clear()`: attributes, text, tail and children are removed. -/
def clear : Node → Node
  | .mk t _ _ _ _ => .mk t [] none [] none

mutual
/-- XPath `string()` of an element: the text of all descendant text nodes in document order; of a comment
or processing instruction: its content. -/
def strVal : Node → Str
  | .mk _ _ x c _ => x.getD [] ++ strValL c
/-- The text contributed by children: string values of elements, and all tails. -/
def strValL : List Node → Str
  | [] => []
  | (.mk t a x c l) :: r =>
    (match t with | .elem _ => strVal (.mk t a x c l) | _ => []) ++ (l.getD [] ++ strValL r)
end

/-- A path of child indices. -/
abbrev Addr := List Nat

/-- The node at an address. -/
def get : Addr → Node → Option Node
  | [], n => some n
  | i :: a, n => match n.children[i]? with
    | some c => get a c
    | none => none

/-- Change the node at an address (nothing happens if there is none). -/
def modify : Addr → (Node → Node) → Node → Node
  | [], f, n => f n
  | i :: a, f, n => n.withChildren (n.children.modify i (modify a f))

end Node
end Xml
