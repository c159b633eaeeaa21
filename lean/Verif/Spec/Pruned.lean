import Verif.Spec.Delete
/-
Specification: what an element holds besides the things that predicates require with a value.
-/
namespace Spec
open Xml

/-- The predicate ends in a comparison with a value: `@x='1'`, `b='x'`, `b/@k='v'`, but not `@x` or `b/c`. -/
def Pred.valued : Pred → Bool
  | .attr _ cmp => cmp.isSome
  | .here cmp => cmp.isSome
  | .child _ _ rest => rest.valued

/-- What the predicates of an element that end in a value say about its children named `q`: `b[ps]/rest` requires `ps` and `rest` of a child `b`. -/
def inner (ps : List Pred) (q : QName) : List Pred := ps.flatMap (fun p => match p with
  | .child q' ps' rest => if q' = q ∧ rest.valued = true then rest :: ps' else []
  | _ => [])

/-- The names of children that the predicates require with a value. -/
def innerNames (ps : List Pred) : List QName := ps.filterMap (fun p => match p with
  | .child q _ rest => if rest.valued = true then some q else none
  | _ => none)

mutual
/-- `Pruned ps m m'`: the element `m'` is `m` without some of the things that the predicates `ps` require with a value: attributes that they name; children that they name and
that hold nothing but what the predicates require of them; and such things inside of children that they name. -/
inductive Pruned : List Pred → Node → Node → Prop
  | mk {ps m m'} (tag : m'.tag = m.tag) (text : m'.text = m.text) (tail : m'.tail = m.tail) (attrs : m'.attrs.Sublist m.attrs)
      (gone : ∀ a ∈ m.attrs, a ∉ m'.attrs → a.1 ∈ eqAttrs ps) (children : PrunedL ps m.children m'.children) : Pruned ps m m'
/-- The same for the lists of children. -/
inductive PrunedL : List Pred → List Node → List Node → Prop
  | nil {ps} : PrunedL ps [] []
  | same {ps c cs cs'} (rest : PrunedL ps cs cs') : PrunedL ps (c :: cs) (c :: cs')
  | inside {ps q c c' cs cs'} (name : c.isElem q = true) (known : q ∈ innerNames ps) (child : Pruned (inner ps q) c c') (rest : PrunedL ps cs cs') :
      PrunedL ps (c :: cs) (c' :: cs')
  | drop {ps q c c' cs cs'} (name : c.isElem q = true) (known : q ∈ innerNames ps) (child : Pruned (inner ps q) c c') (attrs : c'.attrs = [])
      (children : c'.children = []) (rest : PrunedL ps cs cs') : PrunedL ps (c :: cs) cs'
end

/-- The element has no attributes and children but such that the predicates require with a value (and they hold nothing else).  Text does not count. -/
def Leftover (ps : List Pred) (m : Node) : Prop := ∃ m', Pruned ps m m' ∧ m'.attrs = [] ∧ m'.children = []

/-- The element at `d` without its child on the way to `b`. -/
def without (b d : Node.Addr) (m : Node) : Node := match b[d.length]? with
  | some i => m.removeChild i
  | none => m

/-- The predicate's path ends at an element, not at an attribute. -/
def Pred.onElem : Pred → Bool
  | .attr _ _ => false
  | .here _ => true
  | .child _ _ rest => rest.onElem

mutual
/-- No predicate compares an attribute of a child (`b/@k='v'`), at any level. -/
def Pred.steady : Pred → Bool
  | .attr _ _ => true
  | .here _ => true
  | .child _ ps rest => rest.onElem && steadyAll ps && rest.steady
/-- The same for a list of predicates. -/
def steadyAll : List Pred → Bool
  | [] => true
  | p :: ps => p.steady && steadyAll ps
end

/-- The path of a predicate. -/
def Pred.steps : Pred → List Step
  | .attr q _ => [.attr q]
  | .here _ => []
  | .child q ps rest => .child q ps :: rest.steps

mutual
/-- What is created for the predicate is recognised by it alone: it ends in a value, so do all predicates in it, and in `b[ps]/rest` the predicates `ps` do not speak about the first step of `rest`. -/
def Pred.undoable : Pred → Bool
  | .attr _ cmp => cmp.isSome
  | .here cmp => cmp.isSome
  | .child _ ps rest => undoAll ps && nextOk ps rest.steps && rest.undoable
/-- The same for a list of predicates. -/
def undoAll : List Pred → Bool
  | [] => true
  | p :: ps => p.undoable && undoAll ps
end

/-- The elements on the path that are there already (first matches of prefixes) hold something besides what the predicates require. -/
def NotLeftover (p : List Step) (n : Node) : Prop := ∀ i st b m, p[i]? = some st →
  (Step.matches (p.take (i + 1)) n).head? = some (.elem b) → n.get b = some m → ¬ Leftover st.preds m

end Spec
