import Verif.XmlMap.TreeLemmas
import Verif.Forms.Tree
import Verif.Props.Nested
/-
Specification of C85: when forms fit together and fit an element, and what it means that they have been saved.

`Single` (Verif/Spec/Frame.lean), `Tidy` (Verif/Spec/Record.lean), `Part`, `RField.Ok` and `RField.Keeps` are those of C69; `Assigns` and `stored` those of C49; `newAt` is the new
element that C21 makes for a path.
-/
namespace Props
open XPath Xml Spec Fields Core Forms Py

section
variable [PyUnicode] {A : Type}

/-- What a form knows fits together: fields as in C69, names without dots, and data of the right kind. -/
structure OwnOk {A : Type} (o : Own A) : Prop where
  field : ∀ i, (o.m.fs i).Ok o.ctx
  part : ∀ i j, i ≠ j → Part (o.m.fs i).p (o.m.fs j).p
  names : ∀ x ∈ o.modelNames, '.' ∉ x
  data : ∃ c, o.cleaned = some c ∧ ∀ x v, c.get? x = some v → ∃ i, o.m.name i = x ∧ o.m.Keeps i (stored v)

/-- The form assigns to the field, and the submitted value is `v`. -/
def Submits {A : Type} (o : Own A) (i : o.m.ι) (v : CVal A) : Prop :=
  Assigns o.fields o.exclude o.modelNames (o.m.name i) ∧ ∃ c, o.cleaned = some c ∧ c.get? (o.m.name i) = some v

/-- A NodeField as in C84: a simple path of child steps, with attribute predicates only. -/
def HopOk (h : Hop) : Prop := SimpleField h.ctx h.xp h.e h.p ∧ attrPreds h.p = true ∧ allChild h.p = true

/-- The root of a tree of forms. -/
def FTree.own : FTree A → Own A | .mk o _ => o
/-- The subforms of the root. -/
def FTree.subs : FTree A → FSubs A | .mk _ l => l

/-- One of the subforms is for a NodeField with this path. -/
def FSubs.Has (p : List Step) : FSubs A → Prop
  | .nil => False
  | .cons h _ _ rest => p = h.p ∨ FSubs.Has p rest

/-- The paths of the fields of the form. -/
def FieldPath (o : Own A) (q : List Step) : Prop := ∃ i, q = (o.m.fs i).p

mutual
/-- The forms fit together: fields and NodeFields as in C84, and data of the right kind. -/
def FTree.Ok (t : FTree A) : Prop := match t with
  | .mk o subs => OwnOk o ∧ FSubs.Ok subs (FieldPath o)
def FSubs.Ok (l : FSubs A) (M : List Step → Prop) : Prop := match l with
  | .nil => True
  | .cons h _ f rest => HopOk h ∧ (∀ q, M q → Part q h.p) ∧ (∀ q, FSubs.Has q rest → Part h.p q) ∧ (∀ i, pathOk (h.p ++ ((FTree.own f).m.fs i).p) = true) ∧
      FTree.Ok f ∧ FSubs.Ok rest M
end

/-- The paths of the fields and NodeFields of a form. -/
def FTree.Paths (t : FTree A) (p : List Step) : Prop := FieldPath (FTree.own t) p ∨ FSubs.Has p (FTree.subs t)

mutual
/-- The NodeFields of the subforms, at any depth, have one step, without predicates. -/
def FTree.Plain (t : FTree A) : Prop := match t with
  | .mk _ subs => FSubs.Plain subs
def FSubs.Plain (l : FSubs A) : Prop := match l with
  | .nil => True
  | .cons h _ f rest => (∃ q, h.p = [.child q []]) ∧ FTree.Plain f ∧ FSubs.Plain rest
end

mutual
/-- Django finds the data of all the forms valid. -/
def FTree.AllValid (t : FTree A) : Prop := match t with
  | .mk o subs => o.valid = true ∧ FSubs.AllValid subs
def FSubs.AllValid (l : FSubs A) : Prop := match l with
  | .nil => True
  | .cons _ _ f rest => FTree.AllValid f ∧ FSubs.AllValid rest
end

mutual
/-- No schema has anything against any element. -/
def FTree.NoSchema (t : FTree A) : Prop := match t with
  | .mk o subs => (∀ n, o.schemaValid n = true) ∧ FSubs.NoSchema subs
def FSubs.NoSchema (l : FSubs A) : Prop := match l with
  | .nil => True
  | .cons _ _ f rest => FTree.NoSchema f ∧ FSubs.NoSchema rest
end

mutual
/-- Nothing has been submitted for the form and the subforms: all values of fields are to be removed. -/
def FTree.Null (t : FTree A) : Prop := match t with
  | .mk o subs => (∀ i v w, Submits o i v → o.m.take i (stored v) = some w → (o.m.fs i).toXml w = .ok none) ∧ FSubs.Null subs
def FSubs.Null (l : FSubs A) : Prop := match l with
  | .nil => True
  | .cons _ _ f rest => FTree.Null f ∧ FSubs.Null rest
end

mutual
/-- No element of a subform has been removed from the document. -/
def FTree.New (t : FTree A) : Prop := match t with
  | .mk _ subs => FSubs.New subs
def FSubs.New (l : FSubs A) : Prop := match l with
  | .nil => True
  | .cons _ out f rest => out = none ∧ FTree.New f ∧ FSubs.New rest
end

/-- What the field of the object with this element reads. -/
def fieldVal (f : RField) (n : Node) : Except PyErr f.V := f.toPython ((Step.matches f.p n).head?.bind (seen n))

/-- The element of the object that a NodeField with this path reads. -/
def subElem (p : List Step) (n : Node) : Option Node := match (Step.matches p n).head? with
  | some (.elem b) => n.get b
  | _ => none

mutual
/-- The elements are fit for the forms: single-value fields and NodeFields find at most one node at each step. -/
def FTree.Fits (t : FTree A) (n : Node) : Prop := match t with
  | .mk o subs => Tidy o.m.fs n ∧ FSubs.Fits subs n
def FSubs.Fits (l : FSubs A) (n : Node) : Prop := match l with
  | .nil => True
  | .cons h _ f rest => Single h.p n ∧ (∀ m, subElem h.p n = some m → FTree.Fits f m) ∧ FSubs.Fits rest n
end

mutual
/-- The forms have been saved: of the element `n` they have made `n'`.
Each field that the form assigns to reads the submitted value (nothing, for the empty string), each other field, and whatever else there is, what it read before.  A subform
has been saved on the object that its NodeField read, or on a new one; and this is what its NodeField now reads, unless it is empty: then it is not there.  In particular (if NodeFields have one step, without predicates), if the object was not there, and nothing has been
submitted for it and whatever is in it, it is still not there. -/
def FTree.Saved (t : FTree A) (n n' : Node) : Prop := match t with
  | .mk o subs =>
    (∀ i v, Submits o i v → (fieldVal (o.m.fs i) n').map (o.m.show_ i) = .ok (stored v)) ∧
    (∀ i, (∀ v, ¬ Submits o i v) → fieldVal (o.m.fs i) n' = fieldVal (o.m.fs i) n) ∧
    (∀ g ctx, g.Ok ctx → Single g.p n → (∀ i, Part (o.m.fs i).p g.p) → (∀ q, FSubs.Has q subs → Part q g.p) → fieldVal g n' = fieldVal g n) ∧
    FSubs.Saved subs n n'
def FSubs.Saved (l : FSubs A) (n n' : Node) : Prop := match l with
  | .nil => True
  | .cons h _ f rest => (∃ m', FTree.Saved f ((subElem h.p n).getD (newAt h.p)) m' ∧ subElem h.p n' = if isEmpty m' then none else some m') ∧
      (subElem h.p n = none → (∃ q, h.p = [.child q []]) → FTree.Plain f → FTree.Null f → subElem h.p n' = none) ∧ FSubs.Saved rest n n'
end

end
end Props
