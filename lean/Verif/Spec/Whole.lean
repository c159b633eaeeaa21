import Verif.Forms.Whole
import Verif.Props.FormsetForms
/-
Specification of C90: when a form fits its object together with its formsets, and what it means that everything has been saved.

`FTree.Saved` is that of C85, `keptMembers`, `newMembers`, `counting`, `OrderedBy`, `Apart` those of C88, `FormsFit` that of C89, `LField.Ok` that of C74.
-/
namespace Props
open XPath Xml Spec Fields Forms Core Py

section
variable [PyUnicode] {A : Type}

/-- The formset fits the element `n`: it was made for the list as it is there; forms as in C89, values as in C74 (those that are not dropped). -/
def FSet.Ok (number : Str → XNum) (ctx : Ctx) (n : Node) : FSet A → Prop
  | .nodes f => SimpleField ctx f.xp f.e [.child f.q f.ps] ∧ FormsFit f.o f.data f.q f.ps (members f.q f.ps n) f.new ∧ f.initial = (members f.q f.ps n).length ∧
      (members f.q f.ps n).length ≤ f.subs.length
  | .values f truthy vs _ => f.Ok number ctx ∧ (∀ m ∈ members f.q f.ps n, f.V.fits m) ∧ ∀ v ∈ vs, truthy v = true → f.V.storable v

/-- The formset of objects has been saved, as in C89: of the element `n` with the list it has made `n'`; its form number `i` has made `saved i` of its element. -/
def NodeSet.SavedAs (f : NodeSet A) (saved : Nat → Node) (n n' : Node) : Prop :=
  (∀ i d, f.data[i]? = some d → FTree.Saved (formOf f.o d) (formElem (members f.q f.ps n) f.new i) (saved i)) ∧
  (∀ i, f.data[i]? = none → saved i = formElem (members f.q f.ps n) f.new i) ∧
  (Apart (fun i _ => saved i) f.canDelete (members f.q f.ps n) f.new f.subs →
    (f.canOrder = false → members f.q f.ps n' = keptMembers (fun i _ => saved i) f.canDelete (members f.q f.ps n) f.subs ++ newMembers (fun i _ => saved i) f.new (members f.q f.ps n) f.subs) ∧
    (f.canOrder = true →
      (∀ i ∈ counting f.canDelete (members f.q f.ps n) f.subs, ∀ j ∈ counting f.canDelete (members f.q f.ps n) f.subs, j ≠ i → saved j ≠ saved i) →
      ∃ order : List Nat, order.Perm (counting f.canDelete (members f.q f.ps n) f.subs) ∧ order.Pairwise (OrderedBy f.subs) ∧
        (∀ i j d e, [i, j].Sublist (counting f.canDelete (members f.q f.ps n) f.subs) → f.subs[i]? = some d → f.subs[j]? = some e → d.order = e.order → [i, j].Sublist order) ∧
        members f.q f.ps n' = order.map saved))

/-- The formset has been saved: of the element `n` with the list it has made `n'`.  A formset of objects: as C89.  A formset of values: the list shows those that are not empty. -/
def FSet.Saved (n n' : Node) : FSet A → Prop
  | .nodes f => ∃ saved : Nat → Node, NodeSet.SavedAs f saved n n'
  | .values f truthy vs _ => (members f.q f.ps n').map f.V.item = vs.filter truthy

/-- Elements that C88 requires to be different are different, and no member of the list is like the element of a form that is marked for deletion. -/
def NodeSet.Calm (f : NodeSet A) (saved : Nat → Node) (n n' : Node) : Prop :=
  Apart (fun i _ => saved i) f.canDelete (members f.q f.ps n) f.new f.subs ∧
  (f.canOrder = true → ∀ i ∈ counting f.canDelete (members f.q f.ps n) f.subs, ∀ j ∈ counting f.canDelete (members f.q f.ps n) f.subs, j ≠ i → saved j ≠ saved i) ∧
  ∀ i d, f.subs[i]? = some d → f.canDelete = true → d.deleted = true →
    ∀ m ∈ members f.q f.ps n', m ≠ if f.canOrder = false ∧ d.changed = true then saved i else formElem (members f.q f.ps n) f.new i

/-- The formset has been saved, with `n'`; and saving it again, with `n''`, has not changed the list. -/
def FSet.SavedTwice (n n' n'' : Node) : FSet A → Prop
  | .nodes f => ∃ saved : Nat → Node, NodeSet.SavedAs f saved n n' ∧ (NodeSet.Calm f saved n n' → members f.q f.ps n'' = members f.q f.ps n')
  | .values f truthy vs _ => (members f.q f.ps n').map f.V.item = vs.filter truthy ∧ (members f.q f.ps n'').map f.V.item = vs.filter truthy

/-- The paths of the fields, NodeFields and lists have nothing to do with each other. -/
structure NoOverlap (t : FTree A) (sets : List (FSet A)) : Prop where
  lists : sets.Pairwise (fun x y => Spec.Apart x.q x.ps y.q y.ps)
  tree : ∀ set ∈ sets, ∀ p, FTree.Paths t p → Part p (FSet.path set)

/-- Everything has been saved: the fields of the form, its subforms as in C85, its formsets, and nothing else has changed. -/
def WholeSaved (t : FTree A) (sets : List (FSet A)) (n n' : Node) : Prop := match t with
  | .mk o subs =>
    (∀ i v, Submits o i v → (fieldVal (o.m.fs i) n').map (o.m.show_ i) = .ok (stored v)) ∧
    (∀ i, (∀ v, ¬ Submits o i v) → fieldVal (o.m.fs i) n' = fieldVal (o.m.fs i) n) ∧
    (∀ g ctx, g.Ok ctx → Single g.p n → (∀ p, FTree.Paths (.mk o subs) p → Part p g.p) → (∀ set ∈ sets, Part (FSet.path set) g.p) → fieldVal g n' = fieldVal g n) ∧
    FSubs.Saved subs n n' ∧ ∀ set ∈ sets, FSet.Saved n n' set

/-- After a second update, which has made `n''` of `n'`: only lists may have changed; the subforms are saved; and the lists of the formsets are as they were. -/
def Unchanged (t : FTree A) (sets : List (FSet A)) (n n' n'' : Node) : Prop :=
  (∀ g ctx, g.Ok ctx → Single g.p n' → (∀ set ∈ sets, Part (FSet.path set) g.p) → fieldVal g n'' = fieldVal g n') ∧
  (∀ i, fieldVal ((FTree.own t).m.fs i) n'' = fieldVal ((FTree.own t).m.fs i) n') ∧ FSubs.Saved (FTree.subs t) n n'' ∧
  ∀ set ∈ sets, FSet.SavedTwice n n' n'' set

/-- Django finds the formset valid: the forms that are not to be deleted, and the set as such. -/
def FSet.Valid : FSet A → Prop
  | .nodes f => f.clean = true ∧ ∀ i d, f.subs[i]? = some d → (f.canDelete && d.deleted) = false → f.formValid i = true
  | .values _ _ _ valid => valid = true

/-- No schema has anything against an element of the set. -/
def FSet.NoSchema : FSet A → Prop
  | .nodes f => ∀ n, f.o.schemaValid n = true
  | .values _ _ _ _ => True

end
end Props
