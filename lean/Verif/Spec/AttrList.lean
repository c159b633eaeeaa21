import Verif.Spec.Field
import Verif.Spec.PyList
/-
Specification of C105: list fields whose XPath ends in an attribute.
-/
namespace Spec
open Xml XPath

/-- The values of the attribute `q` of the elements that the child steps select, in document order. -/
def attrsAt : List Step → QName → Node → List Str
  | [], q, n => (n.attr? q).toList
  | .child q' ps :: r, q, n => n.children.flatMap (fun c => if c.isElem q' && satAll ps c then attrsAt r q c else [])
  | _, _, _ => []

/-- The document without the values of these attributes: all are replaced by the empty string. -/
def wiped : List Step → QName → Node → Node
  | [], q, n => if (n.attr? q).isSome then n.setAttr q [] else n
  | .child q' ps :: r, q, n => n.withChildren (n.children.map (fun c => if c.isElem q' && satAll ps c then wiped r q c else c))
  | _, _, n => n

/-- A predicate about another attribute than `q`. -/
def Pred.notAbout (q : QName) : Pred → Bool
  | .attr q' _ => q' != q
  | _ => false

/-- The predicates are about attributes, those of the last step not about `q`: which elements are selected does not depend on the values of the attributes in the list. -/
def keepsAttr : List Step → QName → Bool
  | [], _ => true
  | [.child _ ps], q => ps.all (Pred.notAbout q)
  | .child _ ps :: r, q => attrOnly ps && keepsAttr r q
  | _, _ => false

/-- A list that cannot change its length: an operation that would do this is a `TypeError`; else it is a Python list. -/
def fixedList {α} [DecidableEq α] (l : List α) (op : ListOp α) : Except PyErr (ListRes α) × List α :=
  if (pyList l op).2.length = l.length then pyList l op else (.error .typeError, l)

/-- A sequence of operations; an exception does not end it. -/
def fixedListAll {α} [DecidableEq α] (l : List α) : List (ListOp α) → List (Except PyErr (ListRes α)) × List α
  | [] => ([], l)
  | op :: ops => ((fixedList l op).1 :: (fixedListAll (fixedList l op).2 ops).1, (fixedListAll (fixedList l op).2 ops).2)

end Spec
