import Verif.Spec.Record
import Mathlib.Logic.Function.Basic
/-
Specification: an element that holds a text and attributes, seen through fields for its text and for its attributes.
-/
namespace Spec
open Xml XPath

/-- An element without children: its text and its attributes. -/
structure Elem where
  text : Str
  attrs : QName → Option Str

/-- The attributes that an element has which is made for a step with these predicates: `[@x='1']` makes the attribute with the value, `[@x]` an empty one. -/
def required : List Pred → QName → Option Str
  | [], _ => none
  | .attr q' cmp :: ps, q => (required ps q).or (if q = q' then some ((cmp.map litText).getD []) else none)
  | _ :: ps, q => required ps q

/-- The predicates of the last step. -/
def lastPreds (p : List Step) : List Pred := (p.getLast?.map Step.preds).getD []

/-- The element that is made when the path selects nothing. -/
def Elem.new (p : List Step) : Elem := ⟨[], required (lastPreds p)⟩

/-- What a field shows of the element: its text, or an attribute. -/
inductive Sub where
  | text
  | attr (x : QName)

/-- The step from the element to what the field shows. -/
def Sub.path : Sub → List Step
  | .text => []
  | .attr x => [.attr x]

/-- A text is assigned: the element is made if it is missing. -/
def Sub.put (p : List Step) (t : Str) (c : Option Elem) : Sub → Elem
  | .text => { c.getD (Elem.new p) with text := t }
  | .attr x => { c.getD (Elem.new p) with attrs := Function.update (c.getD (Elem.new p)).attrs x (some t) }

/-- The element has no attributes but those which the predicates require with a value.  Its text does not count. -/
def Elem.Vacant (p : List Step) (e : Elem) : Prop := ∀ q, e.attrs q ≠ none → q ∈ eqAttrs (lastPreds p)

/-- The element without an attribute. -/
def Elem.without (e : Elem) (x : QName) : Elem := { e with attrs := Function.update e.attrs x none }

open Classical in
/-- The field is deleted: with the text the element goes, and all its attributes; with an attribute the element goes (and its text) if it has no attribute left but those of the predicates. -/
noncomputable def Sub.drop (p : List Step) : Sub → Option Elem → Option Elem
  | .text, _ => none
  | .attr _, none => none
  | .attr x, some e => if e.attrs x = none then some e else if (e.without x).Vacant p then none else some (e.without x)

/-- The element (or attribute) that the path selects first in `n`. -/
def cellOf (p : List Step) (n : Node) : Option Elem := (Step.matches p n).head?.map (fun r =>
  ⟨(refText n r).getD [], fun q => if r = .elem r.addr then (n.get r.addr).bind (Node.attr? q) else none⟩)

end Spec
