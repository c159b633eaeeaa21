import Verif.Spec.ListField
import Verif.Spec.PyList
import Verif.Spec.RefEngine
/-
Specification: XPaths that select elements by what is on the way to them: names and attributes of the elements on the path from the object's element down to the selected one.
Child steps with names or `*` and attribute predicates, joined by `/` and `//`, starting with `.` or not, and unions of such paths.
-/
namespace Spec
open Xml XPath

/-- What such a path can see of an element. -/
structure Label where
  tag : Tag
  attrs : List (QName × Str)

/-- The label of an element. -/
def label (n : Node) : Label := ⟨n.tag, n.attrs⟩

/-- Which sequences of labels, from the children of the object's element down, lead to a selected element. -/
abbrev Lang := List Label → Bool

/-- The rest of a path behind an element. -/
def Lang.after (P : Lang) (l : Label) : Lang := fun w => P (l :: w)

/-! ### what an XPath selects -/

/-- One step with this test. -/
def Lang.one (test : Label → Bool) : Lang
  | [l] => test l
  | _ => false

/-- `P/Q`: a way of `P` and then one of `Q`. -/
def Lang.seq (P Q : Lang) : Lang := fun w => (List.range (w.length + 1)).any (fun i => P (w.take i) && Q (w.drop i))

/-- Any way. -/
def Lang.any : Lang := fun _ => true

/-- The name test of a child step: a name, `*` or `p:*`. -/
def nameTest (ctx : Ctx) (pfx : Option Str) (nm : Str) : Option (Tag → Bool) :=
  if nm = c%"*" then match pfx with
    | none => some (fun t => match t with
      | .elem _ => true
      | _ => false)
    | some p => match ctx.namespaces with
      | some nss => match nss.lookup p with
        | some uri => some (fun t => match t with
          | .elem q => q.ns == some uri
          | _ => false)
        | none => none
      | none => none
  else match resName ctx pfx nm with
    | some q => some (fun t => t == .elem q)
    | none => none

/-- The meaning of an XPath of this kind.  (`//.` selects texts and comments too; it is left out.) -/
def lang (ctx : Ctx) : Expr → Option Lang
  | .abbrev false => some (fun w => w.isEmpty)
  | .step ax (.name pfx nm) ps =>
    if ax = none ∨ ax = some c%"child" then
      match nameTest ctx pfx nm, resPreds ctx ps with
      | some test, some l => if attrOnly l then some (.one (fun x => test x.tag && satAll l (.mk x.tag x.attrs none [] none))) else none
      | _, _ => none
    else none
  | .binary l .slash r => match lang ctx l, lang ctx r with
    | some P, some Q => some (P.seq Q)
    | _, _ => none
  | .binary l .dslash r => match lang ctx l, lang ctx r with
    | some P, some Q => if Q [] then none else some (P.seq (Lang.any.seq Q))
    | _, _ => none
  | .binary l .union r => match lang ctx l, lang ctx r with
    | some P, some Q => some (fun w => P w || Q w)
    | _, _ => none
  | _ => none

/-! ### selected elements -/

mutual
/-- The places of the selected descendants of an element, in document order. -/
def found (P : Lang) : Node → List Node.Addr
  | .mk _ _ _ c _ => foundL P 0 c
/-- The same for a list of children, the first of which has the index `i`. -/
def foundL (P : Lang) : Nat → List Node → List Node.Addr
  | _, [] => []
  | i, c :: cs => (if P [label c] then [[i]] else []) ++ ((found (P.after (label c)) c).map (fun b => i :: b) ++ foundL P (i + 1) cs)
end

mutual
/-- The selected descendants of an element, in document order. -/
def inside (P : Lang) : Node → List Node
  | .mk _ _ _ c _ => insideL P c
def insideL (P : Lang) : List Node → List Node
  | [] => []
  | c :: cs => (if P [label c] then [c] else []) ++ (inside (P.after (label c)) c ++ insideL P cs)
end

mutual
/-- What is left of an element if all selected descendants are taken out. -/
def around (P : Lang) : Node → Node
  | .mk t a x c l => .mk t a x (aroundL P c) l
def aroundL (P : Lang) : List Node → List Node
  | [] => []
  | c :: cs => if P [label c] then aroundL P cs else around (P.after (label c)) c :: aroundL P cs
end

mutual
/-- No selected element is inside of another one. -/
def Scattered (P : Lang) : Node → Prop
  | .mk _ _ _ c _ => ScatteredL P c
def ScatteredL (P : Lang) : List Node → Prop
  | [] => True
  | c :: cs => (P [label c] = true → inside (P.after (label c)) c = []) ∧ Scattered (P.after (label c)) c ∧ ScatteredL P cs
end

/-- What the theorems assume of the XPath engine: such a path selects, from any element, the elements on a way of its language, in document order (if it does not select
the element itself). -/
def SearchOk (eng : Engine) : Prop :=
  ∀ (ctx : Ctx) (s : Str) (e : Expr) (P : Lang) (doc n : Node) (a : Node.Addr),
    parse0 s = .ok e → lang ctx e = some P → P [] = false → doc.get a = some n →
    eng.xpath s doc a ctx = .ok (.nodes ((found P n).map (fun b => .elem (a ++ b))))

/-- The reference engine for such paths. -/
def searchEngine : Engine where
  xpath s doc a ctx := match parse0 s, doc.get a with
    | .ok e, some n => match lang ctx e with
      | some P => .ok (.nodes ((found P n).map (fun b => .elem (a ++ b))))
      | none => .error .xpathError
    | _, _ => .error .xpathError

theorem searchEngine_ok : SearchOk searchEngine := by
  intro ctx s e P doc n a hp hr _ hn
  simp only [searchEngine, hp, hn, hr]

/-! ### lists of fixed length -/

/-- A Python list to which nothing can be added: where an item would be added there is an exception, and the list stays as it is. -/
def fixedOp {α} [DecidableEq α] (l : List α) : ListOp α → Except PyErr (ListRes α) × List α
  | .append _ => (.error .exception, l)
  | .extend vs => if vs = [] then (.ok .unit, l) else (.error .exception, l)
  | .insert i _ => if i = l.length ∨ (pos l.length i).isSome = true then (.error .exception, l) else (.error .indexError, l)
  | .set i v => if i = l.length then (.error .exception, l) else pyList l (.set i v)
  | op => pyList l op

/-- A sequence of operations; an exception does not end it. -/
def fixedOps {α} [DecidableEq α] (l : List α) : List (ListOp α) → List (Except PyErr (ListRes α)) × List α
  | [] => ([], l)
  | op :: ops => ((fixedOp l op).1 :: (fixedOps (fixedOp l op).2 ops).1, (fixedOps (fixedOp l op).2 ops).2)

/-- Is the last operation of the XPath a union or `//`?  eulxml cannot create elements for these. -/
def refuses : Expr → Bool
  | .binary _ .union _ => true
  | .binary _ .dslash _ => true
  | _ => false

end Spec
