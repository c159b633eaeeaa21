import Verif.Xml.Engine
import Verif.XPath.Parser
/-
Specification of the XPath fragment in which eulxml creates nodes: relative paths of child steps with name tests,
ending in an element, an attribute or `text()`, with predicates that are such paths, optionally compared by `=` with
a literal, an integer or a variable.

This file says what such a path means (XPath 1.0), independently of the code in eulxml/xmlmap/fields.py.
-/
namespace Spec
open Xml XPath

/-- A predicate: `attr q cmp` is `@q` or `@q=cmp`; `child q ps rest` is `q[ps]/rest`; `here cmp` ends a path, with the
comparison of the reached element if there is one. -/
inductive Pred where
  | attr (q : QName) (cmp : Option Lit)
  | here (cmp : Option Lit)
  | child (q : QName) (ps : List Pred) (rest : Pred)
  deriving Repr

/-- A step of a path. -/
inductive Step where
  | child (q : QName) (ps : List Pred)
  | attr (q : QName)
  | text
  deriving Repr

/-! ### Meaning -/

/-- XML white space. -/
def isXmlWs (c : Char) : Bool := c == ' ' || c == '\t' || c == '\n' || c == '\r'

/-- Remove leading and trailing white space. -/
def strip (s : Str) : Str := ((s.dropWhile isXmlWs).reverse.dropWhile isXmlWs).reverse

/-- XPath `number(s)`: optional `-`, digits with an optional fraction, or `.` and digits (XPath 1.0 section 4.4). -/
def xpathNumber (s : Str) : XNum :=
  let s := strip s
  let neg := s.head? == some '-'
  let s := if neg then s.drop 1 else s
  let ip := s.takeWhile isDigit
  let rest := s.drop ip.length
  match rest with
  | [] => if ip = [] then .nan else .dec neg (digitsVal ip) 0
  | c :: fs =>
    if c = '.' ∧ fs.all isDigit = true ∧ (ip ≠ [] ∨ fs ≠ []) then .dec neg (digitsVal (ip ++ fs)) fs.length
    else .nan

/-- Does the number equal the natural number `n`? -/
def numEq : XNum → Nat → Bool
  | .dec neg m k, n => m == n * 10 ^ k && (!neg || m == 0)
  | _, _ => false

/-- `string-value = literal`: string comparison, or numeric comparison with a number. -/
def cmpTest : Option Lit → Str → Bool
  | none, _ => true
  | some (.str v), s => s == v
  | some (.num n), s => numEq (xpathNumber s) n

mutual
/-- Does the predicate hold at a node?  (Existential semantics of node sets.) -/
def Pred.sat : Pred → Node → Bool
  | .attr q cmp, n => match n.attr? q with
    | some v => cmpTest cmp v
    | none => false
  | .here cmp, n => cmpTest cmp n.strVal
  | .child q ps rest, n => n.children.any (fun c => c.isElem q && satAll ps c && rest.sat c)
/-- All predicates of a step hold. -/
def satAll : List Pred → Node → Bool
  | [], _ => true
  | p :: ps, n => p.sat n && satAll ps n
end

/-- Tails of the children: text nodes after each child. -/
def tailRefs (cs : List Node) : List Ref :=
  (cs.mapIdx (fun i c => if c.tail.isSome then [Ref.tail [i]] else [])).flatten

/-- The nodes a path selects from a context element, in document order. -/
def Step.matches : List Step → Node → List Ref
  | [], _ => [.elem []]
  | .child q ps :: r, n =>
    (n.children.mapIdx (fun i c => if c.isElem q && satAll ps c then (Step.matches r c).map (Ref.under [i]) else [])).flatten
  | .attr q :: r, n => if r.isEmpty && (n.attr? q).isSome then [.attr [] q] else []
  | .text :: r, n => if r.isEmpty then (if n.text.isSome then [.text []] else []) ++ tailRefs n.children else []

/-! ### Reading the fragment off an AST -/

/-- The expanded name of a name test, if it is not a wildcard and its prefix (if any) is declared. -/
def resName (ctx : Ctx) (pfx : Option Str) (nm : Str) : Option QName :=
  if nm = c%"*" then none
  else match pfx with
    | none => some ⟨none, nm⟩
    | some [] => some ⟨none, nm⟩
    | some p => match ctx.namespaces with
      | some nss => match nss.lookup p with
        | some uri => some ⟨some uri, nm⟩
        | none => none
      | none => none

/-- The literal on the right of a comparison. -/
def resLit (ctx : Ctx) : Expr → Option Lit
  | .lit s => if xmlOk s then some (.str s) else none
  | .int n => some (.num n)
  | .var none nm => match ctx.vars.lookup nm with
    | some (.str s) => if xmlOk s then some (.str s) else none
    | some (.num n) => some (.num n)
    | none => none
  | _ => none

/-- A path as a predicate. -/
def toPred : List Step → Option Lit → Option Pred
  | [], cmp => some (.here cmp)
  | .attr q :: r, cmp => if r.isEmpty then some (.attr q cmp) else none
  | .child q ps :: r, cmp => match toPred r cmp with
    | some p => some (.child q ps p)
    | none => none
  | .text :: _, _ => none

mutual
/-- The path (and comparison) denoted by an AST of the fragment.  Attributes called `text` are left out (see
`C12_counterexample_attribute_named_text`). -/
def res (ctx : Ctx) : Expr → Option (List Step × Option Lit)
  | .step ax (.name pfx nm) ps =>
    if ax = none ∨ ax = some c%"child" then
      match resName ctx pfx nm, resPreds ctx ps with
      | some q, some l => some ([.child q l], none)
      | _, _ => none
    else if ax = some c%"@" ∨ ax = some c%"attribute" then
      if ps.isEmpty && nm != c%"text" then
        match resName ctx pfx nm with
        | some q => some ([.attr q], none)
        | none => none
      else none
    else none
  | .step ax (.type nm lit) ps =>
    if (ax = none ∨ ax = some c%"child") ∧ nm = c%"text" ∧ lit = none ∧ ps.isEmpty = true then some ([.text], none)
    else none
  | .binary l .slash r => match res ctx l, res ctx r with
    | some (p, none), some (p', none) => some (p ++ p', none)
    | _, _ => none
  | .binary l .eq r => match res ctx l, resLit ctx r with
    | some (p, none), some v => some (p, some v)
    | _, _ => none
  | _ => none
/-- The predicates of a step. -/
def resPreds (ctx : Ctx) : List Expr → Option (List Pred)
  | [] => some []
  | e :: es => match res ctx e with
    | some (p, cmp) => match toPred p cmp, resPreds ctx es with
      | some q, some qs => some (q :: qs)
      | _, _ => none
    | none => none
end

/-- The path denoted by an AST. -/
def resPath (ctx : Ctx) (e : Expr) : Option (List Step) := match res ctx e with
  | some (p, none) => some p
  | _ => none

/-! ### The engine -/

/-- What the theorems assume of the XPath engine: a string that reads as a path of the fragment evaluates, at any
element, to the nodes the path selects; a comparison of the fragment evaluates to its truth value. -/
structure EngineOk (eng : Engine) : Prop where
  path : ∀ (ctx : Ctx) (s : Str) (e : Expr) (p : List Step) (doc n : Node) (a : Node.Addr),
    parse0 s = .ok e → resPath ctx e = some p → doc.get a = some n →
    eng.xpath s doc a ctx = .ok (.nodes ((Step.matches p n).map (Ref.under a)))
  cmp : ∀ (ctx : Ctx) (s : Str) (e : Expr) (p : List Step) (v : Lit) (q : Pred) (doc n : Node) (a : Node.Addr),
    parse0 s = .ok e → res ctx e = some (p, some v) → toPred p (some v) = some q → doc.get a = some n →
    eng.xpath s doc a ctx = .ok (.bool (q.sat n))

/-! ### Side conditions -/

/-- The name of the first child step of a predicate. -/
def Pred.lead : Pred → Option QName
  | .child q _ _ => some q
  | _ => none

/-- The attribute a predicate names at the element itself. -/
def Pred.attrOf : Pred → Option QName
  | .attr q _ => some q
  | _ => none

def Pred.isHere : Pred → Bool
  | .here _ => true
  | _ => false

/-- Only attribute predicates. -/
def attrOnly (ps : List Pred) : Bool := ps.all (fun p => p.attrOf.isSome)

mutual
/-- A predicate that can be constructed without contradicting itself: names of attribute predicates at one element are
pairwise distinct, and an element with a required text has no required children. -/
def Pred.ok : Pred → Bool
  | .attr _ _ => true
  | .here _ => true
  | .child _ ps rest => okAll ps && rest.ok && (match rest with
    | .attr q _ => decide (some q ∉ ps.map Pred.attrOf)
    | .here (some _) => attrOnly ps
    | _ => true)
/-- The predicates of one step. -/
def okAll : List Pred → Bool
  | [] => true
  | p :: ps => p.ok && !p.isHere && okAll ps
    && (match p.attrOf with | some q => decide (some q ∉ ps.map Pred.attrOf) | none => true)
end

/-- The predicates of a step do not speak about the next step. -/
def nextOk (ps : List Pred) : List Step → Bool
  | .child q _ :: _ => ps.all (fun p => p.lead != some q)
  | .attr q :: _ => ps.all (fun p => p.attrOf != some q)
  | _ => true

/-- A path of the fragment on which reading, writing and creating agree: predicates constructible, no predicate speaks
about the next step, attributes and `text()` only at the end. -/
def pathOk : List Step → Bool
  | [] => true
  | .child _ ps :: r => okAll ps && nextOk ps r && pathOk r
  | .attr _ :: r => r.isEmpty
  | .text :: r => r.isEmpty

/-- The path can hold a string: if it ends in an element or `text()`, the last element has no child predicates. -/
def stringOk : List Step → Bool
  | [] => true
  | [.child _ ps] => attrOnly ps
  | [.child _ ps, .text] => attrOnly ps
  | _ :: r => stringOk r

end Spec
