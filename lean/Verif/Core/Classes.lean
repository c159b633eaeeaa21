import Verif.Py.Dict
/-
Model of the metaclass of eulxml/xmlmap/core.py (lines 116-235) and of Python's class creation.

A running program creates classes one after the other; a class is the number of its creation.  Each class keeps what Python keeps: its
`__dict__`, its method resolution order, and (if created by `XmlObjectType`) its `_fields`.
-/
namespace Core
open Py

/-- `field.node_class`: a class, or its name before it is resolved. -/
inductive NodeClass where
  | name (s : Str)
  | cls (c : Nat)
  deriving DecidableEq, Repr

/-- A `Field` object: identity, creation counter, `node_class` (if it has that attribute), schema type if it is a `SchemaField`, and
whether it has the method `create_for_node` (fields.py:1114: `NodeField` has it, `NodeListField` not).
Simplification: other attributes of fields play no role here. -/
structure Fld where
  uid : Nat
  counter : Nat
  nodeClass : Option NodeClass := none
  schemaType : Option Str := none
  creates : Bool := false
  deriving DecidableEq, Repr

/-- The value of a class attribute: a field, a string, `None`, or something else. -/
inductive Attr where
  | field (f : Fld)
  | str (s : Str)
  | none
  | other (k : Nat)
  deriving DecidableEq, Repr

/-- An entry of a class `__dict__`: `_FieldDescriptor(field)` (core.py:116-131), a `create_...` method for a field (core.py:230-235), or the value
as it is. -/
inductive Slot where
  | desc (f : Fld)
  | create (f : Fld)
  | value (a : Attr)
  deriving DecidableEq, Repr

/-- A class. `body` is what the class statement defined, `dict` its `__dict__`; `fields` is `_fields`, absent for classes that are not made by
`XmlObjectType`. -/
structure Cls where
  bases : List Nat
  body : Dict Str Attr
  dict : Dict Str Slot
  fields : Option (Dict Str Fld)
  mro : List Nat
  deriving Repr

/-- The classes created so far. -/
abbrev Env := List Cls

/-! ### method resolution order: CPython `mro_implementation` (C3), not part of /repo -/

/-- The first head that is in no tail. -/
def pick (all : List (List Nat)) : List (List Nat) → Option Nat
  | [] => none
  | [] :: ls => pick all ls
  | (h :: _) :: ls => if all.any (fun l => l.tail.contains h) then pick all ls else some h

/-- Remove the chosen class from the heads. -/
def dropHead (h : Nat) (ls : List (List Nat)) : List (List Nat) := ls.map (fun l => if l.head? = some h then l.tail else l)

/-- C3 merge. -/
def merge : Nat → List (List Nat) → Option (List Nat)
  | 0, _ => none
  | k + 1, ls =>
    if ls.all List.isEmpty then some []
    else match pick ls ls with
      | none => none
      | some h => (merge k (dropHead h ls)).map (h :: ·)

/-- The method resolution order of a new class, which will have the number `env.length`. -/
def mroOf (env : Env) (bases : List Nat) : Except PyErr (List Nat) :=
  let ls := bases.map (fun b => ((env[b]?).map Cls.mro).getD []) ++ [bases]
  match merge (ls.flatten.length + 1) ls with
  | some r => .ok (env.length :: r)
  | none => .error .typeError

/-- `getattr(c, x)` on a class: the first entry along the method resolution order.  (Also what an instance uses for `obj.x`: field
descriptors are data descriptors.) -/
def lookupIn (env : Env) (mro : List Nat) (x : Str) : Option Slot :=
  mro.findSome? (fun d => (env[d]?).bind (fun c => c.dict.get? x))

def lookup (env : Env) (c : Nat) (x : Str) : Option Slot := (env[c]?).bind (fun k => lookupIn env k.mro x)

/-! ### the metaclass -/

/-- core.py:163-166: `_fields` of the bases, one after the other.  (For a base made by `XmlObjectType` `getattr(base, '_fields')` is its own; a base
that is not so made has none.) -/
def baseFields (env : Env) (bases : List Nat) : Dict Str Fld :=
  bases.foldl (fun d b => match (env[b]?).bind Cls.fields with
    | some f => d.update f
    | none => d) []

/-- core.py:167 after the loop: `XSD_SCHEMA` of the last base. -/
def baseXsd (env : Env) (bases : List Nat) : Option Slot := bases.getLast?.bind (fun b => lookup env b c%"XSD_SCHEMA")

/-- Python truth value of the attribute found: `None` and the empty string are false. -/
def slotTruthy : Option Slot → Bool
  | none => false
  | some (.value .none) => false
  | some (.value (.str s)) => !s.isEmpty
  | some _ => true

/-- What the rest of the class statement needs: loading a schema document (core.py:182-186), `SchemaField.get_field` (fields.py:1187-1221). -/
structure SchemaLib where
  Schema : Type
  load : Slot → Except PyErr Schema
  getField : Schema → Fld → Except PyErr Fld

/-- core.py:171-216, one attribute: the field to use. -/
def resolveSchema (lib : SchemaLib) (own : Option Slot) (base : Option Slot) (f : Fld) : Except PyErr Fld :=
  match f.schemaType with
  | none => .ok f
  | some _ =>
    if own.isSome ∨ slotTruthy base = true then
      match (own.or base) with
      | none => .ok f
      | some x => match lib.load x with
        | .error e => .error e
        | .ok s => lib.getField s f
    else .ok f

/-- core.py:195-205: a name given as `node_class` must be `self` or the name of the class; core.py:224-226: it is then replaced by the new class. -/
def resolveNodeClass (name : Str) (self : Nat) (f : Fld) : Except PyErr Fld :=
  match f.nodeClass with
  | some (.name s) => if s = c%"self" ∨ s = name then .ok { f with nodeClass := some (.cls self) } else .error .valueError
  | _ => .ok f

/-- core.py:171-216: one pass over the attributes.  Simplifications: the recursive fields are patched here and not after the creation of the class; the
schema is loaded anew for each field (the second load gives the same document). -/
def addAttrs (lib : SchemaLib) (own base : Option Slot) (name : Str) (self : Nat) :
    List (Str × Attr) → Dict Str Slot → Dict Str Fld → Except PyErr (Dict Str Slot × Dict Str Fld)
  | [], use, fields => .ok (use, fields)
  | (x, .field f0) :: rest, use, fields =>
    match resolveSchema lib own base f0 with
    | .error e => .error e
    | .ok f1 => match resolveNodeClass name self f1 with
      | .error e => .error e
      | .ok f =>
        let use := use.set x (.desc f)
        let use := if f.creates then use.set (c%"create_" ++ x) (.create f) else use
        addAttrs lib own base name self rest use (fields.set x f)
  | (x, a) :: rest, use, fields => addAttrs lib own base name self rest (use.set x (.value a)) fields

/-- core.py:154-228 `XmlObjectType.__new__` with `type.__new__`. -/
def newXmlClass (lib : SchemaLib) (env : Env) (name : Str) (bases : List Nat) (attrs : Dict Str Attr) : Except PyErr Cls :=
  match addAttrs lib ((attrs.get? c%"XSD_SCHEMA").map Slot.value) (baseXsd env bases) name env.length attrs [] (baseFields env bases) with
  | .error e => .error e
  | .ok (use, fields) => match mroOf env bases with
    | .error e => .error e
    | .ok mro => .ok { bases := bases, body := attrs, dict := use, fields := some fields, mro := mro }

/-- A class statement with `type` as metaclass (a mixin). -/
def newPlainClass (env : Env) (bases : List Nat) (attrs : Dict Str Attr) : Except PyErr Cls :=
  match mroOf env bases with
  | .error e => .error e
  | .ok mro => .ok { bases := bases, body := attrs, dict := attrs.map (fun p => (p.1, .value p.2)), fields := none, mro := mro }

/-- Is the class made by `XmlObjectType`? -/
def isXml (env : Env) (c : Nat) : Bool := ((env[c]?).bind Cls.fields).isSome

/-- A class statement: the metaclass is `XmlObjectType` if asked for, or if it is that of a base.  Bases must exist. -/
def classStmt (lib : SchemaLib) (env : Env) (useMeta : Bool) (name : Str) (bases : List Nat) (attrs : Dict Str Attr) : Except PyErr Cls :=
  if useMeta ∨ bases.any (isXml env) = true then newXmlClass lib env name bases attrs else newPlainClass env bases attrs

/-- The environments of running programs: class statements one after the other (those that raise create nothing).  Class dictionaries have different
keys. -/
inductive Reach (lib : SchemaLib) : Env → Prop
  | nil : Reach lib []
  | step {env useMeta name bases attrs c} : Reach lib env → (∀ b ∈ bases, b < env.length) → Dict.Wf attrs →
      classStmt lib env useMeta name bases attrs = .ok c → Reach lib (env ++ [c])

end Core
