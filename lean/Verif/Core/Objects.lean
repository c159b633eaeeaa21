import Verif.Py.Dict
import Verif.Xml.Node
/-
Model of `XmlObject` and of the module functions of eulxml/xmlmap/core.py: namespace contexts (311-338), schema cache (67-96), validation (292-307, 489-542),
equality (433-444), `is_empty` (544-550), parser configuration (558-593).
-/
namespace Core
open Py Xml

/-! ### namespace contexts -/

/-- A prefix as a dictionary key: `None` or a string. -/
abbrev Prefix := Option Str

/-- `if prefix`. -/
def prefixTruthy : Prefix → Bool
  | some (_ :: _) => true
  | _ => false

/-- Dictionaries that objects refer to, by number. -/
abbrev Heap := List (Dict Prefix Str)

/-- The `context` argument: its `namespaces` entry, if any, is a dictionary the caller holds.  Simplification: other entries (XPath variables) are left out. -/
structure CallerCtx where
  namespaces : Option Nat
  deriving DecidableEq, Repr

/-- core.py:318-334 of `XmlObject.__init__`: the dictionary `self.context['namespaces']`.  `nsmap` is that of the node (`{}` for a string).  A dictionary given by
the caller replaces the one made from the node, and is then updated in place. -/
def initContext (heap : Heap) (nsmap : Dict Prefix Str) (context : Option CallerCtx) (root : Dict Prefix Str) : Nat × Heap :=
  let own := heap.length
  let heap := heap ++ [nsmap.filter (fun p => prefixTruthy p.1)]
  let r := match context with
    | some ⟨some r⟩ => r
    | _ => own
  (r, heap.modify r (fun d => d.update root))

/-- The namespace that the object uses for a prefix. -/
def nsOf (heap : Heap) (r : Nat) (p : Prefix) : Option Str := (heap[r]?).bind (fun d => d.get? p)

/-! ### schema cache -/

/-- What can go wrong in `etree.parse` and `etree.XMLSchema`: an I/O error, a schema error, anything else (such as XML that is not well-formed). -/
inductive LoadErr where
  | io | schemaParse | other
  deriving DecidableEq, Repr

/-- The exception that the caller sees: a new one whose message names the schema (core.py:91-96), or the original one. -/
inductive LoadFailure where
  | ioError (uri : Str) (base : Option Str)
  | schemaParseError (uri : Str) (base : Option Str)
  | original
  deriving DecidableEq, Repr

/-- core.py:91-96. -/
def failure (uri : Str) (base : Option Str) : LoadErr → LoadFailure
  | .io => .ioError uri base
  | .schemaParse => .schemaParseError uri base
  | .other => .original

/-- A schema object, by identity. -/
abbrev SchemaId := Nat

/-- core.py:71-96 `loadSchema`.  `world` is what loading gives at this moment (a new schema object or an error); the result says also whether loading was tried. -/
def loadSchema (cache : Dict Str SchemaId) (uri : Str) (base : Option Str) (world : Except LoadErr SchemaId) :
    (Except LoadFailure SchemaId × Bool) × Dict Str SchemaId :=
  match cache.get? uri with
  | some s => ((.ok s, false), cache)
  | none => match world with
    | .ok s => ((.ok s, true), cache.set uri s)
    | .error e => ((.error (failure uri base e), true), cache)

/-- One request and what loading would give. -/
structure Request where
  uri : Str
  base : Option Str
  world : Except LoadErr SchemaId

/-- A run of requests: the results and the cache. -/
def runLoads : Dict Str SchemaId → List Request → List (Except LoadFailure SchemaId × Bool) × Dict Str SchemaId
  | cache, [] => ([], cache)
  | cache, q :: qs =>
    let (r, cache') := loadSchema cache q.uri q.base q.world
    let (rs, c) := runLoads cache' qs
    (r :: rs, c)

/-! ### validation -/

/-- The state of validation: the cache and the error log of each schema object. -/
structure VState (Err : Type) where
  cache : Dict Str SchemaId
  logs : SchemaId → List Err

/-- What is outside: loading, and lxml's validator: the errors of a document. -/
structure Validator (Err Doc : Type) where
  load : Str → Except LoadErr SchemaId
  errors : SchemaId → Doc → List Err

/-- An object: its class's `XSD_SCHEMA` and `schema_validate`, and its document. -/
structure VObj (Doc : Type) where
  xsd : Option Str
  schemaValidate : Bool
  doc : Doc

/-- What `validation_errors` returns: the list `[]` or an lxml error log (which is no list and so not equal to `[]`). -/
inductive ErrorList (Err : Type) where
  | empty
  | log (l : List Err)
  deriving DecidableEq, Repr

/-- Exceptions. -/
inductive VFail where
  | load (f : LoadFailure)
  | noSchema
  deriving DecidableEq, Repr

section
variable {Err Doc : Type} (V : Validator Err Doc)

/-- core.py:306-307 `xmlschema`. -/
def xmlschema (o : VObj Doc) (st : VState Err) : Except VFail (Option SchemaId) × VState Err :=
  match o.xsd with
  | none => (.ok none, st)
  | some [] => (.ok none, st)
  | some (c :: uri) =>
    match loadSchema st.cache (c :: uri) none (V.load (c :: uri)) with
    | ((.ok s, _), cache) => (.ok (some s), { st with cache := cache })
    | ((.error e, _), cache) => (.error (.load e), { st with cache := cache })

/-- `schema.validate(node)`: adds to the log (the most that lxml can do to it), true if there are no errors. -/
def validate (s : SchemaId) (d : Doc) (st : VState Err) : Bool × VState Err :=
  ((V.errors s d).isEmpty, { st with logs := fun s' => if s' = s then st.logs s ++ V.errors s d else st.logs s' })

/-- core.py:514-529 `schema_valid`. -/
def schemaValid (o : VObj Doc) (st : VState Err) : Except VFail Bool × VState Err :=
  match xmlschema V o st with
  | (.error e, st) => (.error e, st)
  | (.ok none, st) => (.error .noSchema, st)
  | (.ok (some s), st) =>
    let st := { st with logs := fun s' => if s' = s then [] else st.logs s' }
    let (b, st) := validate V s o.doc st
    (.ok b, st)

/-- core.py:531-542 `schema_validation_errors`. -/
def schemaErrors (o : VObj Doc) (st : VState Err) : Except VFail (ErrorList Err) × VState Err :=
  match xmlschema V o st with
  | (.error e, st) => (.error e, st)
  | (.ok none, st) => (.error .noSchema, st)
  | (.ok (some s), st) => (.ok (.log (st.logs s)), st)

/-- core.py:499-512 `validation_errors`. -/
def validationErrors (o : VObj Doc) (st : VState Err) : Except VFail (ErrorList Err) × VState Err :=
  match xmlschema V o st with
  | (.error e, st) => (.error e, st)
  | (.ok none, st) => (.ok .empty, st)
  | (.ok (some _), st) =>
    if o.schemaValidate then
      match schemaValid V o st with
      | (.error e, st) => (.error e, st)
      | (.ok true, st) => (.ok .empty, st)
      | (.ok false, st) => schemaErrors V o st
    else (.ok .empty, st)

/-- core.py:489-497 `is_valid`. -/
def isValid (o : VObj Doc) (st : VState Err) : Except VFail Bool × VState Err :=
  match validationErrors V o st with
  | (.error e, st) => (.error e, st)
  | (.ok .empty, st) => (.ok true, st)
  | (.ok (.log _), st) => (.ok false, st)

/-- What a program can do with validation. -/
inductive VOp (Doc : Type) where
  | isValid (o : VObj Doc)
  | errors (o : VObj Doc)
  | schemaValid (o : VObj Doc)
  | schemaErrors (o : VObj Doc)

/-- The state after an operation. -/
def runV (st : VState Err) : VOp Doc → VState Err
  | .isValid o => (isValid V o st).2
  | .errors o => (validationErrors V o st).2
  | .schemaValid o => (schemaValid V o st).2
  | .schemaErrors o => (schemaErrors V o st).2
end

/-! ### equality and emptiness -/

/-- `obj.node`: an element (of some document, by identity) or a string. -/
inductive ObjNode where
  | elem (doc : Nat) (a : Node.Addr)
  | str (s : Str)
  deriving DecidableEq, Repr

/-- core.py:446-487 `serialize()`: `etree.tostring` of an element, with its tail; a `TypeError` for a string. -/
def serialize (tostring : Nat → Node.Addr → List UInt8) : ObjNode → Except PyErr (List UInt8)
  | .elem d a => .ok (tostring d a)
  | .str _ => .error .typeError

/-- core.py:433-441 `__eq__` between XmlObjects. -/
def objEq (tostring : Nat → Node.Addr → List UInt8) (x y : ObjNode) : Except PyErr Bool :=
  if x = y then .ok true
  else match serialize tostring x with
    | .error e => .error e
    | .ok s => match serialize tostring y with
      | .error e => .error e
      | .ok t => .ok (decide (s = t))

/-- core.py:443-444 `__ne__`. -/
def objNe (tostring : Nat → Node.Addr → List UInt8) (x y : ObjNode) : Except PyErr Bool := (objEq tostring x y).map (!·)

/-- `not s` for a text. -/
def noText : Option Str → Bool
  | none => true
  | some s => s.isEmpty

/-- core.py:544-550 `is_empty`. -/
def isEmpty (n : Node) : Bool := n.children.length == 0 && n.attrs.length == 0 && noText n.text && noText n.tail

/-! ### parser configuration -/

/-- Options of `etree.XMLParser`. -/
inductive ParserOpts where
  | schema (s : SchemaId)
  | dtdValidation
  | noCollectIds
  deriving DecidableEq, Repr

/-- core.py:558-588 `_get_xmlparser`: `xsd` is `xmlclass.XSD_SCHEMA`, `preset` its `_xmlschema` attribute. -/
def xmlParser (xsd : Option Str) (preset : Option SchemaId) (validate : Bool) (cache : Dict Str SchemaId) (load : Str → Except LoadErr SchemaId) :
    Except LoadFailure ParserOpts × Dict Str SchemaId :=
  if validate then
    match xsd with
    | some uri => match preset with
      | some s => (.ok (.schema s), cache)
      | none => match loadSchema cache uri none (load uri) with
        | ((.ok s, _), c) => (.ok (.schema s), c)
        | ((.error e, _), c) => (.error e, c)
    | none => (.ok .dtdValidation, cache)
  else (.ok .noCollectIds, cache)

end Core
