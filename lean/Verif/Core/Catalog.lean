import Verif.XmlMap.NodeList
import Verif.Py.Dict
/-
Model of eulxml/catalog.py and of the registration of the catalog in eulxml/__init__.py:50-57.
-/
namespace Catalog
open Xml XPath Fields

abbrev Bytes := List UInt8
abbrev Path := Str

/-! ### download_schema -/

/-- What the server (and the network) does: an HTTP error status; no response at all; a response with these chunks, at whose end the connection breaks or not. -/
inductive Response where
  | httpError (code : Nat)
  | noResponse
  | body (chunks : List Bytes) (breaks : Bool)

/-- A change of the file system: `open(path, 'wb')` empties the file, `write` appends to it.  Simplification: files are not buffered. -/
inductive FileOp where
  | truncate (p : Path)
  | write (p : Path) (b : Bytes)
  deriving DecidableEq

/-- Contents of files; `none` if there is no such file. -/
abbrev Files := Path → Option Bytes

/-- The effect of a change. -/
def FileOp.apply (fs : Files) : FileOp → Files
  | .truncate p => fun q => if q = p then some [] else fs q
  | .write p b => fun q => if q = p then some ((fs p).getD [] ++ b) else fs q

/-- The effect of changes in order. -/
def applyOps (fs : Files) (ops : List FileOp) : Files := ops.foldl FileOp.apply fs

/-- How a call ends: with a result, or with an exception that is not handled. -/
inductive Outcome where
  | saved
  | notSaved
  | raised
  deriving DecidableEq, Repr

/-- catalog.py:112-117: parse the file, append the comment to the root, serialize; `none` if it cannot be parsed (lxml). -/
abbrev AddComment := Str → Bytes → Option Bytes

/-- catalog.py:86-127 `download_schema`, with `requests` installed: the changes to the file system in order, and how it ends. -/
def download (addComment : AddComment) (resp : Response) (path : Path) (comment : Option Str) : List FileOp × Outcome := match resp with
  | .httpError _ => ([], .notSaved)
  | .noResponse => ([], .raised)
  | .body chunks breaks =>
    let ops := .truncate path :: (chunks.filter (fun c => !c.isEmpty)).map (FileOp.write path)
    if breaks then (ops, .raised)
    else match comment with
      | none => (ops, .saved)
      | some c => match addComment c (chunks.filter (fun c => !c.isEmpty)).flatten with
        | none => (ops, .raised)
        | some b => (ops ++ [.truncate path, .write path b], .saved)

/-! ### generate_catalog -/

/-- `os.path.basename`: what is behind the last slash. -/
def basename (s : Str) : Str := (s.splitOn '/').getLastD []

/-- `os.path.join(dir, name)`, for a name without slash. -/
def joinPath (dir name : Str) : Str := if dir = [] then name else if dir.getLast? = some '/' then dir ++ name else dir ++ '/' :: name

/-- catalog.py:70: the namespace of catalogs. -/
def catNs : Str := c%"urn:oasis:names:tc:entity:xmlns:xml:catalog"

/-- catalog.py:67-74: `Uri(name=..., uri=...)`, a new element with two attributes. -/
def uriNode (name uri : Str) : Node := .mk (.elem ⟨some catNs, c%"uri"⟩) [(⟨none, c%"name"⟩, name), (⟨none, c%"uri"⟩, uri)] none [] none

/-- catalog.py:77-83: `Catalog()`, an empty root element. -/
def emptyCatalog : Node := .mk (.elem ⟨some catNs, c%"catalog"⟩) [] none [] none

/-- Namespaces of a `Catalog` object (catalog.py:81). -/
def catCtx : Ctx := ⟨some [(c%"c", catNs)], []⟩

section
variable [PyUnicode] (eng : Engine)

/-- catalog.py:182: `catalog.uri_list.append(Uri(name=..., uri=...))`, with `uri_list` a NodeListField `c:uri`. -/
def addUri (read : Item → Except PyErr Node) (xast : Expr) (name uri : Str) : M Unit :=
  listAppend eng catCtx read (fun r v => storeNode r (.foreign v)) c%"c:uri" xast (.elem []) (uriNode name uri)

/-- catalog.py:173-182: the loop.  `fetch` says what the server does for a URI.  Ends early if something raises. -/
def catalogLoop (read : Item → Except PyErr Node) (xast : Expr) (addComment : AddComment) (fetch : Str → Response) (dir comment : Str) :
    List Str → Node → List FileOp × Except PyErr Node
  | [], cat => ([], .ok cat)
  | uri :: rest, cat =>
    match download addComment (fetch uri) (joinPath dir (basename uri)) (some comment) with
    | (ops, .raised) => (ops, .error .attributeError)
    | (ops, .notSaved) =>
      let r := catalogLoop read xast addComment fetch dir comment rest cat
      (ops ++ r.1, r.2)
    | (ops, .saved) => match addUri eng read xast uri (basename uri) cat with
      | (.error e, _) => (ops, .error e)
      | (.ok _, cat') =>
        let r := catalogLoop read xast addComment fetch dir comment rest cat'
        (ops ++ r.1, r.2)

/-- catalog.py:130-188 `generate_catalog`, with `requests` installed and an existing directory; `serialize` is `serializeDocument`.  The file of the
catalog is written in one piece. -/
def generateCatalog (read : Item → Except PyErr Node) (xast : Expr) (serialize : Node → Bytes) (addComment : AddComment) (fetch : Str → Response) (schemas : List Str) (dir file comment : Str) :
    List FileOp × Except PyErr Node :=
  match catalogLoop eng read xast addComment fetch dir comment schemas emptyCatalog with
  | (ops, .error e) => (ops, .error e)
  | (ops, .ok cat) => match listLen eng catCtx read c%"c:uri" (.elem []) cat with
    | (.error e, _) => (ops, .error e)
    | (.ok n, cat) => if n = 0 then (ops, .ok cat) else (ops ++ [.truncate file, .write file (serialize cat)], .ok cat)

end

/-! ### registration -/

/-- Python's `p in s` for strings. -/
def isIn (p : Str) : Str → Bool
  | [] => p.isEmpty
  | c :: s => p.isPrefixOf (c :: s) || isIn p s

/-- eulxml/__init__.py:54-57, for the value of `XML_CATALOG_FILES` (`none` if it is not set): `file not in env` looks for a substring. -/
def register (file : Str) (env : Option Str) : Option Str :=
  if isIn file (env.getD []) then env
  else some ([':'].intercalate (([env, some file].filterMap id).filter (fun p => !p.isEmpty)))

end Catalog
