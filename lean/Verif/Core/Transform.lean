import Verif.Core.Classes
import Verif.Xml.Engine
/-
Model of `XmlObject.xsl_transform` and `load_xslt`: eulxml/xmlmap/core.py:99-109, 350-421.
The XML parser, `etree.tostring`, and the XSLT processor are parameters (`XsltEnv`).
Python 3: `six.string_types` is `str`.  The warnings of the log are not modelled, nor is base-URL handling.
-/
namespace Core
open Xml

/-- The exceptions of a transformation. -/
inductive TErr where
  /-- `OSError`: a file cannot be read -/
  | io
  /-- `XMLSyntaxError` -/
  | syntaxError
  /-- `XSLTParseError` -/
  | stylesheet
  /-- `XSLTApplyError` and what else the run of the stylesheet raises -/
  | apply
  /-- `UnboundLocalError`: `xslt_doc` was not assigned -/
  | unbound
  /-- `ValueError`: a string parameter that XML cannot hold -/
  | value
  | attribute
  | type
  deriving DecidableEq, Repr

/-- A parameter value: a string, or something else (a number for each). -/
inductive PVal where
  | str (s : Str)
  | other (k : Nat)
  deriving DecidableEq, Repr

/-- A parameter as the processor gets it: a quoted string (`etree.XSLT.strparam`), or as it is (then it is read as an XPath expression). -/
inductive XParam where
  | quoted (s : Str)
  | raw (k : Nat)
  deriving DecidableEq, Repr

/-- What a run of a stylesheet gives (`_XSLTResultTree`): a root element or none, and the text that `str()` of it is. -/
structure XResult where
  root : Option Node
  text : Str

/-- lxml: parsing a file, parsing bytes, serialising an element (with its tail: `etree.tostring`, `with_tail=True`), compiling a stylesheet document, and running it on a
document that consists of (a copy of) one element; whether the run sees a tail of that element is left open.  `Sheet` are compiled stylesheets. -/
structure XsltEnv (Sheet : Type) where
  parseFile : Str → Except TErr Node
  parseBytes : Str → Except TErr Node
  tostring : Node → Str
  compile : Node → Except TErr Sheet
  run : Sheet → Node → List (Str × XParam) → Except TErr XResult

/-- The argument `xsl`: missing, a string, or a compiled stylesheet. -/
inductive XslArg (Sheet : Type) where
  | missing
  | text (s : Str)
  | compiled (t : Sheet)

/-- `return_type`: a class of objects (a number for each; `None` is `XmlObject`), or `str`. -/
inductive RetType where
  | object (cls : Nat)
  | string
  deriving DecidableEq, Repr

/-- What the call returns. -/
inductive TVal where
  | none
  | object (cls : Nat) (root : Node)
  | string (s : Str)

/-- The node of an object: an element of a document, or a string (core.py:424). -/
inductive TNode where
  | elem (a : Node.Addr)
  | str (s : Str)

/-- core.py:376-378: string parameters are quoted.  (`params` is modified while it is iterated, but no keys are added.)  `strparam` refuses strings that XML cannot hold. -/
def quoteParams : List (Str × PVal) → Except TErr (List (Str × XParam))
  | [] => .ok []
  | (k, .str s) :: ps =>
    if xmlOk s then match quoteParams ps with
      | .ok qs => .ok ((k, .quoted s) :: qs)
      | .error e => .error e
    else .error .value
  | (k, .other v) :: ps => match quoteParams ps with
    | .ok qs => .ok ((k, .raw v) :: qs)
    | .error e => .error e

section
variable {Sheet : Type} (env : XsltEnv Sheet)

/-- core.py:386-389, 104-107: the file is parsed if given, then the string; the string's document wins.  `none` is the unassigned variable. -/
def sheetDoc (filename : Option Str) (xsl : Option Str) : Except TErr (Option Node) :=
  match filename with
  | some f => match env.parseFile f with
    | .error e => .error e
    | .ok d => match xsl with
      | some s => (env.parseBytes s).map some
      | none => .ok (some d)
  | none => match xsl with
    | some s => (env.parseBytes s).map some
    | none => .ok none

/-- core.py:99-109 `load_xslt`. -/
def loadXslt (filename : Option Str) (xsl : Option Str) : Except TErr Sheet :=
  match sheetDoc env filename xsl with
  | .error e => .error e
  | .ok none => .error .unbound
  | .ok (some d) => env.compile d

/-- core.py:395-401: the document of the root element, or a temporary document parsed from the serialised element.  lxml runs the stylesheet on a copy of the root
element (xslt.pxi `_copyDocRoot`), without comments and processing instructions around it. -/
def inputTree (doc : Node) (a : Node.Addr) (n : Node) : Except TErr Node :=
  if a = [] then .ok doc else env.parseBytes (env.tostring n)

/-- core.py:405-421. -/
def present (rt : RetType) (r : XResult) : TVal :=
  match rt with
  | .string => .string r.text
  | .object cls => match r.root with
    | none => .none
    | some n => .object cls n

/-- core.py:350-421 `xsl_transform` of the object with the given node in the document. -/
def xslTransform (doc : Node) (node : TNode) (filename : Option Str) (xsl : XslArg Sheet) (rt : RetType) (params : List (Str × PVal)) : Except TErr TVal :=
  match quoteParams params with
  | .error e => .error e
  | .ok ps => match xsl with
    | .compiled t => match node with
      | .str _ => .error .type
      | .elem a => match doc.get a with
        | none => .error .attribute
        | some n => (env.run t n ps).map (present rt)
    | _ =>
      match sheetDoc env filename (match xsl with | .text s => some s | _ => none) with
      | .error e => .error e
      | .ok d => match node with
        | .str _ => .error .attribute
        | .elem a => match doc.get a with
          | none => .error .attribute
          | some n => match inputTree env doc a n with
            | .error e => .error e
            | .ok t => match d with
              | none => .error .unbound
              | some d => match env.compile d with
                | .error e => .error e
                | .ok sh => (env.run sh t ps).map (present rt)

end
end Core
