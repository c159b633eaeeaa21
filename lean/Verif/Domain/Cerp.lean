import Verif.XmlMap.NodeList
/-
Model of `Message.from_email_message` (eulxml/xmlmap/cerp.py:218-314), on documents: every statement that assigns to a field, extends a list field or
creates an element runs through the models of the field managers.
-/
namespace Cerp
open Xml XPath Fields

/-- cerp.py:40 -/
def ns : Str := c%"http://www.archives.ncdcr.gov/mail-account"
/-- cerp.py:41: the namespaces of the objects. -/
def ctx : Ctx := ⟨some [(c%"xm", ns)], []⟩
/-- An element name. -/
def q (tag : Str) : QName := ⟨some ns, tag⟩
/-- The XPath of the fields used here: `xm:` and a name (cerp.py:44-216). -/
def xp (tag : Str) : Str := c%"xm:" ++ tag
/-- fields.py:68: the XPath is parsed when the field is declared. -/
def xast (s : Str) : Expr := match parse0 s with | .ok e => e | .error _ => .root

/-- What `get_payload` gives. -/
inductive Payload where
  | text (s : Str)
  | bytes (b : List UInt8)

/-- An `email.message.Message`: its headers in order, and what its methods return.  `is_multipart`, `get_content_type`, `get_content_charset`, `get_filename`, `get_charset` and
`get_payload` are not modelled further. -/
structure Email where
  headers : List (Str × Str)
  multipart : Bool
  contentType : Str
  contentCharset : Option Str
  filename : Option Str
  charset : Option Str
  payload : Payload

/-- Header names are compared without case (simplification: of ASCII letters). -/
def sameName (a b : Str) : Bool := a.map Char.toLower == b.map Char.toLower
/-- `message.get_all(name, [])` (email/message.py). -/
def Email.getAll (m : Email) (name : Str) : List Str := (m.headers.filter (fun h => sameName h.1 name)).map (·.2)
/-- `message.get(name)`: the first one. -/
def Email.get (m : Email) (name : Str) : Option Str := (m.getAll name).head?

/-- The library functions that are not modelled: date conversion (`parsedate_tz`, `mktime_tz`, local time: `none` if it is no date), character decoding, `str(bytes)`. -/
structure Lib where
  isoDate : Str → Option Str
  decode : Str → List UInt8 → Except PyErr Str
  strOfBytes : List UInt8 → Str
  /-- cerp.py:312: `EOLMAP[os.linesep]` -/
  eol : Str

/-- cerp.py:380-392 `parse_mail_date`. -/
def parseMailDate (lib : Lib) (d : Str) : Str := match lib.isoDate d with
  | none => d
  | some iso => iso

/-- cerp.py:299-303: `translate` with a table that maps the code points below 32 except 9, 10, 13 to `None`. -/
def stripControl (s : Str) : Str := s.filter (fun c => !(c.toNat < 32 && c.toNat != 9 && c.toNat != 10 && c.toNat != 13))

/-- cerp.py:284-303: the payload as a string without control characters. -/
def bodyText (lib : Lib) (m : Email) : Except PyErr Str := match m.payload with
  | .text s => .ok (stripControl s)
  | .bytes b => match m.charset with
    | some cs => match lib.decode cs b with
      | .ok s => .ok (stripControl s)
      | .error e => .error e
    | none => .ok (stripControl (lib.strOfBytes b))

/-- A Python string that is `None` or empty is false. -/
def truthy : Option Str → Bool
  | some (_ :: _) => true
  | _ => false

section
variable [PyUnicode] (eng : Engine)

/-- `obj.<field> = value` for a StringField `xm:tag` of the object at address `a`. -/
def setStr (tag : Str) (v : Option Str) (a : Node.Addr) : M Unit :=
  managerSet eng ctx (.ok (v.map .str)) (xp tag) (xast (xp tag)) (.elem a)

/-- `obj.<field>.extend(values)` for a StringListField `xm:tag`. -/
def extendStr (tag : Str) (vs : List Str) (a : Node.Addr) : M Unit :=
  listExtend eng ctx (fun it => strToPython false (some it)) (storeText ctx strToXml (xast (xp tag))) (xp tag) (xast (xp tag)) (.elem a) (vs.map some)

/-- `obj.<field>.append(value)` for a StringListField `xm:tag`. -/
def appendStr (tag : Str) (v : Str) (a : Node.Addr) : M Unit :=
  listAppend eng ctx (fun it => strToPython false (some it)) (storeText ctx strToXml (xast (xp tag))) (xp tag) (xast (xp tag)) (.elem a) (some v)

/-- `obj.<field>.extend(objects)` for a NodeListField `xm:tag` and new objects. -/
def extendNodes (tag : Str) (vs : List Node) (a : Node.Addr) : M Unit :=
  listExtend eng ctx (fun it => match it with | .elem m => .ok m | _ => .error .typeError) (fun r v => storeNode r (.foreign v)) (xp tag) (xast (xp tag)) (.elem a) vs

/-- `obj.create_<field>()` for a NodeField `xm:tag`. -/
def createChild (tag : Str) (a : Node.Addr) : M Unit := do
  let _ ← managerCreate eng ctx (xp tag) (xast (xp tag)) (.elem a)
  pure ()

/-- `obj.<field>...` for a NodeField `xm:tag`: the rest happens at the element that is found; `None` has no attributes. -/
def onChild (tag : Str) (f : Node.Addr → M Unit) (a : Node.Addr) : M Unit := do
  match ← findNode eng ctx (xp tag) (.elem a) with
  | some (.ref (.elem b)) => f b
  | _ => raise .attributeError

/-- cerp.py:233-234: `result.local_id = id`, with the built-in function `id`; IntegerMapper.to_xml is `str` (fields.py:93-97). -/
def setLocalId (localId : Option Int) (a : Node.Addr) : M Unit := match localId with
  | some _ => setStr eng c%"LocalId" (some c%"<built-in function id>") a
  | none => pure ()

/-- cerp.py:236-239. -/
def setMessageId (m : Email) (a : Node.Addr) : M Unit :=
  if truthy (m.get c%"Message-Id") then do
    managerSet eng ctx (.ok (some (.str c%"1"))) (c%"xm:MessageId/@Supplied") (xast c%"xm:MessageId/@Supplied") (.elem a)
    setStr eng c%"MessageId" (m.get c%"Message-Id") a
  else pure ()

/-- cerp.py:261: `Header(name=key, value=val)`: a new element, on which the fields are set. -/
def newHeader (h : Str × Str) : Except PyErr Node :=
  match (do setStr eng c%"Name" (some h.1) []; setStr eng c%"Value" (some h.2) []) (Node.empty (q c%"Header")) with
  | (.ok _, n) => .ok n
  | (.error e, _) => .error e

/-- cerp.py:261-262. -/
def addHeaders (m : Email) (a : Node.Addr) : M Unit := do
  let hs ← ofExcept (m.headers.mapM (newHeader eng))
  extendNodes eng c%"Header" hs a

/-- cerp.py:273-274. -/
def addContentType (m : Email) (a : Node.Addr) : M Unit :=
  if truthy (m.get c%"Content-Type") then onChild eng c%"SingleBody" (appendStr eng c%"ContentType" m.contentType) a else pure ()
/-- cerp.py:275-276. -/
def addCharset (m : Email) (a : Node.Addr) : M Unit :=
  if truthy m.contentCharset then onChild eng c%"SingleBody" (appendStr eng c%"Charset" (m.contentCharset.getD [])) a else pure ()
/-- cerp.py:277-278. -/
def addFilename (m : Email) (a : Node.Addr) : M Unit :=
  if truthy m.filename then onChild eng c%"SingleBody" (appendStr eng c%"ContentName" (m.filename.getD [])) a else pure ()

/-- cerp.py:265-309. -/
def addBody (lib : Lib) (m : Email) (a : Node.Addr) : M Unit :=
  if m.multipart then pure ()
  else do
    createChild eng c%"SingleBody" a
    addContentType eng m a
    addCharset eng m a
    addFilename eng m a
    onChild eng c%"SingleBody" (createChild eng c%"BodyContent") a
    let text ← ofExcept (bodyText lib m)
    onChild eng c%"SingleBody" (onChild eng c%"BodyContent" (setStr eng c%"Content" (some text))) a

/-- cerp.py:233-312, the object's element being at address `a`. -/
def fillMessage (lib : Lib) (m : Email) (localId : Option Int) (a : Node.Addr) : M Unit := do
  setLocalId eng localId a
  setMessageId eng m a
  setStr eng c%"MimeVersion" (m.get c%"MIME-Version") a
  extendStr eng c%"OrigDate" ((m.getAll c%"Date").map (parseMailDate lib)) a
  extendStr eng c%"From" (m.getAll c%"From") a
  extendStr eng c%"Sender" (m.getAll c%"From") a
  extendStr eng c%"To" (m.getAll c%"To") a
  extendStr eng c%"Cc" (m.getAll c%"Cc") a
  extendStr eng c%"Bcc" (m.getAll c%"Bcc") a
  extendStr eng c%"InReplyTo" (m.getAll c%"In-Reply-To") a
  extendStr eng c%"References" (m.getAll c%"References") a
  extendStr eng c%"Subject" (m.getAll c%"Subject") a
  extendStr eng c%"Comments" (m.getAll c%"Comments") a
  extendStr eng c%"Keywords" (m.getAll c%"Keywords") a
  addHeaders eng m a
  addBody eng lib m a
  setStr eng c%"Eol" (some lib.eol) a

/-- cerp.py:218-314 `Message.from_email_message`: the result's element. -/
def fromEmail (lib : Lib) (m : Email) (localId : Option Int) : Except PyErr Node :=
  match fillMessage eng lib m localId [] (Node.empty (q c%"Message")) with
  | (.ok _, n) => .ok n
  | (.error e, _) => .error e

end
end Cerp
