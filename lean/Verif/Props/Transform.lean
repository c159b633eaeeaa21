import Verif.Core.Transform
import Verif.Spec.Words
import Verif.Props.FieldSet
/-
Property C98: XSL transformations of objects.

Model: `xslTransform`, `loadXslt` (Verif/Core/Transform.lean), with parser, serialiser and XSLT processor as parameters.
-/
namespace Props
open Xml Core

section
variable {Sheet : Type}

/-- What is assumed of lxml: elements that were parsed (`plain`; in particular, without texts of length zero) are parsed again from their serialisation, without the white
space behind them; with other text behind them they are no document. -/
structure XsltEnvOk (env : XsltEnv Sheet) (plain : Node → Prop) : Prop where
  again : ∀ n : Node, plain n → (∀ t, n.tail = some t → t.all Spec.xmlBlank = true) → env.parseBytes (env.tostring n) = .ok (n.setTail none)
  tail : ∀ (n : Node) (t : Str), n.tail = some t → t.all Spec.xmlBlank = false → env.parseBytes (env.tostring n) = .error .syntaxError

/-- The ways to name a stylesheet that is neither compiled nor missing. -/
inductive SheetArg where
  | file (f : Str)
  | text (s : Str)
  | both (f s : Str)

def SheetArg.filename : SheetArg → Option Str
  | .file f => some f
  | .text _ => none
  | .both f _ => some f

def SheetArg.xsl : SheetArg → Option Str
  | .file _ => none
  | .text s => some s
  | .both _ s => some s

def SheetArg.arg : SheetArg → XslArg Sheet
  | .file _ => .missing
  | .text s => .text s
  | .both _ s => .text s

/-- The document of the stylesheet: the file's; the string's if there is a string.  A file that is given must be readable. -/
def SheetArg.doc (env : XsltEnv Sheet) (d : Node) : SheetArg → Prop
  | .file f => env.parseFile f = .ok d
  | .text s => env.parseBytes s = .ok d
  | .both f s => (∃ d', env.parseFile f = .ok d') ∧ env.parseBytes s = .ok d

/-- The parameters as XSLT should see them: the strings as strings. -/
def asXsl : PVal → XParam
  | .str s => .quoted s
  | .other k => .raw k

/-- What the caller should get of a result. -/
def gives : RetType → XResult → TVal
  | .string, r => .string r.text
  | .object cls, ⟨some n, _⟩ => .object cls n
  | .object _, ⟨none, _⟩ => .none

/-- XML can hold the string parameters. -/
def GoodParams (params : List (Str × PVal)) : Prop := ∀ k s, (k, PVal.str s) ∈ params → xmlOk s = true

theorem quoteParams_ok {params : List (Str × PVal)} (h : GoodParams params) : quoteParams params = .ok (params.map (fun p => (p.1, asXsl p.2))) := by
  induction params with
  | nil => rfl
  | cons p ps ih =>
    have ih := ih (fun k s hm => h k s (by simp [hm]))
    obtain ⟨k, v⟩ := p
    cases v with
    | str s => simp [quoteParams, ih, h k s (by simp), asXsl]
    | other v => simp [quoteParams, ih, asXsl]

theorem quoteParams_bad {params : List (Str × PVal)} (h : ¬ GoodParams params) : quoteParams params = .error .value := by
  induction params with
  | nil => exact absurd (fun k s hm => absurd hm (by simp)) h
  | cons p ps ih =>
    obtain ⟨k, v⟩ := p
    cases v with
    | str s =>
      by_cases hs : xmlOk s = true
      · have : ¬ GoodParams ps := fun hp => h (fun k' s' hm => by
          rcases List.mem_cons.mp hm with heq | hm
          · cases heq; exact hs
          · exact hp k' s' hm)
        simp [quoteParams, hs, ih this]
      · simp [quoteParams, hs]
    | other v =>
      have : ¬ GoodParams ps := fun hp => h (fun k' s' hm => by
          rcases List.mem_cons.mp hm with heq | hm
          · cases heq
          · exact hp k' s' hm)
      simp [quoteParams, ih this]

theorem present_gives (rt : RetType) (r : XResult) : present rt r = gives rt r := by
  obtain ⟨ro, t⟩ := r
  cases rt <;> cases ro <;> rfl

theorem sheetDoc_given {env : XsltEnv Sheet} {d : Node} {g : SheetArg} (h : g.doc env d) : sheetDoc env g.filename g.xsl = .ok (some d) := by
  cases g with
  | file f => simp only [SheetArg.doc] at h; simp [sheetDoc, SheetArg.filename, SheetArg.xsl, h]
  | text s => simp only [SheetArg.doc] at h; simp [sheetDoc, SheetArg.filename, SheetArg.xsl, h, Except.map]
  | both f s =>
    obtain ⟨⟨d', h1⟩, h2⟩ := h
    simp [sheetDoc, SheetArg.filename, SheetArg.xsl, h1, h2, Except.map]

theorem transform_given (env : XsltEnv Sheet) (doc : Node) (a : Node.Addr) (n : Node) (hn : doc.get a = some n) (g : SheetArg) (d : Node) (hg : g.doc env d)
    (rt : RetType) (ps : List (Str × PVal)) (hp : GoodParams ps) :
    xslTransform env doc (.elem a) g.filename g.arg rt ps = match inputTree env doc a n with
      | .error e => .error e
      | .ok t => match env.compile d with
        | .error e => .error e
        | .ok sh => (env.run sh t (ps.map (fun p => (p.1, asXsl p.2)))).map (gives rt) := by
  have hd := sheetDoc_given hg
  have hpres : (present rt) = gives rt := funext (present_gives rt)
  unfold xslTransform
  rw [quoteParams_ok hp]
  cases g <;> simp only [SheetArg.arg, SheetArg.xsl] at hd ⊢ <;> rw [hd] <;> simp only [hn, hpres] <;> rfl

/-- C98.  A transformation with a stylesheet given as a file or as a string (or both: then the string counts) is the run of that stylesheet on the object's element alone,
without the text behind it, with the string parameters as strings; it returns an object of the wanted class for the root element of the result, `None` if the result has no
root element, or the text of the result if a string is wanted. -/
theorem C98_transform (env : XsltEnv Sheet) (plain : Node → Prop) (henv : XsltEnvOk env plain) (doc : Node) (hdoc : doc.tail = none) (a : Node.Addr) (n : Node) (hn : doc.get a = some n) (hpl : plain n)
    (htail : ∀ t, n.tail = some t → t.all Spec.xmlBlank = true) (g : SheetArg) (d : Node) (hg : g.doc env d) (sh : Sheet) (hsh : env.compile d = .ok sh) (rt : RetType)
    (ps : List (Str × PVal)) (hp : GoodParams ps) :
    xslTransform env doc (.elem a) g.filename g.arg rt ps = (env.run sh (n.setTail none) (ps.map (fun p => (p.1, asXsl p.2)))).map (gives rt) := by
  rw [transform_given env doc a n hn g d hg rt ps hp]
  have : inputTree env doc a n = .ok (n.setTail none) := by
    unfold inputTree
    by_cases ha : a = []
    · subst ha
      cases hn
      cases doc
      simp only [Node.tail] at hdoc
      subst hdoc
      rfl
    · rw [if_neg ha, henv.again n hpl htail]
  rw [this, hsh]

/-- C98.  Loading and compiling the stylesheet first (`load_xslt`) and transforming with it gives the same as transforming with the file or the string, for objects whose
element has no text behind it; a stylesheet that cannot be loaded raises the same exception in both cases. -/
theorem C98_compiled_agrees (env : XsltEnv Sheet) (plain : Node → Prop) (henv : XsltEnvOk env plain) (doc : Node) (hdoc : doc.tail = none) (a : Node.Addr) (n : Node) (hn : doc.get a = some n) (hpl : plain n)
    (htail : n.tail = none) (g : SheetArg) (rt : RetType) (ps : List (Str × PVal)) (hp : GoodParams ps) :
    xslTransform env doc (.elem a) g.filename g.arg rt ps =
      (match loadXslt env g.filename g.xsl with
        | .error e => .error e
        | .ok sh => xslTransform env doc (.elem a) none (.compiled sh) rt ps) := by
  have hin : inputTree env doc a n = .ok n := by
    have hself : n.setTail none = n := by cases n; simp only [Node.tail] at htail; subst htail; rfl
    unfold inputTree
    by_cases ha : a = []
    · subst ha; cases hn; simp
    · rw [if_neg ha, henv.again n hpl (by rw [htail]; simp), hself]
  unfold loadXslt
  cases hd : sheetDoc env g.filename g.xsl with
  | error e =>
    simp only
    unfold xslTransform
    rw [quoteParams_ok hp]
    cases g <;> simp only [SheetArg.arg, SheetArg.xsl] at hd ⊢ <;> rw [hd]
  | ok o =>
    have ho : ∃ d, o = some d := by
      cases g with
      | file f =>
        simp only [sheetDoc, SheetArg.filename, SheetArg.xsl] at hd
        cases h : env.parseFile f <;> simp [h] at hd; exact ⟨_, hd.symm⟩
      | text s =>
        simp only [sheetDoc, SheetArg.filename, SheetArg.xsl] at hd
        cases h : env.parseBytes s <;> simp [h, Except.map] at hd; exact ⟨_, hd.symm⟩
      | both f s =>
        simp only [sheetDoc, SheetArg.filename, SheetArg.xsl] at hd
        cases h : env.parseFile f <;> simp [h] at hd
        cases h : env.parseBytes s <;> simp [h, Except.map] at hd; exact ⟨_, hd.symm⟩
    obtain ⟨d, rfl⟩ := ho
    have hl : xslTransform env doc (.elem a) g.filename g.arg rt ps = match env.compile d with
        | .error e => .error e
        | .ok sh => (env.run sh n (ps.map (fun p => (p.1, asXsl p.2)))).map (gives rt) := by
      have hpres : (present rt) = gives rt := funext (present_gives rt)
      unfold xslTransform
      rw [quoteParams_ok hp]
      cases g <;> simp only [SheetArg.arg, SheetArg.xsl] at hd ⊢ <;> rw [hd] <;> simp only [hn, hin, hpres] <;> rfl
    rw [hl]
    simp only
    cases env.compile d with
    | error e => rfl
    | ok sh =>
      simp only
      unfold xslTransform
      rw [quoteParams_ok hp]
      simp only [hn]
      rw [show (present rt) = gives rt from funext (present_gives rt)]

/-- C98.  A compiled stylesheet is used even if a file is named, which is not looked at. -/
theorem C98_compiled_first (env : XsltEnv Sheet) (doc : Node) (node : TNode) (f : Option Str) (sh : Sheet) (rt : RetType) (ps : List (Str × PVal)) :
    xslTransform env doc node f (.compiled sh) rt ps = xslTransform env doc node none (.compiled sh) rt ps := rfl

/-- C98.  A string parameter that XML cannot hold raises ValueError before anything else happens. -/
theorem C98_bad_parameter (env : XsltEnv Sheet) (doc : Node) (node : TNode) (f : Option Str) (xsl : XslArg Sheet) (rt : RetType) (ps : List (Str × PVal)) (h : ¬ GoodParams ps) :
    xslTransform env doc node f xsl rt ps = .error .value := by
  unfold xslTransform
  rw [quoteParams_bad h]

/-- C98.  With neither a file nor a stylesheet the call raises UnboundLocalError (for an object that can be serialised and parsed again). -/
theorem C98_counterexample_no_stylesheet (env : XsltEnv Sheet) (plain : Node → Prop) (henv : XsltEnvOk env plain) (doc : Node) (a : Node.Addr) (n : Node) (hn : doc.get a = some n) (hpl : plain n)
    (htail : n.tail = none) (rt : RetType) (ps : List (Str × PVal)) (hp : GoodParams ps) :
    xslTransform env doc (.elem a) none .missing rt ps = .error .unbound := by
  have hin : ∃ t, inputTree env doc a n = .ok t := by
    unfold inputTree
    by_cases ha : a = []
    · exact ⟨_, if_pos ha⟩
    · exact ⟨_, by rw [if_neg ha, henv.again n hpl (by rw [htail]; simp)]⟩
  obtain ⟨t, hin⟩ := hin
  unfold xslTransform
  rw [quoteParams_ok hp]
  simp only [sheetDoc, hn, hin]

/-- C98.  An object whose element is inside of a document and followed by text cannot be transformed with a stylesheet given as file or string: the serialised element,
with that text, is not a document. -/
theorem C98_counterexample_tail (env : XsltEnv Sheet) (plain : Node → Prop) (henv : XsltEnvOk env plain) (doc : Node) (a : Node.Addr) (ha : a ≠ []) (n : Node) (hn : doc.get a = some n)
    (t : Str) (ht : n.tail = some t) (hb : t.all Spec.xmlBlank = false) (g : SheetArg) (d : Node) (hg : g.doc env d) (rt : RetType) (ps : List (Str × PVal)) (hp : GoodParams ps) :
    xslTransform env doc (.elem a) g.filename g.arg rt ps = .error .syntaxError := by
  rw [transform_given env doc a n hn g d hg rt ps hp]
  have : inputTree env doc a n = .error .syntaxError := by
    unfold inputTree
    rw [if_neg ha, henv.tail n t ht hb]
  rw [this]

/-- C98.  A file that cannot be read raises, even if a stylesheet is given as a string as well, which would be used. -/
theorem C98_counterexample_unused_file (env : XsltEnv Sheet) (doc : Node) (node : TNode) (f s : Str) (hf : env.parseFile f = .error .io) (rt : RetType)
    (ps : List (Str × PVal)) (hp : GoodParams ps) : xslTransform env doc node (some f) (.text s) rt ps = .error .io := by
  unfold xslTransform
  rw [quoteParams_ok hp]
  simp only [sheetDoc, hf]

end

/-! ### an example -/

/-- `<a/>` -/
def toyElem : Node := .mk (.elem ⟨none, c%"a"⟩) [] none [] none

/-- A toy lxml for the example: it can parse `a` (to `<a/>`) and nothing else, the file `f` is a stylesheet, and running a stylesheet gives the element that it is run on. -/
def toyEnv : XsltEnv Node where
  parseFile f := if f = c%"f" then .ok (.mk (.elem ⟨none, c%"s"⟩) [] none [] none) else .error .io
  parseBytes s := if s = c%"a" then .ok toyElem else .error .syntaxError
  tostring n := if (n.tail.getD []).all Spec.xmlBlank then c%"a" else c%"a!"
  compile d := .ok d
  run _ n ps := .ok ⟨some n, ps.flatMap (fun p => match p.2 with | .quoted s => s | .raw _ => [])⟩

theorem toyEnv_ok : XsltEnvOk toyEnv (fun n => n.setTail none = toyElem) := by
  constructor
  · intro n hp ht
    have : (n.tail.getD []).all Spec.xmlBlank = true := by
      cases h : n.tail with
      | none => rfl
      | some t => exact ht t h
    simp only [toyEnv, this, if_true]
    rw [hp]
  · intro n t h1 h2
    simp only [toyEnv, h1, Option.getD_some, h2, Bool.false_eq_true, if_false]
    rw [if_neg (by decide)]

/-- `<r><a/> <a/>x</r>` -/
def toyDoc : Node := .mk (.elem ⟨none, c%"r"⟩) [] none [toyElem.setTail (some c%" "), toyElem.setTail (some c%"x")] none

example : xslTransform toyEnv toyDoc (.elem [0]) (some c%"f") .missing (.object 0) [(c%"p", .str c%"v")] = .ok (.object 0 toyElem) :=
  C98_transform toyEnv _ toyEnv_ok toyDoc rfl [0] _ rfl rfl (by intro t ht; cases ht; decide) (.file c%"f") _ rfl _ rfl (.object 0) _
    (by intro k s h; simp at h; obtain ⟨-, rfl⟩ := h; decide)
example : xslTransform toyEnv toyDoc (.elem [0]) none (.text c%"a") .string [(c%"p", .str c%"v")] = .ok (.string c%"v") :=
  C98_transform toyEnv _ toyEnv_ok toyDoc rfl [0] _ rfl rfl (by intro t ht; cases ht; decide) (.text c%"a") _ rfl _ rfl .string _
    (by intro k s h; simp at h; obtain ⟨-, rfl⟩ := h; decide)
/-- The second `<a/>` is followed by text. -/
example : xslTransform toyEnv toyDoc (.elem [1]) (some c%"f") .missing (.object 0) [] = .error .syntaxError :=
  C98_counterexample_tail toyEnv _ toyEnv_ok toyDoc [1] (by simp) _ rfl c%"x" rfl (by decide) (.file c%"f") _ rfl (.object 0) [] (by intro k s h; simp at h)

end Props
