import Verif.Core.Catalog
import Verif.Props.ListField
import Mathlib.Tactic.Tauto
/-
Properties C55 (generated catalog), C56 (download of a schema), C57 (registration of the catalog).

Model: Verif/Core/Catalog.lean.
-/
namespace Props
open XPath Xml Spec Fields Catalog

/-! ### C56 -/

/-- The body of a response. -/
def bodyOf : Response → Bytes
  | .body chunks _ => chunks.flatten
  | _ => []

/-- What a successfully saved file holds: the body, with the comment if there is one. -/
def savedContent (addComment : AddComment) (resp : Response) (comment : Option Str) : Option Bytes := match resp, comment with
  | .body chunks false, none => some chunks.flatten
  | .body chunks false, some c => addComment c chunks.flatten
  | _, _ => none

/-- The path a change is about. -/
def opPath : FileOp → Path
  | .truncate p => p
  | .write p _ => p

theorem applyOps_other (fs : Files) (ops : List FileOp) (q : Path) (h : ∀ op ∈ ops, opPath op ≠ q) : applyOps fs ops q = fs q := by
  unfold applyOps
  induction ops generalizing fs with
  | nil => rfl
  | cons op ops ih =>
    rw [List.foldl_cons, ih _ (fun o ho => h o (by simp [ho]))]
    have := h op (by simp)
    cases op <;> simp only [opPath] at this <;> simp [FileOp.apply, Ne.symm this]

theorem applyOps_append (fs : Files) (a b : List FileOp) : applyOps fs (a ++ b) = applyOps (applyOps fs a) b := List.foldl_append ..

theorem applyOps_writes (fs : Files) (p : Path) (bs : List Bytes) (b0 : Bytes) (h : fs p = some b0) : applyOps fs (bs.map (FileOp.write p)) p = some (b0 ++ bs.flatten) := by
  unfold applyOps
  induction bs generalizing fs b0 with
  | nil => simpa using h
  | cons b bs ih =>
    rw [List.map_cons, List.foldl_cons, ih _ (b0 ++ b) (by simp [FileOp.apply, h])]
    simp

theorem filter_flatten (chunks : List Bytes) : (chunks.filter (fun c => !c.isEmpty)).flatten = chunks.flatten := by
  induction chunks with
  | nil => rfl
  | cons c cs ih => cases c <;> simp [ih]

theorem download_paths (addComment : AddComment) (resp : Response) (p : Path) (comment : Option Str) :
    ∀ op ∈ (download addComment resp p comment).1, opPath op = p := by
  have h1 : ∀ chunks : List Bytes, ∀ op ∈ FileOp.truncate p :: chunks.map (FileOp.write p), opPath op = p := by
    intro chunks op hop
    rcases List.mem_cons.1 hop with rfl | hop
    · rfl
    · obtain ⟨b, -, rfl⟩ := List.mem_map.1 hop; rfl
  cases resp with
  | httpError c => simp [download]
  | noResponse => simp [download]
  | body chunks breaks =>
    cases breaks with
    | true => simp only [download, if_true]; exact h1 _
    | false =>
      cases comment with
      | none => simp only [download, Bool.false_eq_true, if_false]; exact h1 _
      | some c =>
        simp only [download, Bool.false_eq_true, if_false]
        cases hc : addComment c (chunks.filter (fun c => !c.isEmpty)).flatten with
        | none => exact h1 _
        | some b =>
          intro op hop
          rcases List.mem_append.1 hop with hop | hop
          · exact h1 _ op hop
          · simp only [List.mem_cons, List.not_mem_nil, or_false] at hop
            rcases hop with rfl | rfl <;> rfl

/-- `download_schema` returns True exactly if the response came completely (and could be parsed, if there is a comment); the file then holds the response, with the
comment if there is one, whatever the chunks were; no other file is touched. -/
theorem C56_saved (addComment : AddComment) (resp : Response) (p : Path) (comment : Option Str) (fs : Files) :
    ((download addComment resp p comment).2 = .saved ↔ (savedContent addComment resp comment).isSome = true) ∧
    ((download addComment resp p comment).2 = .saved → applyOps fs (download addComment resp p comment).1 p = savedContent addComment resp comment) ∧
    ∀ q, q ≠ p → applyOps fs (download addComment resp p comment).1 q = fs q := by
  refine ⟨?_, ?_, fun q hq => applyOps_other _ _ _ (fun op hop => by rw [download_paths addComment resp p comment op hop]; exact Ne.symm hq)⟩
  · cases resp with
    | httpError c => cases comment <;> simp [download, savedContent]
    | noResponse => cases comment <;> simp [download, savedContent]
    | body chunks breaks =>
      cases breaks with
      | true => cases comment <;> simp [download, savedContent]
      | false =>
        cases comment with
        | none => simp [download, savedContent]
        | some c =>
          simp only [download, savedContent, Bool.false_eq_true, if_false, filter_flatten]
          cases addComment c chunks.flatten <;> simp
  · cases resp with
    | httpError c => simp [download]
    | noResponse => simp [download]
    | body chunks breaks =>
      have hw : ∀ fs : Files, applyOps fs (FileOp.truncate p :: (chunks.filter (fun c => !c.isEmpty)).map (FileOp.write p)) p = some chunks.flatten := by
        intro fs
        show applyOps (FileOp.apply fs (.truncate p)) _ p = _
        rw [applyOps_writes _ _ _ [] (by simp [FileOp.apply]), filter_flatten]; rfl
      cases breaks with
      | true => simp [download]
      | false =>
        cases comment with
        | none => intro _; simp only [download, savedContent, Bool.false_eq_true, if_false]; exact hw fs
        | some c =>
          simp only [download, savedContent, Bool.false_eq_true, if_false, filter_flatten]
          cases hc : addComment c chunks.flatten with
          | none => simp
          | some b =>
            intro _
            simp only
            rw [applyOps_append]
            simp [applyOps, FileOp.apply]

/-- It returns False exactly on an HTTP error, and then no file is touched; without a response the exception is passed on, and no file is touched either. -/
theorem C56_not_saved (addComment : AddComment) (resp : Response) (p : Path) (comment : Option Str) :
    ((download addComment resp p comment).2 = .notSaved ↔ ∃ code, resp = .httpError code) ∧
    ((download addComment resp p comment).2 = .notSaved → (download addComment resp p comment).1 = []) ∧
    (resp = .noResponse → download addComment resp p comment = ([], .raised)) := by
  cases resp with
  | httpError c => simp [download]
  | noResponse => simp [download]
  | body chunks breaks =>
    cases breaks with
    | true => simp [download]
    | false =>
      cases comment with
      | none => simp [download]
      | some c =>
        simp only [download, Bool.false_eq_true, if_false]
        cases addComment c (chunks.filter (fun c => !c.isEmpty)).flatten <;> simp

/-- Whenever the download stops (after any number of changes to the file system, for whatever reason), the file is as before, or holds a prefix of the response, or is
empty, or has the final content; all other files are as before. -/
theorem C56_crash (addComment : AddComment) (resp : Response) (p : Path) (comment : Option Str) (fs : Files) (k : Nat) :
    let fs' := applyOps fs ((download addComment resp p comment).1.take k)
    (fs' p = fs p ∨ (∃ b, fs' p = some b ∧ b <+: bodyOf resp) ∨ fs' p = savedContent addComment resp comment) ∧ ∀ q, q ≠ p → fs' q = fs q := by
  simp only
  refine ⟨?_, fun q hq => applyOps_other _ _ _ (fun op hop => by rw [download_paths addComment resp p comment op (List.mem_of_mem_take hop)]; exact Ne.symm hq)⟩
  have hpre : ∀ chunks : List Bytes, ∀ k, (applyOps fs ((FileOp.truncate p :: (chunks.filter (fun c => !c.isEmpty)).map (FileOp.write p)).take k)) p = fs p ∨
      ∃ b, (applyOps fs ((FileOp.truncate p :: (chunks.filter (fun c => !c.isEmpty)).map (FileOp.write p)).take k)) p = some b ∧ b <+: chunks.flatten := by
    intro chunks k
    cases k with
    | zero => left; rfl
    | succ k =>
      right
      rw [List.take_succ_cons, ← List.map_take]
      refine ⟨((chunks.filter (fun c => !c.isEmpty)).take k).flatten, ?_, ?_⟩
      · show applyOps (FileOp.apply fs (.truncate p)) _ p = _
        rw [applyOps_writes _ _ _ [] (by simp [FileOp.apply])]; rfl
      · rw [← filter_flatten chunks]
        conv_rhs => rw [← List.take_append_drop k (chunks.filter (fun c => !c.isEmpty)), List.flatten_append]
        exact List.prefix_append _ _
  cases resp with
  | httpError c => simp [download, applyOps]
  | noResponse => simp [download, applyOps]
  | body chunks breaks =>
    have h2 := hpre chunks k
    have h3 : (∃ b, (applyOps fs ((FileOp.truncate p :: (chunks.filter (fun c => !c.isEmpty)).map (FileOp.write p)).take k)) p = some b ∧ b <+: chunks.flatten) →
      (∃ b, (applyOps fs ((FileOp.truncate p :: (chunks.filter (fun c => !c.isEmpty)).map (FileOp.write p)).take k)) p = some b ∧ b <+: bodyOf (.body chunks breaks)) := id
    cases breaks with
    | true => simp only [download, if_true]; exact h2.imp id (fun h => Or.inl (h3 h))
    | false =>
      cases comment with
      | none => simp only [download, Bool.false_eq_true, if_false]; exact h2.imp id (fun h => Or.inl (h3 h))
      | some c =>
        simp only [download, savedContent, Bool.false_eq_true, if_false, filter_flatten]
        cases hc : addComment c chunks.flatten with
        | none => simp only; exact h2.imp id (fun h => Or.inl (h3 h))
        | some b =>
          simp only
          rw [List.take_append, applyOps_append]
          generalize hm : (k - (FileOp.truncate p :: (chunks.filter (fun c => !c.isEmpty)).map (FileOp.write p)).length) = m
          cases m with
          | zero => simp only [List.take_zero]; exact h2.imp id (fun h => Or.inl (h3 h))
          | succ m =>
            cases m with
            | zero => right; left; exact ⟨[], by simp [applyOps, FileOp.apply], List.nil_prefix⟩
            | succ m => right; right; simp [applyOps, FileOp.apply]

example : download (fun _ b => some (b ++ [9])) (.body [[1, 2], [], [3]] false) c%"x" (some c%"c") =
    ([.truncate c%"x", .write c%"x" [1, 2], .write c%"x" [3], .truncate c%"x", .write c%"x" [1, 2, 3, 9]], .saved) := by decide

/-- Counterexample: a download that is interrupted, or that cannot be parsed, raises and has replaced the file that was there. -/
theorem C56_counterexample_broken (addComment : AddComment) (p : Path) (comment : Option Str) (old : Bytes) :
    let r := download addComment (.body [[1]] true) p comment
    r.2 = .raised ∧ applyOps (fun _ => some old) r.1 p = some [1] := by
  simp [download, applyOps, FileOp.apply]

/-! ### C57 -/

theorem isIn_iff (p s : Str) : isIn p s = true ↔ p <:+: s := by
  induction s with
  | nil => simp [isIn]
  | cons c s ih =>
    rw [isIn, Bool.or_eq_true, ih, List.isPrefixOf_iff_prefix, List.infix_cons_iff]

/-- The entries of a list of paths. -/
def entries (env : Option Str) : List Str := ((env.getD []).splitOn ':').filter (fun p => !p.isEmpty)

/-- The environment after `n` imports. -/
def imports (file : Str) (n : Nat) (env : Option Str) : Option Str := (register file)^[n] env

theorem register_new (file : Str) (hf : file ≠ []) (env : Option Str) (h : ¬ file <:+: env.getD []) :
    register file env = some (if env.getD [] = [] then file else env.getD [] ++ ':' :: file) := by
  unfold register
  rw [if_neg (by rw [isIn_iff]; exact h)]
  cases env with
  | none => cases file <;> simp at hf ⊢
  | some e =>
    cases e with
    | nil => cases file <;> simp at hf ⊢
    | cons c e => cases file <;> simp [List.intercalate] at hf ⊢

theorem entries_new (file : Str) (hf : file ≠ []) (hc : ':' ∉ file) (env : Option Str) (h : ¬ file <:+: env.getD []) :
    entries (register file env) = entries env ++ [file] := by
  have hs : file.splitOn ':' = [file] := List.splitOn_eq_singleton hc
  rw [register_new file hf env h]
  unfold entries
  by_cases he : env.getD [] = []
  · rw [if_pos he, he]
    cases file with
    | nil => exact absurd rfl hf
    | cons c f => simp [hs]
  · rw [if_neg he]
    have : (env.getD [] ++ ':' :: file).splitOn ':' = (env.getD []).splitOn ':' ++ file.splitOn ':' := by
      rw [List.splitOn_append_cons_self]
    simp only [Option.getD_some]
    rw [this, hs, List.filter_append]
    cases file with
    | nil => exact absurd rfl hf
    | cons c f => simp


theorem register_there {file : Str} {env : Option Str} (h : file <:+: env.getD []) : register file env = env := by
  unfold register
  rw [if_pos ((isIn_iff _ _).2 h)]

theorem infix_intercalate (c : Char) (A B : List Str) (f : Str) : f <:+: [c].intercalate (A ++ f :: B) := by
  induction A with
  | nil =>
    cases B with
    | nil => simp [List.intercalate]
    | cons b B => exact ⟨[], c :: [c].intercalate (b :: B), by simp [List.intercalate]⟩
  | cons a A ih =>
    have : [c].intercalate (a :: A ++ f :: B) = a ++ c :: [c].intercalate (A ++ f :: B) := by
      cases A <;> simp [List.intercalate]
    rw [this]
    obtain ⟨x, y, h⟩ := ih
    exact ⟨a ++ c :: x, y, by rw [← h]; simp⟩

/-- A path without colon that is not already a part of the variable is added as last entry; the entries that were there stay in front of it, in order; further imports change
nothing more. -/
theorem C57_registered_once (file : Str) (hf : file ≠ []) (hc : ':' ∉ file) (env : Option Str) (h : ¬ file <:+: env.getD []) (n : Nat) :
    entries (imports file (n + 1) env) = entries env ++ [file] ∧ (entries (imports file (n + 1) env)).count file = 1 := by
  have h1 : file <:+: (register file env).getD [] := by
    rw [register_new file hf env h]
    by_cases he : env.getD [] = []
    · rw [if_pos he]; exact List.infix_refl _
    · rw [if_neg he]
      exact ⟨env.getD [] ++ [':'], [], by simp⟩
  have h2 : ∀ n, (register file)^[n] (register file env) = register file env := by
    intro n
    have hfix : register file (register file env) = register file env := by
      exact register_there h1
    exact Function.iterate_fixed hfix n
  have h3 : imports file (n + 1) env = register file env := by
    unfold imports
    rw [Function.iterate_succ_apply]
    exact h2 n
  have h4 : file ∉ entries env := by
    intro hm
    unfold entries at hm
    have hm := (List.mem_filter.1 hm).1
    refine h ?_
    have : file <:+: [':'].intercalate ((env.getD []).splitOn ':') := by
      obtain ⟨A, B, hAB⟩ := List.append_of_mem hm
      rw [hAB]
      exact infix_intercalate ':' A B file
    rwa [List.intercalate_splitOn] at this
  rw [h3, entries_new file hf hc env h]
  refine ⟨rfl, ?_⟩
  rw [List.count_append, List.count_eq_zero.2 h4]
  simp

/-- If the path is an entry already, imports change nothing. -/
theorem C57_already_there (file : Str) (env : Option Str) (h : file ∈ entries env) (n : Nat) : imports file n env = env := by
  have hm := (List.mem_filter.1 h).1
  have hin : file <:+: env.getD [] := by
    have : file <:+: [':'].intercalate ((env.getD []).splitOn ':') := by
      obtain ⟨A, B, hAB⟩ := List.append_of_mem hm
      rw [hAB]
      exact infix_intercalate ':' A B file
    rwa [List.intercalate_splitOn] at this
  unfold imports
  refine Function.iterate_fixed ?_ n
  unfold register
  rw [if_pos ((isIn_iff _ _).2 hin)]

/-- Whatever the variable was, all imports but the first change nothing, and the entries that were there stay. -/
theorem C57_idempotent (file : Str) (hf : file ≠ []) (env : Option Str) (n : Nat) :
    imports file (n + 1) env = imports file 1 env ∧ env.getD [] <+: (imports file (n + 1) env).getD [] := by
  have h1 : file <:+: (register file env).getD [] := by
    by_cases h : file <:+: env.getD []
    · unfold register; rw [if_pos ((isIn_iff _ _).2 h)]; exact h
    · rw [register_new file hf env h]
      by_cases he : env.getD [] = []
      · rw [if_pos he]; exact List.infix_refl _
      · rw [if_neg he]
        exact ⟨env.getD [] ++ [':'], [], by simp⟩
  have hfix : register file (register file env) = register file env := register_there h1
  have h3 : imports file (n + 1) env = register file env := by
    unfold imports
    rw [Function.iterate_succ_apply]
    exact Function.iterate_fixed hfix n
  refine ⟨by rw [h3]; rfl, ?_⟩
  rw [h3]
  by_cases h : file <:+: env.getD []
  · rw [register_there h]; exact List.prefix_refl _
  · rw [register_new file hf env h]
    by_cases he : env.getD [] = []
    · rw [he]; exact List.nil_prefix
    · rw [if_neg he]; exact List.prefix_append _ _

example : imports c%"/c.xml" 3 (some c%"/a.xml:/b.xml") = some c%"/a.xml:/b.xml:/c.xml" ∧ imports c%"/c.xml" 2 none = some c%"/c.xml" := by
  constructor <;> decide

/-- Counterexample: if the path is only a part of an entry, it is never registered. -/
theorem C57_counterexample_substring : imports c%"/c.xml" 5 (some c%"/usr/c.xml") = some c%"/usr/c.xml" ∧ c%"/c.xml" ∉ entries (some c%"/usr/c.xml") := by
  constructor <;> decide

/-- Counterexample: libxml2 separates the entries of `XML_CATALOG_FILES` by blanks, not by colons (as documented on xmlsoft.org/catalog.html); read that way, a variable with one
entry ends up with one entry that is neither the old one nor the new one. -/
theorem C57_counterexample_separator : ((imports c%"/c.xml" 1 (some c%"/a.xml")).getD []).splitOn ' ' = [c%"/a.xml:/c.xml"] := by
  decide

/-! ### C55 -/

section
variable [PyUnicode] {eng : Engine} {e : Expr}

/-- The name of the entries. -/
def uriQ : QName := ⟨some catNs, c%"uri"⟩

/-- How the download of a schema ends. -/
def outcomeOf (addComment : AddComment) (fetch : Str → Response) (dir comment : Str) (u : Str) : Outcome :=
  (download addComment (fetch u) (joinPath dir (basename u)) (some comment)).2

/-- The changes to the file system by the download of a schema. -/
def opsOf (addComment : AddComment) (fetch : Str → Response) (dir comment : Str) (u : Str) : List FileOp :=
  (download addComment (fetch u) (joinPath dir (basename u)) (some comment)).1

theorem splitOn_slash (s : Str) : ∀ c ∈ s.splitOn '/', '/' ∉ c := by
  induction s with
  | nil => intro c hc; simp at hc; simp [hc]
  | cons a s ih =>
    intro c hc
    rw [List.splitOn_cons_eq_if_modifyHead] at hc
    by_cases ha : (a == '/') = true
    · rw [if_pos ha] at hc
      rcases List.mem_cons.1 hc with rfl | hc
      · simp
      · exact ih c hc
    · rw [if_neg ha] at hc
      cases hs : s.splitOn '/' with
      | nil => simp at hs
      | cons w ws =>
        rw [hs] at hc ih
        simp only [List.modifyHead_cons] at hc
        rcases List.mem_cons.1 hc with rfl | hc
        · simp only [List.mem_cons, not_or]
          exact ⟨fun h => ha (by simp [← h]), ih w (by simp)⟩
        · exact ih c (by simp [hc])

/-- Where a schema is saved: in the directory (given with or without a slash at its end), under the last part of its address. -/
theorem C55_location (dir address name : Str) (hd : dir ≠ []) (hs : dir.getLast? ≠ some '/') (hn : '/' ∉ name) :
    joinPath dir (basename (address ++ '/' :: name)) = dir ++ '/' :: name ∧ joinPath (dir ++ ['/']) (basename (address ++ '/' :: name)) = dir ++ '/' :: name := by
  have hb : basename (address ++ '/' :: name) = name := by
    have h1 : (address ++ '/' :: name).splitOn '/' = address.splitOn '/' ++ [name] := by
      have h2 : (address ++ '/' :: name) = ['/'].intercalate (address.splitOn '/' ++ [name]) := by
        have h3 := List.intercalate_splitOn (xs := address) '/'
        have : ∀ (l : List Str), l ≠ [] → ['/'].intercalate (l ++ [name]) = ['/'].intercalate l ++ '/' :: name := by
          intro l
          induction l with
          | nil => intro h; exact absurd rfl h
          | cons x l ih =>
            intro _
            cases l with
            | nil => simp [List.intercalate]
            | cons y l =>
              have := ih (by simp)
              simp only [List.intercalate, List.cons_append, List.intersperse_cons_cons, List.flatten_cons] at this ⊢
              rw [this]; simp
        rw [this _ (List.splitOn_ne_nil _ _), h3]
      rw [h2, List.splitOn_intercalate]
      · intro l hl
        rcases List.mem_append.1 hl with hl | hl
        · exact splitOn_slash address l hl
        · rw [List.mem_singleton.1 hl]; exact hn
      · simp
    unfold basename
    rw [h1]; simp
  rw [hb]
  constructor
  · unfold joinPath; rw [if_neg hd, if_neg hs]
  · unfold joinPath; rw [if_neg (by simp), if_pos (by simp)]; simp

/-- The specified catalog: an entry (URI, file name) for each of the schemas. -/
def catalogOf (us : List Str) : Node := .mk (.elem ⟨some catNs, c%"catalog"⟩) [] none (us.map (fun u => uriNode u (basename u))) none

theorem uri_isMember (a b : Str) : isMember uriQ [] (uriNode a b) = true := by
  simp [isMember, uriNode, uriQ, Node.isElem, satAll]

/-- The field `uri_list` of the catalog. -/
theorem uri_field (heng : EngineOk eng) (us : List Str) (hp : SimpleField catCtx c%"c:uri" e [.child uriQ []]) :
    ListAt eng xpathNumber catCtx c%"c:uri" e uriQ [] nodeKind (nodeView uriQ []) [] (catalogOf us) (catalogOf us) where
  engine := heng
  num := xpathNumber_ok
  field := hp
  kind := .node
  node := rfl
  fits := fun _ _ => trivial

theorem addUri_run (heng : EngineOk eng) (hp : SimpleField catCtx c%"c:uri" e [.child uriQ []]) (us : List Str) (u : Str) :
    addUri eng nodeKind.read e u (basename u) (catalogOf us) = (.ok (), catalogOf (us ++ [u])) := by
  obtain ⟨c, n', h1, -, h3, A, B, hAB, hn', hB, -⟩ := C28_append_position (uri_field heng us hp) (uriNode u (basename u)) (uri_isMember _ _)
  have hB0 : B = [] := by
    cases B with
    | nil => rfl
    | cons b B =>
      have hb : b ∈ (catalogOf us).children := by rw [hAB]; simp
      have hb' : isMember uriQ [] b = true := by
        obtain ⟨w, -, rfl⟩ := List.mem_map.1 hb
        exact uri_isMember _ _
      rw [hB b (by simp)] at hb'
      cases hb'
  subst hB0
  have h3 : c = uriNode u (basename u) := h3
  subst h3
  have hA : A = us.map (fun u => uriNode u (basename u)) := by
    have : (catalogOf us).children = us.map (fun u => uriNode u (basename u)) := rfl
    rw [this] at hAB
    simpa using hAB.symm
  have hn : n' = catalogOf (us ++ [u]) := by
    rw [hn', hA]
    simp [catalogOf, Node.withChildren]
  have h1' : (addUri eng nodeKind.read e u (basename u) >>= fun _ => pure ListRes.unit) (catalogOf us) = (.ok .unit, n') := h1
  rw [← hn]
  cases hr : addUri eng nodeKind.read e u (basename u) (catalogOf us) with
  | mk r s =>
    cases r with
    | ok x =>
      rw [bind_ok hr] at h1'
      have : s = n' := congrArg Prod.snd h1'
      rw [this]
    | error er =>
      rw [bind_err hr] at h1'
      cases congrArg Prod.fst h1'


variable (addComment : AddComment) (fetch : Str → Response) (dir comment : Str)

theorem catalogLoop_run (heng : EngineOk eng) (hp : SimpleField catCtx c%"c:uri" e [.child uriQ []]) (us done : List Str)
    (h : ∀ u ∈ us, outcomeOf addComment fetch dir comment u ≠ .raised) :
    catalogLoop eng nodeKind.read e addComment fetch dir comment us (catalogOf done) =
      (us.flatMap (opsOf addComment fetch dir comment),
       .ok (catalogOf (done ++ us.filter (fun u => decide (outcomeOf addComment fetch dir comment u = .saved))))) := by
  induction us generalizing done with
  | nil => simp [catalogLoop]
  | cons u us ih =>
    have hu := h u (by simp)
    have ih := fun d => ih d (fun v hv => h v (by simp [hv]))
    simp only [outcomeOf] at hu
    rw [catalogLoop, List.flatMap_cons]
    cases hd : download addComment (fetch u) (joinPath dir (basename u)) (some comment) with
    | mk ops oc =>
      have h1 : opsOf addComment fetch dir comment u = ops := by simp [opsOf, hd]
      have h2 : outcomeOf addComment fetch dir comment u = oc := by simp [outcomeOf, hd]
      rw [hd] at hu
      cases oc with
      | raised => exact absurd rfl hu
      | notSaved =>
        simp only
        rw [ih done, h1, List.filter_cons_of_neg (by rw [h2]; decide)]
      | saved =>
        simp only
        rw [addUri_run heng hp done u]
        simp only
        rw [ih (done ++ [u]), h1, List.filter_cons_of_pos (by rw [h2]; decide)]
        simp

theorem catalogLoop_raised (heng : EngineOk eng) (hp : SimpleField catCtx c%"c:uri" e [.child uriQ []]) (us : List Str) (u : Str) (rest done : List Str)
    (h : ∀ v ∈ us, outcomeOf addComment fetch dir comment v ≠ .raised) (hu : outcomeOf addComment fetch dir comment u = .raised) :
    ∃ er, catalogLoop eng nodeKind.read e addComment fetch dir comment (us ++ u :: rest) (catalogOf done) =
      ((us ++ [u]).flatMap (opsOf addComment fetch dir comment), .error er) := by
  induction us generalizing done with
  | nil =>
    simp only [outcomeOf] at hu
    rw [List.nil_append, catalogLoop]
    cases hd : download addComment (fetch u) (joinPath dir (basename u)) (some comment) with
    | mk ops oc =>
      have h1 : opsOf addComment fetch dir comment u = ops := by simp [opsOf, hd]
      rw [hd] at hu
      simp only at hu
      subst hu
      exact ⟨_, by simp [h1]; rfl⟩
  | cons v us ih =>
    have hv := h v (by simp)
    simp only [outcomeOf] at hv
    rw [List.cons_append, catalogLoop]
    cases hd : download addComment (fetch v) (joinPath dir (basename v)) (some comment) with
    | mk ops oc =>
      have h1 : opsOf addComment fetch dir comment v = ops := by simp [opsOf, hd]
      rw [hd] at hv
      cases oc with
      | raised => exact absurd rfl hv
      | notSaved =>
        obtain ⟨er, ih⟩ := ih done (fun w hw => h w (by simp [hw]))
        simp only
        rw [ih]
        exact ⟨er, by simp [h1]⟩
      | saved =>
        obtain ⟨er, ih⟩ := ih (done ++ [v]) (fun w hw => h w (by simp [hw]))
        simp only
        rw [addUri_run heng hp done v]
        simp only
        rw [ih]
        exact ⟨er, by simp [h1]⟩

/-- If no download raises: the catalog has exactly one entry (URI, file name) for every schema that was saved, in order, and nothing else; the catalog file is written
(with that catalog) exactly if there is one.  Failed downloads are skipped. -/
theorem C55_entries (heng : EngineOk eng) (hp : SimpleField catCtx c%"c:uri" e [.child uriQ []]) (serialize : Node → Bytes) (schemas : List Str) (file : Str)
    (h : ∀ u ∈ schemas, outcomeOf addComment fetch dir comment u ≠ .raised) :
    let saved := schemas.filter (fun u => decide (outcomeOf addComment fetch dir comment u = .saved))
    generateCatalog eng nodeKind.read e serialize addComment fetch schemas dir file comment =
      (schemas.flatMap (opsOf addComment fetch dir comment) ++ (if saved = [] then [] else [.truncate file, .write file (serialize (catalogOf saved))]),
       .ok (catalogOf saved)) := by
  simp only
  have h1 := catalogLoop_run addComment fetch dir comment heng hp schemas [] h
  rw [List.nil_append] at h1
  unfold generateCatalog
  rw [show emptyCatalog = catalogOf [] from rfl, h1]
  simp only
  generalize hs : schemas.filter (fun u => decide (outcomeOf addComment fetch dir comment u = .saved)) = saved
  have h2 : listLen eng catCtx nodeKind.read c%"c:uri" (.elem []) (catalogOf saved) = (.ok saved.length, catalogOf saved) := by
    obtain ⟨put, hS⟩ := (uri_field heng saved hp).kind.store_ok xpathNumber_ok
    obtain ⟨ax, t, es, rfl⟩ := res_single hp.path
    have hm : members uriQ [] (catalogOf saved) = saved.map (fun u => uriNode u (basename u)) := by
      unfold members
      exact List.filter_eq_self.2 (by
        intro c hc
        obtain ⟨w, -, rfl⟩ := List.mem_map.1 hc
        exact uri_isMember _ _)
    have := listLen_run heng hp.parse hp.path hS (a := []) (s := catalogOf saved) (n := catalogOf saved) (l := saved.map (fun u => uriNode u (basename u))) rfl
      ⟨fun _ _ => trivial, by rw [hm]; exact List.map_id _⟩
    rw [List.length_map] at this
    exact this
  rw [h2]
  simp only
  cases saved with
  | nil => simp
  | cons a b => simp

/-- If a download raises, so does `generate_catalog`; the schemas before it have been dealt with, those behind it have not, and the catalog file is not written. -/
theorem C55_raised (heng : EngineOk eng) (hp : SimpleField catCtx c%"c:uri" e [.child uriQ []]) (serialize : Node → Bytes) (us : List Str) (u : Str) (rest : List Str) (file : Str)
    (h : ∀ v ∈ us, outcomeOf addComment fetch dir comment v ≠ .raised) (hu : outcomeOf addComment fetch dir comment u = .raised) :
    ∃ er, generateCatalog eng nodeKind.read e serialize addComment fetch (us ++ u :: rest) dir file comment =
      ((us ++ [u]).flatMap (opsOf addComment fetch dir comment), .error er) := by
  obtain ⟨er, h1⟩ := catalogLoop_raised addComment fetch dir comment heng hp us u rest [] h hu
  refine ⟨er, ?_⟩
  unfold generateCatalog
  rw [show emptyCatalog = catalogOf [] from rfl, h1]

theorem flatMap_ops_other (fs : Files) (us : List Str) (q : Path) (h : ∀ u ∈ us, joinPath dir (basename u) ≠ q) :
    applyOps fs (us.flatMap (opsOf addComment fetch dir comment)) q = fs q := by
  refine applyOps_other _ _ _ (fun op hop => ?_)
  obtain ⟨u, hu, hop⟩ := List.mem_flatMap.1 hop
  rw [download_paths _ _ _ _ op hop]
  exact h u hu

/-- The file system after a catalog was generated for schemas with different local files: every saved schema is complete in its file, the file of a schema that failed
with an HTTP error is as before, the catalog file holds the catalog if a schema was saved and is as before if not, all other files are as before. -/
theorem C55_files (heng : EngineOk eng) (hp : SimpleField catCtx c%"c:uri" e [.child uriQ []]) (serialize : Node → Bytes) (schemas : List Str) (file : Str)
    (h : ∀ u ∈ schemas, outcomeOf addComment fetch dir comment u ≠ .raised)
    (hd : (schemas.map (fun u => joinPath dir (basename u))).Nodup) (hf : file ∉ schemas.map (fun u => joinPath dir (basename u))) (fs : Files) :
    let saved := schemas.filter (fun u => decide (outcomeOf addComment fetch dir comment u = .saved))
    let fs' := applyOps fs (generateCatalog eng nodeKind.read e serialize addComment fetch schemas dir file comment).1
    (∀ u ∈ schemas, fs' (joinPath dir (basename u)) = if u ∈ saved then savedContent addComment (fetch u) (some comment) else fs (joinPath dir (basename u))) ∧
    fs' file = (if saved = [] then fs file else some (serialize (catalogOf saved))) ∧
    (∀ q, q ≠ file → q ∉ schemas.map (fun u => joinPath dir (basename u)) → fs' q = fs q) := by
  simp only
  rw [C55_entries addComment fetch dir comment heng hp serialize schemas file h]
  simp only
  generalize hs : schemas.filter (fun u => decide (outcomeOf addComment fetch dir comment u = .saved)) = saved
  have hother : ∀ fs q, q ≠ file → applyOps fs (if saved = [] then [] else [FileOp.truncate file, .write file (serialize (catalogOf saved))]) q = fs q := by
    intro fs q hq
    by_cases h0 : saved = []
    · rw [if_pos h0]; rfl
    · rw [if_neg h0]
      refine applyOps_other _ _ _ (fun op hop => ?_)
      simp only [List.mem_cons, List.not_mem_nil, or_false] at hop
      rcases hop with rfl | rfl <;> exact Ne.symm hq
  refine ⟨?_, ?_, ?_⟩
  · intro u hu
    have huf : joinPath dir (basename u) ≠ file := fun he => hf (by rw [← he]; exact List.mem_map_of_mem hu)
    rw [applyOps_append, hother _ _ huf]
    obtain ⟨A, B, rfl⟩ := List.append_of_mem hu
    rw [List.map_append, List.map_cons, List.nodup_append] at hd
    obtain ⟨-, h2, h3⟩ := hd
    have hA : ∀ v ∈ A, joinPath dir (basename v) ≠ joinPath dir (basename u) := fun v hv => h3 _ (List.mem_map_of_mem hv) _ (by simp)
    have hB : ∀ v ∈ B, joinPath dir (basename v) ≠ joinPath dir (basename u) := fun v hv he =>
      (List.nodup_cons.1 h2).1 (by rw [← he]; exact List.mem_map_of_mem hv)
    rw [List.flatMap_append, List.flatMap_cons, applyOps_append, applyOps_append, flatMap_ops_other _ _ _ _ _ B _ hB]
    obtain ⟨-, k2, -⟩ := C56_saved addComment (fetch u) (joinPath dir (basename u)) (some comment) (applyOps fs (A.flatMap (opsOf addComment fetch dir comment)))
    obtain ⟨-, k4, -⟩ := C56_not_saved addComment (fetch u) (joinPath dir (basename u)) (some comment)
    by_cases hsv : outcomeOf addComment fetch dir comment u = .saved
    · rw [if_pos (by rw [← hs]; exact List.mem_filter.2 ⟨hu, by simp [hsv]⟩)]
      exact k2 hsv
    · rw [if_neg (by rw [← hs]; intro hm; exact hsv (by simpa using (List.mem_filter.1 hm).2))]
      have hns : outcomeOf addComment fetch dir comment u = .notSaved := by
        have := h u hu
        cases hx : outcomeOf addComment fetch dir comment u <;> simp_all
      have : opsOf addComment fetch dir comment u = [] := k4 hns
      rw [this]
      exact flatMap_ops_other addComment fetch dir comment fs A _ hA
  · rw [applyOps_append]
    by_cases h0 : saved = []
    · rw [if_pos h0, if_pos h0]
      exact flatMap_ops_other addComment fetch dir comment fs schemas _ (fun u hu he => hf (by rw [← he]; exact List.mem_map_of_mem hu))
    · rw [if_neg h0, if_neg h0]
      simp [applyOps, FileOp.apply]
  · intro q hq hq2
    rw [applyOps_append, hother _ _ hq]
    exact flatMap_ops_other addComment fetch dir comment fs schemas _ (fun u hu he => hq2 (by rw [← he]; exact List.mem_map_of_mem hu))

end

/-- The field `uri_list`, as the parser reads its XPath. -/
theorem uri_simple : SimpleField catCtx c%"c:uri" (ast c%"c:uri") [.child uriQ []] where
  parse := by decide
  path := by rfl
  canonical := by decide
  ok := by decide

/-- Three schemas, the second of which fails: two entries. -/
def sampleFetch (u : Str) : Response := if u = c%"h/b.xsd" then .httpError 404 else .body [[1], [2]] false

example : (generateCatalog refEngine nodeKind.read (ast c%"c:uri") (fun _ => [7]) (fun _ b => some (b ++ [9])) sampleFetch [c%"h/a.xsd", c%"h/b.xsd", c%"h/c.xsd"] c%"d" c%"d/catalog.xml" c%"x").2 =
    .ok (catalogOf [c%"h/a.xsd", c%"h/c.xsd"]) ∧
    ∀ u ∈ [c%"h/a.xsd", c%"h/b.xsd", c%"h/c.xsd"], outcomeOf (fun _ b => some (b ++ [9])) sampleFetch c%"d" c%"x" u ≠ .raised := by
  have h2 : ∀ u ∈ [c%"h/a.xsd", c%"h/b.xsd", c%"h/c.xsd"], outcomeOf (fun _ b => some (b ++ [9])) sampleFetch c%"d" c%"x" u ≠ .raised := by decide
  refine ⟨?_, h2⟩
  rw [C55_entries _ _ _ _ refEngine_ok uri_simple _ _ _ h2]
  decide

/-- Counterexample: two schemas with the same file name; both get an entry that names the same file, which holds only the second. -/
theorem C55_counterexample_same_name :
    let fetch : Str → Response := fun u => if u = c%"g/a.xsd" then .body [[1]] false else .body [[2]] false
    let r := generateCatalog refEngine nodeKind.read (ast c%"c:uri") (fun _ => [7]) (fun _ b => some b) fetch [c%"g/a.xsd", c%"h/a.xsd"] c%"d" c%"d/catalog.xml" c%"x"
    r.2 = .ok (catalogOf [c%"g/a.xsd", c%"h/a.xsd"]) ∧ basename c%"g/a.xsd" = basename c%"h/a.xsd" ∧ applyOps (fun _ => none) r.1 c%"d/a.xsd" = some [2] := by
  simp only
  rw [C55_entries _ _ _ _ refEngine_ok uri_simple _ _ _ (by decide)]
  refine ⟨?_, ?_, ?_⟩ <;> decide

/-! ### the other theorems applied to files and addresses -/

example := C55_location c%"d" c%"http://h/x" c%"a.xsd" (by decide) (by decide) (by decide)
example := C55_raised (eng := refEngine) (e := ast c%"c:uri") (addComment := fun _ b => some (b ++ [9])) (fetch := fun u => if u = c%"h/b.xsd" then .body [[1]] true else .body [[1], [2]] false)
  (dir := c%"d") (comment := c%"x") refEngine_ok uri_simple (fun _ => [7]) [c%"h/a.xsd"] c%"h/b.xsd" [c%"h/c.xsd"] c%"d/catalog.xml" (by decide) (by decide)
example := C57_registered_once c%"/c.xml" (by decide) (by decide) (some c%"/a.xml:/b.xml") (by decide) 2
example : imports c%"/a.xml" 5 (some c%"/a.xml:/b.xml") = some c%"/a.xml:/b.xml" := C57_already_there _ _ (by decide) 5

end Props
