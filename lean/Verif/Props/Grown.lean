import Verif.Props.AnyDelete
import Verif.XmlMap.GrownLemmas
/-
Property C116: assigning a text, a number, a date or a truth value, with any XPath at all, only adds elements and touches one element; no program of such assignments and of additions to lists
loses anything.

Model: `managerSet`, `managerCreate` (Verif/XmlMap/Manager.lean), the operations of lists (Verif/XmlMap/NodeList.lean).  Specification: Verif/Spec/Grown.lean.
-/
namespace Props
open XPath Xml Spec Fields

section
variable [PyUnicode] (eng : Engine) (ctx : Ctx)

/-- C116.  `obj.field = value` where the value becomes a text: for every XPath, every behaviour of the XPath engine, every document and every outcome (also if an exception is raised) the document
afterwards is the document before with elements added, and then with at most the text and one attribute of one element changed: the text became the text of the value, the attribute became it or
is empty. -/
theorem C116_assignment (t : Str) (xp : Str) (e : Expr) (node : Ref) (s : Node) :
    Written (some t) s (managerSet eng ctx (.ok (some (.str t))) xp e node s).2 := by
  obtain ⟨o, hf⟩ := findNode_state (eng := eng) (ctx := ctx) xp node s
  unfold managerSet
  rw [bind_ok (ofExcept_run _ s)]
  cases o with
  | error er => rw [bind_err hf]; exact written_grown (grown_refl s)
  | ok o =>
    rw [bind_ok hf]
    cases o with
    | none => exact create_set e node none (some t) s
    | some f => exact setInXml_touched f (some t) (findTerminalStep e) (grown_refl s)

/-- C116.  If the value cannot be converted, nothing happens. -/
theorem C116_no_value (er : PyErr) (xp : Str) (e : Expr) (node : Ref) (s : Node) : managerSet eng ctx (.error er) xp e node s = (.error er, s) := by
  unfold managerSet
  exact bind_err (ofExcept_err er s)

/-- C116.  If the XPath selects something, nothing is added. -/
theorem C116_found (t : Str) (xp : Str) (e : Expr) (node : Ref) (s : Node) (f : Found) (hf : findNode eng ctx xp node s = (.ok (some f), s)) :
    ∃ a m m', s.get a = some m ∧ Touched (some t) m m' ∧ (managerSet eng ctx (.ok (some (.str t))) xp e node s).2 = s.modify a (fun _ => m') := by
  have h : managerSet eng ctx (.ok (some (.str t))) xp e node s = setInXml ctx f (some t) (findTerminalStep e) s := by
    unfold managerSet
    rw [bind_ok (ofExcept_run _ s), bind_ok hf]
    rfl
  rw [h]
  exact setInXml_one ctx f (some t) (findTerminalStep e) s

/-- C116.  `obj.create_field()`: elements are added, and then perhaps an empty attribute. -/
theorem C116_create (xp : Str) (e : Expr) (node : Ref) (s : Node) : Written none s (managerCreate eng ctx xp e node s).2 := by
  obtain ⟨o, hf⟩ := findNode_state (eng := eng) (ctx := ctx) xp node s
  unfold managerCreate
  cases o with
  | error er => rw [bind_err hf]; exact written_grown (grown_refl s)
  | ok o =>
    rw [bind_ok hf]
    cases o with
    | some f => exact written_grown (grown_refl s)
    | none =>
      simp only
      obtain ⟨s1, h1, h2⟩ := create_out (eng := eng) (ctx := ctx) e node none s
      rcases hc : createNode eng ctx e node none s with ⟨o, s2⟩
      rw [hc] at h2
      have hw : Written none s s2 := by
        rcases h2 with h2 | ⟨a, q, h2, -⟩
        · obtain rfl : s2 = s1 := h2
          exact written_grown h1
        · obtain rfl : s2 = _ := h2
          exact written_modify h1 (touched_blankAttr none q)
      cases o with
      | error er => rw [bind_err hc]; exact hw
      | ok r => rw [bind_ok hc]; exact hw

/-! ### lists -/

variable {α : Type} [DecidableEq α] (mapper : Item → Except PyErr α) (toXml : α → Except PyErr (Option Str))

omit [PyUnicode] in
theorem same_state {β : Type} {m : M β} (h : ∀ s, ∃ o, m s = (o, s)) (s : Node) : (m s).2 = s := by
  obtain ⟨o, h⟩ := h s
  rw [h]

theorem anyMatches_state (xp : Str) (node : Ref) (s : Node) : ∃ o, listMatches eng ctx xp node s = (o, s) := by
  unfold listMatches
  have hv : ∃ o, evalXPath eng ctx xp node s = (o, s) := by cases node <;> exact ⟨_, rfl⟩
  obtain ⟨o, hv⟩ := hv
  cases o with
  | error er => exact ⟨_, bind_err hv⟩
  | ok v =>
    rw [bind_ok hv]
    cases v <;> exact ⟨_, rfl⟩

omit [PyUnicode] in
theorem appendIndex_state (ms : List Ref) (s : Node) : ∃ o, appendIndex ms s = (o, s) := by
  unfold appendIndex
  cases ms.getLast? with
  | none => exact ⟨_, rfl⟩
  | some r =>
    cases r with
    | elem a =>
      simp only [positionOf]
      cases a.getLast? with
      | none => exact ⟨_, rfl⟩
      | some i => exact ⟨_, rfl⟩
    | _ => exact ⟨_, rfl⟩

omit [DecidableEq α] in
/-- Storing a value: it is converted first. -/
theorem store_one (e : Expr) (r : Ref) (x : α) (v : Option Str) (hv : ∀ o, toXml x = .ok o → o = v) (s : Node) : OneTouched v s (storeText ctx toXml e r x s).2 := by
  unfold storeText
  cases h : toXml x with
  | error er => rw [bind_err (ofExcept_err er s)]; exact oneTouched_same v s
  | ok o =>
    rw [bind_ok (ofExcept_run o s), hv o h]
    exact setInXml_one ctx _ _ _ s

omit [DecidableEq α] in
theorem create_store (e : Expr) (node : Ref) (idx : Option Nat) (x : α) (v : Option Str) (hv : ∀ o, toXml x = .ok o → o = v) (s : Node) :
    Written v s ((createNode eng ctx e node idx >>= fun r => storeText ctx toXml e r x) s).2 := by
  cases h : toXml x with
  | ok o =>
    obtain rfl := hv o h
    have he : ∀ r, storeText ctx toXml e r x = setInXml ctx (.ref r) o (findTerminalStep e) := by
      intro r
      funext s
      unfold storeText
      rw [h]
      exact bind_ok (ofExcept_run o s)
    simp only [he]
    exact create_set e node idx o s
  | error er =>
    obtain ⟨s1, h1, h2⟩ := create_out (eng := eng) (ctx := ctx) e node idx s
    rcases hc : createNode eng ctx e node idx s with ⟨o, s2⟩
    rw [hc] at h2
    have hw : Written v s s2 := by
      rcases h2 with h2 | ⟨a, q, h2, -⟩
      · obtain rfl : s2 = s1 := h2
        exact written_grown h1
      · obtain rfl : s2 = _ := h2
        exact written_modify h1 (touched_blankAttr v q)
    cases o with
    | error er => rw [bind_err hc]; exact hw
    | ok r =>
      rw [bind_ok hc]
      unfold storeText
      rw [h, bind_err (ofExcept_err er s2)]
      exact hw

omit [DecidableEq α] in
/-- C116.  `obj.list[key] = value` (which appends if the key is the length), for every XPath, key and outcome. -/
theorem C116_item (xp : Str) (e : Expr) (node : Ref) (key : Int) (x : α) (v : Option Str) (hv : ∀ o, toXml x = .ok o → o = v) (s : Node) :
    Written v s (listSet eng ctx (storeText ctx toXml e) xp e node key x s).2 := by
  unfold listSet
  obtain ⟨o, hm⟩ := anyMatches_state eng ctx xp node s
  cases o with
  | error er => rw [bind_err hm]; exact written_grown (grown_refl s)
  | ok ms =>
    rw [bind_ok hm]
    by_cases h1 : key = ms.length
    · rw [if_pos h1]
      obtain ⟨o, hi⟩ := appendIndex_state ms s
      cases o with
      | error er => rw [bind_err (bind_err hi)]; exact written_grown (grown_refl s)
      | ok idx =>
        have he : ((appendIndex ms >>= fun idx => createNode eng ctx e node idx) >>= fun m => storeText ctx toXml e m x) s
            = (createNode eng ctx e node idx >>= fun m => storeText ctx toXml e m x) s := by
          rw [bind_assoc', bind_ok hi]
        rw [he]
        exact create_store eng ctx toXml e node idx x v hv s
    · rw [if_neg h1]
      by_cases h2 : key > ms.length
      · rw [if_pos h2, bind_err (show raise PyErr.indexError s = (.error _, s) from rfl)]; exact written_grown (grown_refl s)
      · rw [if_neg h2]
        cases hg : pyGet ms key with
        | error er => rw [bind_err (ofExcept_err er s)]; exact written_grown (grown_refl s)
        | ok r =>
          rw [bind_ok (ofExcept_run r s)]
          obtain ⟨a, m, m', k1, k2, k3⟩ := store_one ctx toXml e r x v hv s
          exact ⟨s, a, m, m', grown_refl s, k1, k2, k3⟩

omit [DecidableEq α] in
theorem anyLen_state (xp : Str) (node : Ref) (s : Node) : ∃ o, listLen eng ctx mapper xp node s = (o, s) := by
  unfold listLen listData
  obtain ⟨o, hm⟩ := anyMatches_state eng ctx xp node s
  cases o with
  | error er => exact ⟨_, bind_err (bind_err hm)⟩
  | ok ms =>
    cases h : mapMatches mapper s ms with
    | error er =>
      refine ⟨.error er, bind_err ?_⟩
      rw [bind_ok hm]
      show (ofExcept (mapMatches mapper s ms)) s = _
      rw [h]; rfl
    | ok l =>
      refine ⟨.ok l.length, ?_⟩
      rw [bind_ok (show (listMatches eng ctx xp node >>= fun ms => getDoc >>= fun doc => ofExcept (mapMatches mapper doc ms)) s = (.ok l, s) from by
        rw [bind_ok hm]
        show (ofExcept (mapMatches mapper s ms)) s = _
        rw [h]; rfl)]
      rfl

omit [DecidableEq α] in
/-- C116.  `obj.list.append(value)`. -/
theorem C116_append (xp : Str) (e : Expr) (node : Ref) (x : α) (v : Option Str) (hv : ∀ o, toXml x = .ok o → o = v) (s : Node) :
    Written v s (listAppend eng ctx mapper (storeText ctx toXml e) xp e node x s).2 := by
  unfold listAppend
  obtain ⟨o, hl⟩ := anyLen_state eng ctx mapper xp node s
  cases o with
  | error er => rw [bind_err hl]; exact written_grown (grown_refl s)
  | ok n => rw [bind_ok hl]; exact C116_item eng ctx toXml xp e node n x v hv s

omit [DecidableEq α] in
theorem value_of (x : α) : ∃ v, ∀ o, toXml x = .ok o → o = v := by
  cases h : toXml x with
  | error er => exact ⟨none, fun o ho => by cases ho⟩
  | ok v => exact ⟨v, fun o ho => by cases ho; rfl⟩

omit [DecidableEq α] in
theorem survives_append (xp : Str) (e : Expr) (node : Ref) (x : α) (s : Node) : Survives s (listAppend eng ctx mapper (storeText ctx toXml e) xp e node x s).2 := by
  obtain ⟨v, hv⟩ := value_of toXml x
  exact survives_of_written (C116_append eng ctx mapper toXml xp e node x v hv s)

omit [DecidableEq α] in
theorem survives_extend (xp : Str) (e : Expr) (node : Ref) : ∀ (l : List α) (s : Node), Survives s (listExtend eng ctx mapper (storeText ctx toXml e) xp e node l s).2
  | [], s => survives_refl s
  | x :: l, s => by
    unfold listExtend
    have h := survives_append eng ctx mapper toXml xp e node x s
    rcases hx : listAppend eng ctx mapper (storeText ctx toXml e) xp e node x s with ⟨o, s1⟩
    rw [hx] at h
    cases o with
    | error er => rw [bind_err hx]; exact h
    | ok u => rw [bind_ok hx]; exact survives_trans h (survives_extend xp e node l s1)

omit [DecidableEq α] in
theorem survives_insert (xp : Str) (e : Expr) (node : Ref) (i : Int) (x : α) (s : Node) :
    Survives s (listInsert eng ctx mapper (storeText ctx toXml e) xp e node i x s).2 := by
  unfold listInsert
  obtain ⟨o, hl⟩ := anyLen_state eng ctx mapper xp node s
  cases o with
  | error er => rw [bind_err hl]; exact survives_refl s
  | ok n =>
    rw [bind_ok hl]
    by_cases h1 : i = n
    · rw [if_pos h1]; exact survives_append eng ctx mapper toXml xp e node x s
    · rw [if_neg h1]
      obtain ⟨o, hm⟩ := anyMatches_state eng ctx xp node s
      cases o with
      | error er => rw [bind_err hm]; exact survives_refl s
      | ok ms =>
        rw [bind_ok hm]
        by_cases h2 : (ms.length : Int) > i
        · rw [if_pos h2]
          cases hg : pyGet ms i with
          | error er => rw [bind_err (ofExcept_err er s)]; exact survives_refl s
          | ok r =>
            rw [bind_ok (ofExcept_run r s)]
            have hp : ∃ o, positionOf r s = (o, s) := by
              cases r with
              | elem a =>
                simp only [positionOf]
                cases a.getLast? with
                | none => exact ⟨_, rfl⟩
                | some i => exact ⟨_, rfl⟩
              | _ => exact ⟨_, rfl⟩
            obtain ⟨o, hp⟩ := hp
            cases o with
            | error er => rw [bind_err hp]; exact survives_refl s
            | ok p =>
              rw [bind_ok hp]
              obtain ⟨s1, h1, h2⟩ := create_out (eng := eng) (ctx := ctx) e node (some p) s
              rcases hc : createNode eng ctx e node (some p) s with ⟨o, s2⟩
              rw [hc] at h2
              have hw : Survives s s2 := by
                rcases h2 with h2 | ⟨a, q, h2, -⟩
                · obtain rfl : s2 = s1 := h2
                  exact survives_of_grown h1
                · obtain rfl : s2 = _ := h2
                  exact survives_of_written (v := none) (written_modify h1 (touched_blankAttr none q))
              cases o with
              | error er => rw [bind_err hc]; exact hw
              | ok r =>
                rw [bind_ok hc]
                obtain ⟨v, hv⟩ := value_of toXml x
                exact survives_trans hw (survives_of_written (C116_item eng ctx toXml xp e node i x v hv s2))
        · rw [if_neg h2]; exact survives_refl s

end

/-! ### programs -/

/-- A statement that gives a field or a list a value; the object can be any, and the field can have any XPath.  For lists: the type of the values and the two directions of the mapper. -/
inductive GiveOp : Type 1 where
  | assign (t : Str) (xp : Str) (e : Expr) (node : Ref)
  | create (xp : Str) (e : Expr) (node : Ref)
  | item {α : Type} (toXml : α → Except PyErr (Option Str)) (xp : Str) (e : Expr) (node : Ref) (key : Int) (x : α)
  | append {α : Type} (mapper : Item → Except PyErr α) (toXml : α → Except PyErr (Option Str)) (xp : Str) (e : Expr) (node : Ref) (x : α)
  | extend {α : Type} (mapper : Item → Except PyErr α) (toXml : α → Except PyErr (Option Str)) (xp : Str) (e : Expr) (node : Ref) (l : List α)
  | insert {α : Type} (mapper : Item → Except PyErr α) (toXml : α → Except PyErr (Option Str)) (xp : Str) (e : Expr) (node : Ref) (i : Int) (x : α)

/-- The document after a statement; an exception is caught. -/
def GiveOp.after [PyUnicode] (eng : Engine) (ctx : Ctx) (s : Node) : GiveOp → Node
  | .assign t xp e node => (managerSet eng ctx (.ok (some (.str t))) xp e node s).2
  | .create xp e node => (managerCreate eng ctx xp e node s).2
  | .item toXml xp e node key x => (listSet eng ctx (storeText ctx toXml e) xp e node key x s).2
  | .append mapper toXml xp e node x => (listAppend eng ctx mapper (storeText ctx toXml e) xp e node x s).2
  | .extend mapper toXml xp e node l => (listExtend eng ctx mapper (storeText ctx toXml e) xp e node l s).2
  | .insert mapper toXml xp e node i x => (listInsert eng ctx mapper (storeText ctx toXml e) xp e node i x s).2

/-- C116.  No sequence of assignments of texts (numbers, dates, truth values) to fields and list items, of `create_` methods, `append`, `extend` and `insert`, on any objects of the document, with any XPaths
and any behaviour of the engine, loses or moves anything: every element, comment and processing instruction is still there with its tail, in the same order, and has all its attributes. -/
theorem C116_nothing_lost [PyUnicode] (eng : Engine) (ctx : Ctx) (ops : List GiveOp) (s : Node) : Survives s (ops.foldl (GiveOp.after eng ctx) s) := by
  induction ops generalizing s with
  | nil => exact survives_refl s
  | cons op ops ih =>
    refine survives_trans ?_ (ih _)
    cases op with
    | assign t xp e node => exact survives_of_written (C116_assignment eng ctx t xp e node s)
    | create xp e node => exact survives_of_written (C116_create eng ctx xp e node s)
    | item toXml xp e node key x =>
      obtain ⟨v, hv⟩ := value_of toXml x
      exact survives_of_written (C116_item eng ctx toXml xp e node key x v hv s)
    | append mapper toXml xp e node x => exact survives_append eng ctx mapper toXml xp e node x s
    | extend mapper toXml xp e node l => exact survives_extend eng ctx mapper toXml xp e node l s
    | insert mapper toXml xp e node i x => exact survives_insert eng ctx mapper toXml xp e node i x s

mutual
theorem survives_tags : ∀ {n m : Node}, Survives n m → (allTags n).Sublist (allTags m)
  | _, _, .mk _ h => by
    simp only [allTags]
    exact List.Sublist.cons_cons _ (surviveAll_tags h)
theorem surviveAll_tags : ∀ {n m : List Node}, SurviveAll n m → (allTagsList n).Sublist (allTagsList m)
  | _, _, .nil => List.Sublist.refl _
  | _, _, .new _ h => by
    rw [allTagsList]
    exact (surviveAll_tags h).trans (List.sublist_append_right _ _)
  | _, _, .keep h h' => by
    rw [allTagsList, allTagsList]
    exact (survives_tags h).append (surviveAll_tags h')
end

/-- C116.  In particular the tags in document order (with their tails) are a part of those afterwards. -/
theorem C116_tags [PyUnicode] (eng : Engine) (ctx : Ctx) (ops : List GiveOp) (s : Node) : (allTags s).Sublist (allTags (ops.foldl (GiveOp.after eng ctx) s)) :=
  survives_tags (C116_nothing_lost eng ctx ops s)

/-! ### examples -/

/-- `obj.x = '1'` with the XPath `a/@x`, and an item appended to a list with the XPath `b`; then an assignment that fails because the XPath cannot be created. -/
def giveOps : List GiveOp := [
  .assign c%"1" c%"a/@x" (ast c%"a/@x") (.elem []),
  .append (α := Str) (fun _ => .ok []) (fun t => .ok (some t)) c%"b" (ast c%"b") (.elem []) c%"2",
  .assign c%"3" c%"//c" (ast c%"//c") (.elem [])]

/-- They add an element `a` with an attribute and an element `b` behind a comment. -/
example : giveOps.foldl (GiveOp.after refEngine sampleCtx) (.mk (.elem ⟨none, c%"r"⟩) [] none [.mk .comment [] (some c%"c") [] (some c%"t")] none)
    = .mk (.elem ⟨none, c%"r"⟩) [] none [.mk .comment [] (some c%"c") [] (some c%"t"), .mk (.elem ⟨none, c%"a"⟩) [(⟨none, c%"x"⟩, c%"1")] none [] none,
        .mk (.elem ⟨none, c%"b"⟩) [] (some c%"2") [] none] none := by decide +kernel

example (s : Node) : Survives s (giveOps.foldl (GiveOp.after refEngine sampleCtx) s) := C116_nothing_lost refEngine sampleCtx giveOps s

/-- The hypothesis of `C116_found` in an example, and what is touched. -/
example : findNode refEngine sampleCtx c%"a" (.elem []) (.mk (.elem ⟨none, c%"r"⟩) [] none [.mk (.elem ⟨none, c%"a"⟩) [] none [] none] none)
    = (.ok (some (.ref (.elem [0]))), .mk (.elem ⟨none, c%"r"⟩) [] none [.mk (.elem ⟨none, c%"a"⟩) [] none [] none] none) ∧
  (managerSet refEngine sampleCtx (.ok (some (.str c%"v"))) c%"a" (ast c%"a") (.elem []) (.mk (.elem ⟨none, c%"r"⟩) [] none [.mk (.elem ⟨none, c%"a"⟩) [] none [] none] none)).2
    = .mk (.elem ⟨none, c%"r"⟩) [] none [.mk (.elem ⟨none, c%"a"⟩) [] (some c%"v") [] none] none := by decide +kernel

/-! ### C116 applied to the sample documents -/

example := C116_found (eng := refEngine) (ctx := sampleCtx) c%"v" c%"m:a/@id" (ast c%"m:a/@id") (.elem []) sampleDoc (.ref (.attr [1] ⟨none, c%"id"⟩)) (by decide)
example := C116_item (eng := refEngine) (ctx := sampleCtx) (toXml := strToXml) c%"a[@n='1']" (ast c%"a[@n='1']") (.elem []) (-1) (some c%"x") (some c%"x")
  (fun o h => by cases h; rfl) listDoc
example := C116_append (eng := refEngine) (ctx := sampleCtx) (mapper := (strKind sampleCtx (ast c%"a[@n='1']")).read) (toXml := strToXml) c%"a[@n='1']" (ast c%"a[@n='1']") (.elem []) (some c%"x") (some c%"x")
  (fun o h => by cases h; rfl) listDoc

end Props
