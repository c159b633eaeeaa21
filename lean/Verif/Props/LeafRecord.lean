import Verif.Props.Record
/-
Property C71: an XmlObject for an element with text and attributes (`text()`, `@type`, ...) behaves like a record.

Model: `managerGet`, `managerSet`, `managerDelete` (Verif/XmlMap/Manager.lean), mappers (Verif/XmlMap/Mappers.lean).
Specification: the replay of a history on texts, below.
-/
namespace Props
open XPath Xml Spec Fields

/-- A field for an attribute of the object's element, or for its text. -/
structure LeafField [PyUnicode] (ctx : Ctx) (f : RField) : Prop where
  simple : SimpleField ctx f.xp f.e f.p
  shape : f.p = [.text] ∨ ∃ q, f.p = [.attr q]

/-- The text that the element holds for a field. -/
def heldText (p : List Step) (n : Node) : Option Str := match p with
  | [.attr q] => n.attr? q
  | _ => n.text

section
variable {ι : Type} {fs : ι → RField}

/-- What a deletion leaves: nothing for an attribute; for a text, if there is one, the empty text. -/
def erased (p : List Step) (t : Option Str) : Option Str := match p with
  | [.attr _] => none
  | _ => t.map (fun _ => [])

/-- The effect of an operation on the texts. -/
def ROp.replayText [DecidableEq ι] (r : ι → Option Str) : ROp fs → ι → Option Str
  | .set i v => match (fs i).toXml v with
    | .ok (some t) => Function.update r i (some t)
    | _ => Function.update r i (erased (fs i).p (r i))
  | .delete i => Function.update r i (erased (fs i).p (r i))

/-- Values are assigned that the mapper turns into text that XML can hold, or into `None`. -/
def ROp.Textual : ROp fs → Prop
  | .set i v => ∃ o, (fs i).toXml v = .ok o ∧ ∀ t, o = some t → xmlOk t = true
  | .delete _ => True

theorem leaf_matches {p : List Step} (h : p = [.text] ∨ ∃ q, p = [.attr q]) {n : Node} (hn : n.children = []) :
    (Step.matches p n).head?.bind (seen n) = (heldText p n).map .str := by
  rcases h with rfl | ⟨q, rfl⟩
  · cases h : n.text <;> simp [Step.matches, heldText, h, hn, tailRefs, seen, refText, Node.get]
  · cases h : n.attr? q <;> simp [Step.matches, heldText, h, seen, refText, Node.get]

theorem leaf_write_text {n : Node} (hn : n.children = []) (v : Str) : write [.text] v n = n.setText (some v) := by
  cases h : n.text <;> simp [write, Step.matches, h, hn, tailRefs, missing, place, Node.modify, writeLast, Ref.addr, buildPath]

theorem leaf_write_attr (n : Node) (q : QName) (v : Str) : write [.attr q] v n = n.setAttr q v := by
  cases h : n.attr? q <;> simp [write, Step.matches, h, missing, place, Node.modify, writeLast, Ref.addr, buildPath]

theorem leaf_delete_text {n : Node} (hn : n.children = []) : delete [.text] n = n.setText (n.text.map (fun _ => [])) := by
  cases h : n.text with
  | none =>
    simp [delete, Step.matches, h, hn, tailRefs]
    cases n; simp_all [Node.text, Node.setText]
  | some t => simp [delete, Step.matches, h, hn, tailRefs, Node.modify, cleanup, cleanupR, removeRef]

theorem leaf_delete_attr (n : Node) (q : QName) : delete [.attr q] n = if (n.attr? q).isSome then n.delAttr q else n := by
  cases h : n.attr? q <;> simp [delete, Step.matches, h, Node.modify, cleanup, cleanupR, removeRef]

/-- One operation. -/
theorem leaf_run [PyUnicode] [DecidableEq ι] {eng : Engine} (heng : EngineOk eng) {ctx : Ctx} (hf : ∀ i, LeafField ctx (fs i))
    (hpart : ∀ i j, (fs i).p = (fs j).p → i = j) {a s n} (hs : Node.get a s = some n) (hn : n.children = []) (op : ROp fs) (hop : op.Textual) :
    ∃ n', op.run eng ctx a s = (.ok (), s.modify a (fun _ => n')) ∧ n'.children = [] ∧ n'.tag = n.tag ∧ n'.tail = n.tail ∧
      (fun i => heldText (fs i).p n') = op.replayText (fun i => heldText (fs i).p n) := by
  have hdel : ∀ i, ∃ n', managerDelete eng ctx (fs i).xp (fs i).e (.elem a) s = (.ok (), s.modify a (fun _ => n')) ∧ n'.children = [] ∧ n'.tag = n.tag ∧
      n'.tail = n.tail ∧ (fun j => heldText (fs j).p n') = Function.update (fun j => heldText (fs j).p n) i (erased (fs i).p (heldText (fs i).p n)) := by
    intro i
    have hrun : managerDelete eng ctx (fs i).xp (fs i).e (.elem a) s = (.ok (), s.modify a (fun _ => delete (fs i).p n)) := by
      rw [managerDelete_run heng (hf i).simple.parse (hf i).simple.path (hf i).simple.canonical (hf i).simple.ok ?_ hs ?_ ?_]
      · congr 1
        exact Node.modify_congr hs rfl
      · rcases (hf i).shape with h | ⟨q, h⟩ <;> rw [h] <;> rfl
      · intro x hx
        rcases (hf i).shape with h | ⟨q, h⟩ <;> rw [h] at hx ⊢
        · cases ht : n.text <;> simp [Step.matches, ht, hn, tailRefs] at hx
          subst hx; rfl
        · cases ht : n.attr? q <;> simp [Step.matches, ht] at hx
          subst hx; rfl
      · intro b hx
        rcases (hf i).shape with h | ⟨q, h⟩ <;> rw [h] at hx
        · cases ht : n.text <;> simp [Step.matches, ht, hn, tailRefs] at hx
        · cases ht : n.attr? q <;> simp [Step.matches, ht] at hx
    rcases (hf i).shape with h | ⟨q, h⟩
    · rw [h, leaf_delete_text hn] at hrun
      refine ⟨_, hrun, by simpa using hn, by simp, by simp, ?_⟩
      funext j
      by_cases hj : j = i
      · subst hj
        rw [Function.update_self, h]
        simp [heldText, erased]
      · rw [Function.update_of_ne hj]
        rcases (hf j).shape with h' | ⟨q', h'⟩
        · exact absurd (hpart j i (h'.trans h.symm)) hj
        · simp [h', heldText, Node.attr?]
    · rw [h, leaf_delete_attr] at hrun
      refine ⟨_, hrun, by split_ifs <;> simpa using hn, by split_ifs <;> simp, by split_ifs <;> simp, ?_⟩
      funext j
      by_cases hj : j = i
      · subst hj
        rw [Function.update_self, h]
        cases ht : n.attr? q with
        | none => simp [heldText, erased, ht]
        | some t => simp [heldText, erased, ht, Node.attr?_delAttr]
      · rw [Function.update_of_ne hj]
        rcases (hf j).shape with h' | ⟨q', h'⟩
        · simp only [h', heldText]; split_ifs <;> simp
        · have hq : q' ≠ q := by rintro rfl; exact hj (hpart j i (h'.trans h.symm))
          simp only [h', heldText]
          split_ifs
          · simp [Node.attr?, Node.lookup_filter_ne, hq]
          · rfl
  cases op with
  | delete i => exact hdel i
  | set i v =>
    obtain ⟨o, h1, h2⟩ := hop
    cases o with
    | none =>
      obtain ⟨n', k1, k2, k3, k4, k5⟩ := hdel i
      refine ⟨n', ?_, k2, k3, k4, ?_⟩
      · show writeAs _ _ _ _ _ _ _ = _
        rw [h1]
        show managerSet eng ctx (.ok none) _ _ _ _ = _
        rw [C17_none_is_delete, k1]
      · rw [k5, ROp.replayText, h1]
    | some t =>
      have hx := h2 t rfl
      have hrun : writeAs (.ok (some t)) eng ctx (fs i).xp (fs i).e (.elem a) s = (.ok (), s.modify a (fun _ => write (fs i).p t n)) := by
        rw [show writeAs (.ok (some t)) eng ctx (fs i).xp (fs i).e (.elem a) s = (.ok (), s.modify a (write (fs i).p t)) from
          managerSet_str heng (hf i).simple.parse (hf i).simple.path (hf i).simple.canonical (hf i).simple.ok
            (by rcases (hf i).shape with h | ⟨q, h⟩ <;> rw [h] <;> rfl) hx hs
            (by
              rcases (hf i).shape with h | ⟨q, h⟩ <;> rw [h]
              · cases ht : n.text <;> simp [Writable, Step.matches, ht, hn, tailRefs, missing, place, Node.get]
              · cases ht : n.attr? q <;> simp [Writable, Step.matches, ht, missing, place])]
        congr 1
        exact Node.modify_congr hs rfl
      have hr : ROp.run (fs := fs) eng ctx a (.set i v) s = (.ok (), s.modify a (fun _ => write (fs i).p t n)) := by
        show writeAs _ _ _ _ _ _ _ = _
        rw [h1]
        exact hrun
      rcases (hf i).shape with h | ⟨q, h⟩
      · rw [h, leaf_write_text hn] at hr
        refine ⟨_, hr, by simpa using hn, by simp, by simp, ?_⟩
        rw [ROp.replayText, h1]
        funext j
        by_cases hj : j = i
        · subst hj
          simp [Function.update_self, h, heldText]
        · simp only [Function.update_of_ne hj]
          rcases (hf j).shape with h' | ⟨q', h'⟩
          · exact absurd (hpart j i (h'.trans h.symm)) hj
          · simp [h', heldText, Node.attr?]
      · rw [h, leaf_write_attr] at hr
        refine ⟨_, hr, by simpa using hn, by simp, by simp, ?_⟩
        rw [ROp.replayText, h1]
        funext j
        by_cases hj : j = i
        · subst hj
          simp [Function.update_self, h, heldText, Node.attr?_setAttr]
        · simp only [Function.update_of_ne hj]
          rcases (hf j).shape with h' | ⟨q', h'⟩
          · simp [h', heldText]
          · have hq : q' ≠ q := by rintro rfl; exact hj (hpart j i (h'.trans h.symm))
            simp [h', heldText, Node.attr?_setAttr, hq]

/-- C71.  Let the fields of an object be for different attributes of its element and for its text (at most one field each), and let the element have no
children.  Then every history of assignments and deletions runs without exception, changes nothing outside of the object's element and neither its name nor its
tail, adds no children, and afterwards every field reads what its mapper makes of the text that the replay of the history says. -/
theorem C71_text_and_attributes [PyUnicode] [DecidableEq ι] (eng : Engine) (heng : EngineOk eng) (ctx : Ctx) (hf : ∀ i, LeafField ctx (fs i))
    (hpart : ∀ i j, (fs i).p = (fs j).p → i = j) (a : Node.Addr) (ops : List (ROp fs)) (hops : ∀ op ∈ ops, op.Textual) (s n : Node) (hs : s.get a = some n)
    (hn : n.children = []) :
    ∃ n', runHistory eng ctx a ops s = (.ok (), s.modify a (fun _ => n')) ∧ n'.children = [] ∧ n'.tag = n.tag ∧ n'.tail = n.tail ∧
      ∀ i, readAs (fs i).toPython eng ctx (fs i).xp (fs i).e (.elem a) (s.modify a (fun _ => n'))
        = ((fs i).toPython ((List.foldl (ROp.replayText (fs := fs)) (fun j => heldText (fs j).p n) ops i).map .str), s.modify a (fun _ => n')) := by
  have key : ∀ (ops : List (ROp fs)), (∀ op ∈ ops, op.Textual) → ∀ (s n : Node), s.get a = some n → n.children = [] →
      ∃ n', runHistory eng ctx a ops s = (.ok (), s.modify a (fun _ => n')) ∧ n'.children = [] ∧ n'.tag = n.tag ∧ n'.tail = n.tail ∧
        (fun i => heldText (fs i).p n') = List.foldl (ROp.replayText (fs := fs)) (fun j => heldText (fs j).p n) ops := by
    intro ops
    induction ops with
    | nil =>
      intro _ s n hs hn
      have : s.modify a (fun _ => n) = s := Node.modify_id hs rfl
      exact ⟨n, by rw [this]; rfl, hn, rfl, rfl, rfl⟩
    | cons op ops ih =>
      intro hops s n hs hn
      obtain ⟨n1, h1, h2, h3, h4, h5⟩ := leaf_run heng hf hpart hs hn op (hops op (by simp))
      have hs1 : Node.get a (s.modify a (fun _ => n1)) = some n1 := by rw [Node.get_modify, hs]; rfl
      obtain ⟨n2, k1, k2, k3, k4, k5⟩ := ih (fun o ho => hops o (by simp [ho])) _ n1 hs1 h2
      rw [Node.modify_modify] at k1
      refine ⟨n2, ?_, k2, k3.trans h3, k4.trans h4, ?_⟩
      · show (op.run eng ctx a >>= fun _ => runHistory eng ctx a ops) s = _
        rw [bind_ok h1, k1]
        rfl
      · rw [List.foldl_cons, ← h5]
        exact k5
  obtain ⟨n', h1, h2, h3, h4, h5⟩ := key ops hops s n hs hn
  refine ⟨n', h1, h2, h3, h4, fun i => ?_⟩
  have hg : Node.get a (s.modify a (fun _ => n')) = some n' := by rw [Node.get_modify, hs]; rfl
  rw [readAs_run heng (hf i).simple hg, leaf_matches (hf i).shape h2, ← h5]

/-- C71.  In particular, a field reads the last value assigned to it, whatever happens to the other fields. -/
theorem C71_last_assignment [PyUnicode] [DecidableEq ι] (eng : Engine) (heng : EngineOk eng) (ctx : Ctx) (hf : ∀ i, LeafField ctx (fs i))
    (hpart : ∀ i j, (fs i).p = (fs j).p → i = j) (a : Node.Addr) (before after : List (ROp fs)) (i : ι) (v : (fs i).V) (t : Str) (ht : (fs i).toXml v = .ok (some t))
    (hx : xmlOk t = true) (hv : (fs i).toPython (some (.str t)) = .ok v)
    (hb : ∀ op ∈ before, op.Textual) (ha : ∀ op ∈ after, op.Textual) (hother : ∀ op ∈ after, (∀ w, op ≠ .set i w) ∧ op ≠ .delete i)
    (s n : Node) (hs : s.get a = some n) (hn : n.children = []) :
    ∃ s', runHistory eng ctx a (before ++ .set i v :: after) s = (.ok (), s') ∧
      readAs (fs i).toPython eng ctx (fs i).xp (fs i).e (.elem a) s' = (.ok v, s') := by
  obtain ⟨n', h1, -, -, -, h3⟩ := C71_text_and_attributes eng heng ctx hf hpart a (before ++ .set i v :: after)
    (by
      intro op hop
      rcases List.mem_append.mp hop with h | h
      · exact hb op h
      · rcases List.mem_cons.mp h with rfl | h
        · exact ⟨_, ht, fun u hu => by cases hu; exact hx⟩
        · exact ha op h) s n hs hn
  refine ⟨_, h1, ?_⟩
  rw [h3 i, List.foldl_append, List.foldl_cons]
  congr 1
  suffices h : ∀ (ops : List (ROp fs)) (r : ι → Option Str), (∀ op ∈ ops, (∀ w, op ≠ .set i w) ∧ op ≠ .delete i) → r i = some t →
      List.foldl (ROp.replayText (fs := fs)) r ops i = some t by
    rw [h after _ hother (by simp [ROp.replayText, ht])]
    exact hv
  intro ops
  induction ops with
  | nil => intro r _ hr; exact hr
  | cons op ops ih =>
    intro r ho hr
    rw [List.foldl_cons]
    apply ih _ (fun o h => ho o (by simp [h]))
    have h0 := ho op (by simp)
    cases op with
    | set j w =>
      have hj : i ≠ j := by rintro rfl; exact h0.1 w rfl
      simp only [ROp.replayText]
      match (fs j).toXml w with
      | .ok (some u) => exact (Function.update_of_ne hj _ _).trans hr
      | .ok none => exact (Function.update_of_ne hj _ _).trans hr
      | .error _ => exact (Function.update_of_ne hj _ _).trans hr
    | delete j =>
      have hj : i ≠ j := by rintro rfl; exact h0.2 rfl
      simp only [ROp.replayText]
      rw [Function.update_of_ne hj]; exact hr

end

/-! ### an example, and limits -/

/-- The class `mods.Note` (mods.py:131-136): `label = StringField('@displayLabel')`, `type = StringField('@type')`, `text = StringField('text()')`. -/
def noteFields : Fin 3 → RField
  | 0 => strField c%"@displayLabel" (ast c%"@displayLabel") [.attr ⟨none, c%"displayLabel"⟩]
  | 1 => strField c%"@type" (ast c%"@type") [.attr ⟨none, c%"type"⟩]
  | 2 => strField c%"text()" (ast c%"text()") [.text]

theorem noteFields_leaf : ∀ i, LeafField sampleCtx (noteFields i)
  | 0 => ⟨⟨by decide, by rfl, by decide, by decide⟩, .inr ⟨_, rfl⟩⟩
  | 1 => ⟨⟨by decide, by rfl, by decide, by decide⟩, .inr ⟨_, rfl⟩⟩
  | 2 => ⟨⟨by decide, by rfl, by decide, by decide⟩, .inl rfl⟩

def noteOps : List (ROp noteFields) := [.set 2 (some c%"a" : Option Str), .set 0 (some c%"L" : Option Str), .delete 2, .set 1 (some c%"t" : Option Str), .delete 0,
  .set 2 (some c%"b" : Option Str)]

/-- `text = 'a'; label = 'L'; del text; type = 't'; del label; text = 'b'` on a new note. -/
example : ∃ s', runHistory refEngine sampleCtx [] noteOps bare = (.ok (), s') ∧
    (readAs (noteFields 0).toPython refEngine sampleCtx c%"@displayLabel" (ast c%"@displayLabel") (.elem []) s').1 = .ok (none : Option Str) ∧
    (readAs (noteFields 1).toPython refEngine sampleCtx c%"@type" (ast c%"@type") (.elem []) s').1 = .ok (some c%"t" : Option Str) ∧
    (readAs (noteFields 2).toPython refEngine sampleCtx c%"text()" (ast c%"text()") (.elem []) s').1 = .ok (some c%"b" : Option Str) := by
  obtain ⟨n', h1, -, -, -, h3⟩ := C71_text_and_attributes (fs := noteFields) refEngine refEngine_ok sampleCtx noteFields_leaf
    (by
      intro i j h
      match i, j, h with
      | 0, 0, _ | 1, 1, _ | 2, 2, _ => rfl
      | 0, 1, h | 1, 0, h => exact absurd h (by simp [noteFields, strField])
      | 0, 2, h | 1, 2, h | 2, 0, h | 2, 1, h => exact absurd h (by simp [noteFields, strField]))
    [] noteOps
    (by
      intro op hop
      simp only [noteOps, List.mem_cons, List.not_mem_nil, or_false] at hop
      rcases hop with rfl | rfl | rfl | rfl | rfl | rfl
      · exact ⟨_, rfl, fun t ht => by cases ht; decide⟩
      · exact ⟨_, rfl, fun t ht => by cases ht; decide⟩
      · trivial
      · exact ⟨_, rfl, fun t ht => by cases ht; decide⟩
      · trivial
      · exact ⟨_, rfl, fun t ht => by cases ht; decide⟩) bare bare rfl rfl
  exact ⟨_, h1, congrArg Prod.fst (h3 0), congrArg Prod.fst (h3 1), congrArg Prod.fst (h3 2)⟩

/-- A text that is deleted, or assigned `None`, reads as the empty string, not as `None`. -/
theorem C71_counterexample_text_none :
    let r := writeStr refEngine sampleCtx c%"a" c%"text()" (ast c%"text()") (.elem []) bare
    let r' := managerSet refEngine sampleCtx (.ok none) c%"text()" (ast c%"text()") (.elem []) r.2
    r.1 = .ok () ∧ r'.1 = .ok () ∧ (readStr refEngine sampleCtx c%"text()" (ast c%"text()") (.elem []) r'.2).1 = .ok (some []) := by decide

/-- Attributes of a child and its text are not independent: assigning to `roleTerm/@type` (`mods.Role.type`) makes `roleTerm` (`mods.Role.text`) read the empty
string instead of `None`, and deleting it afterwards removes a text assigned in the meantime. -/
theorem C71_counterexample_role :
    let r := writeStr refEngine sampleCtx c%"code" c%"roleTerm/@type" (ast c%"roleTerm/@type") (.elem []) bare
    let r' := writeStr refEngine sampleCtx c%"aut" c%"roleTerm" (ast c%"roleTerm") (.elem []) r.2
    let r'' := managerDelete refEngine sampleCtx c%"roleTerm/@type" (ast c%"roleTerm/@type") (.elem []) r'.2
    (readStr refEngine sampleCtx c%"roleTerm" (ast c%"roleTerm") (.elem []) bare).1 = .ok none ∧
    (readStr refEngine sampleCtx c%"roleTerm" (ast c%"roleTerm") (.elem []) r.2).1 = .ok (some []) ∧
    (readStr refEngine sampleCtx c%"roleTerm" (ast c%"roleTerm") (.elem []) r'.2).1 = .ok (some c%"aut") ∧
    (readStr refEngine sampleCtx c%"roleTerm" (ast c%"roleTerm") (.elem []) r''.2).1 = .ok none := by decide

end Props
