import Verif.XmlMap.RecordLemmas
import Verif.Props.TypedField
import Verif.Props.FieldDelete
import Verif.Props.DateField
import Mathlib.Logic.Function.Basic
/-
Property C69: an XmlObject behaves like a record of independent values.

Model: `managerGet`, `managerSet`, `managerDelete` (Verif/XmlMap/Manager.lean), mappers (Verif/XmlMap/Mappers.lean).
Specification: Verif/Spec/Record.lean (paths that part), and the replay of a history on a record below.
-/
namespace Props
open XPath Xml Spec Fields

/-- A single-value field of an XmlObject class: XPath, its AST, the path it denotes, the Python type of its values, and its mapper. -/
structure RField where
  xp : Str
  e : Expr
  p : List Step
  V : Type
  toXml : V → Except PyErr (Option Str)
  toPython : Option Item → Except PyErr V

/-- The XPath is a simple path to an element or attribute, with attribute predicates only. -/
structure RField.Ok [PyUnicode] (ctx : Ctx) (f : RField) : Prop where
  simple : SimpleField ctx f.xp f.e f.p
  preds : attrPreds f.p = true
  noText : f.p.getLast? ≠ some .text

/-- The mapper keeps the value `v`: it turns it into a text from which it gets the value back (from the element or attribute with that text), or into
`None`, and then gets it from a missing node. -/
def RField.Keeps (f : RField) (v : f.V) : Prop := ∃ o, f.toXml v = .ok o ∧ match o with
  | none => f.toPython none = .ok v
  | some t => xmlOk t = true ∧ (textual f.p = true → f.toPython (some (.str t)) = .ok v) ∧
      (textual f.p = false → ∀ m : Node, m.children = [] → m.strVal = t → f.toPython (some (.elem m)) = .ok v)

section
variable {ι : Type} (fs : ι → RField)

/-- `obj.i = v`, or `del obj.i`. -/
inductive ROp where
  | set (i : ι) (v : (fs i).V)
  | delete (i : ι)

/-- The values that reading the fields gives (or the exceptions it raises). -/
abbrev Rec := (i : ι) → Except PyErr (fs i).V

variable {fs}

/-- The effect of an operation on a record: an assigned field has the value, a deleted one what its mapper says of a missing node. -/
def ROp.replay [DecidableEq ι] (r : Rec fs) : ROp fs → Rec fs
  | .set i v => Function.update r i (.ok v)
  | .delete i => Function.update r i ((fs i).toPython none)

/-- Only values that the mappers keep are assigned. -/
def ROp.Ok : ROp fs → Prop
  | .set i v => (fs i).Keeps v
  | .delete _ => True

/-- The operation on the object whose element is at `a`. -/
def ROp.run [PyUnicode] (eng : Engine) (ctx : Ctx) (a : Node.Addr) : ROp fs → M Unit
  | .set i v => writeAs ((fs i).toXml v) eng ctx (fs i).xp (fs i).e (.elem a)
  | .delete i => managerDelete eng ctx (fs i).xp (fs i).e (.elem a)

/-- A history of operations; it ends at the first exception. -/
def runHistory [PyUnicode] (eng : Engine) (ctx : Ctx) (a : Node.Addr) : List (ROp fs) → M Unit
  | [] => pure ()
  | op :: ops => do op.run eng ctx a; runHistory eng ctx a ops

variable (fs) in
/-- Reading all fields. -/
def readRec [PyUnicode] (eng : Engine) (ctx : Ctx) (a : Node.Addr) (s : Node) : Rec fs :=
  fun i => (readAs (fs i).toPython eng ctx (fs i).xp (fs i).e (.elem a) s).1

/-- The fields can live side by side in the element: at most one node at each step, and strings can be written. -/
def Tidy (fs : ι → RField) (n : Node) : Prop := ∀ i, Single (fs i).p n ∧ Writable (fs i).p n

/-! ### proof -/

/-- What a mapper sees of a hit. -/
def hitItem : Node ⊕ Str → Item
  | .inl m => .elem m
  | .inr s => .str s

theorem seen_hits [PyUnicode] {p : List Step} (hg : good p = true) {n : Node} (hu : Uniq p n) :
    (Step.matches p n).head?.bind (seen n) = (hits p n).head?.map hitItem := by
  rw [head_hits hg hu]
  cases hh : (Step.matches p n).head? with
  | none => rfl
  | some x =>
    have hm := List.mem_of_mem_head? hh
    cases x with
    | elem b => cases h : n.get b <;> simp [itemAt, seen, h, hitItem]
    | attr b q => cases h : (n.get b).bind (Node.attr? q) <;> simp [itemAt, seen, refText, h, hitItem]
    | text b => exact absurd rfl ((matches_not_text hg hm).1 b)
    | tail b => exact absurd rfl ((matches_not_text hg hm).2 b)

theorem RField.Ok.good [PyUnicode] {ctx : Ctx} {f : RField} (h : f.Ok ctx) : good f.p = true := good_of h.simple.ok h.preds h.noText

theorem read_item [PyUnicode] {eng : Engine} (heng : EngineOk eng) {ctx : Ctx} {f : RField} (hf : f.Ok ctx) {a s n} (hs : Node.get a s = some n)
    (hu : Uniq f.p n) : readAs f.toPython eng ctx f.xp f.e (.elem a) s = (f.toPython ((hits f.p n).head?.map hitItem), s) := by
  rw [readAs_run heng hf.simple hs, seen_hits hf.good hu]

/-- A write changes the hits of the field only. -/
theorem tidy_write [PyUnicode] {ctx : Ctx} {f : RField} (hf : f.Ok ctx) {n : Node} (hs : Single f.p n) (hw : Writable f.p n) (v : Str) :
    (Single f.p (write f.p v n) ∧ Writable f.p (write f.p v n)) ∧ ∀ g : RField, g.Ok ctx → Part f.p g.p → Single g.p n → Writable g.p n →
      (Single g.p (write f.p v n) ∧ Writable g.p (write f.p v n)) ∧ hits g.p (write f.p v n) = hits g.p n := by
  have hu := uniq_of_single hf.good hs
  have hp := ne_nil_of_field hf.simple
  have hwr := writable_write (v := v) hf.simple.ok (attrPreds_stringOk hf.preds) hp hw
  refine ⟨⟨single_of_uniq hf.good (by rw [write_wr hf.good v hu]; exact uniq_wr_self hf.good v n hu), hwr⟩, ?_⟩
  intro g hg hpart hgs hgw
  have hgu := uniq_of_single hg.good hgs
  have hgp := ne_nil_of_field hg.simple
  rw [write_wr hf.good v hu]
  have hh := hits_wr_other hf.good hg.good hpart v n
  have hgu' := uniq_wr_other hf.good hg.good hpart v n hgu
  refine ⟨⟨single_of_uniq hg.good hgu', ?_⟩, hh⟩
  rw [writable_hits hg.good hgp hgu', hh, ← writable_hits hg.good hgp hgu]
  exact hgw

theorem hits_delete_self [PyUnicode] {ctx : Ctx} {f : RField} (hf : f.Ok ctx) {n : Node} (hs : Single f.p n) : Step.matches f.p (delete f.p n) = [] := by
  have hu := uniq_of_single hf.good hs
  have hp := ne_nil_of_field hf.simple
  have hl := matches_le_one hf.good hu
  match hm : Step.matches f.p n with
  | [] => unfold delete; rw [hm]; exact hm
  | [x] => exact delete_nomatch hf.simple.ok hf.preds hp hf.noText hm (aligned_of_uniq hf.good hp hu)
  | x :: y :: l => rw [hm] at hl; simp at hl

theorem tidy_delete [PyUnicode] {ctx : Ctx} {f : RField} (hf : f.Ok ctx) {n : Node} (hs : Single f.p n) :
    (Single f.p (delete f.p n) ∧ Writable f.p (delete f.p n)) ∧ ∀ g : RField, g.Ok ctx → Part f.p g.p → Single g.p n → Writable g.p n →
      (Single g.p (delete f.p n) ∧ Writable g.p (delete f.p n)) ∧ hits g.p (delete f.p n) = hits g.p n := by
  have hu := uniq_of_single hf.good hs
  have hp := ne_nil_of_field hf.simple
  have hself := hits_delete_self hf hs
  have hu' : Uniq f.p (delete f.p n) := by
    rw [delete_del hf.good hp hu]
    split_ifs
    · exact hu
    · exact uniq_del_self hf.good n hu
  refine ⟨⟨single_of_uniq hf.good hu', ?_⟩, ?_⟩
  · rw [writable_hits hf.good hp hu', (hits_nil_iff hf.good hu').mpr hself]
    intro m h
    simp at h
  · intro g hg hpart hgs hgw
    have hgu := uniq_of_single hg.good hgs
    have hgp := ne_nil_of_field hg.simple
    rw [delete_del hf.good hp hu]
    split_ifs
    · exact ⟨⟨hgs, hgw⟩, rfl⟩
    · have hh := hits_del_other hf.good hg.good hpart n
      have hgu' := uniq_del_other hf.good hg.good hpart n hgu
      refine ⟨⟨single_of_uniq hg.good hgu', ?_⟩, hh⟩
      rw [writable_hits hg.good hgp hgu', hh, ← writable_hits hg.good hgp hgu]
      exact hgw

theorem delete_run [PyUnicode] {eng : Engine} (heng : EngineOk eng) {ctx : Ctx} {f : RField} (hf : f.Ok ctx) {a s n} (hs : Node.get a s = some n)
    (hsi : Single f.p n) : managerDelete eng ctx f.xp f.e (.elem a) s = (.ok (), s.modify a (delete f.p)) := by
  have hu := uniq_of_single hf.good hsi
  have hp := ne_nil_of_field hf.simple
  refine managerDelete_run heng hf.simple.parse hf.simple.path hf.simple.canonical hf.simple.ok hf.preds hs (aligned_of_uniq hf.good hp hu) ?_
  intro b h
  exact (matches_not_text hf.good (List.mem_of_mem_head? h)).2 b rfl

/-- One operation. -/
theorem rop_run [PyUnicode] [DecidableEq ι] {eng : Engine} (heng : EngineOk eng) {ctx : Ctx} (hf : ∀ i, (fs i).Ok ctx)
    (hpart : ∀ i j, i ≠ j → Part (fs i).p (fs j).p) {a s n} (hs : Node.get a s = some n) (ht : Tidy fs n) (op : ROp fs) (hop : op.Ok) :
    ∃ n', op.run eng ctx a s = (.ok (), s.modify a (fun _ => n')) ∧ Tidy fs n' ∧
      readRec fs eng ctx a (s.modify a (fun _ => n')) = op.replay (readRec fs eng ctx a s) ∧
      ∀ p', Spec.good p' = true → (∀ i, Part (fs i).p p') → hits p' n' = hits p' n := by
  have hget : ∀ n', Node.get a (s.modify a (fun _ => n')) = some n' := fun n' => by rw [Node.get_modify, hs]; rfl
  have hread : ∀ j n', Tidy fs n' → hits (fs j).p n' = hits (fs j).p n →
      readRec fs eng ctx a (s.modify a (fun _ => n')) j = readRec fs eng ctx a s j := by
    intro j n' ht' hh
    unfold readRec
    rw [read_item heng (hf j) (hget n') (uniq_of_single (hf j).good (ht' j).1), read_item heng (hf j) hs (uniq_of_single (hf j).good (ht j).1), hh]
  have hdh : ∀ i p', Spec.good p' = true → (∀ i, Part (fs i).p p') → hits p' (delete (fs i).p n) = hits p' n := by
    intro i p' hg hp
    rw [delete_del (hf i).good (ne_nil_of_field (hf i).simple) (uniq_of_single (hf i).good (ht i).1)]
    split_ifs
    · rfl
    · exact hits_del_other (hf i).good hg (hp i) n
  have hdel : ∀ i, Tidy fs (delete (fs i).p n) ∧
      readRec fs eng ctx a (s.modify a (fun _ => delete (fs i).p n)) = Function.update (readRec fs eng ctx a s) i ((fs i).toPython none) := by
    intro i
    obtain ⟨h1, h2⟩ := tidy_delete (hf i) (ht i).1
    have ht' : Tidy fs (delete (fs i).p n) := by
      intro j
      by_cases hj : j = i
      · subst hj; exact h1
      · exact (h2 (fs j) (hf j) (hpart i j (Ne.symm hj)) (ht j).1 (ht j).2).1
    refine ⟨ht', ?_⟩
    funext j
    by_cases hj : j = i
    · subst hj
      rw [Function.update_self]
      unfold readRec
      have hu := uniq_of_single (hf j).good (ht' j).1
      rw [read_item heng (hf j) (hget _) hu, (hits_nil_iff (hf j).good hu).mpr (hits_delete_self (hf j) (ht j).1)]
      rfl
    · rw [Function.update_of_ne hj]
      exact hread j _ ht' (h2 (fs j) (hf j) (hpart i j (Ne.symm hj)) (ht j).1 (ht j).2).2
  cases op with
  | delete i =>
    refine ⟨delete (fs i).p n, ?_, (hdel i).1, (hdel i).2, hdh i⟩
    show managerDelete _ _ _ _ _ _ = _
    rw [delete_run heng (hf i) hs (ht i).1]
    congr 1
    exact Node.modify_congr hs rfl
  | set i v =>
    obtain ⟨o, h1, h2⟩ := hop
    cases o with
    | none =>
      refine ⟨delete (fs i).p n, ?_, (hdel i).1, ?_, hdh i⟩
      · show writeAs _ _ _ _ _ _ _ = _
        rw [h1]
        show managerSet eng ctx (.ok none) _ _ _ _ = _
        rw [C17_none_is_delete, delete_run heng (hf i) hs (ht i).1]
        congr 1
        exact Node.modify_congr hs rfl
      · rw [(hdel i).2]
        show Function.update _ _ _ = Function.update _ _ _
        rw [h2]
    | some t =>
      obtain ⟨hx, ht1, ht2⟩ := h2
      obtain ⟨k1, k2⟩ := tidy_write (hf i) (ht i).1 (ht i).2 t
      have ht' : Tidy fs (write (fs i).p t n) := by
        intro j
        by_cases hj : j = i
        · subst hj; exact k1
        · exact (k2 (fs j) (hf j) (hpart i j (Ne.symm hj)) (ht j).1 (ht j).2).1
      obtain ⟨s', it, w1, w2, w3⟩ := write_then_item (conv := (fs i).toPython) heng (hf i).simple (attrPreds_stringOk (hf i).preds) hx hs (ht i).2
      have hrun : writeAs (.ok (some t)) eng ctx (fs i).xp (fs i).e (.elem a) s = (.ok (), s.modify a (fun _ => write (fs i).p t n)) := by
        rw [show writeAs (.ok (some t)) eng ctx (fs i).xp (fs i).e (.elem a) s = (.ok (), s.modify a (write (fs i).p t)) from
          managerSet_str heng (hf i).simple.parse (hf i).simple.path (hf i).simple.canonical (hf i).simple.ok (attrPreds_stringOk (hf i).preds) hx hs (ht i).2]
        congr 1
        exact Node.modify_congr hs rfl
      refine ⟨write (fs i).p t n, ?_, ht', ?_, fun p' hg hp => by
        rw [write_wr (hf i).good t (uniq_of_single (hf i).good (ht i).1)]; exact hits_wr_other (hf i).good hg (hp i) t n⟩
      · show writeAs _ _ _ _ _ _ _ = _
        rw [h1]
        exact hrun
      · funext j
        show _ = Function.update (readRec fs eng ctx a s) i (.ok v) j
        by_cases hj : j = i
        · subst hj
          rw [Function.update_self]
          unfold readRec
          rw [hrun] at w1
          simp only [Prod.mk.injEq, true_and] at w1
          rw [w1, w2]
          rcases w3 with ⟨h3, rfl⟩ | ⟨h3, m, rfl, h4, h5⟩
          · exact ht1 h3
          · exact ht2 h3 m h5 h4
        · rw [Function.update_of_ne hj]
          exact hread j _ ht' (k2 (fs j) (hf j) (hpart i j (Ne.symm hj)) (ht j).1 (ht j).2).2

/-- C69.  Let an object have fields (of any type) whose paths part pairwise, and let each step of each path select at most one node in its element, with
nothing in the way of writing strings.  Then every history of assignments and deletions runs without exception, changes nothing outside of the object's
element, and afterwards every field reads what the replay of the history on a record says: the value of the last assignment to this field; what its mapper
makes of a missing node after a deletion; and what it read before, if the history does not mention the field.  The element is again such an element. -/
theorem C69_record [PyUnicode] [DecidableEq ι] (eng : Engine) (heng : EngineOk eng) (ctx : Ctx) (hf : ∀ i, (fs i).Ok ctx)
    (hpart : ∀ i j, i ≠ j → Part (fs i).p (fs j).p) (a : Node.Addr) (ops : List (ROp fs)) (hops : ∀ op ∈ ops, op.Ok) (s n : Node) (hs : s.get a = some n)
    (ht : Tidy fs n) :
    ∃ n', runHistory eng ctx a ops s = (.ok (), s.modify a (fun _ => n')) ∧ Tidy fs n' ∧
      ∀ i, readAs (fs i).toPython eng ctx (fs i).xp (fs i).e (.elem a) (s.modify a (fun _ => n'))
        = (List.foldl (ROp.replay (fs := fs)) (readRec fs eng ctx a s) ops i, s.modify a (fun _ => n')) := by
  have key : ∀ (ops : List (ROp fs)), (∀ op ∈ ops, op.Ok) → ∀ (s n : Node), s.get a = some n → Tidy fs n →
      ∃ n', runHistory eng ctx a ops s = (.ok (), s.modify a (fun _ => n')) ∧ Tidy fs n' ∧
        readRec fs eng ctx a (s.modify a (fun _ => n')) = ops.foldl ROp.replay (readRec fs eng ctx a s) := by
    intro ops
    induction ops with
    | nil =>
      intro _ s n hs ht
      have : s.modify a (fun _ => n) = s := Node.modify_id hs rfl
      exact ⟨n, by rw [this]; rfl, ht, by rw [this]; rfl⟩
    | cons op ops ih =>
      intro hops s n hs ht
      obtain ⟨n1, h1, h2, h3, -⟩ := rop_run heng hf hpart hs ht op (hops op (by simp))
      have hs1 : Node.get a (s.modify a (fun _ => n1)) = some n1 := by rw [Node.get_modify, hs]; rfl
      obtain ⟨n2, k1, k2, k3⟩ := ih (fun o ho => hops o (by simp [ho])) _ n1 hs1 h2
      rw [Node.modify_modify] at k1 k3
      refine ⟨n2, ?_, k2, ?_⟩
      · show (op.run eng ctx a >>= fun _ => runHistory eng ctx a ops) s = _
        rw [bind_ok h1, k1]
        rfl
      · rw [List.foldl_cons, ← h3]
        exact k3
  obtain ⟨n', h1, h2, h3⟩ := key ops hops s n hs ht
  refine ⟨n', h1, h2, fun i => ?_⟩
  have hg : Node.get a (s.modify a (fun _ => n')) = some n' := by rw [Node.get_modify, hs]; rfl
  rw [← h3]
  unfold readRec
  rw [read_item heng (hf i) hg (uniq_of_single (hf i).good (h2 i).1)]

end

/-- C69.  The last assignment to a field determines its value, whatever happens to other fields before and afterwards. -/
theorem C69_last_assignment [PyUnicode] {ι : Type} {fs : ι → RField} [DecidableEq ι] (eng : Engine) (heng : EngineOk eng) (ctx : Ctx) (hf : ∀ i, (fs i).Ok ctx)
    (hpart : ∀ i j, i ≠ j → Part (fs i).p (fs j).p) (a : Node.Addr) (before after : List (ROp fs)) (i : ι) (v : (fs i).V)
    (hb : ∀ op ∈ before, op.Ok) (hv : (fs i).Keeps v) (ha : ∀ op ∈ after, op.Ok)
    (hother : ∀ op ∈ after, (∀ w, op ≠ .set i w) ∧ op ≠ .delete i) (s n : Node) (hs : s.get a = some n) (ht : Tidy fs n) :
    ∃ s', runHistory eng ctx a (before ++ .set i v :: after) s = (.ok (), s') ∧
      readAs (fs i).toPython eng ctx (fs i).xp (fs i).e (.elem a) s' = (.ok v, s') := by
  obtain ⟨n', h1, -, h3⟩ := C69_record eng heng ctx hf hpart a (before ++ .set i v :: after)
    (by
      intro op hop
      rcases List.mem_append.mp hop with h | h
      · exact hb op h
      · rcases List.mem_cons.mp h with rfl | h
        · exact hv
        · exact ha op h) s n hs ht
  refine ⟨_, h1, ?_⟩
  rw [h3 i, List.foldl_append, List.foldl_cons]
  congr 1
  generalize List.foldl ROp.replay (readRec fs eng ctx a s) before = r
  have hr : ROp.replay r (.set i v) i = .ok v := by simp [ROp.replay]
  revert hr
  generalize ROp.replay r (.set i v) = r
  intro hr
  clear h1 h3 ha
  induction after generalizing r with
  | nil => exact hr
  | cons op ops ih =>
    rw [List.foldl_cons]
    apply ih (fun o ho => hother o (by simp [ho]))
    have ho := hother op (by simp)
    cases op with
    | set j w =>
      have hj : i ≠ j := by rintro rfl; exact ho.1 w rfl
      simp only [ROp.replay]
      rw [Function.update_of_ne hj]; exact hr
    | delete j =>
      have hj : i ≠ j := by rintro rfl; exact ho.2 rfl
      simp only [ROp.replay]
      rw [Function.update_of_ne hj]; exact hr

/-! ### the hypotheses -/

/-- A new, empty element has room for all fields. -/
theorem C69_new_element {ι : Type} (fs : ι → RField) [PyUnicode] (ctx : Ctx) (hf : ∀ i, (fs i).Ok ctx) (q : QName) : Tidy fs (Node.empty q) := by
  intro i
  have hg := (hf i).good
  have hp := ne_nil_of_field (hf i).simple
  have hu : Uniq (fs i).p (Node.empty q) := by
    cases h : (fs i).p with
    | nil => trivial
    | cons st r => cases st <;> simp [Uniq]
  refine ⟨single_of_uniq hg hu, (writable_hits hg hp hu).mpr ?_⟩
  intro m hm
  cases h : (fs i).p with
  | nil => exact absurd h hp
  | cons st r => rw [h] at hm; cases st <;> simp [hits, Node.attr?] at hm

/-- A check that an element has room for a field. -/
def tidyCheck (p : List Step) (n : Node) : Bool :=
  (List.range (p.length + 1)).all (fun i => (Step.matches (p.take i) n).length ≤ 1) &&
  match (Step.matches p n).head? with
  | some (.elem b) => (n.get b).all (fun m => m.children.isEmpty)
  | some (.tail _) => false
  | some _ => true
  | none => match (missing p n).2 with
    | [.text] => false
    | _ => true
theorem C69_tidy_check {ι : Type} (fs : ι → RField) (n : Node) (h : ∀ i, tidyCheck (fs i).p n = true) : Tidy fs n := by
  intro i
  have := h i
  rw [tidyCheck, Bool.and_eq_true] at this
  obtain ⟨h1, h2⟩ := this
  refine ⟨fun k => ?_, ?_⟩
  · rw [List.all_eq_true] at h1
    by_cases hk : k < (fs i).p.length + 1
    · simpa using h1 k (List.mem_range.2 hk)
    · have := h1 (fs i).p.length (List.mem_range.2 (by omega))
      rw [List.take_of_length_le (by omega)]
      simpa using this
  · unfold Writable
    cases hh : (Step.matches (fs i).p n).head? with
    | none =>
      rw [hh] at h2
      simp only at h2 ⊢
      intro ht
      rw [ht] at h2
      simp at h2
    | some x =>
      rw [hh] at h2
      cases x with
      | elem b =>
        simp only at h2 ⊢
        intro m hm
        rw [hm] at h2
        simpa using h2
      | tail b => simp at h2
      | attr b q => trivial
      | text b => trivial

/-- Steps with different names are apart. -/
theorem C69_apart_names {q q' : QName} (h : q ≠ q') (ps ps' : List Pred) : Apart q ps q' ps' := by
  intro m h1 _ h3 _
  simp only [Node.isElem, beq_iff_eq] at h1 h3
  rw [h1] at h3
  exact h (by simpa using h3)

/-- Steps that compare the same attribute with different texts are apart: `note[@type='a']` and `note[@type='b']`. -/
theorem C69_apart_predicates {q q' t : QName} {v w : Str} (h : v ≠ w) {ps ps' : List Pred} (h1 : .attr t (some (.str v)) ∈ ps)
    (h2 : .attr t (some (.str w)) ∈ ps') : Apart q ps q' ps' := by
  intro m _ k1 _ k2
  have e1 := (satAll_iff ps m).mp k1 _ h1
  have e2 := (satAll_iff ps' m).mp k2 _ h2
  simp only [Pred.sat] at e1 e2
  cases ha : m.attr? t with
  | none => rw [ha] at e1; simp at e1
  | some u =>
    rw [ha] at e1 e2
    simp only [cmpTest, beq_iff_eq] at e1 e2
    exact h (e1.symm.trans e2)

/-- Which values the mappers keep.  Strings: every string that XML can hold, and `None`. -/
def strField (xp : Str) (e : Expr) (p : List Step) : RField := ⟨xp, e, p, Option Str, strToXml, strToPython false⟩
theorem C69_keeps_string (xp e p) (o : Option Str) (h : ∀ v, o = some v → xmlOk v = true) : (strField xp e p).Keeps o := by
  cases o with
  | none => exact ⟨none, rfl, rfl⟩
  | some v => exact ⟨some v, rfl, h v rfl, fun _ => rfl, fun _ m _ hm => by simp [strField, strToPython, hm]⟩

/-- Integers: every integer in an attribute; those up to 2^53 in an element; and `None`. -/
def intField (number : Str → XNum) (xp : Str) (e : Expr) (p : List Step) : RField := ⟨xp, e, p, Option Int, intToXml, intToPython number⟩
theorem C69_keeps_integer (number : Str → XNum) (hnum : NumberOk number) (xp e p) (o : Option Int)
    (h : ∀ n, o = some n → textual p = true ∨ n.natAbs ≤ 2 ^ 53) : (intField number xp e p).Keeps o := by
  cases o with
  | none => exact ⟨none, rfl, rfl⟩
  | some n =>
    refine ⟨some (intStr n), rfl, intStr_xmlOk n, fun _ => ?_, fun ht m _ hm => ?_⟩
    · simp only [intField, intToPython, pyInt_intStr, orNone]
    · have hb : n.natAbs ≤ 2 ^ 53 := by
        rcases h n rfl with h | h
        · simp only [intField] at ht; rw [ht] at h; simp at h
        · exact h
      simp only [intField, intToPython, hm, hnum.exact n hb, intOfNum, Nat.pow_zero, Nat.div_one, decide_eq_true_eq, orNone]
      congr 3
      split_ifs <;> omega

/-- Booleans: `True` and `False`, with a false value (different from the true value) or without. -/
def boolField (t : Str) (f : Option Str) (xp : Str) (e : Expr) (p : List Step) : RField := ⟨xp, e, p, Option Bool, boolToXml t f, boolToPython t f⟩
theorem C69_keeps_boolean (t : Str) (f : Option Str) (ht : xmlOk t = true) (hf : ∀ x, f = some x → xmlOk x = true ∧ x ≠ t) (xp e p) (b : Bool) :
    (boolField t f xp e p).Keeps (some b) := by
  cases b with
  | true => exact ⟨some t, rfl, ht, fun _ => by simp [boolField, boolToPython], fun _ m _ hm => by simp [boolField, boolToPython, hm]⟩
  | false =>
    cases f with
    | none => exact ⟨none, rfl, rfl⟩
    | some x =>
      obtain ⟨h1, h2⟩ := hf x rfl
      exact ⟨some x, rfl, h1, fun _ => by simp [boolField, boolToPython, h2], fun _ m _ hm => by simp [boolField, boolToPython, hm, h2]⟩

/-- Datetimes: all valid ones. -/
def dateTimeField (normalize : Bool) (xp : Str) (e : Expr) (p : List Step) : RField := ⟨xp, e, p, Option DateTime, dateTimeToXml, dateTimeToPython normalize⟩
theorem C69_keeps_datetime [PyUnicode] (normalize : Bool) (d : DateTime) (hd : d.valid = true) (xp e p) : (dateTimeField normalize xp e p).Keeps (some d) := by
  obtain ⟨hx, hb⟩ := isoformat_chars hd
  refine ⟨some (isoformat d), rfl, hx, fun _ => ?_, fun _ m hc hm => ?_⟩
  · simp only [dateTimeField, dateTimeToPython, dateTimeParse_isoformat hd]; rfl
  · cases normalize with
    | false => simp only [dateTimeField, dateTimeToPython, hm, Bool.false_eq_true, if_false, dateTimeParse_isoformat hd]; rfl
    | true => simp only [dateTimeField, dateTimeToPython, hm, if_true, normSpace_noSpace hb, dateTimeParse_isoformat hd]; rfl

/-- Dates from the year 1000 on (C34). -/
def dateField (xp : Str) (e : Expr) (p : List Step) : RField := ⟨xp, e, p, Option DateTime, dateToXml, dateToPython⟩
theorem C69_keeps_date [PyUnicode] (d : DateTime) (hd : d.valid = true) (hdate : d.isDate = true) (hy : 1000 ≤ d.year) (xp e p) :
    (dateField xp e p).Keeps (some d) := by
  refine ⟨some (strftimeDate d), rfl, strftime_xmlOk hd, fun _ => ?_, fun _ m hc hm => ?_⟩
  · simp only [dateField, dateToPython, strptime_strftime hd hdate hy]; rfl
  · have := text_of_strVal hc (by rw [hm]; exact (strftime_shape hd).2)
    simp only [dateField, dateToPython, this, hm, strptime_strftime hd hdate hy]; rfl

/-! ### a class with six fields -/

/-- ```
class Thing(XmlObject):
    id = IntegerField('@id')
    title = StringField('title')
    note_a = StringField('notes/note[@type="a"]')
    note_b = StringField('notes/note[@type="b"]')
    open = SimpleBooleanField('notes/@open', 'yes', 'no')
    made = DateTimeField('made/@when')
``` -/
def thing : Fin 6 → RField
  | 0 => intField xpathNumber c%"@id" (ast c%"@id") 
      [.attr ⟨none, c%"id"⟩]
  | 1 => strField c%"title" (ast c%"title") 
      [.child ⟨none, c%"title"⟩ []]
  | 2 => strField c%"notes/note[@type='a']" (ast c%"notes/note[@type='a']") 
      [.child ⟨none, c%"notes"⟩ [], .child ⟨none, c%"note"⟩ [.attr ⟨none, c%"type"⟩ (some (.str c%"a"))]]
  | 3 => strField c%"notes/note[@type='b']" (ast c%"notes/note[@type='b']") 
      [.child ⟨none, c%"notes"⟩ [], .child ⟨none, c%"note"⟩ [.attr ⟨none, c%"type"⟩ (some (.str c%"b"))]]
  | 4 => boolField c%"yes" (some c%"no") c%"notes/@open" (ast c%"notes/@open") 
      [.child ⟨none, c%"notes"⟩ [], .attr ⟨none, c%"open"⟩]
  | 5 => dateTimeField false c%"made/@when" (ast c%"made/@when") 
      [.child ⟨none, c%"made"⟩ [], .attr ⟨none, c%"when"⟩]

theorem thing_ok : ∀ i, (thing i).Ok sampleCtx
  | 0 => ⟨⟨by decide, by rfl, by decide, by decide⟩, by decide, by intro h; cases h⟩
  | 1 => ⟨⟨by decide, by rfl, by decide, by decide⟩, by decide, by intro h; cases h⟩
  | 2 => ⟨⟨by decide, by rfl, by decide, by decide⟩, by decide, by intro h; cases h⟩
  | 3 => ⟨⟨by decide, by rfl, by decide, by decide⟩, by decide, by intro h; cases h⟩
  | 4 => ⟨⟨by decide, by rfl, by decide, by decide⟩, by decide, by intro h; cases h⟩
  | 5 => ⟨⟨by decide, by rfl, by decide, by decide⟩, by decide, by intro h; cases h⟩

theorem part_symm : ∀ {p q : List Step}, Part p q → Part q p
  | .child _ _ :: _, .child _ _ :: _, h => by
    rcases h with h | ⟨h1, h2, h3⟩
    · exact .inl (fun m h1 h2 h3 h4 => h m h3 h4 h1 h2)
    · exact .inr ⟨h1.symm, h2.symm, part_symm h3⟩
  | .attr _ :: _, .attr _ :: _, h => Ne.symm h
  | .child _ _ :: _, .attr _ :: _, _ => trivial
  | .attr _ :: _, .child _ _ :: _, _ => trivial

theorem thing_part : ∀ i j, i ≠ j → Part (thing i).p (thing j).p := by
  have h : ∀ i j : Fin 6, i < j → Part (thing i).p (thing j).p := by
    intro i j h
    match i, j, h with
    | 0, 1, _ | 0, 2, _ | 0, 3, _ | 0, 4, _ | 0, 5, _ => trivial
    | 1, 2, _ | 1, 3, _ | 1, 4, _ | 1, 5, _ => exact .inl (C69_apart_names (by decide) _ _)
    | 2, 3, _ => exact .inr ⟨rfl, rfl, .inl (C69_apart_predicates (t := ⟨none, c%"type"⟩) (v := c%"a") (w := c%"b") (by decide) (by simp) (by simp))⟩
    | 2, 4, _ | 3, 4, _ => exact .inr ⟨rfl, rfl, trivial⟩
    | 2, 5, _ | 3, 5, _ | 4, 5, _ => exact .inl (C69_apart_names (by decide) _ _)
    | 5, j, h => exact absurd h (by omega)
  intro i j hij
  by_cases h' : i < j
  · exact h i j h'
  · exact part_symm (h j i (by omega))

/-- `id = 7; note_b = 'old'; note_a = 'x < y'; made = ...; open = False; title = None; del made; note_b = 'new'; del note_a`. -/
def thingOps : List (ROp thing) :=
  [.set 0 (some (7 : Int)), .set 3 (some c%"old" : Option Str), .set 2 (some c%"x < y" : Option Str),
   .set 5 (some (⟨2024, 2, 29, 23, 59, 59, 120⟩ : DateTime)), .set 4 (some false), .set 1 (none : Option Str), .delete 5,
   .set 3 (some c%"new" : Option Str), .delete 2]

/-- This history on a new element: every field reads what the replay says. -/
example : ∃ s', runHistory refEngine sampleCtx [] thingOps bare = (.ok (), s') ∧
    readRec thing refEngine sampleCtx [] s' 0 = .ok (some (7 : Int)) ∧ readRec thing refEngine sampleCtx [] s' 1 = .ok (none : Option Str) ∧
    readRec thing refEngine sampleCtx [] s' 2 = .ok (none : Option Str) ∧ readRec thing refEngine sampleCtx [] s' 3 = .ok (some c%"new" : Option Str) ∧
    readRec thing refEngine sampleCtx [] s' 4 = .ok (some false) ∧ readRec thing refEngine sampleCtx [] s' 5 = .ok (none : Option DateTime) := by
  obtain ⟨n', h1, -, h3⟩ := C69_record (fs := thing) refEngine refEngine_ok sampleCtx thing_ok thing_part [] thingOps
    (by
      intro op hop
      simp only [thingOps, List.mem_cons, List.not_mem_nil, or_false] at hop
      rcases hop with rfl | rfl | rfl | rfl | rfl | rfl | rfl | rfl | rfl
      · exact C69_keeps_integer xpathNumber xpathNumber_ok _ _ _ _ (fun n hn => .inl (by decide))
      · exact C69_keeps_string _ _ _ _ (fun v hv => by cases hv; decide)
      · exact C69_keeps_string _ _ _ _ (fun v hv => by cases hv; decide)
      · exact C69_keeps_datetime _ _ (by decide) _ _ _
      · exact C69_keeps_boolean _ _ (by decide) (fun x hx => by cases hx; decide) _ _ _ _
      · exact C69_keeps_string _ _ _ _ (fun v hv => by cases hv)
      · trivial
      · exact C69_keeps_string _ _ _ _ (fun v hv => by cases hv; decide)
      · trivial) bare bare rfl (C69_new_element thing sampleCtx thing_ok _)
  have hr : ∀ i, readRec thing refEngine sampleCtx [] (bare.modify [] (fun _ => n')) i = _ := fun i => congrArg Prod.fst (h3 i)
  refine ⟨_, h1, ?_⟩
  rw [hr 0, hr 1, hr 2, hr 3, hr 4, hr 5]
  refine ⟨rfl, rfl, rfl, rfl, rfl, rfl⟩

/-! ### the limits -/

/-- Where one path continues another, the fields are not independent: deleting `a/@id` removes the text that `a` reads, -/
theorem C69_counterexample_prefix :
    let doc : Node := bare.withChildren [.mk (.elem ⟨none, c%"a"⟩) [(⟨none, c%"id"⟩, c%"1")] (some c%"text") [] none]
    let r := managerDelete refEngine sampleCtx c%"a/@id" (ast c%"a/@id") (.elem []) doc
    (readStr refEngine sampleCtx c%"a" (ast c%"a") (.elem []) doc).1 = .ok (some c%"text") ∧ r.1 = .ok () ∧
    (readStr refEngine sampleCtx c%"a" (ast c%"a") (.elem []) r.2).1 = .ok none := by decide

/-- - and where one node is selected by both paths, assigning one field changes the other: `a` and `a[@id='1']`. -/
theorem C69_counterexample_overlap :
    let r := writeStr refEngine sampleCtx c%"v" c%"a[@id='1']" (ast c%"a[@id='1']") (.elem []) bare
    r.1 = .ok () ∧ (readStr refEngine sampleCtx c%"a" (ast c%"a") (.elem []) r.2).1 = .ok (some c%"v") := by decide

/-- Where a step selects two nodes, a deleted field can read the text of the next one. -/
theorem C69_counterexample_repeated :
    let doc : Node := bare.withChildren [(Node.empty ⟨none, c%"a"⟩).setText (some c%"1"), (Node.empty ⟨none, c%"a"⟩).setText (some c%"2")]
    let r := managerDelete refEngine sampleCtx c%"a" (ast c%"a") (.elem []) doc
    r.1 = .ok () ∧ (readStr refEngine sampleCtx c%"a" (ast c%"a") (.elem []) r.2).1 = .ok (some c%"2") := by decide

/-! ### C69 applied further -/

/-- `note_b = 'old'; title = None; del made`, read after the first statement and the others. -/
example : ∃ s', runHistory refEngine sampleCtx [] ([.delete 5] ++ .set 3 (some c%"old" : Option Str) :: [.set 1 (none : Option Str), .delete 2] : List (ROp thing)) bare = (.ok (), s') ∧
    readAs (thing 3).toPython refEngine sampleCtx (thing 3).xp (thing 3).e (.elem []) s' = (.ok (some c%"old" : Option Str), s') :=
  C69_last_assignment (fs := thing) refEngine refEngine_ok sampleCtx thing_ok thing_part [] [.delete 5] [.set 1 (none : Option Str), .delete 2] 3 (some c%"old" : Option Str)
    (by intro op hop; simp only [List.mem_singleton] at hop; subst hop; trivial)
    (C69_keeps_string _ _ _ _ (fun v hv => by cases hv; decide))
    (by
      intro op hop
      simp only [List.mem_cons, List.not_mem_nil, or_false] at hop
      rcases hop with rfl | rfl
      · exact C69_keeps_string _ _ _ _ (fun v hv => by cases hv)
      · trivial)
    (by
      intro op hop
      simp only [List.mem_cons, List.not_mem_nil, or_false] at hop
      rcases hop with rfl | rfl
      · refine ⟨fun w hw => ?_, (fun h => by cases h)⟩
        injection hw with h1 h2
        exact absurd h1 (by decide)
      · refine ⟨(fun w hw => by cases hw), fun h => ?_⟩
        injection h with h1
        exact absurd h1 (by decide))
    bare bare rfl (C69_new_element thing sampleCtx thing_ok _)

end Props
