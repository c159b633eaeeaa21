import Verif.Props.Mixed
import Verif.Props.Shared
import Verif.Props.Bundled
import Verif.Domain.BundledLists
/-
Property C77: the bundled classes behave like records with Python lists, single-value fields that share the XPath of a list included (Dublin Core).

Model: `managerSet`, `managerDelete`, `NodeList`; the tables of fields in Verif/Domain/Bundled.lean and Verif/Domain/BundledLists.lean.
Specification: the replay of a history on a record with Python lists (C74), where some names stand for the first item of a list (C76).
-/
namespace Props
open XPath Xml Spec Fields

/-! ### records with lists, and names for first items -/

section
variable {ι κ : Type} (fs : ι → RField) (ls : κ → LField)

/-- An operation: one of C74, or on the single-value field with the same XPath as the list `l`. -/
inductive VOp where
  | base (op : MOp fs ls)
  | set (l : κ) (v : (ls l).α)
  | delete (l : κ)

variable {fs ls}

/-- The effect on a record with Python lists: the single-value field stands for the first item. -/
def VOp.replay [DecidableEq ι] [DecidableEq κ] (st : MState fs ls) : VOp fs ls → MRes ls × MState fs ls
  | .base op => op.replay st
  | .set l v => (.done (.ok ()), { st with lists := Function.update st.lists l (v :: (st.lists l).tail) })
  | .delete l => (.done (.ok ()), { st with lists := Function.update st.lists l (st.lists l).tail })

/-- A history: the results, and the end. -/
def VOp.replayAll [DecidableEq ι] [DecidableEq κ] (st : MState fs ls) : List (VOp fs ls) → List (MRes ls) × MState fs ls
  | [] => ([], st)
  | op :: ops => ((op.replay st).1 :: (VOp.replayAll (op.replay st).2 ops).1, (VOp.replayAll (op.replay st).2 ops).2)

/-- The operation on the object whose element is at `a`; `view l` is the mapper of the single-value field with the XPath of the list `l`, if there is
one. -/
def VOp.run [PyUnicode] (view : (l : κ) → Option (TextKind (ls l).α)) (eng : Engine) (ctx : Ctx) (a : Node.Addr) (s : Node) : VOp fs ls → MRes ls × Node
  | .base op => op.run eng ctx a s
  | .set l v => match view l with
    | some k => (.done (writeAs (k.toXml v) eng ctx (ls l).xp (ls l).e (.elem a) s).1, (writeAs (k.toXml v) eng ctx (ls l).xp (ls l).e (.elem a) s).2)
    | none => (.done (.ok ()), s)
  | .delete l => (.done (managerDelete eng ctx (ls l).xp (ls l).e (.elem a) s).1, (managerDelete eng ctx (ls l).xp (ls l).e (.elem a) s).2)

/-- A history on the object. -/
def VOp.runAll [PyUnicode] (view : (l : κ) → Option (TextKind (ls l).α)) (eng : Engine) (ctx : Ctx) (a : Node.Addr) (s : Node) :
    List (VOp fs ls) → List (MRes ls) × Node
  | [] => ([], s)
  | op :: ops => ((op.run view eng ctx a s).1 :: (VOp.runAll view eng ctx a (op.run view eng ctx a s).2 ops).1,
      (VOp.runAll view eng ctx a (op.run view eng ctx a s).2 ops).2)

/-- Only values that the fields keep; the single-value field exists. -/
def VOp.Ok (view : (l : κ) → Option (TextKind (ls l).α)) : VOp fs ls → Prop
  | .base op => op.Ok
  | .set l v => (view l).isSome = true ∧ (ls l).V.storable v
  | .delete l => (view l).isSome = true

/-- The object shows the state, and the single-value fields show the first items. -/
def VShows [PyUnicode] (view : (l : κ) → Option (TextKind (ls l).α)) (eng : Engine) (ctx : Ctx) (a : Node.Addr) (s : Node) (st : MState fs ls) : Prop :=
  Shows eng ctx a s st ∧ ∀ l k, view l = some k →
    readAs k.toPython eng ctx (ls l).xp (ls l).e (.elem a) s = (firstOr (k.toPython none) (st.lists l), s)

/-- The single-value fields have the mappers of the lists. -/
def ViewOk (number : Str → XNum) (ctx : Ctx) (view : (l : κ) → Option (TextKind (ls l).α)) : Prop :=
  ∀ l k, view l = some k → PairOk number k (ls l).V ∧ (ls l).k = k.list ctx (ls l).e

section
variable [PyUnicode] [DecidableEq ι] [DecidableEq κ] {eng : Engine} (heng : EngineOk eng) {number : Str → XNum} (hnum : NumberOk number) {ctx : Ctx}
  (hf : ∀ i, (fs i).Ok ctx) (hl : ∀ l, (ls l).Ok number ctx) (hsep : NoClash fs ls) {view : (l : κ) → Option (TextKind (ls l).α)}
  (hview : ViewOk number ctx view)

include heng hnum hf hl hsep hview

omit heng hnum hf hl hsep [DecidableEq ι] [DecidableEq κ] in
theorem shows_view {a : Node.Addr} {s : Node} {st : MState fs ls} (h : Shows eng ctx a s st) : VShows view eng ctx a s st := by
  refine ⟨h, fun l k hk => ?_⟩
  have hr := h.2 l
  rw [(hview l k hk).2] at hr
  cases hv : st.lists l with
  | nil => rw [hv] at hr; exact C76_empty eng ctx k.toPython (ls l).xp (ls l).e (.elem a) s hr
  | cons v vs => rw [hv] at hr; exact C76_first_item eng ctx k.toPython (ls l).xp (ls l).e (.elem a) s v vs hr

theorem vop_run {a : Node.Addr} {s n : Node} (hs : s.get a = some n) (hr : Roomy fs ls n) {st : MState fs ls} (hst : Shows eng ctx a s st) (op : VOp fs ls)
    (hop : op.Ok view) : ∃ n', op.run view eng ctx a s = ((op.replay st).1, s.modify a (fun _ => n')) ∧ Roomy fs ls n' ∧
      Shows eng ctx a (s.modify a (fun _ => n')) (op.replay st).2 := by
  obtain ⟨-, k2⟩ := (shows_iff heng hnum hf hl hs hr st).mp hst
  cases op with
  | base op => exact mop_run heng hnum hf hl hsep hs hr hst op hop
  | set l v =>
    obtain ⟨h1, hv⟩ := hop
    obtain ⟨k, hk⟩ := Option.isSome_iff_exists.mp h1
    obtain ⟨p1, p2⟩ := hview l k hk
    obtain ⟨n', h1, h2, h3⟩ := shared_step heng hnum (hl l).field (hl l).preds p1 hs (l := st.lists l) ⟨hr.2 l, (k2 l).symm⟩ (.set v) hv
    obtain ⟨r1, r2⟩ := list_changed heng hnum hf hl hsep hs hr hst l h2 h3
    refine ⟨n', ?_, r1, r2⟩
    simp only [VOp.run, hk, VOp.replay]
    simp only [SharedOp.run, SharedOp.replay, Prod.mk.injEq] at h1
    rw [h1.2]
    congr 2
    revert h1
    cases (writeAs (k.toXml v) eng ctx (ls l).xp (ls l).e (.elem a) s).1 <;> simp [asUnit]
  | delete l =>
    obtain ⟨k, hk⟩ := Option.isSome_iff_exists.mp hop
    obtain ⟨p1, p2⟩ := hview l k hk
    obtain ⟨n', h1, h2, h3⟩ := shared_step heng hnum (hl l).field (hl l).preds p1 hs (l := st.lists l) ⟨hr.2 l, (k2 l).symm⟩ .delete trivial
    obtain ⟨r1, r2⟩ := list_changed heng hnum hf hl hsep hs hr hst l h2 h3
    refine ⟨n', ?_, r1, r2⟩
    simp only [VOp.run, VOp.replay]
    simp only [SharedOp.run, SharedOp.replay, Prod.mk.injEq] at h1
    rw [h1.2]
    congr 2
    revert h1
    cases (managerDelete eng ctx (ls l).xp (ls l).e (.elem a) s).1 <;> simp [asUnit]

/-- C77, any class: single-value fields (C69), list fields (C25), and single-value fields that share the XPath of a list.  Every history gives the results
and errors of the same history on a record with Python lists, where the sharing fields stand for first items; nothing outside the object's element
changes; and at the end all fields show what the record holds. -/
theorem C77_history {a : Node.Addr} (ops : List (VOp fs ls)) (hops : ∀ op ∈ ops, op.Ok view) {s n : Node} (hs : s.get a = some n) (hr : Roomy fs ls n)
    {st : MState fs ls} (hst : VShows view eng ctx a s st) :
    ∃ n', VOp.runAll view eng ctx a s ops = ((VOp.replayAll st ops).1, s.modify a (fun _ => n')) ∧ Roomy fs ls n' ∧
      VShows view eng ctx a (s.modify a (fun _ => n')) (VOp.replayAll st ops).2 := by
  induction ops generalizing s n st with
  | nil => exact ⟨n, by rw [Node.modify_id hs rfl]; rfl, hr, by rw [Node.modify_id hs rfl]; exact hst⟩
  | cons op ops ih =>
    obtain ⟨n1, h1, h2, h3⟩ := vop_run heng hnum hf hl hsep hview hs hr hst.1 op (hops op (by simp))
    have hs1 : Node.get a (s.modify a (fun _ => n1)) = some n1 := by rw [Node.get_modify, hs]; rfl
    obtain ⟨n2, k1, k2, k3⟩ := ih (fun o ho => hops o (by simp [ho])) hs1 h2 (shows_view hview h3)
    rw [Node.modify_modify] at k1 k3
    refine ⟨n2, ?_, k2, k3⟩
    simp only [VOp.runAll, VOp.replayAll, h1, k1]
    rfl

end
end

/-! ### the bundled classes -/

open Bundled

/-- The name and predicates of a single child step. -/
def childStep (ctx : Ctx) (xp : Str) : QName × List Pred := match steps ctx xp with
  | [.child q ps] => (q, ps)
  | _ => (⟨none, []⟩, [])

/-- A list field of a class. -/
def listOf (ctx : Ctx) (c : ClassDecl) (l : ListDecl) : LField := match l.kind with
  | .str => ⟨Option Str, inferInstance, l.xpath, ast l.xpath, (childStep (classCtx c) l.xpath).1, (childStep (classCtx c) l.xpath).2,
      strKind ctx (ast l.xpath), strView⟩
  | .node => ⟨Node, inferInstance, l.xpath, ast l.xpath, (childStep (classCtx c) l.xpath).1, (childStep (classCtx c) l.xpath).2,
      nodeKind, nodeView (childStep (classCtx c) l.xpath).1 (childStep (classCtx c) l.xpath).2⟩

/-- Does the class have a string field with the XPath of the list of strings? -/
def shares (c : ClassDecl) (l : ListDecl) : Bool := c.fields.any (fun f => f.xpath == l.xpath && (match f.kind with | .str false => true | _ => false))

/-- The mapper of the single-value field with the XPath of the list of strings, if the class has one. -/
def viewOf (ctx : Ctx) (c : ClassDecl) (l : ListDecl) : Option (TextKind (listOf ctx c l).α) := match l with
  | ⟨_, .str, _⟩ => if shares c l then some strPair else none
  | ⟨_, .node, _⟩ => none

/-- Is the list field one for children with a name, that C25 covers? -/
def listable (c : ClassDecl) (l : ListDecl) : Bool := match simplePath (classCtx c) l.xpath with
  | some (_, [.child _ ps]) => attrOnly ps
  | _ => false

/-- Do the XPaths part? -/
def partXp (c : ClassDecl) (x y : Str) : Bool := match simplePath (classCtx c) x, simplePath (classCtx c) y with
  | some (_, p), some (_, p') => partB p p'
  | _, _ => false

/-- The pairs of a single-value and a list field of a bundled class that do interfere: the XPath of the field starts with, or is, that of the list. -/
def listInterfering : List (Str × Str × Str) := [
  (c%"dc.DublinCore", c%"contributor", c%"contributor_list"), (c%"dc.DublinCore", c%"coverage", c%"coverage_list"),
  (c%"dc.DublinCore", c%"creator", c%"creator_list"), (c%"dc.DublinCore", c%"date", c%"date_list"),
  (c%"dc.DublinCore", c%"description", c%"description_list"), (c%"dc.DublinCore", c%"format", c%"format_list"),
  (c%"dc.DublinCore", c%"identifier", c%"identifier_list"), (c%"dc.DublinCore", c%"language", c%"language_list"),
  (c%"dc.DublinCore", c%"publisher", c%"publisher_list"), (c%"dc.DublinCore", c%"relation", c%"relation_list"),
  (c%"dc.DublinCore", c%"rights", c%"rights_list"), (c%"dc.DublinCore", c%"source", c%"source_list"),
  (c%"dc.DublinCore", c%"subject", c%"subject_list"), (c%"dc.DublinCore", c%"title", c%"title_list"),
  (c%"dc.DublinCore", c%"type", c%"type_list"), (c%"mods.BaseMods", c%"title", c%"title_info_list"),
  (c%"mods.BaseMods", c%"location", c%"locations"), (c%"mods.RelatedItem", c%"title", c%"title_info_list"),
  (c%"mods.RelatedItem", c%"location", c%"locations"), (c%"mods.MODS", c%"title", c%"title_info_list"),
  (c%"mods.MODS", c%"location", c%"locations"), (c%"mods.MODSv34", c%"title", c%"title_info_list"),
  (c%"mods.MODSv34", c%"location", c%"locations")]

/-- The check of all classes with lists. -/
def listsOk : Bool := listClasses.all (fun c =>
  c.cls.fields.all (fun f => recordable c.cls f && c.cls.fields.all (fun g => f.name == g.name || disjoint c.cls f g ||
    interfering.contains (c.cls.name, f.name, g.name) || interfering.contains (c.cls.name, g.name, f.name))) &&
  c.lists.all (fun l => listable c.cls l && c.lists.all (fun m => l.name == m.name || partXp c.cls l.xpath m.xpath) &&
    c.cls.fields.all (fun f => partXp c.cls f.xpath l.xpath || listInterfering.contains (c.cls.name, f.name, l.name))))

theorem listsOk_true : listsOk = true := by decide +kernel

/-- A choice of fields and list fields of a class, without two that interfere. -/
structure ListSelection (c : ListClass) {ι κ : Type} (sel : ι → FieldDecl) (lsel : κ → ListDecl) : Prop where
  fields : Selection c.cls sel
  mem : ∀ l, lsel l ∈ c.lists
  inj : ∀ l m, (lsel l).name = (lsel m).name → l = m
  apart : ∀ i l, (c.cls.name, (sel i).name, (lsel l).name) ∉ listInterfering

theorem listable_step {c : ClassDecl} {l : ListDecl} (h : listable c l = true) : ∃ e q ps, simplePath (classCtx c) l.xpath = some (e, [.child q ps]) ∧
    attrOnly ps = true ∧ childStep (classCtx c) l.xpath = (q, ps) ∧ ast l.xpath = e := by
  unfold listable at h
  match hp : simplePath (classCtx c) l.xpath, h with
  | some (e, [.child q ps]), h =>
    obtain ⟨h1, h2⟩ := simplePath_eq hp
    exact ⟨e, q, ps, rfl, h, by rw [childStep, h2], h1⟩

theorem listable_ok [PyUnicode] (number : Str → XNum) {c : ClassDecl} {l : ListDecl} (h : listable c l = true) {ctx : Ctx} (hx : Extends (classCtx c) ctx) :
    (listOf ctx c l).Ok number ctx := by
  obtain ⟨e, q, ps, h1, h2, h3, h4⟩ := listable_step h
  have hf := simplePath_ok hx h1
  unfold listOf
  rw [h3, h4]
  cases l.kind with
  | str => exact ⟨hf, .str h2, h2⟩
  | node => exact ⟨hf, .node, h2⟩

theorem listOf_path (ctx : Ctx) {c : ClassDecl} {l : ListDecl} {e q ps} (h : simplePath (classCtx c) l.xpath = some (e, [.child q ps])) :
    (listOf ctx c l).q = q ∧ (listOf ctx c l).ps = ps := by
  have h3 : childStep (classCtx c) l.xpath = (q, ps) := by rw [childStep, (simplePath_eq h).2]
  unfold listOf
  rw [h3]
  cases l.kind <;> exact ⟨rfl, rfl⟩

theorem partXp_ok {c : ClassDecl} {x y : Str} (h : partXp c x y = true) {e p e' p'} (hx : simplePath (classCtx c) x = some (e, p))
    (hy : simplePath (classCtx c) y = some (e', p')) : Part p p' := by
  unfold partXp at h
  rw [hx, hy] at h
  exact partB_ok h

theorem part_single {q ps q' ps'} (h : Part [.child q ps] [.child q' ps']) : Apart q ps q' ps' := by
  rcases h with h | ⟨-, -, h⟩
  · exact h
  · exact absurd h (by simp [Part])

theorem recordable_path {c : ClassDecl} {f : FieldDecl} (h : recordable c f = true) (number) : ∃ e p, simplePath (classCtx c) f.xpath = some (e, p) ∧
    (fieldOf number c f).p = p := by
  unfold recordable at h
  match hp : simplePath (classCtx c) f.xpath, h with
  | some (e, p), _ => exact ⟨e, p, rfl, by unfold fieldOf; rw [(declField_xp number f _ _).2.2, (simplePath_eq hp).2]⟩

section
variable {c : ListClass} (hc : c ∈ listClasses) {ι κ : Type} {sel : ι → FieldDecl} {lsel : κ → ListDecl} (hs : ListSelection c sel lsel)
include hc hs

theorem listSelection_facts : (∀ i, recordable c.cls (sel i) = true) ∧ (∀ i j, i ≠ j → disjoint c.cls (sel i) (sel j) = true) ∧
    (∀ l, listable c.cls (lsel l) = true) ∧ (∀ l m, l ≠ m → partXp c.cls (lsel l).xpath (lsel m).xpath = true) ∧
    ∀ i l, partXp c.cls (sel i).xpath (lsel l).xpath = true := by
  have h := listsOk_true
  unfold listsOk at h
  rw [List.all_eq_true] at h
  have h1 := h c hc
  rw [Bool.and_eq_true, List.all_eq_true, List.all_eq_true] at h1
  obtain ⟨h1, h5⟩ := h1
  have h2 : ∀ i, _ := fun i => h1 (sel i) (hs.fields.mem i)
  simp only [Bool.and_eq_true] at h2
  have h6 : ∀ l, _ := fun l => h5 (lsel l) (hs.mem l)
  simp only [Bool.and_eq_true] at h6
  refine ⟨fun i => (h2 i).1, fun i j hij => ?_, fun l => (h6 l).1.1, fun l m hlm => ?_, fun i l => ?_⟩
  · have h3 := (h2 i).2
    rw [List.all_eq_true] at h3
    have h4 := h3 (sel j) (hs.fields.mem j)
    simp only [Bool.or_eq_true, beq_iff_eq, List.contains_iff_mem] at h4
    rcases h4 with ((h4 | h4) | h4) | h4
    · exact absurd (hs.fields.inj i j h4) hij
    · exact h4
    · exact absurd h4 (hs.fields.apart i j)
    · exact absurd h4 (hs.fields.apart j i)
  · have h3 := (h6 l).1.2
    rw [List.all_eq_true] at h3
    have h4 := h3 (lsel m) (hs.mem m)
    simp only [Bool.or_eq_true, beq_iff_eq] at h4
    rcases h4 with h4 | h4
    · exact absurd (hs.inj l m h4) hlm
    · exact h4
  · have h3 := (h6 l).2
    rw [List.all_eq_true] at h3
    have h4 := h3 (sel i) (hs.fields.mem i)
    simp only [Bool.or_eq_true, List.contains_iff_mem] at h4
    rcases h4 with h4 | h4
    · exact h4
    · exact absurd h4 (hs.apart i l)

theorem listSelection_ok [PyUnicode] (number : Str → XNum) {ctx : Ctx} (hx : Extends (classCtx c.cls) ctx) :
    (∀ i, (fieldOf number c.cls (sel i)).Ok ctx) ∧ (∀ l, (listOf ctx c.cls (lsel l)).Ok number ctx) ∧
    NoClash (fun i => fieldOf number c.cls (sel i)) (fun l => listOf ctx c.cls (lsel l)) := by
  obtain ⟨h1, h2, h3, h4, h5⟩ := listSelection_facts hc hs
  refine ⟨fun i => recordable_ok number (h1 i) hx, fun l => listable_ok number (h3 l) hx, ?_⟩
  refine ⟨fun i j hij => disjoint_ok number (h2 i j hij), fun l m hlm => ?_, fun i l => ?_⟩
  · obtain ⟨e, q, ps, k1, -⟩ := listable_step (h3 l)
    obtain ⟨e', q', ps', k2, -⟩ := listable_step (h3 m)
    obtain ⟨a1, a2⟩ := listOf_path ctx k1
    obtain ⟨b1, b2⟩ := listOf_path ctx k2
    simp only [a1, a2, b1, b2]
    exact part_single (partXp_ok (h4 l m hlm) k1 k2)
  · obtain ⟨e, p, k1, k2⟩ := recordable_path (h1 i) number
    obtain ⟨e', q', ps', k3, -⟩ := listable_step (h3 l)
    obtain ⟨b1, b2⟩ := listOf_path ctx k3
    simp only [b1, b2, k2]
    exact partXp_ok (h5 i l) k1 k3

end

theorem viewOf_pair (number : Str → XNum) (ctx : Ctx) (c : ClassDecl) (d : ListDecl) (k : TextKind (listOf ctx c d).α) (hk : viewOf ctx c d = some k) :
    PairOk number k (listOf ctx c d).V ∧ (listOf ctx c d).k = k.list ctx (listOf ctx c d).e := by
  match d, k, hk with
  | ⟨nm, .str, xp⟩, k, hk =>
    simp only [viewOf] at hk
    split at hk
    · cases hk
      exact ⟨PairOk.str, rfl⟩
    · cases hk

theorem viewOf_ok (number : Str → XNum) (ctx : Ctx) (c : ClassDecl) {κ : Type} (lsel : κ → ListDecl) :
    ViewOk (ls := fun l => listOf ctx c (lsel l)) number ctx (fun l => viewOf ctx c (lsel l)) := by
  intro l k hk
  exact viewOf_pair number ctx c (lsel l) k hk

section
variable [PyUnicode] {ι κ : Type} [DecidableEq ι] [DecidableEq κ]

/-- C77.  Take any class that comes with eulxml and has list fields, any of its single-value and list fields without two that interfere, and an object of the
class in a context that declares at least the prefixes of the class.  Then every history of assignments, deletions and list operations (failing ones included),
also through the single-value fields that share the XPath of a list, runs as on a record with Python lists. -/
theorem C77_bundled (eng : Engine) (heng : EngineOk eng) (number : Str → XNum) (hnum : NumberOk number) (c : ListClass) (hc : c ∈ listClasses) (ctx : Ctx)
    (hctx : Extends (classCtx c.cls) ctx) (sel : ι → FieldDecl) (lsel : κ → ListDecl) (hsel : ListSelection c sel lsel) (a : Node.Addr)
    (ops : List (VOp (fun i => fieldOf number c.cls (sel i)) (fun l => listOf ctx c.cls (lsel l))))
    (hops : ∀ op ∈ ops, op.Ok (fun l => viewOf ctx c.cls (lsel l))) (s n : Node) (hs : s.get a = some n)
    (hr : Roomy (fun i => fieldOf number c.cls (sel i)) (fun l => listOf ctx c.cls (lsel l)) n) :
    ∃ (st : MState (fun i => fieldOf number c.cls (sel i)) (fun l => listOf ctx c.cls (lsel l))) (n' : Node),
      VShows (fun l => viewOf ctx c.cls (lsel l)) eng ctx a s st ∧
      VOp.runAll (fun l => viewOf ctx c.cls (lsel l)) eng ctx a s ops = ((VOp.replayAll st ops).1, s.modify a (fun _ => n')) ∧
      Roomy (fun i => fieldOf number c.cls (sel i)) (fun l => listOf ctx c.cls (lsel l)) n' ∧
      VShows (fun l => viewOf ctx c.cls (lsel l)) eng ctx a (s.modify a (fun _ => n')) (VOp.replayAll st ops).2 := by
  obtain ⟨h1, h2, h3⟩ := listSelection_ok hc hsel number hctx
  have hv := viewOf_ok number ctx c.cls lsel
  obtain ⟨st, hst⟩ := C74_shows heng hnum h1 h2 hs hr
  have hst' := shows_view (view := fun l => viewOf ctx c.cls (lsel l)) hv hst
  obtain ⟨n', k1, k2, k3⟩ := C77_history heng hnum h1 h2 h3 hv ops hops hs hr hst'
  exact ⟨st, n', hst', k1, k2, k3⟩

omit [DecidableEq ι] [DecidableEq κ] in
/-- C77.  A new object has room for its fields and lists. -/
theorem C77_new_object (number : Str → XNum) (c : ListClass) (hc : c ∈ listClasses) (ctx : Ctx) (hctx : Extends (classCtx c.cls) ctx)
    (sel : ι → FieldDecl) (lsel : κ → ListDecl) (hsel : ListSelection c sel lsel) (q : QName) :
    Roomy (fun i => fieldOf number c.cls (sel i)) (fun l => listOf ctx c.cls (lsel l)) (Node.empty q) :=
  C74_new_element (ctx := ctx) (listSelection_ok hc hsel number hctx).1 q

end

/-- C77, Dublin Core: all fifteen lists, and all fifteen single-value fields as their first items. -/
theorem C77_dublin_core : ListSelection dc_DublinCore_l (fun i : Fin 0 => i.elim0) (fun l : Fin 15 => dc_DublinCore_l.lists[l]'(by exact l.2)) ∧
    (∀ l : Fin 15, shares dc_DublinCore (dc_DublinCore_l.lists[l]'(by exact l.2)) = true) ∧ dc_DublinCore.fields.length = 15 where
  left := ⟨⟨fun i => i.elim0, fun i => i.elim0, fun i => i.elim0⟩, fun l => List.getElem_mem _, by decide +kernel, fun i => i.elim0⟩
  right := ⟨by decide +kernel, by decide +kernel⟩

/-- The list fields of Dublin Core. -/
abbrev dcLists (ctx : Ctx) (l : Fin 15) : LField := listOf ctx dc_DublinCore_l.cls (dc_DublinCore_l.lists[l]'(by exact l.2))

/-- A history on a new Dublin Core record: `dc.title = 'A'`, `dc.title_list.append('B')`, `dc.creator_list.append('C')`, `del dc.title`; then `dc.title` and
`dc.title_list` both show `B`. -/
example : let ctx : Ctx := classCtx dc_DublinCore_l.cls
    ∃ s', (VOp.runAll (fs := fun i : Fin 0 => fieldOf xpathNumber dc_DublinCore_l.cls i.elim0) (ls := dcLists ctx)
      (fun l => viewOf ctx dc_DublinCore_l.cls (dc_DublinCore_l.lists[l]'(by exact l.2))) refEngine ctx [] (Node.empty ⟨none, c%"dc"⟩)
      [.set 13 (some c%"A" : Option Str), .base (.list 13 (.append (some c%"B" : Option Str))), .base (.list 2 (.append (some c%"C" : Option Str))),
        .delete 13]).2 = s' ∧
    (readList refEngine ctx (dcLists ctx 13).k (dcLists ctx 13).xp [] s').1 = .ok [(some c%"B" : Option Str)] ∧
    (readStr refEngine ctx c%"dc:title" (ast c%"dc:title") (.elem []) s').1 = .ok (some c%"B" : Option Str) := by
  intro ctx
  refine ⟨_, rfl, ?_, ?_⟩
  · decide +kernel
  · decide +kernel

/-- The hypotheses of `C77_bundled` hold of that history. -/
example : let ctx : Ctx := classCtx dc_DublinCore_l.cls
    ∀ op ∈ ([.set 13 (some c%"A" : Option Str), .base (.list 13 (.append (some c%"B" : Option Str))), .base (.list 2 (.append (some c%"C" : Option Str))),
        .delete 13] : List (VOp (fun i : Fin 0 => fieldOf xpathNumber dc_DublinCore_l.cls i.elim0) (dcLists ctx))),
      op.Ok (fun l => viewOf ctx dc_DublinCore_l.cls (dc_DublinCore_l.lists[l]'(by exact l.2))) := by
  intro ctx op hop
  simp only [List.mem_cons, List.not_mem_nil, or_false] at hop
  rcases hop with rfl | rfl | rfl | rfl
  · exact ⟨by decide +kernel, ⟨_, rfl, by decide⟩⟩
  · exact ⟨rfl, fun v hv => by rw [show v = (some c%"B" : Option Str) from (List.mem_singleton (α := Option Str)).mp hv]; exact ⟨_, rfl, by decide⟩⟩
  · exact ⟨rfl, fun v hv => by rw [show v = (some c%"C" : Option Str) from (List.mem_singleton (α := Option Str)).mp hv]; exact ⟨_, rfl, by decide⟩⟩
  · exact (by decide +kernel : (viewOf ctx dc_DublinCore_l.cls (dc_DublinCore_l.lists[13]'(by decide))).isSome = true)

end Props
