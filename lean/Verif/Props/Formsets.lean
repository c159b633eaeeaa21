import Verif.Forms.Formsets
import Verif.Props.ListField
import Verif.Props.FieldDelete
/-
Properties C51 (formsets of list fields), C52 (formsets of elements) and C54 (elements of subforms).

Model: Verif/Forms/Formsets.lean.
-/
namespace Props
open XPath Xml Spec Fields Forms

/-! ### C51 -/

section
variable [PyUnicode] {eng : Engine} {number : Str → XNum} {ctx : Ctx} {xp : Str} {e : Expr} {q : QName} {ps : List Pred} {α : Type} [DecidableEq α]
  {k : ListKind α} {V : ListView α} {a : Node.Addr} {s n : Node}

theorem listFormset_holds (h : ListAt eng number ctx xp e q ps k V a s n) (truthy : α → Bool) (vs : List α) (hvs : ∀ v ∈ vs, truthy v = true → V.storable v) :
    ∃ n', listFormsetUpdate eng ctx k.read k.store truthy xp e (.elem a) vs s = (.ok (), s.modify a (fun _ => n')) ∧
      readList eng ctx k xp a (s.modify a (fun _ => n')) = (.ok (vs.filter truthy), s.modify a (fun _ => n')) ∧ SameButMembers q ps n n' ∧
      Holds q ps V.fits V.item n' (vs.filter truthy) := by
  obtain ⟨put, hS⟩ := h.kind.store_ok h.num
  obtain ⟨ax, t, es, rfl⟩ := res_single h.field.path
  have hlen := listLen_run h.engine h.field.parse h.field.path hS h.node ⟨h.fits, rfl⟩
  obtain ⟨n', h1, h2, h3⟩ := listTrim_run h.engine h.field.parse h.field.path hS (((members q ps n).map V.item).length + s.nodes) 0 h.node ⟨h.fits, rfl⟩ (by omega)
  have hs' : (s.modify a (fun _ => n')).get a = some n' := by rw [Node.get_modify, h.node]; rfl
  rw [List.take_zero] at h2
  obtain ⟨n'', k1, k2, k3⟩ := listExtend_run h.engine h.field.parse h.field.path (pathOk_single h.field.ok) hS (vs.filter truthy) hs' h2
    (by intro v hv; obtain ⟨hv1, hv2⟩ := List.mem_filter.1 hv; exact hvs v hv1 hv2)
  rw [List.nil_append] at k2
  refine ⟨n'', ?_, ?_, same_trans h3 k3, k2⟩
  · unfold listFormsetUpdate
    rw [bind_ok hlen, bind_ok ((listTrimAll_run ..).trans h1), k1, Node.modify_modify]
    rfl
  · exact listData_run h.engine h.field.parse h.field.path hS (by rw [Node.get_modify, h.node]; rfl) k2

theorem listFormset_run (h : ListAt eng number ctx xp e q ps k V a s n) (truthy : α → Bool) (vs : List α) (hvs : ∀ v ∈ vs, truthy v = true → V.storable v) :
    ∃ n', listFormsetUpdate eng ctx k.read k.store truthy xp e (.elem a) vs s = (.ok (), s.modify a (fun _ => n')) ∧
      readList eng ctx k xp a (s.modify a (fun _ => n')) = (.ok (vs.filter truthy), s.modify a (fun _ => n')) ∧ SameButMembers q ps n n' := by
  obtain ⟨n', h1, h2, h3, -⟩ := listFormset_holds h truthy vs hvs
  exact ⟨n', h1, h2, h3⟩

/-- Updating the formset of a string list field: the field then shows exactly the submitted strings that are not empty, in order, whatever it showed
before, and nothing but the members of the list changed. -/
theorem C51_strings (h : ListAt eng number ctx xp e q ps (strKind ctx e) strView a s n) (vs : List (Option Str)) (hvs : ∀ t, some t ∈ vs → xmlOk t = true) :
    ∃ n', listFormsetUpdate eng ctx (strKind ctx e).read (strKind ctx e).store strTruthy xp e (.elem a) vs s = (.ok (), s.modify a (fun _ => n')) ∧
      readList eng ctx (strKind ctx e) xp a (s.modify a (fun _ => n')) = (.ok (vs.filter (fun v => decide (v ≠ none ∧ v ≠ some []))), s.modify a (fun _ => n')) ∧
      SameButMembers q ps n n' := by
  have hf : (fun v : Option Str => decide (v ≠ none ∧ v ≠ some [])) = strTruthy := by
    funext v
    cases v with
    | none => rfl
    | some t => cases t <;> simp [strTruthy]
  rw [hf]
  refine listFormset_run h strTruthy vs (fun v hv ht => ?_)
  cases v with
  | none => simp [strTruthy] at ht
  | some t => exact ⟨t, rfl, hvs t hv⟩

/-- Updating the formset of an integer list field: the field then shows the submitted integers except zeros, in order. -/
theorem C51_integers (h : ListAt eng number ctx xp e q ps (intKind number ctx e) (intView number) a s n) (vs : List (Option Int)) (hvs : ∀ i, some i ∈ vs → i.natAbs ≤ 2 ^ 53) :
    ∃ n', listFormsetUpdate eng ctx (intKind number ctx e).read (intKind number ctx e).store intTruthy xp e (.elem a) vs s = (.ok (), s.modify a (fun _ => n')) ∧
      readList eng ctx (intKind number ctx e) xp a (s.modify a (fun _ => n')) = (.ok (vs.filter (fun v => decide (v ≠ none ∧ v ≠ some 0))), s.modify a (fun _ => n')) ∧
      SameButMembers q ps n n' := by
  have hf : (fun v : Option Int => decide (v ≠ none ∧ v ≠ some 0)) = intTruthy := by
    funext v
    cases v with
    | none => rfl
    | some t => by_cases ht : t = 0 <;> simp [intTruthy, ht]
  rw [hf]
  refine listFormset_run h intTruthy vs (fun v hv ht => ?_)
  cases v with
  | none => simp [intTruthy] at ht
  | some t => exact ⟨t, rfl, hvs t hv⟩

/-- Counterexample: a submitted zero is dropped, even if the list held it before. -/
theorem C51_counterexample_zero (h : ListAt eng number ctx xp e q ps (intKind number ctx e) (intView number) a s n) :
    ∃ s', listFormsetUpdate eng ctx (intKind number ctx e).read (intKind number ctx e).store intTruthy xp e (.elem a) [some 0] s = (.ok (), s') ∧
      readList eng ctx (intKind number ctx e) xp a s' = (.ok [], s') := by
  obtain ⟨n', h1, h2, -⟩ := C51_integers h [some 0] (by simp)
  exact ⟨_, h1, by simpa using h2⟩

end

/-- A list with two members: the formset submits three values and an empty one. -/
example : ∃ s', listFormsetUpdate refEngine sampleCtx (strKind sampleCtx (ast c%"a[@n='1']")).read (strKind sampleCtx (ast c%"a[@n='1']")).store strTruthy c%"a[@n='1']"
      (ast c%"a[@n='1']") (.elem []) [some c%"two", some [], none, some c%"x", some c%"two"] listDoc = (.ok (), s') ∧
    readList refEngine sampleCtx (strKind sampleCtx (ast c%"a[@n='1']")) c%"a[@n='1']" [] s' = (.ok [some c%"two", some c%"x", some c%"two"], s') := by
  obtain ⟨n', h1, h2, -⟩ := C51_strings listAt_str [some c%"two", some [], none, some c%"x", some c%"two"] (by
    intro t ht; simp at ht; rcases ht with rfl | rfl | rfl | rfl <;> decide)
  exact ⟨_, h1, h2⟩

/-! ### C54 -/

section
variable [PyUnicode] {eng : Engine} {ctx : Ctx} {xp : Str} {e : Expr} {p : List Step} {a : Node.Addr} {s n : Node}

theorem childSteps_not_text (hcs : childSteps p = true) : p.getLast? ≠ some .text := by
  intro h
  obtain ⟨p', rfl⟩ := getLast?_split h
  simp [childSteps] at hcs

/-- Initializing the subform of a NodeField (with a path of child steps): the element of the subform is the first match; it is created, as only match, if there
was none, and else nothing is changed. -/
theorem C54_init (heng : EngineOk eng) (hf : SimpleField ctx xp e p) (hcs : childSteps p = true) (hs : s.get a = some n) :
    ∃ b s₁ n₁, initSubform eng ctx xp e (.elem a) s = (.ok (some (.ref (.elem (a ++ b)))), s₁) ∧ s₁.get a = some n₁ ∧ (Step.matches p n₁).head? = some (.elem b) ∧
      (Step.matches p n ≠ [] → s₁ = s) ∧ (Step.matches p n = [] → Step.matches p n₁ = [.elem b]) := by
  have hac := childSteps_allChild hcs
  have hnt := childSteps_not_text hcs
  obtain ⟨r, s₁, n₁, h1, -, h3, ⟨x, h4, rfl⟩, h5⟩ := C21_create_idempotent eng heng ctx xp e p hf hnt a s n hs
  obtain ⟨b, rfl⟩ := matches_allChild hac (List.mem_of_mem_head? h4)
  refine ⟨b, s₁, n₁, ?_, h3, h4, h5, fun hno => ?_⟩
  · unfold initSubform
    rw [bind_ok h1, findNode_path heng hf.parse hf.path h3, h4]
    rfl
  · have hp := ne_nil_of_field hf
    obtain ⟨m, hm⟩ := missing_get hf.ok n hp
    have hrun := createNode_run heng e p hf.path hf.ok hf.canonical a s n hs (.inl hno) m hm
    obtain ⟨pre, hpre, -, hne⟩ := missing_spec p n
    have hpl : p.getLast? = (missing p n).2.getLast? := getLast?_of_suffix hpre (hne hp)
    obtain ⟨-, hcr⟩ := matches_create hf.ok hp hno hm (k := id) (lastEdit_id _) (fun h => absurd (hpl.trans h) hnt)
    have hfn := findNode_path heng hf.parse hf.path hs
    have hc : managerCreate eng ctx xp e (.elem a) s
        = (.ok (.ref ((created (missing p n).2 m).under (a ++ (missing p n).1))), s.modify (a ++ (missing p n).1) (buildPath (missing p n).2 id)) := by
      unfold managerCreate
      rw [hno] at hfn
      rw [bind_ok hfn]
      exact bind_ok hrun
    rw [h1] at hc
    simp only [Prod.mk.injEq] at hc
    have hn1 : n₁ = n.modify (missing p n).1 (buildPath (missing p n).2 id) := by
      rw [hc.2, Node.modify_append, Node.get_modify, hs] at h3
      simpa using h3.symm
    rw [← hn1] at hcr
    rw [hcr] at h4 ⊢
    simpa using h4

/-- The subform's element is the only match of the field, and the update of the subform keeps its tag and what the predicates of the path require: then the document
is the one with the element updated if that is not empty, and otherwise the field is not there any more. -/
theorem C54_update (heng : EngineOk eng) (hf : SimpleField ctx xp e p) (hcs : childSteps p = true) (hap : attrPreds p = true) (hs : s.get a = some n)
    (b : Node.Addr) (hb : Step.matches p n = [.elem b]) (m : Node) (hm : n.get b = some m) (update : Node → Node) (htag : (update m).tag = m.tag)
    (hsat : ∀ q ps, p.getLast? = some (.child q ps) → satAll ps (update m) = true) (hal : Aligned p (n.modify b update)) :
    ∃ s', updateSubinstance eng ctx update (.own (a ++ b)) xp e (.elem a) s = (.ok (), s') ∧
      (Core.isEmpty (update m) = false → s' = s.modify (a ++ b) update ∧ findNode eng ctx xp (.elem a) s' = (.ok (some (.ref (.elem (a ++ b)))), s')) ∧
      (Core.isEmpty (update m) = true → findNode eng ctx xp (.elem a) s' = (.ok none, s')) := by
  have hold : findNode eng ctx xp (.elem a) s = (.ok (some (.ref (.elem (a ++ b)))), s) := by
    rw [findNode_path heng hf.parse hf.path hs, hb]; rfl
  have hs1 : (s.modify (a ++ b) update).get a = some (n.modify b update) := by rw [Node.modify_append, Node.get_modify, hs]; rfl
  have hsb : s.get (a ++ b) = some m := by rw [Node.get_append, hs]; exact hm
  have hg1 : (s.modify (a ++ b) update).get (a ++ b) = some (update m) := by rw [Node.get_modify, hsb]; rfl
  have hm1 : Step.matches p (n.modify b update) = [.elem b] := by rw [matches_replace hf.ok (by rw [hb]; simp) hm htag hsat, hb]
  have hnode : nodeAt (a ++ b) (s.modify (a ++ b) update) = (.ok (update m), s.modify (a ++ b) update) := by unfold nodeAt; rw [hg1]
  have hrun : updateSubinstance eng ctx update (.own (a ++ b)) xp e (.elem a) s =
      (if Core.isEmpty (update m) = true then managerDelete eng ctx xp e (.elem a) else pure ()) (s.modify (a ++ b) update) := by
    unfold updateSubinstance
    rw [bind_ok hold]
    simp only
    rw [bind_ok (show edit (a ++ b) update s = (.ok (), _) from rfl), bind_ok hnode]
    simp
  rw [hrun]
  by_cases he : Core.isEmpty (update m) = true
  · rw [if_pos he]
    have hnt : ∀ b', (Step.matches p (n.modify b update)).head? ≠ some (.tail b') := by rw [hm1]; simp
    refine ⟨_, managerDelete_run heng hf.parse hf.path hf.canonical hf.ok hap hs1 hal hnt, by simp [he], fun _ => ?_⟩
    rw [findNode_path heng hf.parse hf.path (n := delete p (n.modify b update)) (by rw [Node.get_modify, hs1]; rfl),
      delete_nomatch hf.ok hap (ne_nil_of_field hf) (childSteps_not_text hcs) hm1 hal]
    rfl
  · rw [if_neg he]
    refine ⟨_, rfl, fun _ => ⟨rfl, ?_⟩, fun h => absurd h he⟩
    rw [findNode_path heng hf.parse hf.path hs1, hm1]; rfl

omit [PyUnicode] in
theorem matches_single_length (q : QName) (ps : List Pred) (n : Node) : (Step.matches [.child q ps] n).length = (members q ps n).length := by
  rw [matches_single, List.length_map, idxs_length]; rfl

omit [PyUnicode] in
theorem match_single {q : QName} {ps : List Pred} {n : Node} {x : Ref} (h : x ∈ Step.matches [.child q ps] n) :
    ∃ i m, x = .elem [i] ∧ n.get [i] = some m ∧ isMember q ps m = true := by
  rw [matches_single] at h
  obtain ⟨i, hi, rfl⟩ := List.mem_map.1 h
  obtain ⟨k, hk⟩ := List.mem_iff_getElem?.1 hi
  obtain ⟨A, m, B, h1, h2, h3, -⟩ := idxs_get hk
  refine ⟨i, m, rfl, ?_, h3⟩
  subst h2
  simp [Node.get, h1]

/-- From the creation of a form to its update, for a field with a single child step that had at most one match: the field is there afterwards exactly if the updated
element of the subform is not empty. -/
theorem C54_lifecycle (heng : EngineOk eng) {q : QName} {ps : List Pred} (hf : SimpleField ctx xp e [.child q ps]) (hap : attrPreds [.child q ps] = true) (hs : s.get a = some n)
    (hone : (members q ps n).length ≤ 1) (update : Node → Node) (htag : ∀ m, (update m).tag = m.tag) (hsat : ∀ m, satAll ps m = true → satAll ps (update m) = true) :
    ∃ b s₁ m s₂, initSubform eng ctx xp e (.elem a) s = (.ok (some (.ref (.elem b))), s₁) ∧ s₁.get b = some m ∧ isMember q ps m = true ∧
      updateSubinstance eng ctx update (.own b) xp e (.elem a) s₁ = (.ok (), s₂) ∧
      (findNode eng ctx xp (.elem a) s₂ = (.ok none, s₂) ↔ Core.isEmpty (update m) = true) ∧
      (Core.isEmpty (update m) = false → s₂ = s₁.modify b update) := by
  obtain ⟨b, s₁, n₁, h1, h2, h3, h4, h5⟩ := C54_init heng hf rfl hs
  have hb : Step.matches [.child q ps] n₁ = [.elem b] := by
    by_cases hno : Step.matches [.child q ps] n = []
    · exact h5 hno
    · have he := h4 hno
      rw [he, hs] at h2
      simp only [Option.some.injEq] at h2
      subst h2
      have hlen : (Step.matches [.child q ps] n).length ≤ 1 := by
        have := matches_single_length q ps n
        omega
      cases hm : Step.matches [.child q ps] n with
      | nil => exact absurd hm hno
      | cons x l =>
        rw [hm] at h3 hlen
        cases l with
        | nil => simpa using h3
        | cons y l => simp at hlen
  obtain ⟨i, m, hbi, hm, hmem⟩ := match_single (show Ref.elem b ∈ Step.matches [.child q ps] n₁ by rw [hb]; simp)
  rw [← (Ref.elem.inj hbi)] at hm
  have hal : Aligned [.child q ps] (n₁.modify b update) := by
    intro x hx
    obtain ⟨i, _, rfl, -, -⟩ := match_single (List.mem_of_mem_head? hx)
    rfl
  obtain ⟨s₂, k1, k2, k3⟩ := C54_update heng hf rfl hap h2 b hb m hm update (htag m)
    (by
      intro q' ps' h
      simp only [List.getLast?_singleton, Option.some.injEq, Step.child.injEq] at h
      obtain ⟨rfl, rfl⟩ := h
      refine hsat m ?_
      simp only [isMember, Bool.and_eq_true] at hmem
      exact hmem.2) hal
  refine ⟨a ++ b, s₁, m, s₂, h1, by rw [Node.get_append, h2]; exact hm, hmem, k1, ⟨fun h => ?_, k3⟩, fun h => (k2 h).1⟩
  by_contra hne
  have := (k2 (by simpa using hne)).2
  rw [this] at h
  simp at h

/-- Updating again, after the element has been removed: it stays removed if the element is still empty, and is attached again if it is not. -/
theorem C54_again (heng : EngineOk eng) (hf : SimpleField ctx xp e p) (hcs : childSteps p = true) (hs : s.get a = some n) (hno : Step.matches p n = [])
    (v : Node) (update : Node → Node) (hv : ((update v).attrs.map Prod.fst).Nodup) (hsat : ∀ q ps, p.getLast? = some (.child q ps) → satAll ps (update v) = true) :
    (Core.isEmpty (update v) = true → updateSubinstance eng ctx update (.foreign v) xp e (.elem a) s = (.ok (), s)) ∧
    (Core.isEmpty (update v) = false → ∃ s' b m, updateSubinstance eng ctx update (.foreign v) xp e (.elem a) s = (.ok (), s') ∧
      findNode eng ctx xp (.elem a) s' = (.ok (some (.ref (.elem b))), s') ∧ s'.get b = some m ∧
      m.attrs = (update v).attrs ∧ m.text = (update v).text ∧ m.children = (update v).children) := by
  have hold : findNode eng ctx xp (.elem a) s = (.ok none, s) := by
    rw [findNode_path heng hf.parse hf.path hs, hno]; rfl
  have hrun : updateSubinstance eng ctx update (.foreign v) xp e (.elem a) s =
      (if Core.isEmpty (update v) = false then writeElem eng ctx (update v) xp e (.elem a) else pure ()) s := by
    unfold updateSubinstance
    rw [bind_ok hold]
    simp only [ne_eq, not_true_eq_false, false_and, if_false, true_and]
    rfl
  rw [hrun]
  constructor
  · intro he
    rw [if_neg (by simp [he])]; rfl
  · intro he
    rw [if_pos he]
    obtain ⟨s', b, m, h1, h2, h3, h4, h5, h6, -⟩ := C22_read_back eng heng ctx xp e p hf hcs (update v) hv hsat a s n hs
    exact ⟨s', b, m, h1, h2, h3, h4, h5, h6⟩

end

theorem subField : SimpleField sampleCtx c%"a" (ast c%"a") [.child ⟨none, c%"a"⟩ []] := ⟨by decide, by rfl, by decide, by decide⟩

/-- The hypotheses of `C54_lifecycle` hold for an empty document, and for updates that set the text. -/
example (t : Option Str) : ∃ b s₁ m s₂, initSubform refEngine sampleCtx c%"a" (ast c%"a") (.elem []) bare = (.ok (some (.ref (.elem b))), s₁) ∧ s₁.get b = some m ∧
      isMember ⟨none, c%"a"⟩ [] m = true ∧ updateSubinstance refEngine sampleCtx (Node.setText t) (.own b) c%"a" (ast c%"a") (.elem []) s₁ = (.ok (), s₂) ∧
      (findNode refEngine sampleCtx c%"a" (.elem []) s₂ = (.ok none, s₂) ↔ Core.isEmpty (Node.setText t m) = true) ∧
      (Core.isEmpty (Node.setText t m) = false → s₂ = s₁.modify b (Node.setText t)) :=
  C54_lifecycle refEngine_ok subField (by decide) rfl (by decide) (Node.setText t) (fun m => by cases m; rfl) (fun m _ => rfl)

/-- Counterexample: the mere creation of the form puts an empty element into the document. -/
theorem C54_counterexample_init : (initSubform refEngine sampleCtx c%"a" (ast c%"a") (.elem []) bare).2 = bare.withChildren [Node.empty ⟨none, c%"a"⟩] := by decide

/-- Counterexample: with a second match, the field is still there after the element of the subform was removed as empty. -/
theorem C54_counterexample_two :
    let doc := bare.withChildren [(Node.empty ⟨none, c%"a"⟩).setText (some c%"1"), (Node.empty ⟨none, c%"a"⟩).setText (some c%"2")]
    let r := updateSubinstance refEngine sampleCtx (Node.setText none) (.own [0]) c%"a" (ast c%"a") (.elem []) doc
    r = (.ok (), bare.withChildren [(Node.empty ⟨none, c%"a"⟩).setText (some c%"2")]) ∧
      (findNode refEngine sampleCtx c%"a" (.elem []) r.2).1 = .ok (some (.ref (.elem [0]))) := by decide

/-- Counterexample: in an indented document the text behind the element counts as content, so that an emptied element stays. -/
theorem C54_counterexample_tail :
    let doc := bare.withChildren [.mk (.elem ⟨none, c%"a"⟩) [] (some c%"1") [] (some c%" ")]
    updateSubinstance refEngine sampleCtx (Node.setText none) (.own [0]) c%"a" (ast c%"a") (.elem []) doc
      = (.ok (), bare.withChildren [.mk (.elem ⟨none, c%"a"⟩) [] none [] (some c%" ")]) := by decide

/-! ### C52 -/

section
variable {I C : Type} [DecidableEq I] [DecidableEq C]

/-- The forms of a formset fit the elements: the initial forms are for the elements of the list, in order, and the extra forms for new ones. -/
structure Fits (forms : List (MForm I)) (s : Elems I C) : Prop where
  initial : (forms.filter (fun f => f.initial)).map MForm.inst = s.list
  distinct : (forms.map MForm.inst).Nodup

/-- The content after an update of all elements in `l`. -/
def after (upd : I → C → C) (s : Elems I C) (l : List I) (x : I) : C := if x ∈ l then upd x (s.content x) else s.content x

theorem eraseP_unique {s : Elems I C} {x : I} (hx : ∀ y ∈ s.list, s.content y = s.content x → y = x) :
    (if s.contains x then s.remove x else s) = { s with list := s.list.erase x } := by
  by_cases hm : x ∈ s.list
  · have hc : s.contains x = true := List.any_eq_true.2 ⟨x, hm, by simp⟩
    rw [if_pos hc]
    unfold Elems.remove
    congr 1
    rw [List.erase_eq_eraseP]
    have key : ∀ l : List I, (∀ y ∈ l, s.content y = s.content x → y = x) → l.eraseP (fun y => s.content y == s.content x) = l.eraseP (fun y => x == y) := by
      intro l
      induction l with
      | nil => intro _; rfl
      | cons a l ih =>
        intro h
        by_cases ha : a = x
        · subst ha; simp
        · have h1 : (s.content a == s.content x) = false := by
            rw [beq_eq_false_iff_ne]; intro hc; exact ha (h a (by simp) hc)
          have h2 : (x == a) = false := by rw [beq_eq_false_iff_ne]; exact fun e => ha e.symm
          rw [List.eraseP_cons_of_neg (by simp [h1]), List.eraseP_cons_of_neg (by simp [h2]), ih (fun y hy => h y (by simp [hy]))]
    exact key s.list hx
  · have hc : s.contains x = false := by
      rw [← Bool.not_eq_true]
      intro h
      obtain ⟨y, hy, he⟩ := List.any_eq_true.1 h
      have := hx y hy (by simpa using he)
      exact hm (this ▸ hy)
    rw [hc, if_neg (by simp), List.erase_of_not_mem hm]

theorem removeDeleted_run (fs : List (MForm I)) : ∀ (s : Elems I C), s.list.Nodup → (∀ f ∈ fs, ∀ y ∈ s.list, s.content y = s.content f.inst → y = f.inst) →
    removeDeleted s fs = { s with list := s.list.filter (fun x => decide (x ∉ fs.map MForm.inst)) } := by
  induction fs with
  | nil => intro s _ _; simp [removeDeleted]
  | cons f fs ih =>
    intro s hn h
    rw [removeDeleted, eraseP_unique (h f (by simp))]
    rw [ih { s with list := s.list.erase f.inst } (hn.erase _) (fun g hg y hy hc => h g (by simp [hg]) y (List.mem_of_mem_erase hy) hc)]
    congr 1
    simp only
    rw [hn.erase_eq_filter, List.filter_filter]
    apply List.filter_congr
    intro x _
    by_cases hx : x = f.inst <;> simp [hx]

theorem after_nil (upd : I → C → C) (s : Elems I C) : after upd s [] = s.content := by funext x; simp [after]

theorem after_update (upd : I → C → C) (s : Elems I C) (x : I) (l : List I) (hx : x ∉ l) (list : List I) :
    after upd ⟨list, (s.update upd x).content⟩ l = after upd s (x :: l) := by
  funext y
  unfold after Elems.update
  simp only [List.mem_cons]
  by_cases hy : y = x
  · subst hy; simp [hx]
  · simp only [hy, false_or, if_false]

theorem changed_not_mem {f : MForm I} {fs : List (MForm I)} (h : f.inst ∉ fs.map MForm.inst) : f.inst ∉ (fs.filter (fun f => f.changed)).map MForm.inst := by
  intro h'; obtain ⟨g, hg, he⟩ := List.mem_map.1 h'
  exact h (List.mem_map.2 ⟨g, (List.mem_filter.1 hg).1, he⟩)

theorem updateInitial_run (upd : I → C → C) (fs : List (MForm I)) : ∀ (s : Elems I C), (fs.map MForm.inst).Nodup →
    updateInitial upd s fs = ⟨s.list, after upd s ((fs.filter (fun f => f.changed)).map MForm.inst)⟩ := by
  induction fs with
  | nil => intro s _; simp [updateInitial, after_nil]
  | cons f fs ih =>
    intro s hn
    rw [List.map_cons, List.nodup_cons] at hn
    rw [updateInitial, ih _ hn.2]
    by_cases hc : f.changed = true
    · rw [if_pos hc, List.filter_cons, if_pos hc, List.map_cons]
      congr 1
      exact after_update upd s f.inst _ (changed_not_mem hn.1) _
    · rw [if_neg hc, List.filter_cons, if_neg hc]

theorem updateExtra_run (upd : I → C → C) (fs : List (MForm I)) : ∀ (s : Elems I C), (fs.map MForm.inst).Nodup → s.list.Nodup →
    updateExtra upd s fs = ⟨s.list.filter (fun x => decide (x ∉ (fs.filter (fun f => f.changed)).map MForm.inst)) ++ (fs.filter (fun f => f.changed)).map MForm.inst,
      after upd s ((fs.filter (fun f => f.changed)).map MForm.inst)⟩ := by
  induction fs with
  | nil => intro s _ _; simp [updateExtra, after_nil]
  | cons f fs ih =>
    intro s hn hl
    rw [List.map_cons, List.nodup_cons] at hn
    rw [updateExtra]
    by_cases hc : f.changed = true
    · rw [if_pos hc]
      have hne := changed_not_mem hn.1
      have hl' : ((s.update upd f.inst).append f.inst).list.Nodup := by
        simp only [Elems.append, Elems.update]
        rw [List.nodup_append]
        refine ⟨hl.erase _, by simp, ?_⟩
        intro x hx y hy
        rw [List.mem_singleton] at hy
        subst hy
        exact fun e => hl.not_mem_erase (e ▸ hx)
      rw [ih _ hn.2 hl', List.filter_cons, if_pos hc, List.map_cons]
      congr 1
      · simp only [Elems.append, Elems.update]
        rw [List.filter_append, hl.erase_eq_filter, List.filter_filter, List.filter_cons, if_pos (by simpa using hne), List.filter_nil, List.append_assoc]
        congr 1
        apply List.filter_congr
        intro x _
        by_cases hx : x = f.inst <;> simp [hx]
      · exact after_update upd s f.inst _ hne _
    · rw [if_neg hc, ih _ hn.2 hl, List.filter_cons, if_neg hc]

theorem reorder_run (upd : I → C → C) (fs : List (MForm I)) : ∀ (s : Elems I C) (P R : List I), (fs.map MForm.inst).Nodup → s.list = R ++ P → s.list.Nodup →
    (∀ x ∈ R, x ∈ fs.map MForm.inst) → (∀ x ∈ P, x ∉ fs.map MForm.inst) →
    (∀ x ∈ fs.map MForm.inst, ∀ y, y ∈ R ∨ y ∈ P → y ≠ x → s.content y ≠ s.content x) →
    (∀ x ∈ fs.map MForm.inst, ∀ y ∈ fs.map MForm.inst, y ≠ x → upd y (s.content y) ≠ s.content x) →
    reorder upd s fs = ⟨P ++ fs.map MForm.inst, after upd s (fs.map MForm.inst)⟩ := by
  induction fs with
  | nil =>
    intro s P R _ hl _ hR _ _ _
    have : R = [] := by
      cases R with
      | nil => rfl
      | cons a R => exact absurd (hR a (by simp)) (by simp)
    subst this
    simp only [List.nil_append] at hl
    simp [reorder, after_nil, ← hl]
  | cons f fs ih =>
    intro s P R hn hl hnd hR hP hd hu
    rw [List.map_cons, List.nodup_cons] at hn
    have hun : ∀ y ∈ s.list, s.content y = s.content f.inst → y = f.inst := by
      intro y hy hc
      by_contra hne
      refine hd f.inst (by simp) y ?_ hne hc
      rw [hl, List.mem_append] at hy
      rcases hy with hy | hy
      · exact Or.inl hy
      · exact Or.inr hy
    rw [reorder, eraseP_unique hun]
    have hnP : f.inst ∉ P := fun h => hP _ h (by simp)
    have hlist : ((Elems.update upd ({ s with list := s.list.erase f.inst }) f.inst).append f.inst).list = (R.erase f.inst) ++ (P ++ [f.inst]) := by
      simp only [Elems.append, Elems.update]
      rw [hl] at hnd ⊢
      rw [List.nodup_append] at hnd
      by_cases hm : f.inst ∈ R
      · rw [List.erase_append_left _ hm, List.erase_append_right _ (hnd.1.not_mem_erase), List.erase_of_not_mem hnP, List.append_assoc]
      · rw [List.erase_append_right _ hm, List.erase_of_not_mem hnP, List.erase_append_right _ hm, List.erase_of_not_mem hnP, List.erase_of_not_mem hm, List.append_assoc]
    have hcont : ((Elems.update upd ({ s with list := s.list.erase f.inst }) f.inst).append f.inst).content = (s.update upd f.inst).content := rfl
    have hRP := hnd
    rw [hl, List.nodup_append] at hRP
    have hc' : ∀ z, z ≠ f.inst → (s.update upd f.inst).content z = s.content z := fun z hz => by simp [Elems.update, hz]
    have hcf : (s.update upd f.inst).content f.inst = upd f.inst (s.content f.inst) := by simp [Elems.update]
    have hmem : ∀ x, x ∈ fs.map MForm.inst → x ≠ f.inst := fun x hx e => hn.1 (e ▸ hx)
    rw [ih _ (P ++ [f.inst]) (R.erase f.inst) hn.2 hlist]
    · rw [List.map_cons, List.append_assoc, List.singleton_append]
      congr 1
      have := after_update upd s f.inst (fs.map MForm.inst) hn.1 ((Elems.update upd ({ s with list := s.list.erase f.inst }) f.inst).append f.inst).list
      exact this
    · rw [hlist, List.nodup_append]
      refine ⟨hRP.1.erase _, ?_, ?_⟩
      · rw [List.nodup_append]; refine ⟨hRP.2.1, by simp, ?_⟩
        intro x hx y hy e
        rw [List.mem_singleton] at hy
        exact hnP (hy ▸ e ▸ hx)
      · intro x hx y hy e
        rcases List.mem_append.1 hy with hy | hy
        · exact hRP.2.2 x (List.mem_of_mem_erase hx) y hy e
        · rw [List.mem_singleton] at hy
          exact hRP.1.not_mem_erase (hy ▸ e ▸ hx)
    · intro x hx
      have := hR x (List.mem_of_mem_erase hx)
      rw [List.map_cons, List.mem_cons] at this
      rcases this with e | h
      · exact absurd (e ▸ hx) (hRP.1.not_mem_erase)
      · exact h
    · intro x hx h
      rcases List.mem_append.1 hx with hx | hx
      · exact hP x hx (by simp [h])
      · rw [List.mem_singleton] at hx; exact hn.1 (hx ▸ h)
    · intro x hx y hy hne
      rw [hcont, hc' x (hmem x hx)]
      by_cases hyf : y = f.inst
      · subst hyf; rw [hcf]
        exact hu x (List.mem_cons_of_mem _ hx) f.inst (by simp) hne
      · rw [hc' y hyf]
        refine hd x (List.mem_cons_of_mem _ hx) y ?_ hne
        rcases hy with hy | hy
        · exact Or.inl (List.mem_of_mem_erase hy)
        · rcases List.mem_append.1 hy with hy | hy
          · exact Or.inr hy
          · rw [List.mem_singleton] at hy; exact absurd hy hyf
    · intro x hx y hy hne
      rw [hcont, hc' x (hmem x hx), hc' y (hmem y hy)]
      exact hu x (List.mem_cons_of_mem _ hx) y (List.mem_cons_of_mem _ hy) hne

/-- No two elements of the list have the same content. -/
def Separate (s : Elems I C) : Prop := ∀ x ∈ s.list, ∀ y ∈ s.list, s.content y = s.content x → y = x

theorem filter_map_nodup {forms : List (MForm I)} (h : (forms.map MForm.inst).Nodup) (p : MForm I → Bool) : ((forms.filter p).map MForm.inst).Nodup :=
  List.Nodup.sublist (List.Sublist.map _ List.filter_sublist) h

theorem inst_inj {forms : List (MForm I)} (h : (forms.map MForm.inst).Nodup) {f g : MForm I} (hf : f ∈ forms) (hg : g ∈ forms) (he : f.inst = g.inst) : f = g :=
  List.inj_on_of_nodup_map h hf hg he

theorem mem_filter_inst {forms : List (MForm I)} (h : (forms.map MForm.inst).Nodup) {f : MForm I} (hf : f ∈ forms) (p : MForm I → Bool) :
    f.inst ∈ (forms.filter p).map MForm.inst ↔ p f = true := by
  constructor
  · intro hm
    obtain ⟨g, hg, he⟩ := List.mem_map.1 hm
    obtain ⟨hg1, hg2⟩ := List.mem_filter.1 hg
    rw [inst_inj h hf hg1 he.symm]; exact hg2
  · intro hp; exact List.mem_map.2 ⟨f, List.mem_filter.2 ⟨hf, hp⟩, rfl⟩

theorem deletedForms_mem {cd : Bool} {forms : List (MForm I)} {f : MForm I} : f ∈ deletedForms cd forms ↔ f ∈ forms ∧ (f.initial || f.changed) = true ∧ (cd && f.deleted) = true := by
  unfold deletedForms
  cases cd with
  | false => simp
  | true => simp [and_assoc]

theorem list_initial {forms : List (MForm I)} {s : Elems I C} (hf : Fits forms s) : s.list.Nodup := by
  rw [← hf.initial]; exact filter_map_nodup hf.distinct _

/-- The elements of the initial forms that are not deleted. -/
theorem kept_eq {forms : List (MForm I)} {s : Elems I C} (hf : Fits forms s) (cd : Bool) :
    s.list.filter (fun x => decide (x ∉ (deletedForms cd forms).map MForm.inst)) = (forms.filter (fun f => f.initial && !(cd && f.deleted))).map MForm.inst := by
  rw [← hf.initial, List.filter_map, List.filter_filter]
  congr 1
  apply List.filter_congr
  intro f hfm
  have : f.inst ∈ (deletedForms cd forms).map MForm.inst ↔ (f.initial || f.changed) = true ∧ (cd && f.deleted) = true := by
    constructor
    · intro h
      obtain ⟨g, hg, he⟩ := List.mem_map.1 h
      obtain ⟨h1, h2⟩ := deletedForms_mem.1 hg
      rw [inst_inj hf.distinct hfm h1 he.symm]; exact h2
    · intro h; exact List.mem_map.2 ⟨f, deletedForms_mem.2 ⟨hfm, h⟩, rfl⟩
  simp only [Function.comp, this]
  cases f.initial <;> cases f.changed <;> cases (cd && f.deleted) <;> decide

theorem removeDeleted_eq {forms : List (MForm I)} {s : Elems I C} (hf : Fits forms s) (cd : Bool)
    (hs : ∀ f ∈ forms, cd = true → f.deleted = true → ∀ y ∈ s.list, s.content y = s.content f.inst → y = f.inst) :
    removeDeleted s (deletedForms cd forms) = ⟨(forms.filter (fun f => f.initial && !(cd && f.deleted))).map MForm.inst, s.content⟩ := by
  rw [removeDeleted_run _ _ (list_initial hf)]
  · rw [kept_eq hf]
  · intro f hfm y hy hc
    obtain ⟨h1, h2, h3⟩ := deletedForms_mem.1 hfm
    rw [Bool.and_eq_true] at h3
    exact hs f h1 h3.1 h3.2 y hy hc

/-- Without the validation, a formset that is not ordered: exactly the elements of the initial forms that are not deleted, in order, and then the elements of the changed
extra forms, in order; the content of an element changes exactly if its form changed, and as its form says. -/
theorem core_unordered (upd : I → C → C) (canDelete : Bool) (forms : List (MForm I)) (s : Elems I C) (hf : Fits forms s)
    (hs : ∀ f ∈ forms, canDelete = true → f.deleted = true → ∀ y ∈ s.list, s.content y = s.content f.inst → y = f.inst) :
    let s' := formsetCore upd canDelete false forms s
    s'.list = (forms.filter (fun f => f.initial && !(canDelete && f.deleted))).map MForm.inst ++ (forms.filter (fun f => !f.initial && f.changed)).map MForm.inst ∧
    ∀ f ∈ forms, s'.content f.inst = if f.changed = true then upd f.inst (s.content f.inst) else s.content f.inst := by
  have hd := hf.distinct
  have h0 := removeDeleted_eq hf canDelete hs
  unfold formsetCore
  simp only [Bool.false_eq_true, if_false, h0]
  rw [updateInitial_run upd _ _ (filter_map_nodup hd _), updateExtra_run upd _ _ (filter_map_nodup hd _) (filter_map_nodup hd _)]
  simp only [List.filter_filter]
  refine ⟨?_, fun f hfm => ?_⟩
  · have e1 : (forms.filter (fun f => f.changed && !f.initial)) = forms.filter (fun f => !f.initial && f.changed) := by
      apply List.filter_congr; intro f _; rw [Bool.and_comm]
    rw [e1]
    congr 1
    apply List.filter_eq_self.2
    intro x hx
    obtain ⟨f, hfm, rfl⟩ := List.mem_map.1 hx
    obtain ⟨h1, h2⟩ := List.mem_filter.1 hfm
    rw [Bool.and_eq_true] at h2
    rw [decide_eq_true_eq, mem_filter_inst hd h1, h2.1]
    simp
  · unfold after
    simp only [mem_filter_inst hd hfm]
    cases f.changed <;> cases f.initial <;> simp

theorem orderLe_total (a b : MForm I) : orderLe a b = true ∨ orderLe b a = true := by
  unfold orderLe
  cases a.order <;> cases b.order <;> simp
  omega

theorem orderLe_trans {a b c : MForm I} (h : orderLe a b = true) (h' : orderLe b c = true) : orderLe a c = true := by
  unfold orderLe at *
  cases ha : a.order <;> cases hb : b.order <;> cases hc : c.order <;> simp_all
  omega

instance : Std.Total (fun a b : MForm I => orderLe a b = true) := ⟨orderLe_total⟩
instance : IsTrans (MForm I) (fun a b : MForm I => orderLe a b = true) := ⟨fun _ _ _ => orderLe_trans⟩

/-- The ordered forms are the initial and the changed extra forms that are not deleted, by increasing order, those without order last, and with the same order
(or without) as in the formset. -/
theorem C52_order (canDelete : Bool) (forms : List (MForm I)) :
    let l := forms.filter (fun f => (f.initial || f.changed) && !(canDelete && f.deleted))
    (orderedForms canDelete forms).Perm l ∧ (orderedForms canDelete forms).Pairwise (fun a b => ∀ y, b.order = some y → ∃ x, a.order = some x ∧ x ≤ y) ∧
      ∀ f g, [f, g].Sublist l → f.order = g.order → [f, g].Sublist (orderedForms canDelete forms) := by
  refine ⟨List.perm_insertionSort _ _, (List.pairwise_insertionSort _ _).imp (fun {a b} hle y hy => ?_), fun f g hfg ho => ?_⟩
  · unfold orderLe at hle
    rw [hy] at hle
    cases hx : a.order with
    | none => rw [hx] at hle; simp at hle
    | some x => rw [hx] at hle; exact ⟨x, rfl, by simpa using hle⟩
  refine List.sublist_insertionSort ?_ hfg
  simp only [List.pairwise_cons, List.mem_singleton, forall_eq, List.not_mem_nil, false_implies, implies_true, List.Pairwise.nil, and_true]
  unfold orderLe
  rw [ho]
  cases g.order <;> simp

theorem ordered_mem {cd : Bool} {forms : List (MForm I)} {x : I} :
    x ∈ (orderedForms cd forms).map MForm.inst ↔ ∃ f ∈ forms, (f.initial || f.changed) = true ∧ (cd && f.deleted) = false ∧ f.inst = x := by
  rw [List.mem_map]
  constructor
  · rintro ⟨f, hf, rfl⟩
    have := (C52_order cd forms).1.mem_iff.1 hf
    obtain ⟨h1, h2⟩ := List.mem_filter.1 this
    rw [Bool.and_eq_true, Bool.not_eq_true'] at h2
    exact ⟨f, h1, h2.1, h2.2, rfl⟩
  · rintro ⟨f, h1, h2, h3, rfl⟩
    exact ⟨f, (C52_order cd forms).1.mem_iff.2 (List.mem_filter.2 ⟨h1, by simp [h2, h3]⟩), rfl⟩

theorem ordered_nodup {cd : Bool} {forms : List (MForm I)} (h : (forms.map MForm.inst).Nodup) : ((orderedForms cd forms).map MForm.inst).Nodup :=
  (((C52_order cd forms).1.map MForm.inst).nodup_iff).2 (filter_map_nodup h _)

/-- Without the validation, an ordered formset: exactly the elements of the ordered forms, in their order, each updated; provided that all elements in the list have different contents, also from
those of new forms, and that no element gets the content that another one had. -/
theorem core_ordered (upd : I → C → C) (canDelete : Bool) (forms : List (MForm I)) (s : Elems I C) (hf : Fits forms s)
    (hs : ∀ f ∈ forms, canDelete = true → f.deleted = true → ∀ y ∈ s.list, s.content y = s.content f.inst → y = f.inst)
    (hdist : ∀ f ∈ orderedForms canDelete forms, ∀ g ∈ orderedForms canDelete forms, g.inst ≠ f.inst →
      (g.initial = true → s.content g.inst ≠ s.content f.inst) ∧ upd g.inst (s.content g.inst) ≠ s.content f.inst) :
    let s' := formsetCore upd canDelete true forms s
    s'.list = (orderedForms canDelete forms).map MForm.inst ∧ ∀ f ∈ orderedForms canDelete forms, s'.content f.inst = upd f.inst (s.content f.inst) := by
  have h0 := removeDeleted_eq hf canDelete hs
  unfold formsetCore
  simp only [if_true, h0]
  rw [reorder_run upd (orderedForms canDelete forms) _ [] ((forms.filter (fun f => f.initial && !(canDelete && f.deleted))).map MForm.inst) (ordered_nodup hf.distinct) (by simp)]
  · refine ⟨by simp, fun f hfm => ?_⟩
    simp only [after]
    rw [if_pos (List.mem_map.2 ⟨f, hfm, rfl⟩)]
  · exact filter_map_nodup hf.distinct _
  · intro x hx
    obtain ⟨f, hfm, rfl⟩ := List.mem_map.1 hx
    obtain ⟨h1, h2⟩ := List.mem_filter.1 hfm
    rw [Bool.and_eq_true, Bool.not_eq_true'] at h2
    exact ordered_mem.2 ⟨f, h1, by simp [h2.1], h2.2, rfl⟩
  · simp
  · intro x hx y hy hne
    obtain ⟨f, hfm, rfl⟩ := List.mem_map.1 hx
    rcases hy with hy | hy
    · obtain ⟨g, hgm, rfl⟩ := List.mem_map.1 hy
      obtain ⟨h1, h2⟩ := List.mem_filter.1 hgm
      rw [Bool.and_eq_true, Bool.not_eq_true'] at h2
      exact (hdist f hfm g ((C52_order canDelete forms).1.mem_iff.2 (List.mem_filter.2 ⟨h1, by simp [h2.1, h2.2]⟩)) hne).1 h2.1
    · simp at hy
  · intro x hx y hy hne
    obtain ⟨f, hfm, rfl⟩ := List.mem_map.1 hx
    obtain ⟨g, hgm, rfl⟩ := List.mem_map.1 hy
    exact (hdist f hfm g hgm hne).2

/-- Updating a second time (`is_valid()` and then `update_instance()`) changes nothing more, provided that no element of a deleted form has the
content of an element in the list now. -/
theorem core_twice_unordered (upd : I → C → C) (canDelete : Bool) (forms : List (MForm I)) (s : Elems I C) (hupd : ∀ x, upd x (upd x (s.content x)) = upd x (s.content x)) (hf : Fits forms s)
    (hs : ∀ f ∈ forms, canDelete = true → f.deleted = true → ∀ y ∈ s.list, s.content y = s.content f.inst → y = f.inst)
    (hnew : ∀ f ∈ forms, canDelete = true → f.deleted = true → ∀ y ∈ (formsetCore upd canDelete false forms s).list,
      (formsetCore upd canDelete false forms s).content y ≠ (formsetCore upd canDelete false forms s).content f.inst) :
    let s' := formsetCore upd canDelete false forms s
    (formsetCore upd canDelete false forms s').list = s'.list ∧ ∀ f ∈ forms, (formsetCore upd canDelete false forms s').content f.inst = s'.content f.inst := by
  have hd := hf.distinct
  obtain ⟨hl, hc⟩ := core_unordered upd canDelete forms s hf hs
  generalize hs'' : formsetCore upd canDelete false forms s = s' at hl hc hnew
  have hnd : s'.list.Nodup := by
    rw [hl, List.nodup_append]
    refine ⟨filter_map_nodup hd _, filter_map_nodup hd _, ?_⟩
    intro x hx y hy e
    obtain ⟨f, hfm, rfl⟩ := List.mem_map.1 hx
    obtain ⟨h1, h2⟩ := List.mem_filter.1 hfm
    rw [← e, mem_filter_inst hd h1] at hy
    rw [Bool.and_eq_true] at h2 hy
    simp [h2.1] at hy
  have h0 : removeDeleted s' (deletedForms canDelete forms) = s' := by
    rw [removeDeleted_run _ _ hnd]
    · have : s'.list.filter (fun x => decide (x ∉ (deletedForms canDelete forms).map MForm.inst)) = s'.list := by
        apply List.filter_eq_self.2
        intro x hx
        rw [decide_eq_true_eq]
        intro h
        obtain ⟨f, hfm, rfl⟩ := List.mem_map.1 h
        obtain ⟨h1, h2, h3⟩ := deletedForms_mem.1 hfm
        rw [Bool.and_eq_true] at h3
        exact hnew f h1 h3.1 h3.2 _ hx rfl
      rw [this]
    · intro f hfm y hy hcy
      obtain ⟨h1, h2, h3⟩ := deletedForms_mem.1 hfm
      rw [Bool.and_eq_true] at h3
      exact absurd hcy (hnew f h1 h3.1 h3.2 _ hy)
  have hrun : formsetCore upd canDelete false forms s' =
      ⟨s'.list.filter (fun x => decide (x ∉ (forms.filter (fun f => f.changed && !f.initial)).map MForm.inst)) ++ (forms.filter (fun f => f.changed && !f.initial)).map MForm.inst,
        after upd ⟨s'.list, after upd s' ((forms.filter (fun f => f.changed && f.initial)).map MForm.inst)⟩ ((forms.filter (fun f => f.changed && !f.initial)).map MForm.inst)⟩ := by
    unfold formsetCore
    simp only [Bool.false_eq_true, if_false, h0]
    rw [updateInitial_run upd _ _ (filter_map_nodup hd _), updateExtra_run upd _ _ (filter_map_nodup hd _) (by exact hnd)]
    simp only [List.filter_filter]
  simp only
  rw [hrun]
  refine ⟨?_, fun f hfm => ?_⟩
  · have e1 : (forms.filter (fun f => f.changed && !f.initial)) = forms.filter (fun f => !f.initial && f.changed) := by
      apply List.filter_congr; intro f _; rw [Bool.and_comm]
    simp only [e1]
    conv_rhs => rw [hl]
    congr 1
    conv_lhs => rw [hl]
    have k1 : ∀ l : List I, l.filter (fun x => decide (x ∉ l)) = [] := by
      intro l
      apply List.filter_eq_nil_iff.2
      intro x hx; simpa using hx
    rw [List.filter_append, k1, List.append_nil]
    apply List.filter_eq_self.2
    intro x hx
    obtain ⟨f, hfm, rfl⟩ := List.mem_map.1 hx
    obtain ⟨h1, h2⟩ := List.mem_filter.1 hfm
    rw [Bool.and_eq_true] at h2
    rw [decide_eq_true_eq, mem_filter_inst hd h1, h2.1]
    simp
  · have h1 := hc f hfm
    unfold after
    simp only [mem_filter_inst hd hfm]
    cases hch : f.changed <;> cases f.initial <;> simp [h1, hch, hupd]

/-- The same for an ordered formset, provided that the elements have different contents now. -/
theorem core_twice_ordered (upd : I → C → C) (canDelete : Bool) (forms : List (MForm I)) (s : Elems I C) (hupd : ∀ x, upd x (upd x (s.content x)) = upd x (s.content x)) (hf : Fits forms s)
    (hs : ∀ f ∈ forms, canDelete = true → f.deleted = true → ∀ y ∈ s.list, s.content y = s.content f.inst → y = f.inst)
    (hdist : ∀ f ∈ orderedForms canDelete forms, ∀ g ∈ orderedForms canDelete forms, g.inst ≠ f.inst →
      (g.initial = true → s.content g.inst ≠ s.content f.inst) ∧ upd g.inst (s.content g.inst) ≠ s.content f.inst)
    (hnew : ∀ f ∈ forms, canDelete = true → f.deleted = true → ∀ y ∈ (formsetCore upd canDelete true forms s).list,
      (formsetCore upd canDelete true forms s).content y ≠ (formsetCore upd canDelete true forms s).content f.inst)
    (hs' : Separate (formsetCore upd canDelete true forms s)) :
    let s' := formsetCore upd canDelete true forms s
    (formsetCore upd canDelete true forms s').list = s'.list ∧
      ∀ f ∈ orderedForms canDelete forms, (formsetCore upd canDelete true forms s').content f.inst = s'.content f.inst := by
  obtain ⟨hl, hc⟩ := core_ordered upd canDelete forms s hf hs hdist
  generalize hs'' : formsetCore upd canDelete true forms s = s' at hl hc hnew hs'
  have hnd : s'.list.Nodup := by rw [hl]; exact ordered_nodup hf.distinct
  have h0 : removeDeleted s' (deletedForms canDelete forms) = s' := by
    rw [removeDeleted_run _ _ hnd]
    · have : s'.list.filter (fun x => decide (x ∉ (deletedForms canDelete forms).map MForm.inst)) = s'.list := by
        apply List.filter_eq_self.2
        intro x hx
        rw [decide_eq_true_eq]
        intro h
        obtain ⟨f, hfm, rfl⟩ := List.mem_map.1 h
        obtain ⟨h1, h2, h3⟩ := deletedForms_mem.1 hfm
        rw [Bool.and_eq_true] at h3
        exact hnew f h1 h3.1 h3.2 _ hx rfl
      rw [this]
    · intro f hfm y hy hcy
      obtain ⟨h1, h2, h3⟩ := deletedForms_mem.1 hfm
      rw [Bool.and_eq_true] at h3
      exact absurd hcy (hnew f h1 h3.1 h3.2 _ hy)
  have hin : ∀ f ∈ orderedForms canDelete forms, f.inst ∈ s'.list := fun f hfm => by rw [hl]; exact List.mem_map.2 ⟨f, hfm, rfl⟩
  have hrun : formsetCore upd canDelete true forms s' = ⟨(orderedForms canDelete forms).map MForm.inst, after upd s' ((orderedForms canDelete forms).map MForm.inst)⟩ := by
    unfold formsetCore
    simp only [if_true, h0]
    rw [reorder_run upd (orderedForms canDelete forms) s' [] s'.list (ordered_nodup hf.distinct) (by simp) hnd]
    · simp
    · intro x hx; rw [hl] at hx; exact hx
    · simp
    · intro x hx y hy hne
      obtain ⟨f, hfm, rfl⟩ := List.mem_map.1 hx
      rcases hy with hy | hy
      · exact fun h => hne (hs' _ (hin f hfm) _ hy h)
      · simp at hy
    · intro x hx y hy hne
      obtain ⟨f, hfm, rfl⟩ := List.mem_map.1 hx
      obtain ⟨g, hgm, rfl⟩ := List.mem_map.1 hy
      rw [hc g hgm, hupd, ← hc g hgm]
      exact fun h => hne (hs' _ (hin f hfm) _ (hin g hgm) h)
  simp only
  rw [hrun]
  refine ⟨hl.symm, fun f hfm => ?_⟩
  simp only
  unfold after
  rw [if_pos (List.mem_map.2 ⟨f, hfm, rfl⟩), hc f hfm, hupd]

theorem validate_run (upd : I → C → C) (fs : List (MForm I)) : ∀ (s : Elems I C), (fs.map MForm.inst).Nodup →
    validateForms upd s fs = ⟨s.list, after upd s (fs.map MForm.inst)⟩ := by
  induction fs with
  | nil => intro s _; simp [validateForms, after_nil]
  | cons f fs ih =>
    intro s hn
    rw [List.map_cons, List.nodup_cons] at hn
    rw [validateForms, ih _ hn.2, List.map_cons]
    congr 1
    exact after_update upd s f.inst _ hn.1 _

theorem update_fixed (upd : I → C → C) (s : Elems I C) (x : I) (h : upd x (s.content x) = s.content x) : s.update upd x = s := by
  unfold Elems.update
  have : (fun y => if y = x then upd x (s.content x) else s.content y) = s.content := by
    funext y
    split_ifs with e
    · rw [e, h]
    · rfl
  rw [this]

theorem validate_fixed (upd : I → C → C) (fs : List (MForm I)) (s : Elems I C) (h : ∀ f ∈ fs, upd f.inst (s.content f.inst) = s.content f.inst) : validateForms upd s fs = s := by
  induction fs with
  | nil => rfl
  | cons f fs ih => rw [validateForms, update_fixed upd s f.inst (h f (by simp)), ih (fun g hg => h g (by simp [hg]))]

/-- What holds of each content, and is kept by each update, holds afterwards. -/
theorem closed_update {upd : I → C → C} {R : I → C → Prop} (hR : ∀ x c, R x c → R x (upd x c)) {s : Elems I C} (h : ∀ x, R x (s.content x)) (y : I) :
    ∀ x, R x ((s.update upd y).content x) := by
  intro x
  show R x (if x = y then upd y (s.content y) else s.content x)
  split_ifs with e
  · rw [e]; exact hR y _ (h y)
  · exact h x

theorem contents_removeDeleted (fs : List (MForm I)) : ∀ (s : Elems I C), (removeDeleted s fs).content = s.content := by
  induction fs with
  | nil => intro s; rfl
  | cons f fs ih => intro s; rw [removeDeleted, ih]; split_ifs <;> rfl

theorem closed_reorder {upd : I → C → C} {R : I → C → Prop} (hR : ∀ x c, R x c → R x (upd x c)) (fs : List (MForm I)) : ∀ (s : Elems I C), (∀ x, R x (s.content x)) →
    ∀ x, R x ((reorder upd s fs).content x) := by
  induction fs with
  | nil => intro s h; exact h
  | cons f fs ih =>
    intro s h
    rw [reorder]
    refine ih _ ?_
    have h1 : ∀ x, R x ((if s.contains f.inst then s.remove f.inst else s).content x) := by
      split_ifs
      · exact h
      · exact h
    exact closed_update hR h1 f.inst

theorem closed_initial {upd : I → C → C} {R : I → C → Prop} (hR : ∀ x c, R x c → R x (upd x c)) (fs : List (MForm I)) : ∀ (s : Elems I C), (∀ x, R x (s.content x)) →
    ∀ x, R x ((updateInitial upd s fs).content x) := by
  induction fs with
  | nil => intro s h; exact h
  | cons f fs ih =>
    intro s h
    rw [updateInitial]
    refine ih _ ?_
    split_ifs
    · exact closed_update hR h f.inst
    · exact h

theorem closed_extra {upd : I → C → C} {R : I → C → Prop} (hR : ∀ x c, R x c → R x (upd x c)) (fs : List (MForm I)) : ∀ (s : Elems I C), (∀ x, R x (s.content x)) →
    ∀ x, R x ((updateExtra upd s fs).content x) := by
  induction fs with
  | nil => intro s h; exact h
  | cons f fs ih =>
    intro s h
    rw [updateExtra]
    refine ih _ ?_
    split_ifs
    · exact closed_update hR h f.inst
    · exact h

theorem closed_core {upd : I → C → C} {R : I → C → Prop} (hR : ∀ x c, R x c → R x (upd x c)) (cd co : Bool) (forms : List (MForm I)) (s : Elems I C) (h : ∀ x, R x (s.content x)) :
    ∀ x, R x ((formsetCore upd cd co forms s).content x) := by
  have h1 : ∀ x, R x ((removeDeleted s (deletedForms cd forms)).content x) := by rw [contents_removeDeleted]; exact h
  unfold formsetCore
  cases co with
  | true => exact closed_reorder hR _ _ h1
  | false => exact closed_extra hR _ _ (closed_initial hR _ _ h1)

/-- The elements after the validation. -/
def validated (upd : I → C → C) (cd : Bool) (forms : List (MForm I)) (s : Elems I C) : Elems I C := ⟨s.list, after upd s ((remainingForms cd forms).map MForm.inst)⟩

theorem validated_content {upd : I → C → C} {cd : Bool} {forms : List (MForm I)} {s : Elems I C} (hd : (forms.map MForm.inst).Nodup) {f : MForm I} (hfm : f ∈ forms) :
    (validated upd cd forms s).content f.inst = if (cd && f.deleted) = true then s.content f.inst else upd f.inst (s.content f.inst) := by
  show after upd s _ f.inst = _
  unfold after remainingForms
  simp only [mem_filter_inst hd hfm]
  cases (cd && f.deleted) <;> simp

theorem update_eq_core {upd : I → C → C} (cd co : Bool) {forms : List (MForm I)} (hd : (forms.map MForm.inst).Nodup) (s : Elems I C)
    (hupd : ∀ x, upd x (upd x (s.content x)) = upd x (s.content x)) :
    formsetUpdate upd cd co forms s = formsetCore upd cd co forms (validated upd cd forms s) := by
  unfold formsetUpdate formsetCore
  simp only
  rw [validate_run upd (remainingForms cd forms) s (filter_map_nodup hd _)]
  show (if co = true then reorder upd (validateForms upd (removeDeleted (validated upd cd forms s) _) _) _ else _) = _
  rw [validate_fixed]
  · rfl
  · intro f hfm
    rw [contents_removeDeleted]
    obtain ⟨h1, h2⟩ := List.mem_filter.1 hfm
    rw [Bool.not_eq_true'] at h2
    rw [validated_content hd h1, h2]
    simp [hupd]

theorem validated_again {upd : I → C → C} (cd co : Bool) {forms : List (MForm I)} (hd : (forms.map MForm.inst).Nodup) (s : Elems I C)
    (hupd : ∀ x, upd x (upd x (s.content x)) = upd x (s.content x)) :
    validated upd cd forms (formsetUpdate upd cd co forms s) = formsetUpdate upd cd co forms s := by
  have h : ∀ x, x ∈ (remainingForms cd forms).map MForm.inst → upd x ((formsetUpdate upd cd co forms s).content x) = (formsetUpdate upd cd co forms s).content x := by
    rw [update_eq_core cd co hd s hupd]
    refine closed_core (R := fun x c => x ∈ (remainingForms cd forms).map MForm.inst → upd x c = c) ?_ cd co forms _ ?_
    · intro x c h hx; rw [h hx, h hx]
    · intro x hx
      obtain ⟨f, hfm, rfl⟩ := List.mem_map.1 hx
      obtain ⟨h1, h2⟩ := List.mem_filter.1 hfm
      rw [Bool.not_eq_true'] at h2
      rw [validated_content hd h1, h2]
      simp [hupd]
  generalize formsetUpdate upd cd co forms s = s' at h
  unfold validated
  have : after upd s' ((remainingForms cd forms).map MForm.inst) = s'.content := by
    funext x
    unfold after
    split_ifs with hx
    · exact h x hx
    · rfl
  rw [this]

theorem validated_idem {upd : I → C → C} {cd : Bool} {forms : List (MForm I)} {s : Elems I C} (hupd : ∀ x, upd x (upd x (s.content x)) = upd x (s.content x)) (x : I) :
    upd x (upd x ((validated upd cd forms s).content x)) = upd x ((validated upd cd forms s).content x) := by
  show upd x (upd x (after upd s _ x)) = upd x (after upd s _ x)
  unfold after
  split_ifs
  · rw [hupd, hupd]
  · exact hupd x

theorem update_idem {upd : I → C → C} {cd co : Bool} {forms : List (MForm I)} (hd : (forms.map MForm.inst).Nodup) {s : Elems I C}
    (hupd : ∀ x, upd x (upd x (s.content x)) = upd x (s.content x)) (x : I) :
    upd x (upd x ((formsetUpdate upd cd co forms s).content x)) = upd x ((formsetUpdate upd cd co forms s).content x) := by
  rw [update_eq_core cd co hd s hupd]
  exact closed_core (R := fun x c => upd x (upd x c) = upd x c) (fun x c h => by rw [h, h]) cd co forms _ (validated_idem hupd) x

/-- The content of the element of a form once the formset has been validated: that of a form that is not to be deleted is updated. -/
def submittedContent (upd : I → C → C) (canDelete : Bool) (s : Elems I C) (f : MForm I) : C :=
  if (canDelete && f.deleted) = true then s.content f.inst else upd f.inst (s.content f.inst)

/-- No element that is to be deleted has the content that another element of the list gets. -/
def DeletedApart (upd : I → C → C) (canDelete : Bool) (forms : List (MForm I)) (s : Elems I C) : Prop :=
  ∀ f ∈ forms, canDelete = true → f.deleted = true → ∀ g ∈ forms, g.initial = true → g.inst ≠ f.inst → submittedContent upd canDelete s g ≠ s.content f.inst

theorem apart_core {upd : I → C → C} {canDelete : Bool} {forms : List (MForm I)} {s : Elems I C} (hf : Fits forms s) (h : DeletedApart upd canDelete forms s) :
    ∀ f ∈ forms, canDelete = true → f.deleted = true → ∀ y ∈ (validated upd canDelete forms s).list,
      (validated upd canDelete forms s).content y = (validated upd canDelete forms s).content f.inst → y = f.inst := by
  intro f hfm hcd hdl y hy hc
  by_contra hne
  have hy' : y ∈ s.list := hy
  rw [← hf.initial] at hy'
  obtain ⟨g, hgm, rfl⟩ := List.mem_map.1 hy'
  obtain ⟨h1, h2⟩ := List.mem_filter.1 hgm
  rw [validated_content hf.distinct h1, validated_content hf.distinct hfm, hcd, hdl] at hc
  refine h f hfm hcd hdl g h1 h2 hne ?_
  unfold submittedContent
  rw [hcd]
  simpa using hc

/-- Updating a formset that is not ordered: exactly the elements of the initial forms that are not deleted, in order, and then the elements of the changed
extra forms, in order; the content of each is updated by its form. -/
theorem C52_unordered (upd : I → C → C) (canDelete : Bool) (forms : List (MForm I)) (s : Elems I C) (hupd : ∀ x, upd x (upd x (s.content x)) = upd x (s.content x)) (hf : Fits forms s)
    (hs : DeletedApart upd canDelete forms s) :
    let s' := formsetUpdate upd canDelete false forms s
    s'.list = (forms.filter (fun f => f.initial && !(canDelete && f.deleted))).map MForm.inst ++ (forms.filter (fun f => !f.initial && f.changed)).map MForm.inst ∧
    ∀ f ∈ forms, (canDelete && f.deleted) = false ∨ f.changed = true → s'.content f.inst = upd f.inst (s.content f.inst) := by
  have hd := hf.distinct
  have hf' : Fits forms (validated upd canDelete forms s) := ⟨hf.initial, hd⟩
  rw [update_eq_core canDelete false hd s hupd]
  obtain ⟨h1, h2⟩ := core_unordered upd canDelete forms (validated upd canDelete forms s) hf' (apart_core hf hs)
  refine ⟨h1, fun f hfm hor => ?_⟩
  rw [h2 f hfm, validated_content hd hfm]
  cases hc : f.changed <;> cases hcd : (canDelete && f.deleted) <;> simp_all

/-- Updating an ordered formset: exactly the elements of the ordered forms, in their order, each updated; provided that these contents are all different. -/
theorem C52_ordered (upd : I → C → C) (canDelete : Bool) (forms : List (MForm I)) (s : Elems I C) (hupd : ∀ x, upd x (upd x (s.content x)) = upd x (s.content x)) (hf : Fits forms s)
    (hs : DeletedApart upd canDelete forms s)
    (hdist : ∀ f ∈ orderedForms canDelete forms, ∀ g ∈ orderedForms canDelete forms, g.inst ≠ f.inst → upd g.inst (s.content g.inst) ≠ upd f.inst (s.content f.inst)) :
    let s' := formsetUpdate upd canDelete true forms s
    s'.list = (orderedForms canDelete forms).map MForm.inst ∧ ∀ f ∈ orderedForms canDelete forms, s'.content f.inst = upd f.inst (s.content f.inst) := by
  have hd := hf.distinct
  have hf' : Fits forms (validated upd canDelete forms s) := ⟨hf.initial, hd⟩
  have hval : ∀ f ∈ orderedForms canDelete forms, (validated upd canDelete forms s).content f.inst = upd f.inst (s.content f.inst) := by
    intro f hfm
    obtain ⟨h1, h2⟩ := List.mem_filter.1 ((C52_order canDelete forms).1.mem_iff.1 hfm)
    rw [Bool.and_eq_true, Bool.not_eq_true'] at h2
    rw [validated_content hd h1, h2.2]
    simp
  rw [update_eq_core canDelete true hd s hupd]
  obtain ⟨h1, h2⟩ := core_ordered upd canDelete forms (validated upd canDelete forms s) hf' (apart_core hf hs) (by
    intro f hfm g hgm hne
    rw [hval f hfm, hval g hgm, hupd]
    exact ⟨fun _ => hdist f hfm g hgm hne, hdist f hfm g hgm hne⟩)
  refine ⟨h1, fun f hfm => ?_⟩
  rw [h2 f hfm, hval f hfm, hupd]

/-- Updating a second time (`is_valid()` and then `update_instance()`) changes nothing more, provided that no element of a deleted form has the content that an element
in the list has now. -/
theorem C52_twice_unordered (upd : I → C → C) (canDelete : Bool) (forms : List (MForm I)) (s : Elems I C) (hupd : ∀ x, upd x (upd x (s.content x)) = upd x (s.content x)) (hf : Fits forms s)
    (hs : DeletedApart upd canDelete forms s)
    (hnew : ∀ f ∈ forms, canDelete = true → f.deleted = true → ∀ y ∈ (formsetUpdate upd canDelete false forms s).list,
      (formsetUpdate upd canDelete false forms s).content y ≠ (formsetUpdate upd canDelete false forms s).content f.inst) :
    let s' := formsetUpdate upd canDelete false forms s
    (formsetUpdate upd canDelete false forms s').list = s'.list ∧ ∀ f ∈ forms, (formsetUpdate upd canDelete false forms s').content f.inst = s'.content f.inst := by
  have hd := hf.distinct
  have hf' : Fits forms (validated upd canDelete forms s) := ⟨hf.initial, hd⟩
  simp only
  rw [update_eq_core canDelete false hd (formsetUpdate upd canDelete false forms s) (update_idem hd hupd), validated_again canDelete false hd s hupd]
  rw [update_eq_core canDelete false hd s hupd] at hnew ⊢
  exact core_twice_unordered upd canDelete forms _ (validated_idem hupd) hf' (apart_core hf hs) hnew

/-- The same for an ordered formset. -/
theorem C52_twice_ordered (upd : I → C → C) (canDelete : Bool) (forms : List (MForm I)) (s : Elems I C) (hupd : ∀ x, upd x (upd x (s.content x)) = upd x (s.content x)) (hf : Fits forms s)
    (hs : DeletedApart upd canDelete forms s)
    (hdist : ∀ f ∈ orderedForms canDelete forms, ∀ g ∈ orderedForms canDelete forms, g.inst ≠ f.inst → upd g.inst (s.content g.inst) ≠ upd f.inst (s.content f.inst))
    (hnew : ∀ f ∈ forms, canDelete = true → f.deleted = true → ∀ g ∈ orderedForms canDelete forms, upd g.inst (s.content g.inst) ≠ (formsetUpdate upd canDelete true forms s).content f.inst) :
    let s' := formsetUpdate upd canDelete true forms s
    (formsetUpdate upd canDelete true forms s').list = s'.list ∧
      ∀ f ∈ orderedForms canDelete forms, (formsetUpdate upd canDelete true forms s').content f.inst = s'.content f.inst := by
  have hd := hf.distinct
  have hf' : Fits forms (validated upd canDelete forms s) := ⟨hf.initial, hd⟩
  obtain ⟨k1, k2⟩ := C52_ordered upd canDelete forms s hupd hf hs hdist
  have hsep : Separate (formsetUpdate upd canDelete true forms s) := by
    intro x hx y hy he
    rw [k1] at hx hy
    obtain ⟨f, hfm, rfl⟩ := List.mem_map.1 hx
    obtain ⟨g, hgm, rfl⟩ := List.mem_map.1 hy
    rw [k2 f hfm, k2 g hgm] at he
    by_contra hne
    exact hdist f hfm g hgm hne he
  have hnew' : ∀ f ∈ forms, canDelete = true → f.deleted = true → ∀ y ∈ (formsetUpdate upd canDelete true forms s).list,
      (formsetUpdate upd canDelete true forms s).content y ≠ (formsetUpdate upd canDelete true forms s).content f.inst := by
    intro f hfm hcd hdl y hy
    rw [k1] at hy
    obtain ⟨g, hgm, rfl⟩ := List.mem_map.1 hy
    rw [k2 g hgm]
    exact hnew f hfm hcd hdl g hgm
  have hval : ∀ f ∈ orderedForms canDelete forms, (validated upd canDelete forms s).content f.inst = upd f.inst (s.content f.inst) := by
    intro f hfm
    obtain ⟨h1, h2⟩ := List.mem_filter.1 ((C52_order canDelete forms).1.mem_iff.1 hfm)
    rw [Bool.and_eq_true, Bool.not_eq_true'] at h2
    rw [validated_content hd h1, h2.2]
    simp
  simp only
  rw [update_eq_core canDelete true hd (formsetUpdate upd canDelete true forms s) (update_idem hd hupd), validated_again canDelete true hd s hupd]
  rw [update_eq_core canDelete true hd s hupd] at hnew' hsep ⊢
  exact core_twice_ordered upd canDelete forms _ (validated_idem hupd) hf' (apart_core hf hs) (by
    intro f hfm g hgm hne
    rw [hval f hfm, hval g hgm, hupd]
    exact ⟨fun _ => hdist f hfm g hgm hne, hdist f hfm g hgm hne⟩) hnew' hsep

end

/-- Three elements 1, 2, 3 with contents 10, 20, 30; form 2 is marked for deletion, form 3 and the extra form 4 changed, the extra form 5 did not; an update sets
the last digit to 1. -/
def sampleForms : List (MForm Nat) := [⟨1, true, false, false, some 2⟩, ⟨2, true, true, true, some 1⟩, ⟨3, true, true, false, some 1⟩, ⟨4, false, true, false, none⟩, ⟨5, false, false, false, none⟩]
def sampleElems : Elems Nat Nat := ⟨[1, 2, 3], fun x => 10 * x⟩
def sampleUpd : Nat → Nat → Nat := fun _ c => c / 10 * 10 + 1

theorem sample_fits : Fits sampleForms sampleElems := ⟨by decide, by decide⟩
theorem sample_apart : DeletedApart sampleUpd true sampleForms sampleElems := by unfold DeletedApart; decide
theorem sampleUpd_idem (x c : Nat) : sampleUpd x (sampleUpd x c) = sampleUpd x c := by unfold sampleUpd; omega

example : (formsetUpdate sampleUpd true false sampleForms sampleElems).list = [1, 3, 4] := (C52_unordered sampleUpd true sampleForms sampleElems (fun x => sampleUpd_idem x _) sample_fits sample_apart).1
example : (formsetUpdate sampleUpd true true sampleForms sampleElems).list = [3, 1, 4] :=
  (C52_ordered sampleUpd true sampleForms sampleElems (fun x => sampleUpd_idem x _) sample_fits sample_apart (by decide)).1
example : (formsetUpdate sampleUpd true false sampleForms (formsetUpdate sampleUpd true false sampleForms sampleElems)).list = [1, 3, 4] :=
  (C52_twice_unordered sampleUpd true sampleForms sampleElems (fun x => sampleUpd_idem x _) sample_fits sample_apart (by decide)).1
example : (formsetUpdate sampleUpd true true sampleForms (formsetUpdate sampleUpd true true sampleForms sampleElems)).list = [3, 1, 4] :=
  (C52_twice_ordered sampleUpd true sampleForms sampleElems (fun x => sampleUpd_idem x _) sample_fits sample_apart (by decide) (by decide)).1

/-- Counterexample: three elements with contents 5, 6 and 5; deleting the third removes the first. -/
theorem C52_counterexample_equal :
    let s := formsetUpdate (fun _ c => c) true false [⟨1, true, false, false, none⟩, ⟨2, true, false, false, none⟩, ⟨3, true, false, true, none⟩] (⟨[1, 2, 3], fun x => 5 + (x + 1) % 2⟩ : Elems Nat Nat)
    s.list = [2, 3] ∧ s.list.map s.content = [6, 5] := by decide

/-- Counterexample: a new form that is filled in and marked for deletion is added all the same. -/
theorem C52_counterexample_deleted_extra : let s := formsetUpdate (fun _ _ => 9) true false [⟨1, false, true, true, none⟩] (⟨[], fun _ => 5⟩ : Elems Nat Nat)
    s.list = [1] := by decide

/-- Counterexample: an ordered formset with two elements of the same content, 1 and 3, in the order 3, 1, 2: the element 1 is removed for 3, and 3 then for 1: the element 3 is lost. -/
theorem C52_counterexample_order_loses :
    let s := formsetUpdate (fun _ c => c) true true [⟨1, true, true, false, some 2⟩, ⟨2, true, true, false, some 3⟩, ⟨3, true, true, false, some 1⟩] (⟨[1, 2, 3], fun x => x % 2⟩ : Elems Nat Nat)
    s.list = [1, 2] := by decide

/-- Counterexample: two new forms of an ordered formset are filled in alike: only one element is added. -/
theorem C52_counterexample_order_new :
    let s := formsetUpdate (fun _ _ => 7) true true [⟨1, false, true, false, some 1⟩, ⟨2, false, true, false, some 2⟩] (⟨[], fun _ => 5⟩ : Elems Nat Nat)
    s.list = [2] := by decide

/-- Counterexample: the element 2 gets the content that the deleted element 1 had: the second update removes it. -/
theorem C52_counterexample_twice :
    let forms : List (MForm Nat) := [⟨1, true, true, true, none⟩, ⟨2, true, true, false, none⟩]
    let upd : Nat → Nat → Nat := fun _ _ => 10
    let s := formsetUpdate upd true false forms ⟨[1, 2], fun x => 10 * x⟩
    s.list = [2] ∧ (formsetUpdate upd true false forms s).list = [] := by decide

/-! ### C51 and C54 applied to documents -/

example := C51_integers listAt_int [some 4, none, some 0, some (-2)] (by
  intro i hi
  simp only [List.mem_cons, Option.some.injEq, reduceCtorEq, false_or, List.not_mem_nil, or_false] at hi
  rcases hi with rfl | rfl | rfl <;> decide)

/-- A document with a subelement. -/
def subDoc : Node := bare.withChildren [(Node.empty ⟨none, c%"a"⟩).setText (some c%"1")]

example := C54_init (eng := refEngine) (ctx := sampleCtx) (xp := c%"a") (e := ast c%"a") (p := steps sampleCtx c%"a") (a := []) (s := bare) (n := bare)
  refEngine_ok ⟨by decide, by rfl, by decide, by decide⟩ rfl rfl
example := C54_update (eng := refEngine) (ctx := sampleCtx) (xp := c%"a") (e := ast c%"a") (p := steps sampleCtx c%"a") (a := []) (s := subDoc) (n := subDoc)
  refEngine_ok ⟨by decide, by rfl, by decide, by decide⟩ rfl rfl rfl [0] (by decide) _ rfl (Node.setText none) rfl
  (fun q ps h => by simp only [show (steps sampleCtx c%"a").getLast? = some (.child ⟨none, c%"a"⟩ []) from rfl, Option.some.injEq, Step.child.injEq] at h; rw [← h.2]; rfl)
  (by
    have h : Step.matches (steps sampleCtx c%"a") (Node.modify [0] (Node.setText none) subDoc) = [.elem [0]] := by decide
    intro x hx
    rw [h] at hx; simp only [List.head?_cons, Option.some.injEq] at hx; subst hx; decide)

end Props
