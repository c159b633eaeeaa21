import Verif.XmlMap.NestLemmas
import Verif.Core.Nested
import Verif.Props.Record
/-
Property C84: objects in objects behave like nested records.

Model: `walk`, `createObj`, `deleteObj` (Verif/Core/Nested.lean), `managerSet`, `managerDelete`, `managerGet` (Verif/XmlMap/Manager.lean).
Specification: the replay of a history on a nested record, below.
-/
namespace Props
open XPath Xml Spec Fields Core

/-- An object with objects in it, at any depth: fields `ι`, each of which belongs to the object itself (`holder i = none`) or to an object in it; and the objects
`ω` in it, each of which is the value of a NodeField `hop o` of the object itself (`up o = none`) or of another object. -/
structure Nest (ι ω : Type) where
  fld : ι → RField
  /-- The XPath context of the objects that have the field. -/
  fctx : ι → Ctx
  holder : ι → Option ω
  hop : ω → Hop
  up : ω → Option ω
  /-- The NodeFields that lead to an object. -/
  route : Option ω → List Hop
  route_top : route none = []
  route_sub : ∀ o, route (some o) = route (up o) ++ [hop o]

section
variable {ι ω : Type} (N : Nest ι ω)

/-- The steps from the element of the object to the element of an object in it, -/
def Nest.way (o : Option ω) : List Step := (N.route o).flatMap Hop.p
/-- and to a field. -/
def Nest.path (i : ι) : List Step := N.way (N.holder i) ++ (N.fld i).p

/-- The object `o'` is `o` or in it. -/
def Nest.Inside (o o' : Option ω) : Prop := N.route o <+: N.route o'

/-- The classes are declared such that objects and fields do not get into each other's way. -/
structure Nest.Ok [PyUnicode] : Prop where
  /-- Fields as in C69. -/
  field : ∀ i, (N.fld i).Ok (N.fctx i)
  /-- NodeFields: simple paths of child steps, with attribute predicates only. -/
  node : ∀ o, SimpleField (N.hop o).ctx (N.hop o).xp (N.hop o).e (N.hop o).p ∧ attrPreds (N.hop o).p = true ∧ allChild (N.hop o).p = true
  /-- No field is the attribute that a predicate on the element of its object compares. -/
  keys : ∀ i, pathOk (N.path i) = true
  /-- Different fields part. -/
  fields : ∀ i j, i ≠ j → Part (N.path i) (N.path j)
  /-- A field is in an object, or its path parts from that to the object; -/
  apart : ∀ o i, N.Inside (some o) (N.holder i) ∨ Part (N.way (some o)) (N.path i)
  /-- one of two objects is in the other, or their paths part. -/
  objects : ∀ o o', N.Inside (some o) (some o') ∨ N.Inside (some o') (some o) ∨ Part (N.way (some o)) (N.way (some o'))

/-- `obj.x.y.i = v`, `del obj.x.y.i`, `obj.x.create_o()`, `del obj.x.o`. -/
inductive NOp where
  | set (i : ι) (v : (N.fld i).V)
  | delete (i : ι)
  | create (o : ω)
  | remove (o : ω)

/-- A nested record: which objects are there, and the values of the fields. -/
@[ext] structure NRec where
  here : ω → Prop
  val : (i : ι) → Except PyErr (N.fld i).V

variable {N}

/-- The object itself is always there. -/
def NRec.present (r : NRec N) : Option ω → Prop
  | none => True
  | some o => r.here o

open Classical in
/-- Reading `obj.x.y.i`. -/
noncomputable def NRec.read (r : NRec N) (i : ι) : Except PyErr (N.fld i).V := if r.present (N.holder i) then r.val i else .error .attributeError

open Classical in
/-- The effect on a record.  If an object on the way is not there, AttributeError, and nothing changes.  With an object, everything in it is removed; a new object has
no fields. -/
noncomputable def NOp.replay (r : NRec N) : NOp N → Except PyErr Unit × NRec N
  | .set i v => if r.present (N.holder i) then (.ok (), { r with val := Function.update r.val i (.ok v) }) else (.error .attributeError, r)
  | .delete i => if r.present (N.holder i) then (.ok (), { r with val := Function.update r.val i ((N.fld i).toPython none) }) else (.error .attributeError, r)
  | .create o => if r.present (N.up o) then (.ok (), { r with here := fun o' => r.here o' ∨ N.Inside (some o') (some o) }) else (.error .attributeError, r)
  | .remove o => if r.present (N.up o)
      then (.ok (), { here := fun o' => r.here o' ∧ ¬ N.Inside (some o) (some o'), val := fun i => if N.Inside (some o) (N.holder i) then (N.fld i).toPython none else r.val i })
      else (.error .attributeError, r)

/-- A history, with the outcome of each operation (exceptions are caught). -/
noncomputable def nestReplay (r : NRec N) : List (NOp N) → List (Except PyErr Unit) × NRec N
  | [] => ([], r)
  | op :: ops => ((op.replay r).1 :: (nestReplay (op.replay r).2 ops).1, (nestReplay (op.replay r).2 ops).2)

/-- Only values that the mappers keep are assigned. -/
def NOp.Ok : NOp N → Prop
  | .set i v => (N.fld i).Keeps v
  | _ => True

variable [PyUnicode] (eng : Engine) (a : Node.Addr)

/-- The operation on the object whose element is at `a`. -/
def NOp.run : NOp N → M Unit
  | .set i v => do let b ← walk eng (N.route (N.holder i)) a; writeAs ((N.fld i).toXml v) eng (N.fctx i) (N.fld i).xp (N.fld i).e (.elem b)
  | .delete i => do let b ← walk eng (N.route (N.holder i)) a; managerDelete eng (N.fctx i) (N.fld i).xp (N.fld i).e (.elem b)
  | .create o => do let b ← walk eng (N.route (N.up o)) a; createObj eng (N.hop o) b
  | .remove o => do let b ← walk eng (N.route (N.up o)) a; deleteObj eng (N.hop o) b

/-- A history, with the outcome of each operation. -/
def nestRun : List (NOp N) → Node → List (Except PyErr Unit) × Node
  | [], s => ([], s)
  | op :: ops, s => ((op.run eng a s).1 :: (nestRun ops (op.run eng a s).2).1, (nestRun ops (op.run eng a s).2).2)

/-- Reading `obj.x.y.i`. -/
def readField (i : ι) : M (N.fld i).V := do
  let b ← walk eng (N.route (N.holder i)) a
  readAs (N.fld i).toPython eng (N.fctx i) (N.fld i).xp (N.fld i).e (.elem b)

/-- The record that the element is: an object is there if the steps to it select an element; a field has the value that its mapper makes of what its steps select. -/
def recOf (N : Nest ι ω) (n : Node) : NRec N where
  here o := Step.matches (N.way (some o)) n ≠ []
  val i := (N.fld i).toPython ((Step.matches (N.path i) n).head?.bind (seen n))

/-- The steps to objects and fields select at most one node each, and strings can be written. -/
def NTidy (N : Nest ι ω) (n : Node) : Prop := (∀ i, Single (N.path i) n ∧ Writable (N.path i) n) ∧ ∀ o, Single (N.way (some o)) n

/-! ### proof -/

omit [PyUnicode] in
theorem good_join {p r : List Step} (ha : allChild p = true) (hp : Spec.good p = true) (hr : Spec.good r = true) (har : allChild r = true) : Spec.good (p ++ r) = true := by
  induction p with
  | nil => exact hr
  | cons st p ih =>
    cases st with
    | attr => simp [allChild] at ha
    | text => simp [allChild] at ha
    | child q ps =>
      simp only [List.cons_append, Spec.good, Bool.and_eq_true] at hp ⊢
      refine ⟨⟨hp.1.1, ?_⟩, ih (by simpa [allChild] using ha) hp.2⟩
      cases p with
      | cons st p => cases st <;> exact hp.1.2
      | nil =>
        cases r with
        | nil => exact hp.1.2
        | cons st r => cases st with
          | child q' ps' =>
            simp only [List.nil_append, nextOk, List.all_eq_true, bne_iff_ne, ne_eq]
            intro x hx
            have := List.all_eq_true.mp hp.1.1.2 x hx
            cases x <;> simp_all [Pred.attrOf, Pred.lead]
          | attr => simp [allChild] at har
          | text => simp [allChild] at har

omit [PyUnicode] in
theorem last_child {p : List Step} (h : allChild p = true) : p.getLast? ≠ some .text := by
  induction p with
  | nil => simp
  | cons st p ih =>
    cases st with
    | attr => simp [allChild] at h
    | text => simp [allChild] at h
    | child q ps =>
      cases p with
      | nil => simp
      | cons a p => rw [List.getLast?_cons_cons]; exact ih (by simpa [allChild] using h)

theorem Nest.Ok.hop_good (hN : N.Ok) (o : ω) : Spec.good (N.hop o).p = true :=
  good_of (hN.node o).1.ok (hN.node o).2.1 (last_child (hN.node o).2.2)

theorem Nest.Ok.hop_ne (hN : N.Ok) (o : ω) : (N.hop o).p ≠ [] := ne_nil_of_field (hN.node o).1

omit [PyUnicode] in
theorem Nest.way_top : N.way none = [] := by simp [Nest.way, N.route_top]
omit [PyUnicode] in
theorem Nest.way_sub (o : ω) : N.way (some o) = N.way (N.up o) ++ (N.hop o).p := by simp [Nest.way, N.route_sub]

/-- What holds for routes: they are made of the NodeFields of the objects. -/
theorem Nest.route_induct {P : List Hop → Prop} (h0 : P []) (h1 : ∀ l o, P l → P (l ++ [N.hop o])) : ∀ o, P (N.route o) := by
  have key : ∀ k o, (N.route o).length ≤ k → P (N.route o) := by
    intro k
    induction k with
    | zero =>
      intro o h
      have : N.route o = [] := List.length_eq_zero_iff.mp (by omega)
      rw [this]; exact h0
    | succ k ih =>
      intro o h
      cases o with
      | none => rw [N.route_top]; exact h0
      | some o =>
        rw [N.route_sub] at h ⊢
        simp only [List.length_append, List.length_singleton] at h
        exact h1 _ _ (ih _ (by omega))
  exact fun o => key _ o (Nat.le_refl _)

theorem Nest.Ok.way_ok (hN : N.Ok) (o : Option ω) : allChild (N.way o) = true ∧ Spec.good (N.way o) = true := by
  unfold Nest.way
  refine N.route_induct (P := fun l => allChild (l.flatMap Hop.p) = true ∧ Spec.good (l.flatMap Hop.p) = true) ⟨rfl, rfl⟩ ?_ o
  intro l o ⟨h1, h2⟩
  simp only [List.flatMap_append, List.flatMap_singleton]
  exact ⟨by rw [allChildApp, h1, (hN.node o).2.2]; rfl, good_join h1 h2 (hN.hop_good o) (hN.node o).2.2⟩

theorem Nest.Ok.path_good (hN : N.Ok) (i : ι) : Spec.good (N.path i) = true := by
  refine good_of (hN.keys i) ?_ ?_
  · unfold Nest.path attrPreds
    rw [List.all_append, Bool.and_eq_true]
    refine ⟨?_, (hN.field i).preds⟩
    unfold Nest.way
    refine N.route_induct (P := fun l => (l.flatMap Hop.p).all (fun st => attrOnly st.preds) = true) rfl ?_ _
    intro l o h
    simp only [List.flatMap_append, List.flatMap_singleton, List.all_append, h, Bool.true_and]
    exact (hN.node o).2.1
  · unfold Nest.path
    rw [List.getLast?_append_of_ne_nil _ (ne_nil_of_field (hN.field i).simple)]
    exact (hN.field i).noText

omit [PyUnicode] in
theorem Nest.inside_way {o o' : Option ω} (h : N.Inside o o') : ∃ l, N.way o' = N.way o ++ l ∧ ∃ k, N.route o' = N.route o ++ k ∧ l = k.flatMap Hop.p := by
  obtain ⟨k, hk⟩ := h
  exact ⟨k.flatMap Hop.p, by simp [Nest.way, ← hk], k, hk.symm, rfl⟩

theorem walk_run {eng : Engine} (heng : EngineOk eng) : ∀ (l : List Hop), (∀ h ∈ l, SimpleField h.ctx h.xp h.e h.p ∧ attrPreds h.p = true ∧ allChild h.p = true) →
    ∀ {a s n}, Node.get a s = some n → Uniq (l.flatMap Hop.p) n →
      (elems (l.flatMap Hop.p) n = [] → walk eng l a s = (.error .attributeError, s)) ∧
      ∀ m, elems (l.flatMap Hop.p) n = [m] → ∃ b, walk eng l a s = (.ok (a ++ b), s) ∧ s.get (a ++ b) = some m ∧
        Step.matches (l.flatMap Hop.p) n = [.elem b] ∧ ∀ F, s.modify (a ++ b) F = s.modify a (chg (l.flatMap Hop.p) F)
  | [], _, a, s, n, hs, _ => by
    refine ⟨fun h => by simp [elems, hits] at h, fun m hm => ⟨[], by simp [walk]; rfl, ?_, rfl, fun F => by simp [chg]⟩⟩
    have : n = m := by simpa [elems, hits] using hm
    subst this; simpa using hs
  | h :: l, hl, a, s, n, hs, hu => by
    obtain ⟨hf, hp, ha⟩ := hl h (by simp)
    simp only [List.flatMap_cons] at hu ⊢
    rw [uniq_append ha] at hu
    have hfind := findNode_path heng hf.parse hf.path hs
    rw [elems_append ha]
    rcases elems_cases ha hu.1 with he | ⟨m1, he⟩
    · rw [he]
      refine ⟨fun _ => ?_, fun m hm => by simp at hm⟩
      have hm : Step.matches h.p n = [] := none_of ha (good_of hf.ok hp (last_child ha)) hu.1 he
      rw [hm] at hfind
      have hg : Domain.getNode eng h.ctx h.xp a s = (.ok none, s) := by
        unfold Domain.getNode; rw [bind_ok hfind]; rfl
      rw [walk, bind_ok hg]; rfl
    · obtain ⟨b, hb1, hb2, hb3⟩ := addr_of ha hu.1 he
      rw [hb1] at hfind
      have hg : Domain.getNode eng h.ctx h.xp a s = (.ok (some (a ++ b)), s) := by
        unfold Domain.getNode; rw [bind_ok hfind]; rfl
      have hs1 : s.get (a ++ b) = some m1 := by rw [Node.get_append, hs]; exact hb2
      have hmod1 : ∀ F, s.modify (a ++ b) F = s.modify a (chg h.p F) := by
        intro F
        rw [Node.modify_append]
        exact Node.modify_congr hs (hb3 F)
      obtain ⟨i1, i2⟩ := walk_run heng l (fun x hx => hl x (by simp [hx])) hs1 (hu.2 m1 (by rw [he]; simp))
      rw [he]
      simp only [List.flatMap_cons, List.flatMap_nil, List.append_nil]
      refine ⟨fun h0 => ?_, fun m hm => ?_⟩
      · rw [walk, bind_ok hg]; exact i1 h0
      · obtain ⟨b', k1, k2, k3, k4⟩ := i2 m hm
        refine ⟨b ++ b', ?_, ?_, ?_, ?_⟩
        · rw [walk, bind_ok hg, ← List.append_assoc]; exact k1
        · rw [← List.append_assoc]; exact k2
        · rw [matches_below ha hb1 hb2, k3]; rfl
        · intro F
          rw [← List.append_assoc, k4, hmod1]
          congr 1
          funext x
          exact (chg_append _ _ _ _ ha).symm

/-- `NTidy` in terms of what the paths select. -/
def NU (N : Nest ι ω) (n : Node) : Prop :=
  (∀ i, Uniq (N.path i) n ∧ ∀ m, (hits (N.path i) n).head? = some (.inl m) → m.children = []) ∧ ∀ o, Uniq (N.way (some o)) n

theorem Nest.Ok.path_ne (hN : N.Ok) (i : ι) : N.path i ≠ [] := by
  unfold Nest.path
  intro h
  exact ne_nil_of_field (hN.field i).simple (List.append_eq_nil_iff.mp h).2

theorem ntidy_iff (hN : N.Ok) (n : Node) : NTidy N n ↔ NU N n := by
  unfold NTidy NU
  constructor
  · rintro ⟨h1, h2⟩
    refine ⟨fun i => ?_, fun o => uniq_of_single (hN.way_ok _).2 (h2 o)⟩
    have hu := uniq_of_single (hN.path_good i) (h1 i).1
    exact ⟨hu, (writable_hits (hN.path_good i) (hN.path_ne i) hu).mp (h1 i).2⟩
  · rintro ⟨h1, h2⟩
    refine ⟨fun i => ?_, fun o => single_of_uniq (hN.way_ok _).2 (h2 o)⟩
    exact ⟨single_of_uniq (hN.path_good i) (h1 i).1, (writable_hits (hN.path_good i) (hN.path_ne i) (h1 i).1).mpr (h1 i).2⟩

theorem rec_val (hN : N.Ok) {n : Node} (hu : NU N n) (i : ι) : (recOf N n).val i = (N.fld i).toPython ((hits (N.path i) n).head?.map hitItem) := by
  unfold recOf
  simp only
  rw [seen_hits (hN.path_good i) (hu.1 i).1]

theorem uniq_way (hN : N.Ok) {n : Node} (hu : NU N n) : ∀ o, Uniq (N.way o) n
  | none => by rw [N.way_top]; trivial
  | some o => hu.2 o

theorem rec_here (hN : N.Ok) {n : Node} (hu : NU N n) (o : ω) : (recOf N n).here o ↔ elems (N.way (some o)) n ≠ [] := by
  unfold recOf
  simp only
  rw [ne_eq, ← hits_nil_iff (hN.way_ok _).2 (hu.2 o), hits_elems (hN.way_ok _).1]
  simp

theorem rec_present (hN : N.Ok) {n : Node} (hu : NU N n) : ∀ o : Option ω, (recOf N n).present o ↔ elems (N.way o) n ≠ []
  | none => by rw [N.way_top]; simp [NRec.present, elems, hits]
  | some o => rec_here hN hu o

theorem nest_change (hN : N.Ok) {n m : Node} (hu : NU N n) {h : Option ω} (hm : elems (N.way h) n = [m]) {q : List Step} {F : Node → Node} (hl : Local q m (F m))
    (hg : Spec.good (N.way h ++ q) = true) :
    (∀ g, Spec.good g = true → Part (N.way h ++ q) g → hits g (chg (N.way h) F n) = hits g n ∧ (Uniq g n → Uniq g (chg (N.way h) F n))) ∧
    (∀ o, N.Inside (some o) h → elems (N.way (some o)) n ≠ [] ∧ elems (N.way (some o)) (chg (N.way h) F n) ≠ [] ∧ Uniq (N.way (some o)) (chg (N.way h) F n)) ∧
    ∀ g, hits (N.way h ++ g) (chg (N.way h) F n) = hits g (F m) ∧ (Uniq (N.way h ++ g) (chg (N.way h) F n) ↔ Uniq g (F m)) := by
  have ha := (hN.way_ok h).1
  have huh := uniq_way hN hu h
  obtain ⟨l1, l2, l3⟩ := local_chg ha hg huh hm hl
  refine ⟨fun g hgg hp => ⟨l1.other g hgg hp, l1.uniq g hgg hp⟩, fun o ho => ?_, below_chg ha hg huh hm hl⟩
  obtain ⟨l, hl1, -⟩ := N.inside_way ho
  have hao := (hN.way_ok (some o)).1
  rw [hl1] at hm l2 l3 ⊢
  refine ⟨fun h0 => ?_, fun h0 => ?_, ((uniq_append hao _ _).mp l3).1⟩
  · rw [elems_append hao, h0] at hm; simp at hm
  · rw [elems_append hao, h0] at l2; simp at l2

omit [PyUnicode] in
theorem inside_up {o o' : ω} (h : N.Inside (some o') (some o)) : N.route (some o') = N.route (some o) ∨ N.Inside (some o') (N.up o) := by
  unfold Nest.Inside at *
  rw [N.route_sub o] at h ⊢
  rcases List.prefix_concat_iff.mp h with h | h
  · exact .inl h
  · exact .inr h

omit [PyUnicode] in
/-- No path parts from one that goes on from its end. -/
theorem part_append : ∀ (p r : List Step), Spec.good p = true → Part p (p ++ r) → False
  | [], _, _, h => by simp [Part] at h
  | .child q ps :: p, r, hg, h => by
    simp only [Spec.good, Bool.and_eq_true] at hg
    rcases h with h | ⟨-, -, h⟩
    · have h1 := okc_new (q := q) hg.1.1.1
      have h2 := apart_okc h h1
      rw [h1] at h2; cases h2
    · exact part_append p r hg.2 h
  | .attr q :: p, r, _, h => h rfl
  | .text :: p, r, _, h => by simp [Part] at h

open Classical in
/-- The operation, and what is left of the record. -/
theorem nop_run (hN : N.Ok) (heng : EngineOk eng) {s n : Node} (hs : s.get a = some n) (hu : NU N n) (op : NOp N) (hop : op.Ok) :
    ∃ n', op.run eng a s = ((op.replay (recOf N n)).1, s.modify a (fun _ => n')) ∧ NU N n' ∧ recOf N n' = (op.replay (recOf N n)).2 ∧
      ∀ g, Spec.good g = true → (∀ i, Part (N.path i) g) → (∀ o, Part (N.way (some o)) g) → hits g n' = hits g n ∧ (Uniq g n → Uniq g n') := by
  have hself : s.modify a (fun _ => n) = s := Node.modify_id hs rfl
  have hroute : ∀ h, ∀ x ∈ N.route h, SimpleField x.ctx x.xp x.e x.p ∧ attrPreds x.p = true ∧ allChild x.p = true := by
    refine N.route_induct (P := fun l => ∀ x ∈ l, SimpleField x.ctx x.xp x.e x.p ∧ attrPreds x.p = true ∧ allChild x.p = true) (by simp) ?_
    intro l o h x hx
    rcases List.mem_append.mp hx with hx | hx
    · exact h x hx
    · simp only [List.mem_singleton] at hx
      subst hx; exact hN.node o
  have hwalk := fun h => walk_run heng (N.route h) (hroute h) hs (uniq_way hN hu h)
  -- nothing there
  have habs : ∀ h, ¬ (recOf N n).present h → walk eng (N.route h) a s = (.error .attributeError, s) := by
    intro h hp
    rw [rec_present hN hu, not_not] at hp
    exact (hwalk h).1 hp
  -- a change in the object `h`
  have hpres : ∀ h, (recOf N n).present h → ∃ b m, walk eng (N.route h) a s = (.ok (a ++ b), s) ∧ s.get (a ++ b) = some m ∧ elems (N.way h) n = [m] ∧
      ∀ F, s.modify (a ++ b) F = s.modify a (fun _ => chg (N.way h) F n) := by
    intro h hp
    rw [rec_present hN hu] at hp
    rcases elems_cases (hN.way_ok h).1 (uniq_way hN hu h) with h0 | ⟨m, hm⟩
    · exact absurd h0 hp
    · obtain ⟨b, w1, w2, -, w4⟩ := (hwalk h).2 m hm
      refine ⟨b, m, w1, w2, hm, fun F => ?_⟩
      rw [w4]
      exact Node.modify_congr hs rfl
  -- a field changes
  have hfield : ∀ (i : ι) {m : Node}, elems (N.way (N.holder i)) n = [m] → ∀ (F : Node → Node), Local (N.fld i).p m (F m) → Uniq (N.fld i).p (F m) →
      (∀ m', (hits (N.fld i).p (F m)).head? = some (.inl m') → m'.children = []) → ∀ v, (N.fld i).toPython ((hits (N.fld i).p (F m)).head?.map hitItem) = v →
      NU N (chg (N.way (N.holder i)) F n) ∧ recOf N (chg (N.way (N.holder i)) F n) = { recOf N n with val := Function.update (recOf N n).val i v } ∧
      ∀ g, Spec.good g = true → (∀ i, Part (N.path i) g) → (∀ o, Part (N.way (some o)) g) →
        hits g (chg (N.way (N.holder i)) F n) = hits g n ∧ (Uniq g n → Uniq g (chg (N.way (N.holder i)) F n)) := by
    intro i m hm F hl hFu hFc v hv
    obtain ⟨c1, c2, c3⟩ := nest_change hN hu hm hl (hN.path_good i)
    have hu' : NU N (chg (N.way (N.holder i)) F n) := by
      refine ⟨fun j => ?_, fun o => ?_⟩
      · by_cases hj : j = i
        · subst hj
          obtain ⟨k1, k2⟩ := c3 (N.fld j).p
          exact ⟨k2.mpr hFu, fun m' hm' => hFc m' (by rw [← k1]; exact hm')⟩
        · obtain ⟨k1, k2⟩ := c1 (N.path j) (hN.path_good j) (hN.fields i j (Ne.symm hj))
          exact ⟨k2 (hu.1 j).1, by rw [k1]; exact (hu.1 j).2⟩
      · rcases hN.apart o i with h | h
        · exact (c2 o h).2.2
        · exact (c1 _ (hN.way_ok _).2 h.symm).2 (hu.2 o)
    refine ⟨hu', ?_, fun g hg hp ho => c1 g hg (hp i)⟩
    refine NRec.ext ?_ ?_
    · funext o
      apply propext
      rw [rec_here hN hu']
      show _ ↔ (recOf N n).here o
      rw [rec_here hN hu]
      rcases hN.apart o i with h | h
      · exact ⟨fun _ => (c2 o h).1, fun _ => (c2 o h).2.1⟩
      · unfold elems
        rw [(c1 _ (hN.way_ok _).2 h.symm).1]
    · funext j
      rw [rec_val hN hu']
      show _ = Function.update (recOf N n).val i v j
      by_cases hj : j = i
      · subst hj
        rw [Function.update_self, ← hv, ← (c3 (N.fld j).p).1]; rfl
      · rw [Function.update_of_ne hj, rec_val hN hu, (c1 (N.path j) (hN.path_good j) (hN.fields i j (Ne.symm hj))).1]
  -- the field in its object
  have hinf : ∀ (i : ι) {m : Node}, elems (N.way (N.holder i)) n = [m] → Single (N.fld i).p m ∧ Writable (N.fld i).p m := by
    intro i m hm
    have ha := (hN.way_ok (N.holder i)).1
    obtain ⟨h1, h2⟩ := hu.1 i
    unfold Nest.path at h1 h2
    rw [uniq_append ha, hm] at h1
    rw [hits_append ha, hm] at h2
    have hum := h1.2 m (by simp)
    exact ⟨single_of_uniq (hN.field i).good hum, (writable_hits (hN.field i).good (ne_nil_of_field (hN.field i).simple) hum).mpr (by simpa using h2)⟩
  have hdelF : ∀ (i : ι) {b : Node.Addr} {m : Node}, s.get (a ++ b) = some m → elems (N.way (N.holder i)) n = [m] →
      managerDelete eng (N.fctx i) (N.fld i).xp (N.fld i).e (.elem (a ++ b)) s = (.ok (), s.modify (a ++ b) (delete (N.fld i).p)) ∧
      Local (N.fld i).p m (delete (N.fld i).p m) ∧ Uniq (N.fld i).p (delete (N.fld i).p m) ∧ hits (N.fld i).p (delete (N.fld i).p m) = [] := by
    intro i b m hb hm
    obtain ⟨hsi, hw⟩ := hinf i hm
    have hum := uniq_of_single (hN.field i).good hsi
    have hp := ne_nil_of_field (hN.field i).simple
    obtain ⟨⟨hs1, -⟩, -⟩ := tidy_delete (hN.field i) hsi
    have hu1 := uniq_of_single (hN.field i).good hs1
    refine ⟨delete_run heng (hN.field i) hb hsi, ?_, hu1, (hits_nil_iff (hN.field i).good hu1).mpr (hits_delete_self (hN.field i) hsi)⟩
    rw [delete_del (hN.field i).good hp hum]
    split_ifs
    · exact Local.refl _ _
    · exact local_del (hN.field i).good m
  cases op with
  | delete i =>
    by_cases hp : (recOf N n).present (N.holder i)
    · obtain ⟨b, m, w1, w2, hm, w3⟩ := hpres _ hp
      obtain ⟨d1, d2, d3, d4⟩ := hdelF i w2 hm
      obtain ⟨f1, f2, f3⟩ := hfield i hm _ d2 d3 (by rw [d4]; simp) ((N.fld i).toPython none) (by rw [d4]; rfl)
      refine ⟨chg (N.way (N.holder i)) (delete (N.fld i).p) n, ?_, f1, ?_, f3⟩
      · simp only [NOp.run, NOp.replay, if_pos hp]
        rw [bind_ok w1, d1, w3]
      · simp only [NOp.replay, if_pos hp]; exact f2
    · refine ⟨n, ?_, hu, ?_, fun _ _ _ _ => ⟨rfl, id⟩⟩
      · simp only [NOp.run, NOp.replay, if_neg hp]
        rw [bind_err (habs _ hp), hself]
      · simp only [NOp.replay, if_neg hp]
  | set i v =>
    by_cases hp : (recOf N n).present (N.holder i)
    · obtain ⟨b, m, w1, w2, hm, w3⟩ := hpres _ hp
      obtain ⟨o, h1, h2⟩ := hop
      cases o with
      | none =>
        obtain ⟨d1, d2, d3, d4⟩ := hdelF i w2 hm
        obtain ⟨f1, f2, f3⟩ := hfield i hm _ d2 d3 (by rw [d4]; simp) (.ok v) (by rw [d4]; exact h2)
        refine ⟨chg (N.way (N.holder i)) (delete (N.fld i).p) n, ?_, f1, ?_, f3⟩
        · simp only [NOp.run, NOp.replay, if_pos hp]
          rw [bind_ok w1, h1]
          show managerSet eng _ (.ok none) _ _ _ _ = _
          rw [C17_none_is_delete, d1, w3]
        · simp only [NOp.replay, if_pos hp]; exact f2
      | some t =>
        obtain ⟨hx, ht1, ht2⟩ := h2
        obtain ⟨hsi, hw⟩ := hinf i hm
        have hum := uniq_of_single (hN.field i).good hsi
        have hgd := (hN.field i).good
        obtain ⟨⟨k1, k1'⟩, -⟩ := tidy_write (hN.field i) hsi hw t
        have huw := uniq_of_single hgd k1
        have hrun : writeAs (.ok (some t)) eng (N.fctx i) (N.fld i).xp (N.fld i).e (.elem (a ++ b)) s = (.ok (), s.modify (a ++ b) (write (N.fld i).p t)) :=
          managerSet_str heng (hN.field i).simple.parse (hN.field i).simple.path (hN.field i).simple.canonical (hN.field i).simple.ok
            (attrPreds_stringOk (hN.field i).preds) hx w2 hw
        obtain ⟨s', it, q1, q2, q3⟩ := write_then_item (conv := (N.fld i).toPython) heng (hN.field i).simple (attrPreds_stringOk (hN.field i).preds) hx w2 hw
        rw [hrun] at q1
        simp only [Prod.mk.injEq, true_and] at q1
        subst q1
        rw [read_item heng (hN.field i) (n := write (N.fld i).p t m) (by rw [Node.get_modify, w2]; rfl) huw] at q2
        simp only [Prod.mk.injEq, and_true] at q2
        have hval : (N.fld i).toPython ((hits (N.fld i).p (write (N.fld i).p t m)).head?.map hitItem) = .ok v := by
          rw [q2]
          rcases q3 with ⟨h3, rfl⟩ | ⟨h3, m', rfl, h4, h5⟩
          · exact ht1 h3
          · exact ht2 h3 m' h5 h4
        obtain ⟨f1, f2, f3⟩ := hfield i hm (write (N.fld i).p t) (by rw [write_wr hgd t hum]; exact local_wr hgd t m) huw
          ((writable_hits hgd (ne_nil_of_field (hN.field i).simple) huw).mp k1') (.ok v) hval
        refine ⟨chg (N.way (N.holder i)) (write (N.fld i).p t) n, ?_, f1, ?_, f3⟩
        · simp only [NOp.run, NOp.replay, if_pos hp]
          rw [bind_ok w1, h1, hrun, w3]
        · simp only [NOp.replay, if_pos hp]; exact f2
    · refine ⟨n, ?_, hu, ?_, fun _ _ _ _ => ⟨rfl, id⟩⟩
      · simp only [NOp.run, NOp.replay, if_neg hp]
        rw [bind_err (habs _ hp), hself]
      · simp only [NOp.replay, if_neg hp]
  | create o =>
    by_cases hp : (recOf N n).present (N.up o)
    · obtain ⟨b, m, w1, w2, hm, w3⟩ := hpres _ hp
      obtain ⟨hf, hap, hac⟩ := hN.node o
      have hgp := hN.hop_good o
      have hpn := hN.hop_ne o
      have haw := (hN.way_ok (N.up o)).1
      have hue : Uniq (N.hop o).p m := by
        have := hu.2 o
        rw [N.way_sub, uniq_append haw, hm] at this
        exact this.2 m (by simp)
      have hel : elems (N.way (some o)) n = elems (N.hop o).p m := by
        rw [N.way_sub, elems_append haw, hm]; simp
      have hfn := findNode_path heng hf.parse hf.path w2
      rcases elems_cases hac hue with he | ⟨x, he⟩
      · -- a new element
        have hno := none_of hac hgp hue he
        obtain ⟨m', hm'⟩ := missing_get hf.ok m hpn
        have hrun := createNode_run heng (N.hop o).e (N.hop o).p hf.path hf.ok hf.canonical (a ++ b) s m w2 (.inl hno) m' hm'
        have hc : createObj eng (N.hop o) (a ++ b) s = (.ok (), s.modify (a ++ b) (mk (N.hop o).p)) := by
          have h1 : managerCreate eng (N.hop o).ctx (N.hop o).xp (N.hop o).e (.elem (a ++ b)) s
              = (.ok (.ref ((created (missing (N.hop o).p m).2 m').under (a ++ b ++ (missing (N.hop o).p m).1))),
                s.modify (a ++ b ++ (missing (N.hop o).p m).1) (buildPath (missing (N.hop o).p m).2 id)) := by
            unfold managerCreate
            rw [hno] at hfn
            rw [bind_ok hfn]
            exact bind_ok hrun
          unfold createObj
          rw [bind_ok h1, Node.modify_append]
          show (Except.ok (), _) = _
          congr 1
          exact Node.modify_congr w2 (create_mk hac hpn hgp hue he)
        have hgw : Spec.good (N.way (N.up o) ++ (N.hop o).p) = true := by rw [← N.way_sub]; exact (hN.way_ok _).2
        obtain ⟨c1, c2, c3⟩ := nest_change hN hu hm (local_mk hgp m) hgw
        have hnew : ∀ g, Spec.good ((N.hop o).p ++ g) = true → Uniq ((N.hop o).p ++ g) (mk (N.hop o).p m) ∧ (g ≠ [] → hits ((N.hop o).p ++ g) (mk (N.hop o).p m) = []) ∧
            hits ((N.hop o).p ++ g) m = [] := by
          intro g hg
          obtain ⟨y, y1, y2, y3, y4⟩ := elems_mk hac hg hue he
          refine ⟨?_, fun h => ?_, ?_⟩
          · rw [uniq_append hac, y1]; simp [y2, y3]
          · rw [hits_append hac, y1]; simp [y4 h]
          · rw [hits_append hac, he]; rfl
        have hpathI : ∀ i, N.Inside (some o) (N.holder i) → ∃ g, g ≠ [] ∧ N.path i = N.way (N.up o) ++ ((N.hop o).p ++ g) ∧ Spec.good ((N.hop o).p ++ g) = true := by
          intro i hi
          obtain ⟨l, hl, -⟩ := N.inside_way hi
          have e : N.path i = N.way (N.up o) ++ ((N.hop o).p ++ (l ++ (N.fld i).p)) := by
            unfold Nest.path; rw [hl, N.way_sub]; simp
          refine ⟨l ++ (N.fld i).p, ?_, e, ?_⟩
          · intro h; exact ne_nil_of_field (hN.field i).simple (List.append_eq_nil_iff.mp h).2
          · have := hN.path_good i
            rw [e] at this
            exact good_right haw this
        have hwayI : ∀ o', N.Inside (some o) (some o') → ∃ g, N.way (some o') = N.way (N.up o) ++ ((N.hop o).p ++ g) ∧ Spec.good ((N.hop o).p ++ g) = true ∧
            (g = [] ↔ N.Inside (some o') (some o)) := by
          intro o' hi
          obtain ⟨l, hl, k, hk, hlk⟩ := N.inside_way hi
          have e : N.way (some o') = N.way (N.up o) ++ ((N.hop o).p ++ l) := by rw [hl, N.way_sub]; simp
          refine ⟨l, e, ?_, ?_⟩
          · have := (hN.way_ok (some o')).2
            rw [e] at this
            exact good_right haw this
          · constructor
            · intro h0
              unfold Nest.Inside
              rw [hk]
              have : k = [] := by
                cases k with
                | nil => rfl
                | cons x k =>
                  exfalso
                  rw [hlk] at h0
                  simp only [List.flatMap_cons, List.append_eq_nil_iff] at h0
                  exact ne_nil_of_field (hroute (some o') x (by rw [hk]; simp)).1 h0.1
              rw [this]; simp
            · rintro ⟨k', hk'⟩
              rw [hk] at hk'
              have : k = [] := by
                have := congrArg List.length hk'
                simp only [List.length_append] at this
                exact List.length_eq_zero_iff.mp (by omega)
              rw [hlk, this]; rfl
        have hu' : NU N (chg (N.way (N.up o)) (mk (N.hop o).p) n) := by
          refine ⟨fun i => ?_, fun o' => ?_⟩
          · rcases hN.apart o i with h | h
            · obtain ⟨g, h1, h2, h3⟩ := hpathI i h
              obtain ⟨k1, k2⟩ := c3 ((N.hop o).p ++ g)
              rw [h2]
              exact ⟨k2.mpr (hnew g h3).1, by rw [k1, (hnew g h3).2.1 h1]; simp⟩
            · rw [N.way_sub] at h
              obtain ⟨k1, k2⟩ := c1 _ (hN.path_good i) h
              exact ⟨k2 (hu.1 i).1, by rw [k1]; exact (hu.1 i).2⟩
          · have hA : N.Inside (some o) (some o') → Uniq (N.way (some o')) (chg (N.way (N.up o)) (mk (N.hop o).p) n) := by
              intro h
              obtain ⟨g, h2, h3, -⟩ := hwayI o' h
              rw [h2]
              exact (c3 _).2.mpr (hnew g h3).1
            rcases hN.objects o o' with h | h | h
            · exact hA h
            · rcases inside_up h with h | h
              · exact hA (by unfold Nest.Inside; rw [h]; exact List.prefix_refl _)
              · exact (c2 o' h).2.2
            · rw [N.way_sub o] at h
              exact (c1 _ (hN.way_ok _).2 h).2 (hu.2 o')
        refine ⟨chg (N.way (N.up o)) (mk (N.hop o).p) n, ?_, hu', ?_, fun g hg _ ho => c1 g hg (by rw [← N.way_sub]; exact ho o)⟩
        · simp only [NOp.run, NOp.replay, if_pos hp]
          rw [bind_ok w1, hc, w3]
        · simp only [NOp.replay, if_pos hp]
          refine NRec.ext ?_ ?_
          · funext o'
            apply propext
            rw [rec_here hN hu']
            show _ ↔ (recOf N n).here o' ∨ N.Inside (some o') (some o)
            rw [rec_here hN hu]
            have hA : N.Inside (some o) (some o') → (elems (N.way (some o')) (chg (N.way (N.up o)) (mk (N.hop o).p) n) ≠ [] ↔
                elems (N.way (some o')) n ≠ [] ∨ N.Inside (some o') (some o)) := by
              intro h
              obtain ⟨g, h2, h3, h4⟩ := hwayI o' h
              have hold : elems (N.way (some o')) n = [] := by
                unfold elems
                rw [h2, hits_append haw, hm, List.flatMap_cons, (hnew g h3).2.2]; rfl
              rw [hold]
              unfold elems
              rw [h2, (c3 _).1]
              by_cases hg0 : g = []
              · subst hg0
                simp only [List.append_nil, ne_eq, not_true_eq_false, false_or]
                refine ⟨fun _ => h4.mp rfl, fun _ => ?_⟩
                obtain ⟨y, y1, -⟩ := elems_mk (r := []) hac (by simpa using hgp) hue he
                have : elems (N.hop o).p (mk (N.hop o).p m) ≠ [] := by rw [y1]; simp
                exact this
              · rw [(hnew g h3).2.1 hg0]
                simp only [List.filterMap_nil, ne_eq, not_true_eq_false, false_or, false_iff]
                exact fun h => hg0 (h4.mpr h)
            rcases hN.objects o o' with h | h | h
            · exact hA h
            · rcases inside_up h with h' | h'
              · exact hA (by unfold Nest.Inside; rw [h']; exact List.prefix_refl _)
              · exact ⟨fun _ => .inr h, fun _ => (c2 o' h').2.1⟩
            · rw [N.way_sub o] at h
              unfold elems
              rw [(c1 _ (hN.way_ok _).2 h).1]
              refine ⟨.inl, fun h2 => ?_⟩
              rcases h2 with h2 | h2
              · exact h2
              · rcases inside_up h2 with h' | h'
                · exfalso
                  have e : N.way (some o') = N.way (some o) := by unfold Nest.way; rw [h']
                  rw [e, ← N.way_sub] at h
                  exact part_append _ [] (hN.way_ok _).2 (by rw [List.append_nil]; exact h)
                · exact (c2 o' h').1
          · funext i
            rw [rec_val hN hu']
            show _ = (recOf N n).val i
            rw [rec_val hN hu]
            rcases hN.apart o i with h | h
            · obtain ⟨g, h1, h2, h3⟩ := hpathI i h
              rw [h2, (c3 _).1, (hnew g h3).2.1 h1, hits_append haw, hm, List.flatMap_cons, (hnew g h3).2.2]; rfl
            · rw [N.way_sub] at h
              rw [(c1 _ (hN.path_good i) h).1]
      · -- it is there already
        obtain ⟨b', hb1, -⟩ := addr_of hac hue he
        have hc : createObj eng (N.hop o) (a ++ b) s = (.ok (), s) := by
          have h1 : managerCreate eng (N.hop o).ctx (N.hop o).xp (N.hop o).e (.elem (a ++ b)) s = (.ok (.ref (.elem (a ++ b ++ b'))), s) := by
            unfold managerCreate
            rw [hb1] at hfn
            rw [bind_ok hfn]; rfl
          unfold createObj
          rw [bind_ok h1]; rfl
        refine ⟨n, ?_, hu, ?_, fun _ _ _ _ => ⟨rfl, id⟩⟩
        · simp only [NOp.run, NOp.replay, if_pos hp]
          rw [bind_ok w1, hc, hself]
        · simp only [NOp.replay, if_pos hp]
          refine NRec.ext ?_ rfl
          funext o'
          apply propext
          show _ ↔ (recOf N n).here o' ∨ N.Inside (some o') (some o)
          refine ⟨.inl, fun h => ?_⟩
          rcases h with h | h
          · exact h
          · rw [rec_here hN hu]
            obtain ⟨l, hl, -⟩ := N.inside_way h
            intro h0
            rw [hl, elems_append (hN.way_ok _).1, h0, he] at hel
            simp at hel
    · refine ⟨n, ?_, hu, ?_, fun _ _ _ _ => ⟨rfl, id⟩⟩
      · simp only [NOp.run, NOp.replay, if_neg hp]
        rw [bind_err (habs _ hp), hself]
      · simp only [NOp.replay, if_neg hp]
  | remove o =>
    by_cases hp : (recOf N n).present (N.up o)
    · obtain ⟨b, m, w1, w2, hm, w3⟩ := hpres _ hp
      obtain ⟨hf, hap, hac⟩ := hN.node o
      have hgp := hN.hop_good o
      have hpn := hN.hop_ne o
      have haw := (hN.way_ok (N.up o)).1
      have hue : Uniq (N.hop o).p m := by
        have := hu.2 o
        rw [N.way_sub, uniq_append haw, hm] at this
        exact this.2 m (by simp)
      have hF : RField.Ok (N.hop o).ctx ⟨(N.hop o).xp, (N.hop o).e, (N.hop o).p, Unit, fun _ => .ok none, fun _ => .ok ()⟩ :=
        ⟨hf, hap, last_child hac⟩
      have hsi := single_of_uniq hgp hue
      have hrun := delete_run heng hF w2 hsi
      obtain ⟨⟨hs1, -⟩, -⟩ := tidy_delete hF hsi
      have hu1 := uniq_of_single hgp hs1
      have hnil : hits (N.hop o).p (delete (N.hop o).p m) = [] := (hits_nil_iff hgp hu1).mpr (hits_delete_self hF hsi)
      have hnel : elems (N.hop o).p (delete (N.hop o).p m) = [] := by unfold elems; rw [hnil]; rfl
      have hl : Local (N.hop o).p m (delete (N.hop o).p m) := by
        rw [delete_del hgp hpn hue]
        split_ifs
        · exact Local.refl _ _
        · exact local_del hgp m
      have hgw : Spec.good (N.way (N.up o) ++ (N.hop o).p) = true := by rw [← N.way_sub]; exact (hN.way_ok _).2
      obtain ⟨c1, c2, c3⟩ := nest_change hN hu hm hl hgw
      have hdel : ∀ g, Uniq ((N.hop o).p ++ g) (delete (N.hop o).p m) ∧ hits ((N.hop o).p ++ g) (delete (N.hop o).p m) = [] := by
        intro g
        rw [uniq_append hac, hits_append hac, hnel]
        exact ⟨⟨hu1, by simp⟩, rfl⟩
      have hpathI : ∀ i, N.Inside (some o) (N.holder i) → ∃ g, N.path i = N.way (N.up o) ++ ((N.hop o).p ++ g) := by
        intro i hi
        obtain ⟨l, hl, -⟩ := N.inside_way hi
        exact ⟨l ++ (N.fld i).p, by unfold Nest.path; rw [hl, N.way_sub]; simp⟩
      have hwayI : ∀ o', N.Inside (some o) (some o') → ∃ g, N.way (some o') = N.way (N.up o) ++ ((N.hop o).p ++ g) := by
        intro o' hi
        obtain ⟨l, hl, -⟩ := N.inside_way hi
        exact ⟨l, by rw [hl, N.way_sub]; simp⟩
      have hnotin : ∀ o', N.Inside (some o') (N.up o) → ¬ N.Inside (some o) (some o') := by
        intro o' h1 h2
        have := (h2.trans h1).length_le
        rw [N.route_sub] at this
        simp only [List.length_append, List.length_singleton] at this
        omega
      have hpartI : ∀ p, Part (N.way (some o)) (N.way (some o) ++ p) → False := fun p h => part_append _ _ (hN.way_ok _).2 h
      have hu' : NU N (chg (N.way (N.up o)) (delete (N.hop o).p) n) := by
        refine ⟨fun i => ?_, fun o' => ?_⟩
        · rcases hN.apart o i with h | h
          · obtain ⟨g, h2⟩ := hpathI i h
            obtain ⟨k1, k2⟩ := c3 ((N.hop o).p ++ g)
            rw [h2]
            exact ⟨k2.mpr (hdel g).1, by rw [k1, (hdel g).2]; simp⟩
          · rw [N.way_sub] at h
            obtain ⟨k1, k2⟩ := c1 _ (hN.path_good i) h
            exact ⟨k2 (hu.1 i).1, by rw [k1]; exact (hu.1 i).2⟩
        · have hA : N.Inside (some o) (some o') → Uniq (N.way (some o')) (chg (N.way (N.up o)) (delete (N.hop o).p) n) := by
            intro h
            obtain ⟨g, h2⟩ := hwayI o' h
            rw [h2]
            exact (c3 _).2.mpr (hdel g).1
          rcases hN.objects o o' with h | h | h
          · exact hA h
          · rcases inside_up h with h | h
            · exact hA (by unfold Nest.Inside; rw [h]; exact List.prefix_refl _)
            · exact (c2 o' h).2.2
          · rw [N.way_sub o] at h
            exact (c1 _ (hN.way_ok _).2 h).2 (hu.2 o')
      refine ⟨chg (N.way (N.up o)) (delete (N.hop o).p) n, ?_, hu', ?_, fun g hg _ ho => c1 g hg (by rw [← N.way_sub]; exact ho o)⟩
      · simp only [NOp.run, NOp.replay, if_pos hp, deleteObj]
        rw [bind_ok w1, hrun, w3]
      · simp only [NOp.replay, if_pos hp]
        refine NRec.ext ?_ ?_
        · funext o'
          apply propext
          rw [rec_here hN hu']
          show _ ↔ (recOf N n).here o' ∧ ¬ N.Inside (some o) (some o')
          rw [rec_here hN hu]
          have hA : N.Inside (some o) (some o') → (elems (N.way (some o')) (chg (N.way (N.up o)) (delete (N.hop o).p) n) ≠ [] ↔
              elems (N.way (some o')) n ≠ [] ∧ ¬ N.Inside (some o) (some o')) := by
            intro h
            obtain ⟨g, h2⟩ := hwayI o' h
            have : elems (N.way (some o')) (chg (N.way (N.up o)) (delete (N.hop o).p) n) = [] := by
              unfold elems
              rw [h2, (c3 _).1, (hdel g).2]; rfl
            rw [this]
            simp [h]
          rcases hN.objects o o' with h | h | h
          · exact hA h
          · rcases inside_up h with h' | h'
            · exact hA (by unfold Nest.Inside; rw [h']; exact List.prefix_refl _)
            · exact ⟨fun _ => ⟨(c2 o' h').1, hnotin o' h'⟩, fun _ => (c2 o' h').2.1⟩
          · have hni : ¬ N.Inside (some o) (some o') := by
              intro h2
              obtain ⟨l, hl, -⟩ := N.inside_way h2
              rw [hl] at h
              exact hpartI _ h
            rw [N.way_sub o] at h
            unfold elems
            rw [(c1 _ (hN.way_ok _).2 h).1]
            simp [hni]
        · funext i
          rw [rec_val hN hu']
          show _ = if N.Inside (some o) (N.holder i) then (N.fld i).toPython none else (recOf N n).val i
          by_cases hin : N.Inside (some o) (N.holder i)
          · rw [if_pos hin]
            obtain ⟨g, h2⟩ := hpathI i hin
            rw [h2, (c3 _).1, (hdel g).2]; rfl
          · rw [if_neg hin, rec_val hN hu]
            rcases hN.apart o i with h | h
            · exact absurd h hin
            · rw [N.way_sub] at h
              rw [(c1 _ (hN.path_good i) h).1]
    · refine ⟨n, ?_, hu, ?_, fun _ _ _ _ => ⟨rfl, id⟩⟩
      · simp only [NOp.run, NOp.replay, if_neg hp]
        rw [bind_err (habs _ hp), hself]
      · simp only [NOp.replay, if_neg hp]

/-! ### C84 -/

open Classical in
/-- C84.  Reading a field of an object in the object gives what the element has there; AttributeError, if an object on the way is not there. -/
theorem C84_reads (hN : N.Ok) (heng : EngineOk eng) (s n : Node) (hs : s.get a = some n) (ht : NTidy N n) (i : ι) :
    readField eng a i s = ((recOf N n).read i, s) := by
  have hu := (ntidy_iff hN n).mp ht
  have hroute : ∀ x ∈ N.route (N.holder i), SimpleField x.ctx x.xp x.e x.p ∧ attrPreds x.p = true ∧ allChild x.p = true := by
    refine N.route_induct (P := fun l => ∀ x ∈ l, SimpleField x.ctx x.xp x.e x.p ∧ attrPreds x.p = true ∧ allChild x.p = true) (by simp) ?_ _
    intro l o h x hx
    rcases List.mem_append.mp hx with hx | hx
    · exact h x hx
    · simp only [List.mem_singleton] at hx
      subst hx; exact hN.node o
  obtain ⟨w1, w2⟩ := walk_run heng _ hroute hs (uniq_way hN hu _)
  unfold readField NRec.read
  by_cases hp : (recOf N n).present (N.holder i)
  · rw [if_pos hp]
    have ha := (hN.way_ok (N.holder i)).1
    rcases elems_cases ha (uniq_way hN hu _) with h0 | ⟨m, hm⟩
    · rw [rec_present hN hu] at hp; exact absurd h0 hp
    · obtain ⟨b, k1, k2, -⟩ := w2 m hm
      have h1 := (hu.1 i).1
      unfold Nest.path at h1
      rw [uniq_append ha, hm] at h1
      rw [bind_ok k1, read_item heng (hN.field i) k2 (h1.2 m (by simp)), rec_val hN hu]
      unfold Nest.path
      rw [hits_append ha, hm]
      simp
  · rw [if_neg hp]
    rw [rec_present hN hu, not_not] at hp
    rw [bind_err (w1 hp)]

/-- C84.  Objects in objects are nested records.  Let the classes be declared so that fields and objects do not get into each other's way, and let the steps to them select at most one
node each in the element of an object.  Then every history of assignments `obj.x.y.i = v`, deletions `del obj.x.y.i`, creations `obj.x.create_o()` and removals `del obj.x.o`,
at any depth, has the outcomes and the effect that the replay on the record says: AttributeError and nothing else if an object on the way is not there; otherwise success, and a change of
that field only; of new objects, with no fields yet; of removed objects, with all that is in them.  Outside of the element nothing changes. -/
theorem C84_nested_record (hN : N.Ok) (heng : EngineOk eng) (ops : List (NOp N)) (hops : ∀ op ∈ ops, op.Ok) (s n : Node) (hs : s.get a = some n) (ht : NTidy N n) :
    ∃ n', nestRun eng a ops s = ((nestReplay (recOf N n) ops).1, s.modify a (fun _ => n')) ∧ NTidy N n' ∧ recOf N n' = (nestReplay (recOf N n) ops).2 ∧
      ∀ i, readField eng a i (s.modify a (fun _ => n')) = ((nestReplay (recOf N n) ops).2.read i, s.modify a (fun _ => n')) := by
  have key : ∀ (ops : List (NOp N)), (∀ op ∈ ops, op.Ok) → ∀ (s n : Node), s.get a = some n → NU N n →
      ∃ n', nestRun eng a ops s = ((nestReplay (recOf N n) ops).1, s.modify a (fun _ => n')) ∧ NU N n' ∧ recOf N n' = (nestReplay (recOf N n) ops).2 := by
    intro ops
    induction ops with
    | nil =>
      intro _ s n hs hu
      exact ⟨n, by rw [Node.modify_id hs rfl]; rfl, hu, rfl⟩
    | cons op ops ih =>
      intro hops s n hs hu
      obtain ⟨n1, h1, h2, h3, -⟩ := nop_run (eng := eng) (a := a) hN heng hs hu op (hops op (by simp))
      have hs1 : Node.get a (s.modify a (fun _ => n1)) = some n1 := by rw [Node.get_modify, hs]; rfl
      obtain ⟨n2, k1, k2, k3⟩ := ih (fun o ho => hops o (by simp [ho])) _ n1 hs1 h2
      rw [Node.modify_modify] at k1
      refine ⟨n2, ?_, k2, ?_⟩
      · simp only [nestRun, nestReplay, h1, k1, ← h3]
        rfl
      · simp only [nestReplay]
        rw [k3, h3]
  obtain ⟨n', h1, h2, h3⟩ := key ops hops s n hs ((ntidy_iff hN n).mp ht)
  refine ⟨n', h1, (ntidy_iff hN n').mpr h2, h3, fun i => ?_⟩
  rw [C84_reads eng a hN heng _ n' (by rw [Node.get_modify, hs]; rfl) ((ntidy_iff hN n').mpr h2), h3]

/-- C84.  Other content of the element: a field whose path parts from those of all these fields and objects reads what it did. -/
theorem C84_others (hN : N.Ok) (heng : EngineOk eng) (ops : List (NOp N)) (hops : ∀ op ∈ ops, op.Ok) (s n : Node) (hs : s.get a = some n) (ht : NTidy N n)
    (ctx : Ctx) (f : RField) (hf : f.Ok ctx) (h1 : ∀ i, Part (N.path i) f.p) (h2 : ∀ o, Part (N.way (some o)) f.p) (hsi : Single f.p n) :
    (readAs f.toPython eng ctx f.xp f.e (.elem a) (nestRun eng a ops s).2).1 = (readAs f.toPython eng ctx f.xp f.e (.elem a) s).1 := by
  have key : ∀ (ops : List (NOp N)), (∀ op ∈ ops, op.Ok) → ∀ (s n : Node), s.get a = some n → NU N n → Uniq f.p n →
      ∃ n', (nestRun eng a ops s).2 = s.modify a (fun _ => n') ∧ hits f.p n' = hits f.p n ∧ Uniq f.p n' := by
    intro ops
    induction ops with
    | nil =>
      intro _ s n hs hu hf
      exact ⟨n, by rw [Node.modify_id hs rfl]; rfl, rfl, hf⟩
    | cons op ops ih =>
      intro hops s n hs hu hfu
      obtain ⟨n1, k1, k2, k3, k4⟩ := nop_run (eng := eng) (a := a) hN heng hs hu op (hops op (by simp))
      have hs1 : Node.get a (s.modify a (fun _ => n1)) = some n1 := by rw [Node.get_modify, hs]; rfl
      obtain ⟨e1, e2⟩ := k4 f.p hf.good h1 h2
      obtain ⟨n2, j1, j2, j3⟩ := ih (fun o ho => hops o (by simp [ho])) _ n1 hs1 k2 (e2 hfu)
      rw [Node.modify_modify] at j1
      refine ⟨n2, ?_, j2.trans e1, j3⟩
      simp only [nestRun, k1, j1]
      rfl
  have hfu := uniq_of_single hf.good hsi
  obtain ⟨n', k1, k2, k3⟩ := key ops hops s n hs ((ntidy_iff hN n).mp ht) hfu
  rw [k1, read_item heng hf (by rw [Node.get_modify, hs]; rfl) k3, read_item heng hf hs hfu, k2]

/-- C84.  A NodeField reads `None` exactly if the object is not there. -/
theorem C84_object (hN : N.Ok) (heng : EngineOk eng) (s n : Node) (hs : s.get a = some n) (ht : NTidy N n) (o : ω) (hp : (recOf N n).present (N.up o)) :
    ∃ b r, walk eng (N.route (N.up o)) a s = (.ok b, s) ∧ Domain.getNode eng (N.hop o).ctx (N.hop o).xp b s = (.ok r, s) ∧ (r.isSome ↔ (recOf N n).here o) := by
  have hu := (ntidy_iff hN n).mp ht
  have hroute : ∀ x ∈ N.route (N.up o), SimpleField x.ctx x.xp x.e x.p ∧ attrPreds x.p = true ∧ allChild x.p = true := by
    refine N.route_induct (P := fun l => ∀ x ∈ l, SimpleField x.ctx x.xp x.e x.p ∧ attrPreds x.p = true ∧ allChild x.p = true) (by simp) ?_ _
    intro l o h x hx
    rcases List.mem_append.mp hx with hx | hx
    · exact h x hx
    · simp only [List.mem_singleton] at hx
      subst hx; exact hN.node o
  have ha := (hN.way_ok (N.up o)).1
  rw [rec_present hN hu] at hp
  rcases elems_cases ha (uniq_way hN hu _) with h0 | ⟨m, hm⟩
  · exact absurd h0 hp
  · obtain ⟨b, k1, k2, -⟩ := (walk_run heng _ hroute hs (uniq_way hN hu _)).2 m hm
    obtain ⟨hf, hap, hac⟩ := hN.node o
    have hue : Uniq (N.hop o).p m := by
      have := hu.2 o
      rw [N.way_sub, uniq_append ha, hm] at this
      exact this.2 m (by simp)
    have hfn := findNode_path heng hf.parse hf.path k2
    rw [rec_here hN hu, N.way_sub, elems_append ha, hm]
    rcases elems_cases hac hue with he | ⟨x, he⟩
    · rw [none_of hac (hN.hop_good o) hue he] at hfn
      refine ⟨a ++ b, none, k1, by unfold Domain.getNode; rw [bind_ok hfn]; rfl, by simp [he]⟩
    · obtain ⟨b', hb, -⟩ := addr_of hac hue he
      rw [hb] at hfn
      refine ⟨a ++ b, some (a ++ b ++ b'), k1, by unfold Domain.getNode; rw [bind_ok hfn]; rfl, by simp [he]⟩

/-- A new, empty element has room for everything. -/
theorem C84_new_element (hN : N.Ok) (q : QName) : NTidy N (Node.empty q) := by
  rw [ntidy_iff hN]
  have h : ∀ p, Uniq p (Node.empty q) := by
    intro p
    cases p with
    | nil => trivial
    | cons st r => cases st <;> simp [Uniq]
  refine ⟨fun i => ⟨h _, fun m hm => ?_⟩, fun o => h _⟩
  have := hN.path_ne i
  cases hp : N.path i with
  | nil => exact absurd hp this
  | cons st r => rw [hp] at hm; cases st <;> simp [hits, Node.attr?] at hm
end

/-- C84.  Reading a NodeField with `instantiate_on_get` is `create_…()` followed by reading it. -/
theorem C84_instantiate [PyUnicode] {eng : Engine} (heng : EngineOk eng) (h : Hop) (hf : SimpleField h.ctx h.xp h.e h.p) (hac : allChild h.p = true) (a : Node.Addr) (s n : Node)
    (hs : s.get a = some n) : instantiate eng h a s = (do createObj eng h a; Domain.getNode eng h.ctx h.xp a) s := by
  obtain ⟨r, s₁, n₁, h1, -, h3, ⟨x, h4, rfl⟩, -⟩ := C21_create_idempotent eng heng h.ctx h.xp h.e h.p hf (last_child hac) a s n hs
  obtain ⟨b, rfl⟩ := matches_allChild hac (List.mem_of_mem_head? h4)
  have hc : createObj eng h a s = (.ok (), s₁) := by unfold createObj; rw [bind_ok h1]; rfl
  have hg : Domain.getNode eng h.ctx h.xp a s₁ = (.ok (some (a ++ b)), s₁) := by
    unfold Domain.getNode
    rw [bind_ok (findNode_path heng hf.parse hf.path h3), h4]; rfl
  rw [bind_ok hc, hg]
  have hfn := findNode_path heng hf.parse hf.path hs
  unfold managerCreate at h1
  rw [bind_ok hfn] at h1
  unfold instantiate managerGet
  rw [bind_ok hfn]
  cases hm : (Step.matches h.p n).head? with
  | none =>
    rw [hm] at h1
    simp only [Option.map_none, true_and, if_true] at h1 ⊢
    cases hcr : createNode eng h.ctx h.e (.elem a) none s with
    | mk r s2 =>
      cases r with
      | error e => rw [bind_err hcr] at h1; simp at h1
      | ok r =>
        rw [bind_ok hcr] at h1 ⊢
        have h1' : (Except.ok (Found.ref r), s2) = ((Except.ok (Found.ref ((Ref.elem b).under a)) : Except PyErr Found), s₁) := h1
        simp only [Prod.mk.injEq, Except.ok.injEq, Found.ref.injEq] at h1'
        obtain ⟨rfl, rfl⟩ := h1'
        rfl
  | some y =>
    rw [hm] at h1
    have h1' : (Except.ok (Found.ref (y.under a)), s) = ((Except.ok (Found.ref ((Ref.elem b).under a)) : Except PyErr Found), s₁) := h1
    simp only [Prod.mk.injEq, Except.ok.injEq, Found.ref.injEq] at h1'
    obtain ⟨h5, rfl⟩ := h1'
    simp only [Option.map_some, reduceCtorEq, false_and, if_false]
    rw [h5]
    rfl

/-! ### the hypotheses -/

/-- The conditions class by class: in each object, the paths of its fields and NodeFields part pairwise. -/
structure Nest.Declared [PyUnicode] {ι ω : Type} (N : Nest ι ω) : Prop where
  field : ∀ i, (N.fld i).Ok (N.fctx i)
  node : ∀ o, SimpleField (N.hop o).ctx (N.hop o).xp (N.hop o).e (N.hop o).p ∧ attrPreds (N.hop o).p = true ∧ allChild (N.hop o).p = true
  keys : ∀ i, pathOk (N.path i) = true
  fields : ∀ i j, i ≠ j → N.holder i = N.holder j → Part (N.fld i).p (N.fld j).p
  mixed : ∀ i o, N.holder i = N.up o → Part (N.fld i).p (N.hop o).p
  nodes : ∀ o o', o ≠ o' → N.up o = N.up o' → Part (N.hop o).p (N.hop o').p

theorem part_right : ∀ {p q : List Step} (r : List Step), Part p q → Part p (q ++ r)
  | .child _ _ :: _, .child _ _ :: _, r, h => by
    rcases h with h | ⟨h1, h2, h3⟩
    · exact .inl h
    · exact .inr ⟨h1, h2, part_right r h3⟩
  | .attr _ :: _, .attr _ :: _, _, h => h
  | .child _ _ :: _, .attr _ :: _, _, _ => trivial
  | .attr _ :: _, .child _ _ :: _, _, _ => trivial

theorem part_left : ∀ (l : List Step), allChild l = true → ∀ {p q : List Step}, Part p q → Part (l ++ p) (l ++ q)
  | [], _, _, _, h => h
  | .child q ps :: l, ha, _, _, h => .inr ⟨rfl, rfl, part_left l (by simpa [allChild] using ha) h⟩

/-- C84.  It is enough to look at each class on its own. -/
theorem C84_declared [PyUnicode] {ι ω : Type} (N : Nest ι ω) (h : N.Declared) : N.Ok := by
  have hgood : ∀ o, Spec.good (N.hop o).p = true := fun o => good_of (h.node o).1.ok (h.node o).2.1 (last_child (h.node o).2.2)
  have hac : ∀ o, allChild (N.way o) = true := by
    intro o
    unfold Nest.way
    refine N.route_induct (P := fun l => allChild (l.flatMap Hop.p) = true) rfl ?_ o
    intro l o h1
    simp only [List.flatMap_append, List.flatMap_singleton]
    rw [allChildApp, h1, (h.node o).2.2]; rfl
  have hinj : ∀ k o o', (N.route o).length ≤ k → N.route o = N.route o' → o = o' := by
    intro k
    induction k with
    | zero =>
      intro o o' h1 h2
      have h0 : N.route o = [] := List.length_eq_zero_iff.mp (by omega)
      cases o with
      | some o => rw [N.route_sub] at h0; simp at h0
      | none =>
        cases o' with
        | none => rfl
        | some o' => rw [h0, N.route_sub] at h2; simp at h2
    | succ k ih =>
      intro o o' h1 h2
      cases o with
      | none =>
        cases o' with
        | none => rfl
        | some o' => rw [N.route_top, N.route_sub] at h2; simp at h2
      | some o =>
        cases o' with
        | none => rw [N.route_top, N.route_sub] at h2; simp at h2
        | some o' =>
          rw [N.route_sub, N.route_sub] at h2
          rw [N.route_sub] at h1
          simp only [List.length_append, List.length_singleton] at h1
          obtain ⟨e1, e2⟩ := List.append_inj' h2 rfl
          have e3 := ih _ _ (by omega) e1
          by_cases hoo : o = o'
          · rw [hoo]
          · exfalso
            have := h.nodes o o' hoo e3
            simp only [List.cons.injEq, and_true] at e2
            rw [e2] at this
            exact part_append _ [] (hgood o') (by rw [List.append_nil]; exact this)
  have hinj' : ∀ o o', N.route o = N.route o' → o = o' := fun o o' => hinj _ o o' (Nat.le_refl _)
  have hin0 : ∀ o, N.Inside none o := fun o => by unfold Nest.Inside; rw [N.route_top]; simp
  have hinup : ∀ o o', N.Inside o (N.up o') → N.Inside o (some o') := fun o o' h1 => by
    unfold Nest.Inside at *; rw [N.route_sub]; exact h1.trans (List.prefix_append _ _)
  have hinlen : ∀ o o', N.Inside o o' → (N.route o').length ≤ (N.route o).length → o = o' := fun o o' h1 h2 => by
    obtain ⟨k, hk⟩ := h1
    have := congrArg List.length hk
    simp only [List.length_append] at this
    have hk0 : k = [] := List.length_eq_zero_iff.mp (by omega)
    exact hinj' _ _ (by rw [← hk, hk0]; simp)
  have hobj : ∀ k o o', (N.route o).length + (N.route o').length ≤ k → N.Inside o o' ∨ N.Inside o' o ∨ Part (N.way o) (N.way o') := by
    intro k
    induction k with
    | zero =>
      intro o o' hk
      left
      have h0 : N.route o = [] := List.length_eq_zero_iff.mp (by omega)
      unfold Nest.Inside; rw [h0]; simp
    | succ k ih =>
      intro o o' hk
      cases o with
      | none => exact .inl (hin0 _)
      | some o =>
        cases o' with
        | none => exact .inr (.inl (hin0 _))
        | some o' =>
          have l1 : (N.route (some o)).length = (N.route (N.up o)).length + 1 := by rw [N.route_sub]; simp
          have l2 : (N.route (some o')).length = (N.route (N.up o')).length + 1 := by rw [N.route_sub]; simp
          rcases Nat.lt_trichotomy (N.route (some o)).length (N.route (some o')).length with hl | hl | hl
          · rcases ih (some o) (N.up o') (by omega) with h1 | h1 | h1
            · exact .inl (hinup _ _ h1)
            · have := hinlen _ _ h1 (by omega)
              exact .inl (hinup _ _ (by rw [this]; exact List.prefix_refl _))
            · right; right
              rw [N.way_sub o']
              exact part_right _ h1
          · have hup : N.up o = N.up o' ∨ Part (N.way (N.up o)) (N.way (N.up o')) := by
              rcases ih (N.up o) (N.up o') (by omega) with h1 | h1 | h1
              · exact .inl (hinlen _ _ h1 (by omega))
              · exact .inl (hinlen _ _ h1 (by omega)).symm
              · exact .inr h1
            rcases hup with h1 | h1
            · by_cases hoo : o = o'
              · subst hoo; exact .inl (List.prefix_refl _)
              · right; right
                rw [N.way_sub o, N.way_sub o', h1]
                exact part_left _ (hac _) (h.nodes o o' hoo h1)
            · right; right
              rw [N.way_sub o, N.way_sub o']
              exact part_right _ (part_right _ h1.symm).symm
          · rcases ih (N.up o) (some o') (by omega) with h1 | h1 | h1
            · have := hinlen _ _ h1 (by omega)
              exact .inr (.inl (hinup _ _ (by rw [this]; exact List.prefix_refl _)))
            · exact .inr (.inl (hinup _ _ h1))
            · right; right
              rw [N.way_sub o]
              exact (part_right _ h1.symm).symm
  have hapart : ∀ o i, N.Inside (some o) (N.holder i) ∨ Part (N.way (some o)) (N.path i) := by
    intro o i
    rcases hobj _ (some o) (N.holder i) (Nat.le_refl _) with h1 | h1 | h1
    · exact .inl h1
    · by_cases he : some o = N.holder i
      · left; rw [← he]; exact List.prefix_refl _
      · right
        -- the NodeField of the field's object that leads to `o`
        obtain ⟨k, hk⟩ := h1
        cases k with
        | nil => exact absurd (hinj' _ _ (by rw [← hk]; simp)) he
        | cons x k =>
          have key : ∀ (k : List Hop) (x : Hop) (y : Option ω), N.route y = N.route (N.holder i) ++ x :: k → ∃ o1, N.up o1 = N.holder i ∧ N.hop o1 = x := by
            intro k
            induction k using List.reverseRecOn with
            | nil =>
              intro x y hy
              cases y with
              | none => rw [N.route_top] at hy; simp at hy
              | some y =>
                rw [N.route_sub] at hy
                obtain ⟨e1, e2⟩ := List.append_inj' hy rfl
                exact ⟨y, hinj' _ _ e1, by simpa using e2⟩
            | append_singleton k z ih =>
              intro x y hy
              cases y with
              | none => rw [N.route_top] at hy; simp at hy
              | some y =>
                rw [N.route_sub, ← List.cons_append, ← List.append_assoc] at hy
                obtain ⟨e1, e2⟩ := List.append_inj' hy rfl
                exact ih x _ e1
          obtain ⟨o1, e1, e2⟩ := key k x (some o) hk.symm
          have hw : N.way (some o) = N.way (N.holder i) ++ ((N.hop o1).p ++ k.flatMap Hop.p) := by
            unfold Nest.way; rw [← hk, e2]; simp
          rw [hw]
          exact part_left _ (hac _) (part_right _ (h.mixed i o1 e1.symm)).symm
    · exact .inr (part_right _ h1)
  refine ⟨h.field, h.node, h.keys, ?_, hapart, fun o o' => hobj _ _ _ (Nat.le_refl _)⟩
  intro i j hij
  by_cases he : N.holder i = N.holder j
  · unfold Nest.path
    rw [he]
    exact part_left _ (hac _) (h.fields i j hij he)
  · cases hi : N.holder i with
    | some o =>
      rcases hapart o j with h1 | h1
      · cases hj : N.holder j with
        | none =>
          exfalso
          unfold Nest.Inside at h1
          rw [hj, N.route_top, N.route_sub] at h1
          simp at h1
        | some o' =>
          rcases hapart o' i with h2 | h2
          · exfalso
            rw [hi] at h2
            rw [hj] at h1
            exact he (by rw [hi, hj]; exact hinlen _ _ h1 h2.length_le)
          · unfold Nest.path at h2 ⊢
            rw [hj]
            exact part_right _ h2.symm
      · unfold Nest.path at h1 ⊢
        rw [hi]
        exact (part_right _ h1.symm).symm
    | none =>
      cases hj : N.holder j with
      | none => exact absurd (by rw [hi, hj]) he
      | some o' =>
        rcases hapart o' i with h2 | h2
        · exfalso
          unfold Nest.Inside at h2
          rw [hi, N.route_top, N.route_sub] at h2
          simp at h2
        · unfold Nest.path at h2 ⊢
          rw [hj]
          exact (part_right _ h2.symm)

/-! ### an example -/

/-- ```
class Role(XmlObject):                    class Name(XmlObject):                         class Item(XmlObject):
    term = StringField('roleTerm')            family = StringField("part[@type='f']")        title = StringField('title')
    code = IntegerField('@code')              role = NodeField('role', Role)                 name = NodeField('names/name', Name)
``` -/
def item : Nest (Fin 4) (Fin 2) where
  fld := fun
    | 0 => strField c%"title" (ast c%"title") [.child ⟨none, c%"title"⟩ []]
    | 1 => strField c%"part[@type='f']" (ast c%"part[@type='f']") [.child ⟨none, c%"part"⟩ [.attr ⟨none, c%"type"⟩ (some (.str c%"f"))]]
    | 2 => strField c%"roleTerm" (ast c%"roleTerm") [.child ⟨none, c%"roleTerm"⟩ []]
    | 3 => intField xpathNumber c%"@code" (ast c%"@code") [.attr ⟨none, c%"code"⟩]
  fctx := fun _ => sampleCtx
  holder := fun | 0 => none | 1 => some 0 | 2 => some 1 | 3 => some 1
  hop := fun
    | 0 => ⟨c%"names/name", ast c%"names/name", [.child ⟨none, c%"names"⟩ [], .child ⟨none, c%"name"⟩ []], sampleCtx⟩
    | 1 => ⟨c%"role", ast c%"role", [.child ⟨none, c%"role"⟩ []], sampleCtx⟩
  up := fun | 0 => none | 1 => some 0
  route := fun
    | none => []
    | some 0 => [⟨c%"names/name", ast c%"names/name", [.child ⟨none, c%"names"⟩ [], .child ⟨none, c%"name"⟩ []], sampleCtx⟩]
    | some 1 => [⟨c%"names/name", ast c%"names/name", [.child ⟨none, c%"names"⟩ [], .child ⟨none, c%"name"⟩ []], sampleCtx⟩,
        ⟨c%"role", ast c%"role", [.child ⟨none, c%"role"⟩ []], sampleCtx⟩]
  route_top := rfl
  route_sub := fun | 0 => rfl | 1 => rfl

theorem item_ok : item.Ok := by
  refine C84_declared item ⟨?_, ?_, ?_, ?_, ?_, ?_⟩
  · intro i
    match i with
    | 0 | 1 | 2 | 3 => exact ⟨⟨by decide, by rfl, by decide, by decide⟩, by decide, by intro h; cases h⟩
  · intro o
    match o with
    | 0 | 1 => exact ⟨⟨by decide, by rfl, by decide, by decide⟩, by decide, by decide⟩
  · intro i
    match i with
    | 0 | 1 | 2 | 3 => decide
  · intro i j hij hh
    match i, j, hij, hh with
    | 2, 3, _, _ => trivial
    | 3, 2, _, _ => trivial
    | 0, 0, h, _ | 1, 1, h, _ | 2, 2, h, _ | 3, 3, h, _ => exact absurd rfl h
    | 0, 1, _, h | 0, 2, _, h | 0, 3, _, h | 1, 0, _, h | 1, 2, _, h | 1, 3, _, h | 2, 0, _, h | 2, 1, _, h | 3, 0, _, h | 3, 1, _, h => exact absurd h (by decide)
  · intro i o h
    match i, o, h with
    | 0, 0, _ => exact .inl (C69_apart_names (by decide) _ _)
    | 1, 1, _ => exact .inl (C69_apart_names (by decide) _ _)
    | 0, 1, h | 1, 0, h | 2, 0, h | 2, 1, h | 3, 0, h | 3, 1, h => exact absurd h (by decide)
  · intro o o' h h'
    match o, o', h, h' with
    | 0, 0, h, _ | 1, 1, h, _ => exact absurd rfl h
    | 0, 1, _, h | 1, 0, _, h => exact absurd h (by decide)

/-- On a new element: `item.name.family = 'x'` raises AttributeError; after `item.create_name()`, `item.name.create_role()`, `item.name.role.code = 7` and `item.title = 'T'`, the
code reads 7 and the family name None. -/
example : ∃ n', nestRun (N := item) refEngine [] [.set 1 (some c%"x" : Option Str), .create 0, .create 1, .set 3 (some 7 : Option Int), .set 0 (some c%"T" : Option Str)]
      (Node.empty ⟨none, c%"item"⟩) = ([.error .attributeError, .ok (), .ok (), .ok (), .ok ()], n') ∧
    readField (N := item) refEngine [] 3 n' = (.ok (some 7 : Option Int), n') ∧ readField (N := item) refEngine [] 1 n' = (.ok (none : Option Str), n') := by
  obtain ⟨n', h1, -, -, h4⟩ := C84_nested_record refEngine [] item_ok refEngine_ok
    [.set 1 (some c%"x" : Option Str), .create 0, .create 1, .set 3 (some 7 : Option Int), .set 0 (some c%"T" : Option Str)]
    (by
      intro op hop
      simp only [List.mem_cons, List.not_mem_nil, or_false] at hop
      rcases hop with rfl | rfl | rfl | rfl | rfl
      · exact C69_keeps_string _ _ _ _ (fun v hv => by cases hv; decide)
      · trivial
      · trivial
      · exact C69_keeps_integer xpathNumber xpathNumber_ok _ _ _ _ (fun n hn => .inl (by decide))
      · exact C69_keeps_string _ _ _ _ (fun v hv => by cases hv; decide))
    (Node.empty ⟨none, c%"item"⟩) _ rfl (C84_new_element item_ok _)
  have i00 : item.Inside (some 0) (some 0) := List.prefix_rfl
  have i11 : item.Inside (some 1) (some 1) := List.prefix_rfl
  have e0 : ∀ o, ¬ (recOf item (Node.empty ⟨none, c%"item"⟩)).here o := by
    intro o h
    match o with
    | 0 | 1 => exact h rfl
  have v1 : (recOf item (Node.empty ⟨none, c%"item"⟩)).val 1 = .ok (none : Option Str) := rfl
  generalize recOf item (Node.empty ⟨none, c%"item"⟩) = r at h1 h4 e0 v1
  have hh1 : item.holder 1 = some 0 := rfl
  have hh3 : item.holder 3 = some 1 := rfl
  have hh0 : item.holder 0 = none := rfl
  have hu0 : item.up 0 = none := rfl
  have hu1 : item.up 1 = some 0 := rfl
  simp only [nestReplay, NOp.replay, hh1, hh3, hh0, hu0, hu1, NRec.present, e0, i00, i11, if_true, if_false, or_true, true_or] at h1 h4
  refine ⟨n', h1, ?_, ?_⟩
  · refine (h4 3).trans (Prod.ext ?_ rfl)
    simp only [NRec.read, hh3, NRec.present, i11, or_true, if_true]
    exact (@Function.update_of_ne _ _ (fun _ _ => Classical.propDecidable _) _ _ (by decide) _ _).trans (@Function.update_self _ _ (fun _ _ => Classical.propDecidable _) _ _ _)
  · refine (h4 1).trans (Prod.ext ?_ rfl)
    simp only [NRec.read, hh1, NRec.present, i00, or_true, true_or, if_true]
    exact (@Function.update_of_ne _ _ (fun _ _ => Classical.propDecidable _) _ _ (by decide) _ _).trans
      ((@Function.update_of_ne _ _ (fun _ _ => Classical.propDecidable _) _ _ (by decide) _ _).trans v1)
end Props
