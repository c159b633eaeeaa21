import Verif.Forms.TreeProofs
/-
Property C85: a form with subforms, at any depth, saves the submitted data into the document.

Model: `initTree`, `updateTree`, `validTree` (Verif/Forms/Tree.lean).  Specification: Verif/Spec/FormTree.lean.
-/
namespace Props
open XPath Xml Spec Fields Core Forms Py

section
variable [PyUnicode] {eng : Engine} {A : Type}

/-- C85.  A form with subforms, at any depth, is made for the object whose element is at `a`, and then updates its instance.  Then all that has been submitted, and nothing else,
is in the document: `Saved`; nothing outside the element has changed.  Updating the instance again changes nothing. -/
theorem C85_save (heng : EngineOk eng) (t : FTree A) (ht : FTree.Ok t) (hn : FTree.New t) (a : Node.Addr) (s n : Node) (hs : s.get a = some n) (hfit : FTree.Fits t n) :
    ∃ s0 t' n', initTree eng t a s = (.ok (), s0) ∧ updateTree eng t a s0 = (.ok (), t', s.modify a (fun _ => n')) ∧ FTree.Saved t n n' ∧
      ∃ t'', updateTree eng t' a (s.modify a (fun _ => n')) = (.ok (), t'', s.modify a (fun _ => n')) := by
  have hf := FTree.Fits.fit ht hfit
  obtain ⟨n0, r1, r2, r3, -⟩ := initTree_run heng t ht hn hs hf
  obtain ⟨t', n', u1, u2, u3, u4, u5, -⟩ := updateTree_run heng t ht (s := s.modify a (fun _ => n0)) (get_modify_here hs) r2
  rw [modify_twice] at u1
  obtain ⟨t'', n'', w1, -, -, -, -, w6⟩ := updateTree_run heng t' u2 (s := s.modify a (fun _ => n')) (get_modify_here hs) u3
  rw [w6 u4, modify_twice] at w1
  exact ⟨_, t', n', r1, u1, saved_of ht hn hf r3 u5 u3 u4, t'', w1⟩

/-- C85.  Updating the instance of a form that has no cleaned data, as an unbound one: nothing is changed, whatever its subforms are. -/
theorem C85_unbound (o : Forms.Own A) (subs : FSubs A) (h : o.cleaned = none) (a : Node.Addr) (s : Node) : updateTree eng (.mk o subs) a s = (.ok (), .mk o subs, s) := by
  rw [updateTree, h]

/-- C85.  `is_valid()` of such a form succeeds.  If it is True, Django has found the data of all forms valid, the element is valid by the schema, everything has been saved,
and updating the instance again changes nothing.  If Django finds the data valid and the schemas accept everything, it is True. -/
theorem C85_valid (heng : EngineOk eng) (t : FTree A) (ht : FTree.Ok t) (hn : FTree.New t) (a : Node.Addr) (s n : Node) (hs : s.get a = some n) (hfit : FTree.Fits t n) :
    ∃ s0 r t' n', initTree eng t a s = (.ok (), s0) ∧ validTree eng t a s0 = (.ok r, t', s.modify a (fun _ => n')) ∧
      (r = true → FTree.AllValid t ∧ (FTree.own t).schemaValid n' = true ∧ FTree.Saved t n n' ∧
        ∃ t'', updateTree eng t' a (s.modify a (fun _ => n')) = (.ok (), t'', s.modify a (fun _ => n'))) ∧
      (FTree.AllValid t → FTree.NoSchema t → r = true) := by
  have hf := FTree.Fits.fit ht hfit
  obtain ⟨n0, r1, r2, r3, -⟩ := initTree_run heng t ht hn hs hf
  obtain ⟨r, t', n', u1, u2, u3, u4, u5, -, u7, u8⟩ := validTree_run heng t ht (s := s.modify a (fun _ => n0)) (get_modify_here hs) r2
  rw [modify_twice] at u1
  refine ⟨_, r, t', n', r1, u1, fun hr => ?_, u8⟩
  obtain ⟨t'', n'', w1, -, -, -, -, w6⟩ := updateTree_run heng t' u2 (s := s.modify a (fun _ => n')) (get_modify_here hs) u3
  rw [w6 (u4 hr), modify_twice] at w1
  exact ⟨(u7 hr).1, (u7 hr).2, saved_of ht hn hf r3 u5 u3 (u4 hr), t'', w1⟩

/-- C85.  If Django finds the data of one of the forms invalid, `is_valid()` is False, and no field of the form's own instance has changed, nor anything else apart from the
elements of the subforms (subforms that come before an invalid one may have been saved: C53). -/
theorem C85_invalid (heng : EngineOk eng) (t : FTree A) (ht : FTree.Ok t) (hn : FTree.New t) (a : Node.Addr) (s n : Node) (hs : s.get a = some n) (hfit : FTree.Fits t n)
    (hbad : ¬ FTree.AllValid t) : ∃ s0 t' n', initTree eng t a s = (.ok (), s0) ∧ validTree eng t a s0 = (.ok false, t', s.modify a (fun _ => n')) ∧
      (∀ i, fieldVal ((FTree.own t).m.fs i) n' = fieldVal ((FTree.own t).m.fs i) n) ∧
      ∀ g ctx, g.Ok ctx → Single g.p n → (∀ q, FSubs.Has q (FTree.subs t) → Part q g.p) → fieldVal g n' = fieldVal g n := by
  have hf := FTree.Fits.fit ht hfit
  match t, ht, hn, hf, hbad, hfit with
  | .mk o subs, ht, hn, hf, hbad, hfit =>
    obtain ⟨n0, r1, r2, -, r4, -⟩ := initSubs_run heng subs ht.2 hn hs hf.2
    obtain ⟨n', t', hrun, hfr⟩ : ∃ n' t', validTree eng (.mk o subs) a (s.modify a (fun _ => n0)) = (.ok false, t', s.modify a (fun _ => n')) ∧
        Frame (fun q => FSubs.Has q subs) n0 n' := by
      by_cases hv : o.valid = false
      · exact ⟨n0, _, by rw [validTree, if_pos hv], Frame.refl _ _⟩
      · obtain ⟨r, l', n1, v1, -, -, -, v6, -, v8, -⟩ := validTrees_run heng subs ht.2 (s := s.modify a (fun _ => n0)) (get_modify_here hs) r2
        rw [modify_twice] at v1
        cases r with
        | true => exact absurd ⟨by simpa using hv, v8 rfl⟩ hbad
        | false => exact ⟨n1, .mk o l', by rw [validTree, if_neg hv, v1], v6⟩
    have hfr' := r4.trans hfr
    have hall : ∀ g ctx, g.Ok ctx → Single g.p n → (∀ q, FSubs.Has q subs → Part q g.p) → fieldVal g n' = fieldVal g n := by
      intro g ctx hg hsi hp
      have hu := uniq_of_single hg.good hsi
      rw [fieldVal_hits hg (hfr'.uniq _ hg.good hp hu), fieldVal_hits hg hu, hfr'.other _ hg.good hp]
    refine ⟨_, t', n', by rw [initTree]; exact r1, hrun, fun i => ?_, hall⟩
    exact hall _ _ (ht.1.field i) (hfit.1 i).1 (fun q hq => ((FSubs.Ok.has ht.2 hq).2.2.2 _ ⟨i, rfl⟩).symm)

/-- C85.  In `Saved`, `fieldVal` is what reading the attribute gives, and `subElem` is the element of the object that reading the NodeField gives. -/
theorem C85_reads (heng : EngineOk eng) (a : Node.Addr) (s n : Node) (hs : s.get a = some n) :
    (∀ f ctx, RField.Ok ctx f → readAs f.toPython eng ctx f.xp f.e (.elem a) s = (fieldVal f n, s)) ∧
    ∀ h, HopOk h → ∃ r, Domain.getNode eng h.ctx h.xp a s = (.ok r, s) ∧ r.bind (fun b => s.get b) = subElem h.p n := by
  refine ⟨fun f ctx hf => readAs_run heng hf.simple hs, fun h hh => ?_⟩
  have hfind := findNode_path heng hh.1.parse hh.1.path hs
  unfold Domain.getNode subElem
  rw [bind_ok hfind]
  cases hm : (Step.matches h.p n).head? with
  | none => exact ⟨none, rfl, rfl⟩
  | some x =>
    obtain ⟨b, rfl⟩ := matches_allChild hh.2.2 (List.mem_of_mem_head? hm)
    refine ⟨some (a ++ b), rfl, ?_⟩
    show s.get (a ++ b) = _
    rw [Node.get_append, hs]; rfl

omit [PyUnicode] in
theorem allChild_childSteps {p : List Step} (h : allChild p = true) : childSteps p = true := by
  induction p with
  | nil => rfl
  | cons st r ih => cases st with
    | child q ps => exact (show childSteps (.child q ps :: r) = childSteps r by simp [childSteps]).trans (ih h)
    | _ => simp [allChild] at h

/-- C85.  A further update of a subform whose element has been removed from the document (because it was empty); the submitted data now make that element `v'`.  If the NodeField
reads nothing and `v'` is not empty, the NodeField reads afterwards an element with the attributes, the text and the children of `v'`; if the NodeField reads nothing and `v'` is
empty, the document does not change. -/
theorem C85_refilled (heng : EngineOk eng) (h : Hop) (hh : HopOk h) (f f' : FTree A) (v v' : Node) (a : Node.Addr) (s n : Node) (hs : s.get a = some n)
    (hno : Step.matches h.p n = []) (hup : updateTree eng f [] v = (.ok (), f', v')) (hv : (v'.attrs.map Prod.fst).Nodup)
    (hsat : ∀ q ps, h.p.getLast? = some (.child q ps) → satAll ps v' = true) :
    (isEmpty v' = true → updateTrees eng (.cons h (some v) f .nil) a s = (.ok (), .cons h (some v') f' .nil, s)) ∧
    (isEmpty v' = false → ∃ s' b m, updateTrees eng (.cons h (some v) f .nil) a s = (.ok (), .cons h (some (v'.withChildren [])) f' .nil, s') ∧
      Domain.getNode eng h.ctx h.xp a s' = (.ok (some b), s') ∧ s'.get b = some m ∧ m.attrs = v'.attrs ∧ m.text = v'.text ∧ m.children = v'.children) := by
  have hget : Domain.getNode eng h.ctx h.xp a s = (.ok none, s) := by
    unfold Domain.getNode
    rw [bind_ok (findNode_path heng hh.1.parse hh.1.path hs), hno]; rfl
  constructor
  · intro he
    simp only [updateTrees, hget, hup, attachFull, he, Bool.true_eq_false, and_false, if_false, ne_eq, not_true_eq_false, false_and]
  · intro he
    obtain ⟨s', b, m, h1, h2, h3, h4, h5, h6, -⟩ := C22_read_back eng heng h.ctx h.xp h.e h.p hh.1 (allChild_childSteps hh.2.2) v' hv hsat a s n hs
    refine ⟨s', b, m, ?_, ?_, h3, h4, h5, h6⟩
    · unfold writeElem at h1
      simp only [updateTrees, hget, hup, attachFull, he, and_self, if_true, h1]
    · unfold Domain.getNode
      rw [bind_ok h2]; rfl

/-- C85.  As `C85_refilled`, but the NodeField reads an element (which somebody else has put there): data that leave nothing remove what the NodeField reads, other data do not get
into the document. -/
theorem C85_replaced (heng : EngineOk eng) (h : Hop) (hh : HopOk h) (f f' : FTree A) (v v' : Node) (a : Node.Addr) (s n : Node) (hs : s.get a = some n)
    (hsi : Single h.p n) (hm : Step.matches h.p n ≠ []) (hup : updateTree eng f [] v = (.ok (), f', v')) :
    (isEmpty v' = false → updateTrees eng (.cons h (some v) f .nil) a s = (.ok (), .cons h (some v') f' .nil, s)) ∧
    (isEmpty v' = true → updateTrees eng (.cons h (some v) f .nil) a s = (.ok (), .cons h (some v') f' .nil, s.modify a (delete h.p)) ∧
      Domain.getNode eng h.ctx h.xp a (s.modify a (delete h.p)) = (.ok none, s.modify a (delete h.p))) := by
  obtain ⟨b, hget⟩ : ∃ b, Domain.getNode eng h.ctx h.xp a s = (.ok (some b), s) := by
    unfold Domain.getNode
    rw [bind_ok (findNode_path heng hh.1.parse hh.1.path hs)]
    cases hx : Step.matches h.p n with
    | nil => exact absurd hx hm
    | cons y l =>
      obtain ⟨b, rfl⟩ := matches_allChild hh.2.2 (show y ∈ Step.matches h.p n by rw [hx]; exact List.mem_cons_self)
      exact ⟨a ++ b, rfl⟩
  constructor
  · intro he
    simp only [updateTrees, hget, hup, attachFull, he, Bool.false_eq_true, and_false, if_false, reduceCtorEq, false_and]
  · intro he
    obtain ⟨n', h1, -, h3, h4, h5⟩ := hop_remove heng hh hs (uniq_of_single hh.good hsi)
    have hmod : s.modify a (fun _ => n') = s.modify a (delete h.p) := Node.modify_congr hs h5
    rw [hmod] at h1
    refine ⟨?_, hop_none heng hh (n := n') ?_ h3 h4⟩
    · simp only [updateTrees, hget, hup, attachFull, he, ne_eq, reduceCtorEq, not_false_eq_true, and_self, if_true, false_and, if_false, h1]
    · rw [← hmod]; exact get_modify_here hs

end

/-! ### an example -/

/-- A class with one StringField, for a child element of the same name. -/
def oneModel (x : Str) : FormModel Plain2 where
  ι := Unit
  name := fun _ => x
  look := fun y => if y = x then some () else none
  look_iff := by 
    intro i y
    by_cases h : y = x
    · subst h; simp
    · simp [h, Ne.symm h]
  fs := fun _ => strField x (ast x) [.child ⟨none, x⟩ []]
  show_ := fun _ (v : Option Str) => match v with | none => .null | some s => .str s
  take := fun _ c => match c with | .null => some (none : Option Str) | .str s => some (some s : Option Str) | _ => none
  take_show := by
    intro i c v h
    cases c with
    | null => cases h; rfl
    | str _ => cases h; rfl
    | other _ => cases h

/-- A form for it, with this value submitted. -/
def oneForm (x v : Str) : Own Plain2 :=
  { m := oneModel x, ctx := sampleCtx, fields := none, exclude := none, modelNames := [x], valid := true, schemaValid := fun _ => true, cleaned := some [(x, .str v)] }

/-- A NodeField for a child element. -/
def oneHop (x : Str) : Hop := ⟨x, ast x, [.child ⟨none, x⟩ []], sampleCtx⟩

/-- ```
class Role(XmlObject): roleTerm        class Name(XmlObject): family, role (NodeField)        class Origin(XmlObject): place
class Page(XmlObject): title, note, pages, done, name (NodeField), origin (NodeField)
```
The form for a page, without the field `done`, with the subforms for the NodeFields: title "T", no note, 12 pages, family "Doe"; nothing for the role and for the origin. -/
def pageForm : FTree Plain2 := .mk
  { m := pageModel, ctx := sampleCtx, fields := none, exclude := some [c%"done"], modelNames := [c%"title", c%"note", c%"pages", c%"done"], valid := true, schemaValid := fun _ => true, cleaned := some [(c%"title", .str c%"T"), (c%"note", .str []), (c%"pages", .other (.int 12))] }
  (.cons (oneHop c%"name") none (.mk (oneForm c%"family" c%"Doe") (.cons (oneHop c%"role") none (.mk (oneForm c%"roleTerm" []) .nil) .nil))
    (.cons (oneHop c%"origin") none (.mk (oneForm c%"place" []) .nil) .nil))

theorem oneForm_ok (x v : Str) (hp : (strField x (ast x) [.child ⟨none, x⟩ []]).Ok sampleCtx) (hd : '.' ∉ x) (hv : xmlOk v = true) : OwnOk (oneForm x v) where
  field := fun _ => hp
  part := fun i j h => absurd rfl h
  names := by intro y hy; rw [List.mem_singleton.mp hy]; exact hd
  data := by
    refine ⟨_, rfl, fun y w hw => ?_⟩
    have := Dict.mem_of_get? hw
    simp only [List.mem_singleton, Prod.mk.injEq] at this
    obtain ⟨rfl, rfl⟩ := this
    cases v with
    | nil => exact ⟨(), rfl, (none : Option Str), rfl, C69_keeps_string _ _ _ _ (fun v hv => by cases hv)⟩
    | cons c v => exact ⟨(), rfl, (some (c :: v) : Option Str), rfl, C69_keeps_string _ _ _ _ (fun u hu => by cases hu; exact hv)⟩

theorem pageForm_ok : FTree.Ok pageForm := by
  have hop : ∀ x, SimpleField sampleCtx x (ast x) [.child ⟨none, x⟩ []] → HopOk (oneHop x) := fun x h => ⟨h, rfl, rfl⟩
  refine ⟨⟨pageModel_ok, pageModel_part, by decide, _, rfl, ?_⟩, hop _ ⟨by decide, by rfl, by decide, by decide⟩, ?_, ?_, fun _ => by rfl,
    ⟨oneForm_ok _ _ ⟨⟨by decide, by rfl, by decide, by decide⟩, by decide, by intro h; cases h⟩ (by decide) (by decide),
      hop _ ⟨by decide, by rfl, by decide, by decide⟩, ?_, (by rintro q ⟨⟩), fun _ => by rfl,
      ⟨oneForm_ok _ _ ⟨⟨by decide, by rfl, by decide, by decide⟩, by decide, by intro h; cases h⟩ (by decide) (by decide), trivial⟩, trivial⟩,
    hop _ ⟨by decide, by rfl, by decide, by decide⟩, ?_, (by rintro q ⟨⟩), fun _ => by rfl,
    ⟨oneForm_ok _ _ ⟨⟨by decide, by rfl, by decide, by decide⟩, by decide, by intro h; cases h⟩ (by decide) (by decide), trivial⟩, trivial⟩
  · intro x v hv
    have := Dict.mem_of_get? hv
    simp only [List.mem_cons, Prod.mk.injEq, List.not_mem_nil, or_false] at this
    rcases this with ⟨rfl, rfl⟩ | ⟨rfl, rfl⟩ | ⟨rfl, rfl⟩
    · exact ⟨(0 : Fin 4), rfl, _, rfl, C69_keeps_string _ _ _ _ (fun v hv => by cases hv; decide)⟩
    · exact ⟨(1 : Fin 4), rfl, _, rfl, C69_keeps_string _ _ _ _ (fun v hv => by cases hv)⟩
    · exact ⟨(2 : Fin 4), rfl, _, rfl, C69_keeps_integer xpathNumber xpathNumber_ok _ _ _ _ (fun n hn => .inl (by decide))⟩
  · rintro q ⟨i, rfl⟩
    match (show Fin 4 from i) with
    | 0 | 1 | 2 => exact .inl (C69_apart_names (by decide) _ _)
    | 3 => trivial
  · rintro q (rfl | h)
    on_goal 2 => exact h.elim
    exact .inl (C69_apart_names (by decide) _ _)
  · rintro q ⟨i, rfl⟩
    exact .inl (C69_apart_names (by decide) _ _)
  · rintro q ⟨i, rfl⟩
    match (show Fin 4 from i) with
    | 0 | 1 | 2 => exact .inl (C69_apart_names (by decide) _ _)
    | 3 => trivial

/-- A page with a title, a flag and another element. -/
def pageDoc : Node := .mk (.elem ⟨none, c%"page"⟩) [(⟨none, c%"done"⟩, c%"yes")] none
  [.mk (.elem ⟨none, c%"title"⟩) [] (some c%"old") [] none, .mk (.elem ⟨none, c%"keep"⟩) [] (some c%"this") [] none] none

theorem pageForm_fits : FTree.Fits pageForm pageDoc := by
  have hsi : ∀ x : Str, (Step.matches [.child ⟨none, x⟩ []] pageDoc).length ≤ 1 → Single [.child ⟨none, x⟩ []] pageDoc := by
    intro x h k
    match k with
    | 0 => exact Nat.le_refl 1
    | k + 1 => simpa using h
  refine ⟨C69_tidy_check _ _ (fun i => match (show Fin 4 from i) with | 0 => by decide | 1 => by decide | 2 => by decide | 3 => by decide), hsi _ (by decide), ?_, hsi _ (by decide), ?_, trivial⟩
  · intro m h; have h : (none : Option Node) = some m := h; cases h
  · intro m h; have h : (none : Option Node) = some m := h; cases h

/-- The form is valid, and the page gets the title, the number of pages and the name, whose family is "Doe"; the role and the origin are not there, the flag and the other element
as before. -/
example : ∃ s0 t' n', initTree refEngine pageForm [] pageDoc = (.ok (), s0) ∧ validTree refEngine pageForm [] s0 = (.ok true, t', n') ∧
    (fieldVal (pageModel.fs (0 : Fin 4)) n') = .ok (some c%"T" : Option Str) ∧ (fieldVal (pageModel.fs (3 : Fin 4)) n') = fieldVal (pageModel.fs (3 : Fin 4)) pageDoc ∧
    fieldVal (strField c%"keep" (ast c%"keep") [.child ⟨none, c%"keep"⟩ []]) n' = .ok (some c%"this" : Option Str) ∧
    (∃ m, subElem (oneHop c%"name").p n' = some m ∧ fieldVal ((oneModel c%"family").fs ()) m = .ok (some c%"Doe" : Option Str) ∧ subElem (oneHop c%"role").p m = none) ∧
    subElem (oneHop c%"origin").p n' = none := by
  obtain ⟨s0, r, t', n', h1, h2, h3, h4⟩ := C85_valid refEngine_ok pageForm pageForm_ok ⟨rfl, ⟨rfl, trivial, trivial⟩, rfl, trivial, trivial⟩ [] pageDoc pageDoc rfl pageForm_fits
  have hr : r = true := h4 ⟨rfl, ⟨rfl, ⟨rfl, trivial⟩, trivial⟩, ⟨rfl, trivial⟩, trivial⟩ ⟨fun _ => rfl, ⟨fun _ => rfl, ⟨fun _ => rfl, trivial⟩, trivial⟩, ⟨fun _ => rfl, trivial⟩, trivial⟩
  subst hr
  obtain ⟨-, -, ⟨s1, s2, s3, ⟨m', ⟨t1, t2, t3, ⟨⟨m'', u1, u2⟩, u3, -⟩⟩, v2⟩, -, -, w, -⟩, -⟩ := h3 rfl
  have hsub : ∀ x v, Submits (oneForm x v) () (.str v) := fun x v => ⟨⟨show x ∈ [x] by simp, fun l hl => by cases hl⟩, _, rfl, by simp [oneForm, oneModel, Dict.get?]⟩
  have hnull : ∀ x, FTree.Null (.mk (oneForm x []) .nil) := by
    intro x
    refine ⟨fun i v w hv hw => ?_, trivial⟩
    obtain ⟨-, c, hc, hv⟩ := hv
    cases hc
    have := Dict.mem_of_get? hv
    simp only [List.mem_singleton, Prod.mk.injEq] at this
    obtain ⟨-, rfl⟩ := this
    cases hw
    rfl
  refine ⟨s0, t', n', h1, h2, ?_, ?_, ?_, ?_, ?_⟩
  · have := s1 (0 : Fin 4) (.str c%"T") ⟨⟨show _ ∈ _ from by decide, fun l hl => by cases hl; decide⟩, _, rfl, rfl⟩
    revert this
    generalize fieldVal (pageModel.fs (0 : Fin 4)) n' = y
    intro this
    match (show Except PyErr (Option Str) from y), this with
    | .ok (some _), h => cases h; rfl
  · refine s2 (3 : Fin 4) ?_
    rintro v ⟨-, c, hc, hv⟩
    cases hc
    cases hv
  · refine (s3 _ sampleCtx ⟨⟨by decide, by rfl, by decide, by decide⟩, by decide, by intro h; cases h⟩ ?_ ?_ ?_).trans rfl
    · intro k
      match k with
      | 0 => exact Nat.le_refl 1
      | k + 1 => show (Step.matches (_ :: List.take k []) pageDoc).length ≤ 1; simp only [List.take_nil]; decide
    · intro i
      match (show Fin 4 from i) with
      | 0 | 1 | 2 => exact .inl (C69_apart_names (by decide) _ _)
      | 3 => trivial
    · rintro q (rfl | rfl | h)
      · exact .inl (C69_apart_names (by decide) _ _)
      · exact .inl (C69_apart_names (by decide) _ _)
      · exact h.elim
  · have hval := t1 () _ (hsub _ _)
    have hm : fieldVal ((oneModel c%"family").fs ()) m' = .ok (some c%"Doe" : Option Str) := by
      revert hval
      show (fieldVal ((oneModel c%"family").fs ()) m').map _ = _ → _
      generalize fieldVal ((oneModel c%"family").fs ()) m' = y
      intro this
      match (show Except PyErr (Option Str) from y), this with
      | .ok (some _), h => cases h; rfl
    refine ⟨m', ?_, hm, u3 rfl ⟨_, rfl⟩ trivial (hnull _)⟩
    rw [v2, if_neg]
    intro he
    simp only [isEmpty, Bool.and_eq_true, beq_iff_eq, List.length_eq_zero_iff] at he
    cases m' with
    | mk t at_ tx ch tl =>
      obtain rfl : ch = [] := he.1.1.1
      have hm : (Except.ok none : Except PyErr (Option Str)) = .ok (some c%"Doe") := hm
      cases hm
  · exact w rfl ⟨_, rfl⟩ trivial (hnull _)

/-- `C85_refilled`: a name that was removed because the form left it empty comes back when the form is sent with a name, -/
example : ∃ s' b m, updateTrees refEngine (.cons (oneHop c%"name") (some (Node.empty ⟨none, c%"name"⟩)) (.mk (oneForm c%"family" c%"Doe") .nil) .nil) [] pageDoc =
      (.ok (), .cons (oneHop c%"name") (some (Node.empty ⟨none, c%"name"⟩)) (.mk (oneForm c%"family" c%"Doe") .nil) .nil, s') ∧
    Domain.getNode refEngine sampleCtx c%"name" [] s' = (.ok (some b), s') ∧ s'.get b = some m ∧ m.children = [Node.mk (.elem ⟨none, c%"family"⟩) [] (some c%"Doe") [] none] := by
  obtain ⟨s', b, m, h1, h2, h3, -, -, h6⟩ := (C85_refilled refEngine_ok (oneHop c%"name") ⟨⟨by decide, by rfl, by decide, by decide⟩, by decide, by decide⟩
    (.mk (oneForm c%"family" c%"Doe") .nil) (.mk (oneForm c%"family" c%"Doe") .nil) (Node.empty ⟨none, c%"name"⟩)
    ((Node.empty ⟨none, c%"name"⟩).withChildren [Node.mk (.elem ⟨none, c%"family"⟩) [] (some c%"Doe") [] none]) [] pageDoc pageDoc rfl (by decide) rfl (by decide)
    (fun q ps h => by cases h; rfl)).2 (by decide)
  exact ⟨s', b, m, h1, h2, h3, h6⟩

/-- and `C85_replaced`: if somebody has put a name into the document in the meantime, the name sent does not get into the document. -/
example : updateTrees refEngine (.cons (oneHop c%"keep") (some (Node.empty ⟨none, c%"keep"⟩)) (.mk (oneForm c%"family" c%"Doe") .nil) .nil) [] pageDoc =
      (.ok (), .cons (oneHop c%"keep") (some ((Node.empty ⟨none, c%"keep"⟩).withChildren [Node.mk (.elem ⟨none, c%"family"⟩) [] (some c%"Doe") [] none])) (.mk (oneForm c%"family" c%"Doe") .nil) .nil, pageDoc) :=
  (C85_replaced refEngine_ok (oneHop c%"keep") ⟨⟨by decide, by rfl, by decide, by decide⟩, by decide, by decide⟩
    (.mk (oneForm c%"family" c%"Doe") .nil) (.mk (oneForm c%"family" c%"Doe") .nil) (Node.empty ⟨none, c%"keep"⟩)
    ((Node.empty ⟨none, c%"keep"⟩).withChildren [Node.mk (.elem ⟨none, c%"family"⟩) [] (some c%"Doe") [] none]) [] pageDoc pageDoc rfl
    (fun k => match k with
      | 0 => Nat.le_refl 1
      | k + 1 => by show (Step.matches (_ :: List.take k []) pageDoc).length ≤ 1; simp only [List.take_nil]; decide) (by decide) rfl).1 (by decide)

end Props
