import Verif.Spec.SetSubmit
import Verif.Props.FormsetForms
import Verif.Props.ListSubmit
/-
Property C102: a formset of a NodeListField on its way through a browser.

Model: Verif/Forms/SetSubmit.lean; specification: Verif/Spec/SetSubmit.lean.
-/
namespace Props
open XPath Xml Spec Fields Forms Core Py

section
variable [PyUnicode] {eng : Engine} {ctx : Ctx} {xp : Str} {e : Expr} {q : QName} {ps : List Pred} {a : Node.Addr} {s n : Node}

theorem memberAt_run (heng : EngineOk eng) (hf : SimpleField ctx xp e [.child q ps]) (hs : s.get a = some n) (i : Nat) :
    memberAt eng ctx xp (.elem a) s i = (members q ps n)[i]? := by
  obtain ⟨ax, t, es, rfl⟩ := res_single hf.path
  unfold memberAt
  rw [listGet_run heng hf.parse hf.path (nodeItem_ok q ps) hs (holds_members rfl)]
  by_cases h : i < (members q ps n).length
  · rw [pyGet_pos, pos_nat h]
    simp [h]
  · have hp : pos (members q ps n).length (i : Int) = none := by
      unfold pos
      rw [if_neg (by omega), if_neg (by omega)]
    rw [pyGet_pos, hp]
    simp [h]

theorem initialValue_run (heng : EngineOk eng) {o : Forms.Own Plain2} (hf : ∀ i, (o.m.fs i).Ok o.ctx) {m : Node} {j : o.m.ι} {c : CVal Plain2}
    (h : (fieldVal (o.m.fs j) m).map (o.m.show_ j) = .ok c) : initialValue eng o [] (o.m.name j) m = (.ok c, m) := by
  unfold initialValue
  rw [look_name]
  cases hv : fieldVal (o.m.fs j) m with
  | error e => rw [hv] at h; cases h
  | ok v =>
    rw [hv] at h
    have hc : o.m.show_ j v = c := Except.ok.inj h
    have hr := readAs_run heng (conv := (o.m.fs j).toPython) (hf j).simple (a := []) (s := m) (n := m) rfl
    rw [show (o.m.fs j).toPython ((Step.matches (o.m.fs j).p m).head?.bind (seen m)) = .ok v from hv] at hr
    simp only
    rw [bind_ok hr, ← hc]
    rfl

/-- The form fields of the form with number `i`, with what they show. -/
def initsAt (w : WSet) (value : Nat → Str → CVal Plain2) (i : Nat) : List (Str × FormField × CVal Plain2) := w.inputs.map (fun p => (p.1, p.2, value i p.1))

theorem formInits_run (heng : EngineOk eng) {w : WSet} (hf : ∀ i, (w.own.m.fs i).Ok w.own.ctx) {ms : List Node} {value : Nat → Str → CVal Plain2} (hv : ShowsSet w ms value) (i : Nat) :
    formInits eng w.own ms[i]? w.inputs = .ok (initsAt w value i) := by
  have key : ∀ l : List (Str × FormField), (∀ p ∈ l, p ∈ w.inputs) → formInits eng w.own ms[i]? l = .ok (l.map (fun p => (p.1, p.2, value i p.1))) := by
    intro l
    induction l with
    | nil => intro _; rfl
    | cons p l ih =>
      intro hl
      obtain ⟨x, f⟩ := p
      have ih := ih (fun p hp => hl p (List.mem_cons_of_mem _ hp))
      cases hm : ms[i]? with
      | none =>
        rw [hm] at ih
        have : value i x = .null := hv.2 i (List.getElem?_eq_none_iff.1 hm) x
        simp only [formInits, ih, List.map_cons, this]
      | some m =>
        rw [hm] at ih
        obtain ⟨j, rfl, hj⟩ := hv.1 i m hm x f (hl _ List.mem_cons_self)
        simp only [formInits, ih, List.map_cons, initialValue_run heng hf hj]
  exact key w.inputs (fun _ h => h)

/-! ### the page -/

theorem orderInitial_sends (k i : Nat) : sends orderField (orderInitial k i) = some (if i < k then natStr (i + 1) else []) := by
  unfold orderInitial sends orderField
  by_cases h : i < k
  · rw [if_pos h, if_pos h]
    show some (oneLine (intStr ((i : Int) + 1))) = _
    rw [oneLine_id (intStr_shape _).1]
    rfl
  · rw [if_neg h, if_neg h]
    rfl

theorem formPage_eq (w : WSet) (pfx : Str) (k i : Nat) (value : Nat → Str → CVal Plain2) : formPage w pfx k i (initsAt w value i) = formRow w pfx k value i := by
  unfold formPage formRow initsAt
  rw [orderInitial_sends, List.map_map]
  rfl

/-- C102.  The formset is made for the list: its page has the counts, and for each member, and for the additional forms, an input for each form field, with what the field reads. -/
theorem C102_shown (heng : EngineOk eng) (hf : SimpleField ctx xp e [.child q ps]) (hs : s.get a = some n) (w : WSet) (new : Node) (hfit : SetFit w q ps (members q ps n) new)
    (value : Nat → Str → CVal Plain2) (hv : ShowsSet w (members q ps n) value) (pfx : Str) :
    showSet eng w ctx pfx xp (.elem a) s = .ok (setPage w pfx (members q ps n).length value) := by
  have hlen : (listLen eng ctx nodeItem xp (.elem a) s).1 = .ok (members q ps n).length := by
    obtain ⟨ax, t, es, rfl⟩ := res_single hf.path
    rw [listLen_run heng hf.parse hf.path (nodeItem_ok q ps) hs (holds_members rfl)]
  have key : ∀ is : List Nat, formPages eng w ctx pfx xp (.elem a) s (members q ps n).length is = .ok (is.flatMap (formRow w pfx (members q ps n).length value)) := by
    intro is
    induction is with
    | nil => rfl
    | cons i is ih => simp only [formPages, memberAt_run heng hf hs, formInits_run heng hfit.field hv, ih, formPage_eq, List.flatMap_cons]
  unfold showSet
  simp only [hlen, key]
  rfl

/-! ### the data -/

variable {dj : Django} {w : WSet} {post : Dict Str Str} {pfx : Str} {value : Nat → Str → CVal Plain2}

theorem readForms_run (heng : EngineOk eng) (hf : SimpleField ctx xp e [.child q ps]) (hs : s.get a = some n) (hff : ∀ i, (w.own.m.fs i).Ok w.own.ctx)
    (hv : ShowsSet w (members q ps n) value) (k : Nat) (is : List Nat) :
    readForms eng dj w ctx post pfx xp (.elem a) s k is = .ok (is.map (fun i => readForm dj w post pfx k i (initsAt w value i))) := by
  induction is with
  | nil => rfl
  | cons i is ih => simp only [readForms, memberAt_run heng hf hs, formInits_run heng hff hv, ih, List.map_cons]

omit [PyUnicode] in
theorem same_iff {f : FormField} {v : CVal Plain2} {raw : Option Str} : SendsSame dj f v raw ↔ changedInput dj f v raw = false := by
  obtain ⟨k, ch, req⟩ := f
  cases k with
  | char => cases v <;> simp [SendsSame, changedInput, toPython, orEmpty] <;> exact eq_comm
  | integer =>
    by_cases h0 : raw.getD [] = []
    · rcases v with _ | s | a
      · simp [SendsSame, changedInput, toPython, orEmpty, h0]
      · simp [SendsSame, changedInput, toPython, orEmpty, h0]
      · cases a <;> simp [SendsSame, changedInput, toPython, orEmpty, h0]
    · cases hi : dj.int (raw.getD []) with
      | none =>
        rcases v with _ | s | a
        · simp [SendsSame, changedInput, toPython, orEmpty, h0, hi]
        · simp [SendsSame, changedInput, toPython, orEmpty, h0, hi]
        · cases a <;> simp [SendsSame, changedInput, toPython, orEmpty, h0, hi]
      | some z =>
        rcases v with _ | s | a
        · simp [SendsSame, changedInput, toPython, orEmpty, h0, hi]
        · simp [SendsSame, changedInput, toPython, orEmpty, h0, hi]
        · cases a <;> simp [SendsSame, changedInput, toPython, orEmpty, h0, hi] <;> exact eq_comm
  | date =>
    by_cases h0 : raw.getD [] = []
    · rcases v with _ | s | a
      · simp [SendsSame, changedInput, toPython, orEmpty, h0]
      · simp [SendsSame, changedInput, toPython, orEmpty, h0]
      · cases a <;> simp [SendsSame, changedInput, toPython, orEmpty, h0]
    · cases hi : dj.date (raw.getD []) with
      | none =>
        rcases v with _ | s | a
        · simp [SendsSame, changedInput, toPython, orEmpty, h0, hi]
        · simp [SendsSame, changedInput, toPython, orEmpty, h0, hi]
        · cases a <;> simp [SendsSame, changedInput, toPython, orEmpty, h0, hi]
      | some z =>
        rcases v with _ | s | a
        · simp [SendsSame, changedInput, toPython, orEmpty, h0, hi]
        · simp [SendsSame, changedInput, toPython, orEmpty, h0, hi]
        · cases a <;> simp [SendsSame, changedInput, toPython, orEmpty, h0, hi] <;> exact eq_comm
  | boolean => cases v <;> simp [SendsSame, changedInput]
  | choice => cases v <;> simp [SendsSame, changedInput, toPython, orEmpty] <;> exact eq_comm

omit [PyUnicode] in
theorem changed_iff {f : FormField} {v : CVal Plain2} {raw : Option Str} : changedInput dj f v raw = true ↔ ¬ SendsSame dj f v raw := by
  rw [same_iff]; simp

omit [PyUnicode] in
theorem order_changed_iff {k i : Nat} : changedInput dj orderField (orderInitial k i) (post.get? (formName pfx i c%"ORDER")) = true ↔
    (i < k → ¬ OrderIs dj post pfx i (i + 1)) ∧ (k ≤ i → ¬ OrderEmpty post pfx i) := by
  rw [changed_iff]
  unfold orderInitial OrderIs OrderEmpty sentFor
  by_cases h : i < k
  · rw [if_pos h]
    have h2 : ¬ k ≤ i := by omega
    simp only [h, h2, true_implies, false_implies, and_true]
    exact Iff.rfl
  · rw [if_neg h]
    have h2 : k ≤ i := by omega
    simp only [h, h2, true_implies, false_implies, true_and]
    exact Iff.rfl

omit [PyUnicode] in
theorem order_clean {i : Nat} {k : Int} : cleans dj orderField (post.get? (formName pfx i c%"ORDER")) = some (.other (.int k)) ↔ OrderIs dj post pfx i k := by
  unfold OrderIs sentFor
  by_cases h0 : (post.get? (formName pfx i c%"ORDER")).getD [] = []
  · simp [cleans, orderField, h0]
  · cases hi : dj.int ((post.get? (formName pfx i c%"ORDER")).getD []) <;> simp [cleans, orderField, h0, hi]

omit [PyUnicode] in
theorem order_valid {i : Nat} : (cleans dj orderField (post.get? (formName pfx i c%"ORDER"))).isSome = true ↔ OrderEmpty post pfx i ∨ ∃ k, OrderIs dj post pfx i k := by
  unfold OrderIs OrderEmpty sentFor
  by_cases h0 : (post.get? (formName pfx i c%"ORDER")).getD [] = []
  · simp [cleans, orderField, h0]
  · cases hi : dj.int ((post.get? (formName pfx i c%"ORDER")).getD []) <;> simp [cleans, orderField, h0, hi]

omit [PyUnicode] in
theorem formChanged_iff {k i : Nat} : formChanged dj w post pfx k i (initsAt w value i) = true ↔ ChangedForm dj w post pfx k value i := by
  unfold formChanged ChangedForm initsAt
  simp only [Bool.or_eq_true, Bool.and_eq_true, List.any_map, List.any_eq_true, Function.comp, or_assoc]
  refine or_congr ?_ (or_congr ?_ ?_)
  · constructor
    · rintro ⟨⟨x, f⟩, h1, h2⟩; exact ⟨x, f, h1, changed_iff.1 h2⟩
    · rintro ⟨x, f, h1, h2⟩; exact ⟨(x, f), h1, changed_iff.2 h2⟩
  · exact and_congr Iff.rfl order_changed_iff
  · refine and_congr Iff.rfl ?_
    show (false != boxValue _) = true ↔ _
    simp [sentFor]

omit [PyUnicode] in
theorem blank_iff {k i : Nat} : (decide (k ≤ i) && !formChanged dj w post pfx k i (initsAt w value i)) = true ↔ BlankForm dj w post pfx k value i := by
  unfold BlankForm
  rw [← formChanged_iff]
  simp

omit [PyUnicode] in
theorem readForm_blank {k i : Nat} (h : BlankForm dj w post pfx k value i) : readForm dj w post pfx k i (initsAt w value i) = ⟨⟨false, false, none⟩, [], true⟩ := by
  unfold readForm
  rw [if_pos (blank_iff.2 h)]

omit [PyUnicode] in
theorem readForm_filled {k i : Nat} (h : ¬ BlankForm dj w post pfx k value i) : readForm dj w post pfx k i (initsAt w value i) =
    ⟨⟨formChanged dj w post pfx k i (initsAt w value i), w.canDelete && boxValue (post.get? (formName pfx i c%"DELETE")),
      if w.canOrder then sentOrder dj (post.get? (formName pfx i c%"ORDER")) else none⟩,
    cleanOwn dj (some (indexPrefix pfx i)) post w.inputs,
    validOwn dj (some (indexPrefix pfx i)) post w.inputs && (!w.canOrder || (cleans dj orderField (post.get? (formName pfx i c%"ORDER"))).isSome)⟩ := by
  unfold readForm
  rw [if_neg (fun h' => h (blank_iff.1 h'))]

omit [PyUnicode] in
theorem sentOrder_iff {raw : Option Str} {k : Int} : sentOrder dj raw = some k ↔ cleans dj orderField raw = some (.other (.int k)) := by
  unfold sentOrder
  split
  · rename_i k' h; rw [h]; simp
  · rename_i h
    constructor
    · intro h'; cases h'
    · intro h'; exact absurd h' (h k)

omit [PyUnicode] in
theorem not_blank_of_deleted {k i : Nat} (h : DeletedForm w post pfx i) : ¬ BlankForm dj w post pfx k value i := fun hb => hb.2 (.inr (.inr h))

omit [PyUnicode] in
/-- What is read of a form is what the specification says. -/
theorem readForm_sub (k i : Nat) : ((readForm dj w post pfx k i (initsAt w value i)).sub.changed = true ↔ ChangedForm dj w post pfx k value i) ∧
    ((readForm dj w post pfx k i (initsAt w value i)).sub.deleted = true ↔ DeletedForm w post pfx i) ∧
    (∀ z, (readForm dj w post pfx k i (initsAt w value i)).sub.order = some z ↔
      w.canOrder = true ∧ ¬ BlankForm dj w post pfx k value i ∧ OrderIs dj post pfx i z) := by
  by_cases hb : BlankForm dj w post pfx k value i
  · rw [readForm_blank hb]
    refine ⟨⟨fun h => (by cases h), fun h => absurd h hb.2⟩, ⟨fun h => (by cases h), fun h => absurd hb (not_blank_of_deleted h)⟩, fun z => ⟨fun h => (by cases h), fun h => absurd hb h.2.1⟩⟩
  · rw [readForm_filled hb]
    refine ⟨formChanged_iff, ?_, fun z => ?_⟩
    · unfold DeletedForm sentFor
      simp
    · simp only
      cases hc : w.canOrder with
      | false => simp
      | true =>
        rw [if_pos rfl, sentOrder_iff, order_clean]
        simp [hb]

omit [PyUnicode] in
theorem submitted_eq {k t : Nat} {subs : List Submitted} (h : SubmittedAs dj w post pfx k value t subs) :
    subs = (List.range t).map (fun i => (readForm dj w post pfx k i (initsAt w value i)).sub) := by
  apply List.ext_getElem?
  intro i
  by_cases hi : i < t
  · have hl : i < subs.length := by rw [h.1]; exact hi
    have hd := List.getElem?_eq_getElem hl
    rw [hd, List.getElem?_map, List.getElem?_range hi, Option.map_some]
    obtain ⟨h1, h2, h3⟩ := h.2 i _ hd
    obtain ⟨r1, r2, r3⟩ := readForm_sub (dj := dj) (w := w) (post := post) (pfx := pfx) (value := value) k i
    generalize (readForm dj w post pfx k i (initsAt w value i)).sub = d at *
    generalize subs[i] = d' at *
    obtain ⟨c, l, o⟩ := d
    obtain ⟨c', l', o'⟩ := d'
    simp only at h1 h2 h3 r1 r2 r3
    have e1 : c' = c := Bool.eq_iff_iff.2 (h1.trans r1.symm)
    have e2 : l' = l := Bool.eq_iff_iff.2 (h2.trans r2.symm)
    have e3 : o' = o := Option.ext (fun z => (h3 z).trans (r3 z).symm)
    subst e1; subst e2; subst e3
    rfl
  · rw [List.getElem?_eq_none (by rw [h.1]; omega), List.getElem?_eq_none (by simp; omega)]

/-- There is always such a list. -/
theorem submitted_exists (dj : Django) (w : WSet) (post : Dict Str Str) (pfx : Str) (k : Nat) (value : Nat → Str → CVal Plain2) (t : Nat) : ∃ subs, SubmittedAs dj w post pfx k value t subs := by
  refine ⟨(List.range t).map (fun i => (readForm dj w post pfx k i (initsAt w value i)).sub), by simp, ?_⟩
  intro i d hd
  by_cases hi : i < t
  · rw [List.getElem?_map, List.getElem?_range hi] at hd
    cases hd
    exact readForm_sub k i
  · rw [List.getElem?_eq_none (by simp; omega)] at hd
    cases hd

/-- The data of the forms. -/
def dataOf (dj : Django) (w : WSet) (post : Dict Str Str) (pfx : Str) (k : Nat) (value : Nat → Str → CVal Plain2) (t : Nat) : List (Dict Str (CVal Plain2)) :=
  (List.range t).map (fun i => (readForm dj w post pfx k i (initsAt w value i)).data)

omit [PyUnicode] in
theorem dataOf_get {k t i : Nat} (hi : i < t) : (dataOf dj w post pfx k value t)[i]? = some (readForm dj w post pfx k i (initsAt w value i)).data := by
  unfold dataOf
  rw [List.getElem?_map, List.getElem?_range hi, Option.map_some]

theorem forms_fit {ms : List Node} {new : Node} (hfit : SetFit w q ps ms new) {k t : Nat} (hk : SentKept dj w post pfx k value t) :
    FormsFit w.own (dataOf dj w post pfx k value t) q ps ms new where
  form := by
    intro d hd
    obtain ⟨i, hi, rfl⟩ := List.mem_map.1 hd
    have hi := List.mem_range.1 hi
    refine ⟨hfit.field, hfit.part, hfit.names, _, rfl, fun x v hx => ?_⟩
    by_cases hb : BlankForm dj w post pfx k value i
    · rw [readForm_blank hb] at hx; cases hx
    · rw [readForm_filled hb] at hx
      obtain ⟨f, h1, h2⟩ := cleanOwn_mem hx
      obtain ⟨j, hj⟩ := (hfit.inputs x f h1).1
      exact ⟨j, hj, hk i hi hb x f j v h1 hj h2⟩
  preds := hfit.preds
  under := hfit.under
  tidy := hfit.tidy
  tidyNew := hfit.tidyNew
  member := hfit.member

/-- The element of the form with number `i` as the form saves it. -/
def savedAt (eng : Engine) (dj : Django) (w : WSet) (post : Dict Str Str) (pfx : Str) (k : Nat) (value : Nat → Str → CVal Plain2) (t : Nat) (ms : List Node) (new : Node) (i : Nat) : Node :=
  formUpd eng w.own (dataOf dj w post pfx k value t) i (formElem ms new i)

theorem saved_blank {ms : List Node} {new : Node} (heng : EngineOk eng) (hf : SimpleField ctx xp e [.child q ps]) (hfit : SetFit w q ps (members q ps n) new) (hms : ms = members q ps n)
    {k t : Nat} (hk : SentKept dj w post pfx k value t) {i : Nat} (hb : BlankForm dj w post pfx k value i) : savedAt eng dj w post pfx k value t ms new i = formElem ms new i := by
  subst hms
  unfold savedAt
  by_cases hi : i < t
  · have hd := dataOf_get (dj := dj) (w := w) (post := post) (pfx := pfx) (value := value) (k := k) hi
    rw [readForm_blank hb] at hd
    obtain ⟨k1, k2⟩ := (forms_fit hfit hk).elem i
    have ho : OwnOk { w.own with cleaned := some [] } := (forms_fit hfit hk).form _ (List.mem_of_getElem? hd)
    have hfitn : FTree.Fit (formOf w.own []) (formElem (members q ps n) new i) := FTree.Fits.fit (t := formOf w.own []) ⟨ho, trivial⟩ ⟨k1, trivial⟩
    obtain ⟨c', m', r1, -, -, -, -, r6⟩ := own_run heng ho (o := { w.own with cleaned := some [] }) rfl (a := []) (s := formElem (members q ps n) new i) (n := formElem (members q ps n) new i) rfl hfitn.1
    have hm : m' = formElem (members q ps n) new i := r6 (by
      rintro j v ⟨-, c, hc, hx⟩
      cases hc
      cases hx)
    subst hm
    unfold formUpd
    rw [hd]
    unfold formOf
    simp only
    rw [updateTree]
    simp only [r1]
    rw [updateTrees]
    rfl
  · unfold formUpd
    rw [List.getElem?_eq_none (by unfold dataOf; simp; omega)]

/-- What it means that a form with these data has been saved. -/
theorem formAfter_of {ms : List Node} {new : Node} (hfit : SetFit w q ps ms new) {i : Nat} {m m' : Node}
    (hs : FTree.Saved (formOf w.own (cleanOwn dj (some (indexPrefix pfx i)) post w.inputs)) m m') : FormAfter dj w post pfx i m m' := by
  unfold formOf at hs
  rw [FTree.Saved] at hs
  refine ⟨?_, ?_, fun g ctx h1 h2 h3 => hs.2.2.1 g ctx h1 h2 h3 (fun q hq => hq.elim)⟩
  · rintro x f j c hx rfl hc
    exact hs.1 j c ⟨(hfit.inputs _ f hx).2, _, rfl, (cleanOwn_get hfit.distinct hx).trans hc⟩
  · intro j hj
    refine hs.2.1 j ?_
    rintro v ⟨-, c, hc, hx⟩
    cases hc
    obtain ⟨f, h1, h2⟩ := cleanOwn_mem hx
    rw [show cleans dj f (post.get? (addPrefix (some (indexPrefix pfx i)) (w.own.m.name j))) = none from hj f h1] at h2
    cases h2

theorem saved_filled (heng : EngineOk eng) (hf : SimpleField ctx xp e [.child q ps]) {new : Node} (hfit : SetFit w q ps (members q ps n) new)
    {k t : Nat} (hk : SentKept dj w post pfx k value t) {i : Nat} (hi : i < t) (hb : ¬ BlankForm dj w post pfx k value i) :
    FormAfter dj w post pfx i (formElem (members q ps n) new i) (savedAt eng dj w post pfx k value t (members q ps n) new i) := by
  have hd := dataOf_get (dj := dj) (w := w) (post := post) (pfx := pfx) (value := value) (k := k) hi
  rw [readForm_filled hb] at hd
  obtain ⟨-, -, hs⟩ := formUpd_saved heng hf (forms_fit hfit hk) i _ hd
  exact formAfter_of hfit hs

omit [PyUnicode] in
theorem formValid_iff {k i : Nat} : (readForm dj w post pfx k i (initsAt w value i)).valid = true ↔ (¬ BlankForm dj w post pfx k value i → ValidForm dj w post pfx i) := by
  by_cases hb : BlankForm dj w post pfx k value i
  · rw [readForm_blank hb]
    exact ⟨fun _ h => absurd hb h, fun _ => rfl⟩
  · rw [readForm_filled hb]
    simp only [hb, not_false_eq_true, true_implies, Bool.and_eq_true]
    unfold ValidForm validOwn
    rw [List.all_eq_true]
    refine and_congr ?_ ?_
    · constructor
      · intro h x f hx; exact Option.isSome_iff_exists.1 (h _ hx)
      · rintro h ⟨x, f⟩ hx; exact Option.isSome_iff_exists.2 (h x f hx)
    · cases w.canOrder with
      | false => simp
      | true =>
        simp only [Bool.not_true, Bool.false_or, true_implies]
        exact order_valid

theorem setValid_iff {k t : Nat} {ms : List Node} {new : Node} :
    setValid eng w (formElem ms new) ((List.range t).map (fun i => readForm dj w post pfx k i (initsAt w value i))) = true ↔
      SetValid dj w post pfx k value t (savedAt eng dj w post pfx k value t ms new) := by
  unfold setValid SetValid
  rw [List.all_eq_true]
  have hmem : ∀ p : SForm × Nat, p ∈ ((List.range t).map (fun i => readForm dj w post pfx k i (initsAt w value i))).zipIdx ↔
      p.2 < t ∧ p.1 = readForm dj w post pfx k p.2 (initsAt w value p.2) := by
    rintro ⟨f, i⟩
    rw [List.mem_zipIdx_iff_getElem?, List.getElem?_map]
    by_cases hi : i < t
    · rw [List.getElem?_range hi, Option.map_some]
      simp [hi, eq_comm]
    · rw [List.getElem?_eq_none (by simp; omega)]
      simp [hi]
  have hdata : ((List.range t).map (fun i => readForm dj w post pfx k i (initsAt w value i))).map SForm.data = dataOf dj w post pfx k value t := by
    rw [List.map_map]; rfl
  constructor
  · intro h i hi hnd
    have := h (readForm dj w post pfx k i (initsAt w value i), i) ((hmem _).2 ⟨hi, rfl⟩)
    simp only [Bool.or_eq_true, Bool.and_eq_true] at this
    rcases this with h1 | ⟨h1, h2⟩
    · exact absurd ((readForm_sub k i).2.1.1 h1) hnd
    · refine ⟨formValid_iff.1 h1, ?_⟩
      rw [hdata] at h2
      exact h2
  · rintro h ⟨f, i⟩ hp
    obtain ⟨hi, hfe⟩ := (hmem _).1 hp
    simp only at hi hfe
    subst hfe
    simp only [Bool.or_eq_true, Bool.and_eq_true]
    by_cases hd : DeletedForm w post pfx i
    · exact .inl ((readForm_sub k i).2.1.2 hd)
    · obtain ⟨h1, h2⟩ := h i hi hd
      refine .inr ⟨formValid_iff.2 h1, ?_⟩
      rw [hdata]
      exact h2

omit [PyUnicode] in
theorem formCounts_iff {t k : Int} : formCounts dj post pfx = some (t, k) ↔ Counts dj post pfx t ∧ NumberSent dj post (countName pfx c%"INITIAL_FORMS") k := by
  unfold formCounts
  constructor
  · intro h
    split at h
    · rename_i t' k' h1 h2
      cases h
      obtain ⟨z, hz, he⟩ := clean_number.1 h2
      cases he
      exact ⟨formCount_iff.1 h1, hz⟩
    · cases h
  · rintro ⟨h1, h2⟩
    rw [formCount_iff.2 h1, clean_number.2 ⟨k, h2, rfl⟩]

theorem elem_eq (heng : EngineOk eng) (hf : SimpleField ctx xp e [.child q ps]) (hs : s.get a = some n) (new : Node) :
    (fun i => (memberAt eng ctx xp (.elem a) s i).getD new) = formElem (members q ps n) new := by
  funext i
  rw [memberAt_run heng hf hs]
  rfl

/-- What is done with data for `t` forms, `k` of which are initial ones. -/
theorem saveSet_run (heng : EngineOk eng) (hf : SimpleField ctx xp e [.child q ps]) (hs : s.get a = some n) (hff : ∀ i, (w.own.m.fs i).Ok w.own.ctx) (new : Node)
    (hv : ShowsSet w (members q ps n) value) {t k absMax : Nat} (hc : Counts dj post pfx t) (hk : NumberSent dj post (countName pfx c%"INITIAL_FORMS") k) (ht : t ≤ absMax) :
    saveSet eng dj w ctx absMax new post pfx xp e (.elem a) s =
      if setValid eng w (formElem (members q ps n) new) ((List.range t).map (fun i => readForm dj w post pfx k i (initsAt w value i))) then
        (saveFormset eng ctx xp e (.elem a) new (formUpd eng w.own (dataOf dj w post pfx k value t)) w.canDelete w.canOrder k
          ((List.range t).map (fun i => (readForm dj w post pfx k i (initsAt w value i)).sub)) s).map some
      else .ok none := by
  unfold saveSet
  rw [formCounts_iff.2 ⟨hc, hk⟩]
  simp only
  rw [if_neg (show ¬((t : Int) > (absMax : Int) ∨ (k : Int) < 0) by omega), show (k : Int).toNat = k from rfl, show (t : Int).toNat = t from rfl, readForms_run heng hf hs hff hv, elem_eq heng hf hs]
  simp only [List.map_map]
  rfl

/-- C102.  Data for a formset without order: for `t` forms, as many of which are initial ones as the list has members.  Each form is saved on its element, or on a new one: each field with a valid
input reads what has been sent, and nothing else changes; a form for a new member that has been left as it was is not.  If one of the forms that are not to be deleted is not valid, by its inputs or by
the schema, nothing comes of the set.  Otherwise the members of the list are those whose forms are not marked for deletion, in order, and behind them one new element for each changed
additional form; nothing else in the document changes. -/
theorem C102_saved (heng : EngineOk eng) (hf : SimpleField ctx xp e [.child q ps]) (hs : s.get a = some n) (w : WSet) (ho : w.canOrder = false) (new : Node)
    (hfit : SetFit w q ps (members q ps n) new) (value : Nat → Str → CVal Plain2) (hv : ShowsSet w (members q ps n) value) (post : Dict Str Str) (pfx : Str) (t absMax : Nat)
    (hc : Counts dj post pfx t) (hk : NumberSent dj post (countName pfx c%"INITIAL_FORMS") (members q ps n).length) (ht : t ≤ absMax) (hn : (members q ps n).length ≤ t)
    (hkeep : SentKept dj w post pfx (members q ps n).length value t) (subs : List Submitted) (hsub : SubmittedAs dj w post pfx (members q ps n).length value t subs) :
    ∃ saved : Nat → Node,
      (∀ i < t, ¬ BlankForm dj w post pfx (members q ps n).length value i → FormAfter dj w post pfx i (formElem (members q ps n) new i) (saved i)) ∧
      (∀ i < t, BlankForm dj w post pfx (members q ps n).length value i → saved i = formElem (members q ps n) new i) ∧
      (¬ SetValid dj w post pfx (members q ps n).length value t saved → saveSet eng dj w ctx absMax new post pfx xp e (.elem a) s = .ok none) ∧
      (SetValid dj w post pfx (members q ps n).length value t saved → Apart (fun i _ => saved i) w.canDelete (members q ps n) new subs → ∃ n' : Node,
        saveSet eng dj w ctx absMax new post pfx xp e (.elem a) s = .ok (some (s.modify a (fun _ => n'))) ∧
        members q ps n' = keptMembers (fun i _ => saved i) w.canDelete (members q ps n) subs ++ newMembers (fun i _ => saved i) new (members q ps n) subs ∧ SameButMembers q ps n n') := by
  have hff := forms_fit hfit hkeep
  refine ⟨savedAt eng dj w post pfx (members q ps n).length value t (members q ps n) new, fun i hi hb => saved_filled heng hf hfit hkeep hi hb,
    fun i _ hb => saved_blank heng hf hfit rfl hkeep hb, fun hnv => ?_, fun hval ha => ?_⟩
  · rw [saveSet_run heng hf hs hfit.field new hv hc hk ht, if_neg (fun h => hnv (setValid_iff.1 h))]
  · obtain ⟨n', h1, h2, h3⟩ := C88_unordered heng hf hs new _ (formUpd_steady heng hf hff) w.canDelete subs (by rw [hsub.1]; exact hn) (apart_saved ha)
    refine ⟨n', ?_, ?_, h3⟩
    · rw [saveSet_run heng hf hs hfit.field new hv hc hk ht, if_pos (setValid_iff.2 hval), ← submitted_eq hsub, ho, h1]
      rfl
    · rw [h2, kept_saved, new_saved]
      rfl

/-- C102.  The same for a formset with order: the members of the list are then the elements of the forms that count, by increasing order, those without order last, and those with the same order as in the
formset.  All these elements have to be different. -/
theorem C102_ordered (heng : EngineOk eng) (hf : SimpleField ctx xp e [.child q ps]) (hs : s.get a = some n) (w : WSet) (ho : w.canOrder = true) (new : Node)
    (hfit : SetFit w q ps (members q ps n) new) (value : Nat → Str → CVal Plain2) (hv : ShowsSet w (members q ps n) value) (post : Dict Str Str) (pfx : Str) (t absMax : Nat)
    (hc : Counts dj post pfx t) (hk : NumberSent dj post (countName pfx c%"INITIAL_FORMS") (members q ps n).length) (ht : t ≤ absMax) (hn : (members q ps n).length ≤ t)
    (hkeep : SentKept dj w post pfx (members q ps n).length value t) (subs : List Submitted) (hsub : SubmittedAs dj w post pfx (members q ps n).length value t subs) :
    ∃ saved : Nat → Node,
      (∀ i < t, ¬ BlankForm dj w post pfx (members q ps n).length value i → FormAfter dj w post pfx i (formElem (members q ps n) new i) (saved i)) ∧
      (∀ i < t, BlankForm dj w post pfx (members q ps n).length value i → saved i = formElem (members q ps n) new i) ∧
      (¬ SetValid dj w post pfx (members q ps n).length value t saved → saveSet eng dj w ctx absMax new post pfx xp e (.elem a) s = .ok none) ∧
      (SetValid dj w post pfx (members q ps n).length value t saved → Apart (fun i _ => saved i) w.canDelete (members q ps n) new subs →
        (∀ i ∈ counting w.canDelete (members q ps n) subs, ∀ j ∈ counting w.canDelete (members q ps n) subs, j ≠ i → saved j ≠ saved i) → ∃ (n' : Node) (order : List Nat),
        saveSet eng dj w ctx absMax new post pfx xp e (.elem a) s = .ok (some (s.modify a (fun _ => n'))) ∧
        order.Perm (counting w.canDelete (members q ps n) subs) ∧ order.Pairwise (OrderedBy subs) ∧
        (∀ i j d e, [i, j].Sublist (counting w.canDelete (members q ps n) subs) → subs[i]? = some d → subs[j]? = some e → d.order = e.order → [i, j].Sublist order) ∧
        members q ps n' = order.map saved ∧ SameButMembers q ps n n') := by
  have hff := forms_fit hfit hkeep
  refine ⟨savedAt eng dj w post pfx (members q ps n).length value t (members q ps n) new, fun i hi hb => saved_filled heng hf hfit hkeep hi hb,
    fun i _ hb => saved_blank heng hf hfit rfl hkeep hb, fun hnv => ?_, fun hval ha hdist => ?_⟩
  · rw [saveSet_run heng hf hs hfit.field new hv hc hk ht, if_neg (fun h => hnv (setValid_iff.1 h))]
  · obtain ⟨n', order, h1, h2, h3, h4, h5, h6⟩ := C88_ordered heng hf hs new _ (formUpd_steady heng hf hff) w.canDelete subs (by rw [hsub.1]; exact hn) (apart_saved ha) hdist
    refine ⟨n', order, ?_, h2, h3, h4, h5, h6⟩
    rw [saveSet_run heng hf hs hfit.field new hv hc hk ht, if_pos (setValid_iff.2 hval), ← submitted_eq hsub, ho, h1]
    rfl

/-- C102.  Without counts, or with more forms than Django allows, nothing comes of the set. -/
theorem C102_counts (w : WSet) (ctx : Ctx) (absMax : Nat) (new : Node) (post : Dict Str Str) (pfx xp : Str) (e : Expr) (node : Ref) (s : Node)
    (h : ∀ t k : Int, Counts dj post pfx t → NumberSent dj post (countName pfx c%"INITIAL_FORMS") k → t > absMax ∨ k < 0) : saveSet eng dj w ctx absMax new post pfx xp e node s = .ok none := by
  unfold saveSet
  cases hc : formCounts dj post pfx with
  | none => rfl
  | some p =>
    obtain ⟨t, k⟩ := p
    obtain ⟨h1, h2⟩ := formCounts_iff.1 hc
    simp only
    rw [if_pos (h t k h1 h2)]

/-! ### the browser -/

omit [PyUnicode] in
theorem formName_eq (pfx : Str) (i : Nat) (x : Str) : formName pfx i x = pfx ++ '-' :: (natStr i ++ '-' :: x) := by
  have h : indexPrefix pfx i ≠ [] := by unfold indexPrefix; simp
  unfold formName addPrefix
  cases h' : indexPrefix pfx i with
  | nil => exact absurd h' h
  | cons c p =>
    show (c :: p) ++ '-' :: x = _
    rw [← h']; unfold indexPrefix; simp

omit [PyUnicode] in
theorem digits_dash {u v x y : Str} (hu : ∀ c ∈ u, isDigit c = true) (hv : ∀ c ∈ v, isDigit c = true) (h : u ++ '-' :: x = v ++ '-' :: y) : u = v ∧ x = y := by
  induction u generalizing v with
  | nil =>
    cases v with
    | nil => simpa using h
    | cons c v =>
      simp only [List.nil_append, List.cons_append, List.cons.injEq] at h
      have := hv c List.mem_cons_self
      rw [← h.1] at this
      exact absurd this (by decide)
  | cons c u ih =>
    cases v with
    | nil =>
      simp only [List.nil_append, List.cons_append, List.cons.injEq] at h
      have := hu c List.mem_cons_self
      rw [h.1] at this
      exact absurd this (by decide)
    | cons d v =>
      simp only [List.cons_append, List.cons.injEq] at h
      obtain ⟨rfl, rfl⟩ := ih (fun c hc => hu c (List.mem_cons_of_mem _ hc)) (fun c hc => hv c (List.mem_cons_of_mem _ hc)) h.2
      exact ⟨by rw [h.1], rfl⟩

omit [PyUnicode] in
theorem formName_inj {i j : Nat} {x y : Str} (h : formName pfx i x = formName pfx j y) : i = j ∧ x = y := by
  rw [formName_eq, formName_eq] at h
  have h1 := List.append_cancel_left h
  simp only [List.cons.injEq, true_and] at h1
  obtain ⟨h2, h3⟩ := digits_dash (natStr_spec i).2.1 (natStr_spec j).2.1 h1
  exact ⟨natStr_inj h2, h3⟩

omit [PyUnicode] in
theorem formName_count (hp : pfx ≠ []) {x : Str} (hx : x ∈ managementFields) (i : Nat) (y : Str) : countName pfx x ≠ formName pfx i y := by
  rw [countName_eq hp, formName_eq]
  intro h
  have h1 := List.append_cancel_left h
  simp only [List.cons.injEq, true_and] at h1
  obtain ⟨h2, h3, -⟩ := natStr_spec i
  cases hn : natStr i with
  | nil => exact h2 hn
  | cons c l =>
    have hc := h3 c (by rw [hn]; exact List.mem_cons_self)
    rw [hn] at h1
    simp only [managementFields, List.mem_cons, List.not_mem_nil, or_false] at hx
    rcases hx with rfl | rfl | rfl | rfl <;>
    · simp only [List.cons_append, List.cons.injEq] at h1
      rw [← h1.1] at hc
      exact absurd hc (by decide)

/-- The names of the inputs of each form, without prefix. -/
def rowNames (w : WSet) : List Str := w.inputs.map (·.1) ++ (if w.canOrder then [c%"ORDER"] else []) ++ (if w.canDelete then [c%"DELETE"] else [])

omit [PyUnicode] in
theorem formRow_names (k i : Nat) : (formRow w pfx k value i).map (·.1) = (rowNames w).map (formName pfx i) := by
  unfold formRow rowNames
  cases w.canOrder <;> cases w.canDelete <;> simp [List.map_map, Function.comp]

omit [PyUnicode] in
theorem rowNames_nodup (h1 : (w.inputs.map (·.1)).Nodup) (h2 : ∀ x ∈ w.inputs.map (·.1), x ≠ c%"ORDER" ∧ x ≠ c%"DELETE") : (rowNames w).Nodup := by
  unfold rowNames
  have hO : c%"ORDER" ∉ w.inputs.map (·.1) := fun h => (h2 _ h).1 rfl
  have hD : c%"DELETE" ∉ w.inputs.map (·.1) := fun h => (h2 _ h).2 rfl
  generalize w.inputs.map (·.1) = l at *
  cases w.canOrder <;> cases w.canDelete
  · simpa using h1
  · simp only [Bool.false_eq_true, if_false, List.append_nil, if_true]
    exact List.Nodup.append h1 (by simp) (by simpa using hD)
  · simp only [Bool.false_eq_true, if_false, List.append_nil, if_true]
    exact List.Nodup.append h1 (by simp) (by simpa using hO)
  · simp only [if_true, List.append_assoc]
    exact List.Nodup.append h1 (by decide) (by simp [hO, hD])

omit [PyUnicode] in
theorem setPage_names (hp : pfx ≠ []) (h1 : (w.inputs.map (·.1)).Nodup) (h2 : ∀ x ∈ w.inputs.map (·.1), x ≠ c%"ORDER" ∧ x ≠ c%"DELETE") (k : Nat) :
    ((setPage w pfx k value).map (·.1)).Nodup := by
  have e : (setPage w pfx k value).map (·.1) = managementFields.map (countName pfx) ++ (List.range (w.count k)).flatMap (fun i => (rowNames w).map (formName pfx i)) := by
    unfold setPage setCounts managementFields
    rw [List.map_append, List.map_flatMap]
    simp only [formRow_names]
    rfl
  rw [e, List.nodup_append]
  refine ⟨?_, ?_, ?_⟩
  · refine List.Nodup.map (f := countName pfx) (fun x y h => ?_) (by decide)
    rw [countName_eq hp, countName_eq hp] at h
    simpa using List.append_cancel_left h
  · rw [List.nodup_flatMap]
    refine ⟨fun i _ => List.Nodup.map (f := formName pfx i) (fun x y h => (formName_inj h).2) (rowNames_nodup h1 h2), ?_⟩
    refine List.Pairwise.imp_of_mem ?_ (List.nodup_range (n := w.count k))
    intro i j _ _ hij z hz hz'
    obtain ⟨x, -, rfl⟩ := List.mem_map.1 hz
    obtain ⟨y, -, he⟩ := List.mem_map.1 hz'
    exact hij (formName_inj he).1.symm
  · intro x hx y hy he
    obtain ⟨x', hx', rfl⟩ := List.mem_map.1 hx
    obtain ⟨i, -, hy⟩ := List.mem_flatMap.1 hy
    obtain ⟨z, -, rfl⟩ := List.mem_map.1 hy
    exact formName_count hp hx' i z he

omit [PyUnicode] in
/-- The same for a page with more on it. -/
theorem set_sent (hd : DjangoOk dj) {k : Nat} {edits : Str → Option (Option Str)} (hb : Back edits post (setPage w pfx k value)) (hk : KeepsCounts pfx edits) :
    Counts dj post pfx (w.count k) ∧ NumberSent dj post (countName pfx c%"INITIAL_FORMS") k ∧
    ∀ i < w.count k,
      (∀ x f, (x, f) ∈ w.inputs → sentFor post pfx i x = received edits (formName pfx i x) (sends f (value i x))) ∧
      (w.canOrder = true → sentFor post pfx i c%"ORDER" = received edits (formName pfx i c%"ORDER") (some (if i < k then natStr (i + 1) else []))) ∧
      (w.canDelete = true → sentFor post pfx i c%"DELETE" = received edits (formName pfx i c%"DELETE") none) := by
  have hnum : ∀ x, x ∈ managementFields → ∀ m : Nat, (countName pfx x, some (natStr m)) ∈ setPage w pfx k value →
      NumberSent dj post (countName pfx x) m := by
    intro x hx m hm
    refine ⟨natStr m, ?_, (natStr_spec m).1, ?_⟩
    · rw [hb _ _ hm]
      unfold received
      rw [hk x hx]; rfl
    · have := hd.int m
      unfold intStr at this
      rw [if_neg (by omega), Int.natAbs_natCast] at this
      exact this
  have hini := hnum _ (by decide) k (show (countName pfx c%"INITIAL_FORMS", _) ∈ _ by simp [setPage, setCounts])
  have hrow : ∀ i < w.count k, ∀ p ∈ formRow w pfx k value i, p ∈ setPage w pfx k value := by
    intro i hi p hp
    unfold setPage
    exact List.mem_append_right _ (List.mem_flatMap.2 ⟨i, List.mem_range.2 hi, hp⟩)
  refine ⟨⟨hnum _ (by decide) _ (by simp [setPage, setCounts]), ⟨_, hini⟩, ?_⟩, hini, ?_⟩
  · intro x hx
    simp only [List.mem_cons, List.not_mem_nil, or_false] at hx
    rcases hx with rfl | rfl
    · exact .inr ⟨_, hnum _ (by decide) 0 (by simp [setPage, setCounts])⟩
    · exact .inr ⟨_, hnum _ (by decide) w.maxNum (by simp [setPage, setCounts])⟩
  · intro i hi
    refine ⟨fun x f hx => ?_, fun hc => ?_, fun hc => ?_⟩
    · refine hb _ _ (hrow i hi _ ?_)
      unfold formRow
      exact List.mem_append_left _ (List.mem_append_left _ (List.mem_map.2 ⟨_, hx, rfl⟩))
    · refine hb _ _ (hrow i hi _ ?_)
      unfold formRow
      rw [hc]
      simp
    · refine hb _ _ (hrow i hi _ ?_)
      unfold formRow
      rw [hc]
      simp

omit [PyUnicode] in
theorem back_page (hp : pfx ≠ []) (h1 : (w.inputs.map (·.1)).Nodup) (h2 : ∀ x ∈ w.inputs.map (·.1), x ≠ c%"ORDER" ∧ x ≠ c%"DELETE") (k : Nat) (edits : Str → Option (Option Str)) :
    Back edits (submission edits (setPage w pfx k value)) (setPage w pfx k value) := fun _ _ h => submission_get (setPage_names (value := value) hp h1 h2 k) h

omit [PyUnicode] in
/-- C102.  What is sent from the page, if the user does not edit the counts: for each input what the user has made it send, and else what it shows. -/
theorem C102_sent (hd : DjangoOk dj) (hp : pfx ≠ []) (w : WSet) (value : Nat → Str → CVal Plain2) (h1 : (w.inputs.map (·.1)).Nodup)
    (h2 : ∀ x ∈ w.inputs.map (·.1), x ≠ c%"ORDER" ∧ x ≠ c%"DELETE") (k : Nat) {edits : Str → Option (Option Str)} (hk : KeepsCounts pfx edits) :
    Counts dj (submission edits (setPage w pfx k value)) pfx (w.count k) ∧ NumberSent dj (submission edits (setPage w pfx k value)) (countName pfx c%"INITIAL_FORMS") k ∧
    ∀ i < w.count k,
      (∀ x f, (x, f) ∈ w.inputs → sentFor (submission edits (setPage w pfx k value)) pfx i x = received edits (formName pfx i x) (sends f (value i x))) ∧
      (w.canOrder = true → sentFor (submission edits (setPage w pfx k value)) pfx i c%"ORDER" = received edits (formName pfx i c%"ORDER") (some (if i < k then natStr (i + 1) else []))) ∧
      (w.canDelete = true → sentFor (submission edits (setPage w pfx k value)) pfx i c%"DELETE" = received edits (formName pfx i c%"DELETE") none) :=
  set_sent hd (back_page hp h1 h2 k edits) hk

/-! ### a page that nobody has touched -/

omit [PyUnicode] in
theorem unchanged_given (hd : DjangoOk dj) {f : FormField} {v : CVal Plain2} (h : GivesBack dj f v) : changedInput dj f v (sends f v) = false := by
  obtain ⟨k, ch, req⟩ := f
  cases k with
  | char =>
    match v, h with
    | .null, _ => simp [changedInput, toPython, sends, dispText, oneLine, hd.strip, orEmpty]
    | .str s, h =>
      obtain ⟨h1, h2, -⟩ := h
      simp [changedInput, toPython, sends, dispText, h1, h2]
  | integer =>
    match v, h with
    | .null, _ => simp [changedInput, toPython, sends, dispText, oneLine]
    | .other (.int n), _ => simp [changedInput, toPython, sends, dispText, oneLine_id (intStr_shape n).1, (intStr_shape n).2, hd.int]
  | date =>
    match v, h with
    | .null, _ => simp [changedInput, toPython, sends, dispText, oneLine]
    | .other (.date d), h =>
      obtain ⟨h1, h2, h3⟩ := h
      have hs := strftime_shape ((valid_iff d).2 h1)
      simp [changedInput, toPython, sends, dispText, oneLine_id hs.1, hs.2, hd.date d h1 h2 h3]
  | boolean =>
    match v, h with
    | .other (.bool b), _ => cases b <;> simp [changedInput, sends, ticked, tickText, boxValue]
  | choice =>
    match v, h with
    | .null, h =>
      have h2 : [] ∈ ch := h.2
      simp [changedInput, toPython, sends, dispText, h2, orEmpty]
    | .str s, h =>
      have h1 : s ∈ ch := h.1
      simp [changedInput, toPython, sends, dispText, h1]

omit [PyUnicode] in
theorem unchanged_new (hd : DjangoOk dj) {f : FormField} (h : f.kind = .choice → [] ∈ f.choices ∨ f.choices = []) : changedInput dj f .null (sends f .null) = false := by
  obtain ⟨k, ch, req⟩ := f
  cases k with
  | char => simp [changedInput, toPython, sends, dispText, oneLine, hd.strip, orEmpty]
  | integer => simp [changedInput, toPython, sends, dispText, oneLine]
  | date => simp [changedInput, toPython, sends, dispText, oneLine]
  | boolean => simp [changedInput, sends, ticked, boxValue]
  | choice =>
    rcases h rfl with h | h
    · have h : [] ∈ ch := h
      simp [changedInput, toPython, sends, dispText, h, orEmpty]
    · have h : ch = [] := h
      subst h
      simp [changedInput, toPython, sends, dispText, orEmpty]

omit [PyUnicode] in
theorem order_sent (hd : DjangoOk dj) {i : Nat} (h : sentFor post pfx i c%"ORDER" = some (natStr (i + 1))) : OrderIs dj post pfx i ((i : Int) + 1) := by
  have h2 := hd.int ((i : Int) + 1)
  rw [show intStr ((i : Int) + 1) = natStr (i + 1) from rfl] at h2
  unfold OrderIs
  rw [h]
  exact ⟨(natStr_spec (i + 1)).1, h2⟩

theorem untouched_unchanged (hd : DjangoOk dj) {ms : List Node} {new : Node} (hfit : SetFit w q ps ms new) (hv : ShowsSet w ms value)
    (hg : SetGiven dj w value ms) (hb : Back untouched post (setPage w pfx ms.length value)) {i : Nat} (hi : i < w.count ms.length) :
    ¬ ChangedForm dj w post pfx ms.length value i := by
  obtain ⟨s1, s2, s3⟩ := (set_sent hd hb (fun _ _ => rfl)).2.2 i hi
  rintro (⟨x, f, hx, hc⟩ | ⟨ho, hc1, hc2⟩ | ⟨ho, hc⟩)
  · rw [s1 x f hx, ← changed_iff] at hc
    change changedInput dj f (value i x) (sends f (value i x)) = true at hc
    by_cases hil : i < ms.length
    · obtain ⟨j, hj⟩ := (hfit.inputs x f hx).1
      rw [unchanged_given hd (hg.1 i hil x f j hx hj).1] at hc
      cases hc
    · rw [hv.2 i (Nat.le_of_not_lt hil) x, unchanged_new hd (hg.2 x f hx)] at hc
      cases hc
  · have h2 := s2 ho
    change _ = some (if i < ms.length then natStr (i + 1) else []) at h2
    by_cases hil : i < ms.length
    · rw [if_pos hil] at h2
      exact hc1 hil (order_sent hd h2)
    · rw [if_neg hil] at h2
      refine hc2 (Nat.le_of_not_lt hil) ?_
      unfold OrderEmpty
      rw [h2]
      rfl
  · rw [s3 ho] at hc
    cases hc

omit [PyUnicode] in
theorem kept_all {cd : Bool} {ms : List Node} {subs : List Submitted} (saved : Nat → Node) (hlen : ms.length ≤ subs.length) (hd : ∀ d ∈ subs, d.deleted = false) :
    keptMembers (fun i _ => saved i) cd ms subs = (List.range ms.length).map saved := by
  unfold keptMembers
  rw [List.filter_eq_self.2]
  · apply List.ext_getElem?
    intro i
    rw [List.getElem?_map, List.getElem?_map, List.getElem?_zipIdx]
    by_cases hi : i < ms.length
    · rw [List.getElem?_range hi, List.getElem?_eq_getElem (by simp; omega)]
      simp
    · rw [List.getElem?_eq_none (by simp; omega), List.getElem?_eq_none (by simp; omega)]
      rfl
  · rintro ⟨⟨m, d⟩, i⟩ hx
    have h1 := List.mem_of_getElem? (List.mem_zipIdx_iff_getElem?.1 hx)
    have h2 := hd d (List.of_mem_zip h1).2
    simp [h2]

omit [PyUnicode] in
theorem new_none {ms : List Node} {subs : List Submitted} (upd : Nat → Node → Node) (new : Node) (hc : ∀ d ∈ subs, d.changed = false) : newMembers upd new ms subs = [] := by
  unfold newMembers
  rw [List.filter_eq_nil_iff.2]
  · rfl
  · rintro ⟨d, i⟩ hx
    have h1 := List.mem_of_getElem? (List.mem_zipIdx_iff_getElem?.1 (List.mem_of_mem_drop hx))
    simp [hc d h1]

omit [PyUnicode] in
theorem counting_all {cd : Bool} {ms : List Node} {subs : List Submitted} (hlen : ms.length ≤ subs.length) (hd : ∀ d ∈ subs, d.deleted = false) (hc : ∀ d ∈ subs, d.changed = false) :
    counting cd ms subs = List.range ms.length := by
  unfold counting
  have : subs.zipIdx.filter (fun x => (decide (x.2 < ms.length) || x.1.changed) && !(cd && x.1.deleted)) = subs.zipIdx.filter (fun x => decide (x.2 < ms.length)) := by
    refine List.filter_congr ?_
    rintro ⟨d, i⟩ hx
    have h1 := List.mem_of_getElem? (List.mem_zipIdx_iff_getElem?.1 hx)
    simp [hd d h1, hc d h1]
  rw [this, filter_lt_zipIdx, List.map_take, List.zipIdx_map_snd, Nat.sub_zero, ← List.range_eq_range', List.take_range, Nat.min_eq_left hlen]

omit [PyUnicode] in
theorem count_ge (w : WSet) (k : Nat) : k ≤ w.count k := by
  unfold WSet.count
  split
  · exact Nat.le_refl _
  · omega

omit [PyUnicode] in
/-- C102.  How many forms are shown: one for each member, and `extra` more, as far as there are not more than `max_num` then. -/
theorem C102_number (w : WSet) (k : Nat) : k ≤ w.count k ∧ (k + w.extra ≤ w.maxNum → w.count k = k + w.extra) ∧ (k ≤ w.maxNum → w.maxNum ≤ k + w.extra → w.count k = w.maxNum) ∧
    (w.maxNum ≤ k → w.count k = k) := by
  unfold WSet.count
  split_ifs <;> omega

/-- The common part of the two theorems below. -/
theorem untouched_facts (hd : DjangoOk dj) {ms : List Node} {new : Node} (hfit : SetFit w q ps ms new) (hv : ShowsSet w ms value) (hg : SetGiven dj w value ms)
    (hb : Back untouched post (setPage w pfx ms.length value)) :
    (∀ i < w.count ms.length, BlankForm dj w post pfx ms.length value i ↔ ms.length ≤ i) ∧
    (∀ i < w.count ms.length, ¬ DeletedForm w post pfx i) ∧
    (∀ i < ms.length, ∀ x f, (x, f) ∈ w.inputs → ∃ c, cleans dj f (sentFor post pfx i x) = some c ∧ stored c = stored (value i x)) ∧
    SentKept dj w post pfx ms.length value (w.count ms.length) ∧
    (∀ i < ms.length, ValidForm dj w post pfx i) := by
  have hun := fun i hi => untouched_unchanged (i := i) hd hfit hv hg hb hi
  have hcge := count_ge w ms.length
  have hsent := fun i hi => (set_sent hd hb (fun _ _ => rfl)).2.2 i hi
  have hblank : ∀ i < w.count ms.length, BlankForm dj w post pfx ms.length value i ↔ ms.length ≤ i :=
    fun i hi => ⟨fun h => h.1, fun h => ⟨h, hun i hi⟩⟩
  have hclean : ∀ i < ms.length, ∀ x f, (x, f) ∈ w.inputs → ∃ c, cleans dj f (sentFor post pfx i x) = some c ∧ stored c = stored (value i x) := by
    intro i hi x f hx
    obtain ⟨j, hj⟩ := (hfit.inputs x f hx).1
    rw [(hsent i (by omega)).1 x f hx]
    exact gives_back hd (hg.1 i hi x f j hx hj).1
  refine ⟨hblank, fun i hi h => hun i hi (.inr (.inr h)), hclean, ?_, ?_⟩
  · intro i hi hbl x f j c hx hj hc
    have hil : i < ms.length := by
      by_contra h
      exact hbl ((hblank i hi).2 (Nat.le_of_not_lt h))
    obtain ⟨c', h1, h2⟩ := hclean i hil x f hx
    rw [hc] at h1
    cases h1
    rw [h2]
    exact (hg.1 i hil x f j hx hj).2
  · intro i hi
    refine ⟨fun x f hx => ?_, fun ho => ?_⟩
    · obtain ⟨c, h1, -⟩ := hclean i hi x f hx
      exact ⟨c, h1⟩
    · have h2 := (hsent i (by omega)).2.1 ho
      change _ = some (if i < ms.length then natStr (i + 1) else []) at h2
      rw [if_pos hi] at h2
      exact .inr ⟨_, order_sent hd h2⟩

theorem alike_of_after (hv : ShowsSet w (members q ps n) value) {i : Nat} {m m' : Node} (hm : (members q ps n)[i]? = some m)
    (hc : ∀ x f, (x, f) ∈ w.inputs → ∃ c, cleans dj f (sentFor post pfx i x) = some c ∧ stored c = stored (value i x)) (h : FormAfter dj w post pfx i m m') : ReadsAlike w m m' := by
  refine ⟨fun j => ?_, h.2.2⟩
  by_cases hj : ∃ f, (w.own.m.name j, f) ∈ w.inputs
  · obtain ⟨f, hf⟩ := hj
    obtain ⟨c, h1, h2⟩ := hc _ f hf
    have h3 := h.1 _ f j c hf rfl h1
    obtain ⟨j', hj', h4⟩ := hv.1 i m hm _ f hf
    have hjj : j' = j := by
      have e1 := look_name w.own.m j'
      rw [hj', look_name] at e1
      exact (Option.some.inj e1).symm
    subst hjj
    have e3 : (fieldVal (w.own.m.fs j') m').map (fun v => stored (w.own.m.show_ j' v)) = .ok (stored (stored c)) := by
      cases hr : fieldVal (w.own.m.fs j') m' with
      | error e => rw [hr] at h3; cases h3
      | ok v => rw [hr] at h3; exact congrArg (fun r => Except.map stored r) h3
    have e4 : (fieldVal (w.own.m.fs j') m).map (fun v => stored (w.own.m.show_ j' v)) = .ok (stored (value i (w.own.m.name j'))) := by
      cases hr : fieldVal (w.own.m.fs j') m with
      | error e => rw [hr] at h4; cases h4
      | ok v => rw [hr] at h4; exact congrArg (fun r => Except.map stored r) h4
    rw [e3, e4, stored_stored, h2]
  · rw [h.2.1 j (fun f hf => absurd ⟨f, hf⟩ hj)]

/-- C102.  A formset without order is shown, and sent back as it is: the list has the same members, each of which reads the same in all fields, and nothing else in the document changes; there are no
new ones.  The schema, if there is one, has to accept them, and also a new element, if there are additional forms. -/
theorem C102_untouched (heng : EngineOk eng) (hd : DjangoOk dj) (hf : SimpleField ctx xp e [.child q ps]) (hs : s.get a = some n) (w : WSet) (ho : w.canOrder = false) (new : Node)
    (hfit : SetFit w q ps (members q ps n) new) (value : Nat → Str → CVal Plain2) (hv : ShowsSet w (members q ps n) value) (hg : SetGiven dj w value (members q ps n))
    (hnames : ∀ x ∈ w.inputs.map (·.1), x ≠ c%"ORDER" ∧ x ≠ c%"DELETE") (pfx : Str) (hp : pfx ≠ []) (absMax : Nat) (hmax : w.count (members q ps n).length ≤ absMax) :
    ∃ page saved, showSet eng w ctx pfx xp (.elem a) s = .ok page ∧ (∀ i m, (members q ps n)[i]? = some m → ReadsAlike w m (saved i)) ∧
      ((∀ i < (members q ps n).length, w.own.schemaValid (saved i) = true) → ((members q ps n).length < w.count (members q ps n).length → w.own.schemaValid new = true) → ∃ n' : Node,
        saveSet eng dj w ctx absMax new (submission untouched page) pfx xp e (.elem a) s = .ok (some (s.modify a (fun _ => n'))) ∧
        members q ps n' = (List.range (members q ps n).length).map saved ∧ SameButMembers q ps n n') := by
  have hback := back_page (value := value) hp hfit.distinct hnames (members q ps n).length untouched
  obtain ⟨hblank, hdel, hclean, hkeep, hvalid⟩ := untouched_facts (pfx := pfx) hd hfit hv hg hback
  obtain ⟨hc1, hc2, -⟩ := C102_sent hd hp w value hfit.distinct hnames (members q ps n).length (edits := untouched) (fun _ _ => rfl)
  have hcge := count_ge w (members q ps n).length
  obtain ⟨subs, hsub⟩ := submitted_exists dj w (submission untouched (setPage w pfx (members q ps n).length value)) pfx (members q ps n).length value (w.count (members q ps n).length)
  obtain ⟨saved, h1, h2, -, h4⟩ := C102_saved (dj := dj) heng hf hs w ho new hfit value hv (submission untouched (setPage w pfx (members q ps n).length value)) pfx (w.count (members q ps n).length) absMax
    hc1 hc2 hmax hcge hkeep subs hsub
  have hsubd : ∀ d ∈ subs, d.deleted = false ∧ d.changed = false := by
    intro d hdm
    obtain ⟨i, hi⟩ := List.getElem?_of_mem hdm
    have hlt : i < w.count (members q ps n).length := by rw [← hsub.1]; exact (List.getElem?_eq_some_iff.1 hi).1
    obtain ⟨r1, r2, -⟩ := hsub.2 i d hi
    refine ⟨?_, ?_⟩
    · cases hb : d.deleted with
      | false => rfl
      | true => exact absurd (r2.1 hb) (hdel i hlt)
    · cases hb : d.changed with
      | false => rfl
      | true => exact absurd (r1.1 hb) (untouched_unchanged hd hfit hv hg hback hlt)
  refine ⟨_, saved, C102_shown heng hf hs w new hfit value hv pfx, fun i m hm => ?_, fun hsc hnew => ?_⟩
  · have hil := (List.getElem?_eq_some_iff.1 hm).1
    have := h1 i (by omega) (fun hb => by have := (hblank i (by omega)).1 hb; omega)
    rw [show formElem (members q ps n) new i = m by unfold formElem; rw [hm]; rfl] at this
    exact alike_of_after hv hm (hclean i hil) this
  · obtain ⟨n', k1, k2, k3⟩ := h4 (by
      intro i hi _
      by_cases hil : i < (members q ps n).length
      · exact ⟨fun _ => hvalid i hil, hsc i hil⟩
      · have hb := (hblank i hi).2 (Nat.le_of_not_lt hil)
        refine ⟨fun h => absurd hb h, ?_⟩
        rw [h2 i hi hb, show formElem (members q ps n) new i = new by unfold formElem; rw [List.getElem?_eq_none (Nat.le_of_not_lt hil)]; rfl]
        exact hnew (by omega))
      (by
        intro i d hdi _ hdd
        rw [(hsubd d (List.mem_of_getElem? hdi)).1] at hdd
        cases hdd)
    refine ⟨n', k1, ?_, k3⟩
    rw [k2, kept_all saved (by rw [hsub.1]; exact hcge) (fun d h => (hsubd d h).1), new_none _ _ (fun d h => (hsubd d h).2), List.append_nil]

omit [PyUnicode] in
theorem order_range {order : List Nat} {k : Nat} {subs : List Submitted} (hp : order.Perm (List.range k)) (hs : order.Pairwise (OrderedBy subs))
    (hord : ∀ i < k, ∃ d, subs[i]? = some d ∧ d.order = some ((i : Int) + 1)) : order = List.range k := by
  have hsorted : order.Pairwise (· ≤ ·) := by
    refine List.Pairwise.imp_of_mem ?_ hs
    intro i j hi hj hij
    obtain ⟨d, d1, d2⟩ := hord i (List.mem_range.1 (hp.mem_iff.1 hi))
    obtain ⟨d', e1, e2⟩ := hord j (List.mem_range.1 (hp.mem_iff.1 hj))
    obtain ⟨x, hx, hle⟩ := hij d d' d1 e1 _ e2
    rw [d2] at hx
    cases hx
    omega
  exact List.Perm.eq_of_pairwise' hsorted (List.Pairwise.imp (fun h => Nat.le_of_lt h) List.pairwise_lt_range) hp

/-- C102.  The same for a formset with order, if the elements, as they are saved, are all different. -/
theorem C102_untouched_ordered (heng : EngineOk eng) (hd : DjangoOk dj) (hf : SimpleField ctx xp e [.child q ps]) (hs : s.get a = some n) (w : WSet) (ho : w.canOrder = true) (new : Node)
    (hfit : SetFit w q ps (members q ps n) new) (value : Nat → Str → CVal Plain2) (hv : ShowsSet w (members q ps n) value) (hg : SetGiven dj w value (members q ps n))
    (hnames : ∀ x ∈ w.inputs.map (·.1), x ≠ c%"ORDER" ∧ x ≠ c%"DELETE") (pfx : Str) (hp : pfx ≠ []) (absMax : Nat) (hmax : w.count (members q ps n).length ≤ absMax) :
    ∃ page saved, showSet eng w ctx pfx xp (.elem a) s = .ok page ∧ (∀ i m, (members q ps n)[i]? = some m → ReadsAlike w m (saved i)) ∧
      ((∀ i < (members q ps n).length, w.own.schemaValid (saved i) = true) → ((members q ps n).length < w.count (members q ps n).length → w.own.schemaValid new = true) →
        (∀ i < (members q ps n).length, ∀ j < (members q ps n).length, j ≠ i → saved j ≠ saved i) → ∃ n' : Node,
        saveSet eng dj w ctx absMax new (submission untouched page) pfx xp e (.elem a) s = .ok (some (s.modify a (fun _ => n'))) ∧
        members q ps n' = (List.range (members q ps n).length).map saved ∧ SameButMembers q ps n n') := by
  have hback := back_page (value := value) hp hfit.distinct hnames (members q ps n).length untouched
  obtain ⟨hblank, hdel, hclean, hkeep, hvalid⟩ := untouched_facts (pfx := pfx) hd hfit hv hg hback
  obtain ⟨hc1, hc2, hsent⟩ := C102_sent hd hp w value hfit.distinct hnames (members q ps n).length (edits := untouched) (fun _ _ => rfl)
  have hcge := count_ge w (members q ps n).length
  obtain ⟨subs, hsub⟩ := submitted_exists dj w (submission untouched (setPage w pfx (members q ps n).length value)) pfx (members q ps n).length value (w.count (members q ps n).length)
  obtain ⟨saved, h1, h2, -, h4⟩ := C102_ordered (dj := dj) heng hf hs w ho new hfit value hv (submission untouched (setPage w pfx (members q ps n).length value)) pfx (w.count (members q ps n).length) absMax
    hc1 hc2 hmax hcge hkeep subs hsub
  have hsubd : ∀ d ∈ subs, d.deleted = false ∧ d.changed = false := by
    intro d hdm
    obtain ⟨i, hi⟩ := List.getElem?_of_mem hdm
    have hlt : i < w.count (members q ps n).length := by rw [← hsub.1]; exact (List.getElem?_eq_some_iff.1 hi).1
    obtain ⟨r1, r2, -⟩ := hsub.2 i d hi
    refine ⟨?_, ?_⟩
    · cases hb : d.deleted with
      | false => rfl
      | true => exact absurd (r2.1 hb) (hdel i hlt)
    · cases hb : d.changed with
      | false => rfl
      | true => exact absurd (r1.1 hb) (untouched_unchanged hd hfit hv hg hback hlt)
  have hcount := counting_all (cd := w.canDelete) (ms := members q ps n) (subs := subs) (by rw [hsub.1]; exact hcge) (fun d h => (hsubd d h).1) (fun d h => (hsubd d h).2)
  refine ⟨_, saved, C102_shown heng hf hs w new hfit value hv pfx, fun i m hm => ?_, fun hsc hnew hdist => ?_⟩
  · have hil := (List.getElem?_eq_some_iff.1 hm).1
    have := h1 i (by omega) (fun hb => by have := (hblank i (by omega)).1 hb; omega)
    rw [show formElem (members q ps n) new i = m by unfold formElem; rw [hm]; rfl] at this
    exact alike_of_after hv hm (hclean i hil) this
  · obtain ⟨n', order, k1, k2, k3, -, k5, k6⟩ := h4 (by
      intro i hi _
      by_cases hil : i < (members q ps n).length
      · exact ⟨fun _ => hvalid i hil, hsc i hil⟩
      · have hb := (hblank i hi).2 (Nat.le_of_not_lt hil)
        refine ⟨fun h => absurd hb h, ?_⟩
        rw [h2 i hi hb, show formElem (members q ps n) new i = new by unfold formElem; rw [List.getElem?_eq_none (Nat.le_of_not_lt hil)]; rfl]
        exact hnew (by omega))
      (by
        intro i d hdi _ hdd
        rw [(hsubd d (List.mem_of_getElem? hdi)).1] at hdd
        cases hdd)
      (by
        rw [hcount]
        intro i hi j hj hne
        exact hdist i (List.mem_range.1 hi) j (List.mem_range.1 hj) hne)
    refine ⟨n', k1, ?_, k6⟩
    rw [hcount] at k2
    have hord : ∀ i < (members q ps n).length, ∃ d, subs[i]? = some d ∧ d.order = some ((i : Int) + 1) := by
      intro i hi
      have hl : i < subs.length := by rw [hsub.1]; omega
      refine ⟨_, List.getElem?_eq_getElem hl, ?_⟩
      refine ((hsub.2 i _ (List.getElem?_eq_getElem hl)).2.2 _).2 ⟨ho, fun hb => by have := (hblank i (by omega)).1 hb; omega, ?_⟩
      have h2 := (hsent i (by omega)).2.1 ho
      change _ = some (if i < (members q ps n).length then natStr (i + 1) else []) at h2
      rw [if_pos hi] at h2
      exact order_sent hd h2
    rw [k5, order_range k2 k3 hord]

end
/-! ### examples: people with a family name (C89) -/

/-- The formset class: forms for one field `family`, one additional form. -/
def peopleSet (order : Bool) : WSet := ⟨webOwn (oneModel c%"family") c%"family", [(c%"family", ⟨.char, [], false⟩)], true, order, 1, 1000⟩

def peopleValue (i : Nat) (_ : Str) : CVal Plain2 := match i with
  | 0 => .str c%"Doe"
  | 1 => .str c%"Poe"
  | _ => .null

theorem peopleSet_fit (order : Bool) : SetFit (peopleSet order) ⟨none, c%"a"⟩ [] (members ⟨none, c%"a"⟩ [] people) newItem where
  field := (webOwn_ok c%"family" ⟨⟨by decide, by rfl, by decide, by decide⟩, by decide, by intro h; cases h⟩ (by decide)).field
  part := fun i j h => absurd rfl h
  names := by intro y hy; rw [List.mem_singleton.mp hy]; decide
  preds := rfl
  under := fun _ => by rfl
  tidy := people_fit.tidy
  tidyNew := people_fit.tidyNew
  member := rfl
  distinct := by simp [peopleSet]
  inputs := by
    intro x f h
    simp only [peopleSet, List.mem_singleton, Prod.mk.injEq] at h
    obtain ⟨rfl, -⟩ := h
    exact ⟨⟨(), rfl⟩, List.mem_singleton.2 rfl, fun l hl => by cases hl⟩

theorem people_members : members ⟨none, c%"a"⟩ [] people = [person c%"Doe", person c%"Poe"] := by rfl

theorem peopleSet_shows (order : Bool) : ShowsSet (peopleSet order) (members ⟨none, c%"a"⟩ [] people) peopleValue := by
  rw [people_members]
  refine ⟨?_, ?_⟩
  · intro i m hm x f h
    simp only [peopleSet, List.mem_singleton, Prod.mk.injEq] at h
    obtain ⟨rfl, -⟩ := h
    refine ⟨(), rfl, ?_⟩
    match i, hm with
    | 0, hm => cases hm; rfl
    | 1, hm => cases hm; rfl
  · intro i hi x
    match i, hi with
    | (k + 2), _ => rfl

theorem peopleSet_names (order : Bool) : ∀ x ∈ (peopleSet order).inputs.map (·.1), x ≠ c%"ORDER" ∧ x ≠ c%"DELETE" := by
  simp [peopleSet]

theorem peopleSet_given (order : Bool) : SetGiven djangoNow (peopleSet order) peopleValue (members ⟨none, c%"a"⟩ [] people) := by
  rw [people_members]
  have hkeep : ∀ v : Str, xmlOk v = true → (oneModel c%"family").Keeps () (.str v) := by
    intro v hv
    refine ⟨(some v : Option Str), rfl, C69_keeps_string _ _ _ _ (fun u hu => ?_)⟩
    cases hu
    exact hv
  refine ⟨?_, ?_⟩
  · intro i hi x f j h hj
    simp only [peopleSet, List.mem_singleton, Prod.mk.injEq] at h
    obtain ⟨rfl, rfl⟩ := h
    match i, hi with
    | 0, _ => exact ⟨⟨by decide, by decide +kernel, fun h => by cases h⟩, hkeep c%"Doe" (by decide)⟩
    | 1, _ => exact ⟨⟨by decide, by decide +kernel, fun h => by cases h⟩, hkeep c%"Poe" (by decide)⟩
  · intro x f h hk
    simp only [peopleSet, List.mem_singleton, Prod.mk.injEq] at h
    obtain ⟨-, rfl⟩ := h
    cases hk

/-- The page. -/
def peoplePage : List (Str × Option Str) :=
  [(c%"p-TOTAL_FORMS", some c%"3"), (c%"p-INITIAL_FORMS", some c%"2"), (c%"p-MIN_NUM_FORMS", some c%"0"), (c%"p-MAX_NUM_FORMS", some c%"1000"),
   (c%"p-0-family", some c%"Doe"), (c%"p-0-ORDER", some c%"1"), (c%"p-0-DELETE", none), (c%"p-1-family", some c%"Poe"), (c%"p-1-ORDER", some c%"2"), (c%"p-1-DELETE", none),
   (c%"p-2-family", some []), (c%"p-2-ORDER", some []), (c%"p-2-DELETE", none)]

example : showSet refEngine (peopleSet true) sampleCtx c%"p" c%"a" (.elem []) people = .ok peoplePage := by
  rw [C102_shown refEngine_ok subField (s := people) (n := people) (a := []) rfl (peopleSet true) newItem (peopleSet_fit true) peopleValue (peopleSet_shows true)]
  refine congrArg Except.ok ?_
  decide +kernel

/-- Nobody touches it: there are still two people, with the same names. -/
example (order : Bool) : ∃ page n', showSet refEngine (peopleSet order) sampleCtx c%"p" c%"a" (.elem []) people = .ok page ∧
    (order = false → saveSet refEngine djangoNow (peopleSet order) sampleCtx 2000 newItem (submission untouched page) c%"p" c%"a" (ast c%"a") (.elem []) people = .ok (some n') ∧
      (members ⟨none, c%"a"⟩ [] n').length = 2) := by
  cases order with
  | true => exact ⟨_, people, C102_shown refEngine_ok subField (s := people) (n := people) (a := []) rfl (peopleSet true) newItem (peopleSet_fit true) peopleValue (peopleSet_shows true) _, fun h => by cases h⟩
  | false =>
    obtain ⟨page, saved, h1, -, h3⟩ := C102_untouched refEngine_ok djangoNow_ok subField (s := people) (n := people) (a := []) rfl (peopleSet false) rfl newItem (peopleSet_fit false) peopleValue
      (peopleSet_shows false) (peopleSet_given false) (peopleSet_names false) c%"p" (by simp) 2000 (by decide)
    obtain ⟨n', k1, k2, -⟩ := h3 (fun _ _ => rfl) (fun _ => rfl)
    refine ⟨page, _, h1, fun _ => ⟨k1, ?_⟩⟩
    rw [show Node.modify [] (fun _ => n') people = n' from rfl, k2, people_members]
    rfl

/-- The same with order, evaluated. -/
example : saveSet refEngine djangoNow (peopleSet true) sampleCtx 2000 newItem (submission untouched peoplePage) c%"p" c%"a" (ast c%"a") (.elem []) people =
    .ok (some (bare.withChildren [Node.empty ⟨none, c%"b"⟩, person c%"Doe", person c%"Poe"])) := by decide +kernel

/-- The user deletes the first one, changes the second one, and adds a third one, which is to come first. -/
def peopleEdits : Str → Option (Option Str) := fun x =>
  if x = c%"p-0-DELETE" then some (some c%"on") else if x = c%"p-1-family" then some (some c%"Roe") else if x = c%"p-2-family" then some (some c%"Moe")
  else if x = c%"p-2-ORDER" then some (some c%"1") else none

example : saveSet refEngine djangoNow (peopleSet true) sampleCtx 2000 newItem (submission peopleEdits peoplePage) c%"p" c%"a" (ast c%"a") (.elem []) people =
    .ok (some (bare.withChildren [Node.empty ⟨none, c%"b"⟩, person c%"Moe", person c%"Roe"])) := by decide +kernel

theorem people_keeps (v : Str) (hv : xmlOk v = true) : (oneModel c%"family").Keeps () (.str v) := by
  refine ⟨(some v : Option Str), rfl, C69_keeps_string _ _ _ _ (fun u hu => ?_)⟩
  cases hu
  exact hv

/-- The data of the page without order, with these edits. -/
def peoplePost : Dict Str Str := submission peopleEdits (setPage (peopleSet false) c%"p" 2 peopleValue)

/-- The hypotheses of C102_saved hold for these data: the forms are saved, the second one with the new name, and the members are the second one and the new one. -/
example : ∃ (saved : Nat → Node) (n' : Node),
    (∀ i < 3, ¬ BlankForm djangoNow (peopleSet false) peoplePost c%"p" 2 peopleValue i →
      FormAfter djangoNow (peopleSet false) peoplePost c%"p" i (formElem [person c%"Doe", person c%"Poe"] newItem i) (saved i)) ∧
    saveSet refEngine djangoNow (peopleSet false) sampleCtx 2000 newItem peoplePost c%"p" c%"a" (ast c%"a") (.elem []) people = .ok (some n') ∧
    members ⟨none, c%"a"⟩ [] n' = [saved 1, saved 2] := by
  obtain ⟨hc1, hc2, -⟩ := C102_sent djangoNow_ok (pfx := c%"p") (by simp) (peopleSet false) peopleValue (by simp [peopleSet]) (peopleSet_names false) 2 (edits := peopleEdits) (by unfold KeepsCounts; decide +kernel)
  have hinp : ∀ x f, (x, f) ∈ (peopleSet false).inputs → x = c%"family" ∧ f = ⟨.char, [], false⟩ := by
    intro x f h
    simpa [peopleSet] using h
  have hsent : ∀ i < 3, ∀ x f c, (x, f) ∈ (peopleSet false).inputs → cleans djangoNow f (sentFor peoplePost c%"p" i x) = some c →
      c = .str c%"Doe" ∧ i = 0 ∨ c = .str c%"Roe" ∧ i = 1 ∨ c = .str c%"Moe" ∧ i = 2 := by
    intro i hi x f c h hc
    obtain ⟨rfl, rfl⟩ := hinp x f h
    match i, hi with
    | 0, _ => left; refine ⟨Option.some.inj (hc.symm.trans ?_), rfl⟩; decide +kernel
    | 1, _ => right; left; refine ⟨Option.some.inj (hc.symm.trans ?_), rfl⟩; decide +kernel
    | 2, _ => right; right; refine ⟨Option.some.inj (hc.symm.trans ?_), rfl⟩; decide +kernel
  have hsub : SubmittedAs djangoNow (peopleSet false) peoplePost c%"p" 2 peopleValue 3 [⟨true, true, none⟩, ⟨true, false, none⟩, ⟨true, false, none⟩] := by
    obtain ⟨subs, hs⟩ := submitted_exists djangoNow (peopleSet false) peoplePost c%"p" 2 peopleValue 3
    have : subs = [⟨true, true, none⟩, ⟨true, false, none⟩, ⟨true, false, none⟩] := by
      rw [submitted_eq hs]
      rfl
    rw [← this]
    exact hs
  obtain ⟨saved, h1, h2, -, h4⟩ := C102_saved (dj := djangoNow) refEngine_ok subField (s := people) (n := people) (a := []) rfl (peopleSet false) rfl newItem (peopleSet_fit false) peopleValue
    (peopleSet_shows false) peoplePost c%"p" 3 2000 hc1 hc2 (by decide) (by decide) (by
      intro i hi _ x f j c hx _ hc
      rcases hsent i hi x f c hx hc with ⟨rfl, -⟩ | ⟨rfl, -⟩ | ⟨rfl, -⟩
      · exact people_keeps c%"Doe" (by decide)
      · exact people_keeps c%"Roe" (by decide)
      · exact people_keeps c%"Moe" (by decide))
    _ hsub
  · have hne : saved 1 ≠ person c%"Doe" := by
      intro he
      have := (h1 1 (by decide) (fun hb => by
        have := hb.1
        rw [people_members] at this
        exact absurd this (by decide))).1 c%"family" ⟨.char, [], false⟩ () (.str c%"Roe") (by simp [peopleSet]) rfl (by decide +kernel)
      rw [he] at this
      have h : (fieldVal ((oneModel c%"family").fs ()) (person c%"Doe")).map ((oneModel c%"family").show_ ()) = .ok (.str c%"Doe") := rfl
      rw [show (fieldVal ((peopleSet false).own.m.fs ()) (person c%"Doe")).map ((peopleSet false).own.m.show_ ()) = .ok (.str c%"Doe") from h] at this
      exact absurd this (by decide)
    obtain ⟨n', k1, k2, -⟩ := h4 (by
        intro i hi _
        refine ⟨fun _ => ⟨fun x f h => ?_, fun h => by cases h⟩, rfl⟩
        obtain ⟨rfl, rfl⟩ := hinp x f h
        simp [cleans]) (by
      intro i d hd _ hdl j m e hm he hji
      match i, hd with
      | 0, hd =>
        match j, hm, he with
        | 0, _, _ => exact absurd rfl hji
        | 1, hm, he =>
          injection he with he
          subst he
          exact hne
        | (k + 2), hm, _ => exact absurd hm (by rw [List.getElem?_eq_none (by rw [people_members]; simp)]; simp)
      | 1, hd => injection hd with hd; subst hd; exact absurd hdl (by decide)
      | 2, hd => injection hd with hd; subst hd; exact absurd hdl (by decide)
      | (k + 3), hd => simp at hd)
    exact ⟨saved, n', h1, k1, k2⟩

/-- Counterexample: the form has a drop-down list without empty choice.  Nobody touches the page, but the browser sends the first choice for the additional form, which is changed then: the
list has a new element. -/
theorem C102_counterexample_choice :
    let w : WSet := ⟨webOwn (oneModel c%"family") c%"family", [(c%"family", ⟨.choice, [c%"Doe", c%"Poe"], true⟩)], true, false, 1, 1000⟩
    ∃ page, showSet refEngine w sampleCtx c%"p" c%"a" (.elem []) people = .ok page ∧
      saveSet refEngine djangoNow w sampleCtx 2000 newItem (submission untouched page) c%"p" c%"a" (ast c%"a") (.elem []) people =
        .ok (some (bare.withChildren [person c%"Doe", Node.empty ⟨none, c%"b"⟩, person c%"Poe", person c%"Doe"])) := by
  exact ⟨_, rfl, by decide +kernel⟩

/-- Counterexample: the schema does not allow an element without children.  Nobody touches the page, and all elements are valid, but the set is not: the additional form, which has been left empty, is
validated, too. -/
theorem C102_counterexample_schema :
    let w : WSet := ⟨{ webOwn (oneModel c%"family") c%"family" with schemaValid := fun m => !m.children.isEmpty }, [(c%"family", ⟨.char, [], false⟩)], true, false, 1, 1000⟩
    (∀ m ∈ members ⟨none, c%"a"⟩ [] people, w.own.schemaValid m = true) ∧
    ∃ page, showSet refEngine w sampleCtx c%"p" c%"a" (.elem []) people = .ok page ∧
      saveSet refEngine djangoNow w sampleCtx 2000 newItem (submission untouched page) c%"p" c%"a" (ast c%"a") (.elem []) people = .ok none := by
  exact ⟨by decide, _, rfl, by decide +kernel⟩

end Props
