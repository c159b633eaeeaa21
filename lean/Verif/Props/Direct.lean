import Verif.Forms.Direct
import Verif.Forms.OptionsProofs
import Verif.Props.FieldList
import Verif.Props.Options
/-
C104: `formfields_for_xmlobject`, called directly.
-/
namespace Props
open XPath Forms Py

/-- The lists choose the field `x` (the second one wins). -/
def Chosen (fields exclude : ListArg) (x : Str) : Prop :=
  (∀ l, fields = .names l → x ∈ l ∨ ∃ n ∈ l, Below [x] n) ∧ (∀ l, exclude = .names l → x ∉ l)

/-- No list has been parsed before. -/
def NotParsed (l : ListArg) : Prop := ∀ p, l ≠ .parsed p

/-- A NodeField or NodeListField (without choices). -/
def ForObjects (f : DField) : Prop := f.base.choices = [] ∧ ((∃ k, f.base.type = .node k) ∨ ∃ k, f.base.type = .nodeList k)

/-- The fields, subforms, and formsets. -/
def Generated.parts (g : Generated) := (g.fields, g.subforms, g.formsets)

/-- `class F(XmlObjectForm)` with SubformFields for the classes `ds`, and a class `Meta` with model, fields, exclude, and widgets. -/
def classBody (cls : Nat) (fields exclude : ListArg) (w : Option WArg) (ds : Dict Str RForm) : ClassBody :=
  ⟨ds.map (fun p => (p.1, .subform (some p.2) none true false)), some ⟨some cls, some fields, some exclude, some w, none, none, none, none⟩, none⟩

theorem chosen_iff {fields exclude : ListArg} (hf : NotParsed fields) (he : NotParsed exclude) {x : Str} (hx : '.' ∉ x) {ex} (h : chosenExclude none fields exclude = .ok ex) :
    skip (chosenFields none fields) ex x = false ↔ Chosen fields exclude x := by
  have hin : ∀ l inc, x ∈ (parseFieldList l inc).fields ↔ x ∈ l ∨ (inc = true ∧ ∃ n ∈ l, Below [x] n) := by
    intro l inc
    have := C47_fields l inc [] (by simp [Plain]) _ rfl x hx
    simpa [dotted] using this
  unfold Chosen
  cases fields with
  | parsed p => exact absurd rfl (hf p)
  | none =>
    cases exclude with
    | parsed p => exact absurd rfl (he p)
    | none => cases h; simp [skip, chosenFields]
    | names l =>
      cases h
      simp [skip, chosenFields, hin]
  | names l' =>
    cases exclude with
    | parsed p => exact absurd rfl (he p)
    | none => cases h; simp [skip, chosenFields, hin]
    | names l =>
      cases h
      simp [skip, chosenFields, hin]

theorem chosenExclude_ok {fields exclude : ListArg} (o : Option PFL) (hf : NotParsed fields) (he : NotParsed exclude) : ∃ ex, chosenExclude o fields exclude = .ok ex := by
  cases fields <;> cases exclude <;> first | exact ⟨_, rfl⟩ | exact absurd rfl (he _)


theorem dict_update_nil {α : Type} : ∀ (acc d : Dict Str α), (acc ++ d).Wf → Dict.update acc d = acc ++ d
  | acc, [], _ => by simp [Dict.update]
  | acc, (k, v) :: d, h => by
    have hs : ∀ (l : Dict Str α), k ∉ l.keys → l.set k v = l ++ [(k, v)] := by
      intro l
      induction l with
      | nil => intro _; rfl
      | cons q l ih =>
        intro hk
        simp only [Dict.keys, List.map_cons, List.mem_cons, not_or] at hk
        rw [Dict.set, if_neg (hk.1), ih hk.2]
        rfl
    have hk : k ∉ acc.keys := by
      have := h
      unfold Dict.Wf Dict.keys at this
      rw [List.map_append, List.map_cons, List.nodup_append] at this
      intro hm
      exact this.2.2 k hm k (by simp) rfl
    show Dict.update (acc.set k v) d = _
    rw [hs acc hk, dict_update_nil (acc ++ [(k, v)]) d (by simpa using h)]
    simp

theorem sort_subforms : ∀ ds : Dict Str RForm, ∃ ls, sortDecls (ds.map (fun p => (p.1, Decl.subform (some p.2) none true false))) = .ok ([], ds, ls)
  | [] => ⟨[], rfl⟩
  | (x, c) :: ds => by
    obtain ⟨ls, h⟩ := sort_subforms ds
    refine ⟨match (none : Option Str).or c.label with | some l => (x, l) :: ls | none => ls, ?_⟩
    rw [List.map_cons, sortDecls, h]
    rfl

/-- C104.  Called with `declared_subforms`, the function returns what a form class gets that has the same options in `Meta` and the same classes for its subforms: the same form fields, subforms, and
formsets, in the same order; and it fails with the same exception if the class statement fails. -/
theorem C104_as_class (gen : Gen) (models : Nat → DModel) (cls : Nat) (fields exclude : ListArg) (hf : NotParsed fields) (he : NotParsed exclude) (w : Option WArg) (ds : Dict Str RForm) (hd : ds.Wf)
    (mn extra : Option Nat) :
    (formfields gen (models cls) fields exclude w none (some ds) mn extra).map Generated.parts =
      (classStatement gen models [rootForm] (classBody cls fields exclude w ds)).map (fun c => (c.fields, c.subforms, c.formsets)) := by
  obtain ⟨ls, hl⟩ := sort_subforms ds
  have ha : allDecls [rootForm] (ds.map (fun p => (p.1, Decl.subform (some p.2) none true false))) = ds.map (fun p => (p.1, Decl.subform (some p.2) none true false)) := by
    unfold allDecls
    rw [show ([rootForm].flatMap fun b => b.declared.map fun p => (p.1, Decl.field p.2)) = [] from rfl, List.nil_append]
    rw [dict_update_nil [] _ (by
      unfold Dict.Wf Dict.keys at hd ⊢
      rw [List.nil_append, List.map_map]
      exact hd), List.nil_append]
  have hex : chosenExclude none fields exclude = .ok (parsedOf false (some exclude)) := by
    cases fields <;> cases exclude <;> first | rfl | exact absurd rfl (hf _) | exact absurd rfl (he _)
  have hfl : chosenFields none fields = parsedOf true (some fields) := by
    cases fields <;> rfl
  unfold formfields classStatement classBody
  simp only [ha, hl, Option.bind_none, hex, hfl, Option.or_none, Option.some_or, optsOf, Option.join_some]
  cases richFields gen ds (parsedOf true (some fields)) (parsedOf false (some exclude)) w (models cls) with
  | error e => rfl
  | ok g => rfl

/-- C104.  Called with the options of a form class the function uses them: it returns what the class has, apart from declared fields. -/
theorem C104_options (gen : Gen) (models : Nat → DModel) (cls : Nat) (fields exclude : ListArg) (w : Option WArg) (ds : Dict Str RForm) (hd : ds.Wf) (mn extra : Option Nat) (c : RForm)
    (h : classStatement gen models [rootForm] (classBody cls fields exclude w ds) = .ok c) :
    (formfields gen (models cls) .none .none none (some c.opts) (some ds) mn extra).map Generated.parts = .ok (c.fields, c.subforms, c.formsets) := by
  obtain ⟨ls, hl⟩ := sort_subforms ds
  obtain ⟨fs, ss, ls', h1, -, -, h2, -, h3⟩ := classStatement_ok h
  have ha : allDecls [rootForm] (ds.map (fun p => (p.1, Decl.subform (some p.2) none true false))) = ds.map (fun p => (p.1, Decl.subform (some p.2) none true false)) := by
    unfold allDecls
    rw [show ([rootForm].flatMap fun b => b.declared.map fun p => (p.1, Decl.field p.2)) = [] from rfl, List.nil_append]
    rw [dict_update_nil [] _ (by
      unfold Dict.Wf Dict.keys at hd ⊢
      rw [List.nil_append, List.map_map]
      exact hd), List.nil_append]
  rw [show (classBody cls fields exclude w ds).own = ds.map (fun p => (p.1, Decl.subform (some p.2) none true false)) from rfl, ha, hl] at h1
  injection h1 with h1
  injection h1 with e1 e2
  injection e2 with e2 e3
  subst e1 e2
  have hm : c.opts.model = some cls := by
    obtain ⟨_, _, _, _, k, _⟩ := classStatement_ok h
    unfold RForm.opts
    rw [k]
    rfl
  obtain ⟨g, g1, g2⟩ := h3 cls hm
  unfold formfields
  simp only [chosenExclude, chosenFields, Option.bind_some, Option.none_or, g1]
  rw [g2]
  rfl

/-- C104.  Lists and widgets that are given win over those of `options`. -/
theorem C104_override (gen : Gen) (model : DModel) (l x : List Str) (w : WArg) (o : Opts) (declared : Option (Dict Str RForm)) (mn extra : Option Nat) :
    formfields gen model (.names l) (.names x) (some w) (some o) declared mn extra = formfields gen model (.names l) (.names x) (some w) none declared mn extra := rfl

theorem parts_congr (gen : Gen) (fl ex : Option PFL) (w : Option WArg) : ∀ m : List (Str × DField), (∀ x f, (x, f) ∈ m → skip fl ex x = false → ¬ ForObjects f) →
    richParts (fun _ _ _ _ _ => .error .typeError) [] fl ex w m = richParts gen [] fl ex w m
  | [], _ => rfl
  | (x, f) :: m, h => by
    rw [richParts, richParts, parts_congr gen fl ex w m (fun y g hy => h y g (List.mem_cons_of_mem _ hy))]
    by_cases hs : skip fl ex x = true
    · rw [if_pos hs, if_pos hs]
    · rw [if_neg hs, if_neg hs]
      have hn := h x f (by simp) (by simpa using hs)
      have : richPart (fun _ _ _ _ _ => .error .typeError) [] fl ex w x f = richPart gen [] fl ex w x f := by
        unfold richPart
        cases widgetFor w x with
        | error e => rfl
        | ok wd =>
          simp only
          by_cases hc : f.base.choices ≠ []
          · rw [if_pos hc, if_pos hc]
          · rw [if_neg hc, if_neg hc]
            cases ht : f.base.type with
            | node k => exact absurd ⟨by simpa using hc, .inl ⟨k, ht⟩⟩ hn
            | nodeList k => exact absurd ⟨by simpa using hc, .inr ⟨k, ht⟩⟩ hn
            | _ => rfl
      rw [this]

/-- C104.  Without `declared_subforms`, fields for text are made as ever, -/
theorem C104_plain (gen : Gen) (model : DModel) (fields exclude : ListArg) (hf : NotParsed fields) (he : NotParsed exclude) (w : Option WArg) (mn extra : Option Nat)
    (hx : ∀ x f, (x, f) ∈ model → '.' ∉ x) (h : ∀ x f, (x, f) ∈ model → Chosen fields exclude x → ¬ ForObjects f) :
    formfields gen model fields exclude w none none mn extra = formfields gen model fields exclude w none (some []) mn extra := by
  obtain ⟨ex, hex⟩ := chosenExclude_ok none hf he
  unfold formfields
  simp only [Option.bind_none, hex, Option.or_none]
  unfold richFields
  rw [parts_congr gen _ ex w model (fun x f hm hs => h x f hm ((chosen_iff hf he (hx x f hm) hex).1 hs))]

theorem parts_error (fl ex : Option PFL) (w : Option WArg) : ∀ m : List (Str × DField), (∃ x f, (x, f) ∈ m ∧ skip fl ex x = false ∧ ForObjects f) →
    ∃ e, richParts (fun _ _ _ _ _ => .error .typeError) [] fl ex w m = .error e
  | [], h => by obtain ⟨x, f, h, -⟩ := h; cases h
  | (y, g) :: m, h => by
    rw [richParts]
    by_cases hs : skip fl ex y = true
    · rw [if_pos hs]
      obtain ⟨x, f, hm, hs', ho⟩ := h
      rcases List.mem_cons.1 hm with hm | hm
      · cases hm; rw [hs] at hs'; cases hs'
      · exact parts_error fl ex w m ⟨x, f, hm, hs', ho⟩
    · rw [if_neg hs]
      cases hp : richPart (fun _ _ _ _ _ => .error .typeError) [] fl ex w y g with
      | error e => exact ⟨e, rfl⟩
      | ok p =>
        obtain ⟨x, f, hm, hs', ho⟩ := h
        rcases List.mem_cons.1 hm with hm | hm
        · cases hm
          exfalso
          unfold richPart at hp
          obtain ⟨hc, hk⟩ := ho
          cases hw : widgetFor w y with
          | error e => rw [hw] at hp; cases hp
          | ok wd =>
            rw [hw] at hp
            simp only [hc, ne_eq, not_true_eq_false, if_false] at hp
            rcases hk with ⟨k, hk⟩ | ⟨k, hk⟩ <;> rw [hk] at hp <;> cases hp
        · obtain ⟨e, he⟩ := parts_error fl ex w m ⟨x, f, hm, hs', ho⟩
          simp only [he]
          exact ⟨e, rfl⟩

/-- but with a NodeField or NodeListField among the chosen ones the function raises an exception, though the documentation says that `declared_subforms` is optional; -/
theorem C104_required (gen : Gen) (model : DModel) (fields exclude : ListArg) (hf : NotParsed fields) (he : NotParsed exclude) (w : Option WArg) (mn extra : Option Nat)
    (x : Str) (f : DField) (hm : (x, f) ∈ model) (hx : '.' ∉ x) (hc : Chosen fields exclude x) (ho : ForObjects f) :
    ∃ e, formfields gen model fields exclude w none none mn extra = .error e := by
  obtain ⟨ex, hex⟩ := chosenExclude_ok none hf he
  obtain ⟨e, h⟩ := parts_error (chosenFields none fields) ex w model ⟨x, f, hm, (chosen_iff hf he hx hex).2 hc, ho⟩
  refine ⟨e, ?_⟩
  unfold formfields
  simp only [Option.bind_none, hex, Option.or_none]
  unfold richFields
  rw [h]

/-- a `TypeError`, if there is no field of an unsupported type in front of it, and `widgets` is a dictionary. -/
theorem C104_type_error (gen : Gen) (model before after : DModel) (fields exclude : ListArg) (hf : NotParsed fields) (he : NotParsed exclude) (ws : List (Str × WArg)) (mn extra : Option Nat)
    (x : Str) (f : DField) (hm : model = before ++ (x, f) :: after) (hx : ∀ y g, (y, g) ∈ model → '.' ∉ y) (hb : ∀ y g, (y, g) ∈ before → Chosen fields exclude y → g.base.choices ≠ [] ∨ g.base.type ≠ .other) (hc : Chosen fields exclude x)
    (ho : ForObjects f) : formfields gen model fields exclude (some (.dict ws)) none none mn extra = .error .typeError := by
  obtain ⟨ex, hex⟩ := chosenExclude_ok none hf he
  have key : ∀ before : DModel, (∀ y g, (y, g) ∈ before → skip (chosenFields none fields) ex y = false → g.base.choices ≠ [] ∨ g.base.type ≠ .other) →
      richParts (fun _ _ _ _ _ => .error .typeError) [] (chosenFields none fields) ex (some (.dict ws)) (before ++ (x, f) :: after) = .error .typeError := by
    intro before
    induction before with
    | nil =>
      intro _
      have hs := (chosen_iff hf he (hx x f (by rw [hm]; simp)) hex).2 hc
      rw [List.nil_append, richParts, if_neg (by simp [hs])]
      unfold richPart
      simp only [widgetFor, ho.1, ne_eq, not_true_eq_false, if_false]
      rcases ho.2 with ⟨k, hk⟩ | ⟨k, hk⟩ <;> rw [hk] <;> rfl
    | cons q before ih =>
      intro h
      obtain ⟨y, g⟩ := q
      have ih := ih (fun z k hz => h z k (List.mem_cons_of_mem _ hz))
      rw [List.cons_append, richParts]
      by_cases hs : skip (chosenFields none fields) ex y = true
      · rw [if_pos hs]; exact ih
      · rw [if_neg hs]
        have hg := h y g (by simp) (by simpa using hs)
        cases hp : richPart (fun _ _ _ _ _ => .error .typeError) [] (chosenFields none fields) ex (some (.dict ws)) y g with
        | ok p => simp only [ih]
        | error e =>
          refine congrArg Except.error ?_
          unfold richPart at hp
          simp only [widgetFor] at hp
          by_cases hch : g.base.choices ≠ []
          · rw [if_pos hch] at hp; cases hp
          · rw [if_neg hch] at hp
            have ht : g.base.type ≠ .other := hg.resolve_left hch
            cases hk : g.base.type with
            | other => exact absurd hk ht
            | node k =>
              rw [hk] at hp
              exact (Except.error.inj hp).symm
            | nodeList k =>
              rw [hk] at hp
              exact (Except.error.inj hp).symm
            | _ => rw [hk] at hp; cases hp
  unfold formfields
  simp only [Option.bind_none, hex, Option.some_or]
  unfold richFields
  rw [hm, key before (fun y g hy hs => hb y g hy ((chosen_iff hf he (hx y g (by rw [hm]; simp [hy])) hex).1 hs))]

/-- C104.  If `fields` has been parsed, `exclude` has no effect. -/
theorem C104_counterexample_parsed (gen : Gen) (model : DModel) (p : PFL) (exclude : ListArg) (w : Option WArg) (declared : Option (Dict Str RForm)) (mn extra : Option Nat) :
    formfields gen model (.parsed p) exclude w none declared mn extra = formfields gen model (.parsed p) .none w none declared mn extra := rfl

/-- A parsed `exclude` is a `TypeError`. -/
theorem C104_counterexample_exclude (gen : Gen) (model : DModel) (fields : ListArg) (hf : NotParsed fields) (p : PFL) (w : Option WArg) (o : Option Opts) (declared : Option (Dict Str RForm))
    (mn extra : Option Nat) : formfields gen model fields (.parsed p) w o declared mn extra = .error .typeError := by
  cases fields with
  | parsed p => exact absurd rfl (hf p)
  | none => rfl
  | names l => rfl

/-- The names of what is returned. -/
def partNames (g : Generated) : List Str × List Str × List Str := (g.fields.map (·.1), g.subforms.map (·.1), g.formsets.map (·.1))

/-- All fields of the example; the name has a class of its own. -/
example : (partForm.bind (fun d => formfields (subFactory shopModels 2) (shopModels 0) .none .none none none (some [(c%"name", d)]) none none)).map
    (fun g => (partNames g, (g.subforms.get? c%"name").bind RForm.label)) = .ok (([c%"main_title"], [c%"name"], [c%"parts", c%"tags"]), some c%"A part") := by decide +kernel

/-- Some of them, in the order of the list. -/
example : (formfields (subFactory shopModels 2) (shopModels 0) (.names [c%"tags", c%"name.id", c%"parts", c%"main_title"]) (.names [c%"main_title"]) none none (some []) (some 3) none).map partNames =
    .ok ([], [c%"name"], [c%"tags", c%"parts"]) := by decide +kernel

/-- Without `declared_subforms`: only if no objects are among them. -/
example : formfields (subFactory shopModels 2) (shopModels 0) .none .none (some (.dict [])) none none none none = .error .typeError :=
  C104_type_error (subFactory shopModels 2) (shopModels 0) [(c%"main_title", ⟨⟨.string, [], none, 0⟩, none, some c%"help"⟩)] _ .none .none (by simp [NotParsed]) (by simp [NotParsed]) [] none none
    c%"name" ⟨⟨.node 1, [], none, 1⟩, none, none⟩ rfl (by
      intro y g h
      simp only [shopModels, List.mem_cons, Prod.mk.injEq, List.not_mem_nil, or_false] at h
      rcases h with ⟨rfl, -⟩ | ⟨rfl, -⟩ | ⟨rfl, -⟩ | ⟨rfl, -⟩ <;> decide) (fun y g h _ => .inr (by obtain ⟨rfl, rfl⟩ := Prod.mk.injEq .. ▸ List.mem_singleton.1 h; simp)) ⟨by simp, by simp⟩ ⟨rfl, .inl ⟨1, rfl⟩⟩

/-- A widget in the place of the dictionary of widgets - e.g. the one given for the name of a NodeField, which is passed on for the whole subform - is a `TypeError`. -/
theorem C104_counterexample_widget (gen : Gen) (x : Str) (f : DField) (model : DModel) (k : Nat) (declared : Option (Dict Str RForm)) (mn extra : Option Nat) :
    formfields gen ((x, f) :: model) .none .none (some (.widget k)) none declared mn extra = .error .typeError := by
  cases declared <;> rfl

end Props
