import Verif.Props.FormUpdate
import Verif.Props.Initial
import Verif.Props.Record
/-
Property C70: saving a form writes the submitted data, and only them, into the document; a form made from the saved document shows them.

Model: `updateOwn` (Verif/Forms/Update.lean), with `setattr` being the assignment to fields of Verif/XmlMap/Manager.lean; `xmlobjectToDict`
(Verif/Forms/Initial.lean).
-/
namespace Props
open XPath Xml Spec Fields Forms Py

/-- The class of the form's instance: the single-value fields, by name, and how their values appear in forms. -/
structure FormModel (A : Type) where
  ι : Type
  [eq : DecidableEq ι]
  name : ι → Str
  look : Str → Option ι
  look_iff : ∀ i x, look x = some i ↔ name i = x
  fs : ι → RField
  /-- The value of the field as form data, -/
  show_ : (i : ι) → (fs i).V → CVal A
  /-- and form data as a value of the field. -/
  take : (i : ι) → CVal A → Option (fs i).V
  take_show : ∀ i c v, take i c = some v → show_ i v = c

instance {A : Type} (m : FormModel A) : DecidableEq m.ι := m.eq

/-- `setattr(instance, name, value)`, the instance having its element at `a` (fields.py:1130-1131 `Field.set_for_node`): the assignment to the field; a
plain Python attribute otherwise.  (A value that the type of the field excludes is a type error; the theorem is about other values.) -/
def setattrDoc [PyUnicode] {A : Type} (m : FormModel A) (eng : Engine) (ctx : Ctx) (a : Node.Addr) (x : Str) (v : CVal A) (s : Node) : Except PyErr Unit × Node :=
  match m.look x with
  | none => (.ok (), s)
  | some i => match m.take i v with
    | none => (.error .typeError, s)
    | some w => ROp.run (fs := m.fs) eng ctx a (.set i w) s

/-- What reading the field as form data gives. -/
def getattrDoc [PyUnicode] {A : Type} (m : FormModel A) (eng : Engine) (ctx : Ctx) (a : Node.Addr) (i : m.ι) (s : Node) : Except PyErr (CVal A) :=
  (readRec m.fs eng ctx a s i).map (m.show_ i)

/-! ### the loop, for attributes under an invariant -/

structure AttributesOn {A D R : Type} (Inv : D → Prop) (Fld : Str → Prop) (Ok : Str → CVal A → Prop) (ret : CVal A → R) (get : Str → D → R)
    (setattr : Str → CVal A → D → Except PyErr Unit × D) : Prop where
  run : ∀ x v d, Inv d → Fld x → Ok x v → (setattr x v d).1 = .ok () ∧ Inv (setattr x v d).2 ∧ get x (setattr x v d).2 = ret v ∧
    ∀ y, Fld y → y ≠ x → get y (setattr x v d).2 = get y d

theorem updateLoop_on {A D R : Type} {Inv : D → Prop} {Fld : Str → Prop} {Ok : Str → CVal A → Prop} {ret : CVal A → R} {get : Str → D → R}
    {setattr : Str → CVal A → D → Except PyErr Unit × D} (ha : AttributesOn Inv Fld Ok ret get setattr) (fields exclude : MetaList) (names : List Str)
    (cleaned : Dict Str (CVal A)) (d : D) (hd : Inv d)
    (hok : ∀ x ∈ names, skipUpdate fields exclude x = false → ∀ v, cleaned.get? x = some v → Fld x ∧ Ok x (stored v)) :
    let r := updateLoop fields exclude setattr names cleaned d
    r.1 = .ok () ∧ Inv r.2.2 ∧ (∀ x, Fld x → get x r.2.2 = if x ∈ names ∧ skipUpdate fields exclude x = false
      then (match cleaned.get? x with | some v => ret (stored v) | none => get x d) else get x d) := by
  induction names generalizing cleaned d with
  | nil => exact ⟨rfl, hd, fun x _ => by simp [updateLoop]⟩
  | cons n names ih =>
    rw [updateLoop]
    have hok' : ∀ x ∈ names, skipUpdate fields exclude x = false → ∀ v, cleaned.get? x = some v → Fld x ∧ Ok x (stored v) :=
      fun x hx => hok x (by simp [hx])
    by_cases hs : skipUpdate fields exclude n = true
    · rw [if_pos hs]
      obtain ⟨h1, h0, h2⟩ := ih cleaned d hd hok'
      refine ⟨h1, h0, fun x hf => ?_⟩
      rw [h2 x hf]
      by_cases hx : x = n
      · subst hx; simp [hs]
      · simp [hx]
    · rw [if_neg hs]
      have hs' : skipUpdate fields exclude n = false := by simpa using hs
      cases hc : cleaned.get? n with
      | none =>
        simp only
        obtain ⟨h1, h0, h2⟩ := ih cleaned d hd hok'
        refine ⟨h1, h0, fun x hf => ?_⟩
        rw [h2 x hf]
        by_cases hx : x = n
        · subst hx; simp [hc]
        · simp [hx]
      | some v =>
        simp only [stored_eq]
        obtain ⟨hfn, hon⟩ := hok n (by simp) hs' v hc
        obtain ⟨k1, k2, k3, k4⟩ := ha.run n (stored v) d hd hfn hon
        cases hsa : setattr n (stored v) d with
        | mk r d' =>
          rw [hsa] at k1 k2 k3 k4
          simp only at k1 k2 k3 k4
          subst k1
          simp only
          have hcl : ∀ x, ((if v.isEmpty = true then cleaned.set n .null else cleaned).get? x).map stored = (cleaned.get? x).map stored := by
            intro x
            by_cases he : v.isEmpty = true
            · rw [if_pos he, Dict.get?_set]
              by_cases hx : x = n
              · subst hx
                rw [if_pos rfl, hc]
                have : stored v = .null := by rw [← stored_eq, if_pos he]
                simp only [Option.map_some, this]; rfl
              · rw [if_neg hx]
            · rw [if_neg he]
          obtain ⟨h1, h0, h2⟩ := ih (if v.isEmpty = true then cleaned.set n .null else cleaned) d' k2 (by
            intro x hx hsx w hw
            have e := hcl x
            rw [hw] at e
            cases hq : cleaned.get? x with
            | none => rw [hq] at e; simp at e
            | some u =>
              rw [hq] at e
              simp only [Option.map_some, Option.some.injEq] at e
              rw [e]
              exact hok' x hx hsx u hq)
          refine ⟨h1, h0, fun x hf => ?_⟩
          rw [h2 x hf]
          have key : ∀ y : R, (match (if v.isEmpty = true then cleaned.set n .null else cleaned).get? x with | some v => ret (stored v) | none => y) =
              (match cleaned.get? x with | some v => ret (stored v) | none => y) := by
            intro y
            have := hcl x
            cases h5 : (if v.isEmpty = true then cleaned.set n .null else cleaned).get? x <;> cases h6 : cleaned.get? x <;> rw [h5, h6] at this
            · simp at this
            · simp at this
            · simp only [Option.map_some, Option.some.injEq] at this; simp only [this]
          rw [key]
          by_cases hx : x = n
          · subst hx
            rw [hc]
            simp only [hs', List.mem_cons, true_or, and_true, if_true, k3]
            by_cases hm : x ∈ names <;> simp [hm]
          · rw [k4 x hf hx]
            simp [hx]

/-! ### C70 -/

/-- The form data that a field keeps: they are a value of the field's type that the mapper keeps. -/
def FormModel.Keeps {A : Type} (m : FormModel A) (i : m.ι) (c : CVal A) : Prop := ∃ v, m.take i c = some v ∧ (m.fs i).Keeps v

/-- C70.  A form is saved on an instance whose class has fields as in C69 (other fields may be there, without form data).  Then `update_instance` succeeds, changes
nothing outside the instance's element, and afterwards each field that the form assigns to reads the submitted value (nothing, for the empty string), and each
other field what it read before. -/
theorem C70_save [PyUnicode] {A : Type} (m : FormModel A) (eng : Engine) (heng : EngineOk eng) (ctx : Ctx) (hf : ∀ i, (m.fs i).Ok ctx)
    (hpart : ∀ i j, i ≠ j → Part (m.fs i).p (m.fs j).p)
    (fields exclude : Option (List Str)) (modelNames : List Str) (hm : ∀ x ∈ modelNames, '.' ∉ x) (cleaned : Dict Str (CVal A))
    (hc : ∀ x v, cleaned.get? x = some v → ∃ i, m.name i = x ∧ m.Keeps i (stored v))
    (a : Node.Addr) (s n : Node) (hs : s.get a = some n) (ht : Tidy m.fs n) :
    ∃ cleaned' n', updateOwn (metaList fields) (metaList exclude) modelNames (setattrDoc m eng ctx a) cleaned s = (.ok (), cleaned', s.modify a (fun _ => n')) ∧
      Tidy m.fs n' ∧
      (∀ i v, Assigns fields exclude modelNames (m.name i) → cleaned.get? (m.name i) = some v →
        getattrDoc m eng ctx a i (s.modify a (fun _ => n')) = .ok (stored v)) ∧
      (∀ i, ¬ (Assigns fields exclude modelNames (m.name i) ∧ m.name i ∈ cleaned.keys) →
        getattrDoc m eng ctx a i (s.modify a (fun _ => n')) = getattrDoc m eng ctx a i s) := by
  have hinj : ∀ i j, m.name i = m.name j → i = j := by
    intro i j h
    have h1 := (m.look_iff i _).2 rfl
    have h2 := (m.look_iff j _).2 rfl
    rw [h, h2] at h1
    simpa using h1.symm
  have hlook : ∀ i, m.look (m.name i) = some i := fun i => (m.look_iff i _).2 rfl
  have ha : AttributesOn (fun s' : Node => ∃ n', s' = s.modify a (fun _ => n') ∧ Tidy m.fs n') (fun x => ∃ i, m.name i = x)
      (fun x v => ∃ i, m.name i = x ∧ m.Keeps i v) Except.ok
      (fun x s' => match m.look x with | none => .error .attributeError | some i => getattrDoc m eng ctx a i s') (setattrDoc m eng ctx a) := by
    refine ⟨?_⟩
    rintro _ c _ ⟨n1, rfl, ht1⟩ ⟨i, rfl⟩ ⟨j, hj, v, hv, hk⟩
    obtain rfl := hinj _ _ hj
    have hg : Node.get a (s.modify a (fun _ => n1)) = some n1 := by rw [Node.get_modify, hs]; rfl
    obtain ⟨n2, r1, r2, r3, -⟩ := rop_run (fs := m.fs) heng hf hpart hg ht1 (.set j v) hk
    rw [Node.modify_modify] at r1 r3
    have hset : setattrDoc m eng ctx a (m.name j) c (s.modify a (fun _ => n1)) = (.ok (), s.modify a (fun _ => n2)) := by
      unfold setattrDoc
      rw [hlook]
      simp only [hv]
      rw [r1]
      rfl
    have hrd : ∀ k, readRec m.fs eng ctx a (s.modify a (fun _ => n2)) k = _ := fun k => congrFun r3 k
    rw [hset]
    refine ⟨rfl, ⟨n2, rfl, r2⟩, ?_, ?_⟩
    · simp only [hlook, getattrDoc, hrd, ROp.replay, Function.update_self]
      simp only [Except.map, m.take_show j c v hv]
    · rintro _ ⟨k, rfl⟩ hne
      have hkj : k ≠ j := fun h => hne (by rw [h])
      simp only [hlook, getattrDoc, hrd, ROp.replay, Function.update_of_ne hkj]
  have hnames : ∃ names, fieldsInOrder (metaList fields) modelNames = .ok names := by cases fields <;> exact ⟨_, rfl⟩
  obtain ⟨names, hn⟩ := hnames
  have hid : s.modify a (fun _ => n) = s := Node.modify_id hs rfl
  obtain ⟨h1, ⟨n', h0, h5⟩, h2⟩ := updateLoop_on ha (metaList fields) (metaList exclude) names cleaned s ⟨n, hid.symm, ht⟩
    (fun x _ _ v hv => ⟨(hc x v hv).imp (fun i h => h.1), hc x v hv⟩)
  unfold updateOwn
  rw [hn]
  simp only
  cases hr : updateLoop (metaList fields) (metaList exclude) (setattrDoc m eng ctx a) names cleaned s with
  | mk r q =>
    rw [hr] at h1 h0 h2
    simp only at h1 h0 h2
    subst h1
    refine ⟨q.1, n', by rw [← h0], h5, fun i v hx hv => ?_, fun i hx => ?_⟩
    · have := h2 (m.name i) ⟨i, rfl⟩
      rw [if_pos ((assigns_iff fields exclude modelNames hm names hn _).2 hx), hv, h0] at this
      simpa only [hlook] using this
    · have := h2 (m.name i) ⟨i, rfl⟩
      rw [h0] at this
      simp only [hlook] at this
      rw [this]
      by_cases hcn : m.name i ∈ names ∧ skipUpdate (metaList fields) (metaList exclude) (m.name i) = false
      · rw [if_pos hcn]
        have : m.name i ∉ cleaned.keys := fun hk => hx ⟨(assigns_iff fields exclude modelNames hm names hn _).1 hcn, hk⟩
        rw [(Dict.get?_none cleaned _).2 this]
      · rw [if_neg hcn]

/-- The instance as `xmlobject_to_dict` sees it: the fields in order, with their values. -/
def objOf {A : Type} (m : FormModel A) (vals : m.ι → CVal A) : List m.ι → Obj (CVal A)
  | [] => .nil
  | i :: is => .scalar (m.name i) (vals i) (objOf m vals is)

theorem fieldsOf_objOf {A : Type} (m : FormModel A) (vals : m.ι → CVal A) (is : List m.ι) :
    fieldsOf (objOf m vals is) = is.map (fun i => (m.name i, FVal.scalar (vals i))) := by
  induction is with
  | nil => rfl
  | cons i is ih => simp [objOf, fieldsOf, ih]

/-- C70.  Saved data come back: a form made from the saved instance has, as initial data of each field that was assigned, the submitted value. -/
theorem C70_reload [PyUnicode] {A : Type} (m : FormModel A) (eng : Engine) (heng : EngineOk eng) (ctx : Ctx) (hf : ∀ i, (m.fs i).Ok ctx)
    (hpart : ∀ i j, i ≠ j → Part (m.fs i).p (m.fs j).p)
    (fields exclude : Option (List Str)) (is : List m.ι) (his : is.Nodup) (hnames : ∀ i ∈ is, m.name i ≠ [] ∧ '-' ∉ m.name i ∧ '.' ∉ m.name i)
    (cleaned : Dict Str (CVal A)) (hc : ∀ x v, cleaned.get? x = some v → ∃ i, m.name i = x ∧ m.Keeps i (stored v))
    (a : Node.Addr) (s n : Node) (hs : s.get a = some n) (ht : Tidy m.fs n) :
    ∃ cleaned' s', updateOwn (metaList fields) (metaList exclude) (is.map m.name) (setattrDoc m eng ctx a) cleaned s = (.ok (), cleaned', s') ∧
      ∀ vals, (∀ i ∈ is, getattrDoc m eng ctx a i s' = .ok (vals i)) → ∀ fields' exclude', ∀ i ∈ is, Shown fields' exclude' (m.name i) →
        ∀ v, Assigns fields exclude (is.map m.name) (m.name i) → cleaned.get? (m.name i) = some v →
          (xmlobjectToDict (objOf m vals is) fields' exclude' []).get? (m.name i) = some (.scalar (stored v)) := by
  obtain ⟨cleaned', n', h1, -, h3, -⟩ := C70_save m eng heng ctx hf hpart fields exclude (is.map m.name)
    (by intro x hx; obtain ⟨i, hi, rfl⟩ := List.mem_map.1 hx; exact (hnames i hi).2.2) cleaned hc a s n hs ht
  refine ⟨cleaned', _, h1, fun vals hv fields' exclude' i hi hsh v has hcv => ?_⟩
  have hinj : ∀ i j, m.name i = m.name j → i = j := by
    intro i j h
    have h1 := (m.look_iff i _).2 rfl
    have h2 := (m.look_iff j _).2 rfl
    rw [h, h2] at h1
    simpa using h1.symm
  have e : vals i = stored v := by
    have := h3 i v has hcv
    rw [hv i hi] at this
    simpa using this
  have hmem : (m.name i, FVal.scalar (vals i)) ∈ fieldsOf (objOf m vals is) := by
    rw [fieldsOf_objOf]; exact List.mem_map.2 ⟨i, hi, rfl⟩
  have hg : Good (objOf m vals is) := by
    refine ⟨?_, ?_, ?_, ?_⟩ <;> rw [fieldsOf_objOf]
    · rw [List.map_map]
      rw [List.nodup_iff_pairwise_ne] at *
      exact List.pairwise_map.2 (his.imp (fun h e => h (hinj _ _ e)))
    · intro n hn
      rw [List.map_map] at hn
      obtain ⟨j, hj, rfl⟩ := List.mem_map.1 hn
      exact ⟨(hnames j hj).1, (hnames j hj).2.1⟩
    · intro n sub hx
      obtain ⟨j, -, hj⟩ := List.mem_map.1 hx
      simp at hj
    · intro n sub hx
      obtain ⟨j, -, hj⟩ := List.mem_map.1 hx
      simp at hj
  refine (C50_keys _ hg fields' exclude' [] _ _).2 ⟨m.name i, [], ?_, hsh, ?_⟩
  · rw [← e]; exact .scalar hmem
  · rw [if_pos rfl]; exact List.intercalate_singleton.symm

/-! ### an example -/

/-- Values of form fields that are not strings. -/
inductive Plain2 where
  | int (n : Int)
  | bool (b : Bool)
  | date (d : DateTime)
  deriving DecidableEq

/-- A class with a title, a note with an attribute predicate, a number and a flag, and its form data. -/
def pageModel : FormModel Plain2 where
  ι := Fin 4
  name := fun | 0 => c%"title" | 1 => c%"note" | 2 => c%"pages" | 3 => c%"done"
  look := fun x => if x = c%"title" then some 0 else if x = c%"note" then some 1 else if x = c%"pages" then some 2 else if x = c%"done" then some 3 else none
  look_iff := by
    intro i x
    match i with
    | 0 | 1 | 2 | 3 => simp only; constructor <;> intro h <;> (first | (subst h; decide) | (split_ifs at h <;> simp_all))
  fs := fun
    | 0 => strField c%"title" (ast c%"title") [.child ⟨none, c%"title"⟩ []]
    | 1 => strField c%"note[@type='a']" (ast c%"note[@type='a']") [.child ⟨none, c%"note"⟩ [.attr ⟨none, c%"type"⟩ (some (.str c%"a"))]]
    | 2 => intField xpathNumber c%"extent/@pages" (ast c%"extent/@pages") [.child ⟨none, c%"extent"⟩ [], .attr ⟨none, c%"pages"⟩]
    | 3 => boolField c%"yes" none c%"@done" (ast c%"@done") [.attr ⟨none, c%"done"⟩]
  show_ := fun
    | 0 => fun (v : Option Str) => match v with | none => .null | some s => .str s
    | 1 => fun (v : Option Str) => match v with | none => .null | some s => .str s
    | 2 => fun (v : Option Int) => match v with | none => .null | some n => .other (.int n)
    | 3 => fun (v : Option Bool) => match v with | none => .null | some b => .other (.bool b)
  take := fun
    | 0 => fun c => match c with | .null => some (none : Option Str) | .str s => some (some s : Option Str) | _ => none
    | 1 => fun c => match c with | .null => some (none : Option Str) | .str s => some (some s : Option Str) | _ => none
    | 2 => fun c => match c with | .null => some (none : Option Int) | .other (.int n) => some (some n : Option Int) | _ => none
    | 3 => fun c => match c with | .other (.bool b) => some (some b : Option Bool) | _ => none
  take_show := by
    intro i c v h
    match i with
    | 0 | 1 => cases c with
      | null => cases h; rfl
      | str _ => cases h; rfl
      | other _ => cases h
    | 2 => match c with
      | .null => cases h; rfl
      | .other (.int n) => cases h; rfl
      | .str _ => cases h
      | .other (.bool _) => cases h
      | .other (.date _) => cases h
    | 3 => match c with
      | .null => cases h
      | .other (.bool n) => cases h; rfl
      | .str _ => cases h
      | .other (.int _) => cases h
      | .other (.date _) => cases h

theorem pageModel_ok : ∀ i, (pageModel.fs i).Ok sampleCtx := fun i => match i with
  | (0 : Fin 4) => ⟨⟨by decide, by rfl, by decide, by decide⟩, by decide, by intro h; cases h⟩
  | (1 : Fin 4) => ⟨⟨by decide, by rfl, by decide, by decide⟩, by decide, by intro h; cases h⟩
  | (2 : Fin 4) => ⟨⟨by decide, by rfl, by decide, by decide⟩, by decide, by intro h; cases h⟩
  | (3 : Fin 4) => ⟨⟨by decide, by rfl, by decide, by decide⟩, by decide, by intro h; cases h⟩

theorem pageModel_part : ∀ i j, i ≠ j → Part (pageModel.fs i).p (pageModel.fs j).p := by
  have h : ∀ i j : Fin 4, i < j → Part (pageModel.fs i).p (pageModel.fs j).p := by
    intro i j h
    match i, j, h with
    | 0, 1, _ | 0, 2, _ | 1, 2, _ => exact .inl (C69_apart_names (by decide) _ _)
    | 0, 3, _ | 1, 3, _ | 2, 3, _ => trivial
    | 3, j, h => exact absurd h (by omega)
  intro i j hij
  revert i j
  show ∀ i j : Fin 4, i ≠ j → _
  intro i j hij
  by_cases h' : i < j
  · exact h i j h'
  · exact part_symm (h j i (by omega))

/-- The form of this class, without the field `done`, is saved with title "T", an empty note and 12 pages, on an instance that has a note. -/
example : ∃ cleaned' n', updateOwn .missing (.names [c%"done"]) [c%"title", c%"note", c%"pages", c%"done"] (setattrDoc pageModel refEngine sampleCtx [])
      [(c%"title", .str c%"T"), (c%"note", .str []), (c%"pages", .other (.int 12))]
      (bare.withChildren [(Node.mk (.elem ⟨none, c%"note"⟩) [(⟨none, c%"type"⟩, c%"a")] (some c%"old") [] none)]) = (.ok (), cleaned', n') ∧
    getattrDoc pageModel refEngine sampleCtx [] (0 : Fin 4) n' = .ok (.str c%"T") ∧ getattrDoc pageModel refEngine sampleCtx [] (1 : Fin 4) n' = .ok .null ∧
    getattrDoc pageModel refEngine sampleCtx [] (2 : Fin 4) n' = .ok (.other (.int 12)) := by
  obtain ⟨cleaned', n', h1, -, h3, -⟩ := C70_save pageModel refEngine refEngine_ok sampleCtx pageModel_ok pageModel_part none (some [c%"done"])
    [c%"title", c%"note", c%"pages", c%"done"] (by decide) [(c%"title", .str c%"T"), (c%"note", .str []), (c%"pages", .other (.int 12))]
    (by
      intro x v hv
      have := Dict.mem_of_get? hv
      simp only [List.mem_cons, Prod.mk.injEq, List.not_mem_nil, or_false] at this
      rcases this with ⟨rfl, rfl⟩ | ⟨rfl, rfl⟩ | ⟨rfl, rfl⟩
      · exact ⟨(0 : Fin 4), rfl, _, rfl, C69_keeps_string _ _ _ _ (fun v hv => by cases hv; decide)⟩
      · exact ⟨(1 : Fin 4), rfl, _, rfl, C69_keeps_string _ _ _ _ (fun v hv => by cases hv)⟩
      · exact ⟨(2 : Fin 4), rfl, _, rfl, C69_keeps_integer xpathNumber xpathNumber_ok _ _ _ _ (fun n hn => .inl (by decide))⟩)
    [] (bare.withChildren [(Node.mk (.elem ⟨none, c%"note"⟩) [(⟨none, c%"type"⟩, c%"a")] (some c%"old") [] none)]) _ rfl
    (C69_tidy_check _ _ (fun i => match (show Fin 4 from i) with | 0 => by decide | 1 => by decide | 2 => by decide | 3 => by decide))
  refine ⟨cleaned', _, h1, ?_, ?_, ?_⟩
  · exact h3 (0 : Fin 4) (.str c%"T") ⟨show _ ∈ _ from by decide, fun l hl => by cases hl; decide⟩ rfl
  · exact h3 (1 : Fin 4) (.str []) ⟨show _ ∈ _ from by decide, fun l hl => by cases hl; decide⟩ rfl
  · exact h3 (2 : Fin 4) (.other (.int 12)) ⟨show _ ∈ _ from by decide, fun l hl => by cases hl; decide⟩ rfl

end Props
