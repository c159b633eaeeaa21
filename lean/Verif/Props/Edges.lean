import Verif.Props.DateField
import Verif.Props.Formsets
import Verif.Props.FormUpdate
import Verif.Props.Classes
import Verif.Props.Cerp
/-
More about C33 (fractions of seconds), C34 (elements without text), C49 (assignments that raise), C54 (subforms whose element is not in the document), C58 (bodies that are bytes),
C66 (names that are accepted).
-/
namespace Props
open XPath Xml Spec Fields Forms Py Core

/-! ### C33: fractions -/

theorem upTo_all : ∀ {k : Nat} {ds : Str}, ds ≠ [] → ds.length ≤ k → (∀ c ∈ ds, isDigit c = true) → ∃ more, upTo k ds = (ds, []) :: more
  | 0, _ :: _, _, h, _ => by simp at h
  | k + 1, [c], _, _, h => by
    cases k <;> exact ⟨[], by simp [upTo, h c (by simp)]⟩
  | k + 1, c :: d :: ds, _, hl, h => by
    obtain ⟨more, hm⟩ := upTo_all (k := k) (ds := d :: ds) (by simp) (by simpa using hl) (fun x hx => h x (by simp [hx]))
    exact ⟨_, by rw [upTo, if_pos (h c (by simp)), hm]; rfl⟩

theorem iso_fraction {d : DateTime} (h : d.valid = true) (hm : d.micro = 0) {ds : Str} (hds : ds ≠ []) (hl : ds.length ≤ 6) (hdig : ∀ c ∈ ds, isDigit c = true) :
    parseIso (isoformat d ++ '.' :: ds) = .ok { d with micro := digitsVal ds * 10 ^ (6 - ds.length) } ∧
    stripZ (isoformat d ++ '.' :: ds) = isoformat d ++ '.' :: ds ∧ stripTz (isoformat d ++ '.' :: ds) = .ok (isoformat d ++ '.' :: ds) := by
  obtain ⟨h1, h2, h3, h4, h5, h6, h7, h8, h9, h10⟩ := valid_bounds h
  have hiso : ∀ r, isoformat d ++ r = pad 4 d.year ++ '-' :: pad 2 d.month ++ '-' :: pad 2 d.day ++ 'T' :: pad 2 d.hour ++ ':' :: pad 2 d.minute
      ++ ':' :: pad 2 d.second ++ r := by intro r; unfold isoformat; rw [if_pos hm, List.append_nil]
  have key : ∀ (xs : List Directive) (r : Str) (res : DateTime × Str), First xs r { d with micro := 0 } res → First (fmtDateTime ++ xs) (isoformat d ++ r) ⟨1900, 1, 1, 0, 0, 0, 0⟩ res := by
    intro xs r res hres
    have := first_date h2 ⟨h3, h4⟩ ⟨h5, h6⟩ ([.ch 'T', .H, .ch ':', .M, .ch ':', .S] ++ xs)
      ('T' :: pad 2 d.hour ++ ':' :: pad 2 d.minute ++ ':' :: pad 2 d.second ++ r) ⟨1900, 1, 1, 0, 0, 0, 0⟩
      (first_time (d0 := ⟨d.year, d.month, d.day, 0, 0, 0, 0⟩) h7 h8 h9 xs r hres)
    rw [hiso]
    simpa [fmtDateTime, List.append_assoc] using this
  have hlt : digitsVal ds < 10 ^ ds.length := by
    clear hds hl
    induction ds with
    | nil => simp [digitsVal]
    | cons c ds ih =>
      rw [digitsVal_cons, List.length_cons, Nat.pow_succ]
      have := ih (fun x hx => hdig x (by simp [hx]))
      have hb := digit_bounds (hdig c (by simp))
      have : (c.toNat - 48) * 10 ^ ds.length ≤ 9 * 10 ^ ds.length := Nat.mul_le_mul_right _ (by omega)
      omega
  have hmic : digitsVal ds * 10 ^ (6 - ds.length) < 1000000 := by
    have h6 : 10 ^ ds.length * 10 ^ (6 - ds.length) = 1000000 := by rw [← Nat.pow_add, Nat.add_sub_cancel' hl]
    rw [← h6]
    exact Nat.mul_lt_mul_of_pos_right hlt (Nat.pow_pos (by omega))
  refine ⟨?_, ?_, ?_⟩
  · have t1 := key [] ('.' :: ds) _ (First.nil _ _)
    rw [List.append_nil] at t1
    obtain ⟨more, hmore⟩ := upTo_all hds hl hdig
    have t2 := key [.ch '.', .f] ('.' :: ds) ({ d with micro := digitsVal ds * 10 ^ (6 - ds.length) }, []) (by
      apply First.ch
      refine First.cons (x := .f) hmore ?_
      have hz : digitsVal (List.replicate (6 - ds.length) '0') = 0 := by
        have := digitsVal_zeros (6 - ds.length) []
        rwa [List.append_nil] at this
      simp only [Directive.store, digitsVal_append, List.length_replicate, hz, Nat.add_zero]
      exact First.nil _ _)
    unfold parseIso
    rw [strptime_rest t1]
    refine strptime_first t2 ?_
    simp only [DateTime.valid, Bool.and_eq_true, decide_eq_true_eq] at h ⊢
    exact ⟨h.1, hmic⟩
  · unfold stripZ
    rw [if_neg]
    intro hg
    rw [List.getLast?_append, List.getLast?_cons] at hg
    cases hq : ds.getLast? with
    | none => rw [List.getLast?_eq_none_iff] at hq; exact hds hq
    | some c =>
      rw [hq] at hg
      have : isDigit c = true := hdig c (List.mem_of_getLast? hq)
      simp at hg
      subst hg
      revert this; decide
  · obtain ⟨b1, b2, hb, gb1, gb2, -⟩ := pad2 (n := d.minute) (by omega)
    obtain ⟨s1, s2, hs, gs1, gs2, -⟩ := pad2 (n := d.second) (by omega)
    have notP : ∀ c, isDigit c = true → ¬ (c = '+' ∨ c = '-') := by rintro c hc (rfl | rfl) <;> revert hc <;> decide
    rw [hiso, hb, hs]
    generalize hA : pad 4 d.year ++ '-' :: pad 2 d.month ++ '-' :: pad 2 d.day ++ 'T' :: pad 2 d.hour = A
    have e : A ++ ':' :: [b1, b2] ++ ':' :: [s1, s2] ++ '.' :: ds = A ++ ([':', b1, b2, ':', s1, s2, '.'] ++ ds) := by simp
    rw [e]
    unfold stripTz
    rw [if_neg (by simp; omega)]
    have hk : (A ++ ([':', b1, b2, ':', s1, s2, '.'] ++ ds)).length - 6 = A.length + (1 + ds.length) := by simp; omega
    rw [hk, List.getElem?_append_right (by omega), Nat.add_sub_cancel_left]
    have : ∀ c, ([':', b1, b2, ':', s1, s2, '.'] ++ ds)[1 + ds.length]? = some c → ¬ (c = '+' ∨ c = '-') := by
      intro c hc
      have hmem : c ∈ [':', b1, b2, ':', s1, s2, '.'] ++ ds := List.mem_of_getElem? hc
      rcases List.mem_append.1 hmem with hmem | hmem
      · simp only [List.mem_cons, List.not_mem_nil, or_false] at hmem
        rcases hmem with rfl | rfl | rfl | rfl | rfl | rfl | rfl
        all_goals first | exact notP _ ‹_› | decide
      · exact notP c (hdig c hmem)
    cases hc : ([':', b1, b2, ':', s1, s2, '.'] ++ ds)[1 + ds.length]? with
    | none =>
      rw [List.getElem?_eq_none_iff] at hc
      simp at hc
      omega
    | some c => simp only [if_neg (this c hc)]

/-- A time stamp with one to six digits after the point, and perhaps a `Z`: the digits are the fraction of the second, `.5` is half a second. -/
theorem C33_fraction [PyUnicode] (eng : Engine) (heng : EngineOk eng) (ctx : Ctx) (xp : Str) (e : Expr) (p : List Step)
    (hf : SimpleField ctx xp e p) (d : DateTime) (hd : RealDateTime d) (hm : d.micro = 0) (ds : Str) (hds : ds ≠ []) (hl : ds.length ≤ 6) (hdig : ∀ c ∈ ds, isDigit c = true)
    (zone : Str) (hz : zone = [] ∨ zone = ['Z'])
    (a : Node.Addr) (s n : Node) (hs : s.get a = some n) (x : Ref) (hx : (Step.matches p n).head? = some x) (ht : refText n x = some (isoformat d ++ '.' :: ds ++ zone)) :
    readAs (dateTimeToPython false) eng ctx xp e (.elem a) s = (.ok (some { d with micro := digitsVal ds * 10 ^ (6 - ds.length) }), s) := by
  obtain ⟨h1, h2, h3⟩ := iso_fraction ((valid_iff d).mpr hd) hm hds hl hdig
  rw [readAs_run heng hf hs, hx]
  have hp : dateTimeParse (isoformat d ++ '.' :: ds ++ zone) = .ok { d with micro := digitsVal ds * 10 ^ (6 - ds.length) } := by
    rcases hz with rfl | rfl
    · rw [List.append_nil, dateTimeParse_eq, h2, h3]; exact h1
    · have : stripZ (isoformat d ++ '.' :: ds ++ ['Z']) = isoformat d ++ '.' :: ds := by
        unfold stripZ; rw [if_pos (by rw [List.getLast?_append]; rfl), List.dropLast_concat]
      rw [dateTimeParse_eq, this, h3]; exact h1
  cases x with
  | elem b =>
    simp only [refText, Option.map_eq_some_iff] at ht
    obtain ⟨m, hm, hv⟩ := ht
    simp only [Option.bind_some, seen, hm, Option.map_some, dateTimeToPython, hv, Bool.false_eq_true, if_false, hp]; rfl
  | attr b q => simp only [Option.bind_some, seen, ht, Option.map_some, dateTimeToPython, hp]; rfl
  | text b => simp only [Option.bind_some, seen, ht, Option.map_some, dateTimeToPython, hp]; rfl
  | tail b => simp only [Option.bind_some, seen, ht, Option.map_some, dateTimeToPython, hp]; rfl

/-- The hypotheses can be met: `2020-01-02T03:04:05.25Z`. -/
example : readAs (dateTimeToPython false) refEngine sampleCtx c%"a" (ast c%"a") (.elem []) (bare.withChildren [(Node.empty ⟨none, c%"a"⟩).setText (some c%"2020-01-02T03:04:05.25Z")])
    = (.ok (some ⟨2020, 1, 2, 3, 4, 5, 250000⟩), bare.withChildren [(Node.empty ⟨none, c%"a"⟩).setText (some c%"2020-01-02T03:04:05.25Z")]) :=
  C33_fraction refEngine refEngine_ok sampleCtx _ _ [.child ⟨none, c%"a"⟩ []] subField ⟨2020, 1, 2, 3, 4, 5, 0⟩ ((valid_iff _).mp (by decide)) rfl c%"25" (by decide) (by decide) (by decide)
    ['Z'] (.inr rfl) [] _ _ rfl (.elem [0]) (by decide) (by decide)

/-! ### C34: what is read -/

/-- Reading a date field: `None` if there is no match; TypeError if the match is an element without text; and whatever value is returned is a real date. -/
theorem C34_reads [PyUnicode] (eng : Engine) (heng : EngineOk eng) (ctx : Ctx) (xp : Str) (e : Expr) (p : List Step) (hf : SimpleField ctx xp e p)
    (a : Node.Addr) (s n : Node) (hs : s.get a = some n) :
    (Step.matches p n = [] → readAs dateToPython eng ctx xp e (.elem a) s = (.ok none, s)) ∧
    (∀ b m, (Step.matches p n).head? = some (.elem b) → n.get b = some m → m.text = none → readAs dateToPython eng ctx xp e (.elem a) s = (.error .typeError, s)) ∧
    (∀ d, (readAs dateToPython eng ctx xp e (.elem a) s).1 = .ok (some d) → RealDateTime d) := by
  have key : ∀ str d, (strptime fmtDate str).map some = .ok (some d) → RealDateTime d := by
    intro str d h
    rw [← valid_iff]
    unfold strptime at h
    split at h
    · split_ifs at h with hv
      · simp only [Except.map, Except.ok.injEq, Option.some.injEq] at h
        subst h; exact hv
      · simp [Except.map] at h
    · simp [Except.map] at h
  rw [readAs_run heng hf hs]
  refine ⟨fun h => by rw [h]; rfl, fun b m hb hm ht => ?_, fun d h => ?_⟩
  · rw [hb]
    simp only [Option.bind_some, seen, hm, Option.map_some, dateToPython, ht]
  · simp only at h
    cases hi : (Step.matches p n).head?.bind (seen n) with
    | none => rw [hi] at h; simp [dateToPython] at h
    | some it =>
      rw [hi] at h
      cases it with
      | str x => exact key x d h
      | elem m =>
        simp only [dateToPython] at h
        cases ht : m.text with
        | none => rw [ht] at h; simp at h
        | some x => rw [ht] at h; exact key x d h
      | num x => simp [dateToPython] at h
      | bool b => simp [dateToPython] at h

/-- The hypotheses can be met: an empty element. -/
example : readAs dateToPython refEngine sampleCtx c%"a" (ast c%"a") (.elem []) (bare.withChildren [Node.empty ⟨none, c%"a"⟩]) = (.error .typeError, bare.withChildren [Node.empty ⟨none, c%"a"⟩]) :=
  (C34_reads refEngine refEngine_ok sampleCtx _ _ _ subField [] _ _ rfl).2.1 [0] (Node.empty ⟨none, c%"a"⟩) (by decide) (by decide) rfl

/-! ### C49: assignments that raise -/

/-- Assignments, with a log of what they returned. -/
def logged {A D : Type} (setattr : Str → CVal A → D → Except PyErr Unit × D) (x : Str) (v : CVal A) (d : D × List (Str × Except PyErr Unit)) :
    Except PyErr Unit × (D × List (Str × Except PyErr Unit)) :=
  ((setattr x v d.1).1, ((setattr x v d.1).2, d.2 ++ [(x, (setattr x v d.1).1)]))

theorem updateLoop_logged {A D : Type} (fields exclude : MetaList) (setattr : Str → CVal A → D → Except PyErr Unit × D) (names : List Str) (cl : Dict Str (CVal A)) (d : D)
    (l0 : List (Str × Except PyErr Unit)) :
    let r := updateLoop fields exclude (logged setattr) names cl (d, l0)
    let r' := updateLoop fields exclude setattr names cl d
    ∃ new, r.2.2.2 = l0 ++ new ∧ r'.1 = r.1 ∧ r'.2.1 = r.2.1 ∧ r'.2.2 = r.2.2.1 ∧
      new.map (·.1) <+: names.filter (fun x => !skipUpdate fields exclude x && decide (x ∈ cl.keys)) ∧
      (match r.1 with
        | .ok _ => new.map (·.1) = names.filter (fun x => !skipUpdate fields exclude x && decide (x ∈ cl.keys)) ∧ ∀ y ∈ new, y.2 = .ok ()
        | .error er => ∃ init x, new = init ++ [(x, .error er)] ∧ ∀ y ∈ init, y.2 = .ok ()) := by
  induction names generalizing cl d l0 with
  | nil => exact ⟨[], by simp [updateLoop], rfl, rfl, rfl, by simp, by simp [updateLoop]⟩
  | cons n names ih =>
    simp only [updateLoop]
    by_cases hs : skipUpdate fields exclude n = true
    · rw [if_pos hs, if_pos hs]
      obtain ⟨new, h1, h2, h3, h4, h5, h6⟩ := ih cl d l0
      refine ⟨new, h1, h2, h3, h4, ?_, ?_⟩
      · rw [List.filter_cons, if_neg (by simp [hs])]; exact h5
      · rw [List.filter_cons, if_neg (by simp [hs])]; exact h6
    · rw [if_neg hs, if_neg hs]
      cases hcn : cl.get? n with
      | none =>
        simp only
        obtain ⟨new, h1, h2, h3, h4, h5, h6⟩ := ih cl d l0
        have : n ∉ cl.keys := (Dict.get?_none cl n).1 hcn
        refine ⟨new, h1, h2, h3, h4, ?_, ?_⟩
        · rw [List.filter_cons, if_neg (by simp [this])]; exact h5
        · rw [List.filter_cons, if_neg (by simp [this])]; exact h6
      | some v =>
        simp only [logged]
        have hmem : n ∈ cl.keys := by rw [← Dict.get?_isSome, hcn]; rfl
        have hk : (if v.isEmpty = true then cl.set n .null else cl).keys = cl.keys := by
          by_cases he : v.isEmpty = true
          · rw [if_pos he, Dict.keys_set, if_pos hmem]
          · rw [if_neg he]
        have hc : (!skipUpdate fields exclude n && decide (n ∈ cl.keys)) = true := by simp [hs, hmem]
        rw [List.filter_cons, if_pos hc]
        cases hr : setattr n (if v.isEmpty = true then .null else v) d with
        | mk r d' =>
          cases r with
          | error er =>
            refine ⟨[(n, .error er)], rfl, rfl, rfl, rfl, ?_, ⟨[], n, rfl, by simp⟩⟩
            simp
          | ok u =>
            simp only
            obtain ⟨new, h1, h2, h3, h4, h5, h6⟩ := ih (if v.isEmpty = true then cl.set n .null else cl) d' (l0 ++ [(n, .ok u)])
            rw [hk] at h5 h6
            refine ⟨(n, .ok u) :: new, by rw [h1]; simp, h2, h3, h4, ?_, ?_⟩
            · simpa using h5
            · revert h6
              generalize (updateLoop fields exclude (logged setattr) names (if v.isEmpty = true then cl.set n .null else cl) (d', l0 ++ [(n, .ok u)])).1 = q
              cases q with
              | ok _ =>
                rintro ⟨g1, g2⟩
                exact ⟨by simp [g1], by intro y hy; rcases List.mem_cons.1 hy with rfl | hy; exacts [rfl, g2 y hy]⟩
              | error er =>
                rintro ⟨init, x, g1, g2⟩
                exact ⟨(n, .ok u) :: init, x, by rw [g1]; rfl, by intro y hy; rcases List.mem_cons.1 hy with rfl | hy; exacts [rfl, g2 y hy]⟩

/-- Whatever the assignments do: `update_instance` makes them in the order of `Meta.fields` or of the model; if one raises, that error is raised, and it is the last one that is made; if
none raises, all are made.  (The log does not change what happens.) -/
theorem C49_errors {A D : Type} (setattr : Str → CVal A → D → Except PyErr Unit × D) (fields exclude : Option (List Str)) (modelNames : List Str) (hm : ∀ x ∈ modelNames, '.' ∉ x) (cleaned : Dict Str (CVal A)) (d : D) :
    let r := updateOwn (metaList fields) (metaList exclude) modelNames (logged setattr) cleaned (d, [])
    let r' := updateOwn (metaList fields) (metaList exclude) modelNames setattr cleaned d
    let order := match fields with | some l => l ++ modelNames.filter (fun n => n ∈ l) | none => modelNames
    let all := order.filter (fun x => decide ('.' ∉ x ∧ x ∉ exclude.getD [] ∧ x ∈ cleaned.keys))
    let log := r.2.2.2
    r'.1 = r.1 ∧ r'.2.2 = r.2.2.1 ∧ log.map (·.1) <+: all ∧
      (r.1 = .ok () → log.map (·.1) = all ∧ ∀ y ∈ log, y.2 = .ok ()) ∧
      (∀ er, r.1 = .error er → ∃ init x, log = init ++ [(x, .error er)] ∧ ∀ y ∈ init, y.2 = .ok ()) := by
  have key := fun names => updateLoop_logged (metaList fields) (metaList exclude) setattr names cleaned d []
  have fin : ∀ names, fieldsInOrder (metaList fields) modelNames = .ok names →
      let r := updateOwn (metaList fields) (metaList exclude) modelNames (logged setattr) cleaned (d, [])
      let r' := updateOwn (metaList fields) (metaList exclude) modelNames setattr cleaned d
      let all := names.filter (fun x => decide ('.' ∉ x ∧ x ∉ exclude.getD [] ∧ x ∈ cleaned.keys))
      let log := r.2.2.2
      r'.1 = r.1 ∧ r'.2.2 = r.2.2.1 ∧ log.map (·.1) <+: all ∧
        (r.1 = .ok () → log.map (·.1) = all ∧ ∀ y ∈ log, y.2 = .ok ()) ∧
        (∀ er, r.1 = .error er → ∃ init x, log = init ++ [(x, .error er)] ∧ ∀ y ∈ init, y.2 = .ok ()) := by
    intro names hn
    obtain ⟨new, h1, h2, h3, h4, h5, h6⟩ := key names
    rw [filter_assigns fields exclude modelNames hm cleaned.keys names hn] at h5 h6
    simp only [updateOwn, hn]
    simp only [List.nil_append] at h1
    rw [h1]
    refine ⟨h2, h4, h5, fun h => ?_, fun er h => ?_⟩
    · rw [h] at h6; exact h6
    · rw [h] at h6; exact h6
  cases fields with
  | none => exact fin modelNames rfl
  | some l => exact fin _ rfl

/-- Two fields, the first of which cannot be assigned: the second is not touched, and the error is raised. -/
example :
    let r := updateOwn (A := Nat) (metaList none) (metaList none) [c%"a", c%"b"] (logged (fun x v (d : List (Str × CVal Nat)) => if x = c%"a" then (.error .valueError, d) else (.ok (), d ++ [(x, v)])))
      [(c%"a", .other 1), (c%"b", .other 2)] ([], [])
    r.1 = .error .valueError ∧ r.2.2.1 = [] ∧ r.2.2.2.map (·.1) = [c%"a"] := ⟨rfl, rfl, rfl⟩

/-! ### C54: the element of the subform is not in the document -/

section
variable [PyUnicode] {eng : Engine} {ctx : Ctx} {xp : Str} {e : Expr} {p : List Step} {a : Node.Addr} {s n : Node}

/-- The element of the subform was removed from the document, but the field matches another element: if the subform's element is not empty, the document stays as it is
(the data of the subform do not get into it); if it is empty, the update does what `del` does to the field, whatever it holds. -/
theorem C54_detached (heng : EngineOk eng) (hf : SimpleField ctx xp e p) (hs : s.get a = some n) (hm : Step.matches p n ≠ []) (v : Node) (update : Node → Node) :
    (Core.isEmpty (update v) = false → updateSubinstance eng ctx update (.foreign v) xp e (.elem a) s = (.ok (), s)) ∧
    (Core.isEmpty (update v) = true → updateSubinstance eng ctx update (.foreign v) xp e (.elem a) s = managerDelete eng ctx xp e (.elem a) s) := by
  have hold : ∃ x, findNode eng ctx xp (.elem a) s = (.ok (some x), s) := by
    rw [findNode_path heng hf.parse hf.path hs]
    cases h : Step.matches p n with
    | nil => exact absurd h hm
    | cons y l => exact ⟨_, rfl⟩
  obtain ⟨x, hold⟩ := hold
  unfold updateSubinstance
  rw [bind_ok hold]
  constructor
  · intro h; simp [h]; rfl
  · intro h; simp [h]

end

/-- The hypotheses can be met. -/
example (v : Node) (h : Core.isEmpty v = false) : updateSubinstance refEngine sampleCtx id (.foreign v) c%"a" (ast c%"a") (.elem []) (bare.withChildren [Node.empty ⟨none, c%"a"⟩]) =
    (.ok (), bare.withChildren [Node.empty ⟨none, c%"a"⟩]) :=
  (C54_detached refEngine_ok subField rfl (by decide) v id).1 h

/-- In any form: after the update of a subform its element is attached if the field was absent before and the element is not empty now, removed if it was there and is empty now,
and left alone in the other two cases. -/
theorem C54_outcome {D : Type} (w : World D) (f : Form) (s : St D) :
    let t := updateForm w f s
    (w.present f.id s.doc = false → w.isEmpty f.id t.doc = false → (updateSubs w (.cons f .nil) s).doc = w.attach f.id t.doc) ∧
    (w.present f.id s.doc = true → w.isEmpty f.id t.doc = true → (updateSubs w (.cons f .nil) s).doc = w.detach f.id t.doc) ∧
    (w.present f.id s.doc ≠ w.isEmpty f.id t.doc → ((updateSubs w (.cons f .nil) s).doc = t.doc)) ∧
    (∀ rest, updateSubs w (.cons f rest) s = updateSubs w rest (updateSubs w (.cons f .nil) s)) := by
  have hone : ∀ rest, updateSubs w (.cons f rest) s = updateSubs w rest (updateSubs w (.cons f .nil) s) := fun rest => by simp only [updateSubs]
  refine ⟨fun h1 h2 => ?_, fun h1 h2 => ?_, fun h => ?_, hone⟩
  · simp [updateSubs, finishSub, h1, h2]
  · simp [updateSubs, finishSub, h1, h2]
  · simp only [updateSubs, finishSub]
    revert h
    cases hp : w.present f.id s.doc <;> cases he : w.isEmpty f.id (updateForm w f s).doc <;> simp [he]

/-- A form whose subform fills an element that was absent: it is attached. -/
example : (updateSubs (D := Nat × Bool) ⟨fun _ => true, fun _ => true, fun _ d => (d.1 + 1, d.2), fun _ d => d.2, fun _ d => d.1 == 0, fun _ d => (d.1, true), fun _ d => (d.1, false), fun _ d => d, fun _ _ => none⟩
    (.cons (.mk 1 .nil .nil) .nil) ⟨(0, false), []⟩).doc = (1, true) := by
  rw [(C54_outcome _ (.mk 1 .nil .nil) _).1 rfl rfl]; rfl

/-! ### C58: bodies that are bytes -/

section
variable [PyUnicode] {eng : Engine}
open Cerp

/-- The payload as a string: as it is, decoded with the message's character set, or, without a character set, what `str` makes of it. -/
def payloadText (lib : Lib) (m : Email) : Except PyErr Str := match m.payload, m.charset with
  | .text s, _ => .ok s
  | .bytes b, some cs => lib.decode cs b
  | .bytes b, none => .ok (lib.strOfBytes b)

/-- If the second statement would succeed, the first one fails with the error. -/
def Fails {α β} (er : PyErr) (f : M α) (g : M β) : Prop := ∀ s x s', g s = (.ok x, s') → (f s).1 = .error er

omit [PyUnicode] in
theorem Fails.bind {α γ δ} {er : PyErr} (m : M α) {f : α → M γ} {g : α → M δ} (h : ∀ x, Fails er (f x) (g x)) : Fails er (m >>= f) (m >>= g) := by
  intro s x s' hg
  cases hm : m s with
  | mk r s1 =>
    cases r with
    | error e => rw [bind_err hm] at hg; simp at hg
    | ok y => rw [bind_ok hm] at hg ⊢; exact h y _ _ _ hg

omit [PyUnicode] in
theorem Fails.head {α β γ δ} {er : PyErr} {m : M α} {m' : M β} (h : Fails er m m') (f : α → M γ) (g : β → M δ) : Fails er (m >>= f) (m' >>= g) := by
  intro s x s' hg
  cases hm : m' s with
  | mk r s1 =>
    cases r with
    | error e => rw [bind_err hm] at hg; simp at hg
    | ok y =>
      have := h s y s1 hm
      cases hm2 : m s with
      | mk r2 s2 =>
        rw [hm2] at this
        simp only at this
        subst this
        rw [bind_err hm2]

theorem bodyText_eq (lib : Lib) (m : Email) : bodyText lib m = (payloadText lib m).map stripControl := by
  unfold bodyText payloadText
  cases m.payload with
  | text s => rfl
  | bytes b =>
    cases m.charset with
    | none => rfl
    | some cs =>
      simp only
      cases lib.decode cs b <;> rfl

/-- C58 for every kind of payload: the body is the text of the payload without control characters; if the payload cannot be decoded, the conversion fails with the decoder's error. -/
theorem C58_any_payload (heng : EngineOk eng) (lib : Lib) (m : Email) (localId : Option Int) (hm : m.multipart = false) (h : EmailOk lib m []) :
    (∀ s, payloadText lib m = .ok s → (∀ c ∈ s, c.toNat ≠ 0xFFFE ∧ c.toNat ≠ 0xFFFF) →
      ∃ n, fromEmail eng lib m localId = .ok n ∧ members (Cerp.q c%"SingleBody") [] n = [bodyNode m (stripControl s)] ∧ xmlOk (stripControl s) = true) ∧
    (∀ er, payloadText lib m = .error er → fromEmail eng lib m localId = .error er) := by
  constructor
  · intro s hp hs
    have key := C58_body heng lib { m with payload := .text s } localId s hm rfl hs ⟨h.headers, h.dates, h.contentType, h.charset, h.filename, h.text, h.eol⟩
    obtain ⟨n, -, -, hx⟩ := key
    have h' : EmailOk lib m (stripControl s) := ⟨h.headers, h.dates, h.contentType, h.charset, h.filename, hx, h.eol⟩
    refine ⟨_, fromEmail_run heng localId (fun _ => by rw [bodyText_eq, hp]; rfl) h', ?_, hx⟩
    have : (if m.multipart then [] else [bodyNode m (stripControl s)]) = [bodyNode m (stripControl s)] := by rw [hm]; rfl
    rw [← this]
    exact parts_members (by simp [messageParts])
  · intro er hp
    have hok := fromEmail_run heng (lib := { lib with decode := fun _ _ => .ok [], strOfBytes := fun _ => [] }) (m := { m with payload := .text [] }) (text := []) localId (fun _ => rfl)
      ⟨h.headers, h.dates, h.contentType, h.charset, h.filename, h.text, h.eol⟩
    have hbody : ∀ a, Fails er (addBody eng lib m a) (addBody eng { lib with decode := fun _ _ => .ok [], strOfBytes := fun _ => [] } { m with payload := .text [] } a) := by
      intro a
      unfold addBody
      rw [if_neg (by simp [hm]), if_neg (by simp [hm])]
      refine Fails.bind _ (fun _ => Fails.bind _ (fun _ => Fails.bind _ (fun _ => Fails.bind _ (fun _ => Fails.bind _ (fun _ => ?_)))))
      refine Fails.head ?_ _ _
      intro s x s' _
      rw [bodyText_eq, hp]
      rfl
    have hfill : Fails er (fillMessage eng lib m localId []) (fillMessage eng { lib with decode := fun _ _ => .ok [], strOfBytes := fun _ => [] } { m with payload := .text [] } localId []) := by
      unfold fillMessage
      iterate 15 refine Fails.bind _ (fun _ => ?_)
      exact Fails.head (hbody []) _ _
    unfold fromEmail at hok ⊢
    revert hok
    cases hg : fillMessage eng { lib with decode := fun _ _ => .ok [], strOfBytes := fun _ => [] } { m with payload := .text [] } localId [] (Node.empty (Cerp.q c%"Message")) with
    | mk r s1 =>
      cases r with
      | error e => intro hok; simp at hok
      | ok u =>
        intro _
        have := hfill _ _ _ hg
        cases hg2 : fillMessage eng lib m localId [] (Node.empty (Cerp.q c%"Message")) with
        | mk r2 s2 =>
          rw [hg2] at this
          simp only at this
          subst this
          rfl

end

/-- The hypotheses can be met: bytes in a character set that is not known, and bytes without a character set. -/
example : Cerp.fromEmail refEngine { sampleLib with decode := fun _ _ => .error .valueError } { sampleEmail with payload := .bytes [65], charset := some c%"x" } none = .error .valueError :=
  (C58_any_payload refEngine_ok { sampleLib with decode := fun _ _ => .error .valueError } { sampleEmail with payload := .bytes [65], charset := some c%"x" } none rfl
    ⟨sampleEmail_ok.headers, sampleEmail_ok.dates, sampleEmail_ok.contentType, sampleEmail_ok.charset, sampleEmail_ok.filename, sampleEmail_ok.text, sampleEmail_ok.eol⟩).2 _ rfl
example : ∃ n, Cerp.fromEmail refEngine { sampleLib with strOfBytes := fun _ => ['b', Char.ofNat 1] } { sampleEmail with payload := .bytes [65] } none = .ok n ∧
    members (Cerp.q c%"SingleBody") [] n = [bodyNode { sampleEmail with payload := .bytes [65] } ['b']] ∧ xmlOk ['b'] = true :=
  (C58_any_payload refEngine_ok { sampleLib with strOfBytes := fun _ => ['b', Char.ofNat 1] } { sampleEmail with payload := .bytes [65] } none rfl
    ⟨sampleEmail_ok.headers, sampleEmail_ok.dates, sampleEmail_ok.contentType, sampleEmail_ok.charset, sampleEmail_ok.filename, sampleEmail_ok.text, sampleEmail_ok.eol⟩).1 _ rfl (by decide)

/-! ### C66: names that are accepted -/

/-- A class statement without schema fields, with bases that have a method resolution order: it succeeds exactly if every class name given in a node field is `self` or the name of the
class; else it raises ValueError. -/
theorem C66_accepted (lib : Core.SchemaLib) (env : Core.Env) (useMeta : Bool) (name : Str) (bases : List Nat) (attrs : Dict Str Core.Attr)
    (hx : useMeta = true ∨ bases.any (Core.isXml env) = true) (hmro : ∃ mro, Core.mroOf env bases = .ok mro)
    (hns : ∀ x f, (x, Core.Attr.field f) ∈ attrs → f.schemaType = none) :
    ((∀ x f s, (x, Core.Attr.field f) ∈ attrs → f.nodeClass = some (.name s) → s = c%"self" ∨ s = name) → ∃ k, Core.classStmt lib env useMeta name bases attrs = .ok k) ∧
    (¬ (∀ x f s, (x, Core.Attr.field f) ∈ attrs → f.nodeClass = some (.name s) → s = c%"self" ∨ s = name) →
      ∃ er, Core.classStmt lib env useMeta name bases attrs = .error er ∧ er = .valueError) := by
  obtain ⟨mro, hmro⟩ := hmro
  have key : ∀ (own base : Option Slot) (self : Nat) (l : List (Str × Attr)), (∀ x f, (x, Attr.field f) ∈ l → f.schemaType = none) → ∀ use fields,
      ((∀ x f s, (x, Attr.field f) ∈ l → f.nodeClass = some (.name s) → s = c%"self" ∨ s = name) → ∃ r, addAttrs lib own base name self l use fields = .ok r) ∧
      (¬ (∀ x f s, (x, Attr.field f) ∈ l → f.nodeClass = some (.name s) → s = c%"self" ∨ s = name) → addAttrs lib own base name self l use fields = .error .valueError) := by
    intro own base self l
    induction l with
    | nil => intro _ use fields; exact ⟨fun _ => ⟨_, rfl⟩, fun h => absurd (by simp) h⟩
    | cons y l ih =>
      intro hl use fields
      obtain ⟨x, at_⟩ := y
      have hl' : ∀ x f, (x, Attr.field f) ∈ l → f.schemaType = none := fun x f h => hl x f (by simp [h])
      have other : (∀ f, at_ ≠ .field f) → addAttrs lib own base name self ((x, at_) :: l) use fields = addAttrs lib own base name self l (use.set x (.value at_)) fields := by
        intro h
        cases at_ with
        | field f => exact absurd rfl (h f)
        | _ => rfl
      by_cases hfld : ∃ f, at_ = .field f
      · obtain ⟨f, rfl⟩ := hfld
        have hsch : resolveSchema lib own base f = .ok f := by unfold resolveSchema; rw [hl x f (by simp)]
        simp only [addAttrs, hsch]
        by_cases hbad : ∃ s, f.nodeClass = some (.name s) ∧ ¬ (s = c%"self" ∨ s = name)
        · obtain ⟨s, hs1, hs2⟩ := hbad
          have : resolveNodeClass name self f = .error .valueError := by unfold resolveNodeClass; rw [hs1]; simp only; rw [if_neg hs2]
          rw [this]
          exact ⟨fun h => absurd (h x f s (by simp) hs1) hs2, fun _ => rfl⟩
        · have hgood : ∃ f', resolveNodeClass name self f = .ok f' := by
            unfold resolveNodeClass
            split
            · next s hs => rw [if_pos (by by_contra hc; exact hbad ⟨s, hs, hc⟩)]; exact ⟨_, rfl⟩
            · exact ⟨_, rfl⟩
          obtain ⟨f', hf'⟩ := hgood
          rw [hf']
          simp only
          obtain ⟨i1, i2⟩ := ih hl' (if f'.creates then (use.set x (.desc f')).set (c%"create_" ++ x) (.create f') else use.set x (.desc f')) (fields.set x f')
          refine ⟨fun h => i1 (fun x f s hm => h x f s (by simp [hm])), fun h => i2 (fun h' => h ?_)⟩
          intro x2 f2 s hm hs
          rcases List.mem_cons.1 hm with e | hm
          · simp only [Prod.mk.injEq, Attr.field.injEq] at e
            obtain ⟨rfl, rfl⟩ := e
            by_contra hc
            exact hbad ⟨s, hs, hc⟩
          · exact h' x2 f2 s hm hs
      · have hne : ∀ f, at_ ≠ .field f := fun f h => hfld ⟨f, h⟩
        rw [other hne]
        obtain ⟨i1, i2⟩ := ih hl' (use.set x (.value at_)) fields
        refine ⟨fun h => i1 (fun x f s hm => h x f s (by simp [hm])), fun h => i2 (fun h' => h ?_)⟩
        intro x2 f2 s hm hs
        rcases List.mem_cons.1 hm with e | hm
        · simp only [Prod.mk.injEq] at e
          exact absurd e.2.symm (hne f2)
        · exact h' x2 f2 s hm hs
  unfold Core.classStmt
  rw [if_pos (by exact hx)]
  unfold Core.newXmlClass
  obtain ⟨k1, k2⟩ := key ((attrs.get? c%"XSD_SCHEMA").map Core.Slot.value) (Core.baseXsd env bases) env.length attrs hns [] (Core.baseFields env bases)
  constructor
  · intro h
    obtain ⟨r, hr⟩ := k1 h
    rw [hr]
    simp only [hmro]
    exact ⟨_, rfl⟩
  · intro h
    rw [k2 h]
    exact ⟨_, rfl, rfl⟩

/-- The hypotheses can be met: the class's own name. -/
example : ∃ k, Core.classStmt noSchemas (run [(true, c%"XmlObject", [], [])]) false c%"N" [0] [(c%"child", .field ⟨1, 1, some (.name c%"N"), none, true⟩)] = .ok k :=
  (C66_accepted noSchemas _ false c%"N" [0] _ (.inr rfl) ⟨_, rfl⟩ (by simp)).1 (by
    intro x f s hm hs
    simp only [List.mem_singleton, Prod.mk.injEq, Attr.field.injEq] at hm
    obtain ⟨-, rfl⟩ := hm
    simp only [Option.some.injEq, NodeClass.name.injEq] at hs
    exact .inr hs.symm)

/-! ### C59: header names -/

/-- The same letter, or the lower and upper case of an ASCII letter. -/
def sameLetter (c d : Char) : Prop := c = d ∨ ('A' ≤ c ∧ c ≤ 'Z' ∧ d.toNat = c.toNat + 32) ∨ ('A' ≤ d ∧ d ≤ 'Z' ∧ c.toNat = d.toNat + 32)

theorem toLower_nat (c : Char) : c.toLower.toNat = if 65 ≤ c.toNat ∧ c.toNat ≤ 90 then c.toNat + 32 else c.toNat := by
  unfold Char.toLower
  simp only [ge_iff_le, UInt32.le_iff_toNat_le]
  split_ifs with h h2 h2
  · show (UInt32.toNat _) = _
    have : c.val.toNat < 2^32 := c.val.toNat_lt
    simp only [Char.toNat]
    rw [UInt32.toNat_add]
    have := h.2
    simp at this ⊢
    omega
  · exact absurd h h2
  · exact absurd h2 h
  · rfl

theorem toLower_eq (c d : Char) : c.toLower = d.toLower ↔ sameLetter c d := by
  have e : ∀ a b : Char, a = b ↔ a.toNat = b.toNat := fun a b => Char.toNat_inj.symm
  have le : ∀ a b : Char, a ≤ b ↔ a.toNat ≤ b.toNat := fun a b => by rw [Char.le_def, UInt32.le_iff_toNat_le]; rfl
  unfold sameLetter
  rw [e c.toLower, e c d, toLower_nat, toLower_nat, le, le, le, le]
  simp only [show 'A'.toNat = 65 from rfl, show 'Z'.toNat = 90 from rfl]
  split_ifs <;> omega

theorem sameName_iff : ∀ a b : Str, Cerp.sameName a b = true ↔ List.Forall₂ sameLetter a b
  | [], [] => by simp [Cerp.sameName]
  | [], d :: b => by simp [Cerp.sameName]
  | c :: a, [] => by simp [Cerp.sameName]
  | c :: a, d :: b => by
    have ih := sameName_iff a b
    simp only [Cerp.sameName, beq_iff_eq] at ih ⊢
    rw [List.map_cons, List.map_cons, List.cons.injEq, List.forall₂_cons, ih, toLower_eq]

/-- C59.  The header of a field is the one whose name is the same up to the case of ASCII letters: if the headers of the message, in order, are those of the list `hs`, of which `keep`
tells whether their name is the field's up to case, then the field shows the values of those that are kept, in order. -/
theorem C59_header_names [PyUnicode] {eng : Engine} (heng : EngineOk eng) (lib : Cerp.Lib) (m : Cerp.Email) (localId : Option Int) (text : Str)
    (ht : m.multipart = false → Cerp.bodyText lib m = .ok text) (h : EmailOk lib m text) (f : Str × Str) (hf : f ∈ headerFields)
    (keep : Str × Str → Bool) (hk : ∀ x ∈ m.headers, keep x = true ↔ List.Forall₂ sameLetter x.1 f.2) :
    ∃ n, Cerp.fromEmail eng lib m localId = .ok n ∧ readStrList eng f.1 n = .ok (((m.headers.filter keep).map (·.2)).map some) := by
  obtain ⟨n, h1, h2, -⟩ := C59_header_lists heng lib m localId text ht h
  refine ⟨n, h1, ?_⟩
  rw [h2 f hf]
  unfold Cerp.Email.getAll
  congr 3
  apply List.filter_congr
  intro x hx
  have := hk x hx
  rw [← sameName_iff] at this
  cases hkx : keep x <;> cases hsx : Cerp.sameName x.1 f.2 <;> simp_all

/-- `tO` and `To` are the same name, `T0` and `To` are not. -/
example : List.Forall₂ sameLetter c%"tO" c%"To" ∧ ¬ List.Forall₂ sameLetter c%"T0" c%"To" := by
  rw [← sameName_iff, ← sameName_iff]; decide

/-- The hypotheses can be met: the sample has the headers `to: b` and `To: c`. -/
example : ∃ n, Cerp.fromEmail refEngine sampleLib sampleEmail none = .ok n ∧ readStrList refEngine c%"To" n = .ok [some c%"b", some c%"c"] :=
  C59_header_names refEngine_ok sampleLib sampleEmail none (Cerp.stripControl ['x', Char.ofNat 7, '\n', 'y']) (fun _ => rfl)
    ⟨sampleEmail_ok.headers, sampleEmail_ok.dates, sampleEmail_ok.contentType, sampleEmail_ok.charset, sampleEmail_ok.filename, by decide, sampleEmail_ok.eol⟩
    (c%"To", c%"To") (by decide) (fun x => x.2 == c%"b" || x.2 == c%"c") (by
      intro x hx
      rw [← sameName_iff]
      revert x
      decide)


/-! ### C15 -/

/-- Attributes have no attributes: assigning to `@k/@y` raises AttributeError, but if there is no attribute `k`, it has been created, empty. -/
theorem C15_counterexample_attribute :
    writeAs (strToXml (some c%"v")) refEngine sampleCtx c%"@k/@y" (ast c%"@k/@y") (.elem []) (bare.setAttr ⟨none, c%"k"⟩ c%"b") = (.error .attributeError, bare.setAttr ⟨none, c%"k"⟩ c%"b") ∧
    writeAs (strToXml (some c%"v")) refEngine sampleCtx c%"@k/@y" (ast c%"@k/@y") (.elem []) bare = (.error .attributeError, bare.setAttr ⟨none, c%"k"⟩ []) := by
  constructor <;> decide +kernel

end Props
