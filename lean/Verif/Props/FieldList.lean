import Verif.Forms.FieldList
import Mathlib.Tactic.Tauto
import Mathlib.Tactic.ByContra
/-
Property C47: parsing of field lists.

Model: Verif/Forms/FieldList.lean.
-/
namespace Props
open Forms Py

/-! ### specification -/

/-- The dotted name `a.b.c` of the path `[a, b, c]`. -/
def dotted (path : List Str) : Str := ['.'].intercalate path

/-- The parsed list for the subform reached by the names in `path`. -/
def levelAt (l : PFL) (path : List Str) : Option PFL := match path with
  | [] => some l
  | a :: path => match l.subfields.get? a with
    | none => none
    | some l' => levelAt l' path

/-- `name` lists something below the subform `path`: it is `path` followed by a dot and more. -/
def Below (path : List Str) (name : Str) : Prop := dotted path ++ ['.'] <+: name

/-- Components of dotted names have no dots. -/
def Plain (path : List Str) : Prop := ∀ c ∈ path, '.' ∉ c

/-- A list without its repetitions: the first occurrence of each member. -/
def firsts : List Str → List Str
  | [] => []
  | a :: l => a :: (firsts l).filter (fun b => b ≠ a)

/-- What a name says about the level `path`: the next component, and whether that is the end of the name. -/
def headAt (path : List Str) (name : Str) : Option (Str × Bool) :=
  let parts := name.splitOn '.'
  if parts.take path.length = path then
    match parts.drop path.length with
    | [] => none
    | [x] => some (x, true)
    | x :: _ :: _ => some (x, false)
  else none

/-! ### lemmas -/

theorem exists_mem_iff_ne_nil {α : Type} {l : List α} : (∃ a, a ∈ l) ↔ l ≠ [] := by cases l <;> simp

theorem filterMap_congr {α β : Type} {f g : α → Option β} {l : List α} (h : ∀ a ∈ l, f a = g a) : l.filterMap f = l.filterMap g := by
  induction l with
  | nil => rfl
  | cons a l ih => rw [List.filterMap_cons, List.filterMap_cons, h a (by simp), ih (fun b hb => h b (by simp [hb]))]

theorem splitOn_plain (s : Str) : Plain (s.splitOn '.') := by
  induction s with
  | nil => intro c hc; simp at hc; simp [hc]
  | cons a s ih =>
    intro c hc
    rw [List.splitOn_cons_eq_if_modifyHead] at hc
    by_cases ha : (a == '.') = true
    · rw [if_pos ha] at hc
      rcases List.mem_cons.1 hc with rfl | hc
      · simp
      · exact ih c hc
    · rw [if_neg ha] at hc
      cases hs : s.splitOn '.' with
      | nil => simp at hs
      | cons w ws =>
        rw [hs] at hc ih
        simp only [List.modifyHead_cons] at hc
        rcases List.mem_cons.1 hc with rfl | hc
        · simp only [List.mem_cons, not_or]
          exact ⟨fun h => ha (by simp [← h]), ih w (by simp)⟩
        · exact ih c (by simp [hc])

theorem splitOn_dotted {p : List Str} (hp : Plain p) (h : p ≠ []) : (dotted p).splitOn '.' = p := List.splitOn_intercalate '.' hp h

theorem dotted_splitOn (s : Str) : dotted (s.splitOn '.') = s := List.intercalate_splitOn '.'

theorem dotted_append {p q : List Str} (hp : p ≠ []) (hq : q ≠ []) : dotted (p ++ q) = dotted p ++ '.' :: dotted q := by
  induction p with
  | nil => exact absurd rfl hp
  | cons a p ih =>
    cases p with
    | nil => simp only [dotted, List.singleton_append, List.intercalate_singleton]; rw [List.intercalate_cons_of_ne_nil hq]; simp
    | cons b p =>
      have := ih (by simp)
      simp only [dotted, List.cons_append] at this ⊢
      rw [List.intercalate_cons_cons, this, List.intercalate_cons_cons]; simp

/-- Names below a path are those whose list of components properly extends it. -/
theorem below_iff {p : List Str} (hp : Plain p) (h : p ≠ []) (name : Str) : Below p name ↔ ∃ q, q ≠ [] ∧ name.splitOn '.' = p ++ q := by
  constructor
  · rintro ⟨t, rfl⟩
    refine ⟨t.splitOn '.', by simp, ?_⟩
    have : dotted p ++ ['.'] ++ t = dotted (p ++ t.splitOn '.') := by
      rw [dotted_append h (by simp), dotted_splitOn]; simp
    rw [this, splitOn_dotted _ (by simp [h])]
    intro c hc
    rcases List.mem_append.1 hc with hc | hc
    · exact hp c hc
    · exact splitOn_plain t c hc
  · rintro ⟨q, hq, e⟩
    refine ⟨dotted q, ?_⟩
    rw [← dotted_splitOn name, e, dotted_append h hq]; simp

theorem dotted_eq_iff {p : List Str} (hp : Plain p) (h : p ≠ []) (name : Str) : name = dotted p ↔ name.splitOn '.' = p := by
  constructor
  · rintro rfl; exact splitOn_dotted hp h
  · intro e; rw [← e, dotted_splitOn]

/-- The tails, longer than zero, of the lists of parts that begin with `f`. -/
def tails (f : Str) (ps : List (List Str)) : List (List Str) := ps.filterMap (fun
  | g :: s :: ss => if g = f then some (s :: ss) else none
  | _ => none)

theorem mem_tails {f : Str} {ps : List (List Str)} {q : List Str} : q ∈ tails f ps ↔ q ≠ [] ∧ f :: q ∈ ps := by
  unfold tails
  rw [List.mem_filterMap]
  constructor
  · rintro ⟨p, hp, h⟩
    split at h
    · by_cases hg : (‹Str› : Str) = f
      · skip
        split at h
        · simp only [Option.some.injEq] at h; subst h; rename_i h1; subst h1; exact ⟨by simp, hp⟩
        · simp at h
      · split at h
        · simp only [Option.some.injEq] at h; subst h; rename_i h1; subst h1; exact ⟨by simp, hp⟩
        · simp at h
    · simp at h
  · rintro ⟨h, hm⟩
    cases q with
    | nil => exact absurd rfl h
    | cons s ss => exact ⟨_, hm, by simp⟩

/-- State of the loop. -/
theorem collect_loop (inc : Bool) (ps : List (List Str)) (hps : ∀ p ∈ ps, p ≠ []) (f0 : List Str) (d0 : Dict Str (List (List Str))) (hd : d0.Wf) :
    let r := ps.foldl (collectStep inc) (f0, d0)
    r.2.Wf ∧
    (∀ f, r.2.get? f = if tails f ps = [] then d0.get? f else some ((d0.get? f).getD [] ++ tails f ps)) ∧
    (∀ f, f ∈ r.1 ↔ f ∈ f0 ∨ [f] ∈ ps ∨ (inc = true ∧ tails f ps ≠ [])) := by
  induction ps generalizing f0 d0 with
  | nil => simp [tails, hd]
  | cons p ps ih =>
    have ih := ih (fun q hq => hps q (by simp [hq]))
    have hp := hps p (by simp)
    rw [List.foldl_cons]
    match p, hp with
    | [g], _ =>
      obtain ⟨h1, h2, h3⟩ := ih (f0 ++ [g]) d0 hd
      have ht : ∀ f, tails f ([g] :: ps) = tails f ps := fun f => by simp [tails]
      refine ⟨h1, fun f => ?_, fun f => ?_⟩
      · rw [ht]; exact h2 f
      · rw [ht]
        refine (h3 f).trans ?_
        simp only [List.mem_append, List.mem_singleton, List.mem_cons, List.cons.injEq, and_true]
        tauto
    | g :: s :: ss, _ =>
      obtain ⟨h1, h2, h3⟩ := ih (if inc = true ∧ g ∉ f0 then f0 ++ [g] else f0) (d0.set g ((d0.get? g).getD [] ++ [s :: ss])) (hd.set _ _)
      have ht : ∀ f, tails f ((g :: s :: ss) :: ps) = if g = f then (s :: ss) :: tails f ps else tails f ps := fun f => by
        simp only [tails, List.filterMap_cons]
        by_cases hg : g = f
        · simp [hg]
        · simp [hg]
      refine ⟨h1, fun f => ?_, fun f => ?_⟩
      · rw [ht]
        refine (h2 f).trans ?_
        rw [Dict.get?_set]
        by_cases hg : g = f
        · subst hg
          simp only [if_true, Option.getD_some]
          by_cases htl : tails g ps = []
          · simp [htl]
          · simp [htl]
        · have hfg : ¬ f = g := fun e => hg e.symm
          simp only [if_neg hfg, if_neg hg]
      · rw [ht]
        refine (h3 f).trans ?_
        simp only [List.mem_cons, List.cons.injEq, List.nil_eq, reduceCtorEq, and_false, false_or]
        by_cases hg : g = f
        · subst hg
          rw [if_pos rfl]
          cases inc with
          | false => simp
          | true =>
            by_cases hm : g ∈ f0 <;> simp [hm]
        · rw [if_neg hg]
          by_cases hc : inc = true ∧ g ∉ f0
          · rw [if_pos hc]
            have : f ≠ g := fun e => hg e.symm
            simp [this]
          · rw [if_neg hc]

theorem get?_map_snd {α β : Type} (d : Dict Str α) (g : α → β) (k : Str) : Dict.get? (d.map (fun p => (p.1, g p.2)) : Dict Str β) k = (d.get? k).map g := by
  induction d with
  | nil => rfl
  | cons p d ih =>
    obtain ⟨k0, v0⟩ := p
    rw [List.map_cons, Dict.get?_cons, Dict.get?_cons, ih]
    by_cases h : k = k0 <;> simp [h]

/-- The parts that remain at the level `pre`. -/
def partsAt (ps : List (List Str)) : List Str → List (List Str)
  | [] => ps
  | a :: pre => partsAt (tails a ps) pre

theorem mem_partsAt {ps : List (List Str)} (hps : ∀ p ∈ ps, p ≠ []) {pre q : List Str} : q ∈ partsAt ps pre ↔ q ≠ [] ∧ pre ++ q ∈ ps := by
  induction pre generalizing ps with
  | nil => exact ⟨fun h => ⟨hps q h, h⟩, fun h => h.2⟩
  | cons a pre ih =>
    rw [partsAt, ih (fun p hp => (mem_tails.1 hp).1), mem_tails]
    constructor
    · rintro ⟨h1, h2, h3⟩; exact ⟨h1, h3⟩
    · rintro ⟨h1, h3⟩; exact ⟨h1, by simp [h1], h3⟩

theorem collect_level (inc : Bool) : ∀ (pre : List Str) (n : Nat) (ps : List (List Str)), (∀ p ∈ ps, p ≠ []) → (∀ p ∈ ps, p.length ≤ n) →
    (pre = [] ∨ partsAt ps pre ≠ [] → ∃ m, (∀ p ∈ partsAt ps pre, p.length ≤ m) ∧ levelAt (collectFields n inc ps) pre = some (collectFields m inc (partsAt ps pre))) ∧
    (pre ≠ [] → partsAt ps pre = [] → levelAt (collectFields n inc ps) pre = none)
  | [], n, ps, _, hn => ⟨fun _ => ⟨n, hn, rfl⟩, fun h => absurd rfl h⟩
  | a :: pre, 0, ps, hps, hn => by
    have : ps = [] := by
      cases ps with
      | nil => rfl
      | cons p ps => exact absurd (List.length_eq_zero_iff.1 (Nat.le_zero.1 (hn p (by simp)))) (hps p (by simp))
    subst this
    have hnil : ∀ pre : List Str, partsAt ([] : List (List Str)) pre = [] := by
      intro pre; induction pre with
      | nil => rfl
      | cons b pre ih => simpa [partsAt, tails] using ih
    refine ⟨fun h => ?_, fun _ _ => by simp [collectFields, levelAt, PFL.subfields, Dict.get?]⟩
    rcases h with h | h
    · simp at h
    · exact absurd (hnil _) h
  | a :: pre, n + 1, ps, hps, hn => by
    obtain ⟨h1, h2, h3⟩ := collect_loop inc ps hps [] [] (by simp [Dict.Wf, Dict.keys])
    have hget : (collectFields (n + 1) inc ps).subfields.get? a = if tails a ps = [] then none else some (collectFields n inc (tails a ps)) := by
      simp only [collectFields, PFL.subfields]
      rw [get?_map_snd, h2 a]
      by_cases ht : tails a ps = [] <;> simp [ht, Dict.get?]
    have ih := collect_level inc pre n (tails a ps) (fun p hp => (mem_tails.1 hp).1)
      (fun p hp => by have := hn _ (mem_tails.1 hp).2; simp at this; omega)
    have hnil : ∀ pre : List Str, partsAt ([] : List (List Str)) pre = [] := by
      intro pre; induction pre with
      | nil => rfl
      | cons b pre ih => simpa [partsAt, tails] using ih
    constructor
    · intro h
      rcases h with h | h
      · simp at h
      · rw [levelAt, hget]
        have ht : tails a ps ≠ [] := by
          intro ht
          apply h
          rw [partsAt, ht, hnil]
        rw [if_neg ht]
        exact ih.1 (Or.inr h)
    · intro _ h
      rw [levelAt, hget]
      by_cases ht : tails a ps = []
      · simp [ht]
      · rw [if_neg ht]
        by_cases hpre : pre = []
        · subst hpre; exact absurd h ht
        · exact ih.2 hpre h

theorem le_foldr_max {l : List Nat} {a : Nat} (h : a ∈ l) : a ≤ l.foldr max 0 := by
  induction l with
  | nil => simp at h
  | cons b l ih =>
    rcases List.mem_cons.1 h with rfl | h
    · simp; omega
    · have := ih h; simp; omega

/-- What `_parse_field_list` has at each level. -/
theorem parse_level (names : List Str) (inc : Bool) (pre : List Str) :
    let rest := partsAt (names.map (·.splitOn '.')) pre
    (pre = [] ∨ rest ≠ [] → ∃ m, (∀ p ∈ rest, p.length ≤ m) ∧ levelAt (parseFieldList names inc) pre = some (collectFields m inc rest)) ∧
    (pre ≠ [] → rest = [] → levelAt (parseFieldList names inc) pre = none) := by
  apply collect_level
  · intro p hp
    obtain ⟨s, _, rfl⟩ := List.mem_map.1 hp
    simp
  · intro p hp
    exact le_foldr_max (List.mem_map_of_mem hp)

theorem split_ne_nil (names : List Str) : ∀ p ∈ names.map (fun s : Str => s.splitOn '.'), p ≠ [] := by
  intro p hp
  obtain ⟨s, _, rfl⟩ := List.mem_map.1 hp
  simp

theorem partsAt_ne_nil_iff {names : List Str} {pre : List Str} (hpre : Plain pre) (h : pre ≠ []) :
    partsAt (names.map (·.splitOn '.')) pre ≠ [] ↔ ∃ n ∈ names, Below pre n := by
  rw [← exists_mem_iff_ne_nil]
  constructor
  · rintro ⟨q, hq⟩
    obtain ⟨h1, h2⟩ := (mem_partsAt (split_ne_nil names)).1 hq
    obtain ⟨s, hs, e⟩ := List.mem_map.1 h2
    exact ⟨s, hs, (below_iff hpre h s).2 ⟨q, h1, e⟩⟩
  · rintro ⟨n, hn, hb⟩
    obtain ⟨q, hq, e⟩ := (below_iff hpre h n).1 hb
    exact ⟨q, (mem_partsAt (split_ne_nil names)).2 ⟨hq, List.mem_map.2 ⟨n, hn, e⟩⟩⟩

/-! ### C47 -/

/-- There is a parsed list for a subform exactly if some name lists something in it. -/
theorem C47_levels (names : List Str) (inc : Bool) (pre : List Str) (hpre : Plain pre) :
    (levelAt (parseFieldList names inc) pre).isSome = true ↔ pre = [] ∨ ∃ n ∈ names, Below pre n := by
  obtain ⟨h1, h2⟩ := parse_level names inc pre
  by_cases h : pre = []
  · obtain ⟨m, _, e⟩ := h1 (Or.inl h)
    rw [e]; simp [h]
  · rw [← partsAt_ne_nil_iff hpre h]
    constructor
    · intro hs
      refine Or.inr (fun hn => ?_)
      rw [h2 h hn] at hs
      simp at hs
    · intro hs
      obtain ⟨m, _, e⟩ := h1 hs
      simp [e]

/-- A field is in the parsed list of a (sub)form exactly if its dotted name was listed or, when parents are included, a name below it was. -/
theorem C47_fields (names : List Str) (inc : Bool) (pre : List Str) (hpre : Plain pre) (l : PFL)
    (hl : levelAt (parseFieldList names inc) pre = some l) (x : Str) (hx : '.' ∉ x) :
    x ∈ l.fields ↔ dotted (pre ++ [x]) ∈ names ∨ (inc = true ∧ ∃ n ∈ names, Below (pre ++ [x]) n) := by
  obtain ⟨h1, h2⟩ := parse_level names inc pre
  have hlev : pre = [] ∨ partsAt (names.map (·.splitOn '.')) pre ≠ [] := by
    by_cases h : pre = []
    · exact Or.inl h
    · refine Or.inr (fun hn => ?_)
      rw [h2 h hn] at hl
      simp at hl
  obtain ⟨m, hm, e⟩ := h1 hlev
  rw [hl] at e
  simp only [Option.some.injEq] at e
  subst e
  have hplain : Plain (pre ++ [x]) := by
    intro c hc
    rcases List.mem_append.1 hc with hc | hc
    · exact hpre c hc
    · simp at hc; subst hc; exact hx
  have key : ∀ q, q ∈ partsAt (names.map (·.splitOn '.')) pre ↔ q ≠ [] ∧ pre ++ q ∈ names.map (·.splitOn '.') := fun q => mem_partsAt (split_ne_nil names)
  have e1 : [x] ∈ partsAt (names.map (·.splitOn '.')) pre ↔ dotted (pre ++ [x]) ∈ names := by
    rw [key]
    constructor
    · rintro ⟨_, h⟩
      obtain ⟨s, hs, e⟩ := List.mem_map.1 h
      rw [← (dotted_eq_iff hplain (by simp) s).2 e]; exact hs
    · intro h
      exact ⟨by simp, List.mem_map.2 ⟨_, h, splitOn_dotted hplain (by simp)⟩⟩
  have e2 : tails x (partsAt (names.map (·.splitOn '.')) pre) ≠ [] ↔ ∃ n ∈ names, Below (pre ++ [x]) n := by
    rw [← exists_mem_iff_ne_nil]
    constructor
    · rintro ⟨q, hq⟩
      obtain ⟨a1, a2⟩ := mem_tails.1 hq
      obtain ⟨a3, a4⟩ := (key _).1 a2
      obtain ⟨s, hs, e⟩ := List.mem_map.1 a4
      exact ⟨s, hs, (below_iff hplain (by simp) s).2 ⟨q, a1, by rw [e]; simp⟩⟩
    · rintro ⟨n, hn, hb⟩
      obtain ⟨q, hq, e⟩ := (below_iff hplain (by simp) n).1 hb
      exact ⟨q, mem_tails.2 ⟨hq, (key _).2 ⟨by simp, List.mem_map.2 ⟨n, hn, by rw [e]; simp⟩⟩⟩⟩
  cases m with
  | zero =>
    have hnil : partsAt (names.map (·.splitOn '.')) pre = [] := by
      by_contra hc
      obtain ⟨p, hp⟩ := exists_mem_iff_ne_nil.2 hc
      exact ((key p).1 hp).1 (List.length_eq_zero_iff.1 (Nat.le_zero.1 (hm p hp)))
    rw [← e1, ← e2, hnil]
    simp [collectFields, PFL.fields, tails]
  | succ m =>
    obtain ⟨_, _, h3⟩ := collect_loop inc (partsAt (names.map (·.splitOn '.')) pre) (fun p hp => ((key p).1 hp).1) [] [] (by simp [Dict.Wf, Dict.keys])
    rw [← e1, ← e2]
    have := h3 x
    simp only [List.not_mem_nil, false_or] at this
    exact this

/-! ### order -/

theorem mem_firsts {l : List Str} {a : Str} : a ∈ firsts l ↔ a ∈ l := by
  induction l with
  | nil => simp [firsts]
  | cons b l ih =>
    simp only [firsts, List.mem_cons, List.mem_filter, ih, decide_eq_true_eq]
    by_cases h : a = b <;> simp [h]

theorem firsts_append (l m : List Str) : firsts (l ++ m) = firsts l ++ (firsts m).filter (fun a => a ∉ l) := by
  induction l with
  | nil => simp only [List.nil_append, firsts, List.not_mem_nil, not_false_eq_true, decide_true]; exact (List.filter_eq_self.2 (fun _ _ => rfl)).symm
  | cons b l ih =>
    simp only [List.cons_append, firsts, ih, List.filter_append, List.filter_filter]
    congr 2
    apply List.filter_congr
    intro a _
    by_cases h : a = b <;> simp [h]

theorem firsts_snoc_mem {l : List Str} {a : Str} (h : a ∈ l) (m : List Str) : firsts (l ++ a :: m) = firsts (l ++ m) := by
  rw [firsts_append, firsts_append, firsts]
  congr 1
  rw [List.filter_cons, if_neg (by simp [h]), List.filter_filter]
  apply List.filter_congr
  intro b _
  by_cases hb : b = a
  · subst hb; simp [h]
  · simp [hb]

/-- The next component, if it is the last. -/
def lastHead : List Str → Option Str
  | [x] => some x
  | _ => none

theorem collect_fields_false (ps : List (List Str)) (f0 : List Str) (d0 : Dict Str (List (List Str))) :
    (ps.foldl (collectStep false) (f0, d0)).1 = f0 ++ ps.filterMap lastHead := by
  induction ps generalizing f0 d0 with
  | nil => simp
  | cons p ps ih =>
    rw [List.foldl_cons]
    match p with
    | [] => rw [collectStep, ih]; rfl
    | [x] => rw [collectStep, ih, List.append_assoc]; rfl
    | x :: y :: t => rw [collectStep, if_neg (by simp), ih]; rfl

theorem collect_fields_true (ps : List (List Str)) (f0 : List Str) (d0 : Dict Str (List (List Str))) :
    firsts (ps.foldl (collectStep true) (f0, d0)).1 = firsts (f0 ++ ps.filterMap List.head?) := by
  induction ps generalizing f0 d0 with
  | nil => simp
  | cons p ps ih =>
    rw [List.foldl_cons]
    match p with
    | [] => rw [collectStep, ih]; rfl
    | [x] => rw [collectStep, ih, List.append_assoc]; rfl
    | x :: y :: t =>
      rw [collectStep, ih]
      simp only [true_and, List.filterMap_cons, List.head?_cons]
      by_cases hx : x ∈ f0
      · rw [if_neg (by simp [hx]), firsts_snoc_mem hx]
      · rw [if_pos hx]; simp

/-- A list of parts, without the path it begins with; nothing if it does not, or if nothing is left. -/
def strip (pre p : List Str) : Option (List Str) :=
  if p.take pre.length = pre then (if p.drop pre.length = [] then none else some (p.drop pre.length)) else none

theorem partsAt_eq {ps : List (List Str)} (hps : ∀ p ∈ ps, p ≠ []) (pre : List Str) : partsAt ps pre = ps.filterMap (strip pre) := by
  induction pre generalizing ps with
  | nil =>
    rw [partsAt]
    symm
    rw [filterMap_congr (g := some)]
    · simp
    · intro p hp; simp [strip, hps p hp]
  | cons a pre ih =>
    rw [partsAt, ih (fun p hp => (mem_tails.1 hp).1), tails, List.filterMap_filterMap]
    apply filterMap_congr
    intro p hp
    match p with
    | [] => simp [strip]
    | [x] =>
      simp only [strip, Option.bind_none, List.length_cons, List.take_succ_cons, List.take_nil, List.drop_succ_cons, List.drop_nil, if_true, ite_self]
    | x :: y :: t =>
      by_cases hx : x = a
      · subst hx
        simp only [if_true, Option.bind_some, strip, List.length_cons, List.take_succ_cons, List.cons.injEq, true_and, List.drop_succ_cons]
      · simp only [if_neg hx, Option.bind_none, strip, List.length_cons, List.take_succ_cons, List.cons.injEq, hx, false_and, if_false]

theorem level_fields (names : List Str) (inc : Bool) (pre : List Str) (l : PFL) (hl : levelAt (parseFieldList names inc) pre = some l) :
    l.fields = ((partsAt (names.map (·.splitOn '.')) pre).foldl (collectStep inc) ([], [])).1 := by
  obtain ⟨h1, h2⟩ := parse_level names inc pre
  have hlev : pre = [] ∨ partsAt (names.map (·.splitOn '.')) pre ≠ [] := by
    by_cases h : pre = []
    · exact Or.inl h
    · refine Or.inr (fun hn => ?_)
      rw [h2 h hn] at hl
      simp at hl
  obtain ⟨m, hm, e⟩ := h1 hlev
  rw [hl] at e
  simp only [Option.some.injEq] at e
  subst e
  cases m with
  | zero =>
    have hnil : partsAt (names.map (·.splitOn '.')) pre = [] := by
      by_contra hc
      obtain ⟨p, hp⟩ := exists_mem_iff_ne_nil.2 hc
      exact ((mem_partsAt (split_ne_nil names)).1 hp).1 (List.length_eq_zero_iff.1 (Nat.le_zero.1 (hm p hp)))
    rw [hnil]; rfl
  | succ m => rfl

theorem headAt_eq (pre : List Str) (name : Str) :
    headAt pre name = (strip pre (name.splitOn '.')).bind (fun q => q.head?.map (fun x => (x, (lastHead q).isSome))) := by
  simp only [headAt, strip]
  by_cases h : (name.splitOn '.').take pre.length = pre
  · rw [if_pos h, if_pos h]
    cases hd : (name.splitOn '.').drop pre.length with
    | nil => simp
    | cons x q => cases q <;> simp [lastHead]
  · rw [if_neg h, if_neg h]; rfl

/-- Without parents, the fields at a level are those listed there, in the order (and as often as) they are listed. -/
theorem C47_order (names : List Str) (pre : List Str) (l : PFL) (hl : levelAt (parseFieldList names false) pre = some l) :
    l.fields = names.filterMap (fun n => match headAt pre n with | some (x, true) => some x | _ => none) := by
  rw [level_fields names false pre l hl, collect_fields_false, partsAt_eq (split_ne_nil names), List.nil_append, List.filterMap_map, List.filterMap_filterMap]
  apply filterMap_congr
  intro n _
  rw [headAt_eq]
  simp only [Function.comp_apply]
  cases strip pre (n.splitOn '.') with
  | none => rfl
  | some q =>
    match q with
    | [] => rfl
    | [x] => rfl
    | x :: y :: t => rfl

/-- With parents, the fields at a level come in the order in which they are first mentioned, as fields or as parents. -/
theorem C47_order_parents (names : List Str) (pre : List Str) (l : PFL) (hl : levelAt (parseFieldList names true) pre = some l) :
    firsts l.fields = firsts (names.filterMap (fun n => (headAt pre n).map (·.1))) := by
  rw [level_fields names true pre l hl, collect_fields_true, partsAt_eq (split_ne_nil names), List.nil_append, List.filterMap_map, List.filterMap_filterMap]
  congr 1
  apply filterMap_congr
  intro n _
  rw [headAt_eq]
  simp only [Function.comp_apply]
  cases strip pre (n.splitOn '.') with
  | none => rfl
  | some q => cases q <;> rfl

/-- The hypotheses are met, and the result is as expected, for a list with nesting and repetition. -/
example : (levelAt (parseFieldList [c%"title", c%"person.name.first", c%"id", c%"person.age", c%"person.name.last"] true) [c%"person"]).map PFL.fields =
    some [c%"name", c%"age"] := by decide
example : (levelAt (parseFieldList [c%"title", c%"person.name.first", c%"id", c%"person.age", c%"person.name.last"] true) [c%"person", c%"name"]).map PFL.fields =
    some [c%"first", c%"last"] := by decide
example : (levelAt (parseFieldList [c%"title", c%"person.name.first", c%"id", c%"person.age", c%"person.name.last"] false) []).map PFL.fields =
    some [c%"title", c%"id"] := by decide
example : Plain [c%"person", c%"name"] ∧ Below [c%"person"] c%"person.age" := by
  refine ⟨?_, ⟨c%"age", by decide⟩⟩
  intro c hc
  simp only [List.mem_cons, List.not_mem_nil, or_false] at hc
  rcases hc with rfl | rfl <;> decide

/-- A parent that is listed after one of its fields is in the list twice. -/
theorem C47_counterexample_twice : (parseFieldList [c%"a.b", c%"a"] true).fields = [c%"a", c%"a"] := by decide

/-! ### the other theorems applied to field lists -/

example := C47_levels [c%"title", c%"person.name.first"] true [c%"person"] (by intro c hc; simp only [List.mem_singleton] at hc; subst hc; decide)
example := C47_fields [c%"title", c%"person.name.first"] true [c%"person"] (by intro c hc; simp only [List.mem_singleton] at hc; subst hc; decide) _ rfl c%"name" (by decide)
example := C47_order [c%"title", c%"person.name.first", c%"person.age"] [c%"person"] _ rfl

end Props
