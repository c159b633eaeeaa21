import Verif.Domain.DcmiTypes
/-
Property C99: the DCMI type vocabulary of a Dublin Core object.

Model: `typesGraph`, `dcmiTypes` (Verif/Domain/DcmiTypes.lean), with the download, the graph store and `label` as parameters.
-/
namespace Props
open Domain.Dcmi

/-- The vocabulary in a graph: the labels of the things that are classes and are defined by the DCMI type vocabulary. -/
def vocabulary (label : Graph → Str → Option Str) (g : Graph) : List Str :=
  (g.filter (fun t => t.2.1 = rdfType ∧ t.2.2 = rdfsClass ∧ (t.1, isDefinedBy, typeUri) ∈ g)).filterMap (fun t => label g t.1)

/-- Everything that the vocabulary defines has a label. -/
def Labelled (label : Graph → Str → Option Str) (g : Graph) : Prop := ∀ x, (x, isDefinedBy, typeUri) ∈ g → label g x ≠ none

theorem collect_ok {label : Graph → Str → Option Str} {g : Graph} (h : Labelled label g) (xs acc : List Str) :
    collect label g xs acc = (.ok (), acc ++ (xs.filter (fun x => (x, isDefinedBy, typeUri) ∈ g)).filterMap (label g)) := by
  induction xs generalizing acc with
  | nil => simp [collect]
  | cons x xs ih =>
    by_cases hx : (x, isDefinedBy, typeUri) ∈ g
    · cases hl : label g x with
      | none => exact absurd hl (h x hx)
      | some l => simp [collect, hx, hl, ih]
    · simp [collect, hx, ih]

theorem collect_vocabulary {label : Graph → Str → Option Str} {g : Graph} (h : Labelled label g) :
    collect label g (classItems g) [] = (.ok (), vocabulary label g) := by
  rw [collect_ok h]
  congr 1
  simp only [List.nil_append, classItems, vocabulary, List.filter_map, List.filter_filter, List.filterMap_map]
  congr 1
  apply List.filter_congr
  intro t _
  by_cases h1 : t.2.1 = rdfType <;> by_cases h2 : t.2.2 = rdfsClass <;> simp [h1, h2]

section
variable (fetch : Nat → Fetch) (label : Graph → Str → Option Str)

/-- What an access should give if the download works: the graph, or the vocabulary. -/
def wanted (g : Graph) : Access → Got
  | .graph => .graph g
  | .types => .types (vocabulary label g)

/-- C99.  If the first download works (and labels exist), every access in every history gives the downloaded graph, or the vocabulary in it, with exactly one download. -/
theorem C99_vocabulary (g : Graph) (hf : fetch 0 = .ok g) (hl : Labelled label g) (as : List Access) :
    (accesses fetch label {} as).1 = as.map (wanted label g) ∧ (accesses fetch label {} as).2.loads = if as = [] then 0 else 1 := by
  have step : ∀ (st : St), st.graph = some g → st.loads = 1 → (st.types = none ∨ st.types = some (vocabulary label g)) → ∀ (as : List Access),
      (accesses fetch label st as).1 = as.map (wanted label g) ∧ (accesses fetch label st as).2.loads = 1 := by
    intro st h1 h2 h3 as
    induction as generalizing st with
    | nil => exact ⟨rfl, h2⟩
    | cons a as ih =>
      have key : (access fetch label st a).1 = wanted label g a ∧ (access fetch label st a).2.graph = some g ∧ (access fetch label st a).2.loads = 1 ∧
          ((access fetch label st a).2.types = none ∨ (access fetch label st a).2.types = some (vocabulary label g)) := by
        cases a with
        | graph => simp [access, typesGraph, h1, wanted, h2, h3]
        | types =>
          rcases h3 with h3 | h3
          · simp [access, dcmiTypes, h3, typesGraph, h1, collect_vocabulary hl, wanted, h2]
          · simp [access, dcmiTypes, h3, wanted, h1, h2]
      obtain ⟨k1, k2, k3, k4⟩ := key
      obtain ⟨i1, i2⟩ := ih _ k2 k3 k4
      exact ⟨by simp only [accesses, List.map_cons, k1, i1], i2⟩
  cases as with
  | nil => exact ⟨rfl, rfl⟩
  | cons a as =>
    have key : (access fetch label {} a).1 = wanted label g a ∧ (access fetch label {} a).2.graph = some g ∧ (access fetch label {} a).2.loads = 1 ∧
        ((access fetch label {} a).2.types = none ∨ (access fetch label {} a).2.types = some (vocabulary label g)) := by
      cases a with
      | graph => simp [access, typesGraph, hf, wanted]
      | types => simp [access, dcmiTypes, typesGraph, hf, collect_vocabulary hl, wanted]
    obtain ⟨k1, k2, k3, k4⟩ := key
    obtain ⟨i1, i2⟩ := step _ k2 k3 k4 as
    exact ⟨by simp only [accesses, List.map_cons, k1, i1], i2.trans (if_neg (by simp)).symm⟩

/-- C99.  Whatever happens, an object downloads the vocabulary at most once, in every history. -/
theorem C99_one_download (as : List Access) : (accesses fetch label {} as).2.loads ≤ 1 := by
  have step : ∀ (as : List Access) (st : St), ((st.graph = none ∧ st.loads = 0) ∨ (st.graph ≠ none ∧ st.loads = 1)) → (accesses fetch label st as).2.loads ≤ 1 := by
    intro as
    induction as with
    | nil =>
      intro st h
      show st.loads ≤ 1
      rcases h with ⟨-, h⟩ | ⟨-, h⟩ <;> omega
    | cons a as ih =>
      intro st h
      refine ih _ ?_
      have hg : ∀ st : St, ((st.graph = none ∧ st.loads = 0) ∨ (st.graph ≠ none ∧ st.loads = 1)) →
          (((typesGraph fetch st).2.graph ≠ none ∧ (typesGraph fetch st).2.loads = 1)) := by
        intro st h
        unfold typesGraph
        rcases h with ⟨h1, h2⟩ | ⟨h1, h2⟩
        · rw [h1]; simp only; cases fetch st.loads <;> simp [h2]
        · cases h3 : st.graph with
          | none => exact absurd h3 h1
          | some g => simp [h3, h2]
      cases a with
      | graph =>
        have := hg st h
        right
        simp only [access]
        split <;> rename_i heq <;> rw [heq] at this <;> exact this
      | types =>
        simp only [access, dcmiTypes]
        cases ht : st.types with
        | some l => exact h
        | none =>
          have := hg { st with types := some [] } h
          right
          simp only
          cases hq : typesGraph fetch { st with types := some [] } with
          | mk r st' =>
            rw [hq] at this
            cases r with
            | error e => exact this
            | ok g =>
              simp only
              cases hc : collect label g (classItems g) [] with
              | mk r' l => cases r' <;> exact this
  exact step as {} (.inl ⟨rfl, rfl⟩)

/-- C99.  If the first access is to the vocabulary and its download fails, that access raises, but every later one gives an empty list instead of the vocabulary, or
another exception: the failure is remembered as "no types". -/
theorem C99_counterexample_failed_download (got : Graph) (hf : fetch 0 = .fails got) (as : List Access) :
    (accesses fetch label {} (.types :: as)).1 = .raised .download :: as.map (fun a => match a with | .graph => .graph got | .types => .types []) := by
  have step : ∀ (as : List Access) (st : St), st.graph = some got → st.types = some [] →
      (accesses fetch label st as).1 = as.map (fun a => match a with | .graph => .graph got | .types => .types []) := by
    intro as
    induction as with
    | nil => intros; rfl
    | cons a as ih =>
      intro st h1 h2
      cases a with
      | graph =>
        have hacc : access fetch label st .graph = (.graph got, st) := by simp [access, typesGraph, h1]
        simp only [accesses, hacc, List.map_cons, ih st h1 h2]
      | types =>
        have hacc : access fetch label st .types = (.types [], st) := by simp [access, dcmiTypes, h2]
        simp only [accesses, hacc, List.map_cons, ih st h1 h2]
  have hacc : access fetch label {} .types = (.raised .download, ⟨some got, some [], 1⟩) := by simp [access, dcmiTypes, typesGraph, hf]
  rw [accesses, hacc, step as _ rfl rfl]

/-- C99.  After a graph access whose download failed, the vocabulary is computed from what the broken download left. -/
theorem C99_counterexample_broken_graph (got : Graph) (hf : fetch 0 = .fails got) (hl : Labelled label got) :
    (accesses fetch label {} [.graph, .types]).1 = [.raised .download, .types (vocabulary label got)] := by
  have hacc : access fetch label {} .graph = (.raised .download, ⟨some got, none, 1⟩) := by simp [access, typesGraph, hf]
  have hacc' : access fetch label ⟨some got, none, 1⟩ .types = (.types (vocabulary label got), ⟨some got, some (vocabulary label got), 1⟩) := by
    simp [access, dcmiTypes, typesGraph, collect_vocabulary hl]
  simp only [accesses, hacc, hacc']

end

/-! ### an example -/

/-- Two types, a class of something else, and a property of the vocabulary that is no class. -/
def typesRdf : Graph := [(c%"t:Text", rdfType, rdfsClass), (c%"x:Other", rdfType, rdfsClass), (c%"t:Text", isDefinedBy, typeUri), (c%"t:Sound", isDefinedBy, typeUri),
  (c%"t:Sound", rdfType, rdfsClass), (c%"t:p", isDefinedBy, typeUri), (c%"t:p", rdfType, c%"Property")]

example : (accesses (fun _ => .ok typesRdf) (fun _ x => some (x.drop 2)) {} [.types, .graph, .types]).1 =
    [.types [c%"Text", c%"Sound"], .graph typesRdf, .types [c%"Text", c%"Sound"]] := by
  rw [(C99_vocabulary _ _ typesRdf rfl (by intro x _; simp) _).1]
  decide

end Props
