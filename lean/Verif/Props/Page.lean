import Verif.Forms.Page
import Verif.Props.Initial
import Mathlib.Data.List.Nodup
/-
Properties C86 (the inputs of a page have different names) and C87 (the page shows every form once).

Model: Verif/Forms/Page.lean.
-/
namespace Props
open XPath Forms Py

/-! ### specification -/

/- The inputs of a form, each with the way to it: names of subforms, names of formsets followed by the number of the form, and last the name of the field. -/
mutual
def PForm.ways (f : PForm) : List (List Str) := match f with
  | .mk fields subs sets => fields.map (fun x => [x]) ++ PSubs.ways subs ++ PSets.ways sets
def PSubs.ways (l : PSubs) : List (List Str) := match l with
  | .nil => []
  | .cons name _ f rest => (PForm.ways f).map (name :: ·) ++ PSubs.ways rest
def PSets.ways (l : PSets) : List (List Str) := match l with
  | .nil => []
  | .cons name _ _ forms rest => managementFields.map (fun x => [name, x]) ++ (PForms.ways 0 forms).map (name :: ·) ++ PSets.ways rest
def PForms.ways (i : Nat) (l : PForms) : List (List Str) := match l with
  | .nil => []
  | .cons f rest => (PForm.ways f).map (natStr i :: ·) ++ PForms.ways (i + 1) rest
end

/-- A name in Python: not empty, without `-`, and not beginning with a digit. -/
def PyName (x : Str) : Prop := x ≠ [] ∧ '-' ∉ x ∧ ∀ c ∈ x.head?, isDigit c = false

/-- The names of the subforms. -/
def PSubs.names : PSubs → List Str
  | .nil => []
  | .cons name _ _ rest => name :: PSubs.names rest
/-- The names of the formsets. -/
def PSets.names : PSets → List Str
  | .nil => []
  | .cons name _ _ _ rest => name :: PSets.names rest

/- In each form, the names of fields are different from each other, as are the names of subforms and formsets. -/
mutual
def PForm.Named (f : PForm) : Prop := match f with
  | .mk fields subs sets => fields.Nodup ∧ (∀ x ∈ fields, PyName x) ∧ (PSubs.names subs ++ PSets.names sets).Nodup ∧
      (∀ x ∈ PSubs.names subs ++ PSets.names sets, PyName x) ∧ PSubs.Named subs ∧ PSets.Named sets
def PSubs.Named (l : PSubs) : Prop := match l with
  | .nil => True
  | .cons _ _ f rest => PForm.Named f ∧ PSubs.Named rest
def PSets.Named (l : PSets) : Prop := match l with
  | .nil => True
  | .cons _ _ _ forms rest => PForms.Named forms ∧ PSets.Named rest
def PForms.Named (l : PForms) : Prop := match l with
  | .nil => True
  | .cons f rest => PForm.Named f ∧ PForms.Named rest
end

/-! ### proof -/

theorem dashed_single (x : Str) : dashed [x] = x := by simp [dashed, List.intercalate, List.intersperse]

mutual
/-- The ways in a form are not empty, and without `-`. -/
theorem PForm.ways_good (f : PForm) : ∀ w ∈ PForm.ways f, w ≠ [] := match f with
  | .mk fields subs sets => by
    intro w hw
    rw [PForm.ways] at hw
    simp only [List.mem_append, List.mem_map] at hw
    rcases hw with (⟨x, -, rfl⟩ | hw) | hw
    · simp
    · obtain ⟨n, t, -, rfl, -⟩ := PSubs.ways_good subs w hw; simp
    · obtain ⟨n, t, -, rfl, -⟩ := PSets.ways_good sets w hw; simp
theorem PSubs.ways_good (l : PSubs) : ∀ w ∈ PSubs.ways l, ∃ n t, n ∈ PSubs.names l ∧ w = n :: t ∧ t ≠ [] := match l with
  | .nil => by intro w hw; simp [PSubs.ways] at hw
  | .cons name _ f rest => by
    intro w hw
    rw [PSubs.ways] at hw
    simp only [List.mem_append, List.mem_map] at hw
    rcases hw with ⟨t, ht, rfl⟩ | hw
    · exact ⟨name, t, by simp [PSubs.names], rfl, PForm.ways_good f t ht⟩
    · obtain ⟨n, t, h1, h2, h3⟩ := PSubs.ways_good rest w hw
      exact ⟨n, t, by simp [PSubs.names, h1], h2, h3⟩
theorem PSets.ways_good (l : PSets) : ∀ w ∈ PSets.ways l, ∃ n t, n ∈ PSets.names l ∧ w = n :: t ∧ t ≠ [] := match l with
  | .nil => by intro w hw; simp [PSets.ways] at hw
  | .cons name _ _ forms rest => by
    intro w hw
    rw [PSets.ways] at hw
    simp only [List.mem_append, List.mem_map] at hw
    rcases hw with (⟨x, hx, rfl⟩ | ⟨t, ht, rfl⟩) | hw
    · exact ⟨name, [x], by simp [PSets.names], rfl, by simp⟩
    · obtain ⟨j, t', -, rfl, -⟩ := PForms.ways_good 0 forms t ht
      exact ⟨name, _, by simp [PSets.names], rfl, by simp⟩
    · obtain ⟨n, t, h1, h2, h3⟩ := PSets.ways_good rest w hw
      exact ⟨n, t, by simp [PSets.names, h1], h2, h3⟩
theorem PForms.ways_good (i : Nat) (l : PForms) : ∀ w ∈ PForms.ways i l, ∃ j t, i ≤ j ∧ w = natStr j :: t ∧ t ≠ [] := match l with
  | .nil => by intro w hw; simp [PForms.ways] at hw
  | .cons f rest => by
    intro w hw
    rw [PForms.ways] at hw
    simp only [List.mem_append, List.mem_map] at hw
    rcases hw with ⟨t, ht, rfl⟩ | hw
    · exact ⟨i, t, Nat.le_refl i, rfl, PForm.ways_good f t ht⟩
    · obtain ⟨n, t, h1, h2, h3⟩ := PForms.ways_good (i + 1) rest w hw
      exact ⟨n, t, by omega, h2, h3⟩
end

theorem management_names : ∀ x ∈ managementFields, PyName x := by
  intro x hx
  simp only [managementFields, List.mem_cons, List.not_mem_nil, or_false] at hx
  rcases hx with rfl | rfl | rfl | rfl <;> exact ⟨by decide, by decide, by decide⟩

mutual
theorem PForm.ways_plain (f : PForm) (h : PForm.Named f) : ∀ w ∈ PForm.ways f, ∀ c ∈ w, '-' ∉ c := match f, h with
  | .mk fields subs sets, h => by
    obtain ⟨-, h2, -, h4, h5, h6⟩ := h
    intro w hw
    rw [PForm.ways] at hw
    simp only [List.mem_append, List.mem_map] at hw
    rcases hw with (⟨x, hx, rfl⟩ | hw) | hw
    · simp only [List.mem_singleton, forall_eq]; exact (h2 x hx).2.1
    · exact PSubs.ways_plain subs h5 (fun x hx => h4 x (by simp [hx])) w hw
    · exact PSets.ways_plain sets h6 (fun x hx => h4 x (by simp [hx])) w hw
theorem PSubs.ways_plain (l : PSubs) (h : PSubs.Named l) (hn : ∀ x ∈ PSubs.names l, PyName x) : ∀ w ∈ PSubs.ways l, ∀ c ∈ w, '-' ∉ c := match l, h, hn with
  | .nil, _, _ => by intro w hw; simp [PSubs.ways] at hw
  | .cons name _ f rest, h, hn => by
    intro w hw
    rw [PSubs.ways] at hw
    simp only [List.mem_append, List.mem_map] at hw
    rcases hw with ⟨t, ht, rfl⟩ | hw
    · intro c hc
      rcases List.mem_cons.mp hc with rfl | hc
      · exact (hn _ (by simp [PSubs.names])).2.1
      · exact PForm.ways_plain f h.1 t ht c hc
    · exact PSubs.ways_plain rest h.2 (fun x hx => hn x (by simp [PSubs.names, hx])) w hw
theorem PSets.ways_plain (l : PSets) (h : PSets.Named l) (hn : ∀ x ∈ PSets.names l, PyName x) : ∀ w ∈ PSets.ways l, ∀ c ∈ w, '-' ∉ c := match l, h, hn with
  | .nil, _, _ => by intro w hw; simp [PSets.ways] at hw
  | .cons name _ _ forms rest, h, hn => by
    intro w hw
    rw [PSets.ways] at hw
    simp only [List.mem_append, List.mem_map] at hw
    have hname := (hn name (by simp [PSets.names])).2.1
    rcases hw with (⟨x, hx, rfl⟩ | ⟨t, ht, rfl⟩) | hw
    · intro c hc
      simp only [List.mem_cons, List.not_mem_nil, or_false] at hc
      rcases hc with rfl | rfl
      · exact hname
      · exact (management_names _ hx).2.1
    · intro c hc
      rcases List.mem_cons.mp hc with rfl | hc
      · exact hname
      · exact PForms.ways_plain 0 forms h.1 t ht c hc
    · exact PSets.ways_plain rest h.2 (fun x hx => hn x (by simp [PSets.names, hx])) w hw
theorem PForms.ways_plain (i : Nat) (l : PForms) (h : PForms.Named l) : ∀ w ∈ PForms.ways i l, ∀ c ∈ w, '-' ∉ c := match l, h with
  | .nil, _ => by intro w hw; simp [PForms.ways] at hw
  | .cons f rest, h => by
    intro w hw
    rw [PForms.ways] at hw
    simp only [List.mem_append, List.mem_map] at hw
    rcases hw with ⟨t, ht, rfl⟩ | hw
    · intro c hc
      rcases List.mem_cons.mp hc with rfl | hc
      · exact digit_ne_dash
      · exact PForm.ways_plain f h.1 t ht c hc
    · exact PForms.ways_plain (i + 1) rest h.2 w hw
end

theorem nodup_consMap (x : Str) {l : List (List Str)} (h : l.Nodup) : (l.map (x :: ·)).Nodup :=
  List.Nodup.map_on (by intro a _ b _ e; simpa using e) h

/-- A name is not a number. -/
theorem name_ne_nat {x : Str} (h : PyName x) (i : Nat) : x ≠ natStr i := by
  intro e
  obtain ⟨h1, h2, -⟩ := natStr_spec i
  subst e
  cases hh : natStr i with
  | nil => exact h1 hh
  | cons c cs =>
    have := h.2.2 c (by rw [hh]; simp)
    rw [h2 c (by rw [hh]; simp)] at this
    cases this

mutual
theorem PForm.ways_nodup (f : PForm) (h : PForm.Named f) : (PForm.ways f).Nodup := match f, h with
  | .mk fields subs sets, h => by
    obtain ⟨h1, h2, h3, h4, h5, h6⟩ := h
    rw [List.nodup_append] at h3
    rw [PForm.ways, List.nodup_append, List.nodup_append]
    refine ⟨⟨List.Nodup.map_on (by intro a _ b _ e; simpa using e) h1, PSubs.ways_nodup subs h5 h3.1, ?_⟩, PSets.ways_nodup sets h6 h3.2.1, ?_⟩
    · intro w hw w' hw' e
      subst e
      obtain ⟨x, -, rfl⟩ := List.mem_map.mp hw
      obtain ⟨n, t, -, k, k'⟩ := PSubs.ways_good subs _ hw'
      simp only [List.cons.injEq] at k
      exact k' k.2.symm
    · intro w hw w' hw' e
      subst e
      obtain ⟨n, t, j, rfl, k'⟩ := PSets.ways_good sets _ hw'
      rcases List.mem_append.mp hw with hw | hw
      · obtain ⟨x, -, k⟩ := List.mem_map.mp hw
        simp only [List.cons.injEq] at k
        exact k' k.2.symm
      · obtain ⟨n', t', j', k, -⟩ := PSubs.ways_good subs _ hw
        simp only [List.cons.injEq] at k
        exact h3.2.2 _ j' _ j k.1.symm
theorem PSubs.ways_nodup (l : PSubs) (h : PSubs.Named l) (hn : (PSubs.names l).Nodup) : (PSubs.ways l).Nodup := match l, h, hn with
  | .nil, _, _ => by simp [PSubs.ways]
  | .cons name _ f rest, h, hn => by
    rw [PSubs.names, List.nodup_cons] at hn
    rw [PSubs.ways, List.nodup_append]
    refine ⟨nodup_consMap _ (PForm.ways_nodup f h.1), PSubs.ways_nodup rest h.2 hn.2, ?_⟩
    intro w hw w' hw' e
    subst e
    obtain ⟨x, -, rfl⟩ := List.mem_map.mp hw
    obtain ⟨n, t, j, k, k'⟩ := PSubs.ways_good rest _ hw'
    simp only [List.cons.injEq] at k
    rw [← k.1] at j
    exact hn.1 j
theorem PSets.ways_nodup (l : PSets) (h : PSets.Named l) (hn : (PSets.names l).Nodup) : (PSets.ways l).Nodup := match l, h, hn with
  | .nil, _, _ => by simp [PSets.ways]
  | .cons name _ _ forms rest, h, hn => by
    rw [PSets.names, List.nodup_cons] at hn
    rw [PSets.ways, List.nodup_append, List.nodup_append]
    refine ⟨⟨?_, nodup_consMap _ (PForms.ways_nodup 0 forms h.1), ?_⟩, PSets.ways_nodup rest h.2 hn.2, ?_⟩
    · exact List.Nodup.map_on (by intro a _ b _ e; simpa using e) (by decide)
    · intro w hw w' hw' e
      subst e
      obtain ⟨x, hx, rfl⟩ := List.mem_map.mp hw
      obtain ⟨t, ht, k⟩ := List.mem_map.mp hw'
      simp only [List.cons.injEq, true_and] at k
      subst k
      obtain ⟨j, t', -, k, -⟩ := PForms.ways_good 0 forms _ ht
      simp only [List.cons.injEq] at k
      exact name_ne_nat (management_names x hx) j k.1
    · intro w hw w' hw' e
      subst e
      obtain ⟨n, t, j, rfl, k'⟩ := PSets.ways_good rest _ hw'
      rcases List.mem_append.mp hw with hw | hw
      · obtain ⟨x, -, k⟩ := List.mem_map.mp hw
        simp only [List.cons.injEq] at k
        rw [← k.1] at j
        exact hn.1 j
      · obtain ⟨x, -, k⟩ := List.mem_map.mp hw
        simp only [List.cons.injEq] at k
        rw [← k.1] at j
        exact hn.1 j
theorem PForms.ways_nodup (i : Nat) (l : PForms) (h : PForms.Named l) : (PForms.ways i l).Nodup := match l, h with
  | .nil, _ => by simp [PForms.ways]
  | .cons f rest, h => by
    rw [PForms.ways, List.nodup_append]
    refine ⟨nodup_consMap _ (PForm.ways_nodup f h.1), PForms.ways_nodup (i + 1) rest h.2, ?_⟩
    intro w hw w' hw' e
    subst e
    obtain ⟨x, -, rfl⟩ := List.mem_map.mp hw
    obtain ⟨j, t, hj, k, -⟩ := PForms.ways_good (i + 1) rest _ hw'
    simp only [List.cons.injEq] at k
    have := natStr_inj k.1
    omega
end

theorem map_dash (p x : Str) {l : List (List Str)} (h : ∀ w ∈ l, w ≠ []) :
    l.map (fun w => (p ++ '-' :: x) ++ '-' :: dashed w) = (l.map (x :: ·)).map (fun w => p ++ '-' :: dashed w) := by
  rw [List.map_map]
  refine List.map_congr_left (fun w hw => ?_)
  simp only [Function.comp]
  rw [dashed_cons (h w hw)]
  simp

theorem map_dash0 (x : Str) {l : List (List Str)} (h : ∀ w ∈ l, w ≠ []) : l.map (fun w => x ++ '-' :: dashed w) = (l.map (x :: ·)).map dashed := by
  rw [List.map_map]
  refine List.map_congr_left (fun w hw => ?_)
  simp only [Function.comp]
  rw [dashed_cons (h w hw)]

theorem addPrefix_some {p : Str} (h : p ≠ []) (x : Str) : addPrefix (some p) x = p ++ '-' :: x := by
  cases p with
  | nil => exact absurd rfl h
  | cons => rfl

theorem PForms.ways_ne (i : Nat) (l : PForms) : ∀ w ∈ PForms.ways i l, w ≠ [] := by
  intro w hw
  obtain ⟨_, _, -, rfl, -⟩ := PForms.ways_good i l w hw
  simp

mutual
theorem PForm.inputs_ways (p : Str) (hp : p ≠ []) (f : PForm) : PForm.inputs (some p) f = (PForm.ways f).map (fun w => p ++ '-' :: dashed w) := match f with
  | .mk fields subs sets => by
    rw [PForm.inputs, PForm.ways, List.map_append, List.map_append, PSubs.inputs_ways p hp subs, PSets.inputs_ways p sets]
    congr 2
    rw [List.map_map]
    refine List.map_congr_left (fun x _ => ?_)
    rw [addPrefix_some hp]
    simp only [Function.comp, dashed_single]
theorem PSubs.inputs_ways (p : Str) (hp : p ≠ []) (l : PSubs) : PSubs.inputs (some p) l = (PSubs.ways l).map (fun w => p ++ '-' :: dashed w) := match l with
  | .nil => by simp [PSubs.inputs, PSubs.ways]
  | .cons name _ f rest => by
    rw [PSubs.inputs, PSubs.ways, List.map_append, PSubs.inputs_ways p hp rest, PForm.inputs_ways (addPrefix (some p) name) (by rw [addPrefix_some hp]; simp) f,
      ← map_dash p name (PForm.ways_good f), addPrefix_some hp]
theorem PSets.inputs_ways (p : Str) (l : PSets) : PSets.inputs (some p) l = (PSets.ways l).map (fun w => p ++ '-' :: dashed w) := match l with
  | .nil => by simp [PSets.inputs, PSets.ways]
  | .cons name _ _ forms rest => by
    rw [PSets.inputs, PSets.ways, List.map_append, List.map_append, PSets.inputs_ways p rest, PForms.inputs_ways (setPrefix (some p) name) (by simp [setPrefix]) 0 forms,
      ← map_dash p name (PForms.ways_ne 0 forms)]
    congr 2
    rw [List.map_map]
    refine List.map_congr_left (fun x _ => ?_)
    rw [addPrefix_some (by simp [setPrefix])]
    simp only [Function.comp, setPrefix]
    rw [dashed_cons (n := name) (by simp), dashed_single]
    simp
theorem PForms.inputs_ways (p : Str) (hp : p ≠ []) (i : Nat) (l : PForms) : PForms.inputs p i l = (PForms.ways i l).map (fun w => p ++ '-' :: dashed w) := match l with
  | .nil => by simp [PForms.inputs, PForms.ways]
  | .cons f rest => by
    rw [PForms.inputs, PForms.ways, List.map_append, PForms.inputs_ways p hp (i + 1) rest, PForm.inputs_ways (indexPrefix p i) (by simp [indexPrefix]) f,
      ← map_dash p (natStr i) (PForm.ways_good f)]
    rfl
end

/-- Without a prefix. -/
theorem subs_bare : ∀ (l : PSubs) (pfx : Option Str), pfx = none ∨ pfx = some [] → (∀ x ∈ PSubs.names l, PyName x) → PSubs.inputs pfx l = (PSubs.ways l).map dashed
  | .nil, _, _, _ => by simp [PSubs.inputs, PSubs.ways]
  | .cons name _ f rest, pfx, hp, hn => by
    have e : addPrefix pfx name = name := by rcases hp with rfl | rfl <;> rfl
    rw [PSubs.inputs, PSubs.ways, List.map_append, subs_bare rest pfx hp (fun x hx => hn x (by simp [PSubs.names, hx])), e,
      PForm.inputs_ways name (hn name (by simp [PSubs.names])).1 f, map_dash0 name (PForm.ways_good f)]

theorem sets_bare : ∀ (l : PSets), (∀ x ∈ PSets.names l, PyName x) → PSets.inputs none l = (PSets.ways l).map dashed
  | .nil, _ => by simp [PSets.inputs, PSets.ways]
  | .cons name _ _ forms rest, hn => by
    have hne := (hn name (by simp [PSets.names])).1
    rw [PSets.inputs, PSets.ways, List.map_append, List.map_append, sets_bare rest (fun x hx => hn x (by simp [PSets.names, hx])),
      show setPrefix none name = name from rfl, PForms.inputs_ways name hne 0 forms, map_dash0 name (PForms.ways_ne 0 forms)]
    congr 2
    rw [List.map_map]
    refine List.map_congr_left (fun x _ => ?_)
    rw [addPrefix_some hne]
    simp only [Function.comp]
    rw [dashed_cons (n := name) (by simp), dashed_single]

/-! ### C86 -/

/-- C86.  Without prefix, the name of each input is the way to it, the parts joined with `-`. -/
theorem C86_names (f : PForm) (h : PForm.Named f) : PForm.inputs none f = (PForm.ways f).map dashed := by
  match f, h with
  | .mk fields subs sets, h =>
    obtain ⟨-, -, -, h4, -, -⟩ := h
    rw [PForm.inputs, PForm.ways, List.map_append, List.map_append, subs_bare subs none (.inl rfl) (fun x hx => h4 x (by simp [hx])),
      sets_bare sets (fun x hx => h4 x (by simp [hx]))]
    congr 2
    rw [List.map_map]
    refine List.map_congr_left (fun x _ => ?_)
    simp only [Function.comp, dashed_single]; rfl

/-- C86.  With a prefix, it comes in front of that. -/
theorem C86_prefixed (p : Str) (hp : p ≠ []) (f : PForm) : PForm.inputs (some p) f = (PForm.ways f).map (fun w => p ++ '-' :: dashed w) := PForm.inputs_ways p hp f

/-- C86.  No two inputs of a form, with its subforms and formsets at any depth, have the same name. -/
theorem C86_distinct (pfx : Option Str) (f : PForm) (h : PForm.Named f) : (PForm.inputs pfx f).Nodup := by
  have hinj : ∀ a ∈ PForm.ways f, ∀ b ∈ PForm.ways f, dashed a = dashed b → a = b := by
    intro a ha b hb e
    exact dashed_inj (PForm.ways_plain f h a ha) (PForm.ways_plain f h b hb) (PForm.ways_good f a ha) (PForm.ways_good f b hb) e
  have hd := PForm.ways_nodup f h
  match pfx with
  | none => rw [C86_names f h]; exact List.Nodup.map_on hinj hd
  | some (c :: p) =>
    rw [C86_prefixed (c :: p) (by simp) f]
    refine List.Nodup.map_on (fun a ha b hb e => hinj a ha b hb ?_) hd
    simpa using e
  | some [] =>
    match f, h, hinj, hd with
    | .mk fields subs sets, h, hinj, hd =>
      obtain ⟨-, h2, -, h4, -, -⟩ := h
      rw [PForm.ways] at hinj hd
      have e1 : fields.map (addPrefix (some [])) ++ PSubs.inputs (some []) subs = (fields.map (fun x => [x]) ++ PSubs.ways subs).map dashed := by
        rw [List.map_append, subs_bare subs (some []) (.inr rfl) (fun x hx => h4 x (by simp [hx])), List.map_map]
        congr 1
        refine List.map_congr_left (fun x _ => ?_)
        simp only [Function.comp, dashed_single]; rfl
      rw [PForm.inputs, e1, PSets.inputs_ways [] sets, List.nodup_append]
      rw [List.nodup_append] at hd
      refine ⟨List.Nodup.map_on (fun a ha b hb => hinj a (by simp only [List.mem_append] at ha ⊢; exact .inl ha) b (by simp only [List.mem_append] at hb ⊢; exact .inl hb)) hd.1,
        List.Nodup.map_on (fun a ha b hb e => hinj a (by simp [ha]) b (by simp [hb]) (by simpa using e)) hd.2.1, ?_⟩
      intro w hw w' hw' e
      subst e
      obtain ⟨a, ha, rfl⟩ := List.mem_map.mp hw
      obtain ⟨b, -, hb⟩ := List.mem_map.mp hw'
      have hhead : ∃ n t, PyName n ∧ a = n :: t := by
        rcases List.mem_append.mp ha with ha | ha
        · obtain ⟨x, hx, rfl⟩ := List.mem_map.mp ha
          exact ⟨x, [], h2 x hx, rfl⟩
        · obtain ⟨n, t, hn, e, -⟩ := PSubs.ways_good subs a ha
          exact ⟨n, t, h4 n (by simp [hn]), e⟩
      obtain ⟨n, t, hn, rfl⟩ := hhead
      obtain ⟨hn1, hn2, -⟩ := hn
      cases n with
      | nil => exact hn1 rfl
      | cons c n =>
        cases t with
        | nil => rw [dashed_single] at hb; simp at hb; exact hn2 (hb.1 ▸ List.mem_cons_self)
        | cons y t => rw [dashed_cons (by simp)] at hb; simp at hb; exact hn2 (hb.1 ▸ List.mem_cons_self)

/-- C86.  So each field gets the value that has been entered in its input: if the browser sends a value for each input, the value at an input's name is that one. -/
theorem C86_received {V : Type} (pfx : Option Str) (f : PForm) (h : PForm.Named f) (vs : List V) (hl : vs.length = (PForm.inputs pfx f).length) (i : Nat)
    (hi : i < (PForm.inputs pfx f).length) : Dict.get? ((PForm.inputs pfx f).zip vs) ((PForm.inputs pfx f)[i]) = some (vs[i]'(hl ▸ hi)) := by
  refine Dict.get?_of_mem ?_ ?_
  · show (((PForm.inputs pfx f).zip vs).map (·.1)).Nodup
    rw [List.map_fst_zip (by omega)]
    exact C86_distinct pfx f h
  · rw [List.mem_iff_getElem]
    exact ⟨i, by simp [hl]; omega, by simp⟩

/-! ### C87: specification -/

/-- What a page is made of: the fields of one form (with the names of the inputs), the management form of one formset (likewise), the label of a section, and
other text. -/
inductive Piece where
  | fields (inputs : List Str)
  | management (inputs : List Str)
  | label (l : Str)
  | text (t : Str)

/-- The HTML of a piece. -/
def Piece.html (h : Html) : Piece → Str
  | .fields l => h.own l
  | .management l => h.management l
  | .label l => h.toLabel l
  | .text t => t

/-- Not just text. -/
def Piece.proper : Piece → Bool
  | .text _ => false
  | _ => true

/-- The inputs in a piece. -/
def Piece.inputs : Piece → List Str
  | .fields l => l
  | .management l => l
  | _ => []

/-- The HTML of a list of pieces. -/
def render (h : Html) (l : List Piece) : Str := (l.map (Piece.html h)).flatten

/-- The heading of a section, if there are sections. -/
def heading (sec : Option Section) (l : Str) : List Piece := match sec with
  | none => []
  | some _ => [.label l]

/- What a page for a form has, in order: the fields of the form; for each subform its label and what a page for it has; for each formset its management form, its
label, and what a page for each of its forms has. -/
mutual
def PForm.outline (sec : Option Section) (pfx : Option Str) (f : PForm) : List Piece := match f with
  | .mk fields subs sets => .fields (fields.map (addPrefix pfx)) :: (PSubs.outline sec pfx subs ++ PSets.outline sec pfx sets)
def PSubs.outline (sec : Option Section) (pfx : Option Str) (l : PSubs) : List Piece := match l with
  | .nil => []
  | .cons name label f rest => heading sec (label.getD []) ++ PForm.outline sec (some (addPrefix pfx name)) f ++ PSubs.outline sec pfx rest
def PSets.outline (sec : Option Section) (pfx : Option Str) (l : PSets) : List Piece := match l with
  | .nil => []
  | .cons name formLabel label forms rest => .management (managementFields.map (addPrefix (some (setPrefix pfx name)))) ::
      (heading sec (formLabel.getD label) ++ PForms.outline sec (setPrefix pfx name) 0 forms ++ PSets.outline sec pfx rest)
def PForms.outline (sec : Option Section) (pfx : Str) (i : Nat) (l : PForms) : List Piece := match l with
  | .nil => []
  | .cons f rest => PForm.outline sec (some (indexPrefix pfx i)) f ++ PForms.outline sec pfx (i + 1) rest
end

/- Each subform has a label, if there are sections, and each formset has a form. -/
mutual
def PForm.Shown (sec : Option Section) (f : PForm) : Prop := match f with
  | .mk _ subs sets => PSubs.Shown sec subs ∧ PSets.Shown sec sets
def PSubs.Shown (sec : Option Section) (l : PSubs) : Prop := match l with
  | .nil => True
  | .cons _ label f rest => (sec.isSome → label.isSome) ∧ PForm.Shown sec f ∧ PSubs.Shown sec rest
def PSets.Shown (sec : Option Section) (l : PSets) : Prop := match l with
  | .nil => True
  | .cons _ _ _ forms rest => forms ≠ .nil ∧ PForms.Shown sec forms ∧ PSets.Shown sec rest
def PForms.Shown (sec : Option Section) (l : PForms) : Prop := match l with
  | .nil => True
  | .cons f rest => PForm.Shown sec f ∧ PForms.Shown sec rest
end

/-! ### C87: proof -/

/-- A text made of pieces, of which `o` are the proper ones. -/
def Made (x : Html → Except PyErr Str) (o : List Piece) : Prop :=
  ∃ ps : List Piece, ps.filter Piece.proper = o ∧ ∀ h, x h = .ok (render h ps)
/-- The same for lists of texts. -/
def MadeL (x : Html → Except PyErr (List Str)) (o : List Piece) : Prop :=
  ∃ pss : List (List Piece), pss.flatten.filter Piece.proper = o ∧ ∀ h, x h = .ok (pss.map (render h))

theorem render_append (h : Html) (a b : List Piece) : render h (a ++ b) = render h a ++ render h b := by simp [render]
theorem render_cons (h : Html) (a : Piece) (b : List Piece) : render h (a :: b) = a.html h ++ render h b := by simp [render]
theorem render_nil (h : Html) : render h [] = [] := rfl

/-- The pieces of lines. -/
def joinPieces : List (List Piece) → List Piece
  | [] => []
  | [x] => x
  | x :: y :: l => x ++ .text ['\n'] :: joinPieces (y :: l)

theorem render_join (h : Html) : ∀ pss, render h (joinPieces pss) = joinLines (pss.map (render h))
  | [] => rfl
  | [x] => rfl
  | x :: y :: l => by
    rw [joinPieces, render_append, render_cons, render_join h (y :: l)]
    rfl

theorem filter_join : ∀ pss, (joinPieces pss).filter Piece.proper = pss.flatten.filter Piece.proper
  | [] => rfl
  | [x] => by simp [joinPieces]
  | x :: y :: l => by
    rw [joinPieces, List.filter_append, List.filter_cons_of_neg (by simp [Piece.proper]), filter_join (y :: l)]
    simp

theorem made_section {x : Html → Except PyErr Str} {o : List Piece} (hx : Made x o) (sec : Option Section) (l : Option Str) (hl : sec.isSome → l.isSome) :
    Made (fun h => do let c ← x h; inSection h sec l c) (heading sec (l.getD []) ++ o) := by
  obtain ⟨ps, h1, h2⟩ := hx
  cases sec with
  | none => exact ⟨ps, by simp [heading, h1], fun h => by simp only [h2 h]; rfl⟩
  | some s =>
    cases l with
    | none => exact absurd (hl rfl) (by simp)
    | some l =>
      refine ⟨.text s.before :: .label l :: .text s.between :: (ps ++ [.text s.after]), ?_, fun h => ?_⟩
      · rw [List.filter_cons_of_neg (by simp [Piece.proper]), List.filter_cons_of_pos (by simp [Piece.proper]), List.filter_cons_of_neg (by simp [Piece.proper]),
          List.filter_append, List.filter_cons_of_neg (by simp [Piece.proper]), h1]
        simp [heading]
      · simp only [h2 h]
        show Except.ok (s.wrap (h.toLabel l) (render h ps)) = _
        simp only [render_cons, render_append, render_nil, Piece.html, Section.wrap, List.append_assoc, List.append_nil]

theorem made_join {x : Html → Except PyErr (List Str)} {o : List Piece} (hx : MadeL x o) : Made (fun h => do let c ← x h; pure (joinLines c)) o := by
  obtain ⟨pss, h1, h2⟩ := hx
  exact ⟨joinPieces pss, by rw [filter_join, h1], fun h => by simp only [h2 h, render_join]; rfl⟩

theorem madeL_cons {x : Html → Except PyErr Str} {y : Html → Except PyErr (List Str)} {o o' : List Piece} (hx : Made x o) (hy : MadeL y o') :
    MadeL (fun h => do let a ← x h; let r ← y h; pure (a :: r)) (o ++ o') := by
  obtain ⟨ps, h1, h2⟩ := hx
  obtain ⟨pss, h3, h4⟩ := hy
  exact ⟨ps :: pss, by rw [List.flatten_cons, List.filter_append, h1, h3], fun h => by simp only [h2 h, h4 h]; rfl⟩

theorem madeL_append {x y : Html → Except PyErr (List Str)} {o o' : List Piece} (hx : MadeL x o) (hy : MadeL y o') :
    MadeL (fun h => do let a ← x h; let r ← y h; pure (a ++ r)) (o ++ o') := by
  obtain ⟨ps, h1, h2⟩ := hx
  obtain ⟨pss, h3, h4⟩ := hy
  exact ⟨ps ++ pss, by rw [List.flatten_append, List.filter_append, h1, h3], fun h => by simp only [h2 h, h4 h, List.map_append]; rfl⟩

theorem madeL_nil : MadeL (fun _ => pure []) [] := ⟨[], rfl, fun _ => rfl⟩

theorem made_fields (l : List Str) : Made (fun h => pure (h.own l)) [.fields l] := ⟨[.fields l], rfl, fun h => by simp [render, Piece.html]; rfl⟩
theorem made_management (l : List Str) : Made (fun h => pure (h.management l)) [.management l] := ⟨[.management l], rfl, fun h => by simp [render, Piece.html]; rfl⟩

theorem Made.congr {x y : Html → Except PyErr Str} {o o' : List Piece} (h : Made x o) (e : ∀ h, y h = x h) (eo : o = o') : Made y o' := by
  rw [show y = x from funext e, ← eo]; exact h
theorem MadeL.congr {x y : Html → Except PyErr (List Str)} {o o' : List Piece} (h : MadeL x o) (e : ∀ h, y h = x h) (eo : o = o') : MadeL y o' := by
  rw [show y = x from funext e, ← eo]; exact h

mutual
theorem PForm.made (sec : Option Section) (pfx : Option Str) (f : PForm) (hs : PForm.Shown sec f) : Made (fun h => PForm.html h sec pfx f) (PForm.outline sec pfx f) := match f, hs with
  | .mk fields subs sets, hs => by
    refine Made.congr (made_join (madeL_cons (made_fields (fields.map (addPrefix pfx))) (madeL_append (PSubs.made sec pfx subs hs.1) (PSets.made sec pfx sets hs.2)))) (fun h => ?_)
      (by rw [PForm.outline]; rfl)
    rw [PForm.html]
    cases PSubs.html h sec pfx subs <;> cases PSets.html h sec pfx sets <;> rfl
theorem PSubs.made (sec : Option Section) (pfx : Option Str) (l : PSubs) (hs : PSubs.Shown sec l) : MadeL (fun h => PSubs.html h sec pfx l) (PSubs.outline sec pfx l) := match l, hs with
  | .nil, _ => MadeL.congr madeL_nil (fun h => by rw [PSubs.html]) (by rw [PSubs.outline])
  | .cons name label f rest, hs => by
    refine MadeL.congr (madeL_cons (made_section (PForm.made sec (some (addPrefix pfx name)) f hs.2.1) sec label hs.1) (PSubs.made sec pfx rest hs.2.2)) (fun h => ?_)
      (by rw [PSubs.outline])
    rw [PSubs.html]
    cases PForm.html h sec (some (addPrefix pfx name)) f <;> rfl
theorem PSets.made (sec : Option Section) (pfx : Option Str) (l : PSets) (hs : PSets.Shown sec l) : MadeL (fun h => PSets.html h sec pfx l) (PSets.outline sec pfx l) := match l, hs with
  | .nil, _ => MadeL.congr madeL_nil (fun h => by rw [PSets.html]) (by rw [PSets.outline])
  | .cons name formLabel label forms rest, hs => by
    refine MadeL.congr (madeL_cons (made_management (managementFields.map (addPrefix (some (setPrefix pfx name)))))
      (madeL_cons (made_section (made_join (PForms.made sec (setPrefix pfx name) 0 forms hs.2.1)) sec (some (formLabel.getD label)) (fun _ => rfl)) (PSets.made sec pfx rest hs.2.2)))
      (fun h => ?_) (by rw [PSets.outline]; rfl)
    rw [PSets.html]
    have e : setLabel formLabel label forms = .ok (formLabel.getD label) := by
      cases forms with
      | nil => exact absurd rfl hs.1
      | cons => rfl
    rw [e]
    cases PForms.html h sec (setPrefix pfx name) 0 forms with
    | error => rfl
    | ok c =>
      show (inSection h sec (some (formLabel.getD label)) (joinLines c) >>= fun y => PSets.html h sec pfx rest >>= fun r => pure (h.management _ :: y :: r)) =
        ((inSection h sec (some (formLabel.getD label)) (joinLines c) >>= fun a => PSets.html h sec pfx rest >>= fun r => pure (a :: r)) >>= fun r => pure (h.management _ :: r))
      cases inSection h sec (some (formLabel.getD label)) (joinLines c) <;> cases PSets.html h sec pfx rest <;> rfl
theorem PForms.made (sec : Option Section) (pfx : Str) (i : Nat) (l : PForms) (hs : PForms.Shown sec l) : MadeL (fun h => PForms.html h sec pfx i l) (PForms.outline sec pfx i l) :=
  match l, hs with
  | .nil, _ => MadeL.congr madeL_nil (fun h => by rw [PForms.html]) (by rw [PForms.outline])
  | .cons f rest, hs => MadeL.congr (madeL_cons (PForm.made sec (some (indexPrefix pfx i)) f hs.1) (PForms.made sec pfx (i + 1) rest hs.2)) (fun h => by rw [PForms.html]) (by rw [PForms.outline])
end

/-! ### C87 -/

/-- C87.  The page of a form is the pieces of its outline, each once and in order, with only text around them that does not depend on how fields and labels are
shown. -/
theorem C87_page (sec : Option Section) (pfx : Option Str) (f : PForm) (hs : PForm.Shown sec f) :
    ∃ ps : List Piece, ps.filter Piece.proper = PForm.outline sec pfx f ∧ ∀ h : Html, PForm.html h sec pfx f = .ok (render h ps) := PForm.made sec pfx f hs

theorem heading_inputs (sec : Option Section) (l : Str) : (heading sec l).flatMap Piece.inputs = [] := by cases sec <;> rfl

mutual
theorem PForm.outline_inputs (sec : Option Section) (pfx : Option Str) (f : PForm) : (PForm.outline sec pfx f).flatMap Piece.inputs = PForm.inputs pfx f := match f with
  | .mk fields subs sets => by
    rw [PForm.outline, PForm.inputs, List.flatMap_cons, List.flatMap_append, PSubs.outline_inputs sec pfx subs, PSets.outline_inputs sec pfx sets]
    simp [Piece.inputs]
theorem PSubs.outline_inputs (sec : Option Section) (pfx : Option Str) (l : PSubs) : (PSubs.outline sec pfx l).flatMap Piece.inputs = PSubs.inputs pfx l := match l with
  | .nil => by rw [PSubs.outline, PSubs.inputs]; rfl
  | .cons name label f rest => by
    rw [PSubs.outline, PSubs.inputs, List.flatMap_append, List.flatMap_append, PForm.outline_inputs sec _ f, PSubs.outline_inputs sec pfx rest, heading_inputs, List.nil_append]
theorem PSets.outline_inputs (sec : Option Section) (pfx : Option Str) (l : PSets) : (PSets.outline sec pfx l).flatMap Piece.inputs = PSets.inputs pfx l := match l with
  | .nil => by rw [PSets.outline, PSets.inputs]; rfl
  | .cons name formLabel label forms rest => by
    rw [PSets.outline, PSets.inputs, List.flatMap_cons, List.flatMap_append, List.flatMap_append, PForms.outline_inputs sec _ 0 forms, PSets.outline_inputs sec pfx rest,
      heading_inputs, List.nil_append]
    simp [Piece.inputs]
theorem PForms.outline_inputs (sec : Option Section) (pfx : Str) (i : Nat) (l : PForms) : (PForms.outline sec pfx i l).flatMap Piece.inputs = PForms.inputs pfx i l := match l with
  | .nil => by rw [PForms.outline, PForms.inputs]; rfl
  | .cons f rest => by
    rw [PForms.outline, PForms.inputs, List.flatMap_append, PForm.outline_inputs sec _ f, PForms.outline_inputs sec pfx (i + 1) rest]
end

/-- C87.  The pieces have the inputs of the form with its subforms and formsets, each once and in order, whether there are sections or not. -/
theorem C87_inputs (sec : Option Section) (pfx : Option Str) (f : PForm) : (PForm.outline sec pfx f).flatMap Piece.inputs = PForm.inputs pfx f :=
  PForm.outline_inputs sec pfx f

theorem ok_bind {α β : Type} {x : Except PyErr α} {k : α → Except PyErr β} {b : β} (h : (x >>= k) = .ok b) : ∃ a, x = .ok a ∧ k a = .ok b := by
  cases x with
  | error => cases h
  | ok a => exact ⟨a, rfl, h⟩

mutual
theorem PForm.shown (h : Html) (sec : Option Section) (pfx : Option Str) (f : PForm) {t : Str} (e : PForm.html h sec pfx f = .ok t) : PForm.Shown sec f := match f, e with
  | .mk fields subs sets, e => by
    rw [PForm.html] at e
    obtain ⟨a, e1, e⟩ := ok_bind e
    obtain ⟨b, e2, -⟩ := ok_bind e
    exact ⟨PSubs.shown h sec pfx subs e1, PSets.shown h sec pfx sets e2⟩
theorem PSubs.shown (h : Html) (sec : Option Section) (pfx : Option Str) (l : PSubs) {t : List Str} (e : PSubs.html h sec pfx l = .ok t) : PSubs.Shown sec l := match l, e with
  | .nil, _ => trivial
  | .cons name label f rest, e => by
    rw [PSubs.html] at e
    obtain ⟨a, e1, e⟩ := ok_bind e
    obtain ⟨b, e2, e⟩ := ok_bind e
    obtain ⟨c, e3, -⟩ := ok_bind e
    refine ⟨?_, PForm.shown h sec _ f e1, PSubs.shown h sec pfx rest e3⟩
    intro hs
    cases sec with
    | none => cases hs
    | some s =>
      cases label with
      | none => cases e2
      | some l => rfl
theorem PSets.shown (h : Html) (sec : Option Section) (pfx : Option Str) (l : PSets) {t : List Str} (e : PSets.html h sec pfx l = .ok t) : PSets.Shown sec l := match l, e with
  | .nil, _ => trivial
  | .cons name formLabel label forms rest, e => by
    rw [PSets.html] at e
    obtain ⟨a, e1, e⟩ := ok_bind e
    obtain ⟨b, e2, e⟩ := ok_bind e
    obtain ⟨c, e3, e⟩ := ok_bind e
    obtain ⟨d, e4, -⟩ := ok_bind e
    refine ⟨?_, PForms.shown h sec _ 0 forms e2, PSets.shown h sec pfx rest e4⟩
    rintro rfl
    cases e1
theorem PForms.shown (h : Html) (sec : Option Section) (pfx : Str) (i : Nat) (l : PForms) {t : List Str} (e : PForms.html h sec pfx i l = .ok t) : PForms.Shown sec l := match l, e with
  | .nil, _ => trivial
  | .cons f rest, e => by
    rw [PForms.html] at e
    obtain ⟨a, e1, e⟩ := ok_bind e
    obtain ⟨b, e2, -⟩ := ok_bind e
    exact ⟨PForm.shown h sec _ f e1, PForms.shown h sec pfx (i + 1) rest e2⟩
end

/-- C87.  There is a page exactly if each subform has a label (where there are sections) and each formset a form. -/
theorem C87_when (h : Html) (sec : Option Section) (pfx : Option Str) (f : PForm) : (∃ t, PForm.html h sec pfx f = .ok t) ↔ PForm.Shown sec f := by
  constructor
  · rintro ⟨t, e⟩; exact PForm.shown h sec pfx f e
  · intro hs
    obtain ⟨ps, -, e⟩ := C87_page sec pfx f hs
    exact ⟨_, e h⟩

/-- C87, the limit: a formset without forms (`extra` 0 or `max_num` 0 and no elements yet) makes any output raise IndexError, as `forms[0]` is looked at for its label. -/
theorem C87_counterexample_empty_formset (h : Html) (sec : Option Section) (name label : Str) (fields : List Str) :
    PForm.html h sec none (.mk fields .nil (.cons name none label .nil .nil)) = .error .indexError := by
  rw [PForm.html, PSubs.html, PSets.html]; rfl

/-- C87, the other limit: a subform whose class sets `form_label = None` makes the output with sections raise AttributeError (from `fieldname_to_label(None)`); without sections it is shown. -/
theorem C87_counterexample_no_label (h : Html) (s : Section) (name : Str) (fields subFields : List Str) :
    PForm.html h (some s) none (.mk fields (.cons name none (.mk subFields .nil .nil) .nil) .nil) = .error .attributeError ∧
    ∃ t, PForm.html h none none (.mk fields (.cons name none (.mk subFields .nil .nil) .nil) .nil) = .ok t := by
  constructor
  · rw [PForm.html, PSubs.html, PForm.html, PSubs.html, PSets.html]; rfl
  · rw [C87_when]; exact ⟨⟨by simp, ⟨trivial, trivial⟩, trivial⟩, trivial⟩

/-- HTML in which each tag that is opened is closed, in the right order. -/
inductive Balanced : Str → Prop where
  | text {t : Str} (h : ∀ c ∈ t, c ≠ '<' ∧ c ≠ '>') : Balanced t
  | append {a b : Str} : Balanced a → Balanced b → Balanced (a ++ b)
  | elem {tag attrs x : Str} (h1 : tag ≠ []) (h2 : ∀ c ∈ tag, c.isAlphanum) (h3 : attrs = [] ∨ attrs.head? = some ' ') (h4 : ∀ c ∈ attrs, c ≠ '<' ∧ c ≠ '>') (h5 : Balanced x) :
      Balanced ('<' :: tag ++ attrs ++ '>' :: x ++ '<' :: '/' :: tag ++ ['>'])

theorem balanced_join : ∀ l : List Str, (∀ x ∈ l, Balanced x) → Balanced (joinLines l)
  | [], _ => .text (by simp [joinLines])
  | [x], h => h x (by simp)
  | x :: y :: l, h => .append (h x (by simp)) (.append (a := ['\n']) (.text (by decide)) (balanced_join (y :: l) (fun z hz => h z (by simp [hz]))))

theorem balanced_wrap {s : Section} (hs : s = tableSection ∨ s = paragraphSection ∨ s = listSection) {l c : Str} (hl : Balanced l) (hc : Balanced c) : Balanced (s.wrap l c) := by
  rcases hs with rfl | rfl | rfl
  · have h1 := Balanced.elem (tag := c%"th") (attrs := c%" colspan=\"2\" class=\"section\"") (by decide) (by decide) (.inr rfl) (by decide) hl
    have h2 := Balanced.elem (tag := c%"tr") (attrs := []) (by decide) (by decide) (.inl rfl) (by decide) h1
    have h3 := Balanced.elem (tag := c%"table") (attrs := c%" class=\"subform\"") (by decide) (by decide) (.inr rfl) (by decide) (.append (a := ['\n']) (.text (by decide)) hc)
    have h4 := Balanced.elem (tag := c%"td") (attrs := c%" colspan=\"2\"") (by decide) (by decide) (.inr rfl) (by decide) h3
    have h5 := Balanced.elem (tag := c%"tr") (attrs := []) (by decide) (by decide) (.inl rfl) (by decide) h4
    have h6 := Balanced.elem (tag := c%"tbody") (attrs := []) (by decide) (by decide) (.inl rfl) (by decide) (.append h2 h5)
    simpa [Section.wrap, tableSection] using h6
  · have h1 := Balanced.elem (tag := c%"p") (attrs := c%" class=\"label\"") (by decide) (by decide) (.inr rfl) (by decide) hl
    have h6 := Balanced.elem (tag := c%"div") (attrs := c%" class=\"subform\"") (by decide) (by decide) (.inr rfl) (by decide) (.append h1 hc)
    simpa [Section.wrap, paragraphSection] using h6
  · have h1 := Balanced.elem (tag := c%"p") (attrs := c%" class=\"label\"") (by decide) (by decide) (.inr rfl) (by decide) hl
    have h2 := Balanced.elem (tag := c%"ul") (attrs := []) (by decide) (by decide) (.inl rfl) (by decide) hc
    have h6 := Balanced.elem (tag := c%"li") (attrs := c%" class=\"subform\"") (by decide) (by decide) (.inr rfl) (by decide) (.append h1 h2)
    simpa [Section.wrap, listSection] using h6

theorem balanced_section {h : Html} (hlab : ∀ l, Balanced (h.toLabel l)) {sec : Option Section} (hs : ∀ s ∈ sec, s = tableSection ∨ s = paragraphSection ∨ s = listSection)
    {l : Option Str} {c t : Str} (hc : Balanced c) (e : inSection h sec l c = .ok t) : Balanced t := by
  cases sec with
  | none => injection e with e; exact e ▸ hc
  | some s =>
    cases l with
    | none => cases e
    | some l => injection e with e; exact e ▸ balanced_wrap (hs s rfl) (hlab l) hc

section
variable (h : Html) (hown : ∀ l, Balanced (h.own l)) (hman : ∀ l, Balanced (h.management l)) (hlab : ∀ l, Balanced (h.toLabel l)) (sec : Option Section)
  (hs : ∀ s ∈ sec, s = tableSection ∨ s = paragraphSection ∨ s = listSection)
include hown hman hlab hs
mutual
theorem PForm.balanced (pfx : Option Str) (f : PForm) {t : Str} (e : PForm.html h sec pfx f = .ok t) : Balanced t := match f, e with
  | .mk fields subs sets, e => by
    rw [PForm.html] at e
    obtain ⟨a, e1, e⟩ := ok_bind e
    obtain ⟨b, e2, e⟩ := ok_bind e
    injection e with e
    subst e
    refine balanced_join _ (fun x hx => ?_)
    rcases List.mem_cons.mp hx with rfl | hx
    · exact hown _
    · rcases List.mem_append.mp hx with hx | hx
      · exact PSubs.balanced pfx subs e1 x hx
      · exact PSets.balanced pfx sets e2 x hx
theorem PSubs.balanced (pfx : Option Str) (l : PSubs) {t : List Str} (e : PSubs.html h sec pfx l = .ok t) : ∀ x ∈ t, Balanced x := match l, e with
  | .nil, e => by rw [PSubs.html] at e; injection e with e; subst e; simp
  | .cons name label f rest, e => by
    rw [PSubs.html] at e
    obtain ⟨a, e1, e⟩ := ok_bind e
    obtain ⟨b, e2, e⟩ := ok_bind e
    obtain ⟨c, e3, e⟩ := ok_bind e
    injection e with e
    subst e
    intro x hx
    rcases List.mem_cons.mp hx with rfl | hx
    · exact balanced_section hlab hs (PForm.balanced _ f e1) e2
    · exact PSubs.balanced pfx rest e3 x hx
theorem PSets.balanced (pfx : Option Str) (l : PSets) {t : List Str} (e : PSets.html h sec pfx l = .ok t) : ∀ x ∈ t, Balanced x := match l, e with
  | .nil, e => by rw [PSets.html] at e; injection e with e; subst e; simp
  | .cons name formLabel label forms rest, e => by
    rw [PSets.html] at e
    obtain ⟨a, e1, e⟩ := ok_bind e
    obtain ⟨b, e2, e⟩ := ok_bind e
    obtain ⟨c, e3, e⟩ := ok_bind e
    obtain ⟨d, e4, e⟩ := ok_bind e
    injection e with e
    subst e
    intro x hx
    rcases List.mem_cons.mp hx with rfl | hx
    · exact hman _
    rcases List.mem_cons.mp hx with rfl | hx
    · exact balanced_section hlab hs (balanced_join _ (PForms.balanced _ 0 forms e2)) e3
    · exact PSets.balanced pfx rest e4 x hx
theorem PForms.balanced (pfx : Str) (i : Nat) (l : PForms) {t : List Str} (e : PForms.html h sec pfx i l = .ok t) : ∀ x ∈ t, Balanced x := match l, e with
  | .nil, e => by rw [PForms.html] at e; injection e with e; subst e; simp
  | .cons f rest, e => by
    rw [PForms.html] at e
    obtain ⟨a, e1, e⟩ := ok_bind e
    obtain ⟨b, e2, e⟩ := ok_bind e
    injection e with e
    subst e
    intro x hx
    rcases List.mem_cons.mp hx with rfl | hx
    · exact PForm.balanced _ f e1
    · exact PForms.balanced pfx (i + 1) rest e2 x hx
end
end

/-- C87.  If the HTML that Django makes for the fields of each form is balanced, so is that of the whole page, in each of the formats `as_table`, `as_p` and `as_ul`, at
any depth. -/
theorem C87_balanced (h : Html) (hown : ∀ l, Balanced (h.own l)) (hman : ∀ l, Balanced (h.management l)) (hlab : ∀ l, Balanced (h.toLabel l)) (sec : Option Section)
    (hs : ∀ s ∈ sec, s = tableSection ∨ s = paragraphSection ∨ s = listSection) (pfx : Option Str) (f : PForm) {t : Str} (e : PForm.html h sec pfx f = .ok t) : Balanced t :=
  PForm.balanced h hown hman hlab sec hs pfx f e

/-! A concrete case: a form with a subform that has a formset of two forms. -/

/-- Two forms with a field `name` each, and Django's `DELETE`. -/
def examplePage : PForm :=
  .mk [c%"title", c%"name"] (.cons c%"header" (some c%"Header") (.mk [c%"name"] .nil
    (.cons c%"authors" none c%"Authors" (.cons (.mk [c%"name", c%"DELETE"] .nil .nil) (.cons (.mk [c%"name", c%"DELETE"] .nil .nil) .nil)) .nil)) .nil) .nil

theorem pyName_name : PyName c%"name" := ⟨by decide, by decide, by decide⟩

/-- C86, C87: the hypotheses hold for it, and this is what its inputs are. -/
example : PForm.Named examplePage ∧ PForm.Shown (some paragraphSection) examplePage ∧ PForm.inputs none examplePage =
    [c%"title", c%"name", c%"header-name", c%"header-authors-TOTAL_FORMS", c%"header-authors-INITIAL_FORMS", c%"header-authors-MIN_NUM_FORMS", c%"header-authors-MAX_NUM_FORMS",
     c%"header-authors-0-name", c%"header-authors-0-DELETE", c%"header-authors-1-name", c%"header-authors-1-DELETE"] := by
  refine ⟨⟨by decide, ?_, by decide, ?_, ⟨⟨by decide, ?_, by decide, ?_, trivial, ⟨⟨by decide, ?_, by decide, by simp [PSubs.names, PSets.names], trivial, trivial⟩,
      ⟨by decide, ?_, by decide, by simp [PSubs.names, PSets.names], trivial, trivial⟩, trivial⟩, trivial⟩, trivial⟩, trivial⟩,
    ⟨⟨fun _ => rfl, ⟨trivial, by simp, ⟨⟨trivial, trivial⟩, ⟨trivial, trivial⟩, trivial⟩, trivial⟩, trivial⟩, trivial⟩, by decide⟩ <;>
  · intro x hx
    simp only [PSubs.names, PSets.names, List.append_nil, List.nil_append, List.mem_cons, List.not_mem_nil, or_false] at hx
    rcases hx with rfl | rfl <;> exact ⟨by decide, by decide, by decide⟩

end Props
