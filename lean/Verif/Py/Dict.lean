import Verif.Basic
import Mathlib.Tactic.Tauto
/-
Python dictionaries as far as the models use them.  Not part of /repo.
-/
namespace Py

/-- A Python dictionary: keys with values, in order of insertion. -/
abbrev Dict (κ : Type) (α : Type) := List (κ × α)

namespace Dict
variable {κ α : Type} [DecidableEq κ]

/-- `d.get(k)`. -/
def get? (d : Dict κ α) (k : κ) : Option α := match d with
  | [] => none
  | (k', v) :: d => if k = k' then some v else get? d k

/-- `d[k] = v`: in place if the key exists, else at the end. -/
def set (d : Dict κ α) (k : κ) (v : α) : Dict κ α := match d with
  | [] => [(k, v)]
  | (k', v') :: d => if k = k' then (k', v) :: d else (k', v') :: set d k v

/-- `d.update(e)`. -/
def update (d e : Dict κ α) : Dict κ α := e.foldl (fun d p => d.set p.1 p.2) d

/-- The keys, in order. -/
def keys (d : Dict κ α) : List κ := d.map (·.1)

/-- Keys are different from each other, as in every Python dictionary. -/
def Wf (d : Dict κ α) : Prop := d.keys.Nodup

instance (d : Dict κ α) : Decidable d.Wf := inferInstanceAs (Decidable (List.Nodup _))

theorem get?_nil (k : κ) : get? ([] : Dict κ α) k = none := rfl
theorem get?_cons (k' : κ) (v : α) (d : Dict κ α) (k : κ) : get? ((k', v) :: d) k = if k = k' then some v else get? d k := rfl

theorem get?_set (d : Dict κ α) (k k' : κ) (v : α) : get? (d.set k v) k' = if k' = k then some v else get? d k' := by
  induction d with
  | nil => simp only [set, get?]
  | cons p d ih =>
    obtain ⟨k0, v0⟩ := p
    simp only [set]
    by_cases h : k = k0
    · subst h
      rw [if_pos rfl, get?_cons, get?_cons]
      by_cases h2 : k' = k <;> simp [h2]
    · rw [if_neg h, get?_cons, get?_cons, ih]
      by_cases h2 : k' = k0
      · subst h2; simp [Ne.symm h]
      · simp [h2]

theorem get?_isSome (d : Dict κ α) (k : κ) : (get? d k).isSome = true ↔ k ∈ d.keys := by
  induction d with
  | nil => simp [get?, keys]
  | cons p d ih =>
    obtain ⟨k0, v0⟩ := p
    rw [get?_cons]
    by_cases h : k = k0
    · simp [h, keys]
    · rw [if_neg h, ih]; simp [keys, h]

theorem get?_none (d : Dict κ α) (k : κ) : get? d k = none ↔ k ∉ d.keys := by
  rw [← get?_isSome]; cases get? d k <;> simp

theorem mem_of_get? {d : Dict κ α} {k : κ} {v : α} (h : get? d k = some v) : (k, v) ∈ d := by
  induction d with
  | nil => simp [get?] at h
  | cons p d ih =>
    obtain ⟨k0, v0⟩ := p
    rw [get?_cons] at h
    by_cases hk : k = k0
    · rw [if_pos hk] at h; simp at h; subst h hk; simp
    · rw [if_neg hk] at h; exact List.mem_cons_of_mem _ (ih h)

theorem get?_of_mem {d : Dict κ α} (hd : d.Wf) {k : κ} {v : α} (h : (k, v) ∈ d) : get? d k = some v := by
  induction d with
  | nil => simp at h
  | cons p d ih =>
    obtain ⟨k0, v0⟩ := p
    have hd' : k0 ∉ keys d ∧ (keys d).Nodup := by simpa [Wf, keys] using hd
    rw [get?_cons]
    rcases List.mem_cons.1 h with h1 | h1
    · simp only [Prod.mk.injEq] at h1; rw [if_pos h1.1, h1.2]
    · have : k ≠ k0 := by
        rintro rfl
        exact hd'.1 (List.mem_map_of_mem (f := (·.1)) h1)
      rw [if_neg this]
      exact ih hd'.2 h1

theorem keys_set (d : Dict κ α) (k : κ) (v : α) : (d.set k v).keys = if k ∈ d.keys then d.keys else d.keys ++ [k] := by
  induction d with
  | nil => simp [set, keys]
  | cons p d ih =>
    obtain ⟨k0, v0⟩ := p
    simp only [set]
    by_cases h : k = k0
    · subst h; simp [keys]
    · rw [if_neg h]
      simp only [keys, List.map_cons] at ih ⊢
      rw [ih]
      by_cases h2 : k ∈ d.map (·.1)
      · simp [h2]
      · simp [h2, h]

theorem Wf.set {d : Dict κ α} (h : d.Wf) (k : κ) (v : α) : (d.set k v).Wf := by
  unfold Wf
  rw [keys_set]
  by_cases hk : k ∈ d.keys
  · rw [if_pos hk]; exact h
  · rw [if_neg hk]
    exact List.nodup_append.2 ⟨h, by simp, by intro a ha b hb; simp at hb; subst hb; rintro rfl; exact hk ha⟩

theorem Wf.update {d : Dict κ α} (h : d.Wf) (e : Dict κ α) : (d.update e).Wf := by
  unfold Dict.update
  induction e generalizing d with
  | nil => exact h
  | cons p e ih => exact ih (h.set p.1 p.2)

theorem mem_keys_set (d : Dict κ α) (k k' : κ) (v : α) : k' ∈ (d.set k v).keys ↔ k' = k ∨ k' ∈ d.keys := by
  rw [← get?_isSome, get?_set, ← get?_isSome]
  by_cases h : k' = k <;> simp [h]

theorem mem_keys_update (d e : Dict κ α) (k : κ) : k ∈ (d.update e).keys ↔ k ∈ e.keys ∨ k ∈ d.keys := by
  unfold update
  induction e generalizing d with
  | nil => simp [keys]
  | cons p e ih =>
    rw [List.foldl_cons, ih, mem_keys_set]
    simp only [keys, List.map_cons, List.mem_cons]
    tauto

/-- `d.update(e)`: `e` wins. -/
theorem get?_update (d : Dict κ α) {e : Dict κ α} (he : e.Wf) (k : κ) : get? (d.update e) k = (get? e k).or (get? d k) := by
  unfold update
  induction e generalizing d with
  | nil => simp [get?]
  | cons p e ih =>
    obtain ⟨k0, v0⟩ := p
    have he' : k0 ∉ keys e ∧ (keys e).Nodup := by simpa [Wf, keys] using he
    rw [List.foldl_cons, ih _ he'.2, get?_set, get?_cons]
    by_cases hk : k = k0
    · subst hk
      rw [if_pos rfl, if_pos rfl, (get?_none e k).2 he'.1]; rfl
    · rw [if_neg hk, if_neg hk]

end Dict
end Py
