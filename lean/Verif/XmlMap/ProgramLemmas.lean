import Verif.XmlMap.GrownLemmas
import Verif.XmlMap.ShrunkLemmas
import Verif.Spec.Programs
/-
What giving and taking do to comments, processing instructions and tails.
-/
namespace Fields
open Xml XPath Spec

theorem allNew_foreign {c : Node} (h : AllNew c) : (allTags c).filter foreign = [] := by
  rw [List.filter_eq_nil_iff]
  intro x hx
  obtain ⟨⟨q, h1⟩, h2⟩ := h x hx
  obtain ⟨t, l⟩ := x
  obtain rfl : t = _ := h1
  obtain rfl : l = _ := h2
  simp [foreign]

mutual
theorem survives_foreign : ∀ {n m : Node}, Survives n m → (allTags m).filter foreign = (allTags n).filter foreign
  | _, _, .mk _ h => by
    simp only [allTags, List.filter_cons, surviveAll_foreign h]
theorem surviveAll_foreign : ∀ {n m : List Node}, SurviveAll n m → (allTagsList m).filter foreign = (allTagsList n).filter foreign
  | _, _, .nil => rfl
  | _, _, .new hc h => by
    rw [allTagsList, List.filter_append, allNew_foreign hc, List.nil_append, surviveAll_foreign h]
  | _, _, .keep h h' => by
    rw [allTagsList, allTagsList, List.filter_append, List.filter_append, survives_foreign h, surviveAll_foreign h']
end

mutual
theorem shrunk_tags {t : Takes} : ∀ {n m : Node}, Shrunk t n m → (allTags m).Sublist (allTags n)
  | _, _, .mk _ _ _ h => by
    simp only [allTags]
    exact List.Sublist.cons_cons _ (shrunkAll_tags h)
theorem shrunkAll_tags {t : Takes} : ∀ {n m : List Node}, ShrunkAll t n m → (allTagsList m).Sublist (allTagsList n)
  | _, _, .nil => List.Sublist.refl _
  | _, _, .drop _ h => by
    rw [allTagsList]
    exact (shrunkAll_tags h).trans (List.sublist_append_right _ _)
  | _, _, .keep h h' => by
    rw [allTagsList, allTagsList]
    exact (shrunk_tags h).append (shrunkAll_tags h')
end

/-- Running this makes no comment, processing instruction or tail, and does not change their order. -/
def Tame {β : Type} (c : M β) : Prop := ∀ s, (foreigners (c s).2).Sublist (foreigners s)

theorem tame_of_keepsafe {β : Type} {c : M β} (h : Keepsafe c) : Tame c := fun s => by
  unfold foreigners
  rw [survives_foreign (h s)]; exact List.Sublist.refl _

theorem tame_of_takes {β : Type} {t : Takes} {c : M β} (h : OnlyTakes t c) : Tame c := fun s => (shrunk_tags (h s)).filter _

theorem tame_bind {β γ : Type} {c : M β} {f : β → M γ} (hc : Tame c) (hf : ∀ x, Tame (f x)) : Tame (c >>= f) := by
  intro s
  have h := hc s
  rcases hx : c s with ⟨o, s1⟩
  rw [hx] at h
  cases o with
  | error er => rw [bind_err hx]; exact h
  | ok x => rw [bind_ok hx]; exact (hf x s1).trans h

theorem tame_pure {β : Type} (x : β) : Tame (pure x : M β) := fun s => List.Sublist.refl _

end Fields
