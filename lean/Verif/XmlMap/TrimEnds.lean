import Verif.XmlMap.NodeListLemmas
import Verif.Xml.Count
/-
The loop that trims a list (fields.py:845-846) ends, whatever the XPath: each `pop` that does not raise takes an element out of the document.
-/
namespace Fields
open Xml XPath Spec

/-- The program does not touch the document. -/
def Looks {β : Type} (m : M β) : Prop := ∀ s, (m s).2 = s

theorem looks_pure {β : Type} (x : β) : Looks (pure x : M β) := fun _ => rfl
theorem looks_raise {β : Type} (er : PyErr) : Looks (raise er : M β) := fun _ => rfl
theorem looks_ofExcept {β : Type} (x : Except PyErr β) : Looks (ofExcept x) := fun _ => by cases x <;> rfl
theorem looks_bind {β γ : Type} {m : M β} {f : β → M γ} (hm : Looks m) (hf : ∀ x, Looks (f x)) : Looks (m >>= f) := fun s => by
  have h := hm s
  cases e : m s with
  | mk r s1 =>
    rw [e] at h
    cases h
    cases r with
    | error er => rw [bind_err e]
    | ok x => rw [bind_ok e]; exact hf x _

/-- What the two parts of a program that succeeds have done. -/
theorem both_ok {β γ : Type} {m : M β} {k : β → M γ} {s s' : Node} {y : γ} (h : (m >>= k) s = (.ok y, s')) : ∃ x s1, m s = (.ok x, s1) ∧ k x s1 = (.ok y, s') := by
  cases e : m s with
  | mk r s1 =>
    cases r with
    | error er => rw [bind_err e] at h; cases h
    | ok x => rw [bind_ok e] at h; exact ⟨x, s1, rfl, h⟩

section
variable [PyUnicode] {α : Type} {eng : Engine} {ctx : Ctx} {mapper : Item → Except PyErr α} {xp : Str} {node : Ref}

omit [PyUnicode] in
theorem looks_matches : Looks (listMatches eng ctx xp node) :=
  looks_bind (fun s => by cases node <;> rfl) (fun v => by cases v <;> first | exact looks_pure _ | exact looks_raise _)

theorem looks_len : Looks (listLen eng ctx mapper xp node) :=
  looks_bind (looks_bind looks_matches (fun _ => looks_bind (fun _ => rfl) (fun _ => looks_ofExcept _))) (fun _ => looks_pure _)

/-- A `pop` that does not raise makes the document smaller. -/
theorem listPop_smaller {s s' : Node} {x : α} (h : listPop eng ctx mapper xp node none s = (.ok x, s')) : s'.nodes < s.nodes := by
  replace h : ((listLen eng ctx mapper xp node >>= fun n => pure ((n : Int) - 1)) >>= fun i => listGet eng ctx mapper xp node i >>= fun val => listDel eng ctx xp node i >>= fun _ => pure val) s = (.ok x, s') := h
  obtain ⟨i, s1, h1, hb⟩ := both_ok h
  clear h
  have e1 : s1 = s := by
    have := looks_bind (looks_len (eng := eng) (ctx := ctx) (mapper := mapper) (xp := xp) (node := node)) (fun n => looks_pure ((n : Int) - 1)) s
    have h1 : (listLen eng ctx mapper xp node >>= fun n => pure ((n : Int) - 1)) s = (.ok i, s1) := h1
    rw [h1] at this
    exact this
  subst e1
  obtain ⟨v, s2, h2, hc⟩ := both_ok hb
  obtain ⟨u, s3, h3, hd⟩ := both_ok hc
  have hv : v = x ∧ s3 = s' := by
    exact ⟨by simpa [pure, M.pure] using congrArg Prod.fst hd, congrArg Prod.snd hd⟩
  clear hd
  obtain ⟨ms, s4, g1, g⟩ := both_ok h2
  have e4 : s4 = s1 := by have := looks_matches (eng := eng) (ctx := ctx) (xp := xp) (node := node) s1; rw [g1] at this; exact this
  subst e4
  obtain ⟨r, s5, g2, g'⟩ := both_ok g
  clear g
  have e5 : s5 = s4 ∧ pyGet ms i = .ok r := by
    cases hp : pyGet ms i with
    | error er => rw [hp] at g2; cases g2
    | ok y => rw [hp] at g2; cases g2; exact ⟨rfl, rfl⟩
  obtain ⟨rfl, hr⟩ := e5
  have g : (ofExcept (mapMatch mapper s5 r)) s5 = (.ok v, s2) := g'
  clear g'
  have e2 : s2 = s5 := by have := looks_ofExcept (mapMatch mapper s5 r) s5; rw [g] at this; exact this
  subst e2
  obtain ⟨ms', s6, k1, k⟩ := both_ok h3
  rw [g1] at k1
  cases k1
  split_ifs at k with hlt
  · cases k
  · obtain ⟨r', s7, k2, k⟩ := both_ok k
    rw [hr] at k2
    cases k2
    cases r with
    | elem a =>
      have k : (if a = [] then raise .attributeError else edit a.dropLast (Node.removeChild (a.getLast?.getD 0)) : M Unit) s2 = (.ok u, s3) := k
      split_ifs at k with ha
      · cases k
      · cases k
        rcases List.eq_nil_or_concat a with rfl | ⟨b, j, rfl⟩
        · exact absurd rfl ha
        · rw [← hv.2, List.concat_eq_append, List.dropLast_concat, List.getLast?_concat]
          cases hm : s2.get (b ++ [j]) with
          | none =>
            rw [List.concat_eq_append] at g
            have : mapMatch mapper s2 (.elem (b ++ [j])) = .error .attributeError := by simp [mapMatch, itemOf, hm]
            rw [this] at g
            cases g
          | some m => exact Node.nodes_removed hm
    | _ => cases k

/-- More rounds than the document has nodes make no difference. -/
theorem listTrim_rounds (len : Nat) : ∀ (F F' : Nat) (s : Node), s.nodes ≤ F → s.nodes ≤ F' →
    listTrim eng ctx mapper xp node len F s = listTrim eng ctx mapper xp node len F' s
  | 0, _, s, h, _ => absurd (Node.nodes_pos s) (by omega)
  | _ + 1, 0, s, _, h => absurd (Node.nodes_pos s) (by omega)
  | F + 1, F' + 1, s, h, h' => by
    simp only [listTrim]
    have hk := looks_len (eng := eng) (ctx := ctx) (mapper := mapper) (xp := xp) (node := node) s
    cases hl : listLen eng ctx mapper xp node s with
    | mk r s1 =>
      rw [hl] at hk
      have hk : s = s1 := hk.symm
      subst hk
      cases r with
      | error er => rw [bind_err hl, bind_err hl]
      | ok m =>
        rw [bind_ok hl, bind_ok hl]
        split_ifs with hm
        · cases hp : listPop eng ctx mapper xp node none s with
          | mk r s2 =>
            cases r with
            | error er => rw [bind_err hp, bind_err hp]
            | ok x =>
              rw [bind_ok hp, bind_ok hp]
              have := listPop_smaller hp
              exact listTrim_rounds len F F' s2 (by omega) (by omega)
        · rfl

/-- Where the loop ends without an exception, the list is not too long. -/
theorem listTrim_ends (len : Nat) : ∀ (F : Nat) (s s' : Node), s.nodes ≤ F → listTrim eng ctx mapper xp node len F s = (.ok (), s') →
    ∃ m, listLen eng ctx mapper xp node s' = (.ok m, s') ∧ m ≤ len
  | 0, s, _, h, _ => absurd (Node.nodes_pos s) (by omega)
  | F + 1, s, s', h, ht => by
    simp only [listTrim] at ht
    obtain ⟨m, s1, h1, ht'⟩ := both_ok ht
    clear ht
    have ht : (if m > len then (listPop eng ctx mapper xp node none >>= fun _ => listTrim eng ctx mapper xp node len F) else pure ()) s1 = (.ok (), s') := ht'
    clear ht'
    have hk := looks_len (eng := eng) (ctx := ctx) (mapper := mapper) (xp := xp) (node := node) s
    rw [h1] at hk
    have hk : s1 = s := hk
    subst hk
    split_ifs at ht with hm
    · obtain ⟨x, s2, h2, ht2⟩ := both_ok ht
      have := listPop_smaller h2
      exact listTrim_ends len F s2 s' (by omega) ht2
    · cases ht
      exact ⟨m, h1, by omega⟩

/-- The loop on a list that is not too long does nothing. -/
theorem listTrimAll_stop {len n m : Nat} {s : Node} (h : listLen eng ctx mapper xp node s = (.ok m, s)) (hm : m ≤ len) : listTrimAll eng ctx mapper xp node len n s = (.ok (), s) := by
  obtain ⟨k, hk⟩ : ∃ k, n + s.nodes = k + 1 := ⟨n + s.nodes - 1, by have := Node.nodes_pos s; omega⟩
  rw [listTrimAll_run, hk]
  simp only [listTrim]
  rw [bind_ok h, if_neg (by omega)]
  rfl
end
end Fields
