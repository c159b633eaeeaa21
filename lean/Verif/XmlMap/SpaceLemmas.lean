import Verif.XmlMap.Mappers
import Verif.Spec.Words
/-
`normalize-space` in terms of words.
-/
namespace Fields
open Spec

theorem isXmlSpace_eq : isXmlSpace = xmlBlank := rfl

theorem words_nil : words [] = [] := by simp [words]

theorem words_blank {c : Char} (h : xmlBlank c = true) (s : Str) : words (c :: s) = words s := by
  simp [words, List.splitOnP_cons_eq_if_modifyHead, h]

/-- A word at the start. -/
theorem words_word {w : Str} (hw : w ≠ []) (hb : ∀ c ∈ w, xmlBlank c = false) : words w = [w] ∧ ∀ c s, xmlBlank c = true → words (w ++ c :: s) = w :: words s := by
  have key : ∀ w : Str, (∀ c ∈ w, xmlBlank c = false) → w.splitOnP xmlBlank = [w] ∧
      ∀ c s, xmlBlank c = true → (w ++ c :: s).splitOnP xmlBlank = w :: s.splitOnP xmlBlank := by
    intro w
    induction w with
    | nil => intro _; exact ⟨by simp, fun c s h => by simp [List.splitOnP_cons_eq_if_modifyHead, h]⟩
    | cons d w ih =>
      intro hb
      obtain ⟨i1, i2⟩ := ih (fun c hc => hb c (by simp [hc]))
      have hd := hb d (by simp)
      exact ⟨by rw [List.splitOnP_cons_eq_if_modifyHead, hd, i1]; rfl, fun c s h => by rw [List.cons_append, List.splitOnP_cons_eq_if_modifyHead, hd, i2 c s h]; rfl⟩
  obtain ⟨k1, k2⟩ := key w hb
  refine ⟨by simp [words, k1, hw], fun c s h => ?_⟩
  unfold words
  rw [k2 c s h, List.filter_cons, if_pos (by simpa using hw)]

theorem words_ok (s : Str) : ∀ w ∈ words s, w ≠ [] ∧ ∀ c ∈ w, xmlBlank c = false := by
  have key : ∀ s : Str, ∀ w ∈ s.splitOnP xmlBlank, ∀ c ∈ w, xmlBlank c = false := by
    intro s
    induction s with
    | nil => simp
    | cons d s ih =>
      rw [List.splitOnP_cons_eq_if_modifyHead]
      by_cases hd : xmlBlank d = true
      · rw [if_pos hd]
        intro w hw
        rcases List.mem_cons.1 hw with rfl | hw
        · simp
        · exact ih w hw
      · rw [if_neg hd]
        cases hs : s.splitOnP xmlBlank with
        | nil => simp
        | cons w0 ws =>
          rw [hs] at ih
          intro w hw
          rw [List.modifyHead_cons] at hw
          rcases List.mem_cons.1 hw with rfl | hw
          · intro c hc
            rcases List.mem_cons.1 hc with rfl | hc
            · simpa using hd
            · exact ih w0 (by simp) c hc
          · exact ih w (by simp [hw])
  intro w hw
  simp only [words, List.mem_filter, decide_eq_true_eq] at hw
  exact ⟨hw.2, key s w hw.1⟩

theorem unwords_nil : unwords [] = [] := rfl
theorem unwords_single (w : Str) : unwords [w] = w := by simp [unwords, List.intercalate]
theorem unwords_cons (w v : Str) (ws : List Str) : unwords (w :: v :: ws) = w ++ ' ' :: unwords (v :: ws) := by
  simp [unwords, List.intercalate]

theorem words_unwords : ∀ ws : List Str, (∀ w ∈ ws, w ≠ [] ∧ ∀ c ∈ w, xmlBlank c = false) → words (unwords ws) = ws
  | [], _ => by rw [unwords_nil, words_nil]
  | [w], h => by rw [unwords_single]; exact (words_word (h w (by simp)).1 (h w (by simp)).2).1
  | w :: v :: ws, h => by
    rw [unwords_cons, (words_word (h w (by simp)).1 (h w (by simp)).2).2 ' ' _ (by decide), words_unwords (v :: ws) (fun x hx => h x (by simp [hx]))]

/-- What is written behind a word. -/
def more : List Str → Str
  | [] => []
  | ws => ' ' :: unwords ws

theorem unwords_more (w : Str) (ws : List Str) : unwords (w :: ws) = w ++ more ws := by
  cases ws with
  | nil => simp [unwords_single, more]
  | cons v ws => rw [unwords_cons]; rfl

theorem normSpace_go : ∀ s : Str,
    normSpaceGo false s = unwords (words s) ∧ normSpaceGo true s = more (words s) ∧
    ∃ w ws, s.splitOnP xmlBlank = w :: ws ∧ normSpaceGo.normSpaceTail s = w ++ more (ws.filter (fun w => w ≠ []))
  | [] => by
    refine ⟨by rw [words_nil]; rfl, by rw [words_nil]; rfl, [], [], by simp, by simp [normSpaceGo.normSpaceTail, more]⟩
  | c :: s => by
    obtain ⟨h1, h2, w, ws, h3, h4⟩ := normSpace_go s
    by_cases hc : xmlBlank c = true
    · have hc' : isXmlSpace c = true := hc
      refine ⟨?_, ?_, [], s.splitOnP xmlBlank, by simp [List.splitOnP_cons_eq_if_modifyHead, hc], ?_⟩
      · rw [normSpaceGo, if_pos hc', h1, words_blank hc]
      · rw [normSpaceGo, if_pos hc', h2, words_blank hc]
      · rw [normSpaceGo.normSpaceTail, if_pos hc', h2]; rfl
    · have hc' : ¬ isXmlSpace c = true := hc
      have hsp : (c :: s).splitOnP xmlBlank = (c :: w) :: ws := by rw [List.splitOnP_cons_eq_if_modifyHead, if_neg hc, h3]; rfl
      have hw : words (c :: s) = (c :: w) :: ws.filter (fun w => w ≠ []) := by
        unfold words; rw [hsp, List.filter_cons, if_pos (by simp)]
      refine ⟨?_, ?_, c :: w, ws, hsp, ?_⟩
      · rw [normSpaceGo, if_neg hc', hw, unwords_more, h4]; rfl
      · rw [normSpaceGo, if_neg hc', hw, h4]
        show _ = ' ' :: unwords _
        rw [unwords_more]; rfl
      · rw [normSpaceGo.normSpaceTail, if_neg hc', h4]; rfl

/-- `normalize-space` writes the words with one blank between them. -/
theorem normSpace_eq (s : Str) : normSpace s = unwords (words s) := (normSpace_go s).1

theorem words_normSpace (s : Str) : words (normSpace s) = words s := by rw [normSpace_eq, words_unwords _ (words_ok s)]

theorem normSpace_noSpace {s : Str} (h : ∀ c ∈ s, xmlBlank c = false) : normSpace s = s := by
  rw [normSpace_eq]
  by_cases hs : s = []
  · subst hs; rw [words_nil]; rfl
  · rw [(words_word hs h).1, unwords_single]

end Fields
