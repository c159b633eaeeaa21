import Verif.XmlMap.UndoLemmas
/-
Facts about the specification of deletion.
-/
namespace Fields
open Xml XPath Spec

set_option linter.unusedSectionVars false

section
variable [PyUnicode]

theorem matches_child_nil_iff {q ps r} {n : Node} : Step.matches (.child q ps :: r) n = [] ↔
    ∀ c ∈ n.children, c.isElem q = true → satAll ps c = true → Step.matches r c = [] := by
  constructor
  · intro h c hc hq hs
    obtain ⟨i, hi, rfl⟩ := List.mem_iff_getElem.mp hc
    by_contra hne
    obtain ⟨y, hy⟩ := List.exists_mem_of_ne_nil _ hne
    have : y.under [i] ∈ Step.matches (.child q ps :: r) n := mem_matches_child.mpr ⟨i, _, by simp [hi], hq, hs, y, hy, rfl⟩
    rw [h] at this
    simp at this
  · intro h
    by_contra hne
    obtain ⟨y, hy⟩ := List.exists_mem_of_ne_nil _ hne
    obtain ⟨i, c, hc, hq, hs, y', hy', -⟩ := mem_matches_child.mp hy
    rw [h c (List.mem_of_getElem? hc) hq hs] at hy'
    simp at hy'

theorem sat_attrOnly {ps : List Pred} (h : attrOnly ps = true) {m m' : Node} (ha : m.attrs = m'.attrs) : satAll ps m = satAll ps m' := by
  induction ps with
  | nil => rfl
  | cons p ps ih =>
    obtain ⟨⟨q, c, rfl⟩, h2⟩ := attrOnly_cons h
    simp only [satAll, ih h2, Pred.sat, Node.attr?, ha]

theorem removeAt_cons (i j : Nat) (b : Node.Addr) (n : Node) :
    removeAt (i :: j :: b) n = n.withChildren (n.children.modify i (removeAt (j :: b))) := by
  have : i :: j :: b = [i] ++ (j :: b) := rfl
  rw [this, removeAt_under [i] (j :: b) (by simp)]
  rfl

theorem removeAt_attrs : ∀ (b : Node.Addr) (n : Node), (removeAt b n).attrs = n.attrs
  | [], n => by simp [removeAt]
  | [i], n => by simp [removeAt]
  | i :: j :: b, n => by rw [removeAt_cons]; simp

theorem removeAt_tag : ∀ (b : Node.Addr) (n : Node), (removeAt b n).tag = n.tag
  | [], n => by simp [removeAt]
  | [i], n => by simp [removeAt]
  | i :: j :: b, n => by rw [removeAt_cons]; simp

/-- Removing an element cannot make a path match that did not. -/
theorem matches_removeAt : ∀ (p : List Step) (b : Node.Addr) (n : Node), b ≠ [] → attrPreds p = true → p.getLast? ≠ some .text →
    Step.matches p n = [] → Step.matches p (removeAt b n) = []
  | [], b, n, _, _, _, h => by simp [Step.matches] at h
  | .attr q :: r, b, n, _, _, _, h => by
    simp only [Step.matches] at h ⊢
    rw [show (removeAt b n).attr? q = n.attr? q by simp [Node.attr?, removeAt_attrs]]
    exact h
  | .text :: r, b, n, _, _, hl, h => by
    cases r with
    | nil => simp at hl
    | cons s r => simp [Step.matches]
  | .child q ps :: r, b, n, hb, hap, hl, h => by
    rw [matches_child_nil_iff] at h ⊢
    have hap' : attrOnly ps = true ∧ attrPreds r = true := by simpa [attrPreds, Step.preds] using hap
    have hl' : r.getLast? ≠ some .text := by
      cases r with
      | nil => simp
      | cons s r => rw [List.getLast?_cons_cons] at hl; exact hl
    match b, hb with
    | [i], _ =>
      intro c hc
      simp only [removeAt, List.dropLast_singleton, Node.modify_nil, List.getLast?_singleton, Option.getD_some, Node.removeChild_children] at hc
      exact h c (List.mem_of_mem_eraseIdx hc)
    | i :: j :: b, _ =>
      rw [removeAt_cons, Node.withChildren_children]
      intro c hc hq hs
      obtain ⟨k, hk, rfl⟩ := List.mem_iff_getElem.mp hc
      rw [List.getElem_modify] at hq hs ⊢
      simp only [List.length_modify] at hk
      split_ifs at hq hs ⊢
      · apply matches_removeAt r (j :: b) _ (by simp) hap'.2 hl'
        apply h _ (List.getElem_mem hk)
        · simpa [Node.isElem, removeAt_tag] using hq
        · rw [← hs]; exact sat_attrOnly hap'.1 (removeAt_attrs _ _).symm
      · exact h _ (List.getElem_mem hk) hq hs

theorem matches_cleanup {p : List Step} (hap : attrPreds p = true) (hl : p.getLast? ≠ some .text) :
    ∀ (rp : List Step) (b : Node.Addr) (n : Node), rp.length = b.length → Step.matches p n = [] → Step.matches p (cleanupR rp b n) = []
  | [], _, _, _, h => h
  | st :: rp, b, n, hlen, h => by
    rw [cleanupR]
    split_ifs with hc
    · apply matches_cleanup hap hl rp b.dropLast _ (by simp at hlen ⊢; omega)
      apply matches_removeAt p b n (by rintro rfl; simp at hlen) hap hl h
    · exact h

/-- The address of an element match has one index per step. -/
theorem match_addr_length : ∀ (p : List Step) (n : Node) (b : Node.Addr), .elem b ∈ Step.matches p n → b.length = p.length
  | [], n, b, h => by simp [Step.matches] at h; subst h; rfl
  | .attr q :: r, n, b, h => by
    simp only [Step.matches] at h
    split_ifs at h <;> simp at h
  | .text :: r, n, b, h => by
    obtain ⟨-, -, h3⟩ := matches_kind _ _ _ h
    have := h3 b rfl
    simp [allChild] at this
  | .child q ps :: r, n, b, h => by
    obtain ⟨i, c, -, -, -, y, hy, hb⟩ := mem_matches_child.mp h
    obtain ⟨b', rfl, rfl⟩ := elem_under_iff hb
    simp [match_addr_length r c b' hy]

theorem eraseIdx_nomatch {q ps} {m : Node} {i : Nat} (h : Step.matches [.child q ps] m = [.elem [i]]) :
    Step.matches [.child q ps] (m.removeChild i) = [] := by
  rw [matches_child_nil_iff]
  intro c hc hq hs
  simp only [Node.removeChild_children] at hc
  rw [List.mem_eraseIdx_iff_getElem?] at hc
  obtain ⟨j, hne, hj⟩ := hc
  have : Ref.elem [j] ∈ Step.matches [.child q ps] m :=
    mem_matches_child.mpr ⟨j, c, hj, hq, hs, .elem [], by simp [Step.matches], rfl⟩
  rw [h] at this
  simp at this
  exact absurd this hne

/-- After deleting the only match, the path matches nothing. -/
theorem delete_nomatch {p : List Step} (hok : pathOk p = true) (hap : attrPreds p = true) (hp : p ≠ []) (hl : p.getLast? ≠ some .text)
    {n : Node} {x : Ref} (hx : Step.matches p n = [x]) (hal : Aligned p n) : Step.matches p (delete p n) = [] := by
  have hh : (Step.matches p n).head? = some x := by rw [hx]; rfl
  have hhold := hal x hh
  obtain ⟨pre, st, rfl⟩ : ∃ r1 st, p = r1 ++ [st] := ⟨p.dropLast, p.getLast hp, (List.dropLast_concat_getLast hp).symm⟩
  rw [List.dropLast_concat] at hhold
  obtain ⟨hpa, hprok, hst⟩ := pathOk_append hok (by simp)
  have hlen := match_addr_length pre n _ (List.mem_of_mem_head? hhold)
  unfold delete
  rw [hh, List.dropLast_concat]
  simp only [cleanup]
  apply matches_cleanup hap hl
  · simp [hlen]
  obtain ⟨m, hm, hkm, hsp⟩ := matches_split pre n _ hprok (List.mem_of_mem_head? hhold)
  obtain ⟨L, R, hL, hLR⟩ := hsp [st]
  have hL := hL hhold
  subst hL
  have h1 := hLR id hkm
  rw [Node.modify_id hm rfl, hx] at h1
  simp only [List.nil_append, id] at h1
  -- the match is in the holder
  have hmem : x ∈ Step.matches (pre ++ [st]) n := by rw [hx]; simp
  obtain ⟨b, m', y, hb, hm', hy, hxy⟩ := (mem_matches_append hpa).mp hmem
  have hbx : b = Ref.holder x := by rw [hxy, holder_under hy]
  rw [← hbx] at hm h1 hLR
  rw [hm] at hm'
  simp only [Option.some.injEq] at hm'
  subst hm'
  have hone : Step.matches [st] m = [y] ∧ R = [] := by
    cases hs : Step.matches [st] m with
    | nil => rw [hs] at hy; simp at hy
    | cons z l =>
      rw [hs] at h1
      simp only [List.map_cons, List.cons_append, List.cons.injEq, List.nil_eq_append_iff, List.map_eq_nil_iff] at h1
      obtain ⟨h3, rfl, h5⟩ := h1
      rw [hs] at hy
      simp only [List.mem_singleton] at hy
      exact ⟨by rw [hy], h5⟩
  obtain ⟨hone, rfl⟩ := hone
  rw [hxy, removeRef_under hy hm, hLR (removeRef y)]
  · simp only [List.nil_append, List.append_nil, List.map_eq_nil_iff]
    cases st with
    | child q ps =>
      obtain ⟨i, c, rfl, -, -, -⟩ := match_child_one hy
      show Step.matches _ (removeAt [i] m) = []
      exact eraseIdx_nomatch hone
    | attr q =>
      obtain ⟨rfl, -⟩ := match_attr_one hy
      show Step.matches _ (m.modify [] (Node.delAttr q)) = []
      simp [Step.matches, Node.attr?_delAttr]
    | text => simp at hl
  · apply keeps_of_sat (removeRef_tag hy)
    intro q ps hpl
    obtain ⟨o1, o2⟩ := last_ok hok hpl
    rw [satAll_removeRef o1 o2 hy]
    rw [hpl] at hkm
    exact hkm.2

/-! ### what the clean-up removes -/

theorem removeAt_removeAt {c b : Node.Addr} (hc : c ≠ []) (hcb : c <+: b) (hne : c ≠ b) (n : Node) :
    removeAt c (removeAt b n) = removeAt c n := by
  induction c generalizing b n with
  | nil => exact absurd rfl hc
  | cons i c ih =>
    obtain ⟨t, rfl⟩ := hcb
    have ht : t ≠ [] := by rintro rfl; simp at hne
    cases c with
    | nil =>
      cases t with
      | nil => exact absurd rfl ht
      | cons j t =>
        rw [show [i] ++ j :: t = i :: j :: t from rfl, removeAt_cons]
        simp only [removeAt, List.dropLast_singleton, Node.modify_nil, List.getLast?_singleton, Option.getD_some]
        unfold Node.removeChild
        simp only [Node.withChildren_children, Node.withChildren_withChildren]
        congr 1
        apply List.ext_getElem?
        intro k
        simp only [List.getElem?_eraseIdx, List.getElem?_modify]
        split_ifs
        · omega
        · simp
        · omega
        · simp
    | cons j c =>
      rw [show i :: j :: c ++ t = i :: j :: (c ++ t) from rfl, removeAt_cons, removeAt_cons, removeAt_cons]
      simp only [Node.withChildren_children, Node.withChildren_withChildren]
      congr 1
      apply List.ext_getElem?
      intro k
      simp only [List.getElem?_modify]
      by_cases hk : i = k
      · cases hck : n.children[k]? with
        | none => simp
        | some x =>
          have := ih (by simp) (b := j :: (c ++ t)) ⟨t, rfl⟩ (by simpa using ht) x
          simp [this, hk]
      · simp [hk]

/-- Seen from above, removing an element changes only its parent's children. -/
theorem get_removeAt {b d : Node.Addr} (hb : b ≠ []) (hd : d <+: b.dropLast) {n m : Node} (hm : n.get d = some m) :
    ∃ m', (removeAt b n).get d = some m' ∧ m'.attrs = m.attrs ∧
      m'.children.length = (if d = b.dropLast ∧ (n.get b).isSome then m.children.length - 1 else m.children.length) := by
  obtain ⟨t, ht⟩ := hd
  have hbd : b = b.dropLast ++ [b.getLast hb] := (List.dropLast_concat_getLast hb).symm
  refine ⟨m.modify t (Node.removeChild (b.getLast?.getD 0)), ?_, ?_, ?_⟩
  · rw [removeAt, ← ht, Node.modify_append, Node.get_modify, hm]
    rfl
  · cases t with
    | nil => simp
    | cons i t => simp [Node.modify_cons]
  · have hg : n.get b = m.children[b.getLast hb]? ∨ t ≠ [] := by
      by_cases h : t = []
      · left
        subst h
        rw [List.append_nil] at ht
        have : n.get (b.dropLast ++ [b.getLast hb]) = m.children[b.getLast hb]? := by
          rw [← ht, Node.get_append, hm]
          simp only [Option.bind_some, Node.get_cons]
          cases m.children[b.getLast hb]? <;> rfl
        rw [← hbd] at this
        exact this
      · exact .inr h
    cases t with
    | nil =>
      rw [List.append_nil] at ht
      rcases hg with hg | hg
      · rw [hg]
        simp only [Node.modify_nil, Node.removeChild_children, List.getLast?_eq_some_getLast hb, Option.getD_some, List.length_eraseIdx, ht,
          true_and]
        simp
      · exact absurd rfl hg
    | cons i t =>
      rw [if_neg]
      · simp [Node.modify_cons]
      · rintro ⟨h, -⟩
        rw [← h] at ht
        have := congrArg List.length ht
        simp at this

/-- Cleaning up removes nothing, or one ancestor-or-self `c` of the element at `b` such that everything from `c` down to `b` is a chain of
elements with a single child and with only the attributes required by the predicates. -/
theorem cleanup_chain : ∀ (rp : List Step) (b : Node.Addr) (n : Node), rp.length = b.length → (n.get b).isSome = true →
    cleanupR rp b n = n ∨ ∃ c, c ≠ [] ∧ c <+: b ∧ cleanupR rp b n = removeAt c n ∧
      ∀ d, c <+: d → d <+: b → ∀ m, n.get d = some m →
        m.children.length = (if d = b then 0 else 1) ∧
        ∃ st, rp.reverse[d.length - 1]? = some st ∧ ∀ a ∈ m.attrs, a.1 ∈ eqAttrs st.preds
  | [], b, n, _, _ => .inl rfl
  | st :: rp, b, n, hlen, hget => by
    have hb : b ≠ [] := by rintro rfl; simp at hlen
    rw [cleanupR]
    split_ifs with hc
    swap
    · exact .inl rfl
    right
    obtain ⟨mb, hmb⟩ := Option.isSome_iff_exists.mp hget
    have hemp := hc.1
    rw [hmb] at hemp
    simp only [Option.any_some, emptyBut, Bool.and_eq_true, List.isEmpty_iff, List.all_eq_true, decide_eq_true_eq] at hemp
    have hgd : ∀ d, d <+: b → ∃ m, n.get d = some m := by
      rintro d ⟨t, ht⟩
      rw [← ht, Node.get_append] at hmb
      cases h : n.get d with
      | none => rw [h] at hmb; simp at hmb
      | some m => exact ⟨m, rfl⟩
    obtain ⟨mp, hmp⟩ := hgd b.dropLast (List.dropLast_prefix b)
    obtain ⟨mp', hmp', -, hmpl⟩ := get_removeAt hb (List.prefix_refl _) hmp
    have hdn : b.dropLast ≠ b := by
      intro h
      have := congrArg List.length h
      simp only [List.length_dropLast] at this
      have := List.length_pos_iff.mpr hb
      omega
    have hstb : ∀ {h : List Step}, h = (st :: rp).reverse → h[b.length - 1]? = some st := by
      rintro h rfl
      rw [List.reverse_cons, List.getElem?_append_right (by simp at hlen ⊢; omega)]
      have : b.length - 1 - rp.reverse.length = 0 := by simp at hlen ⊢; omega
      rw [this]; rfl
    have hstb := hstb rfl
    have hlen' : rp.length = b.dropLast.length := by simp at hlen ⊢; omega
    have hmpos : 0 < mp.children.length := by
      have := hmb
      rw [← List.dropLast_concat_getLast hb, Node.get_append, hmp] at this
      simp only [Option.bind_some, Node.get_cons] at this
      by_contra h0
      have : mp.children = [] := by
        have : mp.children.length = 0 := by omega
        exact List.length_eq_zero_iff.mp this
      simp [this] at *
    rcases cleanup_chain rp b.dropLast (removeAt b n) hlen' (by rw [hmp']; rfl) with h | ⟨c, hc1, hc2, hc3, hc4⟩
    · refine ⟨b, hb, List.prefix_refl _, h, ?_⟩
      intro d hd1 hd2 m hm
      have hdb : d = b := List.IsPrefix.eq_of_length_le hd2 hd1.length_le
      subst hdb
      rw [hmb] at hm
      simp only [Option.some.injEq] at hm
      subst hm
      exact ⟨by simp [hemp.1], st, hstb, hemp.2⟩
    · have hcb : c <+: b := hc2.trans (List.dropLast_prefix b)
      have hcne : c ≠ b := by
        rintro rfl
        exact hdn (List.IsPrefix.eq_of_length_le (List.dropLast_prefix c) hc2.length_le)
      refine ⟨c, hc1, hcb, by rw [hc3, removeAt_removeAt hc1 hcb hcne], ?_⟩
      intro d hd1 hd2 m hm
      by_cases hdb : d = b
      · subst hdb
        rw [hmb] at hm
        simp only [Option.some.injEq] at hm
        subst hm
        exact ⟨by simp [hemp.1], st, hstb, hemp.2⟩
      · have hdp : d <+: b.dropLast := by
          obtain ⟨t, ht⟩ := hd2
          have htne : t ≠ [] := by rintro rfl; simp at ht; exact hdb ht
          rw [← ht, List.dropLast_append_of_ne_nil htne]
          exact List.prefix_append _ _
        obtain ⟨m', hm', ha', hl'⟩ := get_removeAt hb hdp hm
        obtain ⟨h1, st', hst', h2⟩ := hc4 d hd1 hdp m' hm'
        refine ⟨?_, st', ?_, by rw [← ha']; exact h2⟩
        swap
        · rw [List.reverse_cons, List.getElem?_append_left]
          · exact hst'
          · exact (List.getElem?_eq_some_iff.mp hst').1
        rw [if_neg hdb]
        rw [hl'] at h1
        by_cases hdd : d = b.dropLast
        · subst hdd
          rw [hmp] at hm
          simp only [Option.some.injEq] at hm
          subst hm
          simp [hmb] at h1
          omega
        · rw [if_neg (fun h => hdd h.1), if_neg hdd] at h1
          exact h1

end
end Fields
