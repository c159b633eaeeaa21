import Verif.XmlMap.RecordLemmas
import Verif.XmlMap.DeepListLemmas
import Verif.XmlMap.DeepListRun
/-
Objects in objects: changing what is below the element that a path of child steps selects.
-/
namespace Spec
open Xml Fields

/-- Add the elements of the path that are missing. -/
def mk : List Step → Node → Node
  | .child q ps :: r, n => n.withChildren (updFirst (okc q ps) (mk r) (mk r (newElem q ps)) n.children)
  | _, n => n

/-- Change the (first) element that the path selects. -/
def chg : List Step → (Node → Node) → Node → Node
  | [], F, n => F n
  | .child q ps :: r, F, n => n.withChildren (chgFirst (okc q ps) (fun c => some (chg r F c)) n.children)
  | _ :: _, _, n => n

/-- `n'` differs from `n` only at the path `p`. -/
structure Local (p : List Step) (n n' : Node) : Prop where
  tag : n'.tag = n.tag
  attr : ∀ t, (∀ r, p ≠ .attr t :: r) → n'.attr? t = n.attr? t
  other : ∀ g, good g = true → Part p g → hits g n' = hits g n
  uniq : ∀ g, good g = true → Part p g → Uniq g n → Uniq g n'

theorem Local.refl (p : List Step) (n : Node) : Local p n n := ⟨rfl, fun _ _ => rfl, fun _ _ _ => rfl, fun _ _ _ h => h⟩

theorem local_wr {p : List Step} (hg : good p = true) (v : Str) (n : Node) : Local p n (wr p v n) :=
  ⟨wr_tag p v n, fun t h => wr_attr p v n t h, fun _ h hp => hits_wr_other hg h hp v n, fun _ h hp hu => uniq_wr_other hg h hp v n hu⟩

theorem local_del {p : List Step} (hg : good p = true) (n : Node) : Local p n (del p n) :=
  ⟨del_tag p n, fun t h => del_attr p n t h, fun _ h hp => hits_del_other hg h hp n, fun _ h hp hu => uniq_del_other hg h hp n hu⟩

theorem Local.okc {q ps p} (hg : good (.child q ps :: p) = true) {c c' : Node} (h : Local p c c') : okc q ps c' = okc q ps c := by
  simp only [good, Bool.and_eq_true] at hg
  unfold Spec.okc
  rw [satAll_attrs hg.1.1.2 (n' := c) (fun p hp q hq => h.attr _ (nextOk_attr hg.1.2 p hp q hq))]
  simp [Node.isElem, h.tag]

/-- A change in the only child that a step selects. -/
theorem Local.under {q ps p} (hg : good (.child q ps :: p) = true) {n c c' : Node} {A B : List Node} (hc : n.children = A ++ c :: B)
    (hok : Spec.okc q ps c = true) (h : Local p c c') : Local (.child q ps :: p) n (n.withChildren (A ++ c' :: B)) := by
  have hok' := (h.okc hg).trans hok
  refine ⟨by simp, fun t _ => by simp [Node.attr?], ?_, ?_⟩
  · intro g hgg hp
    match g, hgg, hp with
    | .attr t :: _, _, _ => simp [hits, Node.attr?]
    | .child q' ps' :: r', hgg, hp =>
      simp only [hits, Node.withChildren_children, hc, List.filter_append, List.filter_cons]
      rcases hp with hp | ⟨rfl, rfl, hp⟩
      · rw [apart_okc hp hok, apart_okc hp hok']; simp
      · simp only [good, Bool.and_eq_true] at hgg
        rw [hok, hok']
        simp [h.other r' hgg.2 hp]
  · intro g hgg hp hu
    match g, hgg, hp, hu with
    | .attr t :: _, _, _, _ => trivial
    | .child q' ps' :: r', hgg, hp, hu =>
      obtain ⟨hu1, hu2⟩ := hu
      simp only [Uniq, Node.withChildren_children]
      rw [hc] at hu1 hu2
      rcases hp with hp | ⟨rfl, rfl, hp⟩
      · have h1 := apart_okc hp hok
        have h2 := apart_okc hp hok'
        refine ⟨by simpa [List.filter_append, h1, h2] using hu1, ?_⟩
        intro d hd hd'
        rcases List.mem_append.mp hd with hd | hd
        · exact hu2 d (by simp [hd]) hd'
        · rcases List.mem_cons.mp hd with rfl | hd
          · rw [h2] at hd'; cases hd'
          · exact hu2 d (by simp [hd]) hd'
      · simp only [good, Bool.and_eq_true] at hgg
        refine ⟨by simpa [List.filter_append, hok, hok'] using hu1, ?_⟩
        intro d hd hd'
        rcases List.mem_append.mp hd with hd | hd
        · exact hu2 d (by simp [hd]) hd'
        · rcases List.mem_cons.mp hd with rfl | hd
          · exact h.uniq r' hgg.2 hp (hu2 c (by simp) hok)
          · exact hu2 d (by simp [hd]) hd'

/-- A new last child. -/
theorem local_append {q ps p} (hg : good (.child q ps :: p) = true) {n c : Node} (h0 : ∀ x ∈ n.children, Spec.okc q ps x = false)
    (h : Local p (newElem q ps) c) : Local (.child q ps :: p) n (n.withChildren (n.children ++ [c])) := by
  have hg0 := hg
  simp only [good, Bool.and_eq_true] at hg0
  have hok' : Spec.okc q ps c = true := (h.okc hg).trans (okc_new hg0.1.1.1)
  refine ⟨by simp, fun t _ => by simp [Node.attr?], ?_, ?_⟩
  · intro g hgg hp
    match g, hgg, hp with
    | .attr t :: _, _, _ => simp [hits, Node.attr?]
    | .child q' ps' :: r', hgg, hp =>
      simp only [hits, Node.withChildren_children, List.filter_append, List.filter_cons, List.filter_nil]
      rcases hp with hp | ⟨rfl, rfl, hp⟩
      · rw [apart_okc hp hok']; simp
      · have hgg0 := hgg
        simp only [good, Bool.and_eq_true] at hgg0
        rw [hok']
        simp [h.other r' hgg0.2 hp, hits_new hgg (part_ne_nil hp).2]
  · intro g hgg hp hu
    match g, hgg, hp, hu with
    | .attr t :: _, _, _, _ => trivial
    | .child q' ps' :: r', hgg, hp, hu =>
      obtain ⟨hu1, hu2⟩ := hu
      simp only [Uniq, Node.withChildren_children]
      rcases hp with hp | ⟨rfl, rfl, hp⟩
      · have h2 := apart_okc hp hok'
        refine ⟨by simpa [List.filter_append, h2] using hu1, ?_⟩
        intro d hd hd'
        rcases List.mem_append.mp hd with hd | hd
        · exact hu2 d hd hd'
        · simp only [List.mem_singleton] at hd
          subst hd
          rw [h2] at hd'; cases hd'
      · have hgg0 := hgg
        simp only [good, Bool.and_eq_true] at hgg0
        refine ⟨by simp [List.filter_append, hok', filter_none h0], ?_⟩
        intro d hd hd'
        rcases List.mem_append.mp hd with hd | hd
        · exact hu2 d hd hd'
        · simp only [List.mem_singleton] at hd
          subst hd
          exact h.uniq r' hgg0.2 hp (uniq_new hgg)

theorem local_mk : ∀ {p : List Step}, good p = true → ∀ n, Local p n (mk p n)
  | [], _, n => Local.refl _ _
  | .attr _ :: _, _, n => Local.refl _ _
  | .text :: _, _, n => Local.refl _ _
  | .child q ps :: r, hg, n => by
    have hg0 := hg
    simp only [good, Bool.and_eq_true] at hg0
    rw [mk]
    rcases first_split (okc q ps) n.children with h0 | ⟨A, c, B, hc, hA, hok⟩
    · rw [updFirst_none h0]
      exact local_append hg h0 (local_mk hg0.2 _)
    · rw [hc, updFirst_mid hok hA]
      exact Local.under hg hc hok (local_mk hg0.2 c)

/-! ### paths to objects -/

/-- The elements that a path selects. -/
def elems (p : List Step) (n : Node) : List Node := (hits p n).filterMap (fun | .inl m => some m | .inr _ => none)

theorem good_right : ∀ {p r : List Step}, allChild p = true → good (p ++ r) = true → good r = true
  | [], _, _, h => h
  | .child q ps :: p, r, ha, h => by
    simp only [List.cons_append, good, Bool.and_eq_true] at h
    exact good_right (by simpa [allChild] using ha) h.2

theorem nextOk_left {ps : List Pred} {p r : List Step} (h : nextOk ps (p ++ r) = true) : nextOk ps p = true := by
  cases p with
  | nil => rfl
  | cons st p => cases st <;> first | rfl | exact h

theorem good_left : ∀ {p r : List Step}, allChild p = true → good (p ++ r) = true → good p = true
  | [], _, _, _ => rfl
  | .child q ps :: p, r, ha, h => by
    simp only [List.cons_append, good, Bool.and_eq_true] at h ⊢
    exact ⟨⟨h.1.1, nextOk_left h.1.2⟩, good_left (by simpa [allChild] using ha) h.2⟩

theorem hits_elems : ∀ {p : List Step}, allChild p = true → ∀ n, hits p n = (elems p n).map .inl
  | [], _, n => rfl
  | .child q ps :: p, ha, n => by
    have ih := hits_elems (p := p) (by simpa [allChild] using ha)
    unfold elems at ih ⊢
    simp only [hits]
    induction n.children.filter (okc q ps) with
    | nil => rfl
    | cons c cs ih2 =>
      rw [List.flatMap_cons, List.filterMap_append, List.map_append, ← ih2, ← ih c]

theorem elems_child (q ps p n) : elems (.child q ps :: p) n = (n.children.filter (okc q ps)).flatMap (elems p) := by
  unfold elems
  simp only [hits]
  induction n.children.filter (okc q ps) with
  | nil => rfl
  | cons c cs ih => rw [List.flatMap_cons, List.filterMap_append, ih]; rfl

theorem hits_append : ∀ {p : List Step}, allChild p = true → ∀ (r : List Step) (n : Node), hits (p ++ r) n = (elems p n).flatMap (hits r)
  | [], _, r, n => by simp [elems, hits]
  | .child q ps :: p, ha, r, n => by
    have ih := hits_append (p := p) (by simpa [allChild] using ha) r
    rw [elems_child, List.cons_append, hits, List.flatMap_assoc]
    congr 1
    funext c
    exact ih c

theorem elems_append {p : List Step} (ha : allChild p = true) (r : List Step) (n : Node) : elems (p ++ r) n = (elems p n).flatMap (elems r) := by
  unfold elems
  rw [hits_append ha]
  show _ = List.flatMap _ (elems p n)
  induction elems p n with
  | nil => rfl
  | cons c cs ih => rw [List.flatMap_cons, List.filterMap_append, ih]; rfl

theorem uniq_append : ∀ {p : List Step}, allChild p = true → ∀ (r : List Step) (n : Node), Uniq (p ++ r) n ↔ Uniq p n ∧ ∀ m ∈ elems p n, Uniq r m
  | [], _, r, n => by simp [elems, hits, Uniq]
  | .child q ps :: p, ha, r, n => by
    have ih := uniq_append (p := p) (by simpa [allChild] using ha) r
    simp only [List.cons_append, Uniq, ih, elems_child, List.mem_flatMap, List.mem_filter]
    constructor
    · rintro ⟨h1, h2⟩
      refine ⟨⟨h1, fun c hc ho => (h2 c hc ho).1⟩, ?_⟩
      rintro m ⟨c, ⟨hc, ho⟩, hm⟩
      exact (h2 c hc ho).2 m hm
    · rintro ⟨⟨h1, h2⟩, h3⟩
      exact ⟨h1, fun c hc ho => ⟨h2 c hc ho, fun m hm => h3 m ⟨c, ⟨hc, ho⟩, hm⟩⟩⟩

/-- With at most one child at each step, the path selects at most one element. -/
theorem elems_cases : ∀ {p : List Step}, allChild p = true → ∀ {n}, Uniq p n → elems p n = [] ∨ ∃ m, elems p n = [m]
  | [], _, n, _ => .inr ⟨n, rfl⟩
  | .child q ps :: p, ha, n, hu => by
    rw [elems_child]
    rcases first_split (okc q ps) n.children with h0 | ⟨A, c, B, hc, hA, hok⟩
    · left; rw [filter_none h0]; rfl
    · obtain ⟨-, hB⟩ := uniq_behind hok (by rw [← hc]; exact hu.1)
      rw [hc, List.filter_append, filter_none hA, List.filter_cons, if_pos hok, filter_none hB]
      simpa using elems_cases (p := p) (by simpa [allChild] using ha) (hu.2 c (by rw [hc]; simp) hok)

/-- The only element and the way to it. -/
theorem elems_one {q ps p} {n m : Node} (hu : Uniq (.child q ps :: p) n) (h : elems (.child q ps :: p) n = [m]) :
    ∃ A c B, n.children = A ++ c :: B ∧ (∀ x ∈ A, okc q ps x = false) ∧ okc q ps c = true ∧ (∀ x ∈ B, okc q ps x = false) ∧ elems p c = [m] := by
  rw [elems_child] at h
  rcases first_split (okc q ps) n.children with h0 | ⟨A, c, B, hc, hA, hok⟩
  · rw [filter_none h0] at h; simp at h
  · obtain ⟨-, hB⟩ := uniq_behind hok (by rw [← hc]; exact hu.1)
    rw [hc, List.filter_append, filter_none hA, List.filter_cons, if_pos hok, filter_none hB] at h
    exact ⟨A, c, B, hc, hA, hok, hB, by simpa using h⟩

/-- A change at `r` in the object is a change at `p ++ r`; the object is still there, changed. -/
theorem local_chg : ∀ {p : List Step}, allChild p = true → ∀ {r : List Step} {n m : Node} {F : Node → Node}, good (p ++ r) = true → Uniq p n → elems p n = [m] →
    Local r m (F m) → Local (p ++ r) n (chg p F n) ∧ elems p (chg p F n) = [F m] ∧ Uniq p (chg p F n)
  | [], _, r, n, m, F, _, _, h, hl => by
    have : n = m := by simpa [elems, hits] using h
    subst this
    exact ⟨hl, rfl, trivial⟩
  | .child q ps :: p, ha, r, n, m, F, hg, hu, h, hl => by
    obtain ⟨A, c, B, hc, hA, hok, hB, hm⟩ := elems_one hu h
    have hg0 := hg
    simp only [List.cons_append, good, Bool.and_eq_true] at hg0
    obtain ⟨h1, h2, h3⟩ := local_chg (p := p) (by simpa [allChild] using ha) hg0.2 (hu.2 c (by rw [hc]; simp) hok) hm hl
    have e : chg (.child q ps :: p) F n = n.withChildren (A ++ chg p F c :: B) := by
      rw [chg, hc, chgFirst_mid hok hA]; simp
    have hok' := (h1.okc hg).trans hok
    rw [e]
    refine ⟨Local.under hg hc hok h1, ?_, ?_, ?_⟩
    · rw [elems_child, Node.withChildren_children, List.filter_append, filter_none hA, List.filter_cons, if_pos hok', filter_none hB]
      simpa using h2
    · rw [Node.withChildren_children, List.filter_append, filter_none hA, List.filter_cons, if_pos hok', filter_none hB]
      simp
    · intro d hd hd'
      rw [Node.withChildren_children] at hd
      rcases List.mem_append.mp hd with hd | hd
      · rw [hA d hd] at hd'; cases hd'
      · rcases List.mem_cons.mp hd with rfl | hd
        · exact h3
        · rw [hB d hd] at hd'; cases hd'

theorem chg_append : ∀ (p r : List Step) (F : Node → Node) (n), allChild p = true → chg (p ++ r) F n = chg p (chg r F) n
  | [], r, F, n, _ => rfl
  | .child q ps :: p, r, F, n, ha => by
    have : (fun c => some (chg (p ++ r) F c)) = (fun c => some (chg p (chg r F) c)) := by
      funext c; rw [chg_append p r F c (by simpa [allChild] using ha)]
    simp only [List.cons_append, chg, this]

/-- What the change makes of the paths through the object. -/
theorem below_chg {p : List Step} (ha : allChild p = true) {r : List Step} {n m : Node} {F : Node → Node} (hg : good (p ++ r) = true) (hu : Uniq p n)
    (h : elems p n = [m]) (hl : Local r m (F m)) (g : List Step) :
    hits (p ++ g) (chg p F n) = hits g (F m) ∧ (Uniq (p ++ g) (chg p F n) ↔ Uniq g (F m)) := by
  obtain ⟨-, h2, h3⟩ := local_chg ha hg hu h hl
  rw [hits_append ha, uniq_append ha, h2]
  simp [h3]

/-! ### addresses -/

theorem addr_of [XPath.PyUnicode] : ∀ {p : List Step}, allChild p = true → ∀ {n m : Node}, Uniq p n → elems p n = [m] →
    ∃ b, Step.matches p n = [.elem b] ∧ n.get b = some m ∧ ∀ F, n.modify b F = chg p F n
  | [], _, n, m, _, h => by
    have : n = m := by simpa [elems, hits] using h
    subst this
    exact ⟨[], rfl, rfl, fun F => rfl⟩
  | .child q ps :: p, ha, n, m, hu, h => by
    obtain ⟨A, c, B, hc, hA, hok, hB, hm⟩ := elems_one hu h
    obtain ⟨b, h1, h2, h3⟩ := addr_of (p := p) (by simpa [allChild] using ha) (hu.2 c (by rw [hc]; simp) hok) hm
    refine ⟨A.length :: b, ?_, ?_, ?_⟩
    · rw [matches_mid hc hA hok hB, h1]; rfl
    · rw [get_under hc, h2]
    · intro F
      rw [Node.modify, hc, modify_mid, h3, chg, hc, chgFirst_mid hok hA]
      simp

theorem none_of [XPath.PyUnicode] {p : List Step} (ha : allChild p = true) (hg : good p = true) {n : Node} (hu : Uniq p n) (h : elems p n = []) : Step.matches p n = [] := by
  rw [← hits_nil_iff hg hu, hits_elems ha, h]; rfl

/-! ### creating -/

theorem buildPath_mk : ∀ {r : List Step}, allChild r = true → good r = true → ∀ {n : Node}, (r ≠ [] → n.children = []) → buildPath r id n = mk r n
  | [], _, _, n, _ => rfl
  | .child q ps :: r, ha, hg, n, h => by
    have hg0 := hg
    simp only [good, Bool.and_eq_true] at hg0
    have ih := buildPath_mk (by simpa [allChild] using ha) hg0.2 (n := newElem q ps) (fun _ => new_children hg0.1.1.2)
    simp only [buildPath, mk, ih, h (by simp), updFirst, Node.append, List.nil_append]

theorem create_mk : ∀ {p : List Step}, allChild p = true → p ≠ [] → good p = true → ∀ {n : Node}, Uniq p n → elems p n = [] →
    n.modify (missing p n).1 (buildPath (missing p n).2 id) = mk p n
  | .child q ps :: r, ha, _, hg, n, hu, h => by
    have hg0 := hg
    simp only [good, Bool.and_eq_true] at hg0
    have har : allChild r = true := by simpa [allChild] using ha
    rcases first_split (okc q ps) n.children with h0 | ⟨A, c, B, hc, hA, hok⟩
    · unfold missing
      have hb := buildPath_mk har hg0.2 (n := newElem q ps) (fun _ => new_children hg0.1.1.2)
      simp only [place_none h0, Node.modify, buildPath, hb, Node.append, mk, updFirst_none h0]
    · obtain ⟨-, hB⟩ := uniq_behind hok (by rw [← hc]; exact hu.1)
      have hm := fun r' => matches_mid (r := r') hc hA hok hB
      have he : elems r c = [] := by
        rw [elems_child, hc, List.filter_append, filter_none hA, List.filter_cons, if_pos hok, filter_none hB] at h
        simpa using h
      have hr : r ≠ [] := by rintro rfl; simp [elems, hits] at he
      have ih := create_mk har hr hg0.2 (hu.2 c (by rw [hc]; simp) hok) he
      unfold missing at ih ⊢
      have hl : (Step.child q ps :: r).length - 1 = (r.length - 1) + 1 := by
        cases r with
        | nil => exact absurd rfl hr
        | cons a r => simp
      rw [hl, place_child hm]
      show n.withChildren (n.children.modify A.length _) = _
      rw [hc, modify_mid, ih, mk, hc, updFirst_mid hok hA]

/-- The object is there afterwards, and new objects are empty. -/
theorem elems_mk : ∀ {p : List Step}, allChild p = true → ∀ {r : List Step}, good (p ++ r) = true → ∀ {n : Node}, Uniq p n → elems p n = [] →
    ∃ m, elems p (mk p n) = [m] ∧ Uniq p (mk p n) ∧ Uniq r m ∧ (r ≠ [] → hits r m = [])
  | [], _, r, _, n, _, h => by simp [elems, hits] at h
  | .child q ps :: p, ha, r, hg, n, hu, h => by
    have hg0 := hg
    simp only [List.cons_append, good, Bool.and_eq_true] at hg0
    have hap : allChild p = true := by simpa [allChild] using ha
    have hgl : good (.child q ps :: p) = true := good_left (r := r) ha hg
    rw [mk]
    have hgp := good_left hap hg0.2
    rcases first_split (okc q ps) n.children with h0 | ⟨A, c, B, hc, hA, hok⟩
    · have hok' : okc q ps (mk p (newElem q ps)) = true := ((local_mk hgp _).okc hgl).trans (okc_new hg0.1.1.1)
      have hd : ∃ m, elems p (mk p (newElem q ps)) = [m] ∧ Uniq p (mk p (newElem q ps)) ∧ Uniq r m ∧ (r ≠ [] → hits r m = []) := by
        by_cases hp : p = []
        · subst hp
          exact ⟨newElem q ps, rfl, trivial, uniq_new hg, fun hr => hits_new hg hr⟩
        · refine elems_mk hap hg0.2 (uniq_new hgl) ?_
          have := hits_new hgl hp
          rw [hits_elems hap] at this
          simpa using this
      obtain ⟨m, h1, h2, h3, h4⟩ := hd
      rw [updFirst_none h0]
      refine ⟨m, ?_, ⟨?_, ?_⟩, h3, h4⟩
      · rw [elems_child, Node.withChildren_children, List.filter_append, filter_none h0, List.filter_cons, if_pos hok']
        simpa using h1
      · rw [Node.withChildren_children, List.filter_append, filter_none h0, List.filter_cons, if_pos hok']; simp
      · intro d hd hd'
        rw [Node.withChildren_children] at hd
        rcases List.mem_append.mp hd with hd | hd
        · rw [h0 d hd] at hd'; cases hd'
        · simp only [List.mem_singleton] at hd
          subst hd; exact h2
    · obtain ⟨-, hB⟩ := uniq_behind hok (by rw [← hc]; exact hu.1)
      have he : elems p c = [] := by
        rw [elems_child, hc, List.filter_append, filter_none hA, List.filter_cons, if_pos hok, filter_none hB] at h
        simpa using h
      obtain ⟨m, h1, h2, h3, h4⟩ := elems_mk hap hg0.2 (hu.2 c (by rw [hc]; simp) hok) he
      have hok' : okc q ps (mk p c) = true := ((local_mk hgp _).okc hgl).trans hok
      rw [hc, updFirst_mid hok hA]
      refine ⟨m, ?_, ⟨?_, ?_⟩, h3, h4⟩
      · rw [elems_child, Node.withChildren_children, List.filter_append, filter_none hA, List.filter_cons, if_pos hok', filter_none hB]
        simpa using h1
      · rw [Node.withChildren_children, List.filter_append, filter_none hA, List.filter_cons, if_pos hok', filter_none hB]; simp
      · intro d hd hd'
        rw [Node.withChildren_children] at hd
        rcases List.mem_append.mp hd with hd | hd
        · rw [hA d hd] at hd'; cases hd'
        · rcases List.mem_cons.mp hd with rfl | hd
          · exact h2
          · rw [hB d hd] at hd'; cases hd'

end Spec
