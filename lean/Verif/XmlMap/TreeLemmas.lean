import Verif.XmlMap.NestLemmas
/-
Writing the text that is there, changing or creating the element that a path selects: lemmas for forms with subforms.
-/
namespace Spec
open Xml Fields

/-- The path selects an attribute (or text). -/
def endsText (p : List Step) : Bool := match p.getLast? with
  | some (.attr _) => true
  | some .text => true
  | _ => false

theorem endsText_cons (st : Step) {r : List Step} (hr : r ≠ []) : endsText (st :: r) = endsText r := by
  cases r with
  | nil => exact absurd rfl hr
  | cons a r => simp [endsText, List.getLast?_cons_cons]

/-- The path selects nothing, or one attribute or element without children with that text. -/
def HitIs (p : List Step) (o : Option Str) (n : Node) : Prop := match o with
  | none => hits p n = []
  | some t => (endsText p = true ∧ hits p n = [.inr t]) ∨ (endsText p = false ∧ ∃ m, hits p n = [.inl m] ∧ m.children = [] ∧ m.text = some t)

theorem setAttrL_same {q : QName} {v : Str} : ∀ {l : List (QName × Str)}, l.lookup q = some v → Node.setAttrL q v l = l
  | [], h => by simp at h
  | (q', v') :: l, h => by
    unfold Node.setAttrL
    by_cases hq : q' = q
    · subst hq
      simp only [List.lookup_cons, beq_self_eq_true, Option.some.injEq] at h
      simp [h]
    · rw [if_neg hq]
      have : (q == q') = false := by simpa using Ne.symm hq
      simp only [List.lookup_cons, this] at h
      rw [setAttrL_same h]

theorem withChildren_self (n : Node) : n.withChildren n.children = n := by cases n; rfl

/-- With at most one child at each step, a path goes on in the child that the first step selects. -/
theorem hits_mid {q ps r} {n c : Node} {A B : List Node} (hc : n.children = A ++ c :: B) (hA : ∀ x ∈ A, okc q ps x = false) (hok : okc q ps c = true)
    (hB : ∀ x ∈ B, okc q ps x = false) : hits (.child q ps :: r) n = hits r c := by
  simp only [hits]
  rw [hc, List.filter_append, filter_none hA, List.filter_cons, if_pos hok, filter_none hB]
  simp

theorem hits_out {q ps r} {n : Node} (h0 : ∀ x ∈ n.children, okc q ps x = false) : hits (.child q ps :: r) n = [] := by
  simp only [hits]; rw [filter_none h0]; rfl

theorem HitIs.under {q ps r} {o : Option Str} {n c : Node} (h : hits (.child q ps :: r) n = hits r c) : HitIs (.child q ps :: r) o n ↔ HitIs r o c := by
  have he : endsText (.child q ps :: r) = endsText r := by
    cases r with
    | nil => rfl
    | cons a r => exact endsText_cons _ (by simp)
  cases o with
  | none => simp [HitIs, h]
  | some t => simp only [HitIs, h, he]

/-- Writing what is there changes nothing. -/
theorem wr_same : ∀ {p : List Step}, good p = true → ∀ {t : Str} {n : Node}, Uniq p n → HitIs p (some t) n → wr p t n = n
  | [], _, t, n, _, h => by
    rcases h with ⟨h, -⟩ | ⟨-, m, h, -, ht⟩
    · simp [endsText] at h
    · simp only [hits, List.cons.injEq, Sum.inl.injEq, and_true] at h
      subst h
      cases n; simp_all [wr, Node.setText, Node.text]
  | .attr q :: r, hg, t, n, _, h => by
    have hr : r = [] := by simpa [good] using hg
    subst hr
    rcases h with ⟨-, h⟩ | ⟨h, -⟩
    · simp only [hits] at h
      cases hl : n.attr? q with
      | none => rw [hl] at h; simp at h
      | some v =>
        rw [hl] at h
        simp only [Option.toList_some, List.map_cons, List.map_nil, List.cons.injEq, Sum.inr.injEq, and_true] at h
        subst h
        have := setAttrL_same hl
        simp only [wr, Node.setAttr, this]
        cases n; rfl
    · simp [endsText] at h
  | .text :: _, hg, t, n, _, h => by simp [good] at hg
  | .child q ps :: r, hg, t, n, hu, h => by
    simp only [good, Bool.and_eq_true] at hg
    rcases first_split (okc q ps) n.children with h0 | ⟨A, c, B, hc, hA, hok⟩
    · exfalso
      have : hits (.child q ps :: r) n = [] := hits_out h0
      rcases h with ⟨-, h⟩ | ⟨-, m, h, -⟩ <;> rw [this] at h <;> simp at h
    · obtain ⟨-, hB⟩ := uniq_behind hok (by rw [← hc]; exact hu.1)
      rw [HitIs.under (hits_mid hc hA hok hB)] at h
      have ih := wr_same hg.2 (hu.2 c (by rw [hc]; simp) hok) h
      simp only [wr]
      rw [hc, updFirst_mid hok hA, ih, ← hc, withChildren_self]

/-- What has been written is there. -/
theorem hitIs_wr : ∀ {p : List Step}, good p = true → ∀ (t : Str) {n : Node}, Uniq p n → (∀ m, .inl m ∈ hits p n → m.children = []) → HitIs p (some t) (wr p t n)
  | [], _, t, n, _, h => by
    refine .inr ⟨rfl, n.setText (some t), rfl, ?_, ?_⟩
    · have := h n (by simp [hits])
      cases n; simpa [Node.setText, Node.children] using this
    · cases n; rfl
  | .attr q :: r, hg, t, n, _, h => by
    have hr : r = [] := by simpa [good] using hg
    subst hr
    refine .inl ⟨rfl, ?_⟩
    simp only [wr, hits, Node.attr?_setAttr, if_true]
    rfl
  | .text :: _, hg, t, n, _, h => by simp [good] at hg
  | .child q ps :: r, hg, t, n, hu, h => by
    have hg0 := hg
    simp only [good, Bool.and_eq_true] at hg
    rcases first_split (okc q ps) n.children with h0 | ⟨A, c, B, hc, hA, hok⟩
    · have hw : wr (.child q ps :: r) t n = n.withChildren (n.children ++ [wr r t (newElem q ps)]) := by simp only [wr]; rw [updFirst_none h0]
      have hok' : okc q ps (wr r t (newElem q ps)) = true := by rw [okc_wr hg0]; exact okc_new hg.1.1.1
      rw [hw, HitIs.under (hits_mid (A := n.children) (B := []) (c := wr r t (newElem q ps)) (by simp) h0 hok' (by simp))]
      refine hitIs_wr hg.2 t (uniq_new hg0) ?_
      by_cases hr : r = []
      · subst hr
        intro m hm
        simp only [hits, List.mem_singleton, Sum.inl.injEq] at hm
        subst hm; exact new_children hg.1.1.2
      · rw [hits_new hg0 hr]; simp
    · obtain ⟨-, hB⟩ := uniq_behind hok (by rw [← hc]; exact hu.1)
      have hw : wr (.child q ps :: r) t n = n.withChildren (A ++ wr r t c :: B) := by simp only [wr]; rw [hc, updFirst_mid hok hA]
      rw [hits_mid hc hA hok hB] at h
      rw [hw, HitIs.under (hits_mid (c := wr r t c) (by simp) hA (by rw [okc_wr hg0]; exact hok) hB)]
      exact hitIs_wr hg.2 t (hu.2 c (by rw [hc]; simp) hok) h

/-! ### the element that a path of child steps selects -/

/-- The new element that such a path ends in. -/
def newOf : List Step → Node → Node
  | [], n => n
  | .child q ps :: r, _ => newOf r (newElem q ps)
  | _ :: r, n => newOf r n

theorem elems_mk_new : ∀ {p : List Step}, allChild p = true → good p = true → ∀ {n : Node}, Uniq p n → elems p n = [] → ∀ x, elems p (mk p n) = [newOf p x] ∧ Uniq p (mk p n)
  | [], _, _, n, _, h, x => by simp [elems, hits] at h
  | .child q ps :: r, ha, hg, n, hu, h, x => by
    have hg0 := hg
    simp only [good, Bool.and_eq_true] at hg
    have har : allChild r = true := by simpa [allChild] using ha
    have hkey : ∀ {c : Node}, okc q ps c = true → Uniq r c → (elems r c = [] ∨ r = []) → okc q ps (mk r c) = true ∧ Uniq r (mk r c) := by
      intro c hc huc he
      refine ⟨((local_mk hg.2 c).okc hg0).trans hc, ?_⟩
      rcases he with he | rfl
      · exact (elems_mk_new har hg.2 huc he c).2
      · trivial
    have hu' : ∀ {A B : List Node} {d : Node}, (∀ x ∈ A, okc q ps x = false) → (∀ x ∈ B, okc q ps x = false) → okc q ps d = true → Uniq r d →
        Uniq (.child q ps :: r) (n.withChildren (A ++ d :: B)) := by
      intro A B d hA hB hd hud
      refine ⟨?_, ?_⟩
      · simp [List.filter_append, filter_none hA, filter_none hB, hd]
      · intro y hy hyo
        simp only [Node.withChildren_children, List.mem_append, List.mem_cons] at hy
        rcases hy with hy | rfl | hy
        · rw [hA y hy] at hyo; cases hyo
        · exact hud
        · rw [hB y hy] at hyo; cases hyo
    have hel : ∀ {A B : List Node} {d : Node}, (∀ x ∈ A, okc q ps x = false) → (∀ x ∈ B, okc q ps x = false) → okc q ps d = true →
        elems (.child q ps :: r) (n.withChildren (A ++ d :: B)) = elems r d := by
      intro A B d hA hB hd
      unfold elems
      rw [hits_mid (c := d) (by simp) hA hd hB]
    rcases first_split (okc q ps) n.children with h0 | ⟨A, c, B, hc, hA, hok⟩
    · have hw : mk (.child q ps :: r) n = n.withChildren (n.children ++ [mk r (newElem q ps)]) := by simp only [mk]; rw [updFirst_none h0]
      have hnew : elems r (newElem q ps) = [] ∨ r = [] := by
        by_cases hr : r = []
        · exact .inr hr
        · left; unfold elems; rw [hits_new hg0 hr]; rfl
      obtain ⟨k1, k2⟩ := hkey (okc_new hg.1.1.1) (uniq_new hg0) hnew
      rw [hw, hel h0 (by simp) k1]
      refine ⟨?_, hu' h0 (by simp) k1 k2⟩
      rcases hnew with he | rfl
      · exact (elems_mk_new har hg.2 (uniq_new hg0) he _).1
      · rfl
    · obtain ⟨-, hB⟩ := uniq_behind hok (by rw [← hc]; exact hu.1)
      have huc := hu.2 c (by rw [hc]; simp) hok
      have he : elems r c = [] := by rw [← h]; unfold elems; rw [hits_mid hc hA hok hB]
      have hw : mk (.child q ps :: r) n = n.withChildren (A ++ mk r c :: B) := by simp only [mk]; rw [hc, updFirst_mid hok hA]
      obtain ⟨k1, k2⟩ := hkey hok huc (.inl he)
      rw [hw, hel hA hB k1]
      exact ⟨(elems_mk_new har hg.2 huc he _).1, hu' hA hB k1 k2⟩

/-- The last step selects the element. -/
def lastOk (p : List Step) (m : Node) : Prop := match p.getLast? with
  | some (.child q ps) => okc q ps m = true
  | _ => True

/-- Putting another element in the place of the one that the path selects. -/
theorem local_put : ∀ {p : List Step}, allChild p = true → p ≠ [] → good p = true → ∀ {n m m' : Node}, Uniq p n → elems p n = [m] → lastOk p m' →
    Local p n (chg p (fun _ => m') n) ∧ elems p (chg p (fun _ => m') n) = [m'] ∧ Uniq p (chg p (fun _ => m') n)
  | .child q ps :: r, ha, _, hg, n, m, m', hu, h, hl => by
    have hg0 := hg
    simp only [good, Bool.and_eq_true] at hg
    have har : allChild r = true := by simpa [allChild] using ha
    obtain ⟨A, c, B, hc, hA, hok, hB, he⟩ := elems_one hu h
    have huc := hu.2 c (by rw [hc]; simp) hok
    have hw : chg (.child q ps :: r) (fun _ => m') n = n.withChildren (A ++ chg r (fun _ => m') c :: B) := by
      simp only [chg]; rw [hc, chgFirst_mid hok hA]; simp
    have hkey : okc q ps (chg r (fun _ => m') c) = true ∧ elems r (chg r (fun _ => m') c) = [m'] ∧ Uniq r (chg r (fun _ => m') c) := by
      by_cases hr : r = []
      · subst hr; exact ⟨by simpa [lastOk, chg] using hl, rfl, trivial⟩
      · obtain ⟨k1, k2, k3⟩ := local_put har hr hg.2 huc he (m' := m') (by
          cases r with
          | nil => exact absurd rfl hr
          | cons st r => simpa [lastOk, List.getLast?_cons_cons] using hl)
        exact ⟨(k1.okc hg0).trans hok, k2, k3⟩
    obtain ⟨k1, k2, k3⟩ := hkey
    rw [hw]
    refine ⟨?_, ?_, ?_, ?_⟩
    · by_cases hr : r = []
      · subst hr
        simp only [chg] at k1 ⊢
        refine ⟨by simp, fun t _ => by simp [Node.attr?], ?_, ?_⟩
        · intro g hgg hp
          match g, hgg, hp with
          | .attr t :: _, _, _ => simp [hits, Node.attr?]
          | .child q' ps' :: g', hgg, hp =>
            rcases hp with hp | ⟨-, -, hp⟩
            · simp only [hits, Node.withChildren_children, hc, List.filter_append, List.filter_cons, apart_okc hp hok, apart_okc hp k1]
              simp
            · simp [Part] at hp
        · intro g hgg hp hug
          match g, hgg, hp, hug with
          | .attr t :: _, _, _, _ => trivial
          | .child q' ps' :: g', hgg, hp, hug =>
            rcases hp with hp | ⟨-, -, hp⟩
            · refine ⟨?_, ?_⟩
              · have := hug.1
                simp only [hc, List.filter_append, List.filter_cons, apart_okc hp hok] at this
                simp only [Node.withChildren_children, List.filter_append, List.filter_cons, apart_okc hp k1]
                exact this
              · intro y hy hyo
                simp only [Node.withChildren_children, List.mem_append, List.mem_cons] at hy
                rcases hy with hy | rfl | hy
                · exact hug.2 y (by rw [hc]; simp [hy]) hyo
                · rw [apart_okc hp k1] at hyo; cases hyo
                · exact hug.2 y (by rw [hc]; simp [hy]) hyo
            · simp [Part] at hp
      · obtain ⟨k1, -, -⟩ := local_put har hr hg.2 huc he (m' := m') (by
          cases r with
          | nil => exact absurd rfl hr
          | cons st r => simpa [lastOk, List.getLast?_cons_cons] using hl)
        exact Local.under hg0 hc hok k1
    · have : elems (.child q ps :: r) (n.withChildren (A ++ chg r (fun _ => m') c :: B)) = elems r (chg r (fun _ => m') c) := by
        unfold elems
        rw [hits_mid (c := chg r (fun _ => m') c) (by simp) hA k1 hB]
      rw [this, k2]
    · simp [List.filter_append, filter_none hA, filter_none hB, k1]
    · intro y hy hyo
      simp only [Node.withChildren_children, List.mem_append, List.mem_cons] at hy
      rcases hy with hy | rfl | hy
      · rw [hA y hy] at hyo; cases hyo
      · exact k3
      · rw [hB y hy] at hyo; cases hyo

theorem hits_le_one : ∀ {p : List Step}, good p = true → ∀ {n : Node}, Uniq p n → (hits p n).length ≤ 1
  | [], _, n, _ => by simp [hits]
  | .attr q :: r, hg, n, _ => by
    have hr : r = [] := by simpa [good] using hg
    subst hr
    simp only [hits]
    cases n.attr? q <;> simp
  | .text :: _, hg, _, _ => by simp [good] at hg
  | .child q ps :: r, hg, n, hu => by
    simp only [good, Bool.and_eq_true] at hg
    rcases first_split (okc q ps) n.children with h0 | ⟨A, c, B, hc, hA, hok⟩
    · rw [hits_out h0]; simp
    · obtain ⟨-, hB⟩ := uniq_behind hok (by rw [← hc]; exact hu.1)
      rw [hits_mid hc hA hok hB]
      exact hits_le_one hg.2 (hu.2 c (by rw [hc]; simp) hok)

/-- The last step selects what the path selects. -/
theorem lastOk_elems : ∀ {p : List Step}, allChild p = true → ∀ {n m : Node}, m ∈ elems p n → lastOk p m
  | [], _, n, m, _ => trivial
  | .child q ps :: r, ha, n, m, h => by
    rw [elems_child, List.mem_flatMap] at h
    obtain ⟨c, hc, hm⟩ := h
    cases r with
    | nil =>
      have : c = m := by simpa [elems, hits, eq_comm] using hm
      subst this
      exact (List.mem_filter.mp hc).2
    | cons st r =>
      have := lastOk_elems (by simpa [allChild] using ha) hm
      simpa [lastOk, List.getLast?_cons_cons] using this

/-- The new element for the last step of the path. -/
def newAt (p : List Step) : Node := match p.getLast? with
  | some (.child q ps) => newElem q ps
  | _ => Node.empty ⟨none, []⟩

theorem newOf_at : ∀ {p : List Step}, allChild p = true → p ≠ [] → ∀ x, newOf p x = newAt p
  | .child q ps :: r, ha, _, x => by
    cases r with
    | nil => rfl
    | cons st r =>
      have := newOf_at (p := st :: r) (by simpa [allChild] using ha) (by simp) (newElem q ps)
      simpa [newAt, newOf, List.getLast?_cons_cons] using this

/-- A change of other attributes. -/
theorem lastOk_keep {p : List Step} (hp : p ≠ []) (ha : allChild p = true) (hg : good p = true) {m m' : Node} (ht : m'.tag = m.tag)
    (h : ∀ t, (∀ r, good (p ++ .attr t :: r) = true → False) → m'.attr? t = m.attr? t) (hl : lastOk p m) : lastOk p m' := by
  obtain ⟨p, st, rfl⟩ := List.eq_nil_or_concat p |>.resolve_left hp
  simp only [List.concat_eq_append] at *
  have hst : ∃ q ps, st = .child q ps := by
    have := ha
    rw [allChildApp] at this
    cases st with
    | child q ps => exact ⟨q, ps, rfl⟩
    | attr => simp [allChild] at this
    | text => simp [allChild] at this
  obtain ⟨q, ps, rfl⟩ := hst
  have hap : allChild p = true := by
    rw [allChildApp, Bool.and_eq_true] at ha; exact ha.1
  have hgl := good_right hap hg
  simp only [good, Bool.and_eq_true] at hgl
  simp only [lastOk, List.getLast?_append, List.getLast?_singleton, Option.some_or] at hl ⊢
  unfold okc at hl ⊢
  rw [satAll_attrs hgl.1.1.2 (n' := m) ?_]
  · simpa [Node.isElem, ht] using hl
  · intro pr hpr t ht'
    refine h t (fun r hgr => ?_)
    rw [List.append_assoc] at hgr
    have := good_right hap hgr
    simp only [List.singleton_append, good, Bool.and_eq_true] at this
    exact nextOk_attr this.1.2 pr hpr t ht' r rfl

end Spec
