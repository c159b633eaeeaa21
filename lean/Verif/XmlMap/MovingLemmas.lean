import Verif.XmlMap.Moving
/-
Proofs about lists of elements whose values may be in the list already.  The children of the owner's element are tagged with the numbers of the objects.
-/
namespace Fields
open Xml XPath Spec

/-- Children with the numbers of their objects. -/
abbrev Tagged := List (Option Nat × Node)

/-- The numbers in order. -/
def tags (T : Tagged) : List Nat := T.filterMap (·.1)

theorem tags_append (A B : Tagged) : tags (A ++ B) = tags A ++ tags B := List.filterMap_append
theorem tags_cons (k : Nat) (m : Node) (B : Tagged) : tags ((some k, m) :: B) = k :: tags B := by simp [tags]

/-- Object `k`, whose element is `v`, is at `p`. -/
def Located (T : Tagged) (k : Nat) (v : Node) (p : Place) : Prop :=
  (p = .out v ∧ k ∉ tags T) ∨ ∃ A B, T = A ++ (some k, v) :: B ∧ p = .at A.length

theorem mem_tags {T : Tagged} {k : Nat} : k ∈ tags T ↔ ∃ v, (some k, v) ∈ T := by
  simp [tags]

theorem located_insert {A B : Tagged} {z : Nat} {b v : Node} {k : Nat} {p : Place} (hk : k ≠ z) (h : Located (A ++ B) k v p) :
    Located (A ++ (some z, b) :: B) k v (p.shiftIn A.length) := by
  rcases h with ⟨rfl, h⟩ | ⟨C, D, h, rfl⟩
  · left
    refine ⟨rfl, ?_⟩
    rw [tags_append] at h
    rw [tags_append, tags_cons]
    simp only [List.mem_append, List.mem_cons, not_or] at h ⊢
    exact ⟨h.1, hk, h.2⟩
  · right
    rcases List.append_eq_append_iff.1 h with ⟨E, rfl, h2⟩ | ⟨E, rfl, h2⟩
    · -- C = A ++ E
      refine ⟨A ++ (some z, b) :: E, D, by simp [h2], ?_⟩
      simp [Place.shiftIn]
      omega
    · -- A = C ++ E
      cases E with
      | nil =>
        simp only [List.nil_append] at h2
        refine ⟨C ++ [(some z, b)], D, by simp [← h2], ?_⟩
        simp [Place.shiftIn]
      | cons x E =>
        simp only [List.cons_append, List.cons.injEq] at h2
        obtain ⟨rfl, rfl⟩ := h2
        refine ⟨C, E ++ (some z, b) :: B, by simp, ?_⟩
        simp [Place.shiftIn]

theorem located_erase {A B : Tagged} {z : Nat} {b v : Node} {k : Nat} {p : Place} (hk : k ≠ z) (h : Located (A ++ (some z, b) :: B) k v p) :
    Located (A ++ B) k v (p.closeGap A.length) := by
  rcases h with ⟨rfl, h⟩ | ⟨C, D, h, rfl⟩
  · left
    refine ⟨rfl, ?_⟩
    rw [tags_append, tags_cons] at h
    rw [tags_append]
    simp only [List.mem_append, List.mem_cons, not_or] at h ⊢
    exact ⟨h.1, h.2.2⟩
  · right
    rcases List.append_eq_append_iff.1 h with ⟨E, rfl, h2⟩ | ⟨E, rfl, h2⟩
    · cases E with
      | nil =>
        simp only [List.nil_append, List.cons.injEq, Prod.mk.injEq, Option.some.injEq] at h2
        exact absurd h2.1.1.symm hk
      | cons x E =>
        simp only [List.cons_append, List.cons.injEq] at h2
        obtain ⟨rfl, rfl⟩ := h2
        refine ⟨A ++ E, D, by simp, ?_⟩
        simp [Place.closeGap]
    · cases E with
      | nil =>
        simp only [List.nil_append, List.cons.injEq, Prod.mk.injEq, Option.some.injEq] at h2
        exact absurd h2.1.1 hk
      | cons x E =>
        simp only [List.cons_append, List.cons.injEq] at h2
        obtain ⟨rfl, rfl⟩ := h2
        refine ⟨C, E ++ B, by simp, ?_⟩
        simp [Place.closeGap]

theorem located_retag {A B : Tagged} {j z : Nat} {m b v : Node} {k : Nat} {p : Place} (hj : k ≠ j) (hz : k ≠ z) (h : Located (A ++ (some j, m) :: B) k v p) :
    Located (A ++ (some z, b) :: B) k v p := by
  rcases h with ⟨rfl, h⟩ | ⟨C, D, h, rfl⟩
  · left
    refine ⟨rfl, ?_⟩
    rw [tags_append, tags_cons] at h ⊢
    simp only [List.mem_append, List.mem_cons, not_or] at h ⊢
    exact ⟨h.1, hz, h.2.2⟩
  · right
    rcases List.append_eq_append_iff.1 h with ⟨E, rfl, h2⟩ | ⟨E, rfl, h2⟩
    · cases E with
      | nil =>
        simp only [List.nil_append, List.cons.injEq, Prod.mk.injEq, Option.some.injEq] at h2
        exact absurd h2.1.1.symm hj
      | cons x E =>
        simp only [List.cons_append, List.cons.injEq] at h2
        obtain ⟨rfl, rfl⟩ := h2
        exact ⟨A ++ (some z, b) :: E, D, by simp, by simp⟩
    · cases E with
      | nil =>
        simp only [List.nil_append, List.cons.injEq, Prod.mk.injEq, Option.some.injEq] at h2
        exact absurd h2.1.1 hj
      | cons x E =>
        simp only [List.cons_append, List.cons.injEq] at h2
        obtain ⟨rfl, rfl⟩ := h2
        exact ⟨C, E ++ (some z, b) :: B, by simp, rfl⟩

/-- An object that is somewhere else is not at the place of `z`. -/
theorem located_ne {A B : Tagged} {z : Nat} {b v : Node} {k : Nat} {p : Place} (hk : k ≠ z) (h : Located (A ++ (some z, b) :: B) k v p) (old : Node) :
    p.takeOut A.length old = p := by
  rcases h with ⟨rfl, _⟩ | ⟨C, D, h, rfl⟩
  · rfl
  · have : C.length ≠ A.length := by
      intro hl
      have h2 := congrArg (fun l => l[A.length]?) h
      rw [getElem?_mid, ← hl, getElem?_mid] at h2
      simp only [Option.some.injEq, Prod.mk.injEq] at h2
      exact hk h2.1.symm
    simp [Place.takeOut, this]

theorem located_self {A B : Tagged} {z : Nat} {b v : Node} {p : Place} (hn : (tags (A ++ (some z, b) :: B)).Nodup) (h : Located (A ++ (some z, b) :: B) z v p) :
    p = .at A.length ∧ v = b := by
  rw [tags_append, tags_cons] at hn
  have hA : z ∉ tags A := fun hm => (List.nodup_append.1 hn).2.2 z hm z (by simp) rfl
  have hB : z ∉ tags B := (List.nodup_cons.1 (List.nodup_append.1 hn).2.1).1
  rcases h with ⟨_, h⟩ | ⟨C, D, h, rfl⟩
  · rw [tags_append, tags_cons] at h; simp at h
  · rcases List.append_eq_append_iff.1 h with ⟨E, rfl, h2⟩ | ⟨E, rfl, h2⟩
    · cases E with
      | nil =>
        simp only [List.nil_append, List.cons.injEq, Prod.mk.injEq] at h2
        exact ⟨by simp, h2.1.2.symm⟩
      | cons x E =>
        simp only [List.cons_append, List.cons.injEq] at h2
        obtain ⟨rfl, rfl⟩ := h2
        exact absurd (mem_tags.2 ⟨v, by simp⟩) hB
    · cases E with
      | nil =>
        simp only [List.nil_append, List.cons.injEq, Prod.mk.injEq] at h2
        exact ⟨by simp, h2.1.2⟩
      | cons x E =>
        simp only [List.cons_append, List.cons.injEq] at h2
        obtain ⟨rfl, rfl⟩ := h2
        exact absurd (mem_tags.2 ⟨v, by simp⟩) hA

/-- The children of `n` are tagged, members and no others, no number twice; and `pl` tells where the objects are. -/
structure Tagging (q : QName) (ps : List Pred) (val : Nat → Node) (pl : List Place) (T : Tagged) (n : Node) : Prop where
  children : T.map (·.2) = n.children
  tag : ∀ x ∈ T, x.1.isSome = isMember q ps x.2
  nodup : (tags T).Nodup
  place : ∀ k p, pl[k]? = some p → Located T k (val k) p
  member : ∀ k, k < pl.length → isMember q ps (val k) = true

theorem others_tagged {q : QName} {ps : List Pred} {T : Tagged} (h : ∀ x ∈ T, x.1.isSome = isMember q ps x.2) (n : Node) :
    others q ps (n.withChildren (T.map (·.2))) = (T.filter (fun x => x.1.isNone)).map (·.2) := by
  simp only [others, Node.withChildren_children, List.filter_map]
  congr 1
  apply List.filter_congr
  intro x hx
  have := h x hx
  cases h1 : x.1 <;> rw [h1] at this <;> simp at this <;> simp [← this]

/-- Only members differ if the others, in order, are the same. -/
theorem same_tagged {q : QName} {ps : List Pred} {T T' : Tagged} {n : Node} (hc : T.map (·.2) = n.children) (h : ∀ x ∈ T, x.1.isSome = isMember q ps x.2)
    (h' : ∀ x ∈ T', x.1.isSome = isMember q ps x.2) (ho : T'.filter (fun x => x.1.isNone) = T.filter (fun x => x.1.isNone)) :
    SameButMembers q ps n (n.withChildren (T'.map (·.2))) := by
  have h1 := others_tagged h n
  have h2 : n.withChildren (T.map (·.2)) = n := by rw [hc]; exact Node.withChildren_self n
  rw [h2] at h1
  refine ⟨by simp, by simp, by simp, by simp, ?_⟩
  rw [others_tagged h', ho, h1]

theorem takenOff_id {k : Nat} {l : List Nat} (h : k ∉ l) : takenOff k l = l := by
  unfold takenOff
  rw [List.filter_eq_self]
  intro j hj
  simp only [ne_eq, decide_not, Bool.not_eq_eq_eq_not, Bool.not_true, decide_eq_false_iff_not]
  exact fun e => h (e ▸ hj)

theorem takenOff_append (k : Nat) (l l' : List Nat) : takenOff k (l ++ l') = takenOff k l ++ takenOff k l' := List.filter_append _ _
theorem takenOff_self (k : Nat) (l : List Nat) : takenOff k (k :: l) = takenOff k l := by simp [takenOff]

/-- Replacing a child of the element at `a` by another one. -/
theorem storeNode_own {a : Node.Addr} {s n : Node} (hs : s.get a = some n) {C D : List Node} {m v : Node} (hc : n.children = C ++ m :: D) {i : Nat}
    (hv : (C ++ m :: D)[i]? = some v) (hi : i ≠ C.length) :
    storeNode (.elem (a ++ [C.length])) (.own (a ++ [i])) s = (.ok (), s.modify a (fun _ => n.withChildren ((C ++ v :: D).eraseIdx i))) := by
  have hget : s.get (a ++ [i]) = some v := by
    rw [Node.get_append, hs]
    simp [Node.get_cons, hc, hv, Node.get]
  simp only [storeNode]
  rw [if_neg (by simp), bind_ok (nodeAt_run hget), if_neg, if_neg, if_neg]
  · rw [bind_ok (show edit (a ++ [C.length]) (fun _ => v) s = (.ok (), s.modify (a ++ [C.length]) (fun _ => v)) from rfl), modify_at_mid hs hc]
    simp only [List.dropLast_concat, List.getLast?_append, List.getLast?_singleton, Option.some_or, Option.getD_some, edit, Node.modify_modify]
    refine congrArg (Prod.mk _) (Node.modify_congr hs ?_)
    simp [Node.removeChild]
  · intro h
    have := h.eq_of_length (by simp)
    simp at this
    omega
  · intro h
    simp at h
    omega
  · intro h
    have := h.length_le
    simp at this

theorem map_eraseIdx' {α β} (f : α → β) : ∀ (l : List α) (i : Nat), (l.eraseIdx i).map f = (l.map f).eraseIdx i
  | [], _ => rfl
  | _ :: _, 0 => rfl
  | x :: l, i + 1 => by simp [map_eraseIdx' f l i]

theorem map_snd_get {T : Tagged} {i : Nat} : (T.map (·.2))[i]? = (T[i]?).map (·.2) := List.getElem?_map ..

/-- Changes of a tagging behind a replacement. -/
theorem place_set {pl : List Place} {f g : Place → Place} {k : Nat} {p0 : Place} {P : Nat → Place → Prop} (hk : P k (g p0))
    (ho : ∀ j p, j ≠ k → pl[j]? = some p → P j (g (f p))) : ∀ j p, (((pl.map f).set k p0).map g)[j]? = some p → P j p := by
  intro j p h
  rw [List.getElem?_map, List.getElem?_set] at h
  by_cases hj : k = j
  · subst hj
    by_cases hl : k < (pl.map f).length
    · simp only [hl, if_true, Option.map_some, Option.some.injEq] at h
      exact h ▸ hk
    · rw [if_pos rfl, if_neg hl] at h; cases h
  · simp only [if_neg hj, List.getElem?_map, Option.map_map, Option.map_eq_some_iff, Function.comp] at h
    obtain ⟨p', h1, rfl⟩ := h
    exact ho j p' (Ne.symm hj) h1

theorem replaceBy_run {q : QName} {ps : List Pred} {val : Nat → Node} {pl : List Place} {A B : Tagged} {j : Nat} {m n : Node}
    (hT : Tagging q ps val pl (A ++ (some j, m) :: B) n) {k : Nat} (hk : k < pl.length) {a : Node.Addr} {s : Node} (hs : s.get a = some n) :
    ∃ pl' T' n', replaceBy a A.length k pl s = (.ok pl', s.modify a (fun _ => n')) ∧ pl'.length = pl.length ∧ Tagging q ps val pl' T' n' ∧
      tags T' = takenOff k (tags A) ++ k :: takenOff k (tags B) ∧ SameButMembers q ps n n' := by
  have hc : n.children = A.map (·.2) ++ m :: B.map (·.2) := by rw [← hT.children]; simp
  have hget : s.get (a ++ [A.length]) = some m := by
    have := get_mid hs hc
    rwa [List.length_map] at this
  have hmk := hT.member k hk
  obtain ⟨p, hp⟩ : ∃ p, pl[k]? = some p := ⟨pl[k], by simp [hk]⟩
  have hloc := hT.place k p hp
  have hnd := hT.nodup
  unfold replaceBy
  rw [bind_ok (nodeAt_run hget), hp]
  by_cases hjk : k = j
  · -- an element replaces itself
    subst hjk
    obtain ⟨rfl, hv⟩ := located_self hnd hloc
    refine ⟨pl, _, n, ?_, rfl, hT, ?_, same_refl n⟩
    · show (do storeNode (.elem (a ++ [A.length])) (.own (a ++ [A.length])); if A.length = A.length then pure pl else _) s = _
      rw [bind_ok (show storeNode (.elem (a ++ [A.length])) (.own (a ++ [A.length])) s = (.ok (), s) from ?_), if_pos rfl, pure_run, Node.modify_id hs rfl]
      simp only [storeNode]
      rw [if_neg (by simp), bind_ok (nodeAt_run hget), if_neg (fun h => by have := h.length_le; simp at this), if_pos trivial]
      rfl
    · rw [tags_append, tags_cons] at hnd
      have hA : k ∉ tags A := fun hm => (List.nodup_append.1 hnd).2.2 k hm k (by simp) rfl
      have hB : k ∉ tags B := (List.nodup_cons.1 (List.nodup_append.1 hnd).2.1).1
      rw [tags_append, tags_cons, takenOff_id hA, takenOff_id hB]
  · have hnd2 := hnd
    rw [tags_append, tags_cons] at hnd2
    have hjA : j ∉ tags A := fun hm => (List.nodup_append.1 hnd2).2.2 j hm j (by simp) rfl
    have hjB : j ∉ tags B := (List.nodup_cons.1 (List.nodup_append.1 hnd2).2.1).1
    rcases hloc with ⟨rfl, hno⟩ | ⟨C, D, hCD, rfl⟩
    · -- from outside
      rw [tags_append, tags_cons] at hno
      simp only [List.mem_append, List.mem_cons, not_or] at hno
      have htag : ∀ x ∈ A ++ (some k, val k) :: B, x.1.isSome = isMember q ps x.2 := by
        intro x hx
        simp only [List.mem_append, List.mem_cons] at hx
        rcases hx with hx | rfl | hx
        · exact hT.tag x (by simp [hx])
        · simp [hmk]
        · exact hT.tag x (by simp [hx])
      refine ⟨((pl.map (Place.takeOut A.length m)).set k (.at A.length)).map id, A ++ (some k, val k) :: B, n.withChildren ((A ++ (some k, val k) :: B).map (·.2)), ?_, by simp,
        ⟨by simp, htag, ?_, ?_, by simpa using hT.member⟩, ?_, ?_⟩
      · simp only [List.map_id]
        rw [bind_ok (show storeNode (.elem (a ++ [A.length])) (.foreign (val k)) s = (.ok (), s.modify (a ++ [A.length]) (fun _ => val k)) from ?_), pure_run]
        · have := modify_at_mid hs hc (fun _ => val k)
          rw [List.length_map] at this
          rw [this]; simp
        · simp only [storeNode]; rw [if_neg (by simp)]; rfl
      · rw [tags_append, tags_cons]
        rw [List.nodup_append, List.nodup_cons] at hnd2 ⊢
        refine ⟨hnd2.1, ⟨hno.2.2, hnd2.2.1.2⟩, ?_⟩
        intro x hx y hy e
        subst e
        rcases List.mem_cons.1 hy with rfl | hy
        · exact hno.1 hx
        · exact hnd2.2.2 x hx x (List.mem_cons_of_mem _ hy) rfl
      · refine place_set (P := fun k p => Located (A ++ (some _, val _) :: B) k (val k) p) (Or.inr ⟨A, B, rfl, rfl⟩) ?_
        intro i p hi hpi
        have hl := hT.place i p hpi
        by_cases hij : i = j
        · subst hij
          obtain ⟨rfl, rfl⟩ := located_self hnd hl
          simp only [id, Place.takeOut, if_true]
          refine Or.inl ⟨rfl, ?_⟩
          rw [tags_append, tags_cons]
          simp [hjA, hjB, hi]
        · simp only [id]
          rw [located_ne hij hl]
          exact located_retag hij hi hl
      · rw [tags_append, tags_cons, takenOff_id hno.1, takenOff_id hno.2.2]
      · refine same_tagged hT.children hT.tag htag ?_
        simp
    · -- it is in the list
      have hCl : C.length ≠ A.length := by
        intro hl
        have h2 := congrArg (fun l => l[A.length]?) hCD
        rw [getElem?_mid, ← hl, getElem?_mid] at h2
        simp only [Option.some.injEq, Prod.mk.injEq] at h2
        exact hjk h2.1.symm
      obtain ⟨A1, B1, h1, h2, h3, h4, h5, h6⟩ : ∃ A1 B1, C ++ D = A1 ++ (some j, m) :: B1 ∧ Place.closeGap C.length (.at A.length) = .at A1.length ∧
          tags A1 = takenOff k (tags A) ∧ tags B1 = takenOff k (tags B) ∧
          (A ++ (some k, val k) :: B).eraseIdx C.length = A1 ++ (some k, val k) :: B1 ∧
          (A1 ++ (some k, val k) :: B1).filter (fun x => x.1.isNone) = (A ++ (some j, m) :: B).filter (fun x => x.1.isNone) := by
        rcases List.append_eq_append_iff.1 hCD with ⟨E, rfl, h2⟩ | ⟨E, rfl, h2⟩
        · cases E with
          | nil => simp at hCl
          | cons x E =>
            simp only [List.cons_append, List.cons.injEq] at h2
            obtain ⟨rfl, rfl⟩ := h2
            rw [tags_append, tags_cons] at hnd2
            have hkA : k ∉ tags A := fun hm => (List.nodup_append.1 hnd2).2.2 k hm k (by simp) rfl
            have hnB := (List.nodup_cons.1 (List.nodup_append.1 hnd2).2.1).2
            have hkE : k ∉ tags E := fun hm => (List.nodup_append.1 hnB).2.2 k hm k (by simp) rfl
            have hkD : k ∉ tags D := (List.nodup_cons.1 (List.nodup_append.1 hnB).2.1).1
            refine ⟨A, E ++ D, by simp, ?_, (takenOff_id hkA).symm, ?_, ?_, by simp⟩
            · simp [Place.closeGap]
            · rw [tags_append, tags_append, tags_cons, takenOff_append, takenOff_self, takenOff_id hkE, takenOff_id hkD]
            · rw [show A ++ (some k, val k) :: (E ++ (some k, val k) :: D) = (A ++ (some k, val k) :: E) ++ (some k, val k) :: D by simp,
                show (A ++ (some j, m) :: E).length = (A ++ (some k, val k) :: E).length by simp, eraseIdx_mid]
              simp
        · cases E with
          | nil => simp at hCl
          | cons x E =>
            simp only [List.cons_append, List.cons.injEq] at h2
            obtain ⟨rfl, rfl⟩ := h2
            rw [tags_append, tags_cons] at hnd2
            have hkB : k ∉ tags B := fun hm => (List.nodup_append.1 hnd2).2.2 k (by simp) k (by simp [hm]) rfl
            have hnA := (List.nodup_append.1 hnd2).1
            have hkC : k ∉ tags C := fun hm => (List.nodup_append.1 hnA).2.2 k hm k (by simp) rfl
            have hkE : k ∉ tags E := (List.nodup_cons.1 (List.nodup_append.1 hnA).2.1).1
            refine ⟨C ++ E, B, by simp, ?_, ?_, (takenOff_id hkB).symm, ?_, by simp⟩
            · simp [Place.closeGap]
            · rw [tags_append, tags_append, tags_cons, takenOff_append, takenOff_self, takenOff_id hkC, takenOff_id hkE]
            · rw [List.append_assoc, List.cons_append, eraseIdx_mid]
              simp
      have htag : ∀ x ∈ A1 ++ (some k, val k) :: B1, x.1.isSome = isMember q ps x.2 := by
        intro x hx
        have hsub : ∀ x, x ∈ C ++ D → x ∈ A ++ (some j, m) :: B := by
          intro x hx
          rw [hCD]
          simp only [List.mem_append, List.mem_cons] at hx ⊢
          tauto
        simp only [List.mem_append, List.mem_cons] at hx
        rcases hx with hx | rfl | hx
        · exact hT.tag x (hsub x (by rw [h1]; simp [hx]))
        · simp [hmk]
        · exact hT.tag x (hsub x (by rw [h1]; simp [hx]))
      refine ⟨((pl.map (Place.takeOut A.length m)).set k (.at A.length)).map (Place.closeGap C.length), A1 ++ (some k, val k) :: B1,
        n.withChildren ((A1 ++ (some k, val k) :: B1).map (·.2)), ?_, by simp, ⟨by simp, htag, ?_, ?_, by simpa using hT.member⟩, ?_, ?_⟩
      · have hv : (A.map (·.2) ++ m :: B.map (·.2))[C.length]? = some (val k) := by
          rw [← hc, ← hT.children, hCD]; simp
        have hst := storeNode_own (i := C.length) hs hc hv (by simpa using hCl)
        rw [List.length_map] at hst
        simp only []
        rw [bind_ok hst, if_neg hCl, pure_run, ← h5]
        simp [map_eraseIdx']
      · rw [tags_append, tags_cons, h3, h4]
        rw [List.nodup_append, List.nodup_cons] at hnd2 ⊢
        refine ⟨hnd2.1.filter _, ⟨by simp [takenOff], hnd2.2.1.2.filter _⟩, ?_⟩
        intro x hx y hy e
        subst e
        rcases List.mem_cons.1 hy with rfl | hy
        · simp [takenOff] at hx
        · exact hnd2.2.2 x (List.mem_filter.1 hx).1 x (List.mem_cons_of_mem _ (List.mem_filter.1 hy).1) rfl
      · refine place_set (P := fun k p => Located (A1 ++ (some _, val _) :: B1) k (val k) p) (Or.inr ⟨A1, B1, rfl, h2⟩) ?_
        intro i p hi hpi
        have hl := hT.place i p hpi
        by_cases hij : i = j
        · subst hij
          obtain ⟨rfl, rfl⟩ := located_self hnd hl
          simp only [Place.takeOut, if_true, Place.closeGap]
          refine Or.inl ⟨rfl, ?_⟩
          rw [tags_append, tags_cons, h3, h4]
          simp [takenOff, hjA, hjB, hi]
        · rw [located_ne hij hl]
          rw [hCD] at hl
          have := located_erase hi hl
          rw [h1] at this
          exact located_retag hij hi this
      · rw [tags_append, tags_cons, h3, h4]
      · exact same_tagged hT.children hT.tag htag h6

theorem tags_length {q : QName} {ps : List Pred} : ∀ {T : Tagged}, (∀ x ∈ T, x.1.isSome = isMember q ps x.2) →
    (tags T).length = ((T.map (·.2)).filter (isMember q ps)).length
  | [], _ => rfl
  | (none, m) :: T, h => by
    have h1 := h _ (List.mem_cons_self ..)
    have := tags_length (T := T) (fun x hx => h x (List.mem_cons_of_mem _ hx))
    simp only [Option.isSome_none] at h1
    simpa [tags, ← h1] using this
  | (some k, m) :: T, h => by
    have h1 := h _ (List.mem_cons_self ..)
    have := tags_length (T := T) (fun x hx => h x (List.mem_cons_of_mem _ hx))
    simp only [Option.isSome_some] at h1
    simpa [tags, ← h1] using this

/-- The owner's element holds the elements of the objects `order`, in this order. -/
def Shelved (q : QName) (ps : List Pred) (val : Nat → Node) (pl : List Place) (order : List Nat) (n : Node) : Prop :=
  ∃ T, Tagging q ps val pl T n ∧ tags T = order ∧ ∀ k ∈ order, k < pl.length

section
variable {q : QName} {ps : List Pred} {val : Nat → Node} {pl : List Place}

/-- The member at position `t`. -/
theorem tagged_at {T : Tagged} {n : Node} (h : Tagging q ps val pl T n) {t : Nat} (ht : t < (tags T).length) :
    ∃ A j m B, T = A ++ (some j, m) :: B ∧ (tags A).length = t ∧ (idxs (isMember q ps) n.children)[t]? = some A.length := by
  have hlen : (idxs (isMember q ps) n.children).length = (tags T).length := by
    rw [idxs_length, ← h.children, tags_length h.tag]
  obtain ⟨C, m, D, h1, h2, h3, h4⟩ := idxs_get (List.getElem?_eq_getElem (l := idxs (isMember q ps) n.children) (i := t) (by omega))
  have hT := h.children
  rw [h1] at hT
  obtain ⟨A, X, hAX, hA, hX⟩ := List.map_eq_append_iff.1 hT
  obtain ⟨x, B, rfl, hx, hB⟩ := List.map_eq_cons_iff.1 hX
  have htag := h.tag x (by rw [hAX]; simp)
  rw [hx, h3] at htag
  obtain ⟨j, hj⟩ := Option.isSome_iff_exists.1 htag
  obtain ⟨x1, x2⟩ := x
  simp only at hj hx
  subst hj hx
  refine ⟨A, j, x2, B, hAX, ?_, ?_⟩
  · rw [tags_length (fun x hx => h.tag x (by rw [hAX]; simp [hx])), hA, h4]
  · rw [List.getElem?_eq_getElem (by omega), ← h2, ← hA]; simp

theorem shelved_members {order : List Nat} {n : Node} (h : Shelved q ps val pl order n) : members q ps n = order.map val := by
  obtain ⟨T, hT, rfl, hlt⟩ := h
  have key : ∀ U : Tagged, (∀ x ∈ U, x ∈ T) → (U.map (·.2)).filter (isMember q ps) = (tags U).map val := by
    intro U
    induction U with
    | nil => intro _; rfl
    | cons x U ih =>
      intro hU
      have h1 := hT.tag x (hU x (by simp))
      have h2 := ih (fun y hy => hU y (by simp [hy]))
      obtain ⟨o, m⟩ := x
      cases o with
      | none =>
        simp only [Option.isSome_none] at h1
        simp [tags, ← h1] at h2 ⊢
        exact h2
      | some k =>
        simp only [Option.isSome_some] at h1
        have hk : m = val k := by
          have hmem : k ∈ tags T := mem_tags.2 ⟨m, hU _ (by simp)⟩
          obtain ⟨p, hp⟩ : ∃ p, pl[k]? = some p := ⟨pl[k]'(hlt k hmem), by simp [hlt k hmem]⟩
          have hl := hT.place k p hp
          obtain ⟨A, B, rfl⟩ := List.append_of_mem (hU _ (List.mem_cons_self ..))
          exact (located_self hT.nodup hl).2.symm
        rw [List.map_cons, List.filter_cons, if_pos (by simp [← h1]), h2, tags_cons, List.map_cons, hk]
  rw [show members q ps n = n.children.filter (isMember q ps) from rfl, ← hT.children]
  exact key T (fun _ h => h)

theorem positionOf_run (a : Node.Addr) (p : Nat) (s : Node) : positionOf (.elem (a ++ [p])) s = (.ok p, s) := by
  simp [positionOf, pure_run]

/-- A new element among the children. -/
theorem tagging_insert {A B : Tagged} {n : Node} (h : Tagging q ps val pl (A ++ B) n) (hlt : ∀ k ∈ tags (A ++ B), k < pl.length) {b : Node}
    (hb : isMember q ps b = true) :
    Tagging q ps val (pl.map (Place.shiftIn A.length)) (A ++ (some pl.length, b) :: B) (n.withChildren (A.map (·.2) ++ b :: B.map (·.2))) where
  children := by simp
  tag := by
    intro x hx
    simp only [List.mem_append, List.mem_cons] at hx
    rcases hx with hx | rfl | hx
    · exact h.tag x (by simp [hx])
    · simp [hb]
    · exact h.tag x (by simp [hx])
  nodup := by
    have hn := h.nodup
    rw [tags_append] at hn hlt
    rw [tags_append, tags_cons]
    rw [List.nodup_append] at hn
    rw [List.nodup_append, List.nodup_cons]
    refine ⟨hn.1, ⟨fun hm => absurd (hlt pl.length (by simp [hm])) (by omega), hn.2.1⟩, ?_⟩
    intro x hx y hy e
    subst e
    rcases List.mem_cons.1 hy with rfl | hy
    · exact absurd (hlt pl.length (by simp [hx])) (by omega)
    · exact hn.2.2 x hx x hy rfl
  place := by
    intro k p hp
    rw [List.getElem?_map, Option.map_eq_some_iff] at hp
    obtain ⟨p', hp', rfl⟩ := hp
    refine located_insert ?_ (h.place k p' hp')
    have := (List.getElem?_eq_some_iff.1 hp').1
    omega
  member := by simpa using h.member

section ops
variable [PyUnicode] {eng : Engine} {ctx : Ctx} {xp : Str} {ax : Option Str} {t : NodeTest} {es : List Expr}
variable (heng : EngineOk eng) (hp : parse0 xp = .ok (.step ax t es)) (hr : res ctx (.step ax t es) = some ([.child q ps], none)) (hok : okAll ps = true)
include heng hp hr

/-- The effect of an operation: it puts the elements in the order `order'`, and changes nothing but the members of the list. -/
def Put (q : QName) (ps : List Pred) (val : Nat → Node) (a : Node.Addr) (s n : Node) (len : Nat) (r : Except PyErr (List Place) × Node) (order' : List Nat) : Prop :=
  ∃ pl' n', r = (.ok pl', s.modify a (fun _ => n')) ∧ pl'.length = len ∧ Shelved q ps val pl' order' n' ∧ SameButMembers q ps n n'

theorem lenObj_run {a : Node.Addr} {s n : Node} (hs : s.get a = some n) {T : Tagged} (hT : Tagging q ps val pl T n) :
    lenObj eng ctx xp a s = (.ok (tags T).length, s) := by
  unfold lenObj
  rw [bind_ok (listMatches_run heng hp hr hs), pure_run, List.length_map, idxs_length, ← hT.children, tags_length hT.tag]

theorem setObj_at {a : Node.Addr} {s n : Node} (hs : s.get a = some n) {T : Tagged} (hT : Tagging q ps val pl T n) {key : Int} {i : Nat}
    (hi : pos (tags T).length key = some i) {k : Nat} (hk : k < pl.length) :
    ∃ pl' T' n', setObj eng ctx xp (.step ax t es) a key k pl s = (.ok pl', s.modify a (fun _ => n')) ∧ pl'.length = pl.length ∧ Tagging q ps val pl' T' n' ∧
      tags T' = takenOff k ((tags T).take i) ++ k :: takenOff k ((tags T).drop (i + 1)) ∧ SameButMembers q ps n n' := by
  obtain ⟨A, j, m, B, rfl, hA, hidx⟩ := tagged_at hT (pos_lt hi)
  have hlen : ((idxs (isMember q ps) n.children).map (fun i => Ref.elem (a ++ [i]))).length = (tags (A ++ (some j, m) :: B)).length := by
    rw [List.length_map, idxs_length, ← hT.children, tags_length hT.tag]
  obtain ⟨pl', T', n', h1, h2, h3, h4, h5⟩ := replaceBy_run hT hk hs
  refine ⟨pl', T', n', ?_, h2, h3, ?_, h5⟩
  · unfold setObj
    rw [bind_ok (listMatches_run heng hp hr hs), hlen, if_neg (by unfold pos at hi; split_ifs at hi <;> omega),
      if_neg (by unfold pos at hi; split_ifs at hi <;> omega), pyGet_pos, hlen, hi]
    simp only [List.getElem?_map, hidx, Option.map_some]
    rw [bind_ok (ofExcept_run _ _), bind_ok (positionOf_run _ _ _), h1]
  · rw [h4, tags_append, tags_cons, ← hA, List.take_left, ← List.drop_drop, List.drop_left]
    simp

include hok

theorem setObj_end {a : Node.Addr} {s n : Node} (hs : s.get a = some n) {order : List Nat} (h : Shelved q ps val pl order n) {k : Nat} (hk : k < pl.length) :
    Put q ps val a s n pl.length (setObj eng ctx xp (.step ax t es) a order.length k pl s) (takenOff k order ++ [k]) := by
  obtain ⟨T, hT, rfl, hlt⟩ := h
  have hlen : ((idxs (isMember q ps) n.children).map (fun i => Ref.elem (a ++ [i]))).length = (tags T).length := by
    rw [List.length_map, idxs_length, ← hT.children, tags_length hT.tag]
  have hnew : isMember q ps (newElem q ps) = true := by
    simp [isMember, newElem_isElem, newElem_sat hok]
  have key : ∀ A B : Tagged, T = A ++ B → tags B = [] → 
      (do let idx ← appendIndex ((idxs (isMember q ps) n.children).map (fun i => Ref.elem (a ++ [i]))); createNode eng ctx (.step ax t es) (.elem a) idx) s
        = (.ok (.elem (a ++ [A.length])), s.modify a (fun _ => n.withChildren (A.map (·.2) ++ newElem q ps :: B.map (·.2)))) →
      Put q ps val a s n pl.length (setObj eng ctx xp (.step ax t es) a (tags T).length k pl s) (takenOff k (tags T) ++ [k]) := by
    intro A B hAB hB hcr
    subst hAB
    have hT' := tagging_insert hT hlt hnew
    have hs' : (s.modify a (fun _ => n.withChildren (A.map (·.2) ++ newElem q ps :: B.map (·.2)))).get a
        = some (n.withChildren (A.map (·.2) ++ newElem q ps :: B.map (·.2))) := by
      rw [Node.get_modify, hs]; rfl
    obtain ⟨pl', T', n', h1, h2, h3, h4, h5⟩ := replaceBy_run hT' (k := k) (by simpa using hk) hs'
    rw [Node.modify_modify] at h1
    refine ⟨pl', n', ?_, by simpa using h2, ⟨T', h3, ?_, ?_⟩, same_trans ?_ h5⟩
    · unfold setObj
      rw [bind_ok (listMatches_run heng hp hr hs), hlen, if_pos rfl, ← bind_assoc', bind_ok hcr, bind_ok (positionOf_run _ _ _), h1]
      rfl
    · rw [h4, tags_append, hB]; simp [takenOff]
    · intro j hj
      rw [h2, List.length_map]
      simp only [List.mem_append, List.mem_singleton] at hj
      rcases hj with hj | rfl
      · exact hlt j (List.mem_filter.1 hj).1
      · exact hk
    · have := same_tagged (q := q) (ps := ps) hT.children hT.tag hT'.tag (by simp)
      simpa using this
  have hid : (idxs (isMember q ps) n.children).length = (tags T).length := by rw [idxs_length, ← hT.children, tags_length hT.tag]
  rcases Nat.eq_zero_or_pos (tags T).length with h0 | h0
  · refine key T [] (by simp) rfl ?_
    have h1 : idxs (isMember q ps) n.children = [] := List.length_eq_zero_iff.1 (hid.trans h0)
    rw [h1, bind_ok (show appendIndex (List.map (fun i => Ref.elem (a ++ [i])) []) s = (.ok none, s) from rfl), createNode_end hr hok hs, ← hT.children]
    simp
  · obtain ⟨A, j, m, B, rfl, hA, hidx⟩ := tagged_at hT (t := (tags T).length - 1) (by omega)
    refine key (A ++ [(some j, m)]) B (by simp) ?_ ?_
    · rw [tags_append, tags_cons] at hA
      simp only [List.length_append, List.length_cons] at hA
      exact List.length_eq_zero_iff.1 (by omega)
    · have hgl : ((idxs (isMember q ps) n.children).map (fun i => Ref.elem (a ++ [i]))).getLast? = some (.elem (a ++ [A.length])) := by
        rw [List.getLast?_eq_getElem?, hlen, List.getElem?_map, hidx]; rfl
      have happ : appendIndex ((idxs (isMember q ps) n.children).map (fun i => Ref.elem (a ++ [i]))) s = (.ok (some ((A ++ [(some j, m)]).map (·.2)).length), s) := by
        unfold appendIndex
        rw [hgl]
        simp only
        rw [bind_ok (positionOf_run _ _ _), pure_run]
        simp
      rw [bind_ok happ, createNode_at hr hok hs (A := (A ++ [(some j, m)]).map (·.2)) (B := B.map (·.2)) (by rw [← hT.children]; simp)]
      simp

/-- `obj.field[key] = object`. -/
theorem setObj_run {a : Node.Addr} {s n : Node} (hs : s.get a = some n) {order : List Nat} (h : Shelved q ps val pl order n) {key : Int} {i : Nat}
    (hi : pos order.length key = some i) {k : Nat} (hk : k < pl.length) :
    Put q ps val a s n pl.length (setObj eng ctx xp (.step ax t es) a key k pl s) (takenOff k (order.take i) ++ k :: takenOff k (order.drop (i + 1))) := by
  obtain ⟨T, hT, rfl, hlt⟩ := h
  obtain ⟨pl', T', n', h1, h2, h3, h4, h5⟩ := setObj_at heng hp hr hs hT hi hk
  refine ⟨pl', n', h1, h2, ⟨T', h3, h4, ?_⟩, h5⟩
  intro j hj
  rw [h2]
  simp only [List.mem_append, List.mem_cons] at hj
  rcases hj with hj | rfl | hj
  · exact hlt j (List.mem_of_mem_take (List.mem_filter.1 hj).1)
  · exact hk
  · exact hlt j (List.mem_of_mem_drop (List.mem_filter.1 hj).1)

omit hok in
theorem setObj_err {a : Node.Addr} {s n : Node} (hs : s.get a = some n) {order : List Nat} (h : Shelved q ps val pl order n) {key : Int}
    (hi : pos order.length key = none) (hl : key ≠ order.length) (k : Nat) : setObj eng ctx xp (.step ax t es) a key k pl s = (.error .indexError, s) := by
  obtain ⟨T, hT, rfl, hlt⟩ := h
  have hlen : ((idxs (isMember q ps) n.children).map (fun i => Ref.elem (a ++ [i]))).length = (tags T).length := by
    rw [List.length_map, idxs_length, ← hT.children, tags_length hT.tag]
  unfold setObj
  rw [bind_ok (listMatches_run heng hp hr hs), hlen, if_neg hl]
  by_cases hg : key > (tags T).length
  · rw [if_pos hg]; rfl
  · rw [if_neg hg, pyGet_pos, hlen, hi]
    exact bind_err (ofExcept_err _ _)

theorem appendObj_run {a : Node.Addr} {s n : Node} (hs : s.get a = some n) {order : List Nat} (h : Shelved q ps val pl order n) {k : Nat} (hk : k < pl.length) :
    Put q ps val a s n pl.length (appendObj eng ctx xp (.step ax t es) a k pl s) (takenOff k order ++ [k]) := by
  have := setObj_end heng hp hr hok hs h hk
  obtain ⟨T, hT, rfl, hlt⟩ := h
  unfold appendObj
  rw [bind_ok (lenObj_run heng hp hr hs hT)]
  exact this

theorem extendObj_run : ∀ (ks : List Nat) {pl : List Place} {a : Node.Addr} {s n : Node}, s.get a = some n → ∀ {order : List Nat}, Shelved q ps val pl order n →
    (∀ k ∈ ks, k < pl.length) →
    Put q ps val a s n pl.length (extendObj eng ctx xp (.step ax t es) a ks pl s) (ks.foldl (fun l k => takenOff k l ++ [k]) order)
  | [], pl, a, s, n, hs, order, h, _ => ⟨pl, n, by rw [Node.modify_id hs rfl]; rfl, rfl, h, same_refl n⟩
  | k :: ks, pl, a, s, n, hs, order, h, hk => by
    obtain ⟨pl1, n1, h1, h2, h3, h4⟩ := appendObj_run heng hp hr hok hs h (hk k (by simp))
    obtain ⟨pl2, n2, h5, h6, h7, h8⟩ := extendObj_run ks (pl := pl1) (n := n1) (s := s.modify a (fun _ => n1)) (by rw [Node.get_modify, hs]; rfl) h3
      (fun j hj => by rw [h2]; exact hk j (by simp [hj]))
    refine ⟨pl2, n2, ?_, h6.trans h2, h7, same_trans h4 h8⟩
    unfold extendObj
    rw [bind_ok h1, h5, Node.modify_modify]
    rfl

theorem insertObj_run {a : Node.Addr} {s n : Node} (hs : s.get a = some n) {order : List Nat} (h : Shelved q ps val pl order n) {i : Nat} (hi : i ≤ order.length)
    {k : Nat} (hk : k < pl.length) :
    Put q ps val a s n pl.length (insertObj eng ctx xp (.step ax t es) a i k pl s) (takenOff k (order.take i) ++ k :: takenOff k (order.drop i)) := by
  have happ := appendObj_run heng hp hr hok hs h hk
  obtain ⟨T, hT, rfl, hlt⟩ := h
  have hlen : ((idxs (isMember q ps) n.children).map (fun i => Ref.elem (a ++ [i]))).length = (tags T).length := by
    rw [List.length_map, idxs_length, ← hT.children, tags_length hT.tag]
  unfold insertObj
  rw [bind_ok (lenObj_run heng hp hr hs hT)]
  by_cases he : i = (tags T).length
  · rw [if_pos (by exact_mod_cast he), he]
    simpa [takenOff] using happ
  · rw [if_neg (by exact_mod_cast he), bind_ok (listMatches_run heng hp hr hs), hlen, if_pos (by omega), pyGet_pos, hlen,
      show pos (tags T).length (i : Int) = some i by unfold pos; rw [if_pos (by omega)]; simp]
    obtain ⟨A, j, m, B, rfl, hA, hidx⟩ := tagged_at hT (t := i) (by omega)
    simp only [List.getElem?_map, hidx, Option.map_some]
    have hnew : isMember q ps (newElem q ps) = true := by simp [isMember, newElem_isElem, newElem_sat hok]
    have hT' := tagging_insert hT hlt hnew
    have hs' : (s.modify a (fun _ => n.withChildren (A.map (·.2) ++ newElem q ps :: ((some j, m) :: B).map (·.2)))).get a
        = some (n.withChildren (A.map (·.2) ++ newElem q ps :: ((some j, m) :: B).map (·.2))) := by
      rw [Node.get_modify, hs]; rfl
    have hcr := createNode_at (eng := eng) hr hok hs (A := A.map (·.2)) (B := ((some j, m) :: B).map (·.2)) (by rw [← hT.children]; simp)
    rw [List.length_map] at hcr
    have htg : tags (A ++ (some pl.length, newElem q ps) :: (some j, m) :: B) = tags A ++ pl.length :: j :: tags B := by
      rw [tags_append, tags_cons, tags_cons]
    obtain ⟨pl', T', n', h1, h2, h3, h4, h5⟩ := setObj_at heng hp hr hs' hT' (key := i) (i := i)
      (by unfold pos; rw [if_pos (by rw [htg]; simp; omega)]; simp) (k := k) (by simpa using hk)
    rw [Node.modify_modify] at h1
    have h4' : tags T' = takenOff k ((tags (A ++ (some j, m) :: B)).take i) ++ k :: takenOff k ((tags (A ++ (some j, m) :: B)).drop i) := by
      rw [h4, htg, tags_append, tags_cons, ← hA, List.take_left, List.take_left, ← List.drop_drop, List.drop_left, List.drop_left]
      rfl
    refine ⟨pl', n', ?_, by simpa using h2, ⟨T', h3, h4', ?_⟩, same_trans ?_ h5⟩
    · rw [bind_ok (ofExcept_run _ _), bind_ok (positionOf_run _ _ _), bind_ok hcr, h1]
      rfl
    · intro j' hj
      rw [h2, List.length_map]
      simp only [List.mem_append, List.mem_cons] at hj
      rcases hj with hj | rfl | hj
      · exact hlt j' (List.mem_of_mem_take (List.mem_filter.1 hj).1)
      · exact hk
      · exact hlt j' (List.mem_of_mem_drop (List.mem_filter.1 hj).1)
    · have := same_tagged (q := q) (ps := ps) hT.children hT.tag hT'.tag (by simp)
      simpa using this

omit hok in
theorem insertObj_err {a : Node.Addr} {s n : Node} (hs : s.get a = some n) {order : List Nat} (h : Shelved q ps val pl order n) {i : Nat} (hi : order.length < i)
    (k : Nat) : insertObj eng ctx xp (.step ax t es) a i k pl s = (.error .indexError, s) := by
  obtain ⟨T, hT, rfl, hlt⟩ := h
  have hlen : ((idxs (isMember q ps) n.children).map (fun i => Ref.elem (a ++ [i]))).length = (tags T).length := by
    rw [List.length_map, idxs_length, ← hT.children, tags_length hT.tag]
  unfold insertObj
  rw [bind_ok (lenObj_run heng hp hr hs hT), if_neg (by omega), bind_ok (listMatches_run heng hp hr hs), hlen, if_neg (by omega)]
  rfl

omit hok in
/-- Which object is at a position. -/
theorem getObj_run {a : Node.Addr} {s n : Node} (hs : s.get a = some n) {order : List Nat} (h : Shelved q ps val pl order n) (key : Int) :
    getObj eng ctx xp a key pl s = ((match pos order.length key with | some i => .ok order[i]? | none => .error .indexError), s) := by
  obtain ⟨T, hT, rfl, hlt⟩ := h
  have hlen : ((idxs (isMember q ps) n.children).map (fun i => Ref.elem (a ++ [i]))).length = (tags T).length := by
    rw [List.length_map, idxs_length, ← hT.children, tags_length hT.tag]
  unfold getObj
  rw [bind_ok (listMatches_run heng hp hr hs), pyGet_pos, hlen]
  cases hi : pos (tags T).length key with
  | none => exact bind_err (ofExcept_err _ _)
  | some i =>
    obtain ⟨A, j, m, B, rfl, hA, hidx⟩ := tagged_at hT (pos_lt hi)
    simp only [List.getElem?_map, hidx, Option.map_some]
    rw [bind_ok (ofExcept_run _ _), bind_ok (positionOf_run _ _ _), pure_run]
    congr 2
    have hj : j < pl.length := hlt j (mem_tags.2 ⟨m, by simp⟩)
    have hjp : pl[j] = .at A.length := (located_self hT.nodup (hT.place j _ (List.getElem?_eq_getElem hj))).1
    have hmem : Place.at A.length ∈ pl := hjp ▸ List.getElem_mem hj
    rw [idxOf?_mem hmem, tags_append, tags_cons, ← hA, getElem?_mid]
    congr 1
    have hx := List.idxOf_lt_length_of_mem hmem
    have hg : pl[pl.idxOf (Place.at A.length)] = .at A.length := List.getElem_idxOf hx
    by_contra hne
    have hl := hT.place _ _ (List.getElem?_eq_getElem hx)
    have := located_ne hne hl (val 0)
    rw [hg] at this
    simp [Place.takeOut] at this

omit hok in
theorem delObj_run {a : Node.Addr} {s n : Node} (hs : s.get a = some n) {order : List Nat} (h : Shelved q ps val pl order n) {key : Int} {i : Nat}
    (hi : pos order.length key = some i) : Put q ps val a s n pl.length (delObj eng ctx xp a key pl s) (order.eraseIdx i) := by
  obtain ⟨T, hT, rfl, hlt⟩ := h
  have hlen : ((idxs (isMember q ps) n.children).map (fun i => Ref.elem (a ++ [i]))).length = (tags T).length := by
    rw [List.length_map, idxs_length, ← hT.children, tags_length hT.tag]
  obtain ⟨A, j, m, B, rfl, hA, hidx⟩ := tagged_at hT (pos_lt hi)
  have hc : n.children = A.map (·.2) ++ m :: B.map (·.2) := by rw [← hT.children]; simp
  have hget : s.get (a ++ [A.length]) = some m := by
    have := get_mid hs hc
    rwa [List.length_map] at this
  have hnd := hT.nodup
  have hnd2 := hnd
  rw [tags_append, tags_cons] at hnd2
  have hjA : j ∉ tags A := fun hm => (List.nodup_append.1 hnd2).2.2 j hm j (by simp) rfl
  have hjB : j ∉ tags B := (List.nodup_cons.1 (List.nodup_append.1 hnd2).2.1).1
  have htag : ∀ x ∈ A ++ B, x.1.isSome = isMember q ps x.2 := by
    intro x hx
    refine hT.tag x ?_
    simp only [List.mem_append, List.mem_cons] at hx ⊢
    tauto
  have hto : tags (A ++ B) = (tags (A ++ (some j, m) :: B)).eraseIdx i := by
    rw [tags_append, tags_append, tags_cons, ← hA, eraseIdx_mid]
  refine ⟨(pl.map (Place.takeOut A.length m)).map (Place.closeGap A.length), n.withChildren ((A ++ B).map (·.2)), ?_, by simp,
    ⟨A ++ B, ⟨by simp, htag, ?_, ?_, by simpa using hT.member⟩, hto, ?_⟩, same_tagged hT.children hT.tag htag (by simp)⟩
  · unfold delObj
    rw [bind_ok (listMatches_run heng hp hr hs), hlen, if_neg (by unfold pos at hi; split_ifs at hi <;> omega), pyGet_pos, hlen, hi]
    simp only [List.getElem?_map, hidx, Option.map_some]
    rw [bind_ok (ofExcept_run _ _), bind_ok (positionOf_run _ _ _), bind_ok (nodeAt_run hget)]
    have hrm : removeMatch (.elem (a ++ [A.length])) s = (.ok (), s.modify a (fun _ => n.withChildren ((A ++ B).map (·.2)))) := by
      simp only [removeMatch]
      rw [if_neg (by simp)]
      simp only [List.dropLast_concat, List.getLast?_append, List.getLast?_singleton, Option.some_or, Option.getD_some, edit]
      refine congrArg (Prod.mk _) (Node.modify_congr hs ?_)
      have := eraseIdx_mid (A.map (·.2)) (B.map (·.2)) m
      rw [List.length_map] at this
      simp [Node.removeChild, hc, this]
    rw [bind_ok hrm, pure_run]
  · rw [tags_append]
    rw [List.nodup_append, List.nodup_cons] at hnd2
    rw [List.nodup_append]
    exact ⟨hnd2.1, hnd2.2.1.2, fun x hx y hy => hnd2.2.2 x hx y (by simp [hy])⟩
  · intro k p hkp
    rw [List.getElem?_map, List.getElem?_map, Option.map_map, Option.map_eq_some_iff] at hkp
    obtain ⟨p', hp', rfl⟩ := hkp
    have hl := hT.place k p' hp'
    by_cases hkj : k = j
    · subst hkj
      obtain ⟨rfl, rfl⟩ := located_self hnd hl
      simp only [Function.comp, Place.takeOut, if_true, Place.closeGap]
      exact Or.inl ⟨rfl, by rw [tags_append]; simp [hjA, hjB]⟩
    · simp only [Function.comp]
      rw [located_ne hkj hl]
      exact located_erase hkj hl
  · intro k hk
    rw [List.length_map, List.length_map]
    rw [← hto] at hk
    refine hlt k ?_
    rw [tags_append] at hk
    rw [tags_append, tags_cons]
    simp only [List.mem_append, List.mem_cons] at hk ⊢
    tauto

omit hok in
theorem delObj_err {a : Node.Addr} {s n : Node} (hs : s.get a = some n) {order : List Nat} (h : Shelved q ps val pl order n) {key : Int}
    (hi : pos order.length key = none) : delObj eng ctx xp a key pl s = (.error .indexError, s) := by
  obtain ⟨T, hT, rfl, hlt⟩ := h
  have hlen : ((idxs (isMember q ps) n.children).map (fun i => Ref.elem (a ++ [i]))).length = (tags T).length := by
    rw [List.length_map, idxs_length, ← hT.children, tags_length hT.tag]
  unfold delObj
  rw [bind_ok (listMatches_run heng hp hr hs), hlen]
  by_cases hg : key ≥ (tags T).length
  · rw [if_pos hg]; rfl
  · rw [if_neg hg, pyGet_pos, hlen, hi]
    exact bind_err (ofExcept_err _ _)

omit hok in
theorem popObj_eq {a : Node.Addr} {s n : Node} (hs : s.get a = some n) {order : List Nat} (h : Shelved q ps val pl order n) (i : Option Int) :
    popObj eng ctx xp a i pl s = (do let v ← getObj eng ctx xp a (i.getD (order.length - 1)) pl; let pl ← delObj eng ctx xp a (i.getD (order.length - 1)) pl; pure (v, pl)) s := by
  cases i with
  | some i => rfl
  | none =>
    obtain ⟨T, hT, rfl, hlt⟩ := h
    unfold popObj
    simp only
    rw [bind_assoc', bind_ok (lenObj_run heng hp hr hs hT), bind_ok (pure_run _ _)]
    rfl

omit hok in
theorem popObj_run {a : Node.Addr} {s n : Node} (hs : s.get a = some n) {order : List Nat} (h : Shelved q ps val pl order n) {key : Option Int} {i : Nat}
    (hi : pos order.length (key.getD (order.length - 1)) = some i) :
    ∃ pl' n', popObj eng ctx xp a key pl s = (.ok (order[i]?, pl'), s.modify a (fun _ => n')) ∧ pl'.length = pl.length ∧
      Shelved q ps val pl' (order.eraseIdx i) n' ∧ SameButMembers q ps n n' := by
  obtain ⟨pl', n', h1, h2, h3, h4⟩ := delObj_run heng hp hr hs h hi
  refine ⟨pl', n', ?_, h2, h3, h4⟩
  have hg := getObj_run heng hp hr hs h (key.getD (order.length - 1))
  rw [hi] at hg
  rw [popObj_eq heng hp hr hs h, bind_ok hg, bind_ok h1, pure_run]

omit hok in
theorem popObj_err {a : Node.Addr} {s n : Node} (hs : s.get a = some n) {order : List Nat} (h : Shelved q ps val pl order n) {key : Option Int}
    (hi : pos order.length (key.getD (order.length - 1)) = none) : popObj eng ctx xp a key pl s = (.error .indexError, s) := by
  have hg := getObj_run heng hp hr hs h (key.getD (order.length - 1))
  rw [hi] at hg
  rw [popObj_eq heng hp hr hs h, bind_err hg]

omit hok in
theorem trimObj_run : ∀ (fuel : Nat) {pl : List Place} {a : Node.Addr} {s n : Node} {order : List Nat} (len : Nat), s.get a = some n → Shelved q ps val pl order n →
    order.length ≤ len + fuel → Put q ps val a s n pl.length (trimObj eng ctx xp a len fuel pl s) (order.take len)
  | 0, pl, a, s, n, order, len, hs, h, hf => ⟨pl, n, by rw [Node.modify_id hs rfl]; rfl, rfl, by rwa [List.take_of_length_le (by omega)], same_refl n⟩
  | fuel + 1, pl, a, s, n, order, len, hs, h, hf => by
    obtain ⟨T, hT, hTo, hlt⟩ := id h
    unfold trimObj
    rw [bind_ok (lenObj_run heng hp hr hs hT), hTo]
    by_cases hg : order.length > len
    · rw [if_pos hg]
      obtain ⟨pl1, n1, h1, h2, h3, h4⟩ := popObj_run heng hp hr hs h (key := none) (i := order.length - 1)
        (by unfold pos; simp only [Option.getD_none]; rw [if_pos (by omega)]; congr 1; omega)
      have hlen1 : (order.eraseIdx (order.length - 1)).length = order.length - 1 := List.length_eraseIdx_of_lt (by omega)
      obtain ⟨pl2, n2, h5, h6, h7, h8⟩ := trimObj_run fuel (pl := pl1) (n := n1) (s := s.modify a (fun _ => n1)) len (by rw [Node.get_modify, hs]; rfl) h3 (by omega)
      refine ⟨pl2, n2, ?_, h6.trans h2, ?_, same_trans h4 h8⟩
      · rw [bind_ok h1, h5, Node.modify_modify]; rfl
      · have : (order.eraseIdx (order.length - 1)).take len = order.take len := by
          rw [List.eraseIdx_eq_take_drop_succ, List.drop_of_length_le (by omega), List.append_nil, List.take_take, Nat.min_eq_left (by omega)]
        rwa [this] at h7
    · rw [if_neg hg]
      exact ⟨pl, n, by rw [Node.modify_id hs rfl]; rfl, rfl, by rwa [List.take_of_length_le (by omega)], same_refl n⟩

/-- The loop of an assignment. -/
theorem setFromObj_run : ∀ (ks : List Nat) {pl : List Place} {a : Node.Addr} {s n : Node} {done rest : List Nat}, s.get a = some n →
    Shelved q ps val pl (done ++ rest) n → ks.Nodup → (∀ k ∈ ks, k < pl.length ∧ k ∉ done) →
    ∃ rest', Put q ps val a s n pl.length (setFromObj eng ctx xp (.step ax t es) a done.length ks pl s) (done ++ ks ++ rest')
  | [], pl, a, s, n, done, rest, hs, h, _, _ => ⟨rest, pl, n, by rw [Node.modify_id hs rfl]; rfl, rfl, by simpa using h, same_refl n⟩
  | k :: ks, pl, a, s, n, done, rest, hs, h, hnd, hk => by
    have hkd : takenOff k done = done := takenOff_id (hk k (by simp)).2
    obtain ⟨rest1, h1⟩ : ∃ rest1, Put q ps val a s n pl.length (setObj eng ctx xp (.step ax t es) a done.length k pl s) (done ++ [k] ++ rest1) := by
      cases rest with
      | nil =>
        have := setObj_end heng hp hr hok hs h (hk k (by simp)).1
        simp only [List.append_nil] at this
        rw [hkd] at this
        exact ⟨[], by simpa using this⟩
      | cons r rest =>
        have := setObj_run heng hp hr hok hs h (key := done.length) (i := done.length) (by unfold pos; rw [if_pos (by simp)]; simp) (hk k (by simp)).1
        rw [List.take_left, hkd, ← List.drop_drop, List.drop_left] at this
        exact ⟨takenOff k rest, by simpa using this⟩
    obtain ⟨pl1, n1, h2, h3, h4, h5⟩ := h1
    have hnd' := List.nodup_cons.1 hnd
    obtain ⟨rest', pl2, n2, h6, h7, h8, h9⟩ := setFromObj_run ks (pl := pl1) (n := n1) (s := s.modify a (fun _ => n1)) (done := done ++ [k]) (rest := rest1)
      (by rw [Node.get_modify, hs]; rfl) h4 hnd'.2 (fun j hj => ⟨by rw [h3]; exact (hk j (by simp [hj])).1, by
        simp only [List.mem_append, List.mem_singleton, not_or]
        exact ⟨(hk j (by simp [hj])).2, fun e => hnd'.1 (e ▸ hj)⟩⟩)
    refine ⟨rest', pl2, n2, ?_, h7.trans h3, by simpa using h8, same_trans h5 h9⟩
    unfold setFromObj
    rw [List.length_append, Node.modify_modify] at h6
    rw [bind_ok h2]
    exact h6

theorem assignObj_run (ks : List Nat) {a : Node.Addr} {s n : Node} {order : List Nat} (hs : s.get a = some n) (h : Shelved q ps val pl order n) (hnd : ks.Nodup)
    (hk : ∀ k ∈ ks, k < pl.length) : Put q ps val a s n pl.length (assignObj eng ctx xp (.step ax t es) a ks pl s) ks := by
  obtain ⟨rest, pl1, n1, h1, h2, h3, h4⟩ := setFromObj_run heng hp hr hok ks (done := []) (rest := order) hs (by simpa using h) hnd (fun k hk' => ⟨hk k hk', by simp⟩)
  have hs1 : (s.modify a (fun _ => n1)).get a = some n1 := by rw [Node.get_modify, hs]; rfl
  obtain ⟨T, hT, hTo, hlt⟩ := id h3
  obtain ⟨pl2, n2, h5, h6, h7, h8⟩ := trimObj_run heng hp hr ((tags T).length + (s.modify a (fun _ => n1)).nodes) ks.length hs1 h3 (by rw [hTo]; simp; omega)
  refine ⟨pl2, n2, ?_, h6.trans h2, ?_, same_trans h4 h8⟩
  · unfold assignObj
    rw [bind_ok (show setFromObj eng ctx xp (.step ax t es) a 0 ks pl s = _ from h1), bind_ok (lenObj_run heng hp hr hs1 hT)]
    show trimObj eng ctx xp a ks.length ((tags T).length + (s.modify a (fun _ => n1)).nodes) pl1 _ = _
    rw [h5, Node.modify_modify]
    rfl
  · simpa using h7

/-- One operation does what the shelf does. -/
theorem shelfRun_run (op : ShelfOp) {a : Node.Addr} {s n : Node} {order : List Nat} (hs : s.get a = some n) (h : Shelved q ps val pl order n)
    (hk : ∀ k ∈ op.things, k < pl.length) :
    (∃ r pl' n', shelfRun eng ctx xp (.step ax t es) a pl op s = (.ok (r, pl'), s.modify a (fun _ => n')) ∧ (shelf order op).1 = .ok r ∧ pl'.length = pl.length ∧
      Shelved q ps val pl' (shelf order op).2 n' ∧ SameButMembers q ps n n') ∨
    ∃ er, shelfRun eng ctx xp (.step ax t es) a pl op s = (.error er, s) ∧ shelf order op = (.error er, order) := by
  have put : ∀ {m : M (List Place)} {order' : List Nat}, Put q ps val a s n pl.length (m s) order' →
      ∃ r pl' n', (do let pl ← m; pure (none, pl) : M (Option Nat × List Place)) s = (.ok (r, pl'), s.modify a (fun _ => n')) ∧ Except.ok (ε := PyErr) (none : Option Nat) = .ok r ∧
        pl'.length = pl.length ∧ Shelved q ps val pl' order' n' ∧ SameButMembers q ps n n' := by
    intro m order' ⟨pl', n', h1, h2, h3, h4⟩
    exact ⟨none, pl', n', by rw [bind_ok h1, pure_run], rfl, h2, h3, h4⟩
  have bad : ∀ {m : M (List Place)} {er : PyErr}, m s = (.error er, s) → (do let pl ← m; pure (none, pl) : M (Option Nat × List Place)) s = (.error er, s) :=
    fun h => bind_err h
  cases op with
  | get i =>
    have hg := getObj_run heng hp hr hs h i
    simp only [shelfRun, shelf]
    cases hi : pos order.length i with
    | none => rw [hi] at hg; exact Or.inr ⟨_, bind_err hg, rfl⟩
    | some j =>
      rw [hi] at hg
      exact Or.inl ⟨_, pl, n, by rw [bind_ok hg, pure_run, Node.modify_id hs rfl], rfl, rfl, h, same_refl n⟩
  | set i k =>
    simp only [ShelfOp.things, List.mem_singleton, forall_eq] at hk
    simp only [shelfRun, shelf]
    by_cases he : i = order.length
    · rw [if_pos he, he]
      exact Or.inl (put (setObj_end heng hp hr hok hs h hk))
    · rw [if_neg he]
      cases hi : pos order.length i with
      | none => exact Or.inr ⟨_, bad (setObj_err heng hp hr hs h hi he k), rfl⟩
      | some j => exact Or.inl (put (setObj_run heng hp hr hok hs h hi hk))
  | append k =>
    simp only [ShelfOp.things, List.mem_singleton, forall_eq] at hk
    exact Or.inl (put (appendObj_run heng hp hr hok hs h hk))
  | extend ks => exact Or.inl (put (extendObj_run heng hp hr hok ks hs h hk))
  | insert i k =>
    simp only [ShelfOp.things, List.mem_singleton, forall_eq] at hk
    simp only [shelfRun, shelf]
    by_cases he : i ≤ order.length
    · rw [if_pos he]
      exact Or.inl (put (insertObj_run heng hp hr hok hs h he hk))
    · rw [if_neg he]
      exact Or.inr ⟨_, bad (insertObj_err heng hp hr hs h (by omega) k), rfl⟩
  | del i =>
    simp only [shelfRun, shelf]
    cases hi : pos order.length i with
    | none => exact Or.inr ⟨_, bad (delObj_err heng hp hr hs h hi), rfl⟩
    | some j => exact Or.inl (put (delObj_run heng hp hr hs h hi))
  | pop i =>
    simp only [shelfRun, shelf]
    cases hi : pos order.length (i.getD (order.length - 1)) with
    | none => exact Or.inr ⟨_, popObj_err heng hp hr hs h hi, rfl⟩
    | some j =>
      obtain ⟨pl', n', h1, h2, h3, h4⟩ := popObj_run heng hp hr hs h hi
      exact Or.inl ⟨_, pl', n', h1, rfl, h2, h3, h4⟩

/-- A history. -/
theorem shelfRuns_run : ∀ (ops : List ShelfOp) {pl : List Place} {a : Node.Addr} {s n : Node} {order : List Nat}, s.get a = some n → Shelved q ps val pl order n →
    (∀ op ∈ ops, ∀ k ∈ op.things, k < pl.length) →
    ∃ pl' n', shelfRuns eng ctx xp (.step ax t es) a pl ops s = ((shelfAll order ops).1, pl', s.modify a (fun _ => n')) ∧ pl'.length = pl.length ∧
      Shelved q ps val pl' (shelfAll order ops).2 n' ∧ SameButMembers q ps n n'
  | [], pl, a, s, n, order, hs, h, _ => ⟨pl, n, by rw [Node.modify_id hs rfl]; rfl, rfl, h, same_refl n⟩
  | op :: ops, pl, a, s, n, order, hs, h, hk => by
    rcases shelfRun_run heng hp hr hok op hs h (hk op (by simp)) with ⟨r, pl1, n1, h1, h2, h3, h4, h5⟩ | ⟨er, h1, h2⟩
    · obtain ⟨pl2, n2, h6, h7, h8, h9⟩ := shelfRuns_run ops (pl := pl1) (n := n1) (s := s.modify a (fun _ => n1)) (by rw [Node.get_modify, hs]; rfl) h4
        (fun o ho k hk' => by rw [h3]; exact hk o (by simp [ho]) k hk')
      refine ⟨pl2, n2, ?_, h7.trans h3, h8, same_trans h5 h9⟩
      rw [shelfRuns, h1]
      simp only [h6, shelfAll, h2, Node.modify_modify]
      rfl
    · obtain ⟨pl2, n2, h6, h7, h8, h9⟩ := shelfRuns_run ops hs h (fun o ho k hk' => hk o (by simp [ho]) k hk')
      refine ⟨pl2, n2, ?_, h7, by simpa only [shelfAll, h2] using h8, h9⟩
      rw [shelfRuns, h1]
      simp only [h6, shelfAll, h2]

end ops
end
end Fields
