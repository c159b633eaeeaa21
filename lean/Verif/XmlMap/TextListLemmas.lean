import Verif.Spec.TextList
import Verif.XmlMap.AttrListLemmas
/-
Lists of texts: where they are, and what changing one does.  (As Verif/XmlMap/AttrListLemmas.lean for attributes.)
-/
namespace Fields
open Xml XPath Spec

/-- The addresses of the elements with the texts of `textsAt`. -/
def textHolders : List Step → Node → List Node.Addr
  | [], n => if n.text.isSome then [[]] else []
  | .child q' ps :: r, n => (n.children.mapIdx (fun i c => (if c.isElem q' && satAll ps c then textHolders r c else []).map (i :: ·))).flatten
  | _, _ => []

theorem tailRefs_none {cs : List Node} (h : ∀ c ∈ cs, c.tail = none) : tailRefs cs = [] := by
  unfold tailRefs
  rw [List.flatten_eq_nil_iff]
  intro l hl
  obtain ⟨i, hi, rfl⟩ := List.mem_mapIdx.1 hl
  rw [h _ (List.getElem_mem hi)]
  rfl

theorem matches_text : ∀ (pp : List Step) (n : Node), childSteps pp = true → oneText pp n → Step.matches (pp ++ [.text]) n = (textHolders pp n).map (fun b => Ref.text b)
  | [], n, _, h => by
    simp only [List.nil_append, Step.matches, textHolders, List.isEmpty_nil, if_true]
    rw [tailRefs_none h]
    split_ifs <;> rfl
  | .child q' ps :: r, n, h, ho => by
    have hr : childSteps r = true := by
      simp only [childSteps, List.all_cons, Bool.and_eq_true] at h ⊢
      exact h.2
    rw [List.cons_append, Step.matches, textHolders, List.map_flatten]
    congr 1
    apply List.ext_getElem (by simp)
    intro i h1 h2
    simp only [List.getElem_map, List.getElem_mapIdx]
    split_ifs with hc
    · rw [matches_text r _ hr (ho _ (List.getElem_mem _) hc), List.map_map, List.map_map]
      rfl
    · rfl
  | .attr q' :: r, n, h, _ => by simp [childSteps] at h
  | .text :: r, n, h, _ => by simp [childSteps] at h

theorem textHolders_length : ∀ (pp : List Step) (n : Node), (textHolders pp n).length = (textsAt pp n).length
  | [], n => by
    unfold textHolders textsAt
    cases n.text <;> rfl
  | .child q' ps :: r, n => by
    rw [textHolders, textsAt, List.length_flatten, List.length_flatMap]
    congr 1
    apply List.ext_getElem (by simp)
    intro i h1 h2
    simp only [List.getElem_map, List.getElem_mapIdx, List.length_map]
    split_ifs
    · exact textHolders_length r _
    · rfl
  | .attr q' :: r, n => rfl
  | .text :: r, n => rfl

/-- The attribute at a position. -/
theorem textHolders_get : ∀ (pp : List Step) (n : Node) (k : Nat) (b : Node.Addr), (textHolders pp n)[k]? = some b →
    ∃ m t, n.get b = some m ∧ m.text = some t ∧ (textsAt pp n)[k]? = some t
  | [], n, k, b, h => by
    unfold textHolders at h
    unfold textsAt
    cases ha : n.text with
    | none => rw [ha] at h; simp at h
    | some t =>
      rw [ha] at h
      match k, h with
      | 0, h => cases h; exact ⟨n, t, rfl, ha, rfl⟩
  | .child q' ps :: r, n, k, b, h => by
    rw [textHolders] at h
    have h' : ((n.children.mapIdx (fun i c => (if c.isElem q' && satAll ps c then textHolders r c else []).map ((0 + i) :: ·))).flatten)[k]? = some b := by
      simpa only [Nat.zero_add] using h
    obtain ⟨A, c, B, y, k', h1, h2, h3, h4⟩ := flatten_at (fun c => if c.isElem q' && satAll ps c then textHolders r c else []) (fun i b => i :: b) n.children 0 k b h'
    by_cases hc : (c.isElem q' && satAll ps c) = true
    · rw [if_pos hc] at h2
      obtain ⟨m, t, g1, g2, g3⟩ := textHolders_get r c k' y h2
      refine ⟨m, t, ?_, g2, ?_⟩
      · rw [h3, Nat.zero_add, Node.get_cons, h1, List.getElem?_append_right (Nat.le_refl _), Nat.sub_self]
        exact g1
      · rw [textsAt, h1, List.flatMap_append, List.flatMap_cons, if_pos hc, h4]
        have hl : (A.flatMap fun c => if (c.isElem q' && satAll ps c) = true then textHolders r c else []).length = (A.flatMap fun c => if (c.isElem q' && satAll ps c) = true then textsAt r c else []).length := by
          rw [List.length_flatMap, List.length_flatMap]
          congr 2
          funext c
          split_ifs
          · exact textHolders_length r c
          · rfl
        rw [hl, List.getElem?_append_right (by omega), Nat.add_sub_cancel_left, List.getElem?_append_left]
        · exact g3
        · exact (List.getElem?_eq_some_iff.1 g3).1
    · rw [if_neg hc] at h2; simp at h2
  | .attr q' :: r, n, k, b, h => by simp [textHolders] at h
  | .text :: r, n, k, b, h => by simp [textHolders] at h

/-- Changing one of the attributes. -/
theorem textHolders_put (t : Str) : ∀ (pp : List Step) (n : Node) (k : Nat) (b : Node.Addr), attrSteps pp = true → (textHolders pp n)[k]? = some b →
    textHolders pp (n.modify b (Node.setText (some t))) = textHolders pp n ∧ textsAt pp (n.modify b (Node.setText (some t))) = (textsAt pp n).set k t ∧
      blanked pp (n.modify b (Node.setText (some t))) = blanked pp n ∧ (oneText pp n → oneText pp (n.modify b (Node.setText (some t))))
  | [], n, k, b, _, h => by
    unfold textHolders at h ⊢
    unfold textsAt blanked
    cases ha : n.text with
    | none => rw [ha] at h; simp at h
    | some t' =>
      rw [ha] at h
      match k, h with
      | 0, h =>
        cases h
        rw [Node.modify_nil]
        refine ⟨by cases n <;> simp_all [Node.setText, Node.text], by cases n <;> simp_all [Node.setText, Node.text], by cases n <;> simp_all [Node.setText, Node.text], fun h c hc => h c (by cases n <;> simp_all [Node.setText, Node.children])⟩
  | .child q' ps :: r, n, k, b, hk, h => by
    rw [textHolders] at h
    have h' : ((n.children.mapIdx (fun i c => (if c.isElem q' && satAll ps c then textHolders r c else []).map ((0 + i) :: ·))).flatten)[k]? = some b := by
      simpa only [Nat.zero_add] using h
    obtain ⟨A, c, B, y, k', h1, h2, h3, h4⟩ := flatten_at (fun c => if c.isElem q' && satAll ps c then textHolders r c else []) (fun i b => i :: b) n.children 0 k b h'
    rw [Nat.zero_add] at h3
    by_cases hc : (c.isElem q' && satAll ps c) = true
    · rw [if_pos hc] at h2
      have hk2 : attrOnly ps = true ∧ attrSteps r = true := by
        simp only [attrSteps, List.all_cons, Bool.and_eq_true] at hk; exact hk
      have hkr : attrSteps r = true := hk2.2
      obtain ⟨i1, i2, i3, i4⟩ := textHolders_put t r c k' y hkr h2
      have hc' : ((c.modify y (Node.setText (some t))).isElem q' && satAll ps (c.modify y (Node.setText (some t)))) = true := by
        have e1 : (c.modify y (Node.setText (some t))).isElem q' = c.isElem q' := by
          unfold Node.isElem
          rw [Node.modify_tag (fun m => by simp)]
        have e2 : satAll ps (c.modify y (Node.setText (some t))) = satAll ps c := by
          cases r with
          | nil =>
            have hy : y = [] := by
              unfold textHolders at h2
              split_ifs at h2
              · match k', h2 with
                | 0, h2 => cases h2; rfl
              · simp at h2
            subst hy
            exact satAll_attrs ps c _ hk2.1 (by cases c <;> simp [Node.setText, Node.attrs])
          | cons st r =>
            have hy : y ≠ [] := by
              rintro rfl
              have := List.mem_of_getElem? h2
              cases st with
              | child q2 ps2 =>
                rw [textHolders] at this
                obtain ⟨l, hl, hm⟩ := List.mem_flatten.1 this
                obtain ⟨i, hi, rfl⟩ := List.mem_mapIdx.1 hl
                obtain ⟨z, -, hz⟩ := List.mem_map.1 hm
                cases hz
              | attr q2 => simp [textHolders] at this
              | text => simp [textHolders] at this
            obtain ⟨i, y', rfl⟩ := List.exists_cons_of_ne_nil hy
            exact satAll_attrs ps c _ hk2.1 (by rw [Node.modify_cons]; simp)
        rw [e1, e2]; exact hc
      have hn : (n.modify b (Node.setText (some t))) = n.withChildren (A ++ (c.modify y (Node.setText (some t))) :: B) := by
        rw [h3, Node.modify_cons, h1, modify_here]
      rw [hn]
      refine ⟨?_, ?_, ?_, ?_⟩
      · rw [textHolders, textHolders, Node.withChildren_children, h1, List.mapIdx_append, List.mapIdx_append, List.mapIdx_cons, List.mapIdx_cons, if_pos hc, if_pos hc', i1]
      · rw [textsAt, textsAt, Node.withChildren_children, h1, List.flatMap_append, List.flatMap_append, List.flatMap_cons, List.flatMap_cons, if_pos hc, if_pos hc', i2, h4]
        have hl : (A.flatMap fun c => if (c.isElem q' && satAll ps c) = true then textHolders r c else []).length = (A.flatMap fun c => if (c.isElem q' && satAll ps c) = true then textsAt r c else []).length := by
          rw [List.length_flatMap, List.length_flatMap]
          congr 2
          funext c
          split_ifs
          · exact textHolders_length r c
          · rfl
        have hlt : k' < (textsAt r c).length := by rw [← textHolders_length]; exact (List.getElem?_eq_some_iff.1 h2).1
        rw [hl, List.set_append_right _ _ (by omega), Nat.add_sub_cancel_left, List.set_append_left _ _ hlt]
      · rw [blanked, blanked, Node.withChildren_children, h1, List.map_append, List.map_append, List.map_cons, List.map_cons, if_pos hc, if_pos hc', i3, Node.withChildren_withChildren]
      · intro ho d hd hd2
        rw [Node.withChildren_children] at hd
        rcases List.mem_append.1 hd with hd | hd
        · exact ho d (by rw [h1]; exact List.mem_append_left _ hd) hd2
        · rcases List.mem_cons.1 hd with rfl | hd
          · exact i4 (ho c (by rw [h1]; simp) hc)
          · exact ho d (by rw [h1]; simp [hd]) hd2
    · rw [if_neg hc] at h2; simp at h2
  | .attr q' :: r, n, k, b, _, h => by simp [textHolders] at h
  | .text :: r, n, k, b, _, h => by simp [textHolders] at h

/-- The elements have one text each, and the texts are read as the values `l`. -/
def TextsRead {α : Type} (read : Item → Except PyErr α) (pp : List Step) (n : Node) (l : List α) : Prop := oneText pp n ∧ ReadsAs read (textsAt pp n) l

section
variable [PyUnicode] {eng : Engine} {ctx : Ctx} {α : Type} [DecidableEq α] {read : Item → Except PyErr α} {toXml : α → Except PyErr (Option Str)}
  {xp : Str} {e : Expr} {pp : List Step} {a : Node.Addr} {s n : Node} {l : List α}

/-- The result of an operation on a list of attributes. -/
def TStep (pp : List Step) (read : Item → Except PyErr α) (a : Node.Addr) (s n : Node) {β : Type} (r : Except PyErr β × Node) (x : Except PyErr β × List α) : Prop :=
  ∃ n', r = (x.1, s.modify a (fun _ => n')) ∧ TextsRead read pp n' x.2 ∧ blanked pp n' = blanked pp n

omit [PyUnicode] [DecidableEq α] in
theorem tstep_same (hs : s.get a = some n) (hl : TextsRead read pp n l) {β : Type} (x : Except PyErr β) : TStep pp read a s n (x, s) (x, l) :=
  ⟨n, by show (x, s) = (x, s.modify a (fun _ => n)); congr 1; exact (Node.modify_id hs rfl).symm, hl, rfl⟩

omit [PyUnicode] [DecidableEq α] in
theorem TStep.wrap {β γ : Type} {x : M β} {y : Except PyErr β × List α} (h : TStep pp read a s n (x s) y) (f : β → γ) :
    TStep pp read a s n ((x >>= fun b => pure (f b)) s) (y.1.map f, y.2) := by
  obtain ⟨n', h1, h2, h3⟩ := h
  refine ⟨n', ?_, h2, h3⟩
  cases hy : y.1 with
  | ok b => rw [hy] at h1; rw [bind_ok h1]; rfl
  | error b => rw [hy] at h1; rw [bind_err h1]; rfl

theorem textMatches_run (heng : EngineOk eng) (hp : parse0 xp = .ok e) (hr : res ctx e = some (pp ++ [.text], none)) (hpp : childSteps pp = true) (hs : s.get a = some n) (ho : oneText pp n) :
    listMatches eng ctx xp (.elem a) s = (.ok ((textHolders pp n).map (fun b => Ref.text (a ++ b))), s) := by
  have h := heng.path ctx xp _ (pp ++ [.text]) s n a hp (by simp [resPath, hr]) hs
  have h1 : evalXPath eng ctx xp (.elem a) s = (.ok (.nodes ((Step.matches (pp ++ [.text]) n).map (Ref.under a))), s) := by
    show (eng.xpath xp s a ctx, s) = _
    rw [h]
  unfold listMatches
  rw [bind_ok h1, matches_text pp n hpp ho, List.map_map]
  rfl

omit [PyUnicode] [DecidableEq α] in
theorem text_item (hs : s.get a = some n) {k : Nat} {b : Node.Addr} (hb : (textHolders pp n)[k]? = some b) (hl : TextsRead read pp n l) :
    ∃ v, l[k]? = some v ∧ mapMatch read s (.text (a ++ b)) = .ok v := by
  obtain ⟨m, t, h1, h2, h3⟩ := textHolders_get pp n k b hb
  have hk := (List.getElem?_eq_some_iff.1 h3).1
  have hk' : k < l.length := by rw [← hl.2.length_eq]; exact hk
  refine ⟨l[k], List.getElem?_eq_getElem hk', ?_⟩
  have hg : s.get (a ++ b) = some m := by rw [Node.get_append, hs]; exact h1
  have hv : read (.str t) = .ok l[k] := by
    have := List.Forall₂.get hl.2 hk hk'
    simp only [List.get_eq_getElem] at this
    rw [show (textsAt pp n)[k] = t by rw [List.getElem?_eq_getElem hk] at h3; exact Option.some.inj h3] at this
    exact this
  simp only [mapMatch, itemOf, hg, Option.bind_some, h2, Option.map_some]
  exact hv

omit [PyUnicode] [DecidableEq α] in
theorem text_items (hs : s.get a = some n) (hl : TextsRead read pp n l) :
    mapMatches read s ((textHolders pp n).map (fun b => Ref.text (a ++ b))) = .ok l := by
  have key : ∀ (B : List Node.Addr) (k : Nat), (textHolders pp n).drop k = B → mapMatches read s (B.map (fun b => Ref.text (a ++ b))) = .ok (l.drop k) := by
    intro B
    induction B with
    | nil =>
      intro k hk
      have : l.length ≤ k := by
        rw [← hl.2.length_eq, ← textHolders_length]
        exact List.drop_eq_nil_iff.1 hk
      rw [List.drop_eq_nil_of_le this]; rfl
    | cons b B ih =>
      intro k hk
      have hb : (textHolders pp n)[k]? = some b := by
        have := congrArg List.head? hk
        simpa using this
      obtain ⟨v, h1, h2⟩ := text_item hs hb hl
      have hk2 : (textHolders pp n).drop (k + 1) = B := by
        rw [← List.tail_drop, hk]; rfl
      rw [List.map_cons, mapMatches, h2, ih (k + 1) hk2]
      obtain ⟨hlt, he⟩ := List.getElem?_eq_some_iff.1 h1
      rw [List.drop_eq_getElem_cons hlt, he]
  exact key _ 0 rfl

variable (heng : EngineOk eng) (hp : parse0 xp = .ok e) (hr : res ctx e = some (pp ++ [.text], none)) (hpp : childSteps pp = true) (hk : attrSteps pp = true)

include heng hp hr hpp in
theorem textData_run (hs : s.get a = some n) (hl : TextsRead read pp n l) : listData eng ctx read xp (.elem a) s = (.ok l, s) := by
  unfold listData
  rw [bind_ok (textMatches_run heng hp hr hpp hs hl.1), bind_ok (show getDoc s = (.ok s, s) from rfl), text_items hs hl]
  rfl

include heng hp hr hpp in
theorem textLen_run (hs : s.get a = some n) (hl : TextsRead read pp n l) : listLen eng ctx read xp (.elem a) s = (.ok l.length, s) := by
  unfold listLen
  rw [bind_ok (textData_run heng hp hr hpp hs hl)]; rfl

omit [PyUnicode] [DecidableEq α] in
theorem textHolders_len (hl : TextsRead read pp n l) : (textHolders pp n).length = l.length := by rw [textHolders_length, hl.2.length_eq]

include heng hp hr hpp in
theorem textGet_run (hs : s.get a = some n) (hl : TextsRead read pp n l) (i : Int) : listGet eng ctx read xp (.elem a) i s = (pyGet l i, s) := by
  unfold listGet
  rw [bind_ok (textMatches_run heng hp hr hpp hs hl.1), pyGet_pos, pyGet_pos, List.length_map, textHolders_len hl]
  cases hp : pos l.length i with
  | none => simp only []; rw [bind_err (ofExcept_err _ _)]
  | some k =>
    have hlt := pos_lt hp
    have hb : (textHolders pp n)[k]? = some ((textHolders pp n)[k]'(by rw [textHolders_len hl]; exact hlt)) := List.getElem?_eq_getElem _
    obtain ⟨v, h1, h2⟩ := text_item hs hb hl
    simp only [List.getElem?_map, hb, Option.map_some]
    rw [bind_ok (ofExcept_run _ _), bind_ok (show getDoc s = (.ok s, s) from rfl), h2, h1]
    rfl

include heng hp hr hpp hk in
theorem textSet_at (hs : s.get a = some n) (hl : TextsRead read pp n l) (i : Int) (k : Nat) (hi : pos l.length i = some k) (v : α) (hv : Keeps read toXml v) :
    TStep pp read a s n (listSet eng ctx (storeText ctx toXml e) xp e (.elem a) i v s) (.ok (), l.set k v) := by
  have hlt := pos_lt hi
  have hb : (textHolders pp n)[k]? = some ((textHolders pp n)[k]'(by rw [textHolders_len hl]; exact hlt)) := List.getElem?_eq_getElem _
  generalize (textHolders pp n)[k]'(by rw [textHolders_len hl]; exact hlt) = b at hb
  obtain ⟨t, ht1, ht2, ht3⟩ := hv
  obtain ⟨h1, h2, h3⟩ := textHolders_put t pp n k b hk hb
  have hrun : listSet eng ctx (storeText ctx toXml e) xp e (.elem a) i v s = (.ok (), s.modify a (fun _ => n.modify b (Node.setText (some t)))) := by
    have hne : ¬ (i = (l.length : Int)) := by unfold pos at hi; split_ifs at hi <;> omega
    have hgt : ¬ (i > (l.length : Int)) := by unfold pos at hi; split_ifs at hi <;> omega
    have hin : (pyGet ((textHolders pp n).map (fun b => Ref.text (a ++ b))) i) = .ok (Ref.text (a ++ b)) := by
      rw [pyGet_pos, List.length_map, textHolders_len hl, hi]
      simp only [List.getElem?_map, hb, Option.map_some]
    have hsel : (if i = (((textHolders pp n).map (fun b => Ref.text (a ++ b))).length : Int) then do
        let idx ← appendIndex ((textHolders pp n).map (fun b => Ref.text (a ++ b)))
        createNode eng ctx e (.elem a) idx
      else if i > (((textHolders pp n).map (fun b => Ref.text (a ++ b))).length : Int) then raise .indexError
      else ofExcept (pyGet ((textHolders pp n).map (fun b => Ref.text (a ++ b))) i) : M Ref) s = (.ok (Ref.text (a ++ b)), s) := by
      rw [List.length_map, textHolders_len hl, if_neg hne, if_neg hgt, hin]; rfl
    unfold listSet
    rw [bind_ok (textMatches_run heng hp hr hpp hs hl.1), bind_ok hsel]
    unfold storeText
    rw [ht1, bind_ok (ofExcept_run _ _), setInXml_text hr ht2 (by simp), Node.modify_append]
    exact congrArg (Prod.mk _) (Node.modify_congr hs rfl)
  refine ⟨_, hrun, ⟨h3.2 hl.1, ?_⟩, h3.1⟩
  rw [h2]
  have : ∀ (ts : List Str) (l : List α) (k : Nat), List.Forall₂ (fun t v => read (.str t) = .ok v) ts l → List.Forall₂ (fun t v => read (.str t) = .ok v) (ts.set k t) (l.set k v) := by
    intro ts l k h
    induction h generalizing k with
    | nil => exact .nil
    | cons h1 h2 ih =>
      cases k with
      | zero => exact .cons ht3 h2
      | succ k => exact .cons h1 (ih k)
  exact this _ _ _ hl.2

include heng hp hr hpp in
/-- At the end nothing can be added. -/
theorem textSet_end {store : Ref → α → M Unit} (hs : s.get a = some n) (hl : TextsRead read pp n l) (hne : l ≠ []) (v : α) :
    listSet eng ctx store xp e (.elem a) l.length v s = (.error .typeError, s) := by
  have hidx : appendIndex ((textHolders pp n).map (fun b => Ref.text (a ++ b))) s = (.error .typeError, s) := by
    unfold appendIndex
    have hh : (textHolders pp n) ≠ [] := fun h => hne (by have := textHolders_len hl; rw [h] at this; exact List.length_eq_zero_iff.1 this.symm)
    rw [List.getLast?_map, List.getLast?_eq_some_getLast hh]
    simp only [Option.map_some]
    exact bind_err rfl
  unfold listSet
  rw [bind_ok (textMatches_run heng hp hr hpp hs hl.1)]
  refine bind_err ?_
  rw [List.length_map, textHolders_len hl, if_pos rfl]
  exact bind_err hidx

include heng hp hr hpp in
theorem textSet_out {store : Ref → α → M Unit} (hs : s.get a = some n) (hl : TextsRead read pp n l) (i : Int) (hi : i ≠ l.length) (hpos : pos l.length i = none) (v : α) :
    listSet eng ctx store xp e (.elem a) i v s = (.error .indexError, s) := by
  unfold listSet
  rw [bind_ok (textMatches_run heng hp hr hpp hs hl.1)]
  refine bind_err ?_
  rw [List.length_map, textHolders_len hl, if_neg hi]
  split_ifs
  · rfl
  · rw [pyGet_pos, List.length_map, textHolders_len hl, hpos]; rfl

include heng hp hr hpp in
theorem textDel_run (hs : s.get a = some n) (hl : TextsRead read pp n l) (i : Int) :
    listDel eng ctx xp (.elem a) i s = (.error (if (pos l.length i).isSome then .typeError else .indexError), s) := by
  unfold listDel
  rw [bind_ok (textMatches_run heng hp hr hpp hs hl.1), List.length_map, textHolders_len hl]
  by_cases h : i ≥ (l.length : Int)
  · rw [if_pos h]
    have : pos l.length i = none := by unfold pos; rw [if_neg (by omega), if_neg (by omega)]
    rw [this]; rfl
  · rw [if_neg h, pyGet_pos, List.length_map, textHolders_len hl]
    cases hk : pos l.length i with
    | none => exact bind_err rfl
    | some k =>
      have hlt := pos_lt hk
      simp only [List.getElem?_map, List.getElem?_eq_getElem (show k < (textHolders pp n).length by rw [textHolders_len hl]; exact hlt), Option.map_some]
      rw [bind_ok (ofExcept_run _ _)]
      rfl

omit [PyUnicode] [DecidableEq α] in
theorem tstep_err (hs : s.get a = some n) (hl : TextsRead read pp n l) {β γ : Type} {x : M β} {er : PyErr} (h : x s = (.error er, s)) (f : β → M γ) :
    TStep pp read a s n ((x >>= f) s) (.error er, l) := by
  rw [bind_err h]; exact tstep_same hs hl _

include heng hp hr hpp hk in
theorem textOp_run (hs : s.get a = some n) (hl : TextsRead read pp n l) (hne : l ≠ []) (op : ListOp α) (hsup : op.supported = true)
    (hv : ∀ v ∈ op.values, Keeps read toXml v) :
    TStep pp read a s n (runOp eng ctx read (storeText ctx toXml e) xp e (.elem a) op s) (fixedList l op) := by
  have hdata := textData_run heng hp hr hpp hs hl
  have hlen := textLen_run heng hp hr hpp hs hl
  have hpop : ∀ j : Int, (do let val ← listGet eng ctx read xp (.elem a) j; listDel eng ctx xp (.elem a) j; pure val : M α) s = (.error (if (pos l.length j).isSome then .typeError else .indexError), s) := by
    intro j
    have hg := textGet_run heng hp hr hpp hs hl j
    have hd := textDel_run heng hp hr hpp hs hl j
    cases hk : pos l.length j with
    | none => rw [pyGet_pos, hk] at hg; rw [bind_err hg]; rfl
    | some k => rw [pyGet_some hk] at hg; rw [hk] at hd; rw [bind_ok hg, bind_err hd]
  have happ : ∀ v, listAppend eng ctx read (storeText ctx toXml e) xp e (.elem a) v s = (.error .typeError, s) := by
    intro v
    unfold listAppend
    rw [bind_ok hlen]
    exact textSet_end heng hp hr hpp hs hl hne v
  cases op with
  | len =>
    rw [fixed_same rfl]
    exact TStep.wrap (x := listLen eng ctx read xp (.elem a)) (y := (.ok l.length, l)) (by rw [hlen]; exact tstep_same hs hl _) ListRes.nat
  | get i =>
    have h := TStep.wrap (x := listGet eng ctx read xp (.elem a) i) (y := (pyGet l i, l)) (by rw [textGet_run heng hp hr hpp hs hl]; exact tstep_same hs hl _) ListRes.val
    have e1 : pyList l (.get i) = ((pyGet l i).map ListRes.val, l) := by
      simp only [pyList, pyGet_pos]
      cases hk : pos l.length i with
      | none => rfl
      | some k => simp only [List.getElem?_eq_getElem (pos_lt hk)]; rfl
    rw [fixed_same (by rw [e1]), e1]
    exact h
  | set i v =>
    have hv := hv v (by simp [ListOp.values])
    by_cases h0 : i = l.length
    · rw [fixed_change (by simp [pyList, h0])]
      exact tstep_err hs hl (by rw [h0]; exact textSet_end heng hp hr hpp hs hl hne v) _
    · cases hkk : pos l.length i with
      | some k =>
        have e1 : pyList l (.set i v) = (.ok .unit, l.set k v) := by simp only [pyList]; rw [if_neg h0, hkk]
        rw [fixed_same (by rw [e1]; simp), e1]
        exact TStep.wrap (y := (.ok (), l.set k v)) (textSet_at heng hp hr hpp hk hs hl i k hkk v hv) (fun _ => ListRes.unit)
      | none =>
        have e1 : pyList l (.set i v) = (.error .indexError, l) := by simp only [pyList]; rw [if_neg h0, hkk]
        rw [fixed_same (by rw [e1]), e1]
        exact tstep_err hs hl (textSet_out heng hp hr hpp hs hl i h0 hkk v) _
  | del i =>
    have h := textDel_run heng hp hr hpp hs hl i
    cases hkk : pos l.length i with
    | some k =>
      rw [hkk] at h
      have := pos_lt hkk
      rw [fixed_change (by simp only [pyList, hkk, List.length_eraseIdx, if_pos this]; omega)]
      exact tstep_err hs hl h _
    | none =>
      rw [hkk] at h
      have e1 : pyList l (.del i) = (.error .indexError, l) := by simp only [pyList, hkk]
      rw [fixed_same (by rw [e1]), e1]
      exact tstep_err hs hl h _
  | append v =>
    rw [fixed_change (by simp [pyList])]
    exact tstep_err hs hl (happ v) _
  | extend vs =>
    cases vs with
    | nil =>
      rw [fixed_same (by simp [pyList])]
      have e1 : pyList l (.extend []) = (.ok .unit, l) := by simp [pyList]
      rw [e1]
      exact tstep_same hs hl _
    | cons v vs =>
      rw [fixed_change (by simp [pyList])]
      exact tstep_err hs hl (bind_err (happ v)) _
  | insert i v =>
    simp only [ListOp.supported, decide_eq_true_eq] at hsup
    have hrun : listInsert eng ctx read (storeText ctx toXml e) xp e (.elem a) i v s = (.error (if i ≤ (l.length : Int) then .typeError else .indexError), s) := by
      unfold listInsert
      rw [bind_ok hlen]
      by_cases h0 : i = (l.length : Int)
      · rw [if_pos h0, happ, if_pos (by omega)]
      · rw [if_neg h0, bind_ok (textMatches_run heng hp hr hpp hs hl.1), List.length_map, textHolders_len hl]
        by_cases h1 : (l.length : Int) > i
        · rw [if_pos h1, if_pos (by omega)]
          have hkk : pos l.length i = some i.toNat := by unfold pos; rw [if_pos ⟨hsup, h1⟩]
          have hlt := pos_lt hkk
          obtain ⟨b, hb⟩ : ∃ b, (textHolders pp n)[i.toNat]? = some b := ⟨_, List.getElem?_eq_getElem (by rw [textHolders_len hl]; exact hlt)⟩
          have hin : (pyGet ((textHolders pp n).map (fun b => Ref.text (a ++ b))) i) = .ok (Ref.text (a ++ b)) := by
            rw [pyGet_pos, List.length_map, textHolders_len hl, hkk]
            simp only [List.getElem?_map, hb, Option.map_some]
          rw [hin, bind_ok (ofExcept_run _ _)]
          exact bind_err rfl
        · rw [if_neg h1, if_neg (by omega)]; rfl
    by_cases h0 : i ≤ (l.length : Int)
    · rw [fixed_change (by
        simp only [pyList, if_pos (And.intro hsup h0), List.length_append, List.length_take, List.length_cons, List.length_drop]; omega)]
      rw [if_pos h0] at hrun
      exact tstep_err hs hl hrun _
    · have e1 : pyList l (.insert i v) = (.error .indexError, l) := by simp only [pyList]; rw [if_neg (fun h => h0 h.2)]
      rw [fixed_same (by rw [e1]), e1]
      rw [if_neg h0] at hrun
      exact tstep_err hs hl hrun _
  | pop i =>
    have hj : listPop eng ctx read xp (.elem a) i s
        = (do let val ← listGet eng ctx read xp (.elem a) (i.getD (l.length - 1)); listDel eng ctx xp (.elem a) (i.getD (l.length - 1)); pure val : M α) s := by
      unfold listPop
      cases i with
      | some i => rfl
      | none =>
        simp only [bind_assoc']
        rw [bind_ok hlen]
        rfl
    rw [hpop] at hj
    cases hkk : pos l.length (i.getD (l.length - 1)) with
    | some k =>
      rw [hkk] at hj
      have := pos_lt hkk
      rw [fixed_change (by simp only [pyList, hkk, List.getElem?_eq_getElem this, List.length_eraseIdx, if_pos this]; omega)]
      exact tstep_err hs hl hj _
    | none =>
      rw [hkk] at hj
      have e1 : pyList l (.pop i) = (.error .indexError, l) := by simp only [pyList, hkk]
      rw [fixed_same (by rw [e1]), e1]
      exact tstep_err hs hl hj _
  | remove v =>
    by_cases hm : v ∈ l
    · have hlt := List.idxOf_lt_length_of_mem hm
      have hidx : listIndex eng ctx read xp (.elem a) v s = (.ok (l.idxOf v), s) := by
        unfold listIndex
        rw [bind_ok hdata, idxOf?_mem hm]
        rfl
      have hd := textDel_run heng hp hr hpp hs hl (l.idxOf v)
      rw [show pos l.length (l.idxOf v) = some (l.idxOf v) by unfold pos; rw [if_pos ⟨by omega, by omega⟩]; rfl] at hd
      rw [fixed_change (by simp only [pyList, if_pos hm, List.length_erase_of_mem hm]; omega)]
      exact tstep_err hs hl (by unfold listRemove; rw [bind_ok hidx]; exact hd) _
    · have hidx : listIndex eng ctx read xp (.elem a) v s = (.error .valueError, s) := by
        unfold listIndex
        rw [bind_ok hdata, List.idxOf?_eq_none_iff.2 hm]
        rfl
      have e1 : pyList l (.remove v) = (.error .valueError, l) := by simp only [pyList]; rw [if_neg hm]
      rw [fixed_same (by rw [e1]), e1]
      exact tstep_err hs hl (bind_err hidx) _
  | index v =>
    by_cases hm : v ∈ l
    · have e1 : pyList l (.index v) = (.ok (.nat (l.idxOf v)), l) := by simp only [pyList]; rw [if_pos hm]
      rw [fixed_same (by rw [e1]), e1]
      refine TStep.wrap (x := listIndex eng ctx read xp (.elem a) v) (y := (.ok (l.idxOf v), l)) ?_ ListRes.nat
      have : listIndex eng ctx read xp (.elem a) v s = (.ok (l.idxOf v), s) := by
        unfold listIndex
        rw [bind_ok hdata, idxOf?_mem hm]
        rfl
      rw [this]; exact tstep_same hs hl _
    · have e1 : pyList l (.index v) = (.error .valueError, l) := by simp only [pyList]; rw [if_neg hm]
      rw [fixed_same (by rw [e1]), e1]
      refine tstep_err hs hl ?_ _
      unfold listIndex
      rw [bind_ok hdata, List.idxOf?_eq_none_iff.2 hm]
      rfl
  | count v =>
    rw [fixed_same rfl]
    exact TStep.wrap (x := listCount eng ctx read xp (.elem a) v) (y := (.ok (l.count v), l)) (by unfold listCount; rw [bind_ok hdata]; exact tstep_same hs hl _) ListRes.nat
  | contains v =>
    rw [fixed_same rfl]
    exact TStep.wrap (x := listContains eng ctx read xp (.elem a) v) (y := (.ok (decide (v ∈ l)), l)) (by unfold listContains; rw [bind_ok hdata]; exact tstep_same hs hl _) ListRes.bool
  | eq l' =>
    rw [fixed_same rfl]
    exact TStep.wrap (x := listEq eng ctx read xp (.elem a) l') (y := (.ok (decide (l = l')), l)) (by unfold listEq; rw [bind_ok hdata]; exact tstep_same hs hl _) ListRes.bool

include heng hp hr hpp hk in
theorem textOps_run : ∀ (ops : List (ListOp α)) (s n : Node) (l : List α), s.get a = some n → TextsRead read pp n l → l ≠ [] → (∀ op ∈ ops, op.supported = true) →
    (∀ op ∈ ops, ∀ v ∈ op.values, Keeps read toXml v) →
    (runOps eng ctx read (storeText ctx toXml e) xp e (.elem a) ops s).1 = (fixedListAll l ops).1 ∧
      ∃ n', (runOps eng ctx read (storeText ctx toXml e) xp e (.elem a) ops s).2 = s.modify a (fun _ => n') ∧ TextsRead read pp n' (fixedListAll l ops).2 ∧
        blanked pp n' = blanked pp n
  | [], s, n, l, hs, hl, _, _, _ => ⟨rfl, n, (Node.modify_id hs rfl).symm, hl, rfl⟩
  | op :: ops, s, n, l, hs, hl, hne, h1, h2 => by
    obtain ⟨n', g1, g2, g3⟩ := textOp_run (toXml := toXml) heng hp hr hpp hk hs hl hne op (h1 op List.mem_cons_self) (h2 op List.mem_cons_self)
    have hs' : (s.modify a (fun _ => n')).get a = some n' := by rw [Node.get_modify, hs]; rfl
    have hne' : (fixedList l op).2 ≠ [] := fun h => hne (List.length_eq_zero_iff.1 (by rw [← fixed_length (l := l) op, h]; rfl))
    obtain ⟨i1, n2, i2, i3, i4⟩ := textOps_run ops _ n' _ hs' g2 hne' (fun o ho => h1 o (List.mem_cons_of_mem _ ho)) (fun o ho => h2 o (List.mem_cons_of_mem _ ho))
    simp only [runOps, fixedListAll]
    rw [g1]
    refine ⟨by rw [i1], n2, by rw [i2, Node.modify_modify]; rfl, i3, by rw [i4, g3]⟩

include heng hp hr hpp hk in
theorem textSetFrom_run : ∀ (vs : List α) (i : Nat) (s n : Node) (l : List α), s.get a = some n → TextsRead read pp n l → l ≠ [] → i ≤ l.length → (∀ v ∈ vs, Keeps read toXml v) →
    TStep pp read a s n (listSetFrom eng ctx (storeText ctx toXml e) xp e (.elem a) i vs s)
      (if i + vs.length ≤ l.length then .ok () else .error .typeError, l.take i ++ vs.take (l.length - i) ++ l.drop (i + vs.length))
  | [], i, s, n, l, hs, hl, _, hi, _ => by
    have e1 : l.take i ++ ([] : List α).take (l.length - i) ++ l.drop (i + ([] : List α).length) = l := by simp
    rw [e1, if_pos (by simpa using hi)]
    exact tstep_same hs hl _
  | v :: vs, i, s, n, l, hs, hl, hne, hi, hv => by
    by_cases h0 : i = l.length
    · have e1 : l.take i ++ (v :: vs).take (l.length - i) ++ l.drop (i + (v :: vs).length) = l := by
        subst h0
        simp
      rw [e1, if_neg (by rw [List.length_cons]; omega)]
      refine tstep_err hs hl ?_ _
      rw [h0]
      exact textSet_end heng hp hr hpp hs hl hne v
    · have hlt : i < l.length := by omega
      have hpos : pos l.length (i : Int) = some i := by unfold pos; rw [if_pos ⟨by omega, by omega⟩]; rfl
      obtain ⟨n', g1, g2, g3⟩ := textSet_at heng hp hr hpp hk hs hl i i hpos v (hv v List.mem_cons_self)
      have hs' : (s.modify a (fun _ => n')).get a = some n' := by rw [Node.get_modify, hs]; rfl
      have hne' : l.set i v ≠ [] := fun h => hne (List.length_eq_zero_iff.1 (by rw [← List.length_set (i := i) (a := v), h]; rfl))
      obtain ⟨n2, i1, i2, i3⟩ := textSetFrom_run vs (i + 1) _ n' (l.set i v) hs' g2 hne' (by rw [List.length_set]; omega) (fun w hw => hv w (List.mem_cons_of_mem _ hw))
      refine ⟨n2, ?_, ?_, by rw [i3, g3]⟩
      · rw [listSetFrom, bind_ok g1, i1, Node.modify_modify]
        simp only [List.length_set, List.length_cons, show i + 1 + vs.length = i + (vs.length + 1) by omega]
        rfl
      · convert i2 using 1
        simp only []
        rw [List.length_set, List.length_cons, show l.length - i = (l.length - (i + 1)) + 1 by omega, List.take_succ_cons, take_set_succ v l i hlt,
          List.drop_set_of_lt (show i < i + 1 + vs.length by omega), show i + (vs.length + 1) = i + 1 + vs.length by omega]
        simp

include heng hp hr hpp hk in
theorem textAssign_run (hs : s.get a = some n) (hl : TextsRead read pp n l) (hne : l ≠ []) (vs : List α) (hv : ∀ v ∈ vs, Keeps read toXml v) :
    TStep pp read a s n (listAssign eng ctx read (storeText ctx toXml e) xp e (.elem a) vs s)
      (if vs.length = l.length then .ok () else .error .typeError, vs.take l.length ++ l.drop vs.length) := by
  obtain ⟨n', g1, g2, g3⟩ := textSetFrom_run (toXml := toXml) heng hp hr hpp hk vs 0 s n l hs hl hne (Nat.zero_le _) hv
  have hs' : (s.modify a (fun _ => n')).get a = some n' := by rw [Node.get_modify, hs]; rfl
  have e1 : l.take 0 ++ vs.take (l.length - 0) ++ l.drop (0 + vs.length) = vs.take l.length ++ l.drop vs.length := by simp
  rw [e1] at g2
  simp only [Nat.zero_add] at g1
  have hlen := textLen_run heng hp hr hpp hs' g2
  have hll : (vs.take l.length ++ l.drop vs.length).length = l.length := by
    rw [List.length_append, List.length_take, List.length_drop]; omega
  refine ⟨n', ?_, g2, g3⟩
  unfold listAssign
  by_cases h1 : vs.length ≤ l.length
  · rw [if_pos h1] at g1
    rw [bind_ok g1]
    simp only [hll] at hlen
    rw [bind_ok hlen]
    have hpos : 0 < l.length := List.length_pos_iff.2 hne
    obtain ⟨k, hk'⟩ : ∃ k, l.length + (s.modify a (fun _ => n')).nodes = k + 1 := ⟨l.length + (s.modify a (fun _ => n')).nodes - 1, by omega⟩
    rw [listTrimAll_run, hk', listTrim, bind_ok hlen]
    by_cases h2 : vs.length = l.length
    · rw [if_pos h2, if_neg (by omega)]; rfl
    · rw [if_neg h2, if_pos (show l.length > vs.length by omega)]
      refine bind_err ?_
      unfold listPop
      simp only [bind_assoc']
      rw [bind_ok hlen]
      have hp1 : pos l.length ((l.length : Int) - 1) = some (l.length - 1) := by
        unfold pos; rw [if_pos ⟨by omega, by omega⟩]; congr 1; omega
      have hg := textGet_run heng hp hr hpp hs' g2 ((l.length : Int) - 1)
      have hp2 : pos (vs.take l.length ++ l.drop vs.length).length ((l.length : Int) - 1) = some (l.length - 1) := by rw [hll]; exact hp1
      rw [pyGet_some hp2] at hg
      have hd := textDel_run heng hp hr hpp hs' g2 ((l.length : Int) - 1)
      rw [hp2] at hd
      refine Eq.trans (show _ = (listGet eng ctx read xp (.elem a) ((l.length : Int) - 1) >>= fun val => listDel eng ctx xp (.elem a) ((l.length : Int) - 1) >>= fun _ => pure val : M α) _ from rfl) ?_
      rw [bind_ok hg, bind_err hd]
      rfl
  · rw [if_neg h1] at g1
    rw [bind_err g1, if_neg (by omega)]

include heng hp hr hpp in
theorem textDelete_run (hs : s.get a = some n) (hl : TextsRead read pp n l) (hne : l ≠ []) :
    listDeleteAll eng ctx read xp (.elem a) s = (.error .typeError, s) := by
  obtain ⟨v, l, rfl⟩ := List.exists_cons_of_ne_nil hne
  have hlen := textHolders_len hl
  obtain ⟨b, bs, hb⟩ : ∃ b bs, textHolders pp n = b :: bs := by
    cases h : textHolders pp n with
    | nil => rw [h] at hlen; simp at hlen
    | cons b bs => exact ⟨b, bs, rfl⟩
  obtain ⟨w, h1, h2⟩ := text_item hs (k := 0) (b := b) (by rw [hb]; rfl) hl
  cases h1
  unfold listDeleteAll
  rw [bind_ok (textMatches_run heng hp hr hpp hs hl.1), bind_ok (show getDoc s = (.ok s, s) from rfl), hb, List.map_cons, listDeleteAll.go, h2, bind_ok (ofExcept_run _ _)]
  refine bind_err ?_
  have hidx : listIndex eng ctx read xp (.elem a) v s = (.ok 0, s) := by
    unfold listIndex
    rw [bind_ok (textData_run heng hp hr hpp hs hl), idxOf?_mem List.mem_cons_self]
    simp [List.idxOf_cons_self]
    rfl
  unfold listRemove
  rw [bind_ok hidx]
  have := textDel_run heng hp hr hpp hs hl ((0 : Nat) : Int)
  rw [this]
  simp [pos]

include heng hp hr hpp in
/-- On an empty list, appending is setting the single-valued field. -/
theorem textAppend_empty (hs : s.get a = some n) (ho : oneText pp n) (hno : textsAt pp n = []) (v : α) (t : Str) (ht : toXml v = .ok (some t)) :
    listAppend eng ctx read (storeText ctx toXml e) xp e (.elem a) v s = managerSet eng ctx (.ok (some (.str t))) xp e (.elem a) s := by
  have hl : TextsRead read pp n [] := ⟨ho, by rw [hno]; exact .nil⟩
  have hh : textHolders pp n = [] := List.length_eq_zero_iff.1 (by rw [textHolders_len hl]; rfl)
  have hm : Step.matches (pp ++ [.text]) n = [] := by rw [matches_text pp n hpp hl.1, hh]; rfl
  have hf := findNode_path heng hp hr hs
  rw [hm] at hf
  unfold listAppend
  rw [bind_ok (textLen_run heng hp hr hpp hs hl)]
  unfold listSet managerSet
  rw [bind_ok (textMatches_run heng hp hr hpp hs hl.1), hh, bind_ok (ofExcept_run _ s), bind_ok hf]
  simp only [List.map_nil, List.length_nil, List.head?_nil, Option.map_none]
  rw [if_pos trivial]
  simp only [bind_assoc']
  rw [bind_ok (show appendIndex [] s = (.ok none, s) from rfl)]
  cases hc : createNode eng ctx e (.elem a) none s with
  | mk x s' => cases x with
    | error er => rw [bind_err hc, bind_err hc]
    | ok r =>
      rw [bind_ok hc, bind_ok hc]
      unfold storeText
      rw [ht, bind_ok (ofExcept_run _ _)]
      rfl

end

end Fields
