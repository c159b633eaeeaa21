import Verif.Spec.AttrList
import Verif.XmlMap.NodeListLemmas
import Verif.XmlMap.WriteLemmas
import Mathlib.Data.List.Forall2
/-
Lists of attributes: where they are, and what changing one does.
-/
namespace Fields
open Xml XPath Spec

/-- The addresses of the elements with the attributes of `attrsAt`. -/
def holders : List Step → QName → Node → List Node.Addr
  | [], q, n => if (n.attr? q).isSome then [[]] else []
  | .child q' ps :: r, q, n => (n.children.mapIdx (fun i c => (if c.isElem q' && satAll ps c then holders r q c else []).map (i :: ·))).flatten
  | _, _, _ => []

theorem matches_attr : ∀ (pp : List Step) (q : QName) (n : Node), childSteps pp = true → Step.matches (pp ++ [.attr q]) n = (holders pp q n).map (fun b => Ref.attr b q)
  | [], q, n, _ => by
    simp only [List.nil_append, Step.matches, holders, List.isEmpty_nil, Bool.true_and]
    split_ifs <;> rfl
  | .child q' ps :: r, q, n, h => by
    have hr : childSteps r = true := by
      simp only [childSteps, List.all_cons, Bool.and_eq_true] at h ⊢
      exact h.2
    rw [List.cons_append, Step.matches, holders, List.map_flatten]
    congr 1
    apply List.ext_getElem (by simp)
    intro i h1 h2
    simp only [List.getElem_map, List.getElem_mapIdx]
    split_ifs
    · rw [matches_attr r q _ hr, List.map_map, List.map_map]
      rfl
    · rfl
  | .attr q' :: r, q, n, h => by simp [childSteps] at h
  | .text :: r, q, n, h => by simp [childSteps] at h

/-- Where an entry of a flattened list comes from. -/
theorem flatten_at {α β : Type} (F : α → List β) (g : Nat → β → List Nat) : ∀ (cs : List α) (o k : Nat) (x : List Nat),
    (cs.mapIdx (fun i c => (F c).map (g (o + i)))).flatten[k]? = some x →
      ∃ A c B y k', cs = A ++ c :: B ∧ (F c)[k']? = some y ∧ x = g (o + A.length) y ∧ k = (A.flatMap F).length + k'
  | [], o, k, x, h => by simp at h
  | c :: cs, o, k, x, h => by
    rw [List.mapIdx_cons, List.flatten_cons] at h
    by_cases hk : k < (F c).length
    · rw [List.getElem?_append_left (by simpa using hk), List.getElem?_map] at h
      cases hy : (F c)[k]? with
      | none => rw [hy] at h; simp at h
      | some y =>
        rw [hy] at h
        simp only [Option.map_some, Option.some.injEq] at h
        exact ⟨[], c, cs, y, k, rfl, hy, h.symm, by simp⟩
    · rw [List.getElem?_append_right (by simpa using hk)] at h
      have e : (cs.mapIdx fun i c => (F c).map (g (o + (i + 1)))) = cs.mapIdx fun i c => (F c).map (g (o + 1 + i)) := by
        congr 1; funext i c; rw [show o + (i + 1) = o + 1 + i by omega]
      rw [e] at h
      obtain ⟨A, c', B, y, k', h1, h2, h3, h4⟩ := flatten_at F g cs (o + 1) _ x h
      refine ⟨c :: A, c', B, y, k', by rw [h1]; rfl, h2, by rw [h3, List.length_cons]; congr 1; omega, ?_⟩
      simp only [List.length_map] at h4
      rw [List.flatMap_cons, List.length_append]
      omega

theorem modify_here {α : Type} (A : List α) (c : α) (B : List α) (f : α → α) : (A ++ c :: B).modify A.length f = A ++ f c :: B := by
  induction A with
  | nil => rfl
  | cons a A ih => simp [List.modify_succ_cons, ih]

/-- Predicates about other attributes still hold. -/
theorem satAll_setAttr {q : QName} {v : Str} : ∀ (ps : List Pred) (c : Node), ps.all (Pred.notAbout q) = true → satAll ps (c.setAttr q v) = satAll ps c
  | [], c, _ => rfl
  | p :: ps, c, h => by
    rw [List.all_cons, Bool.and_eq_true] at h
    rw [satAll, satAll, satAll_setAttr ps c h.2]
    cases p with
    | attr q' cmp =>
      have hq : q' ≠ q := by simpa [Pred.notAbout] using h.1
      rw [Pred.sat, Pred.sat, Node.attr?_setAttr, if_neg hq]
    | here cmp => simp [Pred.notAbout] at h
    | child q' ps' rest => simp [Pred.notAbout] at h

theorem satAll_attrs : ∀ (ps : List Pred) (c c' : Node), attrOnly ps = true → c'.attrs = c.attrs → satAll ps c' = satAll ps c
  | [], c, c', _, _ => rfl
  | p :: ps, c, c', h, ha => by
    rw [attrOnly, List.all_cons, Bool.and_eq_true] at h
    rw [satAll, satAll, satAll_attrs ps c c' h.2 ha]
    cases p with
    | attr q' cmp => rw [Pred.sat, Pred.sat]; unfold Node.attr?; rw [ha]
    | here cmp => simp [Pred.attrOf] at h
    | child q' ps' rest => simp [Pred.attrOf] at h

theorem holders_length : ∀ (pp : List Step) (q : QName) (n : Node), (holders pp q n).length = (attrsAt pp q n).length
  | [], q, n => by
    unfold holders attrsAt
    cases n.attr? q <;> rfl
  | .child q' ps :: r, q, n => by
    rw [holders, attrsAt, List.length_flatten, List.length_flatMap]
    congr 1
    apply List.ext_getElem (by simp)
    intro i h1 h2
    simp only [List.getElem_map, List.getElem_mapIdx, List.length_map]
    split_ifs
    · exact holders_length r q _
    · rfl
  | .attr q' :: r, q, n => rfl
  | .text :: r, q, n => rfl

/-- The attribute at a position. -/
theorem holders_get : ∀ (pp : List Step) (q : QName) (n : Node) (k : Nat) (b : Node.Addr), (holders pp q n)[k]? = some b →
    ∃ m t, n.get b = some m ∧ m.attr? q = some t ∧ (attrsAt pp q n)[k]? = some t
  | [], q, n, k, b, h => by
    unfold holders at h
    unfold attrsAt
    cases ha : n.attr? q with
    | none => rw [ha] at h; simp at h
    | some t =>
      rw [ha] at h
      match k, h with
      | 0, h => cases h; exact ⟨n, t, rfl, ha, rfl⟩
  | .child q' ps :: r, q, n, k, b, h => by
    rw [holders] at h
    have h' : ((n.children.mapIdx (fun i c => (if c.isElem q' && satAll ps c then holders r q c else []).map ((0 + i) :: ·))).flatten)[k]? = some b := by
      simpa only [Nat.zero_add] using h
    obtain ⟨A, c, B, y, k', h1, h2, h3, h4⟩ := flatten_at (fun c => if c.isElem q' && satAll ps c then holders r q c else []) (fun i b => i :: b) n.children 0 k b h'
    by_cases hc : (c.isElem q' && satAll ps c) = true
    · rw [if_pos hc] at h2
      obtain ⟨m, t, g1, g2, g3⟩ := holders_get r q c k' y h2
      refine ⟨m, t, ?_, g2, ?_⟩
      · rw [h3, Nat.zero_add, Node.get_cons, h1, List.getElem?_append_right (Nat.le_refl _), Nat.sub_self]
        exact g1
      · rw [attrsAt, h1, List.flatMap_append, List.flatMap_cons, if_pos hc, h4]
        have hl : (A.flatMap fun c => if (c.isElem q' && satAll ps c) = true then holders r q c else []).length = (A.flatMap fun c => if (c.isElem q' && satAll ps c) = true then attrsAt r q c else []).length := by
          rw [List.length_flatMap, List.length_flatMap]
          congr 2
          funext c
          split_ifs
          · exact holders_length r q c
          · rfl
        rw [hl, List.getElem?_append_right (by omega), Nat.add_sub_cancel_left, List.getElem?_append_left]
        · exact g3
        · exact (List.getElem?_eq_some_iff.1 g3).1
    · rw [if_neg hc] at h2; simp at h2
  | .attr q' :: r, q, n, k, b, h => by simp [holders] at h
  | .text :: r, q, n, k, b, h => by simp [holders] at h

/-- Changing one of the attributes. -/
theorem holders_put (t : Str) : ∀ (pp : List Step) (q : QName) (n : Node) (k : Nat) (b : Node.Addr), keepsAttr pp q = true → (holders pp q n)[k]? = some b →
    holders pp q (n.modify b (Node.setAttr q t)) = holders pp q n ∧ attrsAt pp q (n.modify b (Node.setAttr q t)) = (attrsAt pp q n).set k t ∧
      wiped pp q (n.modify b (Node.setAttr q t)) = wiped pp q n
  | [], q, n, k, b, _, h => by
    unfold holders at h ⊢
    unfold attrsAt wiped
    cases ha : n.attr? q with
    | none => rw [ha] at h; simp at h
    | some t' =>
      rw [ha] at h
      match k, h with
      | 0, h =>
        cases h
        rw [Node.modify_nil, Node.attr?_setAttr, if_pos rfl]
        refine ⟨rfl, rfl, ?_⟩
        simp
  | .child q' ps :: r, q, n, k, b, hk, h => by
    rw [holders] at h
    have h' : ((n.children.mapIdx (fun i c => (if c.isElem q' && satAll ps c then holders r q c else []).map ((0 + i) :: ·))).flatten)[k]? = some b := by
      simpa only [Nat.zero_add] using h
    obtain ⟨A, c, B, y, k', h1, h2, h3, h4⟩ := flatten_at (fun c => if c.isElem q' && satAll ps c then holders r q c else []) (fun i b => i :: b) n.children 0 k b h'
    rw [Nat.zero_add] at h3
    by_cases hc : (c.isElem q' && satAll ps c) = true
    · rw [if_pos hc] at h2
      have hkr : keepsAttr r q = true := by
        cases r with
        | nil => rfl
        | cons st r => simp only [keepsAttr, Bool.and_eq_true] at hk; exact hk.2
      obtain ⟨i1, i2, i3⟩ := holders_put t r q c k' y hkr h2
      have hc' : ((c.modify y (Node.setAttr q t)).isElem q' && satAll ps (c.modify y (Node.setAttr q t))) = true := by
        have e1 : (c.modify y (Node.setAttr q t)).isElem q' = c.isElem q' := by
          unfold Node.isElem
          rw [Node.modify_tag (fun m => by simp)]
        have e2 : satAll ps (c.modify y (Node.setAttr q t)) = satAll ps c := by
          cases r with
          | nil =>
            have hy : y = [] := by
              unfold holders at h2
              split_ifs at h2
              · match k', h2 with
                | 0, h2 => cases h2; rfl
              · simp at h2
            subst hy
            exact satAll_setAttr ps c (by simpa [keepsAttr] using hk)
          | cons st r =>
            have hy : y ≠ [] := by
              rintro rfl
              have := List.mem_of_getElem? h2
              cases st with
              | child q2 ps2 =>
                rw [holders] at this
                obtain ⟨l, hl, hm⟩ := List.mem_flatten.1 this
                obtain ⟨i, hi, rfl⟩ := List.mem_mapIdx.1 hl
                obtain ⟨z, -, hz⟩ := List.mem_map.1 hm
                cases hz
              | attr q2 => simp [holders] at this
              | text => simp [holders] at this
            obtain ⟨i, y', rfl⟩ := List.exists_cons_of_ne_nil hy
            refine satAll_attrs ps c _ ?_ (by rw [Node.modify_cons]; simp)
            simp only [keepsAttr, Bool.and_eq_true] at hk; exact hk.1
        rw [e1, e2]; exact hc
      have hn : (n.modify b (Node.setAttr q t)) = n.withChildren (A ++ (c.modify y (Node.setAttr q t)) :: B) := by
        rw [h3, Node.modify_cons, h1, modify_here]
      rw [hn]
      refine ⟨?_, ?_, ?_⟩
      · rw [holders, holders, Node.withChildren_children, h1, List.mapIdx_append, List.mapIdx_append, List.mapIdx_cons, List.mapIdx_cons, if_pos hc, if_pos hc', i1]
      · rw [attrsAt, attrsAt, Node.withChildren_children, h1, List.flatMap_append, List.flatMap_append, List.flatMap_cons, List.flatMap_cons, if_pos hc, if_pos hc', i2, h4]
        have hl : (A.flatMap fun c => if (c.isElem q' && satAll ps c) = true then holders r q c else []).length = (A.flatMap fun c => if (c.isElem q' && satAll ps c) = true then attrsAt r q c else []).length := by
          rw [List.length_flatMap, List.length_flatMap]
          congr 2
          funext c
          split_ifs
          · exact holders_length r q c
          · rfl
        have hlt : k' < (attrsAt r q c).length := by rw [← holders_length]; exact (List.getElem?_eq_some_iff.1 h2).1
        rw [hl, List.set_append_right _ _ (by omega), Nat.add_sub_cancel_left, List.set_append_left _ _ hlt]
      · rw [wiped, wiped, Node.withChildren_children, h1, List.map_append, List.map_append, List.map_cons, List.map_cons, if_pos hc, if_pos hc', i3, Node.withChildren_withChildren]
    · rw [if_neg hc] at h2; simp at h2
  | .attr q' :: r, q, n, k, b, _, h => by simp [holders] at h
  | .text :: r, q, n, k, b, _, h => by simp [holders] at h

/-- The texts `ts` are read as the values `l`. -/
def ReadsAs {α : Type} (read : Item → Except PyErr α) (ts : List Str) (l : List α) : Prop := List.Forall₂ (fun t v => read (.str t) = .ok v) ts l

/-- A value that is written as a text which is read as the value. -/
def Keeps {α : Type} (read : Item → Except PyErr α) (toXml : α → Except PyErr (Option Str)) (v : α) : Prop :=
  ∃ t, toXml v = .ok (some t) ∧ xmlOk t = true ∧ read (.str t) = .ok v

section
variable [PyUnicode] {eng : Engine} {ctx : Ctx} {α : Type} [DecidableEq α] {read : Item → Except PyErr α} {toXml : α → Except PyErr (Option Str)}
  {xp : Str} {e : Expr} {pp : List Step} {q : QName} {a : Node.Addr} {s n : Node} {l : List α}

/-- The result of an operation on a list of attributes. -/
def AStep (pp : List Step) (q : QName) (read : Item → Except PyErr α) (a : Node.Addr) (s n : Node) {β : Type} (r : Except PyErr β × Node) (x : Except PyErr β × List α) : Prop :=
  ∃ n', r = (x.1, s.modify a (fun _ => n')) ∧ ReadsAs read (attrsAt pp q n') x.2 ∧ wiped pp q n' = wiped pp q n

omit [PyUnicode] [DecidableEq α] in
theorem astep_same (hs : s.get a = some n) (hl : ReadsAs read (attrsAt pp q n) l) {β : Type} (x : Except PyErr β) : AStep pp q read a s n (x, s) (x, l) :=
  ⟨n, by show (x, s) = (x, s.modify a (fun _ => n)); congr 1; exact (Node.modify_id hs rfl).symm, hl, rfl⟩

omit [PyUnicode] [DecidableEq α] in
theorem AStep.wrap {β γ : Type} {x : M β} {y : Except PyErr β × List α} (h : AStep pp q read a s n (x s) y) (f : β → γ) :
    AStep pp q read a s n ((x >>= fun b => pure (f b)) s) (y.1.map f, y.2) := by
  obtain ⟨n', h1, h2, h3⟩ := h
  refine ⟨n', ?_, h2, h3⟩
  cases hy : y.1 with
  | ok b => rw [hy] at h1; rw [bind_ok h1]; rfl
  | error b => rw [hy] at h1; rw [bind_err h1]; rfl

theorem attrMatches_run (heng : EngineOk eng) (hp : parse0 xp = .ok e) (hr : res ctx e = some (pp ++ [.attr q], none)) (hpp : childSteps pp = true) (hs : s.get a = some n) :
    listMatches eng ctx xp (.elem a) s = (.ok ((holders pp q n).map (fun b => Ref.attr (a ++ b) q)), s) := by
  have h := heng.path ctx xp _ (pp ++ [.attr q]) s n a hp (by simp [resPath, hr]) hs
  have h1 : evalXPath eng ctx xp (.elem a) s = (.ok (.nodes ((Step.matches (pp ++ [.attr q]) n).map (Ref.under a))), s) := by
    show (eng.xpath xp s a ctx, s) = _
    rw [h]
  unfold listMatches
  rw [bind_ok h1, matches_attr pp q n hpp, List.map_map]
  rfl

omit [PyUnicode] [DecidableEq α] in
theorem attr_item (hs : s.get a = some n) {k : Nat} {b : Node.Addr} (hb : (holders pp q n)[k]? = some b) (hl : ReadsAs read (attrsAt pp q n) l) :
    ∃ v, l[k]? = some v ∧ mapMatch read s (.attr (a ++ b) q) = .ok v := by
  obtain ⟨m, t, h1, h2, h3⟩ := holders_get pp q n k b hb
  have hk := (List.getElem?_eq_some_iff.1 h3).1
  have hk' : k < l.length := by rw [← hl.length_eq]; exact hk
  refine ⟨l[k], List.getElem?_eq_getElem hk', ?_⟩
  have hg : s.get (a ++ b) = some m := by rw [Node.get_append, hs]; exact h1
  have hv : read (.str t) = .ok l[k] := by
    have := List.Forall₂.get hl hk hk'
    simp only [List.get_eq_getElem] at this
    rw [show (attrsAt pp q n)[k] = t by rw [List.getElem?_eq_getElem hk] at h3; exact Option.some.inj h3] at this
    exact this
  simp only [mapMatch, itemOf, hg, Option.bind_some, h2, Option.map_some]
  exact hv

omit [PyUnicode] [DecidableEq α] in
theorem attr_items (hs : s.get a = some n) (hl : ReadsAs read (attrsAt pp q n) l) :
    mapMatches read s ((holders pp q n).map (fun b => Ref.attr (a ++ b) q)) = .ok l := by
  have key : ∀ (B : List Node.Addr) (k : Nat), (holders pp q n).drop k = B → mapMatches read s (B.map (fun b => Ref.attr (a ++ b) q)) = .ok (l.drop k) := by
    intro B
    induction B with
    | nil =>
      intro k hk
      have : l.length ≤ k := by
        rw [← hl.length_eq, ← holders_length]
        exact List.drop_eq_nil_iff.1 hk
      rw [List.drop_eq_nil_of_le this]; rfl
    | cons b B ih =>
      intro k hk
      have hb : (holders pp q n)[k]? = some b := by
        have := congrArg List.head? hk
        simpa using this
      obtain ⟨v, h1, h2⟩ := attr_item hs hb hl
      have hk2 : (holders pp q n).drop (k + 1) = B := by
        rw [← List.tail_drop, hk]; rfl
      rw [List.map_cons, mapMatches, h2, ih (k + 1) hk2]
      obtain ⟨hlt, he⟩ := List.getElem?_eq_some_iff.1 h1
      rw [List.drop_eq_getElem_cons hlt, he]
  exact key _ 0 rfl

variable (heng : EngineOk eng) (hp : parse0 xp = .ok e) (hr : res ctx e = some (pp ++ [.attr q], none)) (hpp : childSteps pp = true) (hk : keepsAttr pp q = true)

include heng hp hr hpp in
theorem attrData_run (hs : s.get a = some n) (hl : ReadsAs read (attrsAt pp q n) l) : listData eng ctx read xp (.elem a) s = (.ok l, s) := by
  unfold listData
  rw [bind_ok (attrMatches_run heng hp hr hpp hs), bind_ok (show getDoc s = (.ok s, s) from rfl), attr_items hs hl]
  rfl

include heng hp hr hpp in
theorem attrLen_run (hs : s.get a = some n) (hl : ReadsAs read (attrsAt pp q n) l) : listLen eng ctx read xp (.elem a) s = (.ok l.length, s) := by
  unfold listLen
  rw [bind_ok (attrData_run heng hp hr hpp hs hl)]; rfl

omit [PyUnicode] [DecidableEq α] in
theorem holders_len (hl : ReadsAs read (attrsAt pp q n) l) : (holders pp q n).length = l.length := by rw [holders_length, hl.length_eq]

include heng hp hr hpp in
theorem attrGet_run (hs : s.get a = some n) (hl : ReadsAs read (attrsAt pp q n) l) (i : Int) : listGet eng ctx read xp (.elem a) i s = (pyGet l i, s) := by
  unfold listGet
  rw [bind_ok (attrMatches_run heng hp hr hpp hs), pyGet_pos, pyGet_pos, List.length_map, holders_len hl]
  cases hp : pos l.length i with
  | none => simp only []; rw [bind_err (ofExcept_err _ _)]
  | some k =>
    have hlt := pos_lt hp
    have hb : (holders pp q n)[k]? = some ((holders pp q n)[k]'(by rw [holders_len hl]; exact hlt)) := List.getElem?_eq_getElem _
    obtain ⟨v, h1, h2⟩ := attr_item hs hb hl
    simp only [List.getElem?_map, hb, Option.map_some]
    rw [bind_ok (ofExcept_run _ _), bind_ok (show getDoc s = (.ok s, s) from rfl), h2, h1]
    rfl

include heng hp hr hpp hk in
theorem attrSet_at (hs : s.get a = some n) (hl : ReadsAs read (attrsAt pp q n) l) (i : Int) (k : Nat) (hi : pos l.length i = some k) (v : α) (hv : Keeps read toXml v) :
    AStep pp q read a s n (listSet eng ctx (storeText ctx toXml e) xp e (.elem a) i v s) (.ok (), l.set k v) := by
  have hlt := pos_lt hi
  have hb : (holders pp q n)[k]? = some ((holders pp q n)[k]'(by rw [holders_len hl]; exact hlt)) := List.getElem?_eq_getElem _
  generalize (holders pp q n)[k]'(by rw [holders_len hl]; exact hlt) = b at hb
  obtain ⟨t, ht1, ht2, ht3⟩ := hv
  obtain ⟨h1, h2, h3⟩ := holders_put t pp q n k b hk hb
  have hrun : listSet eng ctx (storeText ctx toXml e) xp e (.elem a) i v s = (.ok (), s.modify a (fun _ => n.modify b (Node.setAttr q t))) := by
    have hne : ¬ (i = (l.length : Int)) := by unfold pos at hi; split_ifs at hi <;> omega
    have hgt : ¬ (i > (l.length : Int)) := by unfold pos at hi; split_ifs at hi <;> omega
    have hin : (pyGet ((holders pp q n).map (fun b => Ref.attr (a ++ b) q)) i) = .ok (Ref.attr (a ++ b) q) := by
      rw [pyGet_pos, List.length_map, holders_len hl, hi]
      simp only [List.getElem?_map, hb, Option.map_some]
    have hsel : (if i = (((holders pp q n).map (fun b => Ref.attr (a ++ b) q)).length : Int) then do
        let idx ← appendIndex ((holders pp q n).map (fun b => Ref.attr (a ++ b) q))
        createNode eng ctx e (.elem a) idx
      else if i > (((holders pp q n).map (fun b => Ref.attr (a ++ b) q)).length : Int) then raise .indexError
      else ofExcept (pyGet ((holders pp q n).map (fun b => Ref.attr (a ++ b) q)) i) : M Ref) s = (.ok (Ref.attr (a ++ b) q), s) := by
      rw [List.length_map, holders_len hl, if_neg hne, if_neg hgt, hin]; rfl
    unfold listSet
    rw [bind_ok (attrMatches_run heng hp hr hpp hs), bind_ok hsel]
    unfold storeText
    rw [ht1, bind_ok (ofExcept_run _ _), setInXml_attr hr ht2 (by simp), Node.modify_append]
    exact congrArg (Prod.mk _) (Node.modify_congr hs rfl)
  refine ⟨_, hrun, ?_, h3⟩
  rw [h2]
  have : ∀ (ts : List Str) (l : List α) (k : Nat), List.Forall₂ (fun t v => read (.str t) = .ok v) ts l → List.Forall₂ (fun t v => read (.str t) = .ok v) (ts.set k t) (l.set k v) := by
    intro ts l k h
    induction h generalizing k with
    | nil => exact .nil
    | cons h1 h2 ih =>
      cases k with
      | zero => exact .cons ht3 h2
      | succ k => exact .cons h1 (ih k)
  exact this _ _ _ hl

include heng hp hr hpp in
/-- At the end nothing can be added. -/
theorem attrSet_end {store : Ref → α → M Unit} (hs : s.get a = some n) (hl : ReadsAs read (attrsAt pp q n) l) (hne : l ≠ []) (v : α) :
    listSet eng ctx store xp e (.elem a) l.length v s = (.error .typeError, s) := by
  have hidx : appendIndex ((holders pp q n).map (fun b => Ref.attr (a ++ b) q)) s = (.error .typeError, s) := by
    unfold appendIndex
    have hh : (holders pp q n) ≠ [] := fun h => hne (by have := holders_len hl; rw [h] at this; exact List.length_eq_zero_iff.1 this.symm)
    rw [List.getLast?_map, List.getLast?_eq_some_getLast hh]
    simp only [Option.map_some]
    exact bind_err rfl
  unfold listSet
  rw [bind_ok (attrMatches_run heng hp hr hpp hs)]
  refine bind_err ?_
  rw [List.length_map, holders_len hl, if_pos rfl]
  exact bind_err hidx

include heng hp hr hpp in
theorem attrSet_out {store : Ref → α → M Unit} (hs : s.get a = some n) (hl : ReadsAs read (attrsAt pp q n) l) (i : Int) (hi : i ≠ l.length) (hpos : pos l.length i = none) (v : α) :
    listSet eng ctx store xp e (.elem a) i v s = (.error .indexError, s) := by
  unfold listSet
  rw [bind_ok (attrMatches_run heng hp hr hpp hs)]
  refine bind_err ?_
  rw [List.length_map, holders_len hl, if_neg hi]
  split_ifs
  · rfl
  · rw [pyGet_pos, List.length_map, holders_len hl, hpos]; rfl

include heng hp hr hpp in
theorem attrDel_run (hs : s.get a = some n) (hl : ReadsAs read (attrsAt pp q n) l) (i : Int) :
    listDel eng ctx xp (.elem a) i s = (.error (if (pos l.length i).isSome then .typeError else .indexError), s) := by
  unfold listDel
  rw [bind_ok (attrMatches_run heng hp hr hpp hs), List.length_map, holders_len hl]
  by_cases h : i ≥ (l.length : Int)
  · rw [if_pos h]
    have : pos l.length i = none := by unfold pos; rw [if_neg (by omega), if_neg (by omega)]
    rw [this]; rfl
  · rw [if_neg h, pyGet_pos, List.length_map, holders_len hl]
    cases hk : pos l.length i with
    | none => exact bind_err rfl
    | some k =>
      have hlt := pos_lt hk
      simp only [List.getElem?_map, List.getElem?_eq_getElem (show k < (holders pp q n).length by rw [holders_len hl]; exact hlt), Option.map_some]
      rw [bind_ok (ofExcept_run _ _)]
      rfl

omit [PyUnicode] [DecidableEq α] in
theorem astep_err (hs : s.get a = some n) (hl : ReadsAs read (attrsAt pp q n) l) {β γ : Type} {x : M β} {er : PyErr} (h : x s = (.error er, s)) (f : β → M γ) :
    AStep pp q read a s n ((x >>= f) s) (.error er, l) := by
  rw [bind_err h]; exact astep_same hs hl _

omit [PyUnicode] in
theorem fixed_same {op : ListOp α} (h : (pyList l op).2.length = l.length) : fixedList l op = pyList l op := by unfold fixedList; rw [if_pos h]

omit [PyUnicode] in
theorem fixed_change {op : ListOp α} (h : (pyList l op).2.length ≠ l.length) : fixedList l op = (.error .typeError, l) := by unfold fixedList; rw [if_neg h]

include heng hp hr hpp hk in
theorem attrOp_run (hs : s.get a = some n) (hl : ReadsAs read (attrsAt pp q n) l) (hne : l ≠ []) (op : ListOp α) (hsup : op.supported = true)
    (hv : ∀ v ∈ op.values, Keeps read toXml v) :
    AStep pp q read a s n (runOp eng ctx read (storeText ctx toXml e) xp e (.elem a) op s) (fixedList l op) := by
  have hdata := attrData_run heng hp hr hpp hs hl
  have hlen := attrLen_run heng hp hr hpp hs hl
  have hpop : ∀ j : Int, (do let val ← listGet eng ctx read xp (.elem a) j; listDel eng ctx xp (.elem a) j; pure val : M α) s = (.error (if (pos l.length j).isSome then .typeError else .indexError), s) := by
    intro j
    have hg := attrGet_run heng hp hr hpp hs hl j
    have hd := attrDel_run heng hp hr hpp hs hl j
    cases hk : pos l.length j with
    | none => rw [pyGet_pos, hk] at hg; rw [bind_err hg]; rfl
    | some k => rw [pyGet_some hk] at hg; rw [hk] at hd; rw [bind_ok hg, bind_err hd]
  have happ : ∀ v, listAppend eng ctx read (storeText ctx toXml e) xp e (.elem a) v s = (.error .typeError, s) := by
    intro v
    unfold listAppend
    rw [bind_ok hlen]
    exact attrSet_end heng hp hr hpp hs hl hne v
  cases op with
  | len =>
    rw [fixed_same rfl]
    exact AStep.wrap (x := listLen eng ctx read xp (.elem a)) (y := (.ok l.length, l)) (by rw [hlen]; exact astep_same hs hl _) ListRes.nat
  | get i =>
    have h := AStep.wrap (x := listGet eng ctx read xp (.elem a) i) (y := (pyGet l i, l)) (by rw [attrGet_run heng hp hr hpp hs hl]; exact astep_same hs hl _) ListRes.val
    have e1 : pyList l (.get i) = ((pyGet l i).map ListRes.val, l) := by
      simp only [pyList, pyGet_pos]
      cases hk : pos l.length i with
      | none => rfl
      | some k => simp only [List.getElem?_eq_getElem (pos_lt hk)]; rfl
    rw [fixed_same (by rw [e1]), e1]
    exact h
  | set i v =>
    have hv := hv v (by simp [ListOp.values])
    by_cases h0 : i = l.length
    · rw [fixed_change (by simp [pyList, h0])]
      exact astep_err hs hl (by rw [h0]; exact attrSet_end heng hp hr hpp hs hl hne v) _
    · cases hkk : pos l.length i with
      | some k =>
        have e1 : pyList l (.set i v) = (.ok .unit, l.set k v) := by simp only [pyList]; rw [if_neg h0, hkk]
        rw [fixed_same (by rw [e1]; simp), e1]
        exact AStep.wrap (y := (.ok (), l.set k v)) (attrSet_at heng hp hr hpp hk hs hl i k hkk v hv) (fun _ => ListRes.unit)
      | none =>
        have e1 : pyList l (.set i v) = (.error .indexError, l) := by simp only [pyList]; rw [if_neg h0, hkk]
        rw [fixed_same (by rw [e1]), e1]
        exact astep_err hs hl (attrSet_out heng hp hr hpp hs hl i h0 hkk v) _
  | del i =>
    have h := attrDel_run heng hp hr hpp hs hl i
    cases hkk : pos l.length i with
    | some k =>
      rw [hkk] at h
      have := pos_lt hkk
      rw [fixed_change (by simp only [pyList, hkk, List.length_eraseIdx, if_pos this]; omega)]
      exact astep_err hs hl h _
    | none =>
      rw [hkk] at h
      have e1 : pyList l (.del i) = (.error .indexError, l) := by simp only [pyList, hkk]
      rw [fixed_same (by rw [e1]), e1]
      exact astep_err hs hl h _
  | append v =>
    rw [fixed_change (by simp [pyList])]
    exact astep_err hs hl (happ v) _
  | extend vs =>
    cases vs with
    | nil =>
      rw [fixed_same (by simp [pyList])]
      have e1 : pyList l (.extend []) = (.ok .unit, l) := by simp [pyList]
      rw [e1]
      exact astep_same hs hl _
    | cons v vs =>
      rw [fixed_change (by simp [pyList])]
      exact astep_err hs hl (bind_err (happ v)) _
  | insert i v =>
    simp only [ListOp.supported, decide_eq_true_eq] at hsup
    have hrun : listInsert eng ctx read (storeText ctx toXml e) xp e (.elem a) i v s = (.error (if i ≤ (l.length : Int) then .typeError else .indexError), s) := by
      unfold listInsert
      rw [bind_ok hlen]
      by_cases h0 : i = (l.length : Int)
      · rw [if_pos h0, happ, if_pos (by omega)]
      · rw [if_neg h0, bind_ok (attrMatches_run heng hp hr hpp hs), List.length_map, holders_len hl]
        by_cases h1 : (l.length : Int) > i
        · rw [if_pos h1, if_pos (by omega)]
          have hkk : pos l.length i = some i.toNat := by unfold pos; rw [if_pos ⟨hsup, h1⟩]
          have hlt := pos_lt hkk
          obtain ⟨b, hb⟩ : ∃ b, (holders pp q n)[i.toNat]? = some b := ⟨_, List.getElem?_eq_getElem (by rw [holders_len hl]; exact hlt)⟩
          have hin : (pyGet ((holders pp q n).map (fun b => Ref.attr (a ++ b) q)) i) = .ok (Ref.attr (a ++ b) q) := by
            rw [pyGet_pos, List.length_map, holders_len hl, hkk]
            simp only [List.getElem?_map, hb, Option.map_some]
          rw [hin, bind_ok (ofExcept_run _ _)]
          exact bind_err rfl
        · rw [if_neg h1, if_neg (by omega)]; rfl
    by_cases h0 : i ≤ (l.length : Int)
    · rw [fixed_change (by
        simp only [pyList, if_pos (And.intro hsup h0), List.length_append, List.length_take, List.length_cons, List.length_drop]; omega)]
      rw [if_pos h0] at hrun
      exact astep_err hs hl hrun _
    · have e1 : pyList l (.insert i v) = (.error .indexError, l) := by simp only [pyList]; rw [if_neg (fun h => h0 h.2)]
      rw [fixed_same (by rw [e1]), e1]
      rw [if_neg h0] at hrun
      exact astep_err hs hl hrun _
  | pop i =>
    have hj : listPop eng ctx read xp (.elem a) i s
        = (do let val ← listGet eng ctx read xp (.elem a) (i.getD (l.length - 1)); listDel eng ctx xp (.elem a) (i.getD (l.length - 1)); pure val : M α) s := by
      unfold listPop
      cases i with
      | some i => rfl
      | none =>
        simp only [bind_assoc']
        rw [bind_ok hlen]
        rfl
    rw [hpop] at hj
    cases hkk : pos l.length (i.getD (l.length - 1)) with
    | some k =>
      rw [hkk] at hj
      have := pos_lt hkk
      rw [fixed_change (by simp only [pyList, hkk, List.getElem?_eq_getElem this, List.length_eraseIdx, if_pos this]; omega)]
      exact astep_err hs hl hj _
    | none =>
      rw [hkk] at hj
      have e1 : pyList l (.pop i) = (.error .indexError, l) := by simp only [pyList, hkk]
      rw [fixed_same (by rw [e1]), e1]
      exact astep_err hs hl hj _
  | remove v =>
    by_cases hm : v ∈ l
    · have hlt := List.idxOf_lt_length_of_mem hm
      have hidx : listIndex eng ctx read xp (.elem a) v s = (.ok (l.idxOf v), s) := by
        unfold listIndex
        rw [bind_ok hdata, idxOf?_mem hm]
        rfl
      have hd := attrDel_run heng hp hr hpp hs hl (l.idxOf v)
      rw [show pos l.length (l.idxOf v) = some (l.idxOf v) by unfold pos; rw [if_pos ⟨by omega, by omega⟩]; rfl] at hd
      rw [fixed_change (by simp only [pyList, if_pos hm, List.length_erase_of_mem hm]; omega)]
      exact astep_err hs hl (by unfold listRemove; rw [bind_ok hidx]; exact hd) _
    · have hidx : listIndex eng ctx read xp (.elem a) v s = (.error .valueError, s) := by
        unfold listIndex
        rw [bind_ok hdata, List.idxOf?_eq_none_iff.2 hm]
        rfl
      have e1 : pyList l (.remove v) = (.error .valueError, l) := by simp only [pyList]; rw [if_neg hm]
      rw [fixed_same (by rw [e1]), e1]
      exact astep_err hs hl (bind_err hidx) _
  | index v =>
    by_cases hm : v ∈ l
    · have e1 : pyList l (.index v) = (.ok (.nat (l.idxOf v)), l) := by simp only [pyList]; rw [if_pos hm]
      rw [fixed_same (by rw [e1]), e1]
      refine AStep.wrap (x := listIndex eng ctx read xp (.elem a) v) (y := (.ok (l.idxOf v), l)) ?_ ListRes.nat
      have : listIndex eng ctx read xp (.elem a) v s = (.ok (l.idxOf v), s) := by
        unfold listIndex
        rw [bind_ok hdata, idxOf?_mem hm]
        rfl
      rw [this]; exact astep_same hs hl _
    · have e1 : pyList l (.index v) = (.error .valueError, l) := by simp only [pyList]; rw [if_neg hm]
      rw [fixed_same (by rw [e1]), e1]
      refine astep_err hs hl ?_ _
      unfold listIndex
      rw [bind_ok hdata, List.idxOf?_eq_none_iff.2 hm]
      rfl
  | count v =>
    rw [fixed_same rfl]
    exact AStep.wrap (x := listCount eng ctx read xp (.elem a) v) (y := (.ok (l.count v), l)) (by unfold listCount; rw [bind_ok hdata]; exact astep_same hs hl _) ListRes.nat
  | contains v =>
    rw [fixed_same rfl]
    exact AStep.wrap (x := listContains eng ctx read xp (.elem a) v) (y := (.ok (decide (v ∈ l)), l)) (by unfold listContains; rw [bind_ok hdata]; exact astep_same hs hl _) ListRes.bool
  | eq l' =>
    rw [fixed_same rfl]
    exact AStep.wrap (x := listEq eng ctx read xp (.elem a) l') (y := (.ok (decide (l = l')), l)) (by unfold listEq; rw [bind_ok hdata]; exact astep_same hs hl _) ListRes.bool

omit [PyUnicode] in
theorem fixed_length (op : ListOp α) : (fixedList l op).2.length = l.length := by
  unfold fixedList
  split_ifs with h
  · exact h
  · rfl

include heng hp hr hpp hk in
theorem attrOps_run : ∀ (ops : List (ListOp α)) (s n : Node) (l : List α), s.get a = some n → ReadsAs read (attrsAt pp q n) l → l ≠ [] → (∀ op ∈ ops, op.supported = true) →
    (∀ op ∈ ops, ∀ v ∈ op.values, Keeps read toXml v) →
    (runOps eng ctx read (storeText ctx toXml e) xp e (.elem a) ops s).1 = (fixedListAll l ops).1 ∧
      ∃ n', (runOps eng ctx read (storeText ctx toXml e) xp e (.elem a) ops s).2 = s.modify a (fun _ => n') ∧ ReadsAs read (attrsAt pp q n') (fixedListAll l ops).2 ∧
        wiped pp q n' = wiped pp q n
  | [], s, n, l, hs, hl, _, _, _ => ⟨rfl, n, (Node.modify_id hs rfl).symm, hl, rfl⟩
  | op :: ops, s, n, l, hs, hl, hne, h1, h2 => by
    obtain ⟨n', g1, g2, g3⟩ := attrOp_run (toXml := toXml) heng hp hr hpp hk hs hl hne op (h1 op List.mem_cons_self) (h2 op List.mem_cons_self)
    have hs' : (s.modify a (fun _ => n')).get a = some n' := by rw [Node.get_modify, hs]; rfl
    have hne' : (fixedList l op).2 ≠ [] := fun h => hne (List.length_eq_zero_iff.1 (by rw [← fixed_length (l := l) op, h]; rfl))
    obtain ⟨i1, n2, i2, i3, i4⟩ := attrOps_run ops _ n' _ hs' g2 hne' (fun o ho => h1 o (List.mem_cons_of_mem _ ho)) (fun o ho => h2 o (List.mem_cons_of_mem _ ho))
    simp only [runOps, fixedListAll]
    rw [g1]
    refine ⟨by rw [i1], n2, by rw [i2, Node.modify_modify]; rfl, i3, by rw [i4, g3]⟩

omit [PyUnicode] [DecidableEq α] in
theorem take_set_succ (v : α) : ∀ (l : List α) (i : Nat), i < l.length → (l.set i v).take (i + 1) = l.take i ++ [v]
  | x :: l, 0, _ => by simp
  | x :: l, i + 1, h => by simpa using take_set_succ v l i (by simpa using h)

include heng hp hr hpp hk in
theorem attrSetFrom_run : ∀ (vs : List α) (i : Nat) (s n : Node) (l : List α), s.get a = some n → ReadsAs read (attrsAt pp q n) l → l ≠ [] → i ≤ l.length → (∀ v ∈ vs, Keeps read toXml v) →
    AStep pp q read a s n (listSetFrom eng ctx (storeText ctx toXml e) xp e (.elem a) i vs s)
      (if i + vs.length ≤ l.length then .ok () else .error .typeError, l.take i ++ vs.take (l.length - i) ++ l.drop (i + vs.length))
  | [], i, s, n, l, hs, hl, _, hi, _ => by
    have e1 : l.take i ++ ([] : List α).take (l.length - i) ++ l.drop (i + ([] : List α).length) = l := by simp
    rw [e1, if_pos (by simpa using hi)]
    exact astep_same hs hl _
  | v :: vs, i, s, n, l, hs, hl, hne, hi, hv => by
    by_cases h0 : i = l.length
    · have e1 : l.take i ++ (v :: vs).take (l.length - i) ++ l.drop (i + (v :: vs).length) = l := by
        subst h0
        simp
      rw [e1, if_neg (by rw [List.length_cons]; omega)]
      refine astep_err hs hl ?_ _
      rw [h0]
      exact attrSet_end heng hp hr hpp hs hl hne v
    · have hlt : i < l.length := by omega
      have hpos : pos l.length (i : Int) = some i := by unfold pos; rw [if_pos ⟨by omega, by omega⟩]; rfl
      obtain ⟨n', g1, g2, g3⟩ := attrSet_at heng hp hr hpp hk hs hl i i hpos v (hv v List.mem_cons_self)
      have hs' : (s.modify a (fun _ => n')).get a = some n' := by rw [Node.get_modify, hs]; rfl
      have hne' : l.set i v ≠ [] := fun h => hne (List.length_eq_zero_iff.1 (by rw [← List.length_set (i := i) (a := v), h]; rfl))
      obtain ⟨n2, i1, i2, i3⟩ := attrSetFrom_run vs (i + 1) _ n' (l.set i v) hs' g2 hne' (by rw [List.length_set]; omega) (fun w hw => hv w (List.mem_cons_of_mem _ hw))
      refine ⟨n2, ?_, ?_, by rw [i3, g3]⟩
      · rw [listSetFrom, bind_ok g1, i1, Node.modify_modify]
        simp only [List.length_set, List.length_cons, show i + 1 + vs.length = i + (vs.length + 1) by omega]
        rfl
      · convert i2 using 1
        simp only []
        rw [List.length_set, List.length_cons, show l.length - i = (l.length - (i + 1)) + 1 by omega, List.take_succ_cons, take_set_succ v l i hlt,
          List.drop_set_of_lt (show i < i + 1 + vs.length by omega), show i + (vs.length + 1) = i + 1 + vs.length by omega]
        simp

include heng hp hr hpp hk in
theorem attrAssign_run (hs : s.get a = some n) (hl : ReadsAs read (attrsAt pp q n) l) (hne : l ≠ []) (vs : List α) (hv : ∀ v ∈ vs, Keeps read toXml v) :
    AStep pp q read a s n (listAssign eng ctx read (storeText ctx toXml e) xp e (.elem a) vs s)
      (if vs.length = l.length then .ok () else .error .typeError, vs.take l.length ++ l.drop vs.length) := by
  obtain ⟨n', g1, g2, g3⟩ := attrSetFrom_run (toXml := toXml) heng hp hr hpp hk vs 0 s n l hs hl hne (Nat.zero_le _) hv
  have hs' : (s.modify a (fun _ => n')).get a = some n' := by rw [Node.get_modify, hs]; rfl
  have e1 : l.take 0 ++ vs.take (l.length - 0) ++ l.drop (0 + vs.length) = vs.take l.length ++ l.drop vs.length := by simp
  rw [e1] at g2
  simp only [Nat.zero_add] at g1
  have hlen := attrLen_run heng hp hr hpp hs' g2
  have hll : (vs.take l.length ++ l.drop vs.length).length = l.length := by
    rw [List.length_append, List.length_take, List.length_drop]; omega
  refine ⟨n', ?_, g2, g3⟩
  unfold listAssign
  by_cases h1 : vs.length ≤ l.length
  · rw [if_pos h1] at g1
    rw [bind_ok g1]
    simp only [hll] at hlen
    rw [bind_ok hlen]
    have hpos : 0 < l.length := List.length_pos_iff.2 hne
    obtain ⟨k, hk'⟩ : ∃ k, l.length + (s.modify a (fun _ => n')).nodes = k + 1 := ⟨l.length + (s.modify a (fun _ => n')).nodes - 1, by omega⟩
    rw [listTrimAll_run, hk', listTrim, bind_ok hlen]
    by_cases h2 : vs.length = l.length
    · rw [if_pos h2, if_neg (by omega)]; rfl
    · rw [if_neg h2, if_pos (show l.length > vs.length by omega)]
      refine bind_err ?_
      unfold listPop
      simp only [bind_assoc']
      rw [bind_ok hlen]
      have hp1 : pos l.length ((l.length : Int) - 1) = some (l.length - 1) := by
        unfold pos; rw [if_pos ⟨by omega, by omega⟩]; congr 1; omega
      have hg := attrGet_run heng hp hr hpp hs' g2 ((l.length : Int) - 1)
      have hp2 : pos (vs.take l.length ++ l.drop vs.length).length ((l.length : Int) - 1) = some (l.length - 1) := by rw [hll]; exact hp1
      rw [pyGet_some hp2] at hg
      have hd := attrDel_run heng hp hr hpp hs' g2 ((l.length : Int) - 1)
      rw [hp2] at hd
      refine Eq.trans (show _ = (listGet eng ctx read xp (.elem a) ((l.length : Int) - 1) >>= fun val => listDel eng ctx xp (.elem a) ((l.length : Int) - 1) >>= fun _ => pure val : M α) _ from rfl) ?_
      rw [bind_ok hg, bind_err hd]
      rfl
  · rw [if_neg h1] at g1
    rw [bind_err g1, if_neg (by omega)]

include heng hp hr hpp in
theorem attrDelete_run (hs : s.get a = some n) (hl : ReadsAs read (attrsAt pp q n) l) (hne : l ≠ []) :
    listDeleteAll eng ctx read xp (.elem a) s = (.error .typeError, s) := by
  obtain ⟨v, l, rfl⟩ := List.exists_cons_of_ne_nil hne
  have hlen := holders_len hl
  obtain ⟨b, bs, hb⟩ : ∃ b bs, holders pp q n = b :: bs := by
    cases h : holders pp q n with
    | nil => rw [h] at hlen; simp at hlen
    | cons b bs => exact ⟨b, bs, rfl⟩
  obtain ⟨w, h1, h2⟩ := attr_item hs (k := 0) (b := b) (by rw [hb]; rfl) hl
  cases h1
  unfold listDeleteAll
  rw [bind_ok (attrMatches_run heng hp hr hpp hs), bind_ok (show getDoc s = (.ok s, s) from rfl), hb, List.map_cons, listDeleteAll.go, h2, bind_ok (ofExcept_run _ _)]
  refine bind_err ?_
  have hidx : listIndex eng ctx read xp (.elem a) v s = (.ok 0, s) := by
    unfold listIndex
    rw [bind_ok (attrData_run heng hp hr hpp hs hl), idxOf?_mem List.mem_cons_self]
    simp [List.idxOf_cons_self]
    rfl
  unfold listRemove
  rw [bind_ok hidx]
  have := attrDel_run heng hp hr hpp hs hl ((0 : Nat) : Int)
  rw [this]
  simp [pos]

include heng hp hr hpp in
/-- On an empty list, appending is setting the single-valued field. -/
theorem attrAppend_empty (hs : s.get a = some n) (hno : attrsAt pp q n = []) (v : α) (t : Str) (ht : toXml v = .ok (some t)) :
    listAppend eng ctx read (storeText ctx toXml e) xp e (.elem a) v s = managerSet eng ctx (.ok (some (.str t))) xp e (.elem a) s := by
  have hl : ReadsAs read (attrsAt pp q n) [] := by rw [hno]; exact .nil
  have hh : holders pp q n = [] := List.length_eq_zero_iff.1 (by rw [holders_len hl]; rfl)
  have hm : Step.matches (pp ++ [.attr q]) n = [] := by rw [matches_attr pp q n hpp, hh]; rfl
  have hf := findNode_path heng hp hr hs
  rw [hm] at hf
  unfold listAppend
  rw [bind_ok (attrLen_run heng hp hr hpp hs hl)]
  unfold listSet managerSet
  rw [bind_ok (attrMatches_run heng hp hr hpp hs), hh, bind_ok (ofExcept_run _ s), bind_ok hf]
  simp only [List.map_nil, List.length_nil, List.head?_nil, Option.map_none]
  rw [if_pos trivial]
  simp only [bind_assoc']
  rw [bind_ok (show appendIndex [] s = (.ok none, s) from rfl)]
  cases hc : createNode eng ctx e (.elem a) none s with
  | mk x s' => cases x with
    | error er => rw [bind_err hc, bind_err hc]
    | ok r =>
      rw [bind_ok hc, bind_ok hc]
      unfold storeText
      rw [ht, bind_ok (ofExcept_run _ _)]
      rfl

end

end Fields
