import Verif.Props.ListField
import Verif.XmlMap.MovingLemmas
/-
Property C109: rearranging a list of elements.  An element is at one place only, so an assignment of an element that is in the list already moves it.

Model: Verif/XmlMap/Moving.lean.  Specification: Verif/Spec/Shelf.lean.
-/
namespace Props
open XPath Xml Spec Fields

/-- The elements of the objects: those of the items of the list at the start, in order, and new ones. -/
def elementOf (q : QName) (ps : List Pred) (n : Node) (news : List Node) (k : Nat) : Node := ((members q ps n ++ news)[k]?).getD n

/-- A document at the end of a program with objects: the elements of the objects in `order` are the members of the list, in this order (each object refers to a child of the owner's element); the elements of
the other objects are outside, with their content; and nothing but the members has changed. -/
structure Arranged (q : QName) (ps : List Pred) (val : Nat → Node) (n : Node) (pl : List Place) (order : List Nat) (n' : Node) : Prop where
  members : members q ps n' = order.map val
  once : order.Nodup
  inside : ∀ k ∈ order, ∃ i, pl[k]? = some (.at i) ∧ n'.children[i]? = some (val k)
  outside : ∀ k, k < pl.length → k ∉ order → pl[k]? = some (.out (val k))
  others : SameButMembers q ps n n'

/-- Children tagged with numbers from `j` on. -/
def tagFrom (sel : Node → Bool) : Nat → List Node → Tagged
  | _, [] => []
  | j, c :: cs => if sel c then (some j, c) :: tagFrom sel (j + 1) cs else (none, c) :: tagFrom sel j cs

theorem tagFrom_children (sel : Node → Bool) : ∀ (j : Nat) (cs : List Node), (tagFrom sel j cs).map (·.2) = cs
  | _, [] => rfl
  | j, c :: cs => by
    unfold tagFrom
    split_ifs <;> simp [tagFrom_children sel _ cs]

theorem tagFrom_tag (sel : Node → Bool) : ∀ (j : Nat) (cs : List Node), ∀ x ∈ tagFrom sel j cs, x.1.isSome = sel x.2
  | _, [], x, hx => by simp [tagFrom] at hx
  | j, c :: cs, x, hx => by
    unfold tagFrom at hx
    split_ifs at hx with h <;> rcases List.mem_cons.1 hx with rfl | hx
    · simp [h]
    · exact tagFrom_tag sel _ cs x hx
    · simpa using h
    · exact tagFrom_tag sel _ cs x hx

theorem tagFrom_tags (sel : Node → Bool) : ∀ (j : Nat) (cs : List Node), tags (tagFrom sel j cs) = List.range' j (cs.filter sel).length
  | _, [] => rfl
  | j, c :: cs => by
    unfold tagFrom
    split_ifs with h
    · rw [tags_cons, tagFrom_tags sel _ cs, List.filter_cons, if_pos h, List.length_cons, List.range'_succ]
    · rw [List.filter_cons, if_neg h, ← tagFrom_tags sel j cs]
      simp [tags]

theorem tagFrom_append (sel : Node → Bool) : ∀ (A : List Node) (j : Nat) (B : List Node), tagFrom sel j (A ++ B) = tagFrom sel j A ++ tagFrom sel (j + (A.filter sel).length) B
  | [], j, B => by simp [tagFrom]
  | c :: A, j, B => by
    rw [List.cons_append, tagFrom, tagFrom]
    split_ifs with h
    · rw [tagFrom_append sel A, List.filter_cons, if_pos h, List.cons_append, List.length_cons, Nat.add_right_comm, Nat.add_assoc]
    · rw [tagFrom_append sel A, List.filter_cons, if_neg h, List.cons_append]

theorem placesOf_run (a : Node.Addr) (s : Node) : ∀ is : List Nat, placesOf (is.map (fun i => .elem (a ++ [i]))) s = (.ok (is.map .at), s)
  | [] => rfl
  | i :: is => by
    have h : positionOf (.elem (a ++ [i])) s = (.ok i, s) := by
      show (match (a ++ [i]).getLast? with
        | some i => pure i
        | none => raise .attributeError : M Nat) s = _
      rw [List.getLast?_append]
      rfl
    show (positionOf (.elem (a ++ [i])) >>= _) s = _
    rw [bind_ok h, bind_ok (placesOf_run a s is)]
    rfl

/-- The objects at the start. -/
theorem shelved_start {q : QName} {ps : List Pred} (n : Node) {news : List Node} (hnews : ∀ v ∈ news, isMember q ps v = true) :
    Shelved q ps (elementOf q ps n news) ((idxs (isMember q ps) n.children).map .at ++ news.map .out) (List.range (members q ps n).length) n := by
  have hlen : ((idxs (isMember q ps) n.children).map Place.at).length = (members q ps n).length := by
    rw [List.length_map, idxs_length]
    rfl
  have htags : tags (tagFrom (isMember q ps) 0 n.children) = List.range (members q ps n).length := by
    rw [tagFrom_tags, List.range_eq_range']
    rfl
  refine ⟨tagFrom (isMember q ps) 0 n.children, ⟨tagFrom_children _ _ _, tagFrom_tag _ _ _, by rw [htags]; exact List.nodup_range, ?_, ?_⟩, htags, ?_⟩
  · intro k p hk
    by_cases hkm : k < (members q ps n).length
    · rw [List.getElem?_append_left (by rw [hlen]; exact hkm), List.getElem?_map] at hk
      cases hi : (idxs (isMember q ps) n.children)[k]? with
      | none => rw [hi] at hk; cases hk
      | some i =>
        rw [hi] at hk
        obtain rfl : Place.at i = p := by simpa using hk
        obtain ⟨A, m, B, h1, h2, h3, h4⟩ := idxs_get hi
        right
        refine ⟨tagFrom (isMember q ps) 0 A, tagFrom (isMember q ps) (k + 1) B, ?_, ?_⟩
        · rw [h1, tagFrom_append, tagFrom, if_pos h3, h4, Nat.zero_add]
          congr 3
          unfold elementOf
          rw [List.getElem?_append_left hkm]
          have : (members q ps n)[k]? = some m := by
            unfold members
            rw [h1, List.filter_append, List.filter_cons, if_pos h3, List.getElem?_append_right (by omega)]
            simp [h4]
          rw [this]
          rfl
        · rw [← h2]
          congr 1
          have := congrArg List.length (tagFrom_children (isMember q ps) 0 A)
          simpa using this.symm
    · left
      rw [List.getElem?_append_right (by rw [hlen]; omega), hlen, List.getElem?_map] at hk
      refine ⟨?_, by rw [htags, List.mem_range]; exact hkm⟩
      unfold elementOf
      rw [List.getElem?_append_right (by omega)]
      cases hv : news[k - (members q ps n).length]? with
      | none => rw [hv] at hk; cases hk
      | some v => rw [hv] at hk; simpa using hk.symm
  · intro k hk
    have hk' : k < (members q ps n ++ news).length := by
      rw [List.length_append, hlen, List.length_map] at hk
      rw [List.length_append]; exact hk
    unfold elementOf
    rw [List.getElem?_eq_getElem hk']
    rcases List.mem_append.1 (List.getElem_mem hk') with h | h
    · exact (List.mem_filter.1 h).2
    · exact hnews _ h
  · intro k hk
    rw [List.length_append, hlen]
    rw [List.mem_range] at hk
    omega

theorem arranged_of {q : QName} {ps : List Pred} {val : Nat → Node} {n n' : Node} {pl : List Place} {order : List Nat} (h : Shelved q ps val pl order n') (hsame : SameButMembers q ps n n') :
    Arranged q ps val n pl order n' := by
  refine ⟨shelved_members h, ?_, ?_, ?_, hsame⟩
  all_goals obtain ⟨T, hT, rfl, hlt⟩ := h
  · exact hT.nodup
  · intro k hk
    obtain ⟨p, hp⟩ : ∃ p, pl[k]? = some p := ⟨_, List.getElem?_eq_getElem (hlt k hk)⟩
    rcases hT.place k p hp with ⟨-, h2⟩ | ⟨A, B, h1, rfl⟩
    · exact absurd hk h2
    · refine ⟨_, hp, ?_⟩
      rw [← hT.children, h1]
      simp
  · intro k hk hno
    obtain ⟨p, hp⟩ : ∃ p, pl[k]? = some p := ⟨_, List.getElem?_eq_getElem hk⟩
    rcases hT.place k p hp with ⟨rfl, h2⟩ | ⟨A, B, h1, rfl⟩
    · exact hp
    · exact absurd (by rw [h1, tags_append, tags_cons]; simp) hno

section
variable [PyUnicode] {eng : Engine} {number : Str → XNum} {ctx : Ctx} {xp : Str} {e : Expr} {q : QName} {ps : List Pred} {a : Node.Addr} {s n : Node}

theorem itemObjs_run (h : ListAt eng number ctx xp e q ps nodeKind (nodeView q ps) a s n) (news : List Node) :
    itemObjs eng ctx xp a news s = (.ok ((idxs (isMember q ps) n.children).map .at ++ news.map .out), s) := by
  obtain ⟨ax, t, es, rfl⟩ := res_single h.field.path
  unfold itemObjs
  rw [bind_ok (listMatches_run h.engine h.field.parse h.field.path h.node), bind_ok (placesOf_run a s _)]
  rfl

theorem start_length (q : QName) (ps : List Pred) (n : Node) (news : List Node) :
    ((idxs (isMember q ps) n.children).map Place.at ++ news.map Place.out).length = (members q ps n).length + news.length := by
  simp [idxs_length, members]

theorem readList_members (h : ListAt eng number ctx xp e q ps nodeKind (nodeView q ps) a s n) (n' : Node) :
    readList eng ctx nodeKind xp a (s.modify a (fun _ => n')) = (.ok (members q ps n'), s.modify a (fun _ => n')) := by
  obtain ⟨put, hS⟩ := h.kind.store_ok h.num
  obtain ⟨ax, t, es, rfl⟩ := res_single h.field.path
  have := listData_run (l := members q ps n') h.engine h.field.parse h.field.path hS (n := n') (s := s.modify a (fun _ => n')) (a := a) (by rw [Node.get_modify, h.node]; rfl) ⟨fun _ _ => trivial, by simp [nodeView]⟩
  exact this

/-- C109.  `items = list(obj.field)`, any new elements that fit the step, and then any sequence of operations whose values are any of these objects, whether they are in the list or not: the results and
errors, and the order of the elements in the list, are those of a shelf, on which each thing is at most once (`Spec.shelf`); every element keeps its content, in the list or outside. -/
theorem C109_history (h : ListAt eng number ctx xp e q ps nodeKind (nodeView q ps) a s n) {news : List Node} (hnews : ∀ v ∈ news, isMember q ps v = true) (ops : List ShelfOp)
    (hops : ∀ op ∈ ops, ∀ k ∈ op.things, k < (members q ps n).length + news.length) :
    ∃ pl pl' n', itemObjs eng ctx xp a news s = (.ok pl, s) ∧
      shelfRuns eng ctx xp e a pl ops s = ((shelfAll (List.range (members q ps n).length) ops).1, pl', s.modify a (fun _ => n')) ∧ pl'.length = (members q ps n).length + news.length ∧
      Arranged q ps (elementOf q ps n news) n pl' (shelfAll (List.range (members q ps n).length) ops).2 n' ∧
      readList eng ctx nodeKind xp a (s.modify a (fun _ => n')) = (.ok ((shelfAll (List.range (members q ps n).length) ops).2.map (elementOf q ps n news)), s.modify a (fun _ => n')) := by
  have h0 := itemObjs_run h news
  have hread := readList_members h
  obtain ⟨ax, t, es, rfl⟩ := res_single h.field.path
  obtain ⟨pl', n', h1, h2, h3, h4⟩ := shelfRuns_run h.engine h.field.parse h.field.path (pathOk_single h.field.ok) ops h.node (shelved_start n hnews)
    (fun op hop k hk => by rw [start_length]; exact hops op hop k hk)
  have h5 := arranged_of h3 h4
  exact ⟨_, pl', n', h0, h1, by rw [h2, start_length], h5, by rw [← h5.members]; exact hread n'⟩

/-- C109.  `obj.field = [...]` with any of these objects in any order, each at most once (sorted, reversed, filtered, with new ones in between): the list then shows just these elements in just this order. -/
theorem C109_rearrange (h : ListAt eng number ctx xp e q ps nodeKind (nodeView q ps) a s n) {news : List Node} (hnews : ∀ v ∈ news, isMember q ps v = true) (ks : List Nat) (hnd : ks.Nodup)
    (hks : ∀ k ∈ ks, k < (members q ps n).length + news.length) :
    ∃ pl pl' n', itemObjs eng ctx xp a news s = (.ok pl, s) ∧ assignObj eng ctx xp e a ks pl s = (.ok pl', s.modify a (fun _ => n')) ∧
      pl'.length = (members q ps n).length + news.length ∧ Arranged q ps (elementOf q ps n news) n pl' ks n' ∧
      readList eng ctx nodeKind xp a (s.modify a (fun _ => n')) = (.ok (ks.map (elementOf q ps n news)), s.modify a (fun _ => n')) := by
  have h0 := itemObjs_run h news
  have hread := readList_members h
  obtain ⟨ax, t, es, rfl⟩ := res_single h.field.path
  obtain ⟨pl', n', h1, h2, h3, h4⟩ := assignObj_run h.engine h.field.parse h.field.path (pathOk_single h.field.ok) ks h.node (shelved_start n hnews) hnd
    (fun k hk => by rw [start_length]; exact hks k hk)
  have h5 := arranged_of h3 h4
  exact ⟨_, pl', n', h0, h1, by rw [h2, start_length], h5, by rw [← h5.members]; exact hread n'⟩

end

/-- `l.extend(l)` does nothing on a shelf. -/
theorem shelf_extend_self : ∀ (ks l : List Nat), (ks ++ l).Nodup → l.foldl (fun l k => takenOff k l ++ [k]) (l ++ ks) = ks ++ l
  | ks, [], _ => by simp
  | ks, k :: l, h => by
    have hk : k ∉ l ++ ks := by
      intro hm
      rw [List.nodup_append] at h
      rcases List.mem_append.1 hm with hm | hm
      · exact (List.nodup_cons.1 h.2.1).1 hm
      · exact h.2.2 k hm k (by simp) rfl
    rw [List.foldl_cons, List.cons_append, takenOff_self, takenOff_id hk, List.append_assoc, shelf_extend_self (ks ++ [k]) l (by simpa using h)]
    simp

section
variable [PyUnicode] {eng : Engine} {number : Str → XNum} {ctx : Ctx} {xp : Str} {e : Expr} {q : QName} {ps : List Pred} {a : Node.Addr} {s n : Node}

/-- C109.  `obj.field.extend(list(obj.field))` leaves the list as it is: nothing is doubled. -/
theorem C109_extend_self (h : ListAt eng number ctx xp e q ps nodeKind (nodeView q ps) a s n) :
    ∃ pl pl' n', itemObjs eng ctx xp a [] s = (.ok pl, s) ∧
      shelfRuns eng ctx xp e a pl [.extend (List.range (members q ps n).length)] s = ([.ok none], pl', s.modify a (fun _ => n')) ∧
      readList eng ctx nodeKind xp a (s.modify a (fun _ => n')) = (.ok (members q ps n), s.modify a (fun _ => n')) ∧ SameButMembers q ps n n' := by
  obtain ⟨pl, pl', n', h1, h2, h3, h4, h5⟩ := C109_history h (news := []) (by simp) [.extend (List.range (members q ps n).length)] (by simp [ShelfOp.things])
  have he := shelf_extend_self [] (List.range (members q ps n).length) (by simpa using List.nodup_range)
  rw [List.append_nil, List.nil_append] at he
  refine ⟨pl, pl', n', h1, h2, ?_, h4.others⟩
  rw [h5]
  simp only [shelfAll, shelf, he]
  congr 2
  apply List.ext_getElem?
  intro i
  rw [List.getElem?_map]
  by_cases hi : i < (members q ps n).length
  · rw [List.getElem?_range hi]
    simp [elementOf, List.getElem?_eq_getElem hi]
  · rw [List.getElem?_eq_none (by simpa using hi), List.getElem?_eq_none (by omega)]
    rfl

theorem shelf_set {l : List Nat} {i : Int} {k t : Nat} (h0 : ¬ i = l.length) (h : pos l.length i = some t) :
    shelf l (.set i k) = (.ok none, takenOff k (l.take t) ++ k :: takenOff k (l.drop (t + 1))) := by
  simp only [shelf, h]
  exact if_neg h0

theorem swap_order (i m : Nat) : (shelfAll (List.range i ++ i :: (i + 1) :: (i + 2) :: List.range' (i + 3) m) [.set i (i + 1), .set (i + 1 : Nat) i])
    = ([.ok none, .ok none], List.range i ++ (i + 1) :: i :: List.range' (i + 3) m) := by
  have w1 : takenOff (i + 1) (List.range i) = List.range i := takenOff_id (by simp)
  have w2 : takenOff (i + 1) ((i + 1) :: (i + 2) :: List.range' (i + 3) m) = (i + 2) :: List.range' (i + 3) m := by
    rw [takenOff_self]; exact takenOff_id (by simp)
  have w3 : takenOff i (List.range i ++ [i + 1]) = List.range i ++ [i + 1] := takenOff_id (by simp)
  have w4 : takenOff i (List.range' (i + 3) m) = List.range' (i + 3) m := takenOff_id (by simp)
  have s1 : shelf (List.range i ++ i :: (i + 1) :: (i + 2) :: List.range' (i + 3) m) (.set i (i + 1)) = (.ok none, List.range i ++ (i + 1) :: (i + 2) :: List.range' (i + 3) m) := by
    have hp : pos (List.range i ++ i :: (i + 1) :: (i + 2) :: List.range' (i + 3) m).length (i : Int) = some i := by
      unfold pos; rw [if_pos (by simp; omega)]; simp
    have ht : (List.range i ++ i :: (i + 1) :: (i + 2) :: List.range' (i + 3) m).take i = List.range i := List.take_left' (by simp)
    have hd : (List.range i ++ i :: (i + 1) :: (i + 2) :: List.range' (i + 3) m).drop (i + 1) = (i + 1) :: (i + 2) :: List.range' (i + 3) m := by
      rw [← List.drop_drop, List.drop_left' (by simp)]; rfl
    rw [shelf_set (by simp; omega) hp]
    simp only [ht, hd, w1, w2]
  have s2 : shelf (List.range i ++ (i + 1) :: (i + 2) :: List.range' (i + 3) m) (.set (i + 1 : Nat) i) = (.ok none, List.range i ++ (i + 1) :: i :: List.range' (i + 3) m) := by
    have hp : pos (List.range i ++ (i + 1) :: (i + 2) :: List.range' (i + 3) m).length ((i + 1 : Nat) : Int) = some (i + 1) := by
      unfold pos; rw [if_pos (by simp; omega)]; simp
    have ht : (List.range i ++ (i + 1) :: (i + 2) :: List.range' (i + 3) m).take (i + 1) = List.range i ++ [i + 1] := by
      rw [List.append_cons]; exact List.take_left' (by simp)
    have hd : (List.range i ++ (i + 1) :: (i + 2) :: List.range' (i + 3) m).drop (i + 1 + 1) = List.range' (i + 3) m := by
      rw [← List.drop_drop, ← List.drop_drop, List.drop_left' (by simp)]; rfl
    rw [shelf_set (by simp; omega) hp]
    simp only [ht, hd, w3, w4]
    simp
  simp only [shelfAll, s1, s2]

/-- C109, for `l[i], l[i + 1] = l[i + 1], l[i]`, which exchanges two items of a Python list: here the item behind them, if there is one, is lost (it is overwritten). -/
theorem C109_counterexample_swap (h : ListAt eng number ctx xp e q ps nodeKind (nodeView q ps) a s n) {A B : List Node} {x y z : Node} (hm : members q ps n = A ++ x :: y :: z :: B) :
    ∃ pl pl' n', itemObjs eng ctx xp a [] s = (.ok pl, s) ∧
      shelfRuns eng ctx xp e a pl [.set A.length (A.length + 1), .set (A.length + 1 : Nat) A.length] s = ([.ok none, .ok none], pl', s.modify a (fun _ => n')) ∧
      readList eng ctx nodeKind xp a (s.modify a (fun _ => n')) = (.ok (A ++ y :: x :: B), s.modify a (fun _ => n')) := by
  have hlen : (members q ps n).length = A.length + (B.length + 3) := by rw [hm]; simp
  have hrange : List.range (members q ps n).length = List.range A.length ++ A.length :: (A.length + 1) :: (A.length + 2) :: List.range' (A.length + 3) B.length := by
    rw [hlen, List.range_eq_range', List.range_eq_range', ← List.range'_append_1, Nat.zero_add, List.range'_succ, List.range'_succ, List.range'_succ]
  obtain ⟨pl, pl', n', h1, h2, h3, h4, h5⟩ := C109_history h (news := []) (by simp) [.set A.length (A.length + 1), .set (A.length + 1 : Nat) A.length] (by
    intro op hop k hk
    simp only [List.mem_cons, List.not_mem_nil, or_false] at hop
    rcases hop with rfl | rfl <;> simp only [ShelfOp.things, List.mem_singleton] at hk <;> subst hk <;> rw [hlen] <;> simp <;> omega)
  rw [hrange, swap_order] at h2 h5
  refine ⟨pl, pl', n', h1, h2, ?_⟩
  rw [h5]
  congr 2
  have el : ∀ {C D : List Node} {w : Node}, members q ps n = C ++ w :: D → elementOf q ps n [] C.length = w := by
    intro C D w hw
    simp [elementOf, hw]
  have hA : (List.range A.length).map (elementOf q ps n []) = A := by
    apply List.ext_getElem?
    intro i
    rw [List.getElem?_map]
    by_cases hi : i < A.length
    · rw [List.getElem?_range hi]
      simp [elementOf, hm, List.getElem?_append_left hi, List.getElem?_eq_getElem hi]
    · rw [List.getElem?_eq_none (by simpa using hi), List.getElem?_eq_none (by omega)]
      rfl
  have hB : (List.range' (A.length + 3) B.length).map (elementOf q ps n []) = B := by
    apply List.ext_getElem?
    intro i
    rw [List.getElem?_map]
    by_cases hi : i < B.length
    · rw [List.getElem?_range' hi]
      have : (A ++ x :: y :: z :: B)[A.length + 3 + 1 * i]? = B[i]? := by
        rw [List.getElem?_append_right (by omega), show A.length + 3 + 1 * i - A.length = i + 3 by omega]
        rfl
      simp only [Option.map_some, elementOf, List.append_nil, hm, this]
      rw [List.getElem?_eq_getElem hi]
      rfl
    · rw [List.getElem?_eq_none (by simpa using hi), List.getElem?_eq_none (by omega)]
      rfl
  rw [List.map_append, List.map_cons, List.map_cons, hA, hB, el (C := A) hm, show A.length + 1 = (A ++ [x]).length by simp, el (C := A ++ [x]) (D := z :: B) (w := y) (by simp [hm])]

end
/-! ### the hypotheses can be met -/

/-- `<a n="1">new</a>` -/
def newThing : Node := .mk (.elem ⟨none, c%"a"⟩) [(⟨none, c%"n"⟩, c%"1")] (some c%"new") [] none

/-- The items of `listDoc` are `one` and `two`: assignment of `[two, new, one]`. -/
example : ∃ pl pl' n', itemObjs refEngine sampleCtx c%"a[@n='1']" [] [newThing] listDoc = (.ok pl, listDoc) ∧
    assignObj refEngine sampleCtx c%"a[@n='1']" (ast c%"a[@n='1']") [] [1, 2, 0] pl listDoc = (.ok pl', n') ∧
    ((readList refEngine sampleCtx nodeKind c%"a[@n='1']" [] n').1.toOption.getD []).map Node.text = [some c%"two", some c%"new", some c%"one"] := by
  obtain ⟨pl, pl', n', h1, h2, -, -, h5⟩ := C109_rearrange listAt_node (news := [newThing]) (by decide) [1, 2, 0] (by decide) (by decide)
  exact ⟨pl, pl', _, h1, h2, by rw [h5]; rfl⟩

/-- A history: the last item in front (`l.insert(0, l[1])`), a new one at the end, the first taken away, and put back at the end; an index that is too large. -/
example : ∃ pl pl' n', itemObjs refEngine sampleCtx c%"a[@n='1']" [] [newThing] listDoc = (.ok pl, listDoc) ∧
    shelfRuns refEngine sampleCtx c%"a[@n='1']" (ast c%"a[@n='1']") [] pl [.insert 0 1, .append 2, .pop (some 0), .get 0, .append 1, .insert 7 0, .append 0] listDoc
      = ([.ok none, .ok none, .ok (some 1), .ok (some 0), .ok none, .error .indexError, .ok none], pl', n') ∧
    ((readList refEngine sampleCtx nodeKind c%"a[@n='1']" [] n').1.toOption.getD []).map Node.text = [some c%"new", some c%"two", some c%"one"] := by
  obtain ⟨pl, pl', n', h1, h2, -, -, h5⟩ := C109_history listAt_node (news := [newThing]) (by decide) [.insert 0 1, .append 2, .pop (some 0), .get 0, .append 1, .insert 7 0, .append 0] (by decide)
  exact ⟨pl, pl', _, h1, h2, by rw [h5]; rfl⟩

/-- Three items, so that an exchange loses the last one. -/
def threeDoc : Node := .mk (.elem ⟨none, c%"r"⟩) [] none
  [.mk (.elem ⟨none, c%"a"⟩) [] (some c%"one") [] none, .mk (.elem ⟨none, c%"a"⟩) [] (some c%"two") [] none, .mk (.elem ⟨none, c%"a"⟩) [] (some c%"three") [] none] none

theorem listAt_three : ListAt refEngine xpathNumber sampleCtx c%"a" (ast c%"a") ⟨none, c%"a"⟩ [] nodeKind (nodeView ⟨none, c%"a"⟩ []) [] threeDoc threeDoc where
  engine := refEngine_ok
  num := xpathNumber_ok
  field := ⟨by decide, by rfl, by decide, by decide⟩
  kind := .node
  node := rfl
  fits := by intro m _; trivial

example : ∃ pl pl' n', itemObjs refEngine sampleCtx c%"a" [] [] threeDoc = (.ok pl, threeDoc) ∧
    shelfRuns refEngine sampleCtx c%"a" (ast c%"a") [] pl [.set 0 1, .set 1 0] threeDoc = ([.ok none, .ok none], pl', n') ∧
    ((readList refEngine sampleCtx nodeKind c%"a" [] n').1.toOption.getD []).map Node.text = [some c%"two", some c%"one"] := by
  obtain ⟨pl, pl', n', h1, h2, h3⟩ := C109_counterexample_swap listAt_three (A := []) rfl
  exact ⟨pl, pl', _, h1, h2, by rw [h3]; rfl⟩

/-- C109, with the same object twice: `obj.field = [l[0], l[0]]` for a list of two items leaves one; with `[l[0], l[0], l[0]]` it raises `IndexError`, and one is left, too. -/
theorem C109_counterexample_twice :
    ∃ pl r1 r2, itemObjs refEngine sampleCtx c%"a[@n='1']" [] [] listDoc = (.ok pl, listDoc) ∧
      assignObj refEngine sampleCtx c%"a[@n='1']" (ast c%"a[@n='1']") [] [0, 0] pl listDoc = r1 ∧
      assignObj refEngine sampleCtx c%"a[@n='1']" (ast c%"a[@n='1']") [] [0, 0, 0] pl listDoc = r2 ∧ r1.1.isOk = true ∧ r2.1 = .error .indexError ∧ r2.2 = r1.2 ∧
      ((readList refEngine sampleCtx nodeKind c%"a[@n='1']" [] r1.2).1.toOption.getD []).map Node.text = [some c%"one"] := by
  refine ⟨[.at 0, .at 3], _, _, by decide +kernel, rfl, rfl, by decide +kernel, ?_, ?_, ?_⟩
  · decide +kernel
  · decide +kernel
  · decide +kernel

/-- C109 applied to the sample list. -/
example := C109_extend_self listAt_three

end Props
