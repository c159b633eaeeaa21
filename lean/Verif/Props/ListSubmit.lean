import Verif.Spec.ListSubmit
import Verif.Props.Formsets
import Verif.Props.Submit
/-
Property C101: the formset of a list field (of strings or of integers) is shown, edited in the browser, and sent back.

Model: `showListSet`, `saveListSet` (Verif/Forms/ListSubmit.lean).  Specification: Verif/Spec/ListSubmit.lean.
-/
namespace Props
open XPath Xml Spec Fields Core Forms Py

/-! ### the data -/

section
variable {dj : Django} {post : Dict Str Str} {pfx : Str}

theorem clean_number {x : Str} {v : CVal Plain2} : cleans dj ⟨.integer, [], true⟩ (post.get? x) = some v ↔ ∃ k, NumberSent dj post x k ∧ v = .other (.int k) := by
  unfold NumberSent cleans
  cases h : post.get? x with
  | none => simp
  | some t =>
    by_cases ht : t = []
    · subst ht; simp
    · simp only [Option.getD_some, ht, if_false, Option.map_eq_some_iff]
      constructor
      · rintro ⟨k, h1, rfl⟩; exact ⟨k, ⟨t, rfl, ht, h1⟩, rfl⟩
      · rintro ⟨k, ⟨t', h1, -, h2⟩, rfl⟩; cases h1; exact ⟨k, h2, rfl⟩

theorem clean_optional {x : Str} : (∃ v, cleans dj ⟨.integer, [], false⟩ (post.get? x) = some v) ↔ (post.get? x).getD [] = [] ∨ ∃ k, NumberSent dj post x k := by
  unfold NumberSent cleans
  cases h : post.get? x with
  | none => simp
  | some t =>
    by_cases ht : t = []
    · subst ht; simp
    · simp only [Option.getD_some, ht, if_false, Option.map_eq_some_iff, false_or]
      constructor
      · rintro ⟨v, k, h1, rfl⟩; exact ⟨k, t, rfl, ht, h1⟩
      · rintro ⟨k, t', h1, -, h2⟩; cases h1; exact ⟨_, k, h2, rfl⟩

theorem formCount_iff {t : Int} : formCount dj post pfx = some t ↔ Counts dj post pfx t := by
  unfold Counts
  constructor
  · intro h
    unfold formCount at h
    split at h
    · rename_i a b c d h1 h2 h3 h4
      cases h
      obtain ⟨k, hk, he⟩ := clean_number.1 h1
      cases he
      obtain ⟨k', hk', -⟩ := clean_number.1 h2
      refine ⟨hk, ⟨k', hk'⟩, ?_⟩
      intro x hx
      simp only [List.mem_cons, List.not_mem_nil, or_false] at hx
      rcases hx with rfl | rfl
      · exact clean_optional.1 ⟨_, h3⟩
      · exact clean_optional.1 ⟨_, h4⟩
    · cases h
  · rintro ⟨h1, ⟨k, h2⟩, h3⟩
    obtain ⟨c, hc⟩ := clean_optional.2 (h3 c%"MIN_NUM_FORMS" (by simp))
    obtain ⟨d, hd⟩ := clean_optional.2 (h3 c%"MAX_NUM_FORMS" (by simp))
    unfold formCount
    rw [clean_number.2 ⟨t, h1, rfl⟩, clean_number.2 ⟨k, h2, rfl⟩, hc, hd]

theorem formCount_none (h : ¬ ∃ t, Counts dj post pfx t) : formCount dj post pfx = none := by
  cases h' : formCount dj post pfx with
  | none => rfl
  | some t => exact absurd ⟨t, formCount_iff.1 h'⟩ h

theorem itemValues_some {α : Type} {inp : ListInput α} {n : Nat} {f : Nat → α} : ∀ {is : List Nat}, (∀ i ∈ is, itemValue inp dj n post pfx i = some (f i)) →
    itemValues inp dj n post pfx is = some (is.map f)
  | [], _ => rfl
  | i :: is, h => by
    have ih := itemValues_some (is := is) (fun j hj => h j (List.mem_cons_of_mem _ hj))
    simp only [itemValues, h i List.mem_cons_self, ih, List.map_cons]

theorem itemValues_none {α : Type} {inp : ListInput α} {n : Nat} {i : Nat} (hi : itemValue inp dj n post pfx i = none) : ∀ {is : List Nat}, i ∈ is →
    itemValues inp dj n post pfx is = none
  | j :: is, h => by
    rcases List.mem_cons.1 h with rfl | h
    · simp only [itemValues, hi]
    · have ih := itemValues_none hi h
      simp only [itemValues, ih]
      cases itemValue inp dj n post pfx j <;> rfl

/-- The value of a form of a list of strings: the text, stripped; a form after the initial ones has no value instead of the empty string. -/
theorem itemValue_str (n i : Nat) : itemValue strInput dj n post pfx i = some (if n ≤ i ∧ dj.strip (sentText post pfx i) = [] then none else some (dj.strip (sentText post pfx i))) := by
  unfold itemValue sentText
  simp only [strInput, cleans, Bool.false_eq_true, false_and, if_false, isBlank, List.isEmpty_iff]
  split_ifs <;> rfl

theorem itemValue_int (n i : Nat) : itemValue intInput dj n post pfx i = if sentText post pfx i = [] then some none else (dj.int (sentText post pfx i)).map some := by
  unfold itemValue sentText
  simp only [intInput, cleans, Bool.false_eq_true, if_false]
  split_ifs with h
  · simp
  · cases dj.int ((post.get? (itemName pfx i)).getD []) with
    | none => rfl
    | some k => simp [isBlank]

end

/-! ### saving -/

section
variable [PyUnicode] {eng : Engine} {number : Str → XNum} {ctx : Ctx} {xp : Str} {e : Expr} {q : QName} {ps : List Pred} {α : Type} [DecidableEq α]
  {k : ListKind α} {V : ListView α} {a : Node.Addr} {s n : Node} {dj : Django} {inp : ListInput α} {absMax : Nat} {post : Dict Str Str} {pfx : Str}

theorem len_run (h : ListAt eng number ctx xp e q ps k V a s n) : ∃ m, listLen eng ctx k.read xp (.elem a) s = (.ok m, s) := by
  obtain ⟨put, hS⟩ := h.kind.store_ok h.num
  obtain ⟨ax, t, es, rfl⟩ := res_single h.field.path
  exact ⟨_, listLen_run h.engine h.field.parse h.field.path hS h.node ⟨h.fits, rfl⟩⟩

theorem save_invalid (h : ListAt eng number ctx xp e q ps k V a s n) (hb : ∀ m, boundValues inp dj absMax m post pfx = none) :
    saveListSet eng ctx k.read k.store inp dj absMax post pfx xp e (.elem a) s = (.ok false, s) := by
  obtain ⟨m, hm⟩ := len_run h
  unfold saveListSet
  rw [bind_ok hm, hb]
  rfl

theorem save_valid (h : ListAt eng number ctx xp e q ps k V a s n) {vs : Nat → List α} (hb : ∀ m, boundValues inp dj absMax m post pfx = some (vs m))
    (hvs : ∀ m, ∀ v ∈ vs m, inp.truthy v = true → V.storable v) {l : List α} (hl : ∀ m, (vs m).filter inp.truthy = l) :
    ∃ n', saveListSet eng ctx k.read k.store inp dj absMax post pfx xp e (.elem a) s = (.ok true, s.modify a (fun _ => n')) ∧
      readList eng ctx k xp a (s.modify a (fun _ => n')) = (.ok l, s.modify a (fun _ => n')) ∧ SameButMembers q ps n n' := by
  obtain ⟨m, hm⟩ := len_run h
  obtain ⟨n', h1, h2, h3⟩ := listFormset_run h inp.truthy (vs m) (hvs m)
  refine ⟨n', ?_, by rw [h2, hl], h3⟩
  unfold saveListSet
  rw [bind_ok hm, hb]
  show (listFormsetUpdate eng ctx k.read k.store inp.truthy xp e (.elem a) (vs m) >>= fun _ => pure true) s = _
  rw [bind_ok h1]
  rfl

/-- C101.  Whatever data are sent for the formset of a string list field, and whatever the list holds by then: if the data say that there are `t` forms, not too many, the list holds
afterwards exactly the texts sent for the items `0` to `t - 1`, stripped, without the empty ones, in order; nothing but the members of the list has changed.  Other data are not valid,
and the document does not change. -/
theorem C101_strings (h : ListAt eng number ctx xp e q ps (strKind ctx e) strView a s n) (dj : Django) (absMax : Nat) (post : Dict Str Str) (pfx : Str) :
    (∀ t, Counts dj post pfx t → t ≤ absMax → (∀ i < t.toNat, xmlOk (dj.strip (sentText post pfx i)) = true) →
      ∃ n', saveListSet eng ctx (strKind ctx e).read (strKind ctx e).store strInput dj absMax post pfx xp e (.elem a) s = (.ok true, s.modify a (fun _ => n')) ∧
        readList eng ctx (strKind ctx e) xp a (s.modify a (fun _ => n')) =
          (.ok ((((List.range t.toNat).map (fun i => dj.strip (sentText post pfx i))).filter (fun t => decide (t ≠ []))).map some), s.modify a (fun _ => n')) ∧
        SameButMembers q ps n n') ∧
    ((¬ ∃ t, Counts dj post pfx t ∧ t ≤ absMax) →
      saveListSet eng ctx (strKind ctx e).read (strKind ctx e).store strInput dj absMax post pfx xp e (.elem a) s = (.ok false, s)) := by
  constructor
  · intro t ht hle hok
    refine save_valid h (vs := fun m => (List.range t.toNat).map (fun i => if m ≤ i ∧ dj.strip (sentText post pfx i) = [] then none else some (dj.strip (sentText post pfx i)))) ?_ ?_ ?_
    · intro m
      unfold boundValues
      rw [formCount_iff.2 ht]
      show (if t > (absMax : Int) then none else _) = _
      rw [if_neg (by omega)]
      exact itemValues_some (fun i _ => itemValue_str m i)
    · intro m v hv hv'
      obtain ⟨i, hi, rfl⟩ := List.mem_map.1 hv
      split_ifs at hv' ⊢
      · simp [strInput, strTruthy] at hv'
      · exact ⟨_, rfl, hok i (List.mem_range.1 hi)⟩
    · intro m
      rw [List.filter_map, List.filter_map, List.map_map]
      have : ∀ i, ((strInput.truthy ∘ fun i => if m ≤ i ∧ dj.strip (sentText post pfx i) = [] then none else some (dj.strip (sentText post pfx i))) i) =
          (((fun t : Str => decide (t ≠ [])) ∘ fun i => dj.strip (sentText post pfx i)) i) := by
        intro i
        by_cases hi : dj.strip (sentText post pfx i) = []
        · simp only [Function.comp, hi, and_true]
          split_ifs <;> simp [strInput, strTruthy]
        · simp [Function.comp, hi, strInput, strTruthy]
      rw [funext this]
      refine List.map_congr_left ?_
      intro i hi
      have := (List.mem_filter.1 hi).2
      simp only [Function.comp, decide_eq_true_eq] at this
      simp [this]
  · intro hno
    refine save_invalid h (fun m => ?_)
    unfold boundValues
    cases hc : formCount dj post pfx with
    | none => rfl
    | some t =>
      show (if t > (absMax : Int) then none else _) = _
      rw [if_pos]
      by_contra hlt
      exact hno ⟨t, formCount_iff.1 hc, by omega⟩

/-- C101.  The same for an integer list field: the list holds afterwards the numbers sent, except zeros, in order; empty texts are left out.  Data with a text that is neither empty nor a number are not valid either. -/
theorem C101_integers (h : ListAt eng number ctx xp e q ps (intKind number ctx e) (intView number) a s n) (dj : Django) (absMax : Nat) (post : Dict Str Str) (pfx : Str) :
    (∀ t, Counts dj post pfx t → t ≤ absMax → ∀ f : Nat → Option Int,
      (∀ i < t.toNat, (sentText post pfx i = [] ∧ f i = none) ∨ (sentText post pfx i ≠ [] ∧ ∃ x, dj.int (sentText post pfx i) = some x ∧ f i = some x ∧ x.natAbs ≤ 2 ^ 53)) →
      ∃ n', saveListSet eng ctx (intKind number ctx e).read (intKind number ctx e).store intInput dj absMax post pfx xp e (.elem a) s = (.ok true, s.modify a (fun _ => n')) ∧
        readList eng ctx (intKind number ctx e) xp a (s.modify a (fun _ => n')) =
          (.ok (((List.range t.toNat).map f).filter (fun v => decide (v ≠ none ∧ v ≠ some 0))), s.modify a (fun _ => n')) ∧
        SameButMembers q ps n n') ∧
    ((¬ ∃ t, Counts dj post pfx t ∧ t ≤ absMax ∧ ∀ i < t.toNat, sentText post pfx i = [] ∨ ∃ x, dj.int (sentText post pfx i) = some x) →
      saveListSet eng ctx (intKind number ctx e).read (intKind number ctx e).store intInput dj absMax post pfx xp e (.elem a) s = (.ok false, s)) := by
  constructor
  · intro t ht hle f hf
    refine save_valid h (vs := fun m => (List.range t.toNat).map f) ?_ ?_ ?_
    · intro m
      unfold boundValues
      rw [formCount_iff.2 ht]
      show (if t > (absMax : Int) then none else _) = _
      rw [if_neg (by omega)]
      refine itemValues_some (fun i hi => ?_)
      rw [itemValue_int]
      rcases hf i (List.mem_range.1 hi) with ⟨h1, h2⟩ | ⟨h1, x, h2, h3, -⟩
      · rw [if_pos h1, h2]
      · rw [if_neg h1, h2, h3]; rfl
    · intro m v hv hv'
      obtain ⟨i, hi, rfl⟩ := List.mem_map.1 hv
      rcases hf i (List.mem_range.1 hi) with ⟨h1, h2⟩ | ⟨h1, x, h2, h3, h4⟩
      · rw [h2] at hv'; simp [intInput, intTruthy] at hv'
      · exact ⟨x, h3, h4⟩
    · intro m
      congr 1
      funext v
      cases v with
      | none => rfl
      | some x => by_cases hx : x = 0 <;> simp [intInput, intTruthy, hx]
  · intro hno
    refine save_invalid h (fun m => ?_)
    unfold boundValues
    cases hc : formCount dj post pfx with
    | none => rfl
    | some t =>
      show (if t > (absMax : Int) then none else _) = _
      by_cases hlt : t > (absMax : Int)
      · rw [if_pos hlt]
      · rw [if_neg hlt]
        have : ∃ i < t.toNat, sentText post pfx i ≠ [] ∧ dj.int (sentText post pfx i) = none := by
          by_contra hall
          refine hno ⟨t, formCount_iff.1 hc, by omega, fun i hi => ?_⟩
          by_contra hb
          refine hall ⟨i, hi, fun h0 => hb (.inl h0), ?_⟩
          cases hx : dj.int (sentText post pfx i) with
          | none => rfl
          | some x => exact absurd (.inr ⟨x, hx⟩) hb
        obtain ⟨i, hi, h1, h2⟩ := this
        exact itemValues_none (i := i) (by rw [itemValue_int, if_neg h1, h2]; rfl) (List.mem_range.2 hi)


/-! ### the page -/

theorem initialItem_run (h : ListAt eng number ctx xp e q ps k V a s n) {l : List α} (hl : readList eng ctx k xp a s = (.ok l, s)) (i : Nat) :
    initialItem eng ctx k.read inp xp (.elem a) i s = (.ok ((l[i]?.map inp.shown).getD .null), s) := by
  obtain ⟨put, hS⟩ := h.kind.store_ok h.num
  obtain ⟨ax, t, es, rfl⟩ := res_single h.field.path
  have hH : Fields.Holds q ps V.fits V.item n l := by
    have h0 := listData_run h.engine h.field.parse h.field.path hS h.node ⟨h.fits, rfl⟩
    unfold readList at hl
    rw [h0] at hl
    cases hl
    exact ⟨h.fits, rfl⟩
  unfold initialItem
  rw [listGet_run h.engine h.field.parse h.field.path hS h.node hH]
  by_cases hlt : i < l.length
  · have : pyGet l (i : Int) = .ok l[i] := by
      rw [pyGet_pos]
      simp [pos, hlt]
    rw [this]; simp [List.getElem?_eq_getElem hlt]
  · have : ∃ er, pyGet l (i : Int) = .error er := by
      rw [pyGet_pos, show pos l.length (i : Int) = none from by
        unfold pos; rw [if_neg (by omega), if_neg (by omega)]]
      exact ⟨_, rfl⟩
    obtain ⟨er, this⟩ := this
    rw [this]; simp [List.getElem?_eq_none (by omega : l.length ≤ i)]

theorem showItems_run (h : ListAt eng number ctx xp e q ps k V a s n) {l : List α} (hl : readList eng ctx k xp a s = (.ok l, s)) {text : α → Str}
    (hsend : ∀ v, sends inp.field (inp.shown v) = some (oneLine (text v))) (hnull : sends inp.field .null = some []) (is : List Nat) :
    showItems eng ctx k.read inp pfx xp (.elem a) is s = (.ok (is.map (fun i => (itemName pfx i, some (oneLine ((l.map text)[i]?.getD []))))), s) := by
  induction is with
  | nil => rfl
  | cons i is ih =>
    unfold showItems
    rw [bind_ok (initialItem_run h hl i), bind_ok ih]
    show (Except.ok _, s) = _
    rw [List.map_cons]
    congr 3
    rw [List.getElem?_map]
    cases l[i]? with
    | none => exact congrArg (Prod.mk _) hnull
    | some v => exact congrArg (Prod.mk _) (hsend v)

theorem show_run (h : ListAt eng number ctx xp e q ps k V a s n) {l : List α} (hl : readList eng ctx k xp a s = (.ok l, s)) {text : α → Str}
    (hsend : ∀ v, sends inp.field (inp.shown v) = some (oneLine (text v))) (hnull : sends inp.field .null = some []) :
    showListSet eng ctx k.read inp pfx xp (.elem a) s = (.ok (listPage pfx (l.map text)), s) := by
  have hlen : listLen eng ctx k.read xp (.elem a) s = (.ok l.length, s) := by
    unfold listLen
    unfold readList at hl
    rw [bind_ok hl]; rfl
  unfold showListSet
  rw [bind_ok hlen, bind_ok (showItems_run h hl hsend hnull _)]
  unfold listPage countInputs
  rw [List.length_map]
  rfl

/-- C101.  The page for the formset of a string list field: the four counts, an input with each string, without line breaks, and an empty one (unless there are 1000 strings or
more).  Showing it does not change the document. -/
theorem C101_shown_strings (h : ListAt eng number ctx xp e q ps (strKind ctx e) strView a s n) (l : List (Option Str)) (hl : readList eng ctx (strKind ctx e) xp a s = (.ok l, s)) (pfx : Str) :
    showListSet eng ctx (strKind ctx e).read strInput pfx xp (.elem a) s = (.ok (listPage pfx (l.map strText)), s) :=
  show_run h hl (fun v => by cases v <;> rfl) rfl

/-- C101.  The same for an integer list field; an item that is no number has an empty input. -/
theorem C101_shown_integers (h : ListAt eng number ctx xp e q ps (intKind number ctx e) (intView number) a s n) (l : List (Option Int))
    (hl : readList eng ctx (intKind number ctx e) xp a s = (.ok l, s)) (pfx : Str) :
    showListSet eng ctx (intKind number ctx e).read intInput pfx xp (.elem a) s = (.ok (listPage pfx (l.map intText)), s) :=
  show_run h hl (fun v => by cases v <;> rfl) rfl


/-! ### the way back -/

omit [PyUnicode] in
theorem countName_eq (hp : pfx ≠ []) (x : Str) : countName pfx x = pfx ++ '-' :: x := by
  unfold countName addPrefix
  cases pfx with
  | nil => exact absurd rfl hp
  | cons c p => rfl

omit [PyUnicode] in
theorem itemName_eq (pfx : Str) (i : Nat) : itemName pfx i = pfx ++ '-' :: (natStr i ++ c%"-val") := by
  have h : indexPrefix pfx i ≠ [] := by unfold indexPrefix; simp
  unfold itemName addPrefix
  cases h' : indexPrefix pfx i with
  | nil => exact absurd h' h
  | cons c p =>
    show (c :: p) ++ '-' :: c%"val" = _
    rw [← h']; unfold indexPrefix; simp

omit [PyUnicode] in
theorem itemName_inj {i j : Nat} (h : itemName pfx i = itemName pfx j) : i = j := by
  rw [itemName_eq, itemName_eq] at h
  have h1 := List.append_cancel_left h
  simp only [List.cons.injEq, true_and] at h1
  exact natStr_inj (List.append_cancel_right h1)

omit [PyUnicode] in
theorem itemName_count (hp : pfx ≠ []) {x : Str} (hx : x ∈ managementFields) (i : Nat) : countName pfx x ≠ itemName pfx i := by
  rw [countName_eq hp, itemName_eq]
  intro h
  have h1 := congrArg List.getLast? (List.append_cancel_left h)
  rw [List.getLast?_cons, List.getLast?_cons, List.getLast?_append] at h1
  revert h1
  simp only [managementFields, List.mem_cons, List.not_mem_nil, or_false] at hx
  rcases hx with rfl | rfl | rfl | rfl <;> simp

omit [PyUnicode] in
theorem listPage_names (hp : pfx ≠ []) (l : List Str) : ((listPage pfx l).map (·.1)).Nodup := by
  have e : (listPage pfx l).map (·.1) = managementFields.map (countName pfx) ++ (List.range (shownCount l.length)).map (itemName pfx) := by
    unfold listPage countInputs managementFields
    simp [List.map_append, List.map_map, Function.comp]
  rw [e, List.nodup_append]
  refine ⟨?_, ?_, ?_⟩
  · refine List.Nodup.map (f := countName pfx) (fun x y h => ?_) (by decide)
    rw [countName_eq hp, countName_eq hp] at h
    simpa using List.append_cancel_left h
  · exact List.Nodup.map (f := itemName pfx) (fun x y h => itemName_inj h) List.nodup_range
  · intro x hx y hy he
    obtain ⟨x', hx', rfl⟩ := List.mem_map.1 hx
    obtain ⟨i, -, rfl⟩ := List.mem_map.1 hy
    exact itemName_count hp hx' i he

omit [PyUnicode] in
/-- What is sent from the page for the texts `l`. -/
theorem list_sent (hd : DjangoOk dj) {l : List Str} {edits : Str → Option (Option Str)} (hb : Back edits post (listPage pfx l)) (hk : KeepsCounts pfx edits) :
    Counts dj post pfx (shownCount l.length) ∧
    ∀ i < shownCount l.length, sentText post pfx i = receivedText edits pfx l i := by
  have hnum : ∀ x, x ∈ managementFields → ∀ m : Nat, (countName pfx x, some (natStr m)) ∈ listPage pfx l → NumberSent dj post (countName pfx x) m := by
    intro x hx m hm
    refine ⟨natStr m, ?_, (natStr_spec m).1, ?_⟩
    · rw [hb _ _ hm]
      unfold received
      rw [hk x hx]; rfl
    · have := hd.int m
      unfold intStr at this
      rw [if_neg (by omega), Int.natAbs_natCast] at this
      exact this
  refine ⟨⟨hnum _ (by decide) _ (by simp [listPage, countInputs]), ⟨_, hnum _ (by decide) l.length (by simp [listPage, countInputs])⟩, ?_⟩, ?_⟩
  · intro x hx
    simp only [List.mem_cons, List.not_mem_nil, or_false] at hx
    rcases hx with rfl | rfl
    · exact .inr ⟨_, hnum _ (by decide) 0 (by simp [listPage, countInputs])⟩
    · exact .inr ⟨_, hnum _ (by decide) 1000 (by simp [listPage, countInputs])⟩
  · intro i hi
    unfold sentText receivedText
    rw [hb (itemName pfx i) (some (oneLine (l[i]?.getD []))) (by
      unfold listPage
      exact List.mem_append_right _ (List.mem_map.2 ⟨i, List.mem_range.2 hi, rfl⟩))]
    rfl

omit [PyUnicode] in
/-- What is sent from the page, if the user does not edit the counts. -/
theorem page_sent (hd : DjangoOk dj) (hp : pfx ≠ []) (l : List Str) {edits : Str → Option (Option Str)} (hk : KeepsCounts pfx edits) :
    Counts dj (submission edits (listPage pfx l)) pfx (shownCount l.length) ∧
    ∀ i < shownCount l.length, sentText (submission edits (listPage pfx l)) pfx i = receivedText edits pfx l i :=
  list_sent hd (fun _ _ h => submission_get (listPage_names hp l) h) hk

/-- C101.  The page for a list with the strings `l` is shown; the user edits any of the inputs and sends them; meanwhile the document may have become another one.  Then the list
holds exactly the texts in the inputs, stripped, without the empty ones, in the order of the inputs. -/
theorem C101_edited_strings (h : ListAt eng number ctx xp e q ps (strKind ctx e) strView a s n) (hd : DjangoOk dj) (hp : pfx ≠ []) (l : List (Option Str)) (edits : Str → Option (Option Str))
    (hk : KeepsCounts pfx edits) (hle : shownCount l.length ≤ absMax) (hok : ∀ i < shownCount l.length, xmlOk (dj.strip (receivedText edits pfx (l.map strText) i)) = true) :
    ∃ n', saveListSet eng ctx (strKind ctx e).read (strKind ctx e).store strInput dj absMax (submission edits (listPage pfx (l.map strText))) pfx xp e (.elem a) s =
        (.ok true, s.modify a (fun _ => n')) ∧
      readList eng ctx (strKind ctx e) xp a (s.modify a (fun _ => n')) =
        (.ok ((((List.range (shownCount l.length)).map (fun i => dj.strip (receivedText edits pfx (l.map strText) i))).filter (fun t => decide (t ≠ []))).map some), s.modify a (fun _ => n')) ∧
      SameButMembers q ps n n' := by
  obtain ⟨h1, h2⟩ := page_sent hd hp (l.map strText) hk
  rw [List.length_map] at h1 h2
  obtain ⟨n', c1, c2, c3⟩ := (C101_strings h dj absMax (submission edits (listPage pfx (l.map strText))) pfx).1 _ h1 (by omega) (by
    intro i hi
    rw [h2 i (by simpa using hi)]
    exact hok i (by simpa using hi))
  refine ⟨n', c1, ?_, c3⟩
  rw [c2, Int.toNat_natCast]
  rw [List.map_congr_left (g := fun i => dj.strip (receivedText edits pfx (l.map strText) i)) (fun i hi => by rw [h2 i (List.mem_range.1 hi)])]

omit [PyUnicode] in
theorem map_range_shown {β : Type} (l : List β) (f : β → Str) (hf : shownCount l.length = l.length ∨ shownCount l.length = l.length + 1) :
    ((List.range (shownCount l.length)).map (fun i => (l.map f)[i]?.getD [])).filter (fun t => decide (t ≠ [])) = (l.map f).filter (fun t => decide (t ≠ [])) := by
  have e : (List.range l.length).map (fun i => (l.map f)[i]?.getD []) = l.map f := by
    refine List.ext_getElem (by simp) (fun i h1 h2 => ?_)
    simp at h1 h2
    simp [h1]
  rcases hf with hf | hf
  · rw [hf, e]
  · rw [hf, List.range_succ, List.map_append, e, List.filter_append]
    simp

omit [PyUnicode] in
theorem shownCount_cases (m : Nat) : shownCount m = m ∨ shownCount m = m + 1 := by
  unfold shownCount maxNum
  split_ifs <;> omega

omit [PyUnicode] in
/-- C101.  How many inputs are shown: one for each item, and an empty one, unless there are 1000 items or more. -/
theorem C101_number (m : Nat) : (m < 1000 → shownCount m = m + 1) ∧ (1000 ≤ m → shownCount m = m) := by
  unfold shownCount maxNum
  split_ifs <;> omega

omit [PyUnicode] in
theorem shownCount_le {m : Nat} (h1 : maxNum ≤ absMax) (h2 : m ≤ absMax) : shownCount m ≤ absMax := by
  unfold shownCount maxNum at *
  split_ifs <;> omega

/-- C101.  A page that comes back as it was shown: the list holds the same strings as when it was shown, except the empty ones, if each of them is a single line that needs no stripping. -/
theorem C101_untouched_strings (h : ListAt eng number ctx xp e q ps (strKind ctx e) strView a s n) (hd : DjangoOk dj) (hp : pfx ≠ []) (l : List (Option Str))
    (hmax : 1000 ≤ absMax) (hle : l.length ≤ absMax) (hl : ∀ t, some t ∈ l → oneLine t = t ∧ dj.strip t = t ∧ xmlOk t = true) :
    ∃ n', saveListSet eng ctx (strKind ctx e).read (strKind ctx e).store strInput dj absMax (submission untouched (listPage pfx (l.map strText))) pfx xp e (.elem a) s =
        (.ok true, s.modify a (fun _ => n')) ∧
      readList eng ctx (strKind ctx e) xp a (s.modify a (fun _ => n')) = (.ok (l.filter (fun v => decide (v ≠ none ∧ v ≠ some []))), s.modify a (fun _ => n')) ∧
      SameButMembers q ps n n' := by
  have hrec : ∀ i, dj.strip (receivedText untouched pfx (l.map strText) i) = (l.map strText)[i]?.getD [] ∧ xmlOk ((l.map strText)[i]?.getD []) = true := by
    intro i
    show dj.strip (oneLine _) = _ ∧ _
    rw [List.getElem?_map]
    cases hi : l[i]? with
    | none => exact ⟨hd.strip, rfl⟩
    | some v =>
      cases v with
      | none => exact ⟨hd.strip, rfl⟩
      | some t =>
        obtain ⟨h1, h2, h3⟩ := hl t (List.mem_of_getElem? hi)
        refine ⟨?_, h3⟩
        show dj.strip (oneLine t) = t
        rw [h1, h2]
  obtain ⟨n', c1, c2, c3⟩ := C101_edited_strings h hd hp l untouched (fun _ _ => rfl) (shownCount_le hmax hle) (fun i _ => by rw [(hrec i).1]; exact (hrec i).2)
  refine ⟨n', c1, ?_, c3⟩
  rw [c2]
  congr 2
  rw [List.map_congr_left (fun i _ => (hrec i).1), map_range_shown _ _ (shownCount_cases _)]
  clear c1 c2 c3 hrec hl hle
  induction l with
  | nil => rfl
  | cons v l ih =>
    rw [List.map_cons, List.filter_cons, List.filter_cons]
    match v with
    | none => simpa [strText] using ih
    | some [] => simpa [strText] using ih
    | some (c :: t) => simpa [strText] using ih

/-- C101.  The page for a list with the integers `l` is shown, edited, and sent: the list holds the numbers in the inputs, except zeros, in the order of the inputs. -/
theorem C101_edited_integers (h : ListAt eng number ctx xp e q ps (intKind number ctx e) (intView number) a s n) (hd : DjangoOk dj) (hp : pfx ≠ []) (l : List (Option Int)) (edits : Str → Option (Option Str))
    (hk : KeepsCounts pfx edits) (hle : shownCount l.length ≤ absMax) (f : Nat → Option Int)
    (hf : ∀ i < shownCount l.length, (receivedText edits pfx (l.map intText) i = [] ∧ f i = none) ∨
      (receivedText edits pfx (l.map intText) i ≠ [] ∧ ∃ x, dj.int (receivedText edits pfx (l.map intText) i) = some x ∧ f i = some x ∧ x.natAbs ≤ 2 ^ 53)) :
    ∃ n', saveListSet eng ctx (intKind number ctx e).read (intKind number ctx e).store intInput dj absMax (submission edits (listPage pfx (l.map intText))) pfx xp e (.elem a) s =
        (.ok true, s.modify a (fun _ => n')) ∧
      readList eng ctx (intKind number ctx e) xp a (s.modify a (fun _ => n')) =
        (.ok (((List.range (shownCount l.length)).map f).filter (fun v => decide (v ≠ none ∧ v ≠ some 0))), s.modify a (fun _ => n')) ∧
      SameButMembers q ps n n' := by
  obtain ⟨h1, h2⟩ := page_sent hd hp (l.map intText) hk
  rw [List.length_map] at h1 h2
  obtain ⟨n', c1, c2, c3⟩ := (C101_integers h dj absMax (submission edits (listPage pfx (l.map intText))) pfx).1 _ h1 (by omega) f (by
    intro i hi
    rw [h2 i (by simpa using hi)]
    exact hf i (by simpa using hi))
  exact ⟨n', c1, by rw [c2, Int.toNat_natCast], c3⟩

/-- C101.  A page with integers that comes back as it was shown: the list holds the same numbers as when it was shown, except zeros. -/
theorem C101_untouched_integers (h : ListAt eng number ctx xp e q ps (intKind number ctx e) (intView number) a s n) (hd : DjangoOk dj) (hp : pfx ≠ []) (l : List (Option Int))
    (hmax : 1000 ≤ absMax) (hle : l.length ≤ absMax) (hl : ∀ x, some x ∈ l → x.natAbs ≤ 2 ^ 53) :
    ∃ n', saveListSet eng ctx (intKind number ctx e).read (intKind number ctx e).store intInput dj absMax (submission untouched (listPage pfx (l.map intText))) pfx xp e (.elem a) s =
        (.ok true, s.modify a (fun _ => n')) ∧
      readList eng ctx (intKind number ctx e) xp a (s.modify a (fun _ => n')) = (.ok (l.filter (fun v => decide (v ≠ none ∧ v ≠ some 0))), s.modify a (fun _ => n')) ∧
      SameButMembers q ps n n' := by
  obtain ⟨n', c1, c2, c3⟩ := C101_edited_integers (absMax := absMax) h hd hp l untouched (fun _ _ => rfl) (shownCount_le hmax hle) (fun i => l[i]?.getD none) (by
    intro i _
    show (oneLine _ = _ ∧ _) ∨ (oneLine _ ≠ _ ∧ ∃ x, dj.int (oneLine _) = _ ∧ _)
    rw [List.getElem?_map]
    cases hi : l[i]? with
    | none => exact .inl ⟨rfl, rfl⟩
    | some v =>
      cases v with
      | none => exact .inl ⟨rfl, rfl⟩
      | some x =>
        have hx : oneLine (intStr x) = intStr x := oneLine_id (intStr_shape x).1
        refine .inr ⟨?_, x, ?_, rfl, hl x (List.mem_of_getElem? hi)⟩
        · show oneLine (intStr x) ≠ []
          rw [hx]; exact (intStr_shape x).2
        · show dj.int (oneLine (intStr x)) = _
          rw [hx]; exact hd.int x)
  refine ⟨n', c1, ?_, c3⟩
  rw [c2]
  have e : (List.range l.length).map (fun i => l[i]?.getD none) = l := by
    refine List.ext_getElem (by simp) (fun i h1 h2 => ?_)
    simp at h1
    simp [h1]
  rcases shownCount_cases l.length with hs | hs
  · rw [hs, e]
  · rw [hs, List.range_succ, List.map_append, e, List.filter_append]
    simp


/-- A list with more items than Django accepts can be shown, but what comes back is not valid, even if nothing has been edited. -/
theorem C101_counterexample_too_many (h : ListAt eng number ctx xp e q ps (strKind ctx e) strView a s n) (hd : DjangoOk dj) (hp : pfx ≠ []) (l : List (Option Str)) (hle : absMax < l.length) :
    saveListSet eng ctx (strKind ctx e).read (strKind ctx e).store strInput dj absMax (submission untouched (listPage pfx (l.map strText))) pfx xp e (.elem a) s = (.ok false, s) := by
  obtain ⟨h1, -⟩ := page_sent hd hp (l.map strText) (edits := untouched) (fun _ _ => rfl)
  refine (C101_strings h dj absMax _ pfx).2 ?_
  rintro ⟨t, h2, h3⟩
  have : t = shownCount (l.map strText).length := by
    have e1 := formCount_iff.2 h1
    rw [formCount_iff.2 h2] at e1
    exact Option.some.inj e1
  rw [List.length_map] at this
  have := shownCount_cases l.length
  omega

end

/-! ### examples -/

/-- The page for a list with two strings. -/
example : showListSet refEngine sampleCtx (strKind sampleCtx (ast c%"a[@n='1']")).read strInput c%"tag" c%"a[@n='1']" (.elem []) listDoc =
    (.ok [(c%"tag-TOTAL_FORMS", some c%"3"), (c%"tag-INITIAL_FORMS", some c%"2"), (c%"tag-MIN_NUM_FORMS", some c%"0"), (c%"tag-MAX_NUM_FORMS", some c%"1000"),
      (c%"tag-0-val", some c%"one"), (c%"tag-1-val", some c%"two"), (c%"tag-2-val", some [])], listDoc) :=
  C101_shown_strings listAt_str [some c%"one", some c%"two"] (by decide +kernel) c%"tag"

/-- The user replaces the first string by nothing, and enters a third one. -/
def tagEdits : Str → Option (Option Str) := fun x => if x = c%"tag-0-val" then some (some []) else if x = c%"tag-2-val" then some (some c%" new ") else none

example : ∃ s', saveListSet refEngine sampleCtx (strKind sampleCtx (ast c%"a[@n='1']")).read (strKind sampleCtx (ast c%"a[@n='1']")).store strInput djangoNow 2000
      (submission tagEdits (listPage c%"tag" [c%"one", c%"two"])) c%"tag" c%"a[@n='1']" (ast c%"a[@n='1']") (.elem []) listDoc = (.ok true, s') ∧
    readList refEngine sampleCtx (strKind sampleCtx (ast c%"a[@n='1']")) c%"a[@n='1']" [] s' = (.ok [some c%"two", some c%"new"], s') := by
  obtain ⟨n', h1, h2, -⟩ := C101_edited_strings (absMax := 2000) (pfx := c%"tag") listAt_str djangoNow_ok (by decide) [some c%"one", some c%"two"] tagEdits (by unfold KeepsCounts; decide) (by decide)
    (show ∀ i < 3, _ from by decide)
  exact ⟨_, h1, h2⟩

/-- Untouched, it comes back with the same strings. -/
example : ∃ s', saveListSet refEngine sampleCtx (strKind sampleCtx (ast c%"a[@n='1']")).read (strKind sampleCtx (ast c%"a[@n='1']")).store strInput djangoNow 2000
      (submission untouched (listPage c%"tag" [c%"one", c%"two"])) c%"tag" c%"a[@n='1']" (ast c%"a[@n='1']") (.elem []) listDoc = (.ok true, s') ∧
    readList refEngine sampleCtx (strKind sampleCtx (ast c%"a[@n='1']")) c%"a[@n='1']" [] s' = (.ok [some c%"one", some c%"two"], s') := by
  obtain ⟨n', h1, h2, -⟩ := C101_untouched_strings (absMax := 2000) (pfx := c%"tag") listAt_str djangoNow_ok (by decide) [some c%"one", some c%"two"] (by decide) (by decide)
    (by intro t ht; simp at ht; rcases ht with rfl | rfl <;> decide)
  exact ⟨_, h1, h2⟩

/-- A list with a line break in a text, white space around another one, and a text that is only white space. -/
def looseDoc : Node := .mk (.elem ⟨none, c%"r"⟩) [] none
  [.mk (.elem ⟨none, c%"a"⟩) [(⟨none, c%"n"⟩, c%"1")] (some ['u', '\n', 'v']) [] none, .mk (.elem ⟨none, c%"a"⟩) [(⟨none, c%"n"⟩, c%"1")] (some c%" x ") [] none,
   .mk (.elem ⟨none, c%"a"⟩) [(⟨none, c%"n"⟩, c%"1")] (some c%" ") [] none] none

/-- Such texts come back changed, though nobody has touched them, or not at all. -/
theorem C101_counterexample_white_space : ∃ page s', showListSet refEngine sampleCtx (strKind sampleCtx (ast c%"a[@n='1']")).read strInput c%"tag" c%"a[@n='1']" (.elem []) looseDoc = (.ok page, looseDoc) ∧
    saveListSet refEngine sampleCtx (strKind sampleCtx (ast c%"a[@n='1']")).read (strKind sampleCtx (ast c%"a[@n='1']")).store strInput djangoNow 2000 (submission untouched page) c%"tag" c%"a[@n='1']" (ast c%"a[@n='1']") (.elem []) looseDoc = (.ok true, s') ∧
    readList refEngine sampleCtx (strKind sampleCtx (ast c%"a[@n='1']")) c%"a[@n='1']" [] looseDoc = (.ok [some ['u', '\n', 'v'], some c%" x ", some c%" "], looseDoc) ∧
    readList refEngine sampleCtx (strKind sampleCtx (ast c%"a[@n='1']")) c%"a[@n='1']" [] s' = (.ok [some c%"uv", some c%"x"], s') :=
  ⟨listPage c%"tag" [['u', '\n', 'v'], c%" x ", c%" "],
   (saveListSet refEngine sampleCtx (strKind sampleCtx (ast c%"a[@n='1']")).read (strKind sampleCtx (ast c%"a[@n='1']")).store strInput djangoNow 2000 (submission untouched (listPage c%"tag" [['u', '\n', 'v'], c%" x ", c%" "])) c%"tag" c%"a[@n='1']" (ast c%"a[@n='1']") (.elem []) looseDoc).2,
   by decide +kernel, by decide +kernel, by decide +kernel, by decide +kernel⟩

/-- A list of integers with a zero and a text that is no number. -/
def zeroDoc : Node := .mk (.elem ⟨none, c%"r"⟩) [] none
  [.mk (.elem ⟨none, c%"a"⟩) [(⟨none, c%"n"⟩, c%"1")] (some c%"7") [] none, .mk (.elem ⟨none, c%"a"⟩) [(⟨none, c%"n"⟩, c%"1")] (some c%"0") [] none,
   .mk (.elem ⟨none, c%"a"⟩) [(⟨none, c%"n"⟩, c%"1")] (some c%"many") [] none, .mk (.elem ⟨none, c%"a"⟩) [(⟨none, c%"n"⟩, c%"1")] (some c%"-12") [] none] none

theorem listAt_zero : ListAt refEngine xpathNumber sampleCtx c%"a[@n='1']" (ast c%"a[@n='1']") ⟨none, c%"a"⟩ [.attr ⟨none, c%"n"⟩ (some (.str c%"1"))]
    (intKind xpathNumber sampleCtx (ast c%"a[@n='1']")) (intView xpathNumber) [] zeroDoc zeroDoc where
  engine := refEngine_ok
  num := xpathNumber_ok
  field := listField
  kind := .int (by decide)
  node := rfl
  fits := by
    have : ∀ m ∈ members ⟨none, c%"a"⟩ [.attr ⟨none, c%"n"⟩ (some (.str c%"1"))] zeroDoc, m.children = [] ∧ (xpathNumber m.strVal = .dec false 7 0 ∨ xpathNumber m.strVal = .dec false 0 0 ∨
      xpathNumber m.strVal = .nan ∨ xpathNumber m.strVal = .dec true 12 0) := by decide
    intro m hm
    refine ⟨(this m hm).1, fun b => ?_⟩
    rcases (this m hm).2 with h | h | h | h <;> rw [h] <;> simp

/-- The zero of a list of integers, and a member whose text is no number, are lost when the page comes back, though nobody has touched them. -/
theorem C101_counterexample_zero : ∃ s', showListSet refEngine sampleCtx (intKind xpathNumber sampleCtx (ast c%"a[@n='1']")).read intInput c%"n" c%"a[@n='1']" (.elem []) zeroDoc =
      (.ok (listPage c%"n" [c%"7", c%"0", [], c%"-12"]), zeroDoc) ∧
    saveListSet refEngine sampleCtx (intKind xpathNumber sampleCtx (ast c%"a[@n='1']")).read (intKind xpathNumber sampleCtx (ast c%"a[@n='1']")).store intInput djangoNow 2000
      (submission untouched (listPage c%"n" [c%"7", c%"0", [], c%"-12"])) c%"n" c%"a[@n='1']" (ast c%"a[@n='1']") (.elem []) zeroDoc = (.ok true, s') ∧
    readList refEngine sampleCtx (intKind xpathNumber sampleCtx (ast c%"a[@n='1']")) c%"a[@n='1']" [] s' = (.ok [some 7, some (-12)], s') := by
  obtain ⟨n', h1, h2, -⟩ := C101_untouched_integers (absMax := 2000) (pfx := c%"n") listAt_zero djangoNow_ok (by decide) [some 7, some 0, none, some (-12)] (by decide) (by decide)
    (by intro x hx; simp at hx; rcases hx with rfl | rfl | rfl <;> decide)
  have e : ([some 7, some 0, none, some (-12)] : List (Option Int)).map intText = [c%"7", c%"0", [], c%"-12"] := by decide +kernel
  have h0 := C101_shown_integers listAt_zero [some 7, some 0, none, some (-12)] (by decide +kernel) c%"n"
  rw [e] at h0 h1
  exact ⟨_, h0, h1, h2⟩

/-- A text that is no number: the data are not valid, and the list stays as it is; the same if the number of forms has not been sent. -/
example : saveListSet refEngine sampleCtx (intKind xpathNumber sampleCtx (ast c%"a[@n='1']")).read (intKind xpathNumber sampleCtx (ast c%"a[@n='1']")).store intInput djangoNow 2000
      (submission (fun x => if x = c%"n-1-val" then some (some c%"five") else none) (listPage c%"n" [c%"7", c%"0", [], c%"-12"])) c%"n" c%"a[@n='1']" (ast c%"a[@n='1']") (.elem []) zeroDoc = (.ok false, zeroDoc) ∧
    saveListSet refEngine sampleCtx (intKind xpathNumber sampleCtx (ast c%"a[@n='1']")).read (intKind xpathNumber sampleCtx (ast c%"a[@n='1']")).store intInput djangoNow 2000
      [(c%"n-0-val", c%"5")] c%"n" c%"a[@n='1']" (ast c%"a[@n='1']") (.elem []) zeroDoc = (.ok false, zeroDoc) := ⟨by decide +kernel, by decide +kernel⟩

/-- Data with two more forms than the page had, as a script in the page may add them, and one that is not counted. -/
def tagPost : Dict Str Str := [(c%"tag-TOTAL_FORMS", c%"4"), (c%"tag-INITIAL_FORMS", c%"2"), (c%"tag-0-val", c%"one"), (c%"tag-2-val", c%"p"), (c%"tag-3-val", c%"q"), (c%"tag-4-val", c%"z")]

example : ∃ s', saveListSet refEngine sampleCtx (strKind sampleCtx (ast c%"a[@n='1']")).read (strKind sampleCtx (ast c%"a[@n='1']")).store strInput djangoNow 2000 tagPost c%"tag" c%"a[@n='1']" (ast c%"a[@n='1']") (.elem []) listDoc = (.ok true, s') ∧
    readList refEngine sampleCtx (strKind sampleCtx (ast c%"a[@n='1']")) c%"a[@n='1']" [] s' = (.ok [some c%"one", some c%"p", some c%"q"], s') := by
  obtain ⟨n', h1, h2, -⟩ := (C101_strings listAt_str djangoNow 2000 tagPost c%"tag").1 4 (formCount_iff.1 (by decide +kernel)) (by decide) (show ∀ i < 4, _ from by decide)
  exact ⟨_, h1, h2⟩

end Props
