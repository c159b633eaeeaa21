import Verif.XmlMap.SearchLemmas
import Verif.XmlMap.ManyListRun
import Mathlib.Data.List.InsertIdx
/-
`NodeList` on paths that look at names and attributes only (`.//q[@a]`, `p/q`, `a | b`, `p:*`): its operations.
-/
namespace Fields
open Xml XPath Spec

/-- An XPath that looks at names and attributes only; `P` says which ways it allows. -/
structure SearchPath (ctx : Ctx) (xp : Str) (e : Expr) (P : Lang) : Prop where
  parse : parse0 xp = .ok e
  lang : lang ctx e = some P
  proper : P [] = false

theorem nameTest_elem {ctx : Ctx} {pfx : Option Str} {nm : Str} {test : Tag → Bool} (h : nameTest ctx pfx nm = some test) {t : Tag} (ht : test t = true) : ∃ q, t = .elem q := by
  unfold nameTest at h
  split_ifs at h
  · cases pfx with
    | none =>
      simp only [Option.some.injEq] at h
      subst h
      cases t <;> simp at ht ⊢
    | some p =>
      simp only at h
      split at h
      · split at h
        · simp only [Option.some.injEq] at h
          subst h
          cases t <;> simp at ht ⊢
        · cases h
      · cases h
  · split at h
    · simp only [Option.some.injEq] at h
      subst h
      exact ⟨_, by simpa using ht⟩
    · cases h

theorem seq_iff {P Q : Lang} {w : List Label} : P.seq Q w = true ↔ ∃ u v, w = u ++ v ∧ P u = true ∧ Q v = true := by
  simp only [Lang.seq, List.any_eq_true, List.mem_range, Bool.and_eq_true]
  constructor
  · rintro ⟨i, -, h1, h2⟩
    exact ⟨_, _, (List.take_append_drop i w).symm, h1, h2⟩
  · rintro ⟨u, v, rfl, h1, h2⟩
    exact ⟨u.length, by simp; omega, by simpa using h1, by simpa using h2⟩

/-- The last label of every way is one of an element. -/
def EndsInElem (P : Lang) : Prop := ∀ (w : List Label) (l : Label), P (w ++ [l]) = true → ∃ q, l.tag = .elem q

theorem EndsInElem.seq {P Q : Lang} (h1 : EndsInElem P ∨ Q [] = false) (h2 : EndsInElem Q) : EndsInElem (P.seq Q) := by
  intro w l h
  obtain ⟨u, v, he, hu, hv⟩ := seq_iff.1 h
  rcases List.eq_nil_or_concat v with rfl | ⟨v', x, rfl⟩
  · rw [List.append_nil] at he
    rw [← he] at hu
    rcases h1 with h1 | h1
    · exact h1 _ _ hu
    · rw [h1] at hv; cases hv
  · rw [List.concat_eq_append] at he hv
    rw [← List.append_assoc] at he
    have := List.append_inj' he rfl
    rw [(List.cons.inj this.2).1]
    exact h2 _ _ hv

/-- What such a path selects are elements. -/
theorem lang_elem {ctx : Ctx} : ∀ (e : Expr) {P : Lang}, Spec.lang ctx e = some P → EndsInElem P
  | .binary l .slash r, P, h => by
    simp only [Spec.lang] at h
    split at h
    · rename_i A B hA hB
      simp only [Option.some.injEq] at h
      subst h
      exact EndsInElem.seq (.inl (lang_elem l hA)) (lang_elem r hB)
    · cases h
  | .binary l .dslash r, P, h => by
    simp only [Spec.lang] at h
    split at h
    · rename_i A B hA hB
      split_ifs at h with h0
      simp only [Option.some.injEq] at h
      subst h
      exact EndsInElem.seq (.inl (lang_elem l hA)) (EndsInElem.seq (.inr (by simpa using h0)) (lang_elem r hB))
    · cases h
  | .binary l .union r, P, h => by
    simp only [Spec.lang] at h
    split at h
    · rename_i A B hA hB
      simp only [Option.some.injEq] at h
      subst h
      intro w x hx
      simp only [Bool.or_eq_true] at hx
      exact hx.elim (lang_elem l hA w x) (lang_elem r hB w x)
    · cases h
  | .abbrev false, P, h => by
    simp only [Spec.lang, Option.some.injEq] at h
    subst h
    intro w x hx
    simp at hx
  | .step ax (.name pfx nm) ps, P, h => by
    simp only [Spec.lang] at h
    split_ifs at h
    split at h
    · rename_i test l ht hl
      split_ifs at h
      simp only [Option.some.injEq] at h
      subst h
      intro w x hx
      cases w with
      | nil =>
        simp only [List.nil_append, Lang.one, Bool.and_eq_true] at hx
        exact nameTest_elem ht hx.1
      | cons y w =>
        cases w <;> simp [Lang.one] at hx
    · cases h
  | .binary l .or r, P, h => by simp [Spec.lang] at h
  | .binary l .and r, P, h => by simp [Spec.lang] at h
  | .binary l .eq r, P, h => by simp [Spec.lang] at h
  | .binary l .ne r, P, h => by simp [Spec.lang] at h
  | .binary l .lt r, P, h => by simp [Spec.lang] at h
  | .binary l .le r, P, h => by simp [Spec.lang] at h
  | .binary l .gt r, P, h => by simp [Spec.lang] at h
  | .binary l .ge r, P, h => by simp [Spec.lang] at h
  | .binary l .plus r, P, h => by simp [Spec.lang] at h
  | .binary l .minus r, P, h => by simp [Spec.lang] at h
  | .binary l .mult r, P, h => by simp [Spec.lang] at h
  | .binary l .div r, P, h => by simp [Spec.lang] at h
  | .binary l .mod r, P, h => by simp [Spec.lang] at h
  | .step ax (.type _ _) ps, P, h => by simp [Spec.lang] at h
  | .abbrev true, P, h => by simp [Spec.lang] at h
  | .lit _, P, h => by simp [Spec.lang] at h
  | .int _, P, h => by simp [Spec.lang] at h
  | .float _, P, h => by simp [Spec.lang] at h
  | .neg _, P, h => by simp [Spec.lang] at h
  | .pred _ _, P, h => by simp [Spec.lang] at h
  | .root, P, h => by simp [Spec.lang] at h
  | .abs _ _, P, h => by simp [Spec.lang] at h
  | .var _ _, P, h => by simp [Spec.lang] at h
  | .call _ _ _, P, h => by simp [Spec.lang] at h
section
variable [PyUnicode] {eng : Engine} {ctx : Ctx} {xp : Str} {e : Expr} {P : Lang}
variable {α : Type} {good : Node → Prop} {value : Node → α}

/-- What the operations need of the mapper and the way values are stored: `value m` is the Python value of the element `m`; storing a value in it turns it into an element with
this value, which is selected wherever `m` is and holds no selected element. -/
structure SearchStore (P : Lang) (mapper : Item → Except PyErr α) (store : Ref → α → M Unit) (good : Node → Prop) (value : Node → α) (ok : α → Prop) : Prop where
  map : ∀ m, (∃ q, m.tag = .elem q) → good m → mapper (.elem m) = .ok (value m)
  put : ∀ m v, (∃ q, m.tag = .elem q) → good m → ok v → ∃ m', (∀ (s : Node) b, b ≠ [] → s.get b = some m → store (.elem b) v s = (.ok (), s.modify b (fun _ => m'))) ∧
    good m' ∧ value m' = v ∧ CanReplace P m m'

/-- The members are good, none is inside of another one, and they show `l`. -/
structure Shows (P : Lang) (good : Node → Prop) (value : Node → α) (n : Node) (l : List α) : Prop where
  apart : Scattered P n
  fits : ∀ m ∈ inside P n, good m
  items : (inside P n).map value = l

/-- One step of the field: its result, the list after it, and only members changed. -/
def SearchStep (P : Lang) (good : Node → Prop) (value : Node → α) (o : Node.Addr) (s n : Node) {β : Type}
    (r : Except PyErr β × Node) (e : Except PyErr β × List α) : Prop :=
  ∃ n', r = (e.1, s.modify o (fun _ => n')) ∧ Shows P good value n' e.2 ∧ around P n' = around P n ∧ ∀ er, e.1 = .error er → n' = n

variable {o : Node.Addr} {s n : Node} {l : List α}

omit [PyUnicode] in
theorem Shows.length (h : Shows P good value n l) : (found P n).length = l.length := by rw [found_length, ← h.items, List.length_map]

omit [PyUnicode] in
theorem searchStep_same (hs : s.get o = some n) (h : Shows P good value n l) {β : Type} (e : Except PyErr β) :
    SearchStep P good value o s n (e, s) (e, l) := by
  refine ⟨n, ?_, h, rfl, fun _ _ => rfl⟩
  show (e, s) = (e, _)
  congr 1
  exact (Node.modify_id hs rfl).symm

omit [PyUnicode] in
theorem SearchStep.cast {β : Type} {r : Except PyErr β × Node} {e e' : Except PyErr β × List α} (h : SearchStep P good value o s n r e) (he : e' = e) :
    SearchStep P good value o s n r e' := he ▸ h

omit [PyUnicode] in
theorem SearchStep.wrap {β γ : Type} {x : M β} {e : Except PyErr β × List α} (h : SearchStep P good value o s n (x s) e) (f : β → γ) :
    SearchStep P good value o s n ((x >>= fun b => pure (f b)) s) (e.1.map f, e.2) := by
  obtain ⟨n', h1, h2, h3, h4⟩ := h
  refine ⟨n', ?_, h2, h3, fun er her => ?_⟩
  · cases he : e.1 with
    | error er => rw [he] at h1; rw [bind_err h1]; rfl
    | ok b => rw [he] at h1; rw [bind_ok h1]; rfl
  · cases he : e.1 with
    | error er => exact h4 er he
    | ok b => rw [he] at her; cases her

/-- The references of the members, seen from the document. -/
def foundRefs (P : Lang) (o : Node.Addr) (n : Node) : List Ref := (found P n).map (fun b => .elem (o ++ b))

variable (heng : SearchOk eng) (hf : SearchPath ctx xp e P)
include heng hf

omit [PyUnicode] in
theorem searchMatches (hs : s.get o = some n) : listMatches eng ctx xp (.elem o) s = (.ok (foundRefs P o n), s) := by
  have h1 : evalXPath eng ctx xp (.elem o) s = (.ok (.nodes (foundRefs P o n)), s) := by
    show (eng.xpath xp s o ctx, s) = _
    rw [heng ctx xp e P s n o hf.parse hf.lang hf.proper hs]
    rfl
  unfold listMatches
  rw [bind_ok h1]
  rfl

omit heng hf [PyUnicode] in
theorem foundRefs_length (h : Shows P good value n l) : (foundRefs P o n).length = l.length := by
  rw [foundRefs, List.length_map, h.length]

omit heng hf in
/-- New members are refused. -/
theorem searchCreate (hr : refuses e = true) (idx : Option Nat) : createNode eng ctx e (.elem o) idx s = (.error .exception, s) := by
  cases e with
  | binary l op r => cases op <;> first | rfl | simp [refuses] at hr
  | _ => simp [refuses] at hr

omit heng [PyUnicode] in
/-- The member that an index denotes. -/
theorem searchPick (hs : s.get o = some n) (h : Shows P good value n l) {i : Int} {k : Nat} (hi : pos l.length i = some k) :
    ∃ b m, pyGet (foundRefs P o n) i = .ok (.elem (o ++ b)) ∧ (found P n)[k]? = some b ∧ (inside P n)[k]? = some m ∧ b ≠ [] ∧ s.get (o ++ b) = some m ∧ n.get b = some m ∧
      (∃ q, m.tag = .elem q) ∧ good m ∧ l[k]? = some (value m) := by
  have hlt : k < (inside P n).length := by rw [← List.length_map (f := value), h.items]; exact pos_lt hi
  obtain ⟨b, hb, hne, hg, w, hw⟩ := found_at (List.getElem?_eq_getElem hlt)
  have hm := lang_elem e hf.lang _ _ hw
  refine ⟨b, _, ?_, hb, List.getElem?_eq_getElem hlt, hne, ?_, hg, hm, h.fits _ (List.getElem_mem hlt), ?_⟩
  · rw [pyGet_pos, foundRefs_length h, hi]
    simp [foundRefs, hb]
  · rw [Node.get_append, hs]; exact hg
  · rw [← h.items, List.getElem?_map, List.getElem?_eq_getElem hlt]; rfl

/-- An index that is out of range. -/
theorem searchOut (hs : s.get o = some n) (h : Shows P good value n l) {i : Int} (hi : pos l.length i = none) (mapper : Item → Except PyErr α)
    (store : Ref → α → M Unit) :
    listGet eng ctx mapper xp (.elem o) i s = (.error .indexError, s) ∧ listDel eng ctx xp (.elem o) i s = (.error .indexError, s) ∧
    (∀ v, i ≠ l.length → listSet eng ctx store xp e (.elem o) i v s = (.error .indexError, s)) := by
  have hg : pyGet (foundRefs P o n) i = .error .indexError := by rw [pyGet_pos, foundRefs_length h, hi]
  refine ⟨?_, ?_, fun v hne => ?_⟩
  · unfold listGet
    rw [bind_ok (searchMatches heng hf hs), hg]
    exact bind_err (ofExcept_err _ _)
  · unfold listDel
    rw [bind_ok (searchMatches heng hf hs), hg]
    split_ifs
    · rfl
    · exact bind_err (ofExcept_err _ _)
  · unfold listSet
    rw [bind_ok (searchMatches heng hf hs), hg, foundRefs_length h, if_neg hne]
    split_ifs
    · exact bind_err rfl
    · exact bind_err (ofExcept_err _ _)

/-- Taking a member out. -/
theorem searchDel (hs : s.get o = some n) (h : Shows P good value n l) {i : Int} {k : Nat} (hi : pos l.length i = some k) :
    SearchStep P good value o s n (listDel eng ctx xp (.elem o) i s) (.ok (), l.eraseIdx k) := by
  obtain ⟨b, m, h1, h2, h3, h4, h5, h6, h7, h8, h9⟩ := searchPick hf hs h hi
  have hi' : ¬ i ≥ (l.length : Int) := by
    have := hi
    unfold pos at this
    split_ifs at this with a1 a2 <;> omega
  have hr := remove_node n P h.apart h2
  have hdrop : (o ++ b).dropLast = o ++ b.dropLast := List.dropLast_append_of_ne_nil h4
  have hlast : (o ++ b).getLast?.getD 0 = b.getLast?.getD 0 := by rw [List.getLast?_append_of_ne_nil _ h4]
  refine ⟨_, ?_, ⟨?_, ?_, ?_⟩, hr.around, nofun⟩
  · unfold listDel
    rw [bind_ok (searchMatches heng hf hs), foundRefs_length h, if_neg hi', h1, bind_ok (ofExcept_run _ _)]
    simp only [removeMatch]
    rw [if_neg (by simp [h4])]
    show ((.ok (), s.modify (o ++ b).dropLast _) : Except PyErr Unit × Node) = _
    rw [hdrop, hlast, Node.modify_append]
    congr 1
    exact Node.modify_congr hs rfl
  · exact hr.scattered
  · intro x hx
    rw [hr.inside] at hx
    exact h.fits x (List.mem_of_mem_eraseIdx hx)
  · rw [hr.inside, ← List.eraseIdx_map, h.items]

variable {mapper : Item → Except PyErr α} {store : Ref → α → M Unit}
  {okv : α → Prop} (hS : SearchStore P mapper store good value okv)
include hS

omit hS in
/-- New items are refused. -/
theorem searchSet_end (hr : refuses e = true) (hs : s.get o = some n) (h : Shows P good value n l) (v : α) :
    listSet eng ctx store xp e (.elem o) l.length v s = (.error .exception, s) := by
  unfold listSet
  rw [bind_ok (searchMatches heng hf hs), foundRefs_length h, if_pos rfl]
  have hidx : ∃ idx, appendIndex (foundRefs P o n) s = (.ok idx, s) := by
    unfold appendIndex
    cases hl : (foundRefs P o n).getLast? with
    | none => exact ⟨none, rfl⟩
    | some r =>
      have hmem := List.mem_of_getLast? hl
      obtain ⟨b, hb, rfl⟩ := List.mem_map.1 hmem
      obtain ⟨k, hk, rfl⟩ := List.getElem_of_mem hb
      obtain ⟨b', hb', hne, -⟩ := found_at (List.getElem?_eq_getElem (show k < (inside P n).length by rw [← found_length]; exact hk))
      rw [List.getElem?_eq_getElem hk] at hb'
      cases hb'
      have hp : ∃ p, positionOf (.elem (o ++ (found P n)[k])) s = (.ok p, s) := by
        simp only [positionOf]
        rw [List.getLast?_append_of_ne_nil _ hne, List.getLast?_eq_getLast_of_ne_nil hne]
        exact ⟨_, rfl⟩
      obtain ⟨p, hp⟩ := hp
      exact ⟨some (p + 1), by simp only []; rw [bind_ok hp]; rfl⟩
  obtain ⟨idx, hidx⟩ := hidx
  have : ((appendIndex (foundRefs P o n) >>= fun idx => createNode eng ctx e (.elem o) idx : M Ref) s) = (.error .exception, s) := by
    rw [bind_ok hidx]
    exact searchCreate hr idx
  exact bind_err this

/-- Setting an item. -/
theorem searchSet (hs : s.get o = some n) (h : Shows P good value n l) {i : Int} {k : Nat} (hi : pos l.length i = some k) {v : α} (hv : okv v) :
    SearchStep P good value o s n (listSet eng ctx store xp e (.elem o) i v s) (.ok (), l.set k v) := by
  obtain ⟨b, m, h1, h2, h3, h4, h5, h6, h7, h8, h9⟩ := searchPick hf hs h hi
  have hi' : ¬ i = (l.length : Int) ∧ ¬ i > (l.length : Int) := by
    have := hi
    unfold pos at this
    split_ifs at this with a1 a2 <;> omega
  obtain ⟨m', hp1, hp2, hp3, hp4⟩ := hS.put m v h7 h8 hv
  have hc := change_node n P h.apart h2 h3 hp4
  refine ⟨_, ?_, ⟨?_, ?_, ?_⟩, hc.around, nofun⟩
  · unfold listSet
    rw [bind_ok (searchMatches heng hf hs), foundRefs_length h, if_neg hi'.1, if_neg hi'.2, h1, bind_ok (ofExcept_run _ _),
      hp1 s (o ++ b) (by simp [h4]) h5, Node.modify_append]
    congr 1
    exact Node.modify_congr hs (Node.modify_congr h6 rfl)
  · exact hc.scattered
  · intro x hx
    rw [hc.inside] at hx
    rcases List.mem_or_eq_of_mem_set hx with hx | rfl
    · exact h.fits x hx
    · exact hp2
  · rw [hc.inside, List.map_set, h.items, hp3]

omit heng [PyUnicode] in
theorem searchMap (hs : s.get o = some n) (h : Shows P good value n l) : mapMatches mapper s (foundRefs P o n) = .ok l := by
  rw [← h.items, foundRefs]
  have h2 := found_inside n P
  have h3 := h.fits
  generalize found P n = bs at h2 ⊢
  generalize inside P n = ms at h2 h3 ⊢
  induction h2 with
  | nil => rfl
  | @cons b m bs ms hr _ ih =>
    rw [List.map_cons, mapMatches]
    have : mapMatch mapper s (.elem (o ++ b)) = .ok (value m) := by
      simp only [mapMatch, itemOf]
      rw [Node.get_append, hs, Option.bind_some, hr.2.1]
      exact hS.map m (hr.2.2.elim fun w hw => lang_elem e hf.lang _ _ hw) (h3 m (by simp))
    rw [this, ih (fun m hm => h3 m (by simp [hm]))]
    rfl

omit [PyUnicode] in
theorem searchData (hs : s.get o = some n) (h : Shows P good value n l) : listData eng ctx mapper xp (.elem o) s = (.ok l, s) := by
  unfold listData
  rw [bind_ok (searchMatches heng hf hs), bind_ok (getDoc_run s), searchMap hf hS hs h]
  rfl

omit [PyUnicode] in
theorem searchLen (hs : s.get o = some n) (h : Shows P good value n l) : listLen eng ctx mapper xp (.elem o) s = (.ok l.length, s) := by
  unfold listLen
  rw [bind_ok (searchData heng hf hS hs h)]
  rfl

theorem searchGet (hs : s.get o = some n) (h : Shows P good value n l) (i : Int) : listGet eng ctx mapper xp (.elem o) i s = (pyGet l i, s) := by
  cases hi : pos l.length i with
  | none => rw [pyGet_pos, hi]; exact (searchOut heng hf hs h hi mapper store).1
  | some k =>
    obtain ⟨b, m, h1, h2, h3, h4, h5, h6, h7, h8, h9⟩ := searchPick hf hs h hi
    unfold listGet
    rw [bind_ok (searchMatches heng hf hs), h1, bind_ok (ofExcept_run _ _), bind_ok (getDoc_run s), pyGet_pos, hi]
    have : mapMatch mapper s (.elem (o ++ b)) = .ok (value m) := by
      simp only [mapMatch, itemOf]
      rw [h5]
      exact hS.map m h7 h8
    rw [this]
    simp only [h9]
    rfl

variable [DecidableEq α]

theorem searchIndex (hs : s.get o = some n) (h : Shows P good value n l) (v : α) :
    listIndex eng ctx mapper xp (.elem o) v s = ((if v ∈ l then .ok (l.idxOf v) else .error .valueError), s) := by
  unfold listIndex
  rw [bind_ok (searchData heng hf hS hs h)]
  by_cases hv : v ∈ l
  · rw [idxOf?_mem hv, if_pos hv]
    rfl
  · rw [List.idxOf?_eq_none_iff.2 hv, if_neg hv]
    rfl

omit [DecidableEq α] in
theorem searchAppend (hr : refuses e = true) (hs : s.get o = some n) (h : Shows P good value n l) (v : α) :
    listAppend eng ctx mapper store xp e (.elem o) v s = (.error .exception, s) := by
  unfold listAppend
  rw [bind_ok (searchLen heng hf hS hs h)]
  exact searchSet_end heng hf hr hs h v

omit [DecidableEq α] in
theorem searchInsert (hr : refuses e = true) (hs : s.get o = some n) (h : Shows P good value n l) (i : Int) (v : α) :
    listInsert eng ctx mapper store xp e (.elem o) i v s = (if i = l.length ∨ (pos l.length i).isSome = true then .error .exception else .error .indexError, s) := by
  unfold listInsert
  rw [bind_ok (searchLen heng hf hS hs h)]
  by_cases h0 : i = l.length
  · rw [if_pos h0, if_pos (.inl h0)]
    exact searchAppend heng hf hS hr hs h v
  · rw [if_neg h0, bind_ok (searchMatches heng hf hs), foundRefs_length h]
    cases hi : pos l.length i with
    | none =>
      rw [if_neg (show ¬ (i = (l.length : Int) ∨ (none : Option Nat).isSome = true) by simp [h0])]
      by_cases hgt : (l.length : Int) > i
      · rw [if_pos hgt, pyGet_pos, foundRefs_length h, hi]
        exact bind_err (ofExcept_err _ _)
      · rw [if_neg hgt]; rfl
    | some k =>
      rw [if_pos (show i = (l.length : Int) ∨ (some k).isSome = true from .inr rfl)]
      have hgt : (l.length : Int) > i := by
        have := hi
        unfold pos at this
        split_ifs at this with a1 a2 <;> omega
      obtain ⟨b, m, h1, h2, h3, h4, -⟩ := searchPick hf hs h hi
      rw [if_pos hgt, h1, bind_ok (ofExcept_run _ _)]
      have hp : positionOf (.elem (o ++ b)) s = (.ok (b.getLast h4), s) := by
        simp only [positionOf]
        rw [List.getLast?_append_of_ne_nil _ h4, List.getLast?_eq_getLast_of_ne_nil h4]
        rfl
      rw [bind_ok hp, bind_err (searchCreate hr _)]

omit [PyUnicode] heng hf hS in
theorem fixedOp_py {l : List α} {op : ListOp α} (h : op.addsNone l.length) : fixedOp l op = pyList l op := by
  cases op <;> first | rfl | exact absurd h id | exact if_neg h | skip

/-- One operation. -/
theorem searchRunOp (hs : s.get o = some n) (h : Shows P good value n l) (op : ListOp α)
    (hadd : refuses e = true ∨ op.addsNone l.length) (hv : ∀ v ∈ op.values, okv v) :
    SearchStep P good value o s n (runOp eng ctx mapper store xp e (.elem o) op s) (fixedOp l op) := by
  have hdata := searchData heng hf hS hs h
  have hlen := searchLen heng hf hS hs h
  have hpop : ∀ j : Int, SearchStep P good value o s n
      ((listGet eng ctx mapper xp (.elem o) j >>= fun val => listDel eng ctx xp (.elem o) j >>= fun _ => pure val : M α) s)
      (match pos l.length j with
        | some k => match l[k]? with
          | some v => (.ok v, l.eraseIdx k)
          | none => (.error .indexError, l)
        | none => (.error .indexError, l)) := by
    intro j
    cases hi : pos l.length j with
    | none =>
      have hg := searchGet heng hf hS hs h j
      rw [pyGet_pos, hi] at hg
      rw [bind_err hg]
      exact searchStep_same hs h _
    | some k =>
      have hg := searchGet heng hf hS hs h j
      rw [pyGet_some hi] at hg
      rw [bind_ok hg]
      simp only [List.getElem?_eq_getElem (pos_lt hi)]
      exact (searchDel heng hf hs h hi).wrap (fun _ => l[k]'(pos_lt hi))
  cases op with
  | len => exact SearchStep.wrap (x := listLen eng ctx mapper xp (.elem o)) (by rw [hlen]; exact searchStep_same hs h _) ListRes.nat
  | get i =>
    have h' := SearchStep.wrap (x := listGet eng ctx mapper xp (.elem o) i) (by rw [searchGet heng hf hS hs h]; exact searchStep_same hs h _) ListRes.val
    refine h'.cast ?_
    simp only [fixedOp, pyList, pyGet_pos]
    cases hk : pos l.length i with
    | none => rfl
    | some k => simp only [List.getElem?_eq_getElem (pos_lt hk)]; rfl
  | set i v =>
    have hv := hv v (by simp [ListOp.values])
    simp only [fixedOp]
    by_cases h0 : i = l.length
    · rw [if_pos h0, h0]
      have hr : refuses e = true := hadd.resolve_right (fun ha => ha h0)
      exact SearchStep.wrap (x := listSet eng ctx store xp e (.elem o) l.length v) (by rw [searchSet_end heng hf hr hs h]; exact searchStep_same hs h _) (fun _ => ListRes.unit)
    · rw [if_neg h0]
      simp only [pyList]
      rw [if_neg h0]
      cases hk : pos l.length i with
      | none =>
        have := (searchOut heng hf hs h hk mapper store).2.2 v h0
        exact SearchStep.wrap (x := listSet eng ctx store xp e (.elem o) i v) (by rw [this]; exact searchStep_same hs h _) (fun _ => ListRes.unit)
      | some k => exact (searchSet heng hf hS hs h hk hv).wrap (fun _ => ListRes.unit)
  | del i =>
    simp only [fixedOp, pyList]
    cases hk : pos l.length i with
    | none =>
      have := (searchOut heng hf hs h hk mapper store).2.1
      exact SearchStep.wrap (x := listDel eng ctx xp (.elem o) i) (by rw [this]; exact searchStep_same hs h _) (fun _ => ListRes.unit)
    | some k => exact (searchDel heng hf hs h hk).wrap (fun _ => ListRes.unit)
  | append v =>
    have hr : refuses e = true := hadd.resolve_right id
    exact SearchStep.wrap (x := listAppend eng ctx mapper store xp e (.elem o) v) (by rw [searchAppend heng hf hS hr hs h]; exact searchStep_same hs h _) (fun _ => ListRes.unit)
  | extend vs =>
    cases vs with
    | nil => exact SearchStep.wrap (x := listExtend eng ctx mapper store xp e (.elem o) []) (searchStep_same hs h (.ok ())) (fun _ => ListRes.unit)
    | cons v vs =>
      have hr : refuses e = true := hadd.resolve_right (fun ha => by cases ha)
      have : listExtend eng ctx mapper store xp e (.elem o) (v :: vs) s = (.error .exception, s) := by
        rw [listExtend, bind_err (searchAppend heng hf hS hr hs h v)]
      exact SearchStep.wrap (x := listExtend eng ctx mapper store xp e (.elem o) (v :: vs)) (by rw [this]; exact searchStep_same hs h _) (fun _ => ListRes.unit)
  | insert i v =>
    have hr : refuses e = true := hadd.resolve_right id
    have h' := SearchStep.wrap (x := listInsert eng ctx mapper store xp e (.elem o) i v) (by rw [searchInsert heng hf hS hr hs h]; exact searchStep_same hs h _)
      (fun _ => (ListRes.unit : ListRes α))
    refine h'.cast ?_
    simp only [fixedOp]
    split_ifs <;> rfl
  | pop i =>
    simp only [fixedOp, pyList]
    have : listPop eng ctx mapper xp (.elem o) i s = (listGet eng ctx mapper xp (.elem o) (i.getD (l.length - 1)) >>= fun val =>
        listDel eng ctx xp (.elem o) (i.getD (l.length - 1)) >>= fun _ => pure val : M α) s := by
      unfold listPop
      cases i with
      | some i => rfl
      | none => simp only [bind_assoc']; rw [bind_ok hlen]; rfl
    have h' := SearchStep.wrap (x := listPop eng ctx mapper xp (.elem o) i) (by rw [this]; exact hpop _) ListRes.val
    refine h'.cast ?_
    cases hk : pos l.length (i.getD (l.length - 1)) with
    | none => rfl
    | some k => simp only [List.getElem?_eq_getElem (pos_lt hk)]; rfl
  | remove v =>
    simp only [fixedOp, pyList]
    have hidx := searchIndex heng hf hS hs h v
    by_cases hm : v ∈ l
    · rw [if_pos hm] at hidx ⊢
      have hlt := List.idxOf_lt_length_iff.2 hm
      have hk : pos l.length ((l.idxOf v : Nat) : Int) = some (l.idxOf v) := by
        unfold pos; rw [if_pos ⟨by omega, by omega⟩]; simp
      have : listRemove eng ctx mapper xp (.elem o) v s = listDel eng ctx xp (.elem o) ((l.idxOf v : Nat) : Int) s := by
        unfold listRemove
        rw [bind_ok hidx]
      refine (SearchStep.wrap (x := listRemove eng ctx mapper xp (.elem o) v) (by rw [this]; exact searchDel heng hf hs h hk) (fun _ => ListRes.unit)).cast ?_
      simp only [List.erase_eq_eraseIdx_of_idxOf rfl]
      rfl
    · rw [if_neg hm] at hidx ⊢
      have : listRemove eng ctx mapper xp (.elem o) v s = (.error .valueError, s) := by
        unfold listRemove
        exact bind_err hidx
      exact SearchStep.wrap (x := listRemove eng ctx mapper xp (.elem o) v) (by rw [this]; exact searchStep_same hs h _) (fun _ => ListRes.unit)
  | index v =>
    have h' := SearchStep.wrap (x := listIndex eng ctx mapper xp (.elem o) v) (by rw [searchIndex heng hf hS hs h]; exact searchStep_same hs h _) (ListRes.nat (α := α))
    refine h'.cast ?_
    simp only [fixedOp, pyList]
    split_ifs <;> rfl
  | count v =>
    refine SearchStep.wrap (x := listCount eng ctx mapper xp (.elem o) v) (e := (.ok (l.count v), l)) ?_ ListRes.nat
    unfold listCount
    rw [bind_ok hdata]
    exact searchStep_same hs h _
  | contains v =>
    refine SearchStep.wrap (x := listContains eng ctx mapper xp (.elem o) v) (e := (.ok (decide (v ∈ l)), l)) ?_ ListRes.bool
    unfold listContains
    rw [bind_ok hdata]
    exact searchStep_same hs h _
  | eq l' =>
    refine SearchStep.wrap (x := listEq eng ctx mapper xp (.elem o) l') (e := (.ok (decide (l = l')), l)) ?_ ListRes.bool
    unfold listEq
    rw [bind_ok hdata]
    exact searchStep_same hs h _

/-- A sequence of operations. -/
theorem searchRunOps : ∀ (ops : List (ListOp α)) {s n} {l : List α}, s.get o = some n → Shows P good value n l →
    (refuses e = true ∨ addNone l ops) → (∀ op ∈ ops, ∀ v ∈ op.values, okv v) →
    ∃ n', runOps eng ctx mapper store xp e (.elem o) ops s = ((fixedOps l ops).1, s.modify o (fun _ => n')) ∧
      Shows P good value n' (fixedOps l ops).2 ∧ around P n' = around P n
  | [], s, n, l, hs, h, _, _ => by
    refine ⟨n, ?_, h, rfl⟩
    rw [Node.modify_id hs rfl]
    rfl
  | op :: ops, s, n, l, hs, h, hadd, hv => by
    obtain ⟨n', h1, h2, h3, -⟩ := searchRunOp heng hf hS hs h op (hadd.imp id And.left) (hv op (by simp))
    have hs' : (s.modify o (fun _ => n')).get o = some n' := by rw [Node.get_modify, hs]; rfl
    have hadd' : refuses e = true ∨ addNone (fixedOp l op).2 ops := by
      rcases hadd with hr | ha
      · exact .inl hr
      · rw [fixedOp_py ha.1]; exact .inr ha.2
    obtain ⟨n'', k1, k2, k3⟩ := searchRunOps ops hs' h2 hadd' (fun op' ho => hv op' (by simp [ho]))
    refine ⟨n'', ?_, k2, k3.trans h3⟩
    rw [runOps, h1]
    simp only [k1, Node.modify_modify]
    rfl

theorem searchSetFrom : ∀ (vs : List α) (i : Nat) {s n} {l : List α}, s.get o = some n → Shows P good value n l → i + vs.length ≤ l.length →
    (∀ v ∈ vs, okv v) →
    SearchStep P good value o s n (listSetFrom eng ctx store xp e (.elem o) i vs s) (.ok (), l.take i ++ vs ++ l.drop (i + vs.length))
  | [], i, s, n, l, hs, h, hle, _ => by
    refine (searchStep_same hs h (.ok ())).cast ?_
    simp
  | v :: vs, i, s, n, l, hs, h, hle, hv => by
    simp only [List.length_cons] at hle
    have hk : pos l.length (i : Int) = some i := by unfold pos; rw [if_pos ⟨by omega, by omega⟩]; simp
    obtain ⟨n', h1, h2, h3, -⟩ := searchSet heng hf hS hs h hk (hv v (by simp))
    have hs' : (s.modify o (fun _ => n')).get o = some n' := by rw [Node.get_modify, hs]; rfl
    obtain ⟨n'', k1, k2, k3, -⟩ := searchSetFrom vs (i + 1) hs' h2 (by simp; omega) (fun v h => hv v (by simp [h]))
    refine ⟨n'', ?_, ?_, k3.trans h3, nofun⟩
    · rw [listSetFrom, bind_ok h1, k1, Node.modify_modify]
      rfl
    · have e1 : (l.set i v).take (i + 1) = l.take i ++ [v] := by
        rw [List.take_succ, List.take_set_of_le (Nat.le_refl i)]
        simp [List.getElem?_set, show i < l.length by omega]
      have e2 : (l.set i v).drop (i + 1 + vs.length) = l.drop (i + 1 + vs.length) := List.drop_set_of_lt (by omega)
      simp only [e1, e2, List.append_assoc, List.singleton_append] at k2
      simpa [Nat.add_assoc, Nat.add_comm 1] using k2

theorem searchTrim : ∀ (fuel : Nat) {s n} {l : List α} (len : Nat), s.get o = some n → Shows P good value n l → l.length ≤ len + fuel →
    SearchStep P good value o s n (listTrim eng ctx mapper xp (.elem o) len fuel s) (.ok (), l.take len)
  | 0, s, n, l, len, hs, h, hle => by
    refine (searchStep_same hs h (.ok ())).cast ?_
    rw [List.take_of_length_le (by omega)]
  | fuel + 1, s, n, l, len, hs, h, hle => by
    have hrun : listTrim eng ctx mapper xp (.elem o) len (fuel + 1) s
        = (if l.length > len then (listPop eng ctx mapper xp (.elem o) none >>= fun _ => listTrim eng ctx mapper xp (.elem o) len fuel) else pure ()) s := by
      rw [listTrim, bind_ok (searchLen heng hf hS hs h)]
    rw [hrun]
    by_cases hg : l.length > len
    · rw [if_pos hg]
      have hk : pos l.length ((l.length : Int) - 1) = some (l.length - 1) := by
        unfold pos; rw [if_pos ⟨by omega, by omega⟩]; congr 1; omega
      obtain ⟨n', h1, h2, h3, -⟩ := searchRunOp heng hf hS hs h (.pop none) (.inr trivial) (by simp [ListOp.values])
      have e1 : fixedOp l (.pop none) = (.ok (.val (l[l.length - 1]'(pos_lt hk))), l.eraseIdx (l.length - 1)) := by
        simp only [fixedOp, pyList, Option.getD_none, hk, List.getElem?_eq_getElem (pos_lt hk)]
      rw [e1] at h1 h2
      obtain ⟨x, hx, -⟩ := unwrap (x := listPop eng ctx mapper xp (.elem o) none) (f := ListRes.val) h1
      have hs' : (s.modify o (fun _ => n')).get o = some n' := by rw [Node.get_modify, hs]; rfl
      obtain ⟨n'', k1, k2, k3, -⟩ := searchTrim fuel len hs' h2 (by simp only [List.length_eraseIdx]; rw [if_pos (by omega)]; omega)
      refine ⟨n'', ?_, ?_, k3.trans h3, nofun⟩
      · rw [bind_ok hx, k1, Node.modify_modify]; rfl
      · have : (l.eraseIdx (l.length - 1)).take len = l.take len := by
          rw [List.eraseIdx_eq_dropLast (by omega), List.dropLast_eq_take, List.take_take, Nat.min_eq_left (by omega)]
        have k2' : Shows P good value n'' ((l.eraseIdx (l.length - 1)).take len) := k2
        rw [this] at k2'
        exact k2'
    · rw [if_neg hg]
      refine (searchStep_same hs h (.ok ())).cast ?_
      rw [List.take_of_length_le (by omega)]

/-- Assigning at most as many values as there are items. -/
theorem searchAssign (vs : List α) (hs : s.get o = some n) (h : Shows P good value n l) (hlen : vs.length ≤ l.length)
    (hv : ∀ v ∈ vs, okv v) :
    SearchStep P good value o s n (listAssign eng ctx mapper store xp e (.elem o) vs s) (.ok (), vs) := by
  obtain ⟨n', h1, h2, h3, -⟩ := searchSetFrom heng hf hS vs 0 hs h (by omega) hv
  simp only [List.take_zero, List.nil_append, Nat.zero_add] at h2
  have hs' : (s.modify o (fun _ => n')).get o = some n' := by rw [Node.get_modify, hs]; rfl
  obtain ⟨n'', k1, k2, k3, -⟩ := searchTrim heng hf hS ((vs ++ l.drop vs.length).length + (s.modify o (fun _ => n')).nodes) vs.length hs' h2 (by omega)
  refine ⟨n'', ?_, by simpa using k2, k3.trans h3, nofun⟩
  unfold listAssign
  rw [bind_ok h1, bind_ok (searchLen heng hf hS hs' h2), listTrimAll_run, k1, Node.modify_modify]
  rfl

/-- Assigning more values than there are items: the items are set, then there is an exception. -/
theorem searchAssign_long (hr : refuses e = true) (vs : List α) (hs : s.get o = some n) (h : Shows P good value n l) (hlen : l.length < vs.length)
    (hv : ∀ v ∈ vs, okv v) :
    ∃ n', listAssign eng ctx mapper store xp e (.elem o) vs s = (.error .exception, s.modify o (fun _ => n')) ∧
      Shows P good value n' (vs.take l.length) ∧ around P n' = around P n := by
  have hsplit : vs = vs.take l.length ++ vs.drop l.length := (List.take_append_drop _ _).symm
  have hlt : (vs.take l.length).length = l.length := by rw [List.length_take]; omega
  obtain ⟨n', h1, h2, h3, -⟩ := searchSetFrom heng hf hS (vs.take l.length) 0 hs h (by omega) (fun v h => hv v (List.mem_of_mem_take h))
  have hs' : (s.modify o (fun _ => n')).get o = some n' := by rw [Node.get_modify, hs]; rfl
  simp only [List.take_zero, List.nil_append, Nat.zero_add, hlt, List.drop_length, List.append_nil] at h2
  refine ⟨n', ?_, h2, h3⟩
  obtain ⟨w, ws, hw⟩ : ∃ w ws, vs.drop l.length = w :: ws := by
    cases hd : vs.drop l.length with
    | nil => have := List.drop_eq_nil_iff.1 hd; omega
    | cons w ws => exact ⟨w, ws, rfl⟩
  have hset : listSetFrom eng ctx store xp e (.elem o) 0 vs s = (.error .exception, s.modify o (fun _ => n')) := by
    rw [hsplit, listSetFrom_append (.elem o) e _ _ 0 h1, hlt, hw, Nat.zero_add, listSetFrom]
    have := searchSet_end (store := store) heng hf hr hs' h2 w
    rw [hlt] at this
    exact bind_err this
  unfold listAssign
  rw [bind_err hset]

theorem searchDelete_go (doc : Node) : ∀ (rs : List Ref) {s n} {l : List α}, mapMatches mapper doc rs = .ok l → s.get o = some n →
    Shows P good value n l → SearchStep P good value o s n (listDeleteAll.go eng ctx mapper xp (.elem o) doc rs s) (.ok (), [])
  | [], s, n, l, hm, hs, h => by
    simp only [mapMatches, Except.ok.injEq] at hm
    subst hm
    exact searchStep_same hs h (.ok ())
  | r :: rs, s, n, l, hm, hs, h => by
    rw [mapMatches] at hm
    cases h1 : mapMatch mapper doc r with
    | error e => rw [h1] at hm; simp at hm
    | ok x =>
      cases h2 : mapMatches mapper doc rs with
      | error e => rw [h1, h2] at hm; simp at hm
      | ok xs =>
        rw [h1, h2] at hm
        simp only [Except.ok.injEq] at hm
        subst hm
        obtain ⟨n', k1, k2, k3, -⟩ := searchRunOp heng hf hS hs h (.remove x) (.inr trivial) (by simp [ListOp.values])
        have e1 : fixedOp (x :: xs) (.remove x) = (.ok .unit, xs) := by simp [fixedOp, pyList]
        rw [e1] at k1 k2
        obtain ⟨u, g1, -⟩ := unwrap (x := listRemove eng ctx mapper xp (.elem o) x) (f := fun _ => ListRes.unit) k1
        have hs' : (s.modify o (fun _ => n')).get o = some n' := by rw [Node.get_modify, hs]; rfl
        obtain ⟨n'', j1, j2, j3, -⟩ := searchDelete_go doc rs h2 hs' k2
        refine ⟨n'', ?_, j2, j3.trans k3, nofun⟩
        have : listDeleteAll.go eng ctx mapper xp (.elem o) doc (r :: rs) s
            = (ofExcept (mapMatch mapper doc r) >>= fun x => listRemove eng ctx mapper xp (.elem o) x >>= fun _ =>
                listDeleteAll.go eng ctx mapper xp (.elem o) doc rs) s := by rw [listDeleteAll.go]
        rw [this, h1, bind_ok (ofExcept_run _ _), bind_ok g1, j1, Node.modify_modify]
        rfl

/-- Deleting the whole list. -/
theorem searchDelete (hs : s.get o = some n) (h : Shows P good value n l) :
    SearchStep P good value o s n (listDeleteAll eng ctx mapper xp (.elem o) s) (.ok (), []) := by
  unfold listDeleteAll
  rw [bind_ok (searchMatches heng hf hs), bind_ok (getDoc_run s)]
  exact searchDelete_go heng hf hS s _ (searchMap hf hS hs h) hs h

end
end Fields
