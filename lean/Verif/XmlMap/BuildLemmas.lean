import Verif.Spec.Create
import Verif.XmlMap.PathLemmas
import Verif.XPath.NumLemmas
/-
What the created nodes satisfy.
-/
namespace Spec
open Xml XPath

/-! ### literals -/

theorem strip_digits {s : Str} (h : ∀ c ∈ s, isDigit c = true) : strip s = s := by
  have key : ∀ t : Str, (∀ c ∈ t, isDigit c = true) → t.dropWhile isXmlWs = t := by
    intro t ht
    cases t with
    | nil => rfl
    | cons c t =>
      have hc := ht c (by simp)
      have : isXmlWs c = false := by
        simp only [isDigit] at hc
        simp only [isXmlWs, Bool.or_eq_false_iff, beq_eq_false_iff_ne, ne_eq]
        refine ⟨⟨⟨?_, ?_⟩, ?_⟩, ?_⟩ <;> (rintro rfl; revert hc; decide)
      rw [List.dropWhile_cons_of_neg (by simp [this])]
  unfold strip
  rw [key s h, key s.reverse (by simpa using h), List.reverse_reverse]

theorem numEq_natStr (n : Nat) : numEq (xpathNumber (natStr n)) n = true := by
  obtain ⟨hne, hd, hv, -⟩ := natStr_spec n
  have hs := strip_digits hd
  have hneg : ((natStr n).head? == some '-') = false := by
    cases hc : natStr n with
    | nil => exact absurd hc hne
    | cons c t =>
      have := hd c (by simp [hc])
      simp only [List.head?_cons, beq_eq_false_iff_ne, ne_eq, Option.some.injEq]
      rintro rfl
      revert this; decide
  have htake : (natStr n).takeWhile isDigit = natStr n := by
    have := List.takeWhile_append_of_pos (p := isDigit) (l₁ := natStr n) (l₂ := []) hd
    simpa using this
  unfold xpathNumber
  simp only [hs, hneg, Bool.false_eq_true, if_false, htake, List.drop_length]
  simp [hne, numEq, hv]

theorem cmpTest_litText (cmp : Option Lit) : cmpTest cmp ((cmp.map litText).getD []) = true := by
  rcases cmp with _ | s | n
  · rfl
  · simp [cmpTest, litText]
  · simp [cmpTest, litText, numEq_natStr]

/-! ### predicates -/

theorem build_tag : ∀ (p : Pred) (n : Node), (p.build n).tag = n.tag
  | .attr _ _, n => by simp [Pred.build]
  | .here none, n => by simp [Pred.build]
  | .here (some _), n => by simp [Pred.build]
  | .child _ _ _, n => by simp [Pred.build]

theorem buildAll_tag : ∀ (ps : List Pred) (n : Node), (buildAll ps n).tag = n.tag
  | [], n => rfl
  | p :: ps, n => by rw [buildAll, buildAll_tag ps, build_tag]

theorem newElem_isElem (q ps) : (newElem q ps).isElem q = true := by
  simp [newElem, Node.isElem, buildAll_tag]

theorem build_tail : ∀ (p : Pred) (n : Node), (p.build n).tail = n.tail
  | .attr _ _, n => by simp [Pred.build]
  | .here none, n => by simp [Pred.build]
  | .here (some _), n => by simp [Pred.build]
  | .child _ _ _, n => by simp [Pred.build]

theorem buildAll_tail : ∀ (ps : List Pred) (n : Node), (buildAll ps n).tail = n.tail
  | [], n => rfl
  | p :: ps, n => by rw [buildAll, buildAll_tail ps, build_tail]

theorem build_text : ∀ (p : Pred) (n : Node), p.isHere = false → (p.build n).text = n.text
  | .attr _ _, n, _ => by simp [Pred.build]
  | .child _ _ _, n, _ => by simp [Pred.build]

theorem buildAll_text : ∀ (ps : List Pred) (n : Node), okAll ps = true → (buildAll ps n).text = n.text
  | [], n, _ => rfl
  | p :: ps, n, h => by
    have := okAll_mem h (p := p) (by simp)
    simp only [okAll, Bool.and_eq_true] at h
    rw [buildAll, buildAll_text ps _ h.1.2, build_text p n this.2]

/-- The children that predicates add carry their leading names. -/
theorem build_children (p : Pred) (n : Node) : p.isHere = false → ∃ l, (p.build n).children = n.children ++ l ∧
    ∀ c ∈ l, c.tail = none ∧ ∃ q, p.lead = some q ∧ c.tag = .elem q := by
  intro h
  cases p with
  | attr => exact ⟨[], by simp [Pred.build], by simp⟩
  | here => cases h
  | child q ps rest =>
    refine ⟨[rest.build (buildAll ps (Node.empty q))], by simp [Pred.build], ?_⟩
    intro c hc
    simp only [List.mem_singleton] at hc
    subst hc
    exact ⟨by simp [build_tail, buildAll_tail], q, rfl, by simp [build_tag, buildAll_tag]⟩

theorem buildAll_children (ps : List Pred) (n : Node) (h : okAll ps = true) : ∃ l, (buildAll ps n).children = n.children ++ l ∧
    ∀ c ∈ l, c.tail = none ∧ ∃ p ∈ ps, ∃ q, p.lead = some q ∧ c.tag = .elem q := by
  induction ps generalizing n with
  | nil => exact ⟨[], by simp [buildAll], by simp⟩
  | cons p ps ih =>
    have hp := okAll_mem h (p := p) (by simp)
    simp only [okAll, Bool.and_eq_true] at h
    obtain ⟨l, hl, hl'⟩ := build_children p n hp.2
    obtain ⟨l2, hl2, hl2'⟩ := ih (p.build n) h.1.2
    refine ⟨l ++ l2, by rw [buildAll, hl2, hl, List.append_assoc], ?_⟩
    intro c hc
    rcases List.mem_append.mp hc with hc | hc
    · obtain ⟨h1, q, h2, h3⟩ := hl' c hc
      exact ⟨h1, p, by simp, q, h2, h3⟩
    · obtain ⟨h1, p', hp', q, h2, h3⟩ := hl2' c hc
      exact ⟨h1, p', by simp [hp'], q, h2, h3⟩

theorem buildAll_attrOnly (ps : List Pred) (n : Node) (h : attrOnly ps = true) : (buildAll ps n).children = n.children := by
  induction ps generalizing n with
  | nil => rfl
  | cons p ps ih =>
    simp only [attrOnly, List.all_cons, Bool.and_eq_true] at h
    rw [buildAll, ih _ (by simpa [attrOnly] using h.2)]
    cases p <;> simp [Pred.attrOf, Pred.build] at h ⊢

theorem build_attr (p : Pred) (n : Node) (q : QName) (h : p.attrOf ≠ some q) : (p.build n).attr? q = n.attr? q := by
  cases p with
  | attr q' cmp =>
    simp only [Pred.attrOf, ne_eq, Option.some.injEq] at h
    simp [Pred.build, Node.attr?_setAttr, Ne.symm h]
  | here cmp => cases cmp <;> simp [Pred.build, Node.attr?]
  | child => simp [Pred.build, Node.attr?]

theorem buildAll_attr (ps : List Pred) (n : Node) (q : QName) (h : some q ∉ ps.map Pred.attrOf) :
    (buildAll ps n).attr? q = n.attr? q := by
  induction ps generalizing n with
  | nil => rfl
  | cons p ps ih =>
    simp only [List.map_cons, List.mem_cons, not_or] at h
    rw [buildAll, ih _ h.2, build_attr p n q (Ne.symm h.1)]

/-- Building one predicate keeps another one true, unless both are about the same attribute. -/
theorem sat_build {p p' : Pred} {n : Node} (h : p.sat n = true) (hp : p.isHere = false)
    (hc : ∀ q, p.attrOf = some q → p'.attrOf ≠ some q) : p.sat (p'.build n) = true := by
  cases p with
  | here => cases hp
  | attr q cmp =>
    have := hc q rfl
    simp only [Pred.sat] at h ⊢
    rw [build_attr p' n q this]
    exact h
  | child q ps rest =>
    simp only [Pred.sat, List.any_eq_true] at h ⊢
    obtain ⟨c, hc1, hc2⟩ := h
    refine ⟨c, ?_, hc2⟩
    cases p' with
    | attr => simpa [Pred.build] using hc1
    | here cmp => cases cmp <;> simpa [Pred.build] using hc1
    | child => simp [Pred.build, hc1]

theorem sat_buildAll {p : Pred} {ps : List Pred} {n : Node} (h : p.sat n = true) (hp : p.isHere = false)
    (hc : ∀ q, p.attrOf = some q → some q ∉ ps.map Pred.attrOf) : p.sat (buildAll ps n) = true := by
  induction ps generalizing n with
  | nil => exact h
  | cons p' ps ih =>
    rw [buildAll]
    apply ih
    · apply sat_build h hp
      intro q hq he
      exact hc q hq (by simp [he])
    · intro q hq hm
      exact hc q hq (by simp only [List.map_cons, List.mem_cons]; exact .inr hm)

theorem satAll_build {ps : List Pred} {p' : Pred} {n : Node} (h : satAll ps n = true) (hok : okAll ps = true)
    (hc : ∀ q, p'.attrOf = some q → some q ∉ ps.map Pred.attrOf) : satAll ps (p'.build n) = true := by
  rw [satAll_iff] at h ⊢
  intro p hp
  apply sat_build (h p hp) (okAll_mem hok hp).2
  intro q hq he
  exact hc q he (List.mem_map.mpr ⟨p, hp, hq⟩)

mutual
/-- A built predicate holds. -/
theorem build_sat : ∀ (p : Pred) (n : Node), p.ok = true → (∀ v, p = .here (some v) → n.children = []) → p.sat (p.build n) = true
  | .attr q cmp, n, _, _ => by
    simp only [Pred.build, Pred.sat, Node.attr?_setAttr, if_true]
    exact cmpTest_litText cmp
  | .here none, n, _, _ => by simp [Pred.sat, cmpTest]
  | .here (some v), n, _, hn => by
    have := hn v rfl
    cases n with
    | mk t a x c l =>
      simp only [Node.children_mk] at this
      subst this
      simp only [Pred.build, Pred.sat, Node.setText, Node.strVal, Node.strValL, Option.getD_some, List.append_nil]
      exact cmpTest_litText (some v)
  | .child q ps rest, n, hok, _ => by
    simp only [Pred.ok, Bool.and_eq_true] at hok
    simp only [Pred.build, Pred.sat, Node.append_children, List.any_append, List.any_cons, List.any_nil, Bool.or_false,
      Bool.or_eq_true, Bool.and_eq_true]
    refine .inr ⟨⟨?_, ?_⟩, ?_⟩
    · simp [Node.isElem, build_tag, buildAll_tag]
    · apply satAll_build (buildAll_sat ps (Node.empty q) hok.1.1) hok.1.1
      intro q' hq'
      cases rest <;> simp [Pred.attrOf] at hq'
      subst hq'
      simpa using hok.2
    · apply build_sat rest _ hok.1.2
      rintro v rfl
      rw [buildAll_attrOnly _ _ (by simpa using hok.2)]
      rfl
theorem buildAll_sat : ∀ (ps : List Pred) (n : Node), okAll ps = true → satAll ps (buildAll ps n) = true
  | [], n, _ => rfl
  | p :: ps, n, h => by
    have hp := okAll_mem h (p := p) (by simp)
    simp only [okAll, Bool.and_eq_true] at h
    rw [satAll, buildAll, Bool.and_eq_true]
    refine ⟨?_, buildAll_sat ps _ h.1.2⟩
    apply sat_buildAll _ hp.2
    · intro q hq
      have := h.2
      rw [hq] at this
      simpa using this
    · apply build_sat p n hp.1
      rintro v rfl
      simp [Pred.isHere] at hp
end

theorem newElem_sat {q ps} (h : okAll ps = true) : satAll ps (newElem q ps) = true := buildAll_sat ps _ h

/-! ### paths -/

/-- `k` changes an element only in ways that the last step of the path is about. -/
structure LastEdit (last : Option Step) (k : Node → Node) : Prop where
  tag : ∀ m, (k m).tag = m.tag
  children : ∀ m, (k m).children = m.children
  attrs : ∀ m q, last ≠ some (.attr q) → (k m).attr? q = m.attr? q
  keepAttr : ∀ m q, (m.attr? q).isSome = true → ((k m).attr? q).isSome = true

theorem attr?_congr_of (n m : Node) (h : n.attrs = m.attrs) (q) : n.attr? q = m.attr? q := by simp [Node.attr?, h]

/-- Predicates depend on attributes only through look-up. -/
theorem sat_local' {p : Pred} {n n' : Node} (hh : p.isHere = false) (ha : ∀ q, p.attrOf = some q → n.attr? q = n'.attr? q)
    (hc : ∀ q, p.lead = some q → n.children.filter (Node.isElem q) = n'.children.filter (Node.isElem q)) :
    p.sat n = p.sat n' := by
  cases p with
  | attr q cmp => simp [Pred.sat, ha q rfl]
  | here => cases hh
  | child q ps rest =>
    have h := hc q rfl
    have key : ∀ l : List Node, l.any (fun c => c.isElem q && satAll ps c && rest.sat c)
        = (l.filter (Node.isElem q)).any (fun c => satAll ps c && rest.sat c) := by
      intro l
      induction l with
      | nil => rfl
      | cons c l ih => by_cases hq : c.isElem q = true <;> simp_all
    simp only [Pred.sat, key, h]

theorem satAll_local' {ps : List Pred} {n n' : Node} (hok : okAll ps = true)
    (ha : ∀ p ∈ ps, ∀ q, p.attrOf = some q → n.attr? q = n'.attr? q)
    (hc : ∀ p ∈ ps, ∀ q, p.lead = some q → n.children.filter (Node.isElem q) = n'.children.filter (Node.isElem q)) :
    satAll ps n = satAll ps n' := by
  have : ∀ l : List Pred, (∀ p ∈ l, p ∈ ps) → satAll l n = satAll l n' := by
    intro l
    induction l with
    | nil => intros; rfl
    | cons p l ih =>
      intro hl
      simp only [satAll]
      rw [ih (fun p hp => hl p (by simp [hp])),
        sat_local' (okAll_mem hok (hl p (by simp))).2 (ha p (hl p (by simp))) (hc p (hl p (by simp)))]
  exact this ps (fun _ h => h)

theorem buildPath_tag (r : List Step) {k : Node → Node} (hk : ∀ m, (k m).tag = m.tag) (n : Node) :
    (buildPath r k n).tag = n.tag := by
  cases r with
  | nil => exact hk n
  | cons s r => cases s <;> simp [buildPath, hk]

/-- Building the rest of the path keeps the predicates of the step before it. -/
theorem satAll_buildPath {ps : List Pred} {r : List Step} {k : Node → Node} {n : Node} (hok : okAll ps = true)
    (hn : nextOk ps r = true) (hr : pathOk r = true) (hk : LastEdit r.getLast? k) :
    satAll ps (buildPath r k n) = satAll ps n := by
  cases r with
  | nil =>
    apply satAll_local' hok
    · intro p _ q _; rw [buildPath, hk.attrs]; simp
    · intro p _ q _; rw [buildPath, hk.children]
  | cons s r =>
    cases s with
    | child q2 ps2 =>
      have htag : (buildPath r k (newElem q2 ps2)).tag = .elem q2 := by
        rw [buildPath_tag r hk.tag]; have := newElem_isElem q2 ps2; simpa [Node.isElem] using this
      apply satAll_local' hok
      · intro p _ q _; simp [buildPath, Node.attr?]
      · intro p hp q hq
        simp only [nextOk, List.all_eq_true, bne_iff_ne, ne_eq] at hn
        have hne : q ≠ q2 := by rintro rfl; exact hn p hp hq
        have hf : (buildPath r k (newElem q2 ps2)).isElem q = false := by
          simp only [Node.isElem, htag, beq_eq_false_iff_ne, ne_eq, Tag.elem.injEq]
          exact Ne.symm hne
        simp [buildPath, List.filter_append, hf]
    | attr q2 =>
      simp only [nextOk, List.all_eq_true, bne_iff_ne, ne_eq] at hn
      cases r with
      | nil =>
        apply satAll_local' hok
        · intro p hp q hq
          have hne : q ≠ q2 := by rintro rfl; exact hn p hp hq
          rw [buildPath, hk.attrs _ _ (by simp; exact Ne.symm hne), Node.attr?_setAttr, if_neg hne]
        · intro p _ q _; rw [buildPath, hk.children]; simp
      | cons s r => simp [pathOk] at hr
    | text =>
      cases r with
      | nil =>
        apply satAll_local' hok
        · intro p _ q _; rw [buildPath, hk.attrs]; simp
        · intro p _ q _; rw [buildPath, hk.children]
      | cons s r => simp [pathOk] at hr


theorem tailRefs_append (l l' : List Node) (h : ∀ c ∈ l', c.tail = none) : tailRefs (l ++ l') = tailRefs l := by
  unfold tailRefs
  rw [List.mapIdx_append, List.flatten_append]
  have : (List.mapIdx (fun i c => if c.tail.isSome = true then [Ref.tail [i + l.length]] else []) l').flatten = [] := by
    rw [List.flatten_eq_nil_iff]
    intro x hx
    obtain ⟨i, hi, rfl⟩ := List.mem_mapIdx.mp hx
    rw [h _ (List.getElem_mem hi)]
    rfl
  rw [this, List.append_nil]

theorem matches_child_append (q ps r) (n c : Node) :
    Step.matches (.child q ps :: r) (Node.append c n)
      = Step.matches (.child q ps :: r) n ++ stepG q ps r n.children.length c := by
  simp [matches_child, List.mapIdx_append]

theorem matches_child_nil_of {q ps r} {n : Node} (h : ∀ c ∈ n.children, c.isElem q = false) :
    Step.matches (.child q ps :: r) n = [] := by
  rw [matches_child, List.flatten_eq_nil_iff]
  intro x hx
  obtain ⟨i, hi, rfl⟩ := List.mem_mapIdx.mp hx
  simp [stepG, h _ (List.getElem_mem hi)]

/-- A new element has no match for the next step. -/
theorem newElem_nomatch {q ps r} (hok : okAll ps = true) (hn : nextOk ps r = true) (hr : r ≠ []) :
    Step.matches r (newElem q ps) = [] := by
  obtain ⟨l, hl, hl'⟩ := buildAll_children ps (Node.empty q) hok
  simp only [Node.empty_children, List.nil_append] at hl
  cases r with
  | nil => exact absurd rfl hr
  | cons s r =>
    cases s with
    | child q2 ps2 =>
      apply matches_child_nil_of
      intro c hc
      unfold newElem at hc
      rw [hl] at hc
      obtain ⟨-, p, hp, q3, h3, h4⟩ := hl' c hc
      simp only [nextOk, List.all_eq_true, bne_iff_ne, ne_eq] at hn
      simp only [Node.isElem, h4, beq_eq_false_iff_ne, ne_eq, Tag.elem.injEq]
      rintro rfl
      exact hn p hp h3
    | attr q2 =>
      simp only [nextOk, List.all_eq_true, bne_iff_ne, ne_eq] at hn
      have : (newElem q ps).attr? q2 = none := by
        unfold newElem
        rw [buildAll_attr]
        · rfl
        · intro hm
          obtain ⟨p, hp, hq⟩ := List.mem_map.mp hm
          exact hn p hp hq
      simp [Step.matches, this]
    | text =>
      have htext : (newElem q ps).text = none := by unfold newElem; rw [buildAll_text _ _ hok]; rfl
      have htails : tailRefs (newElem q ps).children = [] := by
        have := tailRefs_append [] l (fun c hc => (hl' c hc).1)
        unfold newElem
        rw [hl]
        simpa [tailRefs] using this
      simp [Step.matches, htext, htails]

/-- The node that a built path selects. -/
def target : List Step → Node → Ref
  | [], _ => .elem []
  | .child q ps :: r, n => (target r (newElem q ps)).under [n.children.length]
  | .attr q :: _, _ => .attr [] q
  | .text :: _, _ => .text []

/-- After building a path that had no match, it selects exactly the new node. -/
theorem matches_buildPath : ∀ (r : List Step) (n : Node) (k : Node → Node), pathOk r = true → LastEdit r.getLast? k →
    (r.getLast? = some .text → ∀ m, (k m).text.isSome = true) → (r ≠ [] → Step.matches r n = []) →
    Step.matches r (buildPath r k n) = [target r n]
  | [], n, k, _, _, _, _ => by simp [Step.matches, target]
  | .attr q :: r, n, k, hok, hk, _, hn => by
    simp only [pathOk, List.isEmpty_iff] at hok
    subst hok
    have h1 := hk.keepAttr (n.setAttr q []) q (by simp [Node.attr?_setAttr])
    simp [Step.matches, buildPath, target, h1]
  | .text :: r, n, k, hok, hk, ht, hn => by
    simp only [pathOk, List.isEmpty_iff] at hok
    subst hok
    have h1 := ht rfl n
    have h2 := hn (by simp)
    simp only [Step.matches, List.isEmpty_nil, if_true, List.append_eq_nil_iff] at h2
    simp [Step.matches, buildPath, target, h1, hk.children, h2.2]
  | .child q ps :: r, n, k, hok, hk, ht, hn => by
    simp only [pathOk, Bool.and_eq_true] at hok
    rw [buildPath, matches_child_append, hn (by simp), List.nil_append]
    have hk' : LastEdit r.getLast? k := by
      cases r with
      | nil => exact ⟨hk.tag, hk.children, fun m q _ => hk.attrs m q (by simp), hk.keepAttr⟩
      | cons s r => rwa [List.getLast?_cons_cons] at hk
    have ht' : r.getLast? = some .text → ∀ m, (k m).text.isSome = true := by
      cases r with
      | nil => simp
      | cons s r => rwa [List.getLast?_cons_cons] at ht
    have ih := matches_buildPath r (newElem q ps) k hok.2 hk' ht' (newElem_nomatch hok.1.1 hok.1.2)
    have h1 : (buildPath r k (newElem q ps)).isElem q = true := by
      have := newElem_isElem q ps
      simp only [Node.isElem, buildPath_tag r hk.tag] at this ⊢
      exact this
    have h2 : satAll ps (buildPath r k (newElem q ps)) = true := by
      rw [satAll_buildPath hok.1.1 hok.1.2 hok.2 hk']
      exact newElem_sat hok.1.1
    simp [stepG, h1, h2, ih, target]

/-- The node at the end of a built path, before `k`. -/
def leafNode : List Step → Node → Node
  | [], n => n
  | .child q ps :: r, _ => leafNode r (newElem q ps)
  | .attr q :: _, n => n.setAttr q []
  | .text :: _, n => n

theorem get_target : ∀ (r : List Step) (n : Node) (k : Node → Node),
    (buildPath r k n).get (target r n).addr = some (k (leafNode r n))
  | [], n, k => rfl
  | .attr q :: r, n, k => rfl
  | .text :: r, n, k => rfl
  | .child q ps :: r, n, k => by
    have ih := get_target r (newElem q ps) k
    have : (target (.child q ps :: r) n).addr = n.children.length :: (target r (newElem q ps)).addr := by
      simp only [target]; cases target r (newElem q ps) <;> rfl
    rw [this, buildPath, Node.get_cons]
    simp [ih, leafNode]

theorem modify_length_append (l : List Node) (c : Node) (f) : (l ++ [c]).modify l.length f = l ++ [f c] := by
  induction l <;> simp_all

theorem modify_target : ∀ (r : List Step) (n : Node) (k g : Node → Node),
    (buildPath r k n).modify (target r n).addr g = buildPath r (g ∘ k) n
  | [], n, k, g => rfl
  | .attr q :: r, n, k, g => rfl
  | .text :: r, n, k, g => rfl
  | .child q ps :: r, n, k, g => by
    have ih := modify_target r (newElem q ps) k g
    have : (target (.child q ps :: r) n).addr = n.children.length :: (target r (newElem q ps)).addr := by
      simp only [target]; cases target r (newElem q ps) <;> rfl
    rw [this, buildPath, Node.modify_cons, buildPath]
    simp only [Node.append_children]
    have hm : (n.children ++ [buildPath r k (newElem q ps)]).modify n.children.length
        (Node.modify (target r (newElem q ps)).addr g) = n.children ++ [buildPath r (g ∘ k) (newElem q ps)] := by
      rw [modify_length_append, ih]
    rw [hm]
    simp [Node.append]

end Spec
