import Verif.Spec.SimplePath
import Verif.Xml.NodeLemmas
import Mathlib.Tactic.ByContra
/-
Facts about the meaning of simple paths: locality of predicates, effect of a change at a matched element on what a
path selects.
-/
namespace Spec
open Xml

theorem under_nil (r : Ref) : r.under [] = r := by cases r <;> rfl
theorem under_under (p q : Node.Addr) (r : Ref) : (r.under q).under p = r.under (p ++ q) := by
  cases r <;> simp [Ref.under]
theorem map_under_nil (l : List Ref) : l.map (Ref.under []) = l := by
  induction l <;> simp_all [under_nil]
theorem map_under_under (p q : Node.Addr) (l : List Ref) : (l.map (Ref.under q)).map (Ref.under p) = l.map (Ref.under (p ++ q)) := by
  simp [under_under]

theorem satAll_iff (ps : List Pred) (n : Node) : satAll ps n = true ↔ ∀ p ∈ ps, p.sat n = true := by
  induction ps <;> simp_all [satAll]

theorem okAll_mem {ps : List Pred} (h : okAll ps = true) {p} (hp : p ∈ ps) : p.ok = true ∧ p.isHere = false := by
  induction ps with
  | nil => cases hp
  | cons p' ps ih =>
    simp only [okAll, Bool.and_eq_true, Bool.not_eq_true'] at h
    rcases List.mem_cons.mp hp with rfl | hp
    · exact ⟨h.1.1.1, h.1.1.2⟩
    · exact ih h.1.2 hp

/-- A predicate depends only on the attributes and on the children with the leading name. -/
theorem sat_local {p : Pred} {n n' : Node} (hh : p.isHere = false) (ha : n.attrs = n'.attrs)
    (hc : ∀ q, p.lead = some q → n.children.filter (Node.isElem q) = n'.children.filter (Node.isElem q)) :
    p.sat n = p.sat n' := by
  cases p with
  | attr q cmp => simp [Pred.sat, Node.attr?, ha]
  | here => cases hh
  | child q ps rest =>
    have h := hc q rfl
    have key : ∀ l : List Node, l.any (fun c => c.isElem q && satAll ps c && rest.sat c)
        = (l.filter (Node.isElem q)).any (fun c => satAll ps c && rest.sat c) := by
      intro l
      induction l with
      | nil => rfl
      | cons c l ih => by_cases hq : c.isElem q = true <;> simp_all
    simp only [Pred.sat, key, h]

theorem satAll_local {ps : List Pred} {n n' : Node} (hok : okAll ps = true) (ha : n.attrs = n'.attrs)
    (hc : ∀ p ∈ ps, ∀ q, p.lead = some q → n.children.filter (Node.isElem q) = n'.children.filter (Node.isElem q)) :
    satAll ps n = satAll ps n' := by
  have : ∀ l : List Pred, (∀ p ∈ l, p ∈ ps) → satAll l n = satAll l n' := by
    intro l
    induction l with
    | nil => intros; rfl
    | cons p l ih =>
      intro hl
      simp only [satAll]
      rw [ih (fun p hp => hl p (by simp [hp])),
        sat_local (okAll_mem hok (hl p (by simp))).2 ha (hc p (hl p (by simp)))]
  exact this ps (fun _ h => h)

/-- Does a step without its position say something about the element `m` that `m'` keeps? -/
def keeps : Option Step → Node → Node → Prop
  | some (.child _ ps), m, m' => m'.tag = m.tag ∧ satAll ps m' = true
  | _, _, _ => True

/-- The children of a child step's matches. -/
def stepG (q : QName) (ps : List Pred) (r : List Step) (i : Nat) (c : Node) : List Ref :=
  if c.isElem q && satAll ps c then (Step.matches r c).map (Ref.under [i]) else []

theorem matches_child (q ps r) (n : Node) :
    Step.matches (.child q ps :: r) n = (n.children.mapIdx (stepG q ps r)).flatten := by
  simp only [Step.matches]; rfl

theorem mem_matches_child {q ps r} {n : Node} {x : Ref} :
    x ∈ Step.matches (.child q ps :: r) n ↔ ∃ i c, n.children[i]? = some c ∧ c.isElem q = true ∧ satAll ps c = true ∧
      ∃ y ∈ Step.matches r c, x = y.under [i] := by
  simp only [matches_child, List.mem_flatten, List.mem_mapIdx]
  constructor
  · rintro ⟨l, ⟨i, hi, rfl⟩, hx⟩
    unfold stepG at hx
    split_ifs at hx with hs
    · simp only [Bool.and_eq_true] at hs
      obtain ⟨y, hy, rfl⟩ := List.mem_map.mp hx
      exact ⟨i, _, List.getElem?_eq_getElem hi, hs.1, hs.2, y, hy, rfl⟩
    · cases hx
  · rintro ⟨i, c, hc, h1, h2, y, hy, rfl⟩
    obtain ⟨hi, rfl⟩ := List.getElem?_eq_some_iff.mp hc
    refine ⟨_, ⟨i, hi, rfl⟩, ?_⟩
    simp only [stepG, h1, h2, Bool.and_self, if_true]
    exact List.mem_map_of_mem hy

theorem elem_under_iff {y : Ref} {i : Nat} {a : Node.Addr} (h : Ref.elem a = y.under [i]) : ∃ a', a = i :: a' ∧ y = .elem a' := by
  cases y <;> simp [Ref.under] at h
  exact ⟨_, h, rfl⟩

/-- Split the matches of a child step at child `i`. -/
theorem matches_child_split {q ps r} {n : Node} {i : Nat} {c : Node} (hc : n.children[i]? = some c) :
    ∃ L R, (∀ x ∈ L, ∃ j c', j < i ∧ n.children[j]? = some c' ∧ x ∈ stepG q ps r j c') ∧
      ∀ f : Node → Node, Step.matches (.child q ps :: r) (n.withChildren (n.children.modify i f))
        = L ++ (stepG q ps r i (f c) ++ R) := by
  obtain ⟨hi, hci⟩ := List.getElem?_eq_some_iff.mp hc
  refine ⟨((n.children.take i).mapIdx (stepG q ps r)).flatten,
    ((n.children.drop (i + 1)).mapIdx (fun j => stepG q ps r (j + (i + 1)))).flatten, ?_, ?_⟩
  · intro x hx
    simp only [List.mem_flatten, List.mem_mapIdx] at hx
    obtain ⟨l, ⟨j, hj, rfl⟩, hx⟩ := hx
    simp only [List.length_take] at hj
    refine ⟨j, _, by omega, ?_, hx⟩
    rw [List.getElem_take]
    exact List.getElem?_eq_getElem _
  · intro f
    rw [matches_child]
    have : (n.withChildren (n.children.modify i f)).children = n.children.take i ++ f c :: n.children.drop (i + 1) := by
      rw [Node.withChildren_children, List.modify_eq_take_cons_drop (by omega)]
      rw [hci]
    rw [this, List.mapIdx_append, List.mapIdx_cons]
    simp only [List.flatten_append, List.flatten_cons, List.length_take, Nat.min_eq_left (Nat.le_of_lt hi), Nat.zero_add]
    congr 3
    congr 1
    funext j
    congr 1
    omega

theorem filter_modify_ne {q q2 : QName} (h : q ≠ q2) {l : List Node} {i : Nat} {f : Node → Node}
    (hf : ∀ c, l[i]? = some c → c.isElem q2 = true ∧ (f c).isElem q2 = true) :
    (l.modify i f).filter (Node.isElem q) = l.filter (Node.isElem q) := by
  induction l generalizing i with
  | nil => cases i <;> rfl
  | cons c l ih =>
    cases i with
    | zero =>
      have := hf c rfl
      have h1 : c.isElem q = false := by
        simp only [Node.isElem, beq_iff_eq] at this
        simp [Node.isElem, this.1, Ne.symm h]
      have h2 : (f c).isElem q = false := by
        simp only [Node.isElem, beq_iff_eq] at this
        simp [Node.isElem, this.2, Ne.symm h]
      simp [List.modify, h1, h2]
    | succ i =>
      simp only [List.modify_succ_cons, List.filter_cons]
      rw [ih (by simpa using hf)]

/-- What a path selects after a change at an element that a prefix of the path matches: only the selection below that
element may change.  If the element is the first match of the prefix, nothing comes before. -/
theorem matches_split : ∀ (pre : List Step) (n : Node) (a : Node.Addr), pathOk pre = true → .elem a ∈ Step.matches pre n →
    ∃ m, n.get a = some m ∧ keeps pre.getLast? m m ∧ ∀ r, ∃ L R, ((Step.matches pre n).head? = some (.elem a) → L = []) ∧
      ∀ f : Node → Node, keeps pre.getLast? m (f m) →
        Step.matches (pre ++ r) (n.modify a f) = L ++ ((Step.matches r (f m)).map (Ref.under a) ++ R)
  | [], n, a, _, h => by
    simp only [Step.matches, List.mem_singleton, Ref.elem.injEq] at h
    subst h
    refine ⟨n, rfl, trivial, fun r => ⟨[], [], fun _ => rfl, fun f _ => ?_⟩⟩
    simp [map_under_nil]
  | .attr q :: r, n, a, _, h => by simp [Step.matches] at h
  | .text :: r, n, a, _, h => by
    simp only [Step.matches] at h
    split_ifs at h with h1 h2 <;> simp [tailRefs, List.mem_flatten] at h
    all_goals (obtain ⟨l, ⟨i, _, rfl⟩, h⟩ := h; split at h <;> simp at h)
  | .child q ps :: pre, n, a, hok, h => by
    obtain ⟨i, c, hc, hq, hs, y, hy, hay⟩ := mem_matches_child.mp h
    obtain ⟨a', rfl, rfl⟩ := elem_under_iff hay
    simp only [pathOk, Bool.and_eq_true] at hok
    obtain ⟨m, hm, hk, ih⟩ := matches_split pre c a' hok.2 hy
    refine ⟨m, by simp [Node.get_cons, hc, hm], ?_, ?_⟩
    · cases pre with
      | nil =>
        simp only [Step.matches, List.mem_singleton, Ref.elem.injEq] at hy
        subst hy
        simp only [Node.get_nil, Option.some.injEq] at hm
        subst hm
        exact ⟨rfl, hs⟩
      | cons s pre => rw [List.getLast?_cons_cons]; exact hk
    intro r
    obtain ⟨L, R, hL, hf⟩ := ih r
    obtain ⟨L', R', hL', hf'⟩ := matches_child_split (q := q) (ps := ps) (r := pre ++ r) hc
    refine ⟨L' ++ L.map (Ref.under [i]), R.map (Ref.under [i]) ++ R', ?_, ?_⟩
    · intro hh
      -- nothing matches the prefix before child `i`
      obtain ⟨L2, R2, hL2, hf2⟩ := matches_child_split (q := q) (ps := ps) (r := pre) hc
      have hn := hf2 id
      have hmodid : n.children.modify i id = n.children := by simp
      rw [hmodid, Node.withChildren_self] at hn
      simp only [id, stepG, hq, hs, Bool.and_self, if_true] at hn
      have hLempty : ∀ j c', j < i → n.children[j]? = some c' → stepG q ps pre j c' = [] := by
        intro j c' hj hc'
        by_contra hne
        obtain ⟨x, hx⟩ := List.exists_mem_of_ne_nil _ hne
        -- the head of all matches would come from a child before `i`
        obtain ⟨L3, R3, hL3, hf3⟩ := matches_child_split (q := q) (ps := ps) (r := pre) hc'
        have hn3 := hf3 id
        have hmodid3 : n.children.modify j id = n.children := by simp
        rw [hmodid3, Node.withChildren_self] at hn3
        have hlt : ∀ z, z ∈ (L3 ++ stepG q ps pre j c') → ∀ a'', z = Ref.elem (i :: a'') → False := by
          intro z hz a'' hza
          rcases List.mem_append.mp hz with hz | hz
          · obtain ⟨k, ck, hk, -, hzk⟩ := hL3 z hz
            unfold stepG at hzk
            split_ifs at hzk
            · obtain ⟨y, -, rfl⟩ := List.mem_map.mp hzk
              cases y <;> simp [Ref.under] at hza
              omega
            · cases hzk
          · unfold stepG at hz
            split_ifs at hz
            · obtain ⟨y, -, rfl⟩ := List.mem_map.mp hz
              cases y <;> simp [Ref.under] at hza
              omega
            · cases hz
        rw [hn3, ← List.append_assoc, List.head?_append] at hh
        have hne3 : (L3 ++ stepG q ps pre j (id c')) ≠ [] := by
          simp only [id, ne_eq, List.append_eq_nil_iff, not_and]
          intro _; exact hne
        obtain ⟨z, zs, hz⟩ := List.exists_cons_of_ne_nil hne3
        rw [hz] at hh
        simp only [List.head?_cons, Option.some_or, Option.some.injEq] at hh
        exact hlt z (by rw [show stepG q ps pre j c' = stepG q ps pre j (id c') from rfl, hz]; exact List.mem_cons_self ..) a' hh
      have hL2e : L2 = [] := by
        by_contra hne
        obtain ⟨x, hx⟩ := List.exists_mem_of_ne_nil _ hne
        obtain ⟨j, c', hj, hc', hx'⟩ := hL2 x hx
        rw [hLempty j c' hj hc'] at hx'
        cases hx'
      have hL'e : L' = [] := by
        by_contra hne
        obtain ⟨x, hx⟩ := List.exists_mem_of_ne_nil _ hne
        obtain ⟨j, c', hj, hc', hx'⟩ := hL' x hx
        have hemp := hLempty j c' hj hc'
        unfold stepG at hemp hx'
        split_ifs at hemp hx' with hcs
        · -- `pre` has no match below c', so `pre ++ r` has none either
          have hpe : Step.matches pre c' = [] := by simpa using hemp
          have : Step.matches (pre ++ r) c' = [] := matches_append_nil pre r c' hpe
          rw [this] at hx'
          cases hx'
        · cases hx'
      have hLe : L = [] := by
        apply hL
        rw [hn, hL2e] at hh
        simp only [List.nil_append, List.head?_append, List.head?_map] at hh
        cases hpm : Step.matches pre c with
        | nil => rw [hpm] at hy; cases hy
        | cons z zs =>
          rw [hpm] at hh
          simp only [List.head?_cons, Option.map_some, Option.some_or, Option.some.injEq] at hh
          obtain ⟨a2, h1, h2⟩ := elem_under_iff hh.symm
          simp only [List.cons.injEq, true_and] at h1
          subst h1
          simp [h2]
      simp [hL'e, hLe]
    · intro f hkf
      rw [List.cons_append, Node.modify_cons, hf' (Node.modify a' f)]
      have hsat : (c.modify a' f).isElem q = true ∧ satAll ps (c.modify a' f) = true := by
        cases pre with
        | nil =>
          simp only [Step.matches, List.mem_singleton, Ref.elem.injEq] at hy
          subst hy
          simp only [Node.get_nil, Option.some.injEq] at hm
          subst hm
          simp only [List.getLast?_singleton, keeps] at hkf
          simp only [Node.modify_nil, Node.isElem, hkf.1]
          exact ⟨by simpa [Node.isElem] using hq, hkf.2⟩
        | cons s pre =>
          cases s with
          | attr q' => simp [Step.matches] at hy
          | text =>
            simp only [Step.matches] at hy
            split_ifs at hy with h1 h2 <;> simp [tailRefs, List.mem_flatten] at hy
            all_goals (obtain ⟨l, ⟨i, _, rfl⟩, h⟩ := hy; split at h <;> simp at h)
          | child q2 ps2 =>
            obtain ⟨j, c2, hc2, hq2, -, y2, hy2, hay2⟩ := mem_matches_child.mp hy
            obtain ⟨a2, rfl, rfl⟩ := elem_under_iff hay2
            have htag : ∀ c3, c.children[j]? = some c3 → c3.isElem q2 = true ∧ (c3.modify a2 f).isElem q2 = true := by
              intro c3 hc3
              rw [hc2, Option.some.injEq] at hc3
              subst hc3
              refine ⟨hq2, ?_⟩
              cases a2 with
              | cons => simp only [Node.isElem, Node.modify_tag_of_ne_nil (List.cons_ne_nil _ _)]; exact hq2
              | nil =>
                have hpn : pre = [] := by
                  cases pre with
                  | nil => rfl
                  | cons s pre =>
                    exfalso
                    cases s with
                    | attr q' => simp [Step.matches] at hy2
                    | text =>
                      simp only [Step.matches] at hy2
                      split_ifs at hy2 with h1 h2 <;> simp [tailRefs, List.mem_flatten] at hy2
                      all_goals (obtain ⟨l, ⟨i, _, rfl⟩, h⟩ := hy2; split at h <;> simp at h)
                    | child =>
                      obtain ⟨_, _, _, _, _, y3, _, h3⟩ := mem_matches_child.mp hy2
                      cases y3 <;> simp [Ref.under] at h3
                subst hpn
                simp only [List.getLast?_cons_cons, List.getLast?_singleton, keeps] at hkf
                simp only [Node.get_cons, hc2, Option.bind_some, Node.get_nil, Option.some.injEq] at hm
                subst hm
                simp only [Node.modify_nil, Node.isElem, hkf.1]
                exact hq2
            refine ⟨by rw [Node.modify_cons]; simpa [Node.isElem] using hq, ?_⟩
            rw [← hs]
            refine (satAll_local hok.1.1 (by simp [Node.modify_cons]) ?_).symm
            intro p hp q3 hq3
            have hne : q3 ≠ q2 := by
              have := hok.1.2
              simp only [nextOk, List.all_eq_true, bne_iff_ne, ne_eq] at this
              rintro rfl
              exact this p hp hq3
            rw [Node.modify_cons, Node.withChildren_children, filter_modify_ne hne htag]
      have hkf' : keeps pre.getLast? m (f m) := by
        cases pre with
        | nil => trivial
        | cons s pre => rwa [List.getLast?_cons_cons] at hkf
      simp only [stepG, hsat, Bool.and_self, if_true, hf f hkf', List.map_append, map_under_under, List.append_assoc]
      rfl
where
  matches_append_nil : ∀ (pre r : List Step) (n : Node), Step.matches pre n = [] → Step.matches (pre ++ r) n = []
    | [], _, _, h => by simp [Step.matches] at h
    | .attr q :: pre, r, n, h => by
      cases r with
      | nil => simpa using h
      | cons => simp [Step.matches]
    | .text :: pre, r, n, h => by
      cases r with
      | nil => simpa using h
      | cons => simp [Step.matches]
    | .child q ps :: pre, r, n, h => by
      rw [List.cons_append]
      by_contra hne
      obtain ⟨x, hx⟩ := List.exists_mem_of_ne_nil _ hne
      obtain ⟨i, c, hc, hq, hs, y, hy, -⟩ := mem_matches_child.mp hx
      have : Step.matches pre c = [] := by
        by_contra hne2
        obtain ⟨z, hz⟩ := List.exists_mem_of_ne_nil _ hne2
        have : z.under [i] ∈ Step.matches (.child q ps :: pre) n := mem_matches_child.mpr ⟨i, c, hc, hq, hs, z, hz, rfl⟩
        rw [h] at this
        cases this
      rw [matches_append_nil pre r c this] at hy
      cases hy

end Spec
