import Verif.Spec.Record
import Verif.XmlMap.GraftLemmas
import Verif.XmlMap.NodeListLemmas
/-
Reading, writing and deleting on simple paths whose steps select at most one node, by recursion on the path instead of by address.
-/
namespace Spec
open Xml Fields

/-- The elements a child step selects. -/
def okc (q : QName) (ps : List Pred) (c : Node) : Bool := c.isElem q && satAll ps c

/-- What the path selects: elements (with their content), or attribute values. -/
def hits : List Step → Node → List (Node ⊕ Str)
  | [], n => [.inl n]
  | .child q ps :: r, n => (n.children.filter (okc q ps)).flatMap (hits r)
  | .attr q :: _, n => (n.attr? q).toList.map .inr
  | .text :: _, _ => []

/-- Change the first child that satisfies `ok`, or add one. -/
def updFirst (ok : Node → Bool) (f : Node → Node) (new : Node) : List Node → List Node
  | [] => [new]
  | c :: cs => if ok c then f c :: cs else c :: updFirst ok f new cs

/-- Change or remove the first child that satisfies `ok`. -/
def chgFirst (ok : Node → Bool) (g : Node → Option Node) : List Node → List Node
  | [] => []
  | c :: cs => if ok c then (match g c with | some c' => c' :: cs | none => cs) else c :: chgFirst ok g cs

/-- Write a string at the end of the path. -/
def wr : List Step → Str → Node → Node
  | [], v, n => n.setText (some v)
  | .child q ps :: r, v, n => n.withChildren (updFirst (okc q ps) (wr r v) (wr r v (newElem q ps)) n.children)
  | .attr q :: _, v, n => n.setAttr q v
  | .text :: _, v, n => n.setText (some v)

/-- Delete what is at the end of the path. -/
def del : List Step → Node → Node
  | [], n => n
  | .child q ps :: r, n => n.withChildren (chgFirst (okc q ps)
      (fun c => if r.isEmpty then none else if (hits r c).isEmpty then some c else
        if emptyBut ps (del r c) then none else some (del r c)) n.children)
  | .attr q :: _, n => n.delAttr q
  | .text :: _, n => n

/-- At most one child at each step. -/
def Uniq : List Step → Node → Prop
  | .child q ps :: r, n => (n.children.filter (okc q ps)).length ≤ 1 ∧ ∀ c ∈ n.children, okc q ps c = true → Uniq r c
  | _, _ => True

/-- Paths to elements or attributes, with constructible attribute predicates that do not name the next step. -/
def good : List Step → Bool
  | [] => true
  | .child _ ps :: r => okAll ps && attrOnly ps && nextOk ps r && good r
  | .attr _ :: r => r.isEmpty
  | .text :: _ => false

theorem good_of {p : List Step} (hok : pathOk p = true) (hap : attrPreds p = true) (hl : p.getLast? ≠ some .text) : good p = true := by
  induction p with
  | nil => rfl
  | cons st r ih =>
    have hr : r ≠ [] → r.getLast? ≠ some .text := by
      intro hr h
      apply hl
      cases r with
      | nil => exact absurd rfl hr
      | cons a r => rw [List.getLast?_cons_cons]; exact h
    cases st with
    | attr q => simpa [pathOk, good] using hok
    | text =>
      simp only [pathOk, List.isEmpty_iff] at hok
      subst hok
      simp at hl
    | child q ps =>
      simp only [pathOk, Bool.and_eq_true] at hok
      simp only [attrPreds, List.all_cons, Bool.and_eq_true, Step.preds] at hap
      simp only [good, Bool.and_eq_true]
      refine ⟨⟨⟨hok.1.1, hap.1⟩, hok.1.2⟩, ?_⟩
      by_cases h : r = []
      · subst h; rfl
      · exact ih hok.2 hap.2 (hr h)

/-! ### splitting the children -/

/-- Either no child satisfies `ok`, or there is a first one. -/
theorem first_split (ok : Node → Bool) : ∀ cs : List Node, (∀ c ∈ cs, ok c = false) ∨
    ∃ A c B, cs = A ++ c :: B ∧ (∀ x ∈ A, ok x = false) ∧ ok c = true
  | [] => .inl (by simp)
  | c :: cs => by
    by_cases h : ok c = true
    · exact .inr ⟨[], c, cs, rfl, by simp, h⟩
    · rcases first_split ok cs with h1 | ⟨A, d, B, rfl, h2, h3⟩
      · exact .inl (by intro x hx; rcases List.mem_cons.mp hx with rfl | hx; exacts [by simpa using h, h1 x hx])
      · refine .inr ⟨c :: A, d, B, rfl, ?_, h3⟩
        intro x hx
        rcases List.mem_cons.mp hx with rfl | hx
        exacts [by simpa using h, h2 x hx]

theorem updFirst_none {ok : Node → Bool} {f new} : ∀ {cs : List Node}, (∀ c ∈ cs, ok c = false) → updFirst ok f new cs = cs ++ [new]
  | [], _ => rfl
  | c :: cs, h => by
    rw [updFirst, if_neg (by simp [h c (by simp)]), updFirst_none (fun x hx => h x (by simp [hx]))]; rfl

theorem updFirst_mid {ok : Node → Bool} {f new} {c : Node} {B : List Node} (hc : ok c = true) : ∀ {A : List Node}, (∀ x ∈ A, ok x = false) →
    updFirst ok f new (A ++ c :: B) = A ++ f c :: B
  | [], _ => by simp [updFirst, hc]
  | a :: A, h => by
    rw [List.cons_append, updFirst, if_neg (by simp [h a (by simp)]), updFirst_mid hc (fun x hx => h x (by simp [hx]))]; rfl

theorem chgFirst_none {ok : Node → Bool} {g} : ∀ {cs : List Node}, (∀ c ∈ cs, ok c = false) → chgFirst ok g cs = cs
  | [], _ => rfl
  | c :: cs, h => by
    rw [chgFirst, if_neg (by simp [h c (by simp)]), chgFirst_none (fun x hx => h x (by simp [hx]))]

theorem chgFirst_mid {ok : Node → Bool} {g} {c : Node} {B : List Node} (hc : ok c = true) : ∀ {A : List Node}, (∀ x ∈ A, ok x = false) →
    chgFirst ok g (A ++ c :: B) = A ++ (g c).toList ++ B
  | [], _ => by cases h : g c <;> simp [chgFirst, hc, h]
  | a :: A, h => by
    rw [List.cons_append, chgFirst, if_neg (by simp [h a (by simp)]), chgFirst_mid hc (fun x hx => h x (by simp [hx]))]; rfl

theorem filter_none {ok : Node → Bool} {cs : List Node} (h : ∀ c ∈ cs, ok c = false) : cs.filter ok = [] := by
  simp only [List.filter_eq_nil_iff]
  intro c hc
  simp [h c hc]

/-- With at most one child, no other child behind the first. -/
theorem uniq_behind {ok : Node → Bool} {A B : List Node} {c : Node} (hc : ok c = true)
    (h : ((A ++ c :: B).filter ok).length ≤ 1) : (∀ x ∈ A, ok x = false) ∧ ∀ x ∈ B, ok x = false := by
  simp only [List.filter_append, List.filter_cons, hc, if_true, List.length_append, List.length_cons] at h
  have hA : A.filter ok = [] := List.length_eq_zero_iff.mp (by omega)
  have hB : B.filter ok = [] := List.length_eq_zero_iff.mp (by omega)
  simp only [List.filter_eq_nil_iff] at hA hB
  exact ⟨fun x hx => by simpa using hA x hx, fun x hx => by simpa using hB x hx⟩

/-! ### attributes and tags under write and delete -/

theorem wr_tag : ∀ (p : List Step) (v n), (wr p v n).tag = n.tag
  | [], v, n => by simp [wr]
  | .child q ps :: r, v, n => by simp [wr]
  | .attr q :: r, v, n => by simp [wr]
  | .text :: r, v, n => by simp [wr]

theorem del_tag : ∀ (p : List Step) (n), (del p n).tag = n.tag
  | [], n => by simp [del]
  | .child q ps :: r, n => by simp [del]
  | .attr q :: r, n => by simp [del]
  | .text :: r, n => by simp [del]

theorem wr_attr (p : List Step) (v n) (q : QName) (h : ∀ r, p ≠ .attr q :: r) : (wr p v n).attr? q = n.attr? q := by
  cases p with
  | nil => simp [wr, Node.attr?]
  | cons st r =>
    cases st with
    | child => simp [wr, Node.attr?]
    | text => simp [wr, Node.attr?]
    | attr q' =>
      rw [wr, Node.attr?_setAttr, if_neg]
      rintro rfl
      exact h r rfl

theorem del_attr (p : List Step) (n) (q : QName) (h : ∀ r, p ≠ .attr q :: r) : (del p n).attr? q = n.attr? q := by
  cases p with
  | nil => simp [del]
  | cons st r =>
    cases st with
    | child => simp [del, Node.attr?]
    | text => simp [del]
    | attr q' =>
      have hne : q ≠ q' := by rintro rfl; exact h r rfl
      simp [del, Node.attr?, Node.lookup_filter_ne, hne]

theorem attrOnly_cons' {p : Pred} {ps : List Pred} (h : attrOnly (p :: ps) = true) : (∃ q c, p = .attr q c) ∧ attrOnly ps = true := by
  simp only [attrOnly, List.all_cons, Bool.and_eq_true] at h
  refine ⟨?_, h.2⟩
  cases p <;> simp_all [Pred.attrOf]

/-- Attribute predicates depend on the attributes they name. -/
theorem satAll_attrs {ps : List Pred} (hao : attrOnly ps = true) {n n' : Node} (h : ∀ p ∈ ps, ∀ q, p.attrOf = some q → n.attr? q = n'.attr? q) :
    satAll ps n = satAll ps n' := by
  induction ps with
  | nil => rfl
  | cons p ps ih =>
    obtain ⟨⟨q, c, rfl⟩, h2⟩ := attrOnly_cons' hao
    have h1 : (Pred.attr q c).sat n = (Pred.attr q c).sat n' := by
      have h0 := h (.attr q c) (by simp) q rfl
      simp only [Pred.sat, h0]
    rw [satAll, satAll, ih h2 (fun p hp => h p (by simp [hp])), h1]

theorem nextOk_attr {ps : List Pred} {r : List Step} (hn : nextOk ps r = true) : ∀ p ∈ ps, ∀ q, p.attrOf = some q → ∀ r', r ≠ .attr q :: r' := by
  rintro p hp q hq r' rfl
  simp only [nextOk, List.all_eq_true, bne_iff_ne, ne_eq] at hn
  exact hn p hp hq

theorem okc_wr {q ps r} (hg : good (.child q ps :: r) = true) (v c) : okc q ps (wr r v c) = okc q ps c := by
  simp only [good, Bool.and_eq_true] at hg
  unfold okc
  rw [satAll_attrs hg.1.1.2 (n' := c) (fun p hp q hq => wr_attr _ _ _ _ (nextOk_attr hg.1.2 p hp q hq))]
  simp [Node.isElem, wr_tag]

theorem okc_del {q ps r} (hg : good (.child q ps :: r) = true) (c) : okc q ps (del r c) = okc q ps c := by
  simp only [good, Bool.and_eq_true] at hg
  unfold okc
  rw [satAll_attrs hg.1.1.2 (n' := c) (fun p hp q hq => del_attr _ _ _ (nextOk_attr hg.1.2 p hp q hq))]
  simp [Node.isElem, del_tag]

theorem okc_new {q ps} (h : okAll ps = true) : okc q ps (newElem q ps) = true := by
  unfold okc
  rw [newElem_isElem, newElem_sat h]; rfl

theorem new_children {q ps} (h : attrOnly ps = true) : (newElem q ps).children = [] := by
  unfold newElem
  rw [buildAll_attrOnly _ _ h]; rfl

theorem new_attr {q ps r t} (hn : nextOk ps (.attr t :: r) = true) : (newElem q ps).attr? t = none := by
  unfold newElem
  rw [buildAll_attr]
  · rfl
  · intro hm
    obtain ⟨p, hp, hq⟩ := List.mem_map.mp hm
    exact nextOk_attr hn p hp t hq r rfl

theorem hits_new {q ps r} (hg : good (.child q ps :: r) = true) (hr : r ≠ []) : hits r (newElem q ps) = [] := by
  simp only [good, Bool.and_eq_true] at hg
  cases r with
  | nil => exact absurd rfl hr
  | cons st r =>
    cases st with
    | child q' ps' => simp [hits, new_children hg.1.1.2]
    | attr t => simp [hits, new_attr hg.1.2]
    | text => rfl

theorem uniq_new {q ps r} (hg : good (.child q ps :: r) = true) : Uniq r (newElem q ps) := by
  simp only [good, Bool.and_eq_true] at hg
  cases r with
  | nil => trivial
  | cons st r => cases st <;> simp [Uniq, new_children hg.1.1.2]

theorem lookup_mem {q : QName} {v : Str} : ∀ {l : List (QName × Str)}, l.lookup q = some v → (q, v) ∈ l
  | [], h => by simp at h
  | (a, b) :: l, h => by
    rw [List.lookup_cons] at h
    by_cases hq : (q == a) = true
    · rw [hq] at h
      simp only [Option.some.injEq] at h
      simp only [beq_iff_eq] at hq
      subst hq; subst h
      exact List.mem_cons_self
    · simp only [hq] at h
      exact List.mem_cons_of_mem _ (lookup_mem h)

theorem hits_emptyBut {ps : List Pred} {r : List Step} (hn : nextOk ps r = true) (hr : r ≠ []) {c : Node} (he : emptyBut ps c = true) :
    hits r c = [] := by
  simp only [emptyBut, Bool.and_eq_true, List.isEmpty_iff, List.all_eq_true, decide_eq_true_eq] at he
  cases r with
  | nil => exact absurd rfl hr
  | cons st r =>
    cases st with
    | child q' ps' => simp [hits, he.1]
    | text => rfl
    | attr t =>
      have : c.attr? t = none := by
        cases h : c.attr? t with
        | none => rfl
        | some v =>
          have := he.2 _ (lookup_mem h)
          simp only [eqAttrs, List.mem_filterMap] at this
          obtain ⟨p, hp, hq⟩ := this
          cases p with
          | attr q' cmp =>
            cases cmp with
            | none => simp at hq
            | some w =>
              simp only [Option.some.injEq] at hq
              exact absurd rfl (nextOk_attr hn _ hp t (by simp [Pred.attrOf, hq]) r)
          | here => simp at hq
          | child => simp at hq
      simp [hits, this]

/-! ### other fields -/

theorem hits_child_append {q ps r} {n : Node} {A B : List Node} (l : List Node) :
    hits (.child q ps :: r) (n.withChildren (A ++ l ++ B))
      = (A.filter (okc q ps)).flatMap (hits r) ++ ((l.filter (okc q ps)).flatMap (hits r) ++ (B.filter (okc q ps)).flatMap (hits r)) := by
  simp [hits]

theorem Part.symm : ∀ {p p' : List Step}, Part p p' → Part p' p
  | .child q ps :: r, .child q' ps' :: r', h => by
    rcases h with h | ⟨rfl, rfl, h⟩
    · exact .inl (fun m h1 h2 h3 h4 => h m h3 h4 h1 h2)
    · exact .inr ⟨rfl, rfl, Part.symm h⟩
  | .attr q :: _, .attr q' :: _, h => fun e => h e.symm
  | .child _ _ :: _, .attr _ :: _, _ => trivial
  | .attr _ :: _, .child _ _ :: _, _ => trivial
  | [], _, h => by simp [Part] at h
  | .child _ _ :: _, [], h => by simp [Part] at h
  | .attr _ :: _, [], h => by simp [Part] at h
  | .text :: _, _, h => by simp [Part] at h
  | .child _ _ :: _, .text :: _, h => by simp [Part] at h
  | .attr _ :: _, .text :: _, h => by simp [Part] at h

theorem apart_okc {q ps q' ps'} (h : Apart q ps q' ps') {m : Node} (h1 : okc q ps m = true) : okc q' ps' m = false := by
  unfold okc at *
  simp only [Bool.and_eq_true] at h1
  rw [Bool.eq_false_iff]
  intro h2
  simp only [Bool.and_eq_true] at h2
  exact h m h1.1 h1.2 h2.1 h2.2

theorem hits_wr_other : ∀ {p p' : List Step}, good p = true → good p' = true → Part p p' → ∀ (v n), hits p' (wr p v n) = hits p' n
  | .child q ps :: r, .child q' ps' :: r', hg, hg', h, v, n => by
    have hg0 := hg
    simp only [good, Bool.and_eq_true] at hg0
    have hnew : okc q ps (wr r v (newElem q ps)) = true := by rw [okc_wr hg, okc_new hg0.1.1.1]
    rcases h with h | ⟨rfl, rfl, h⟩
    · rcases first_split (okc q ps) n.children with h0 | ⟨A, c, B, hc, hA, hok⟩
      · simp only [wr, updFirst_none h0, hits, Node.withChildren_children, List.filter_append, List.flatMap_append, List.filter_cons,
          apart_okc h hnew, List.filter_nil, Bool.false_eq_true, if_false, List.flatMap_nil, List.append_nil]
      · simp only [wr, hc, updFirst_mid hok hA, hits, Node.withChildren_children, List.filter_append, List.filter_cons,
          apart_okc h hok, apart_okc h ((okc_wr hg v c).trans hok), Bool.false_eq_true, if_false]
    · have hr' : r' ≠ [] := by rintro rfl; cases r with
        | nil => exact h
        | cons st r => cases st <;> exact h
      have ih := hits_wr_other hg0.2 (by simp only [good, Bool.and_eq_true] at hg'; exact hg'.2) h v
      rcases first_split (okc q ps) n.children with h0 | ⟨A, c, B, hc, hA, hok⟩
      · simp only [wr, updFirst_none h0, hits, Node.withChildren_children, List.filter_append, List.flatMap_append, List.filter_cons,
          hnew, List.filter_nil, if_true, List.flatMap_nil, List.append_nil, List.flatMap_cons]
        rw [ih, hits_new hg' hr', List.append_nil]
      · simp only [wr, hc, updFirst_mid hok hA, hits, Node.withChildren_children, List.filter_append, List.filter_cons,
          hok, okc_wr hg, if_true, List.flatMap_append, List.flatMap_cons]
        rw [ih]
  | .attr q :: _, .attr q' :: _, _, _, h, v, n => by
    simp only [hits]
    rw [wr_attr _ _ _ _ (by rintro r' e; simp only [List.cons.injEq, Step.attr.injEq] at e; exact h e.1)]
  | .child q ps :: r, .attr q' :: _, _, _, _, v, n => by
    simp only [hits]
    rw [wr_attr _ _ _ _ (by simp)]
  | .attr q :: _, .child q' ps' :: r', _, _, _, v, n => by simp [hits, wr]
  | [], _, _, _, h, _, _ => by simp [Part] at h
  | .child _ _ :: _, [], _, _, h, _, _ => by simp [Part] at h
  | .attr _ :: _, [], _, _, h, _, _ => by simp [Part] at h
  | .text :: _, _, _, _, h, _, _ => by simp [Part] at h
  | .child _ _ :: _, .text :: _, _, _, h, _, _ => by simp [Part] at h
  | .attr _ :: _, .text :: _, _, _, h, _, _ => by simp [Part] at h

theorem part_ne_nil {p p' : List Step} (h : Part p p') : p ≠ [] ∧ p' ≠ [] := by
  constructor
  · rintro rfl; simp [Part] at h
  · rintro rfl; exact absurd (Part.symm h) (by simp [Part])

/-- What a delete makes of the first child. -/
def delChild (ps : List Pred) (r : List Step) (c : Node) : Option Node :=
  if r.isEmpty then none else if (hits r c).isEmpty then some c else if emptyBut ps (del r c) then none else some (del r c)

theorem del_child (q ps r n) : del (.child q ps :: r) n = n.withChildren (chgFirst (okc q ps) (delChild ps r) n.children) := rfl

theorem delChild_cases (ps : List Pred) (r : List Step) (c : Node) : (r = [] ∧ delChild ps r c = none) ∨
    (r ≠ [] ∧ delChild ps r c = some c ∧ hits r c = []) ∨
    (r ≠ [] ∧ delChild ps r c = none ∧ emptyBut ps (del r c) = true) ∨ (r ≠ [] ∧ delChild ps r c = some (del r c)) := by
  unfold delChild
  by_cases h1 : r = []
  · simp [h1]
  · by_cases h2 : hits r c = []
    · simp [h1, h2]
    · by_cases h3 : emptyBut ps (del r c) = true
      · simp [h1, h2, h3]
      · simp [h1, h2, h3]

theorem hits_del_other : ∀ {p p' : List Step}, good p = true → good p' = true → Part p p' → ∀ n, hits p' (del p n) = hits p' n
  | .child q ps :: r, .child q' ps' :: r', hg, hg', h, n => by
    have hg0 := hg
    simp only [good, Bool.and_eq_true] at hg0
    rw [del_child]
    rcases first_split (okc q ps) n.children with h0 | ⟨A, c, B, hc, hA, hok⟩
    · rw [chgFirst_none h0, Node.withChildren_self]
    · rw [hc, chgFirst_mid hok hA, hits_child_append]
      have hR : hits (.child q' ps' :: r') n = (A.filter (okc q' ps')).flatMap (hits r') ++
          (([c].filter (okc q' ps')).flatMap (hits r') ++ (B.filter (okc q' ps')).flatMap (hits r')) := by
        rw [← hits_child_append (n := n), List.append_assoc, List.singleton_append, ← hc, Node.withChildren_self]
      rw [hR]
      congr 2
      rcases h with h | ⟨rfl, rfl, h⟩
      · have h1 := apart_okc h hok
        have h2 := apart_okc h ((okc_del hg c).trans hok)
        rcases delChild_cases ps r c with ⟨-, e⟩ | ⟨-, e, -⟩ | ⟨-, e, -⟩ | ⟨-, e⟩ <;> rw [e] <;> simp [h1, h2]
      · have ih := hits_del_other hg0.2 (by simp only [good, Bool.and_eq_true] at hg'; exact hg'.2) h c
        have h2 := (okc_del hg c).trans hok
        obtain ⟨hr, hr'⟩ := part_ne_nil h
        rcases delChild_cases ps r c with ⟨e0, -⟩ | ⟨-, e, -⟩ | ⟨-, e, e2⟩ | ⟨-, e⟩
        · exact absurd e0 hr
        · rw [e]; simp
        · rw [e]
          have : hits r' c = [] := by
            rw [← ih]
            simp only [good, Bool.and_eq_true] at hg'
            exact hits_emptyBut hg'.1.2 hr' e2
          simp [hok, this]
        · rw [e]; simp [hok, h2, ih]
  | .attr q :: _, .attr q' :: _, _, _, h, n => by
    simp only [hits]
    rw [del_attr _ _ _ (by rintro r' e; simp only [List.cons.injEq, Step.attr.injEq] at e; exact h e.1)]
  | .child q ps :: r, .attr q' :: _, _, _, _, n => by
    simp only [hits]
    rw [del_attr _ _ _ (by simp)]
  | .attr q :: _, .child q' ps' :: r', _, _, _, n => by simp [hits, del]
  | [], _, _, _, h, _ => by simp [Part] at h
  | .child _ _ :: _, [], _, _, h, _ => by simp [Part] at h
  | .attr _ :: _, [], _, _, h, _ => by simp [Part] at h
  | .text :: _, _, _, _, h, _ => by simp [Part] at h
  | .child _ _ :: _, .text :: _, _, _, h, _ => by simp [Part] at h
  | .attr _ :: _, .text :: _, _, _, h, _ => by simp [Part] at h

/-! ### uniqueness is kept -/

theorem uniq_wr_other : ∀ {p p' : List Step}, good p = true → good p' = true → Part p p' → ∀ (v n), Uniq p' n → Uniq p' (wr p v n)
  | .child q ps :: r, .child q' ps' :: r', hg, hg', h, v, n, hu => by
    have hg0 := hg
    simp only [good, Bool.and_eq_true] at hg0
    have hnew : okc q ps (wr r v (newElem q ps)) = true := by rw [okc_wr hg, okc_new hg0.1.1.1]
    simp only [Uniq, wr, Node.withChildren_children]
    obtain ⟨hu1, hu2⟩ := hu
    rcases first_split (okc q ps) n.children with h0 | ⟨A, c, B, hc, hA, hok⟩
    · rw [updFirst_none h0]
      rcases h with h | ⟨rfl, rfl, h⟩
      · have h1 := apart_okc h hnew
        refine ⟨by simpa [List.filter_append, h1] using hu1, ?_⟩
        intro c hc hc'
        rcases List.mem_append.mp hc with hc | hc
        · exact hu2 c hc hc'
        · simp only [List.mem_singleton] at hc
          subst hc
          rw [h1] at hc'; cases hc'
      · refine ⟨by simp [List.filter_append, hnew, filter_none h0], ?_⟩
        intro c hc hc'
        rcases List.mem_append.mp hc with hc | hc
        · exact hu2 c hc hc'
        · simp only [List.mem_singleton] at hc
          subst hc
          exact uniq_wr_other hg0.2 (by simp only [good, Bool.and_eq_true] at hg'; exact hg'.2) h v _ (uniq_new hg')
    · rw [hc] at hu1 hu2 ⊢
      rw [updFirst_mid hok hA]
      rcases h with h | ⟨rfl, rfl, h⟩
      · have h1 := apart_okc h hok
        have h2 := apart_okc h ((okc_wr hg v c).trans hok)
        refine ⟨by simpa [List.filter_append, h1, h2] using hu1, ?_⟩
        intro d hd hd'
        rcases List.mem_append.mp hd with hd | hd
        · exact hu2 d (by simp [hd]) hd'
        · rcases List.mem_cons.mp hd with rfl | hd
          · rw [h2] at hd'; cases hd'
          · exact hu2 d (by simp [hd]) hd'
      · have h2 := (okc_wr hg v c).trans hok
        refine ⟨by simpa [List.filter_append, hok, h2] using hu1, ?_⟩
        intro d hd hd'
        rcases List.mem_append.mp hd with hd | hd
        · exact hu2 d (by simp [hd]) hd'
        · rcases List.mem_cons.mp hd with rfl | hd
          · exact uniq_wr_other hg0.2 (by simp only [good, Bool.and_eq_true] at hg'; exact hg'.2) h v _ (hu2 c (by simp) hok)
          · exact hu2 d (by simp [hd]) hd'
  | .attr q :: _, .attr q' :: _, _, _, h, v, n, _ => trivial
  | .child q ps :: r, .attr q' :: _, _, _, _, v, n, _ => trivial
  | .attr q :: _, .child q' ps' :: r', _, _, _, v, n, hu => by simpa [Uniq, wr] using hu
  | [], _, _, _, h, _, _, _ => by simp [Part] at h
  | .child _ _ :: _, [], _, _, h, _, _, _ => by simp [Part] at h
  | .attr _ :: _, [], _, _, h, _, _, _ => by simp [Part] at h
  | .text :: _, _, _, _, h, _, _, _ => by simp [Part] at h
  | .child _ _ :: _, .text :: _, _, _, h, _, _, _ => by simp [Part] at h
  | .attr _ :: _, .text :: _, _, _, h, _, _, _ => by simp [Part] at h

theorem uniq_wr_self : ∀ {p : List Step}, good p = true → ∀ (v n), Uniq p n → Uniq p (wr p v n)
  | .child q ps :: r, hg, v, n, hu => by
    have hg0 := hg
    simp only [good, Bool.and_eq_true] at hg0
    have hnew : okc q ps (wr r v (newElem q ps)) = true := by rw [okc_wr hg, okc_new hg0.1.1.1]
    simp only [Uniq, wr, Node.withChildren_children]
    obtain ⟨hu1, hu2⟩ := hu
    rcases first_split (okc q ps) n.children with h0 | ⟨A, c, B, hc, hA, hok⟩
    · rw [updFirst_none h0]
      refine ⟨by simp [List.filter_append, hnew, filter_none h0], ?_⟩
      intro c hc hc'
      rcases List.mem_append.mp hc with hc | hc
      · exact hu2 c hc hc'
      · simp only [List.mem_singleton] at hc
        subst hc
        exact uniq_wr_self hg0.2 v _ (uniq_new hg)
    · rw [hc] at hu1 hu2 ⊢
      rw [updFirst_mid hok hA]
      have h2 := (okc_wr hg v c).trans hok
      refine ⟨by simpa [List.filter_append, hok, h2] using hu1, ?_⟩
      intro d hd hd'
      rcases List.mem_append.mp hd with hd | hd
      · exact hu2 d (by simp [hd]) hd'
      · rcases List.mem_cons.mp hd with rfl | hd
        · exact uniq_wr_self hg0.2 v _ (hu2 c (by simp) hok)
        · exact hu2 d (by simp [hd]) hd'
  | [], _, _, _, _ => trivial
  | .attr _ :: _, _, _, _, _ => trivial
  | .text :: _, _, _, _, _ => trivial

/-- Deleting in the first child keeps what all children satisfy, if the changed child does. -/
theorem uniq_chg {q' ps' r' ok g} {n : Node} (hu : Uniq (.child q' ps' :: r') n)
    (hg : ∀ c ∈ n.children, ok c = true → ∀ c', g c = some c' → okc q' ps' c' = true → okc q' ps' c = true ∧ Uniq r' c') :
    Uniq (.child q' ps' :: r') (n.withChildren (chgFirst ok g n.children)) := by
  obtain ⟨hu1, hu2⟩ := hu
  rcases first_split ok n.children with h0 | ⟨A, c, B, hc, hA, hok⟩
  · rw [chgFirst_none h0, Node.withChildren_self]; exact ⟨hu1, hu2⟩
  · have hgc := hg c (by rw [hc]; simp) hok
    rw [hc] at hu1 hu2 ⊢
    rw [chgFirst_mid hok hA]
    simp only [Uniq, Node.withChildren_children]
    constructor
    · have : ((g c).toList.filter (okc q' ps')).length ≤ ([c].filter (okc q' ps')).length := by
        cases hgg : g c with
        | none => simp
        | some c' =>
          by_cases h : okc q' ps' c' = true
          · simp [h, (hgc c' hgg h).1]
          · simp [h]
      simp only [List.filter_append, List.length_append] at hu1 ⊢
      have e : (c :: B).filter (okc q' ps') = [c].filter (okc q' ps') ++ B.filter (okc q' ps') := by
        rw [← List.filter_append]; rfl
      rw [e, List.length_append] at hu1
      omega
    · intro d hd hd'
      simp only [List.mem_append, Option.mem_toList] at hd
      rcases hd with (hd | hd) | hd
      · exact hu2 d (by simp [hd]) hd'
      · exact (hgc d hd hd').2
      · exact hu2 d (by simp [hd]) hd'

theorem uniq_del_other : ∀ {p p' : List Step}, good p = true → good p' = true → Part p p' → ∀ n, Uniq p' n → Uniq p' (del p n)
  | .child q ps :: r, .child q' ps' :: r', hg, hg', h, n, hu => by
    have hg0 := hg
    simp only [good, Bool.and_eq_true] at hg0
    rw [del_child]
    refine uniq_chg hu ?_
    intro c hc hok c' hcc hokc'
    have h2 := (okc_del hg c).trans hok
    rcases h with h | ⟨rfl, rfl, h⟩
    · exfalso
      rcases delChild_cases ps r c with ⟨-, e⟩ | ⟨-, e, -⟩ | ⟨-, e, -⟩ | ⟨-, e⟩ <;> rw [e] at hcc <;> simp only [Option.some.injEq, reduceCtorEq] at hcc
      · subst hcc; rw [apart_okc h hok] at hokc'; cases hokc'
      · subst hcc; rw [apart_okc h h2] at hokc'; cases hokc'
    · refine ⟨hok, ?_⟩
      rcases delChild_cases ps r c with ⟨-, e⟩ | ⟨-, e, -⟩ | ⟨-, e, -⟩ | ⟨-, e⟩ <;> rw [e] at hcc <;> simp only [Option.some.injEq, reduceCtorEq] at hcc
      · subst hcc; exact hu.2 c hc hok
      · subst hcc; exact uniq_del_other hg0.2 (by simp only [good, Bool.and_eq_true] at hg'; exact hg'.2) h _ (hu.2 c hc hok)
  | .attr q :: _, .attr q' :: _, _, _, h, n, _ => trivial
  | .child q ps :: r, .attr q' :: _, _, _, _, n, _ => trivial
  | .attr q :: _, .child q' ps' :: r', _, _, _, n, hu => by simpa [Uniq, del] using hu
  | [], _, _, _, h, _, _ => by simp [Part] at h
  | .child _ _ :: _, [], _, _, h, _, _ => by simp [Part] at h
  | .attr _ :: _, [], _, _, h, _, _ => by simp [Part] at h
  | .text :: _, _, _, _, h, _, _ => by simp [Part] at h
  | .child _ _ :: _, .text :: _, _, _, h, _, _ => by simp [Part] at h
  | .attr _ :: _, .text :: _, _, _, h, _, _ => by simp [Part] at h

theorem uniq_del_self : ∀ {p : List Step}, good p = true → ∀ n, Uniq p n → Uniq p (del p n)
  | .child q ps :: r, hg, n, hu => by
    have hg0 := hg
    simp only [good, Bool.and_eq_true] at hg0
    rw [del_child]
    refine uniq_chg hu ?_
    intro c hc hok c' hcc hokc'
    refine ⟨hok, ?_⟩
    rcases delChild_cases ps r c with ⟨-, e⟩ | ⟨-, e, -⟩ | ⟨-, e, -⟩ | ⟨-, e⟩ <;> rw [e] at hcc <;> simp only [Option.some.injEq, reduceCtorEq] at hcc
    · subst hcc; exact hu.2 c hc hok
    · subst hcc; exact uniq_del_self hg0.2 _ (hu.2 c hc hok)
  | [], _, _, _ => trivial
  | .attr _ :: _, _, _, _ => trivial
  | .text :: _, _, _, _ => trivial

/-! ### connection with addresses -/

theorem matches_none {q ps r} {n : Node} (h : ∀ c ∈ n.children, okc q ps c = false) : Step.matches (.child q ps :: r) n = [] := by
  rw [matches_child, List.flatten_eq_nil_iff]
  intro x hx
  obtain ⟨i, hi, rfl⟩ := List.mem_mapIdx.mp hx
  have := h _ (List.getElem_mem hi)
  unfold okc at this
  simp [stepG, this]

theorem stepG_nil {q ps r} {l : List Node} (h : ∀ c ∈ l, okc q ps c = false) (k : Nat) :
    (l.mapIdx (fun i c => stepG q ps r (i + k) c)).flatten = [] := by
  rw [List.flatten_eq_nil_iff]
  intro x hx
  obtain ⟨i, hi, rfl⟩ := List.mem_mapIdx.mp hx
  have := h _ (List.getElem_mem hi)
  unfold okc at this
  simp [stepG, this]

theorem matches_mid {q ps r} {n : Node} {A B : List Node} {c : Node} (hc : n.children = A ++ c :: B) (hA : ∀ x ∈ A, okc q ps x = false)
    (hok : okc q ps c = true) (hB : ∀ x ∈ B, okc q ps x = false) :
    Step.matches (.child q ps :: r) n = (Step.matches r c).map (Ref.under [A.length]) := by
  rw [matches_child, hc, List.mapIdx_append, List.mapIdx_cons, List.flatten_append, List.flatten_cons]
  have h1 := stepG_nil (r := r) hA 0
  have h2 := stepG_nil (r := r) hB (A.length + 1)
  simp only [Nat.add_zero] at h1
  have e : (fun i => stepG q ps r (i + 1 + A.length)) = (fun i c => stepG q ps r (i + (A.length + 1)) c) := by
    funext i c; congr 1; omega
  rw [h1, e, h2]
  unfold okc at hok
  simp [stepG, hok]

theorem place_child {q ps r} {n c : Node} {i : Nat}
    (h : ∀ r', Step.matches (.child q ps :: r') n = (Step.matches r' c).map (Ref.under [i])) : ∀ j,
    place (.child q ps :: r) n (j + 1) = (i :: (place r c j).1, (place r c j).2)
  | 0 => by simp [place, h, Step.matches, Ref.under]
  | j + 1 => by
    have ih := place_child h (r := r) j
    have e : place (.child q ps :: r) n (j + 1 + 1) = match (Step.matches (.child q ps :: r.take (j + 1)) n).head? with
      | some (.elem b) => (b, r.drop (j + 1))
      | _ => place (.child q ps :: r) n (j + 1) := rfl
    have e' : place r c (j + 1) = match (Step.matches (r.take (j + 1)) c).head? with
      | some (.elem b) => (b, r.drop (j + 1))
      | _ => place r c j := rfl
    rw [e, e', h, List.head?_map]
    cases hh : (Step.matches (r.take (j + 1)) c).head? with
    | none => exact ih
    | some x => cases x <;> first | rfl | exact ih

theorem place_none {q ps r} {n : Node} (h : ∀ c ∈ n.children, okc q ps c = false) : ∀ j, place (.child q ps :: r) n j = ([], .child q ps :: r)
  | 0 => rfl
  | j + 1 => by
    have e : place (.child q ps :: r) n (j + 1) = match (Step.matches (.child q ps :: r.take j) n).head? with
      | some (.elem b) => (b, r.drop j)
      | _ => place (.child q ps :: r) n j := rfl
    rw [e, matches_none h]
    exact place_none h j

theorem writeLast_cons (st : Step) {r : List Step} (hr : r ≠ []) (v) : writeLast (st :: r) v = writeLast r v := by
  cases r with
  | nil => exact absurd rfl hr
  | cons a r => unfold writeLast; rw [List.getLast?_cons_cons]

/-- Building new elements for a path is writing to a new element. -/
theorem buildPath_wr : ∀ {r : List Step}, good r = true → ∀ (v : Str) {n : Node}, (∀ q ps r', r = .child q ps :: r' → n.children = []) →
    buildPath r (writeLast r v) n = wr r v n
  | [], _, v, n, _ => rfl
  | .attr q :: r, hg, v, n, _ => by
    simp only [good, List.isEmpty_iff] at hg
    subst hg
    simp [buildPath, writeLast, wr]
  | .text :: r, hg, _, _, _ => by simp [good] at hg
  | .child q ps :: r, hg, v, n, h => by
    have hg0 := hg
    simp only [good, Bool.and_eq_true] at hg0
    have ih := buildPath_wr hg0.2 v (n := newElem q ps) (fun _ _ _ _ => new_children hg0.1.1.2)
    have : buildPath r (writeLast (.child q ps :: r) v) (newElem q ps) = wr r v (newElem q ps) := by
      by_cases hr : r = []
      · subst hr; rfl
      · rw [writeLast_cons _ hr]; exact ih
    simp only [buildPath, wr, this, h q ps r rfl, updFirst, Node.append, List.nil_append]

theorem write_wr : ∀ {p : List Step}, good p = true → ∀ (v : Str) {n : Node}, Uniq p n → write p v n = wr p v n
  | [], _, v, n, _ => rfl
  | .attr q :: r, hg, v, n, _ => by
    simp only [good, List.isEmpty_iff] at hg
    subst hg
    unfold write
    by_cases h : (n.attr? q).isSome = true
    · simp [Step.matches, h, Ref.addr, Node.modify, writeLast, wr]
    · simp [Step.matches, h, missing, place, Node.modify, buildPath, writeLast, wr]
  | .text :: r, hg, _, _, _ => by simp [good] at hg
  | .child q ps :: r, hg, v, n, hu => by
    have hg0 := hg
    simp only [good, Bool.and_eq_true] at hg0
    rcases first_split (okc q ps) n.children with h0 | ⟨A, c, B, hc, hA, hok⟩
    · have hb : buildPath r (writeLast (.child q ps :: r) v) (newElem q ps) = wr r v (newElem q ps) := by
        by_cases hr : r = []
        · subst hr; rfl
        · rw [writeLast_cons _ hr]; exact buildPath_wr hg0.2 v (fun _ _ _ _ => new_children hg0.1.1.2)
      unfold write missing
      rw [matches_none h0]
      simp only [List.head?_nil, place_none h0, Node.modify, buildPath, hb, Node.append, wr, updFirst_none h0]
    · obtain ⟨-, hB⟩ := uniq_behind hok (by rw [← hc]; exact hu.1)
      have hm := fun r' => matches_mid (r := r') hc hA hok hB
      have ih := write_wr hg0.2 v (hu.2 c (by rw [hc]; simp) hok)
      have hmod : ∀ f : Node → Node, n.withChildren (n.children.modify A.length f) = n.withChildren (A ++ f c :: B) := by
        intro f; rw [hc, modify_mid]
      simp only [wr]
      rw [hc, updFirst_mid hok hA, ← ih]
      by_cases hr : r = []
      · subst hr
        unfold write
        rw [hm]
        simp [Step.matches, Ref.under, Ref.addr, Node.modify, hc, modify_mid, writeLast]
      · unfold write
        rw [hm, List.head?_map, writeLast_cons _ hr]
        cases hh : (Step.matches r c).head? with
        | some x =>
          simp only [Option.map_some, under_addr]
          show n.withChildren (n.children.modify A.length _) = _
          rw [hmod]
          rfl
        | none =>
          simp only [Option.map_none]
          unfold missing
          have hl : (Step.child q ps :: r).length - 1 = (r.length - 1) + 1 := by
            cases r with
            | nil => exact absurd rfl hr
            | cons a r => simp
          rw [hl, place_child hm]
          show n.withChildren (n.children.modify A.length _) = _
          rw [hmod]

/-- The node or value a reference stands for. -/
def itemAt (n : Node) : Ref → Option (Node ⊕ Str)
  | .elem a => (n.get a).map .inl
  | .attr a q => ((n.get a).bind (Node.attr? q)).map .inr
  | .text _ => none
  | .tail _ => none

theorem get_under {n c : Node} {A B : List Node} (hc : n.children = A ++ c :: B) (b : Node.Addr) : n.get (A.length :: b) = c.get b := by
  rw [Node.get, hc, getElem?_mid]

theorem itemAt_under {n c : Node} {A B : List Node} (hc : n.children = A ++ c :: B) (x : Ref) : itemAt n (x.under [A.length]) = itemAt c x := by
  cases x <;> simp [itemAt, Ref.under, get_under hc]

theorem head_hits : ∀ {p : List Step}, good p = true → ∀ {n : Node}, Uniq p n → (hits p n).head? = (Step.matches p n).head?.bind (itemAt n)
  | [], _, n, _ => rfl
  | .attr q :: r, hg, n, _ => by
    simp only [good, List.isEmpty_iff] at hg
    subst hg
    cases h : n.attr? q <;> simp [hits, Step.matches, h, itemAt, Node.get]
  | .text :: r, hg, _, _ => by simp [good] at hg
  | .child q ps :: r, hg, n, hu => by
    simp only [good, Bool.and_eq_true] at hg
    rcases first_split (okc q ps) n.children with h0 | ⟨A, c, B, hc, hA, hok⟩
    · rw [matches_none h0, hits, filter_none h0]; rfl
    · obtain ⟨-, hB⟩ := uniq_behind hok (by rw [← hc]; exact hu.1)
      rw [matches_mid hc hA hok hB, hits, hc, List.filter_append, filter_none hA, List.filter_cons, if_pos hok, filter_none hB]
      simp only [List.nil_append, List.flatMap_cons, List.flatMap_nil, List.append_nil, List.head?_map]
      rw [head_hits hg.2 (hu.2 c (by rw [hc]; simp) hok)]
      cases (Step.matches r c).head? with
      | none => rfl
      | some x => simp [itemAt_under hc]

theorem hits_nil_iff {p : List Step} (hg : good p = true) {n : Node} (hu : Uniq p n) : hits p n = [] ↔ Step.matches p n = [] := by
  induction p generalizing n with
  | nil => simp [hits, Step.matches]
  | cons st r ih =>
    cases st with
    | attr q =>
      simp only [good, List.isEmpty_iff] at hg
      subst hg
      cases h : n.attr? q <;> simp [hits, Step.matches, h]
    | text => simp [good] at hg
    | child q ps =>
      simp only [good, Bool.and_eq_true] at hg
      rcases first_split (okc q ps) n.children with h0 | ⟨A, c, B, hc, hA, hok⟩
      · rw [matches_none h0, hits, filter_none h0]; simp
      · obtain ⟨-, hB⟩ := uniq_behind hok (by rw [← hc]; exact hu.1)
        rw [matches_mid hc hA hok hB, hits, hc, List.filter_append, filter_none hA, List.filter_cons, if_pos hok, filter_none hB]
        simp only [List.nil_append, List.flatMap_cons, List.flatMap_nil, List.append_nil, List.map_eq_nil_iff]
        exact ih hg.2 (hu.2 c (by rw [hc]; simp) hok)

theorem matches_le_one : ∀ {p : List Step}, good p = true → ∀ {n : Node}, Uniq p n → (Step.matches p n).length ≤ 1
  | [], _, n, _ => by simp [Step.matches]
  | .attr q :: r, hg, n, _ => by
    simp only [Step.matches]
    split_ifs <;> simp
  | .text :: r, hg, _, _ => by simp [good] at hg
  | .child q ps :: r, hg, n, hu => by
    simp only [good, Bool.and_eq_true] at hg
    rcases first_split (okc q ps) n.children with h0 | ⟨A, c, B, hc, hA, hok⟩
    · rw [matches_none h0]; simp
    · obtain ⟨-, hB⟩ := uniq_behind hok (by rw [← hc]; exact hu.1)
      rw [matches_mid hc hA hok hB, List.length_map]
      exact matches_le_one hg.2 (hu.2 c (by rw [hc]; simp) hok)

/-- At most one node per step, stated with the meaning of paths. -/
theorem uniq_of_single : ∀ {p : List Step}, good p = true → ∀ {n : Node}, Single p n → Uniq p n
  | [], _, n, _ => trivial
  | .attr q :: r, _, n, _ => trivial
  | .text :: r, hg, _, _ => trivial
  | .child q ps :: r, hg, n, h => by
    simp only [good, Bool.and_eq_true] at hg
    have h1 := h 1
    rw [show (Step.child q ps :: r).take 1 = [.child q ps] from rfl, matches_single, List.length_map, idxs_length] at h1
    refine ⟨h1, ?_⟩
    intro c hc hok
    obtain ⟨A, B, hcs⟩ := List.append_of_mem hc
    have h1' : (n.children.filter (okc q ps)).length ≤ 1 := h1
    obtain ⟨hA, hB⟩ := uniq_behind hok (by rw [← hcs]; exact h1')
    apply uniq_of_single hg.2
    intro i
    have := h (i + 1)
    rwa [List.take_succ_cons, matches_mid hcs hA hok hB, List.length_map] at this

theorem single_of_uniq : ∀ {p : List Step}, good p = true → ∀ {n : Node}, Uniq p n → Single p n
  | [], _, n, _ => by intro i; simp [Step.matches]
  | .attr q :: r, hg, n, _ => by
    simp only [good, List.isEmpty_iff] at hg
    subst hg
    intro i
    cases i with
    | zero => simp [Step.matches]
    | succ i => simp only [List.take_succ_cons, List.take_nil]; exact matches_le_one rfl trivial
  | .text :: r, hg, _, _ => by simp [good] at hg
  | .child q ps :: r, hg, n, hu => by
    simp only [good, Bool.and_eq_true] at hg
    intro i
    cases i with
    | zero => simp [Step.matches]
    | succ i =>
      rw [List.take_succ_cons]
      rcases first_split (okc q ps) n.children with h0 | ⟨A, c, B, hc, hA, hok⟩
      · rw [matches_none h0]; simp
      · obtain ⟨-, hB⟩ := uniq_behind hok (by rw [← hc]; exact hu.1)
        rw [matches_mid hc hA hok hB, List.length_map]
        exact single_of_uniq hg.2 (hu.2 c (by rw [hc]; simp) hok) i

theorem holder_under {x : Ref} {i : Nat} (h : x ≠ .elem []) (ht : ∀ b, x ≠ .tail b) : Ref.holder (x.under [i]) = i :: Ref.holder x := by
  cases x with
  | elem b =>
    cases b with
    | nil => exact absurd rfl h
    | cons j b => simp [Ref.under, Ref.holder]
  | tail b => exact absurd rfl (ht b)
  | attr b q => rfl
  | text b => rfl

variable [XPath.PyUnicode]

theorem matches_not_text {p : List Step} (hg : good p = true) {n : Node} {x : Ref} (hx : x ∈ Step.matches p n) : (∀ b, x ≠ .text b) ∧ ∀ b, x ≠ .tail b := by
  have hl : p.getLast? ≠ some .text := by
    clear hx
    induction p with
    | nil => simp
    | cons st r ih =>
      cases st with
      | attr q => simp only [good, List.isEmpty_iff] at hg; subst hg; simp
      | text => simp [good] at hg
      | child q ps =>
        simp only [good, Bool.and_eq_true] at hg
        cases r with
        | nil => simp
        | cons a r => rw [List.getLast?_cons_cons]; exact ih hg.2
  have := (matches_kind p n x hx).2.1
  exact ⟨fun b e => hl (this b (.inl e)), fun b e => hl (this b (.inr e))⟩

theorem matches_not_root {p : List Step} (hp : p ≠ []) {n : Node} {x : Ref} (hx : x ∈ Step.matches p n) : x ≠ .elem [] := by
  rintro rfl
  have := match_addr_length p n [] hx
  cases p with
  | nil => exact hp rfl
  | cons a p => simp at this

theorem aligned_of_uniq : ∀ {p : List Step}, good p = true → p ≠ [] → ∀ {n : Node}, Uniq p n → Aligned p n
  | [], _, hp, _, _ => absurd rfl hp
  | .text :: r, hg, _, _, _ => by simp [good] at hg
  | .attr q :: r, hg, _, n, _ => by
    simp only [good, List.isEmpty_iff] at hg
    subst hg
    intro x hx
    simp only [Step.matches] at hx
    split_ifs at hx <;> simp at hx
    subst hx
    rfl
  | .child q ps :: r, hg, _, n, hu => by
    have hg0 := hg
    simp only [good, Bool.and_eq_true] at hg
    intro x hx
    rcases first_split (okc q ps) n.children with h0 | ⟨A, c, B, hc, hA, hok⟩
    · rw [matches_none h0] at hx; simp at hx
    · obtain ⟨-, hB⟩ := uniq_behind hok (by rw [← hc]; exact hu.1)
      rw [matches_mid hc hA hok hB, List.head?_map] at hx
      obtain ⟨y, hy, rfl⟩ := Option.map_eq_some_iff.mp hx
      by_cases hr : r = []
      · subst hr
        simp only [Step.matches, List.head?_cons, Option.some.injEq] at hy
        subst hy
        simp [Step.matches, Ref.under, Ref.holder]
      · have hmem := List.mem_of_mem_head? hy
        rw [holder_under (matches_not_root hr hmem) (matches_not_text hg.2 hmem).2]
        have ih := aligned_of_uniq hg.2 hr (hu.2 c (by rw [hc]; simp) hok) y hy
        rw [List.dropLast_cons_of_ne_nil hr, matches_mid hc hA hok hB, List.head?_map, ih]
        rfl

theorem emptyBut_children {ps : List Pred} {m : Node} (h : m.children ≠ []) : emptyBut ps m = false := by
  simp [emptyBut, h]

/-- Cleaning up below a child, and then perhaps the child itself. -/
theorem cleanupR_child {q ps} (hao : attrOnly ps = true) {A B : List Node} (hA : ∀ x ∈ A, okc q ps x = false) (hB : ∀ x ∈ B, okc q ps x = false) :
    ∀ (rp : List Step) (h : Node.Addr) (n c : Node), n.children = A ++ c :: B → okc q ps c = true → rp.length = h.length → (c.get h).isSome = true →
    cleanupR (rp ++ [.child q ps]) (A.length :: h) n
      = n.withChildren (A ++ (if emptyBut ps (cleanupR rp h c) then [] else [cleanupR rp h c]) ++ B)
  | [], h, n, c, hc, hok, hlen, hget => by
    have hh : h = [] := List.length_eq_zero_iff.mp hlen.symm
    subst hh
    have hg0 : Node.get [A.length] n = some c := by rw [get_under hc]; rfl
    simp only [List.nil_append, cleanupR, hg0, Option.any_some, Step.preds, List.reverse_nil, Step.matches, List.head?_cons,
      List.dropLast_singleton, and_true, removeAt, List.getLast?_singleton, Option.getD_some, Node.modify, Node.removeChild]
    by_cases he : emptyBut ps c = true
    · simp only [he, if_true, List.append_nil]
      rw [hc, eraseIdx_mid]
    · simp only [he, Bool.false_eq_true, if_false]
      rw [List.append_assoc, List.singleton_append, ← hc, Node.withChildren_self]
  | st :: rp, h, n, c, hc, hok, hlen, hget => by
    have hne : h ≠ [] := by rintro rfl; simp at hlen
    have hm : ∀ r', Step.matches (.child q ps :: r') n = (Step.matches r' c).map (Ref.under [A.length]) :=
      fun r' => matches_mid hc hA hok hB
    have hdl : (A.length :: h).dropLast = A.length :: h.dropLast := List.dropLast_cons_of_ne_nil hne
    have hcond : ((Node.get (A.length :: h) n).any (emptyBut st.preds) = true ∧
        (Step.matches (rp ++ [Step.child q ps]).reverse n).head? = some (.elem (A.length :: h).dropLast)) ↔
        ((Node.get h c).any (emptyBut st.preds) = true ∧ (Step.matches rp.reverse c).head? = some (.elem h.dropLast)) := by
      rw [get_under hc, List.reverse_append, List.reverse_singleton, List.singleton_append, hm, List.head?_map, hdl]
      refine and_congr_right fun _ => ?_
      cases (Step.matches rp.reverse c).head? with
      | none => simp
      | some x => cases x <;> simp [Ref.under]
    have hcne : c.children ≠ [] := by
      cases h with
      | nil => exact absurd rfl hne
      | cons i h =>
        intro e
        simp [Node.get, e] at hget
    rw [List.cons_append]
    by_cases hcd : (Node.get h c).any (emptyBut st.preds) = true ∧ (Step.matches rp.reverse c).head? = some (.elem h.dropLast)
    · have e1 : cleanupR (st :: (rp ++ [.child q ps])) (A.length :: h) n
          = cleanupR (rp ++ [.child q ps]) (A.length :: h.dropLast) (removeAt (A.length :: h) n) := by
        rw [cleanupR, if_pos (hcond.mpr hcd), hdl]
      have e2 : cleanupR (st :: rp) h c = cleanupR rp h.dropLast (removeAt h c) := by rw [cleanupR, if_pos hcd]
      rw [e1, e2]
      have hrem : removeAt (A.length :: h) n = n.withChildren (A ++ removeAt h c :: B) := by
        unfold removeAt
        rw [hdl, show (A.length :: h).getLast? = h.getLast? by cases h with | nil => exact absurd rfl hne | cons a l => rw [List.getLast?_cons_cons]]
        show n.withChildren (n.children.modify A.length _) = _
        rw [hc, modify_mid]
      have hattrs : (removeAt h c).tag = c.tag ∧ (removeAt h c).attrs = c.attrs := by
        unfold removeAt
        cases h.dropLast with
        | nil => simp [Node.modify]
        | cons i b => simp [Node.modify]
      have hok' : okc q ps (removeAt h c) = true := by
        unfold okc at hok ⊢
        rw [satAll_attrs hao (n' := c) (by intro p _ q _; simp [Node.attr?, hattrs.2])]
        simpa [Node.isElem, hattrs.1] using hok
      have hget' : ((removeAt h c).get h.dropLast).isSome = true := by
        unfold removeAt
        rw [Node.get_modify]
        have : (c.get h.dropLast).isSome = true := by
          obtain ⟨b, i, rfl⟩ : ∃ b i, h = b ++ [i] := ⟨h.dropLast, h.getLast hne, (List.dropLast_concat_getLast hne).symm⟩
          rw [Node.get_append] at hget
          rw [List.dropLast_concat]
          cases hg : c.get b with
          | none => rw [hg] at hget; simp at hget
          | some _ => rfl
        simpa using this
      have ih := cleanupR_child hao hA hB rp h.dropLast (removeAt (A.length :: h) n) (removeAt h c) (by rw [hrem]; simp) hok'
        (by simp only [List.length_cons] at hlen; simp only [List.length_dropLast]; omega) hget'
      rw [ih, hrem, Node.withChildren_withChildren]
    · have e1 : cleanupR (st :: (rp ++ [.child q ps])) (A.length :: h) n = n := by
        rw [cleanupR, if_neg (fun e => hcd (hcond.mp e))]
      have e2 : cleanupR (st :: rp) h c = c := by rw [cleanupR, if_neg hcd]
      rw [e1, e2, emptyBut_children hcne]
      simp only [Bool.false_eq_true, if_false]
      rw [List.append_assoc, List.singleton_append, ← hc, Node.withChildren_self]

theorem removeRef_under {n c : Node} {A B : List Node} (hc : n.children = A ++ c :: B) {x : Ref} (h : x ≠ .elem []) (ht : ∀ b, x ≠ .tail b) :
    removeRef (x.under [A.length]) n = n.withChildren (A ++ removeRef x c :: B) := by
  cases x with
  | elem b =>
    cases b with
    | nil => exact absurd rfl h
    | cons j b =>
      simp only [Ref.under, removeRef, removeAt, List.singleton_append, List.dropLast_cons_cons, List.getLast?_cons_cons]
      show n.withChildren (n.children.modify A.length _) = _
      rw [hc, modify_mid]
  | tail b => exact absurd rfl (ht b)
  | attr b q =>
    show n.withChildren (n.children.modify A.length _) = _
    rw [hc, modify_mid]
    rfl
  | text b =>
    show n.withChildren (n.children.modify A.length _) = _
    rw [hc, modify_mid]
    rfl

theorem delete_del : ∀ {p : List Step}, good p = true → p ≠ [] → ∀ {n : Node}, Uniq p n → delete p n = if hits p n = [] then n else del p n
  | [], _, hp, _, _ => absurd rfl hp
  | .text :: r, hg, _, _, _ => by simp [good] at hg
  | .attr q :: r, hg, _, n, _ => by
    simp only [good, List.isEmpty_iff] at hg
    subst hg
    unfold delete
    cases h : n.attr? q with
    | none => simp [Step.matches, hits, h]
    | some v => simp [Step.matches, hits, h, cleanup, cleanupR, removeRef, Node.modify, del]
  | .child q ps :: r, hg, _, n, hu => by
    have hg0 := hg
    simp only [good, Bool.and_eq_true] at hg0
    have hni := hits_nil_iff hg hu
    by_cases hh : hits (.child q ps :: r) n = []
    · rw [if_pos hh]
      unfold delete
      rw [hni.mp hh]; rfl
    · rw [if_neg hh]
      rcases first_split (okc q ps) n.children with h0 | ⟨A, c, B, hc, hA, hok⟩
      · exact absurd (hni.mpr (matches_none h0)) hh
      · obtain ⟨-, hB⟩ := uniq_behind hok (by rw [← hc]; exact hu.1)
        have huc := hu.2 c (by rw [hc]; simp) hok
        have hm := matches_mid (r := r) hc hA hok hB
        have hmne : Step.matches r c ≠ [] := by
          intro e
          apply hh
          rw [hni, hm, e]; rfl
        rw [del_child, hc, chgFirst_mid hok hA]
        by_cases hr : r = []
        · subst hr
          rw [show Step.matches [] c = [.elem []] from rfl] at hm
          simp only [delete, hm, List.map_cons, List.map_nil, List.head?_cons, Ref.under, List.append_nil, cleanup, List.dropLast_singleton,
            List.reverse_nil, cleanupR, removeRef, removeAt, List.getLast?_singleton, Option.getD_some, Node.modify, Node.removeChild, delChild]
          rw [hc, eraseIdx_mid]
          simp
        · have hhr : hits r c ≠ [] := fun e => hmne ((hits_nil_iff hg0.2 huc).mp e)
          obtain ⟨x, xs, hx⟩ := List.exists_cons_of_ne_nil hmne
          have hxm : x ∈ Step.matches r c := by rw [hx]; simp
          have hx1 := matches_not_root hr hxm
          have hx2 := (matches_not_text hg0.2 hxm).2
          have ih := delete_del hg0.2 hr huc
          rw [if_neg hhr] at ih
          have hal := aligned_of_uniq hg0.2 hr huc x (by rw [hx]; rfl)
          obtain ⟨hlen, hget⟩ := holder_facts hal hx2
          have hdc : delChild ps r c = if emptyBut ps (del r c) then none else some (del r c) := by
            unfold delChild
            rw [if_neg (by simpa using hr), if_neg (by simpa using hhr)]
          have hokr : okc q ps (removeRef x c) = true := by
            have hta : (removeRef x c).tag = c.tag ∧ ∀ p ∈ ps, ∀ t, p.attrOf = some t → (removeRef x c).attr? t = c.attr? t := by
              cases x with
              | elem b =>
                simp only [removeRef, removeAt]
                cases b.dropLast <;> simp [Node.modify, Node.attr?]
              | text b =>
                exact absurd rfl ((matches_not_text hg0.2 hxm).1 b)
              | tail b => exact absurd rfl (hx2 b)
              | attr b t =>
                simp only [removeRef]
                cases b with
                | cons i b => simp [Node.modify, Node.attr?]
                | nil =>
                  refine ⟨by simp [Node.modify], ?_⟩
                  intro p hp t' ht'
                  have hrl : r = [.attr t] := by
                    have h1 := (matches_kind r c _ hxm).1 [] t rfl
                    simp only [Ref.holder, List.length_nil] at hlen
                    have h2 : r.length ≤ 1 := by rw [List.length_dropLast] at hlen; omega
                    cases r with
                    | nil => exact absurd rfl hr
                    | cons a l =>
                      have : l = [] := List.length_eq_zero_iff.mp (by simp only [List.length_cons] at h2; omega)
                      subst this
                      simpa using h1
                  have hne : t' ≠ t := by
                    rintro rfl
                    exact nextOk_attr hg0.1.2 p hp t' ht' [] hrl
                  simp [Node.modify, Node.attr?, Node.lookup_filter_ne, hne]
            unfold okc at hok ⊢
            rw [satAll_attrs hg0.1.1.2 (n' := c) hta.2]
            simpa [Node.isElem, hta.1] using hok
          have hdel : delete r c = cleanupR r.dropLast.reverse (Ref.holder x) (removeRef x c) := by
            unfold delete
            rw [hx]; rfl
          unfold delete
          rw [hm, hx]
          simp only [List.map_cons, List.head?_cons]
          rw [holder_under hx1 hx2, removeRef_under hc hx1 hx2, List.dropLast_cons_of_ne_nil hr]
          unfold cleanup
          rw [List.reverse_cons, cleanupR_child hg0.1.1.2 hA hB r.dropLast.reverse (Ref.holder x) _ (removeRef x c) (by simp) hokr
            (by simpa using hlen) hget, ← hdel, ih, hdc, Node.withChildren_withChildren]
          cases emptyBut ps (del r c) <;> simp

/-- The text of what a path selects. -/
def hitText : Node ⊕ Str → Str
  | .inl m => m.strVal
  | .inr s => s

theorem read_hits {p : List Step} (hg : good p = true) {n : Node} (hu : Uniq p n) :
    (Step.matches p n).head?.bind (fun x => refText n x) = (hits p n).head?.map hitText := by
  rw [head_hits hg hu]
  cases hh : (Step.matches p n).head? with
  | none => rfl
  | some x =>
    have hm := List.mem_of_mem_head? hh
    cases x with
    | elem b => cases h : n.get b <;> simp [itemAt, refText, h, hitText]
    | attr b q => cases h : (n.get b).bind (Node.attr? q) <;> simp [itemAt, refText, h, hitText]
    | text b => exact absurd rfl ((matches_not_text hg hm).1 b)
    | tail b => exact absurd rfl ((matches_not_text hg hm).2 b)

theorem missing_not_text {p : List Step} (hg : good p = true) (hp : p ≠ []) (n : Node) : (missing p n).2 ≠ [.text] := by
  intro hm
  obtain ⟨pre, hpre, -, -⟩ := missing_spec p n
  rw [hm] at hpre
  have : good (pre ++ [.text]) = false := by
    clear hpre hm
    induction pre with
    | nil => rfl
    | cons st r ih => cases st <;> simp [good, ih]
  rw [← hpre, hg] at this
  cases this

/-- A field can be written if what it selects has no children. -/
theorem writable_hits {p : List Step} (hg : good p = true) (hp : p ≠ []) {n : Node} (hu : Uniq p n) :
    Writable p n ↔ ∀ m, (hits p n).head? = some (.inl m) → m.children = [] := by
  rw [head_hits hg hu]
  unfold Writable
  cases hh : (Step.matches p n).head? with
  | none => simp [missing_not_text hg hp]
  | some x =>
    have hm := List.mem_of_mem_head? hh
    cases x with
    | elem b => cases h : n.get b <;> simp [itemAt, h]
    | attr b q =>
      simp only [itemAt, Option.bind_some, true_iff]
      intro m hm'
      cases h : (n.get b).bind (Node.attr? q) <;> rw [h] at hm' <;> simp at hm'
    | text b => exact absurd rfl ((matches_not_text hg hm).1 b)
    | tail b => exact absurd rfl ((matches_not_text hg hm).2 b)

end Spec
