import Verif.Props.Again
import Verif.Props.Interleave
/-
Property C128: assignments to fields that select different nodes can be exchanged.

Model: `managerSet` (Verif/XmlMap/Manager.lean).  Specification: Verif/Spec/Found.lean (what an assignment to the found node does).
-/
namespace Props
open XPath Xml Spec Fields

/-- The node exists (an attribute: it is there). -/
def Exists (s : Node) (r : Ref) : Prop := ∃ m, s.get r.addr = some m ∧ ∀ b q, r = .attr b q → (m.attr? q).isSome

/-- Different nodes of a document; an element without children and its text count as the same. -/
def Different (r r' : Ref) : Prop := r ≠ r' ∧ (r.addr = r'.addr → (∃ b q, r = .attr b q) ∨ ∃ b q, r' = .attr b q)

/-- An edit of a node that leaves the children alone. -/
def Shallow (f : Node → Node) : Prop := ∀ n, (f n).children = n.children ∧ ∀ cs, f (n.withChildren cs) = (f n).withChildren cs

theorem shallow_text (v : Option Str) : Shallow (Node.setText v) := fun n => by cases n; exact ⟨rfl, fun _ => rfl⟩
theorem shallow_attr (q : QName) (v : Str) : Shallow (Node.setAttr q v) := fun n => by cases n; exact ⟨rfl, fun _ => rfl⟩

theorem shallow_swap {f g : Node → Node} (hf : Shallow f) (hg : Shallow g) {a b : Node.Addr} (n : Node) (h : a ≠ b) : (n.modify b g).modify a f = (n.modify a f).modify b g := by
  induction a generalizing n b with
  | nil =>
    cases b with
    | nil => exact absurd rfl h
    | cons j b => simp only [Node.modify_cons, Node.modify_nil]; rw [(hf n).2, (hf n).1]
  | cons i a ih =>
    cases b with
    | nil => simp only [Node.modify_cons, Node.modify_nil]; rw [(hg n).2, (hg n).1]
    | cons j b =>
      simp only [Node.modify_cons, Node.withChildren_children, Node.withChildren_withChildren]
      by_cases hij : i = j
      · subst hij
        rw [List.modify_modify_eq, List.modify_modify_eq]
        congr 2
        funext c
        exact ih c (fun h' => h (h' ▸ rfl))
      · rw [List.modify_modify_ne _ _ _ hij]

/-- After a shallow edit somewhere there are the same nodes; those without children have none, and at other places attributes are the same. -/
theorem shallow_get {g : Node → Node} (hg : Shallow g) {a b : Node.Addr} {n m : Node} (hm : n.get a = some m) :
    ∃ m', (n.modify b g).get a = some m' ∧ (m.children = [] → m'.children = []) ∧ (a ≠ b → m'.attrs = m.attrs) ∧ (a = b → m' = g m) := by
  induction a generalizing n b with
  | nil =>
    cases hm
    cases b with
    | nil => exact ⟨g m, rfl, fun h => by rw [(hg m).1, h], fun h => absurd rfl h, fun _ => rfl⟩
    | cons j b => exact ⟨_, rfl, fun h => by rw [Node.modify_cons, Node.withChildren_children, h]; cases j <;> rfl, fun _ => by rw [Node.modify_cons, Node.withChildren_attrs], fun h => by cases h⟩
  | cons i a ih =>
    rw [Node.get_cons] at hm
    cases b with
    | nil =>
      refine ⟨m, ?_, fun h => h, fun _ => rfl, fun h => by cases h⟩
      rw [Node.modify_nil, Node.get_cons, (hg n).1]
      exact hm
    | cons j b =>
      rw [Node.modify_cons, Node.get_cons, Node.withChildren_children]
      cases hc : n.children[i]? with
      | none => rw [hc] at hm; cases hm
      | some c =>
        rw [hc] at hm
        by_cases hij : i = j
        · subst hij
          rw [List.getElem?_modify_eq, hc]
          obtain ⟨m', h1, h2, h3, h4⟩ := ih (b := b) hm
          exact ⟨m', h1, h2, fun h => h3 (fun h' => h (h' ▸ rfl)), fun h => h4 (by injection h)⟩
        · rw [List.getElem?_modify_ne _ _ (fun h => hij h.symm), hc]
          exact ⟨m, hm, fun h => h, fun _ => rfl, fun h => absurd (by injection h) hij⟩

theorem setAttrL_swap {q q' : QName} (v v' : Str) (h : q ≠ q') : ∀ l : List (QName × Str), (l.lookup q).isSome → (l.lookup q').isSome →
    Node.setAttrL q v (Node.setAttrL q' v' l) = Node.setAttrL q' v' (Node.setAttrL q v l)
  | [], h1, _ => by cases h1
  | (k, w) :: l, h1, h2 => by
    by_cases hk : k = q
    · subst hk
      simp [Node.setAttrL, h]
    · by_cases hk' : k = q'
      · subst hk'
        simp [Node.setAttrL, hk, fun h' : k = q => hk h']
      · simp only [Node.setAttrL, if_neg hk, if_neg hk']
        rw [List.lookup_cons, show (q == k) = false from by simpa using fun h => hk h.symm] at h1
        rw [List.lookup_cons, show (q' == k) = false from by simpa using fun h => hk' h.symm] at h2
        rw [setAttrL_swap v v' h l h1 h2]

/-- What an assignment does to the node's element. -/
def editOf (t : Str) : Ref → Node → Node
  | .attr _ q => Node.setAttr q t
  | .elem _ | .text _ => Node.setText (some t)
  | .tail _ => id

theorem editOf_shallow (t : Str) (r : Ref) : Shallow (editOf t r) := by
  cases r
  · exact shallow_text _
  · exact shallow_attr _ _
  · exact shallow_text _
  · exact fun n => ⟨rfl, fun _ => rfl⟩

section
variable {ctx : Ctx} {e e' : Expr} {s : Node}

theorem assigned_edit {t : Str} {r : Ref} {s' : Node} (h : Assigned ctx e t s r s') : s' = s.modify r.addr (editOf t r) := by cases h <;> rfl

theorem assigned_after {t : Str} {r : Ref} {s' : Node} (h : Assigned ctx e t s r s') {g : Node → Node} (hg : Shallow g) (b : Node.Addr) :
    Assigned ctx e t (s.modify b g) r ((s.modify b g).modify r.addr (editOf t r)) := by
  cases h with
  | elem a m h1 h2 =>
    obtain ⟨m', h3, h4, -⟩ := shallow_get hg (b := b) h1
    exact .elem a m' h3 (h4 h2)
  | attr a q ax pfx nm h1 h2 => exact .attr a q ax pfx nm h1 h2
  | text a ax lit h1 => exact .text a ax lit h1

theorem editOf_swap {t t' : Str} {r r' : Ref} (h : Different r r') (hr : Exists s r) (hr' : Exists s r') : (s.modify r'.addr (editOf t' r')).modify r.addr (editOf t r) = (s.modify r.addr (editOf t r)).modify r'.addr (editOf t' r') := by
  by_cases ha : r.addr = r'.addr
  · obtain ⟨m, h1, h2⟩ := hr
    obtain ⟨m', h1', h2'⟩ := hr'
    rw [← ha] at h1'
    cases h1.symm.trans h1'
    rw [← ha, Node.modify_modify, Node.modify_modify]
    refine Node.modify_congr h1 ?_
    show editOf t r (editOf t' r' m) = editOf t' r' (editOf t r m)
    have hno : (∀ b q, r ≠ .attr b q) → (∀ b q, r' ≠ .attr b q) → False := fun h1 h2 => by
      rcases h.2 ha with ⟨b, q, hx⟩ | ⟨b, q, hx⟩
      exacts [h1 b q hx, h2 b q hx]
    match r, r', h.1, ha, h2, h2', hno with
    | .attr b q, .attr b' q', hne, ha, h2, h2', _ =>
      have hq : q ≠ q' := fun hq => hne (by subst hq; rw [show b = b' from ha])
      cases m
      simp only [editOf, Node.setAttr, Node.withAttrs, Node.attrs]
      exact congrArg (fun l => Node.mk _ l _ _ _) (setAttrL_swap t t' hq _ (h2 b q rfl) (h2' b' q' rfl))
    | .attr .., .elem _, _, _, _, _, _ => cases m; rfl
    | .attr .., .text _, _, _, _, _, _ => cases m; rfl
    | .attr .., .tail _, _, _, _, _, _ => rfl
    | .elem _, .attr .., _, _, _, _, _ => cases m; rfl
    | .text _, .attr .., _, _, _, _, _ => cases m; rfl
    | .tail _, .attr .., _, _, _, _, _ => rfl
    | .elem _, .elem _, _, _, _, _, hno | .elem _, .text _, _, _, _, _, hno | .elem _, .tail _, _, _, _, _, hno => exact (hno (fun _ _ h => by cases h) (fun _ _ h => by cases h)).elim
    | .text _, .elem _, _, _, _, _, hno | .text _, .text _, _, _, _, _, hno | .text _, .tail _, _, _, _, _, hno => exact (hno (fun _ _ h => by cases h) (fun _ _ h => by cases h)).elim
    | .tail _, .elem _, _, _, _, _, hno | .tail _, .text _, _, _, _, _, hno | .tail _, .tail _, _, _, _, _, hno => exact (hno (fun _ _ h => by cases h) (fun _ _ h => by cases h)).elim
  · exact shallow_swap (editOf_shallow t r) (editOf_shallow t' r') s ha

variable [PyUnicode] {eng : Engine} {xp xp' : Str} {a a' : Node.Addr}

/-- C128.  Two assignments, to fields with any XPaths, also of different objects, that select different nodes of the document: if each of them works, and leaves the other XPath selecting its node, then both work one after
the other, in either order, the document is the same, and both texts are there. -/
theorem C128_commute {t t' : Str} {r r' : Ref} {rs rs' qs qs' : List Ref} {s1 s2 : Node}
    (hsel : eng.xpath xp s a ctx = .ok (.nodes (r :: rs))) (hsel' : eng.xpath xp' s a' ctx = .ok (.nodes (r' :: rs')))
    (hfit : FitsStep ctx e r) (hfit' : FitsStep ctx e' r') (hsane : Sane r) (hsane' : Sane r') (hr : Exists s r) (hr' : Exists s r') (hdiff : Different r r')
    (h1 : managerSet eng ctx (.ok (some (.str t))) xp e (.elem a) s = (.ok (), s1)) (h2 : managerSet eng ctx (.ok (some (.str t'))) xp' e' (.elem a') s = (.ok (), s2))
    (hkeep : eng.xpath xp s2 a ctx = .ok (.nodes (r :: qs))) (hkeep' : eng.xpath xp' s1 a' ctx = .ok (.nodes (r' :: qs'))) :
    ∃ s3, managerSet eng ctx (.ok (some (.str t'))) xp' e' (.elem a') s1 = (.ok (), s3) ∧ managerSet eng ctx (.ok (some (.str t))) xp e (.elem a) s2 = (.ok (), s3) ∧
      Bears s3 r t ∧ Bears s3 r' t' := by
  have hswap := editOf_swap (t := t) (t' := t') hdiff hr hr'
  obtain ⟨m, hm, -⟩ := hr
  obtain ⟨m', hm', -⟩ := hr'
  have works : ∀ {xp : Str} {e : Expr} {a : Node.Addr} {t : Str} {r : Ref} {rs : List Ref} {s s' m : Node}, eng.xpath xp s a ctx = .ok (.nodes (r :: rs)) → FitsStep ctx e r → Sane r → s.get r.addr = some m →
      managerSet eng ctx (.ok (some (.str t))) xp e (.elem a) s = (.ok (), s') → Assigned ctx e t s r s' ∧ xmlOk t = true := by
    intro xp e a t r rs s s' m h1 h2 h3 h4 h5
    rcases C120_assign t h1 h2 h3 h4 with ⟨s'', h6, h7, h8⟩ | ⟨-, er, h6⟩
    · rw [h8] at h5; cases h5; exact ⟨h6, h7⟩
    · rw [h6] at h5; cases h5
  have again : ∀ {xp : Str} {e : Expr} {a : Node.Addr} {t : Str} {r : Ref} {rs : List Ref} {s s' m : Node}, eng.xpath xp s a ctx = .ok (.nodes (r :: rs)) → FitsStep ctx e r → Sane r → s.get r.addr = some m →
      Assigned ctx e t s r s' → xmlOk t = true → managerSet eng ctx (.ok (some (.str t))) xp e (.elem a) s = (.ok (), s') := by
    intro xp e a t r rs s s' m h1 h2 h3 h4 h5 h6
    rcases C120_assign t h1 h2 h3 h4 with ⟨s'', h7, -, h8⟩ | ⟨h7 | h7, -⟩
    · rw [h8, assigned_edit h5, assigned_edit h7]
    · rw [h7] at h6; cases h6
    · exact absurd h5 (h7 _)
  obtain ⟨g1, ok1⟩ := works hsel hfit hsane hm h1
  obtain ⟨g2, ok2⟩ := works hsel' hfit' hsane' hm' h2
  have e1 := assigned_edit g1
  have e2 := assigned_edit g2
  have k1 := assigned_after g1 (editOf_shallow t' r') r'.addr
  have k2 := assigned_after g2 (editOf_shallow t r) r.addr
  rw [← e2] at k1
  rw [← e1] at k2
  obtain ⟨n1, hn1, -⟩ := shallow_get (editOf_shallow t' r') (b := r'.addr) hm
  obtain ⟨n2, hn2, -⟩ := shallow_get (editOf_shallow t r) (b := r.addr) hm'
  rw [← e2] at hn1
  rw [← e1] at hn2
  have hs : s2.modify r.addr (editOf t r) = s1.modify r'.addr (editOf t' r') := by rw [e1, e2]; exact hswap
  refine ⟨s2.modify r.addr (editOf t r), ?_, again hkeep hfit hsane hn1 k1 ok1, assigned_bears hn1 k1, ?_⟩
  · rw [hs]; exact again hkeep' hfit' hsane' hn2 k2 ok2
  · rw [hs]; exact assigned_bears hn2 k2

end

/-- An engine that answers with the attribute of C120's example, and with the first child of the root for any other XPath. -/
def pairEngine : Engine := ⟨fun x _ _ _ => .ok (.nodes [if x = lastXPath then .attr [1, 0] ⟨none, c%"b"⟩ else .elem [0]])⟩

theorem star_ends : EndsIn (ast c%"*") none (.name none c%"*") := endsIn_iff.2 (by decide +kernel)

theorem star_fits : FitsStep sampleCtx (ast c%"*") (.elem [0]) where
  name := fun _ _ _ _ => .inl ⟨_, rfl⟩
  text := by
    intro ax lit h
    have h := endsIn_iff.1 h
    rw [endsIn_iff.1 star_ends] at h
    cases h

/-- Non-vacuity: `.//a[@b][last()]/@b` and `*`, of the object for the root, and of the object for its second child. -/
example : ∃ s1 s2 s3, managerSet pairEngine sampleCtx (.ok (some (.str c%"new"))) lastXPath (ast lastXPath) (.elem []) lastDoc = (.ok (), s1) ∧
    managerSet pairEngine sampleCtx (.ok (some (.str c%"word"))) c%"*" (ast c%"*") (.elem [1]) s1 = (.ok (), s3) ∧
    managerSet pairEngine sampleCtx (.ok (some (.str c%"word"))) c%"*" (ast c%"*") (.elem [1]) lastDoc = (.ok (), s2) ∧
    managerSet pairEngine sampleCtx (.ok (some (.str c%"new"))) lastXPath (ast lastXPath) (.elem []) s2 = (.ok (), s3) ∧
    Bears s3 (.attr [1, 0] ⟨none, c%"b"⟩) c%"new" ∧ Bears s3 (.elem [0]) c%"word" := by
  have hne : c%"*" ≠ lastXPath := by decide
  have sel1 : ∀ s a, pairEngine.xpath lastXPath s a sampleCtx = .ok (.nodes [.attr [1, 0] ⟨none, c%"b"⟩]) := fun s a => by simp only [pairEngine, if_pos]
  have sel2 : ∀ s a, pairEngine.xpath c%"*" s a sampleCtx = .ok (.nodes [.elem [0]]) := fun s a => by simp only [pairEngine, if_neg hne]
  have ex1 : Exists lastDoc (.attr [1, 0] ⟨none, c%"b"⟩) := ⟨_, rfl, fun b q h => by cases h; rfl⟩
  have ex2 : Exists lastDoc (.elem [0]) := ⟨_, rfl, fun b q h => by cases h⟩
  have w1 : ∃ s1, managerSet pairEngine sampleCtx (.ok (some (.str c%"new"))) lastXPath (ast lastXPath) (.elem []) lastDoc = (.ok (), s1) := by
    rcases C120_assign (eng := pairEngine) c%"new" (sel1 lastDoc []) last_fits (by decide : c%"b" ≠ c%"text") rfl with ⟨s', -, -, h⟩ | ⟨h | h, -⟩
    · exact ⟨s', h⟩
    · exact absurd h (by decide)
    · exact absurd (.attr _ _ _ _ _ last_ends (by rfl)) (h _)
  have w2 : ∃ s2, managerSet pairEngine sampleCtx (.ok (some (.str c%"word"))) c%"*" (ast c%"*") (.elem [1]) lastDoc = (.ok (), s2) := by
    rcases C120_assign (eng := pairEngine) c%"word" (sel2 lastDoc [1]) star_fits trivial rfl with ⟨s', -, -, h⟩ | ⟨h | h, -⟩
    · exact ⟨s', h⟩
    · exact absurd h (by decide)
    · exact absurd (.elem _ _ rfl rfl) (h _)
  obtain ⟨s1, h1⟩ := w1
  obtain ⟨s2, h2⟩ := w2
  obtain ⟨s3, h3, h4, h5, h6⟩ := C128_commute (sel1 _ _) (sel2 _ _) last_fits star_fits (by decide : c%"b" ≠ c%"text") trivial ex1 ex2 ⟨by decide, fun _ => .inl ⟨_, _, rfl⟩⟩ h1 h2 (sel1 _ _) (sel2 _ _)
  exact ⟨s1, s2, s3, h1, h3, h2, h4, h5, h6⟩

/-- If the XPaths do not select anything yet, the order counts: the elements are created in the order of the assignments. -/
theorem C128_counterexample_created :
    let set := fun xp => managerSet refEngine sampleCtx (.ok (some (.str c%"v"))) xp (ast xp) (.elem [])
    ((set c%"b") (set c%"a" bare).2).1 = .ok () ∧ ((set c%"a") (set c%"b" bare).2).1 = .ok () ∧
    ((set c%"b") (set c%"a" bare).2).2.children.map Node.tag = [.elem ⟨none, c%"a"⟩, .elem ⟨none, c%"b"⟩] ∧
    ((set c%"a") (set c%"b" bare).2).2.children.map Node.tag = [.elem ⟨none, c%"b"⟩, .elem ⟨none, c%"a"⟩] := by
  refine ⟨by rfl, by rfl, by rfl, by rfl⟩

end Props
