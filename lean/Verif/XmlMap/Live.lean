import Verif.XmlMap.MovingLemmas
import Verif.Spec.Live
/-
Model of objects for the items of a NodeListField that are kept and used while the list is changed (eulxml/xmlmap/core.py:219-260 `XmlObject.__init__`: an object has a reference to its element, `self.node`, and nothing else; fields.py:600-846).
-/
namespace Fields
open Xml XPath Spec

section
variable [PyUnicode] (eng : Engine) (ctx : Ctx) (xpath : Str) (xast : Expr) (a : Node.Addr)

/-- A program for object `k`, whose element is a child of the owner's element (it runs on the document) or outside (it runs on the element).  A number without an object: nothing happens (not possible in Python). -/
def objRun {ρ : Type} (k : Nat) (m : Node.Addr → M ρ) (pl : List Place) (s : Node) : Except PyErr ρ × List Place × Node :=
  match pl[k]? with
  | some (.at i) => ((m (a ++ [i]) s).1, pl, (m (a ++ [i]) s).2)
  | some (.out v) => ((m [] v).1, pl.set k (.out (m [] v).2), s)
  | none => (.error .attributeError, pl, s)

/-- A sequence of operations on the list and of programs for the objects; the caller catches exceptions. -/
def liveRuns {ρ : Type} (pl : List Place) : List (LiveOp ρ) → Node → List (LiveRes ρ) × List Place × Node
  | [], s => ([], pl, s)
  | .list op :: ops, s => match shelfRun eng ctx xpath xast a pl op s with
    | (.ok (r, pl'), s') => let rest := liveRuns pl' ops s'; (.list (.ok r) :: rest.1, rest.2)
    | (.error er, s') => let rest := liveRuns pl ops s'; (.list (.error er) :: rest.1, rest.2)
  | .obj k m :: ops, s => match objRun a k m pl s with
    | (r, pl', s') => let rest := liveRuns pl' ops s'; (.obj r :: rest.1, rest.2)

end

/-! ### the refinement -/

section
variable {q : QName} {ps : List Pred} {val : Nat → Node} {pl : List Place}

/-- The element of an object that is in the list becomes another. -/
theorem tagging_becomes {A B : Tagged} {k : Nat} {v w : Node} {n n' : Node} (h : Tagging q ps val pl (A ++ (some k, v) :: B) n) (hw : isMember q ps w = true)
    (hn : n'.children = (A.map (·.2)) ++ w :: B.map (·.2)) : Tagging q ps (becomes val k w) pl (A ++ (some k, w) :: B) n' := by
  refine ⟨by rw [hn]; simp, ?_, ?_, ?_, ?_⟩
  · intro x hx
    rcases List.mem_append.1 hx with hx | hx
    · exact h.tag x (by simp [hx])
    · rcases List.mem_cons.1 hx with rfl | hx
      · simp [hw]
      · exact h.tag x (by simp [hx])
  · have := h.nodup
    rw [tags_append, tags_cons] at this ⊢
    exact this
  · intro j p hp
    have hl := h.place j p hp
    by_cases hj : j = k
    · subst hj
      obtain ⟨rfl, -⟩ := located_self h.nodup hl
      right
      exact ⟨A, B, by simp [becomes], rfl⟩
    · rw [show becomes val k w j = val j by simp [becomes, hj]]
      exact located_retag hj hj hl
  · intro j hj
    by_cases hjk : j = k
    · subst hjk; simp [becomes, hw]
    · rw [show becomes val k w j = val j by simp [becomes, hjk]]; exact h.member j hj

theorem objRun_run {ρ : Type} {a : Node.Addr} {s n : Node} {order : List Nat} (hs : s.get a = some n) (h : Shelved q ps val pl order n) {k : Nat} (hk : k < pl.length) {m : Node.Addr → M ρ}
    (hm : LocalProg (fun _ v => v) m) (hw : isMember q ps (m [] (val k)).2 = true) :
    ∃ pl' n', objRun a k m pl s = ((m [] (val k)).1, pl', s.modify a (fun _ => n')) ∧ pl'.length = pl.length ∧ Shelved q ps (becomes val k (m [] (val k)).2) pl' order n' ∧ SameButMembers q ps n n' := by
  obtain ⟨T, hT, hTo, hlt⟩ := h
  obtain ⟨p, hp⟩ : ∃ p, pl[k]? = some p := ⟨_, List.getElem?_eq_getElem hk⟩
  rcases hT.place k p hp with ⟨rfl, h2⟩ | ⟨A, B, h1, rfl⟩
  · refine ⟨pl.set k (.out (m [] (val k)).2), n, ?_, by simp, ⟨T, ⟨hT.children, hT.tag, hT.nodup, ?_, ?_⟩, hTo, ?_⟩, same_refl n⟩
    · rw [Node.modify_id (f := fun _ => n) hs rfl]
      simp only [objRun, hp]
    · intro j p' hp'
      by_cases hj : j = k
      · subst hj
        rw [List.getElem?_set_self hk] at hp'
        cases hp'
        exact .inl ⟨by simp [becomes], h2⟩
      · rw [List.getElem?_set_ne (Ne.symm hj)] at hp'
        rw [show becomes val k (m [] (val k)).2 j = val j by simp [becomes, hj]]
        exact hT.place j p' hp'
    · intro j hj
      rw [List.length_set] at hj
      by_cases hjk : j = k
      · subst hjk; simp [becomes, hw]
      · rw [show becomes val k (m [] (val k)).2 j = val j by simp [becomes, hjk]]; exact hT.member j hj
    · intro j hj; rw [List.length_set]; exact hlt j hj
  · subst h1
    have hchild : n.children = A.map (·.2) ++ val k :: B.map (·.2) := by rw [← hT.children]; simp
    have hget : s.get (a ++ [A.length]) = some (val k) := by
      rw [Node.get_append, hs]
      show Node.get [A.length] n = _
      rw [Node.get_cons, hchild]
      simp [Node.get]
    have hrun := hm s (val k) (a ++ [A.length]) hget
    have hw' : SameButMembers q ps n (n.withChildren (A.map (·.2) ++ (m [] (val k)).2 :: B.map (·.2))) := by
      refine ⟨by simp, by simp, by simp, by simp, ?_⟩
      have hv : isMember q ps (val k) = true := hT.member k hk
      simp only [others, Node.withChildren_children, hchild, List.filter_append, List.filter_cons, hw, hv]
      simp
    refine ⟨pl, n.withChildren (A.map (·.2) ++ (m [] (val k)).2 :: B.map (·.2)), ?_, rfl, ⟨_, tagging_becomes hT hw (by simp), ?_, hlt⟩, hw'⟩
    · have hst : s.modify (a ++ [A.length]) (fun _ => (m [] (val k)).2) = s.modify a (fun _ => n.withChildren (A.map (·.2) ++ (m [] (val k)).2 :: B.map (·.2))) := by
        rw [Node.modify_append]
        refine Node.modify_congr hs ?_
        rw [Node.modify_cons, hchild]
        congr 1
        have := modify_mid (A.map (·.2)) (B.map (·.2)) (val k) (Node.modify [] (fun _ => (m [] (val k)).2))
        rw [List.length_map] at this
        exact this
      have hres : (m [] (val k)).1.map (fun v => v) = (m [] (val k)).1 := by cases (m [] (val k)).1 <;> rfl
      simp only [objRun, hp, hrun, hst, hres]
    · rw [← hTo, tags_append, tags_cons, tags_append, tags_cons]

variable [PyUnicode] {eng : Engine} {ctx : Ctx} {xp : Str} {ax : Option Str} {t : NodeTest} {es : List Expr}
variable (heng : EngineOk eng) (hp : parse0 xp = .ok (.step ax t es)) (hr : res ctx (.step ax t es) = some ([.child q ps], none)) (hok : okAll ps = true)
include heng hp hr hok

theorem liveRuns_run {ρ : Type} : ∀ (ops : List (LiveOp ρ)) {pl : List Place} {a : Node.Addr} {s n : Node} {st : LiveState}, s.get a = some n → Shelved q ps st.val pl st.order n →
    LiveOk q ps pl.length st ops →
    ∃ pl' n', liveRuns eng ctx xp (.step ax t es) a pl ops s = ((liveAll st ops).1, pl', s.modify a (fun _ => n')) ∧ pl'.length = pl.length ∧
      Shelved q ps (liveAll st ops).2.val pl' (liveAll st ops).2.order n' ∧ SameButMembers q ps n n'
  | [], pl, a, s, n, st, hs, h, _ => ⟨pl, n, by rw [Node.modify_id hs rfl]; rfl, rfl, h, same_refl n⟩
  | .list op :: ops, pl, a, s, n, st, hs, h, hk => by
    rcases shelfRun_run heng hp hr hok op hs h hk.1 with ⟨r, pl1, n1, h1, h2, h3, h4, h5⟩ | ⟨er, h1, h2⟩
    · obtain ⟨pl2, n2, h6, h7, h8, h9⟩ := liveRuns_run ops (pl := pl1) (n := n1) (s := s.modify a (fun _ => n1)) (st := (live st (.list op : LiveOp ρ)).2) (by rw [Node.get_modify, hs]; rfl) h4 (by rw [h3]; exact hk.2)
      refine ⟨pl2, n2, ?_, h7.trans h3, h8, same_trans h5 h9⟩
      simp only [liveRuns, h1, h6, Node.modify_modify, liveAll, live, h2]
      rfl
    · obtain ⟨pl2, n2, h6, h7, h8, h9⟩ := liveRuns_run ops (pl := pl) (n := n) (s := s) (st := (live st (.list op : LiveOp ρ)).2) hs (by simpa [live, h2] using h) hk.2
      refine ⟨pl2, n2, ?_, h7, h8, h9⟩
      simp only [liveRuns, h1, h6, liveAll, live, h2]
  | .obj k m :: ops, pl, a, s, n, st, hs, h, hk => by
    obtain ⟨pl1, n1, h1, h3, h4, h5⟩ := objRun_run hs h hk.1.1 hk.1.2.1 hk.1.2.2
    obtain ⟨pl2, n2, h6, h7, h8, h9⟩ := liveRuns_run ops (pl := pl1) (n := n1) (s := s.modify a (fun _ => n1)) (st := (live st (.obj k m)).2) (by rw [Node.get_modify, hs]; rfl) h4 (by rw [h3]; exact hk.2)
    refine ⟨pl2, n2, ?_, h7.trans h3, h8, same_trans h5 h9⟩
    simp only [liveRuns, h1, h6, Node.modify_modify, liveAll, live]
    rfl

end
end Fields
