import Verif.Props.Local
import Verif.Spec.Interleave
/-
Property C127: statements through objects for separate elements of a document can be executed in any order.

Model: the statements are those of C111 (Verif/XmlMap/Manager.lean, NodeList.lean).  Specification: Verif/Spec/Interleave.lean.
-/
namespace Props
open XPath Xml Spec Fields

theorem modify_swap {a b : Node.Addr} (f g : Node → Node) (n : Node) (h : ¬ a <+: b) (h' : ¬ b <+: a) : (n.modify b g).modify a f = (n.modify a f).modify b g := by
  induction a generalizing n b with
  | nil => exact absurd List.nil_prefix h
  | cons i a ih =>
    cases b with
    | nil => exact absurd List.nil_prefix h'
    | cons j b =>
      simp only [Node.modify_cons, Node.withChildren_children, Node.withChildren_withChildren]
      by_cases hij : i = j
      · subst hij
        simp only [List.prefix_cons_inj] at h h'
        rw [List.modify_modify_eq, List.modify_modify_eq]
        congr 2
        funext c
        exact ih c h h'
      · rw [List.modify_modify_ne _ _ _ hij]

section
variable {ι ρ : Type} [DecidableEq ι] {as : ι → Node.Addr}

/-- A turn of a client with a local program. -/
theorem turn_local {p : Client ρ} (hp : p.Local) {s n : Node} {a : Node.Addr} (hs : s.get a = some n) :
    p.turn a s = ((p.turn [] n).1, s.modify a (fun _ => (p.turn [] n).2)) ∧ (p.turn a s).1.Local := by
  cases hp with
  | done x => exact ⟨by simp only [Client.turn]; rw [Node.modify_id hs rfl], .done x⟩
  | ask h hk =>
    have := h s n a hs
    refine ⟨?_, hk _⟩
    simp only [Client.turn]
    rw [this]
    cases (_ : M _) n |>.1 <;> rfl

/-- C127.  Whatever the schedule: each client has observed what it would have observed with a document to itself, and its element is what it would be there. -/
theorem C127_alone (hsep : Separate as) (l : List ι) (ps : ι → Client ρ) (hps : ∀ i, (ps i).Local) (ns : ι → Node) (s : Node) (hs : ∀ i, s.get (as i) = some (ns i)) (i : ι) :
    (serve as l ps s).1 i = ((ps i).alone (l.count i) (ns i)).1 ∧ (serve as l ps s).2.get (as i) = some ((ps i).alone (l.count i) (ns i)).2 := by
  induction l generalizing ps ns s with
  | nil => exact ⟨rfl, hs i⟩
  | cons j l ih =>
    obtain ⟨h1, h2⟩ := turn_local (hps j) (hs j)
    have := ih (fun k => if k = j then ((ps j).turn (as j) s).1 else ps k) (fun k => by split; exacts [h2, hps k])
      (fun k => if k = j then ((ps j).turn [] (ns j)).2 else ns k) ((ps j).turn (as j) s).2 (fun k => by
        rw [h1]
        dsimp only
        split
        · next hk => subst hk; rw [Node.get_modify, hs k]; rfl
        · next hk => rw [Node.get_modify_other _ _ (hsep j k (fun h => hk h.symm)) (hsep k j hk), hs k])
    simp only [serve]
    by_cases hij : i = j
    · subst hij
      simp only [if_pos] at this
      rw [List.count_cons_self]
      simp only [Client.alone]
      rw [show ((ps i).turn (as i) s).1 = ((ps i).turn [] (ns i)).1 from by rw [h1]] at this ⊢
      exact this
    · simp only [if_neg hij] at this
      rw [List.count_cons_of_ne (fun h => hij h.symm)]
      exact this

/-- C127.  Nothing changes elsewhere. -/
theorem C127_elsewhere (hsep : Separate as) (l : List ι) (ps : ι → Client ρ) (hps : ∀ i, (ps i).Local) (s : Node) (hs : ∀ i, (s.get (as i)).isSome) (b : Node.Addr)
    (hb : ∀ i, ¬ as i <+: b ∧ ¬ b <+: as i) : (serve as l ps s).2.get b = s.get b := by
  induction l generalizing ps s with
  | nil => rfl
  | cons j l ih =>
    obtain ⟨n, hn⟩ := Option.isSome_iff_exists.mp (hs j)
    obtain ⟨h1, h2⟩ := turn_local (hps j) hn
    simp only [serve]
    rw [ih (fun k => if k = j then ((ps j).turn (as j) s).1 else ps k) (fun k => by split; exacts [h2, hps k]), h1]
    · exact Node.get_modify_other _ _ (hb j).1 (hb j).2
    · intro k
      rw [h1]
      by_cases hk : k = j
      · subst hk; rw [Node.get_modify, hn]; rfl
      · rw [Node.get_modify_other _ _ (hsep j k (fun h => hk h.symm)) (hsep k j hk)]; exact hs k

/-- C127.  Two schedules that differ in the order only lead to the same document, and every client has observed the same. -/
theorem C127_order (hsep : Separate as) {l l' : List ι} (h : l.Perm l') (ps : ι → Client ρ) (hps : ∀ i, (ps i).Local) (s : Node) (hs : ∀ i, (s.get (as i)).isSome) :
    serve as l ps s = serve as l' ps s := by
  have keep : ∀ (ps : ι → Client ρ) (s : Node), (∀ i, (ps i).Local) → (∀ i, (s.get (as i)).isSome) → ∀ j,
      (∀ k, ((fun k => if k = j then ((ps j).turn (as j) s).1 else ps k) k).Local) ∧ ∀ k, (((ps j).turn (as j) s).2.get (as k)).isSome := by
    intro ps s hps hs j
    obtain ⟨n, hn⟩ := Option.isSome_iff_exists.mp (hs j)
    obtain ⟨h1, h2⟩ := turn_local (hps j) hn
    refine ⟨fun k => by dsimp only; split; exacts [h2, hps k], fun k => ?_⟩
    rw [h1]
    by_cases hk : k = j
    · subst hk; rw [Node.get_modify, hn]; rfl
    · rw [Node.get_modify_other _ _ (hsep j k (fun h => hk h.symm)) (hsep k j hk)]; exact hs k
  induction h generalizing ps s with
  | nil => rfl
  | cons j _ ih => exact ih _ (keep ps s hps hs j).1 _ (keep ps s hps hs j).2
  | trans _ _ ih1 ih2 => exact (ih1 ps hps s hs).trans (ih2 ps hps s hs)
  | swap i j l =>
    by_cases hij : i = j
    · subst hij; rfl
    obtain ⟨n, hn⟩ := Option.isSome_iff_exists.mp (hs i)
    obtain ⟨n', hn'⟩ := Option.isSome_iff_exists.mp (hs j)
    have hi := (turn_local (hps i) hn).1
    have hj := (turn_local (hps j) hn').1
    have hi2 := (turn_local (hps i) (s := ((ps j).turn (as j) s).2) (by rw [hj]; exact (Node.get_modify_other _ _ (hsep j i (fun h => hij h.symm)) (hsep i j hij)).trans hn)).1
    have hj2 := (turn_local (hps j) (s := ((ps i).turn (as i) s).2) (by rw [hi]; exact (Node.get_modify_other _ _ (hsep i j hij) (hsep j i (fun h => hij h.symm))).trans hn')).1
    simp only [serve, if_neg hij, if_neg (fun h : j = i => hij h.symm)]
    rw [hi2, hj2, hi, hj]
    congr 1
    · funext k
      by_cases h1 : k = i
      · subst h1; simp [hij]
      · by_cases h2 : k = j
        · subst h2; simp only [if_pos, if_neg h1]
        · simp only [if_neg h1, if_neg h2]
    · exact modify_swap _ _ s (hsep i j hij) (hsep j i (fun h => hij h.symm))

omit [DecidableEq ι] in
theorem turn_done {p : Client ρ} {x : ρ} (h : p = .done x) (a : Node.Addr) (s : Node) : p.turn a s = (p, s) := by subst h; rfl

theorem serve_append (l l' : List ι) (ps : ι → Client ρ) (s : Node) : serve as (l ++ l') ps s = serve as l' (serve as l ps s).1 (serve as l ps s).2 := by
  induction l generalizing ps s with
  | nil => rfl
  | cons i l ih => simp only [List.cons_append, serve]; exact ih _ _

theorem serve_done (l : List ι) (ps : ι → Client ρ) (out : ι → ρ) (h : ∀ i, ps i = .done (out i)) (s : Node) : serve as l ps s = (ps, s) := by
  induction l with
  | nil => rfl
  | cons i l ih =>
    simp only [serve, turn_done (h i)]
    rw [show (fun j => if j = i then ps i else ps j) = ps from by funext j; split; exacts [by subst_vars; rfl, rfl]]
    exact ih

/-- C127.  Two schedules under which all the clients finish lead to the same document and to the same results, whatever the numbers of statements. -/
theorem C127_finished (hsep : Separate as) (l l' : List ι) (ps : ι → Client ρ) (hps : ∀ i, (ps i).Local) (s : Node) (hs : ∀ i, (s.get (as i)).isSome) (out out' : ι → ρ)
    (h : ∀ i, (serve as l ps s).1 i = .done (out i)) (h' : ∀ i, (serve as l' ps s).1 i = .done (out' i)) :
    out = out' ∧ (serve as l ps s).2 = (serve as l' ps s).2 := by
  have e1 := (serve_append l l' ps s).trans (serve_done l' _ out h _)
  have e2 := (serve_append l' l ps s).trans (serve_done l _ out' h' _)
  have e := e1.symm.trans ((C127_order hsep List.perm_append_comm ps hps s hs).trans e2)
  refine ⟨?_, congrArg Prod.snd e⟩
  funext i
  have := (h i).symm.trans ((congrFun (congrArg Prod.fst e) i).trans (h' i))
  injection this

/-- A statement whose result is an element in the document (`create_<field>`), with the result not used. -/
theorem C127_unused {α : Type} {re : Node.Addr → α → α} {m : Node.Addr → M α} (h : LocalProg re m) : LocalProg (fun _ v => v) (fun a => m a >>= fun _ => pure ()) := by
  intro s n a hs
  have := h s n a hs
  show (m a >>= fun _ => pure ()) s = (((m [] >>= fun _ => pure ()) n).1.map _, s.modify a (fun _ => ((m [] >>= fun _ => pure ()) n).2))
  cases hx : m [] n with
  | mk r n' =>
    rw [hx] at this
    cases r with
    | ok x => rw [bind_ok this, bind_ok hx]; rfl
    | error er => rw [bind_err this, bind_err hx]; rfl

end

theorem idxs_inj {sel : Node → Bool} {cs : List Node} {j k i : Nat} (h1 : (idxs sel cs)[j]? = some i) (h2 : (idxs sel cs)[k]? = some i) : j = k := by
  obtain ⟨A, m, B, e1, l1, -, f1⟩ := idxs_get h1
  obtain ⟨A', m', B', e2, l2, -, f2⟩ := idxs_get h2
  have := List.append_inj_left (e1.symm.trans e2) (l1.trans l2.symm)
  rw [← f1, ← f2, this]

/-- C127.  The items of a list field whose XPath is a child step are separate: objects for them can be used in any order. -/
theorem C127_items {eng : Engine} {ctx : Ctx} {xp : Str} {e : Expr} {q : QName} {ps : List Pred} (heng : EngineOk eng) (hf : SimpleField ctx xp e [.child q ps]) {a : Node.Addr} {s n : Node} (hs : s.get a = some n) :
    ∃ ms, listMatches eng ctx xp (.elem a) s = (.ok ms, s) ∧ ms.length = (members q ps n).length ∧ Separate (fun i : Fin ms.length => ms[i].addr) ∧
      ∀ i : Fin ms.length, s.get ms[i].addr = (members q ps n)[i.val]? ∧ (s.get ms[i].addr).isSome := by
  obtain ⟨ax, t, es, rfl⟩ := res_single hf.path
  have hlen : ((idxs (isMember q ps) n.children).map (fun i => Ref.elem (a ++ [i]))).length = (members q ps n).length := by rw [List.length_map, idxs_length]; rfl
  refine ⟨_, listMatches_run heng hf.parse hf.path hs, hlen, ?_, ?_⟩
  · intro i j hij h
    simp only [Fin.getElem_fin, List.getElem_map, Ref.addr, List.prefix_append_right_inj, List.cons_prefix_cons] at h
    have hi : i.val < (idxs (isMember q ps) n.children).length := by simpa using i.isLt
    have hj : j.val < (idxs (isMember q ps) n.children).length := by simpa using j.isLt
    exact hij (Fin.ext (idxs_inj (List.getElem?_eq_getElem hi) (by rw [List.getElem?_eq_getElem hj, h.1])))
  · have at_ : ∀ (k : Nat) (x : Nat), (idxs (isMember q ps) n.children)[k]? = some x → s.get (a ++ [x]) = (members q ps n)[k]? ∧ (s.get (a ++ [x])).isSome := by
      intro k x hx
      obtain ⟨A, m, B, h1, h2, h3, h4⟩ := idxs_get hx
      have h5 : s.get (a ++ [x]) = some m := by
        rw [Node.get_append, hs]
        show (n.get [_]) = _
        rw [Node.get_cons, h1, ← h2, List.getElem?_append_right (Nat.le_refl _)]
        simp [Node.get]
      have h6 : (members q ps n)[k]? = some m := by
        rw [members, h1, List.filter_append, ← h4, List.getElem?_append_right (Nat.le_refl _), List.filter_cons_of_pos h3]
        simp
      rw [h5]
      exact ⟨h6.symm, rfl⟩
    intro i
    have hi : i.val < (idxs (isMember q ps) n.children).length := by simpa using i.isLt
    simp only [Fin.getElem_fin, List.getElem_map, Ref.addr]
    exact at_ _ _ (List.getElem?_eq_getElem hi)

/-- A client that assigns `v` to a field `a` and then reads it, and finishes with what it has read. -/
def asker (v : Str) : Client (Except PyErr (Option Str)) :=
  .ask (fun b => writeStr refEngine sampleCtx v c%"a" (ast c%"a") (.elem b)) fun _ => .ask (fun b => readStr refEngine sampleCtx c%"a" (ast c%"a") (.elem b)) .done

theorem asker_local (v : Str) : (asker v).Local := by
  have hf : SimpleField sampleCtx c%"a" (ast c%"a") [.child ⟨none, c%"a"⟩ []] := ⟨by decide, by rfl, by decide, by decide⟩
  have h := C111_paths (eng := refEngine) refEngine_ok _ _ _ hf
  exact .ask ((C111_local h.1 h.2).2.1 _ (by intro b h; cases h)) fun _ => .ask ((C111_local h.1 h.2).1 false _) .done

/-- Non-vacuity: two clients with the two elements of a document. -/
example : let as : Bool → Node.Addr := fun i => if i then [1] else [0]
    let ps : Bool → Client (Except PyErr (Option Str)) := fun i => asker (if i then c%"x" else c%"y")
    Separate as ∧ (∀ i, (ps i).Local) ∧ (∀ i, (upDoc.get (as i)).isSome) ∧
    serve as [true, false, true, false] ps upDoc = serve as [false, false, true, true] ps upDoc ∧
    (serve as [true, false, true, false] ps upDoc).1 true = .done (.ok (some c%"x")) := by
  intro as ps
  have h1 : Separate as := fun i j h => by revert h; revert i j; decide
  have h2 : ∀ i, (ps i).Local := fun i => asker_local _
  have h3 : ∀ i, (upDoc.get (as i)).isSome := by decide
  exact ⟨h1, h2, h3, C127_order h1 (by decide) ps h2 _ h3, by rfl⟩

/-- The elements must be separate: two clients with objects for the same element see what the other one has written, so that the order matters. -/
theorem C127_counterexample_same :
    let ps : Bool → Client (Except PyErr (Option Str)) := fun i => asker (if i then c%"x" else c%"y")
    (∀ i, (ps i).Local) ∧ (serve (fun _ => [0]) [true, true, false, false] ps upDoc).1 true = .done (.ok (some c%"x")) ∧
    (serve (fun _ => [0]) [true, false, true, false] ps upDoc).1 true = .done (.ok (some c%"y")) := by
  exact ⟨fun i => asker_local _, by rfl, by rfl⟩

end Props
