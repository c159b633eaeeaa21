import Verif.XmlMap.CellLemmas
import Verif.Props.LeafRecord
import Verif.Domain.Mods
/-
Property C107: fields for an element and fields for its attributes act on one element that can be missing.

Model: `managerGet`, `managerSet`, `managerDelete` (Verif/XmlMap/Manager.lean), mappers (Verif/XmlMap/Mappers.lean).
Specification: Verif/Spec/Cell.lean, and the replay of a history on such elements below.
-/
namespace Props
open XPath Xml Spec Fields

/-- The paths `P` lead to different elements (or attributes) of an object; each field is for the text at the end of one of these paths, or for an attribute there. -/
structure CellFields [PyUnicode] {ι γ : Type} (ctx : Ctx) (fs : ι → RField) (P : γ → List Step) (grp : ι → γ) (sub : ι → Sub) : Prop where
  ok : ∀ i, (fs i).Ok ctx
  path : ∀ i, (fs i).p = P (grp i) ++ (sub i).path
  pok : ∀ g, P g ≠ [] ∧ pathOk (P g) = true ∧ attrPreds (P g) = true ∧ (P g).getLast? ≠ some .text
  part : ∀ g g', g ≠ g' → Part (P g) (P g')

/-- There is at most one element at each step of the paths, and the elements at the end have no children. -/
def CellsTidy {γ : Type} (P : γ → List Step) (n : Node) : Prop := ∀ g, Single (P g) n ∧ Writable (P g) n

section
variable {ι γ : Type} {fs : ι → RField} [DecidableEq γ]

/-- The effect of an operation on the elements. -/
noncomputable def ROp.replayCell (P : γ → List Step) (grp : ι → γ) (sub : ι → Sub) (r : γ → Option Elem) : ROp fs → γ → Option Elem
  | .set i v => match (fs i).toXml v with
    | .ok (some t) => Function.update r (grp i) (some ((sub i).put (P (grp i)) t (r (grp i))))
    | _ => Function.update r (grp i) ((sub i).drop (P (grp i)) (r (grp i)))
  | .delete i => Function.update r (grp i) ((sub i).drop (P (grp i)) (r (grp i)))

/-- What reading a field must give: what its mapper makes of nothing if there is no element (or no such attribute), of the attribute's text, and of an element
with the text (or, if the path itself ends with an attribute, of the text). -/
def CellShows (f : RField) (p : List Step) (c : Option Elem) (v : Except PyErr f.V) : Sub → Prop
  | .attr x => v = f.toPython (((c.bind (fun e => e.attrs x))).map .str)
  | .text => match c with
    | none => v = f.toPython none
    | some e => if textual p = true then v = f.toPython (some (.str e.text)) else
        ∃ m : Node, m.children = [] ∧ m.strVal = e.text ∧ (∀ q, m.attr? q = e.attrs q) ∧ v = f.toPython (some (.elem m))

/-! ### proof -/

variable {P : γ → List Step} {grp : ι → γ} {sub : ι → Sub}

omit [DecidableEq γ] in
theorem CellFields.good [PyUnicode] {ctx : Ctx} (h : CellFields ctx fs P grp sub) (g : γ) : Spec.good (P g) = true :=
  good_of (h.pok g).2.1 (h.pok g).2.2.1 (h.pok g).2.2.2

omit [DecidableEq γ] in
theorem CellFields.good_field [PyUnicode] {ctx : Ctx} (h : CellFields ctx fs P grp sub) (i : ι) : Spec.good (P (grp i) ++ (sub i).path) = true := by
  rw [← h.path]; exact (h.ok i).good

omit [DecidableEq γ] in
theorem CellFields.uniq [PyUnicode] {ctx : Ctx} (h : CellFields ctx fs P grp sub) (i : ι) {n : Node} : Uniq (fs i).p n ↔ Uniq (P (grp i)) n := by
  have hg := h.good_field i
  rw [h.path]
  cases hs : sub i with
  | text => simp [Sub.path]
  | attr x => rw [hs] at hg; exact uniq_append_attr (child_of_good hg) n

/-- The invariant in terms of hits. -/
def HitsTidy (P : γ → List Step) (n : Node) : Prop := ∀ g, Uniq (P g) n ∧ ∀ m, (hits (P g) n).head? = some (.inl m) → m.children = []

omit [DecidableEq γ] in
theorem CellFields.tidy_iff [PyUnicode] {ctx : Ctx} (h : CellFields ctx fs P grp sub) (n : Node) : CellsTidy P n ↔ HitsTidy P n := by
  unfold CellsTidy HitsTidy
  constructor
  · intro ht g
    have hu := uniq_of_single (h.good g) (ht g).1
    exact ⟨hu, (writable_hits (h.good g) (h.pok g).1 hu).1 (ht g).2⟩
  · intro ht g
    exact ⟨single_of_uniq (h.good g) (ht g).1, (writable_hits (h.good g) (h.pok g).1 (ht g).1).2 (ht g).2⟩

theorem hits_one {p : List Step} {n : Node} (hu : Uniq p n) : hits p n = [] ∨ ∃ h, hits p n = [h] := by
  have := cell_le_one hu
  match hh : hits p n with
  | [] => exact .inl rfl
  | [x] => exact .inr ⟨x, rfl⟩
  | x :: y :: l => rw [hh] at this; simp at this

theorem hits_inl : ∀ {p : List Step}, childSteps p = true → ∀ {n : Node} {y}, y ∈ hits p n → ∃ m, y = .inl m
  | [], _, n, y, hy => by simp [hits] at hy; exact ⟨_, hy⟩
  | .child q ps :: p, hp, n, y, hy => by
    have hp' : childSteps p = true := by simpa [childSteps] using hp
    simp only [hits, List.mem_flatMap] at hy
    obtain ⟨c, -, hy⟩ := hy
    exact hits_inl hp' hy
  | .attr q :: p, hp, n, _, _ => by simp [childSteps] at hp
  | .text :: p, hp, n, _, _ => by simp [childSteps] at hp

theorem hits_inr {x : QName} {p : List Step} (hp : childSteps p = true) {n : Node} {y} (hy : y ∈ hits (p ++ [.attr x]) n) : ∃ v, y = .inr v := by
  rw [hits_then hp, List.mem_flatMap] at hy
  obtain ⟨z, -, hy⟩ := hy
  cases z with
  | inl m =>
    simp only [hits, List.mem_map] at hy
    obtain ⟨v, -, rfl⟩ := hy
    exact ⟨v, rfl⟩
  | inr s => simp at hy

theorem put_hits {p : List Step} {sb : Sub} (hp : p ≠ []) (hgp : Spec.good p = true) (hg : Spec.good (p ++ sb.path) = true) {n : Node} (hu : Uniq p n)
    (hl : ∀ m, (hits p n).head? = some (.inl m) → m.children = []) (t : Str) :
    ∃ h, hits p (wr (p ++ sb.path) t n) = [h] ∧ cellH h = sb.put p t ((hits p n).head?.map cellH) ∧ ∀ m, h = .inl m → m.children = [] := by
  have hnew : childSteps p = true → cellH (.inl (hitOrNew p n)) = ((hits p n).head?.map cellH).getD (Elem.new p) ∧ (hitOrNew p n).children = [] := by
    intro hc
    obtain ⟨h1, h2⟩ := cell_new hp hc hgp n
    unfold hitOrNew
    cases hh : (hits p n).head? with
    | none => exact ⟨h1, h2⟩
    | some x =>
      cases x with
      | inl m => exact ⟨rfl, hl m hh⟩
      | inr s =>
        obtain ⟨m, hm⟩ := hits_inl hc (List.mem_of_mem_head? hh)
        cases hm
  cases sb with
  | attr x =>
    have hc := child_of_good hg
    obtain ⟨h1, h2⟩ := hnew hc
    refine ⟨_, hits_wr_below hp hc hg hu, ?_, ?_⟩
    · rw [Sub.put, ← h1]
      simp only [Sub.path, wr, cellH, strVal_setAttr]
      congr 1
      funext q
      rw [Node.attr?_setAttr, Function.update_apply]
    · intro m hm
      cases hm
      simpa [wr, Sub.path] using h2
  | text =>
    simp only [Sub.path, List.append_nil] at hg ⊢
    rcases child_or_attr hg with hc | ⟨p', x, rfl, hc⟩
    · obtain ⟨h1, h2⟩ := hnew hc
      have := hits_wr_below (r := []) (v := t) hp hc (by simpa using hg) hu
      rw [List.append_nil] at this
      refine ⟨_, this, ?_, ?_⟩
      · rw [Sub.put, ← h1]
        simp [wr, cellH, strVal_setText h2, Node.attr?]
      · intro m hm
        cases hm
        simpa [wr] using h2
    · refine ⟨_, hits_attr_self hg ((uniq_append_attr hc n).1 hu), ?_, fun m hm => by cases hm⟩
      have hnone : (((hits (p' ++ [.attr x]) n).head?.map cellH).getD (Elem.new (p' ++ [.attr x]))).attrs = fun _ => none := by
        cases hh : (hits (p' ++ [.attr x]) n).head? with
        | none =>
          simp only [Option.map_none, Option.getD_none, Elem.new, lastPreds, List.getLast?_append, List.getLast?_singleton, Option.some_or, Option.map_some, Option.getD_some]
          rfl
        | some y =>
          obtain ⟨v, rfl⟩ := hits_inr hc (List.mem_of_mem_head? hh)
          rfl
      rw [Sub.put, hnone]
      rfl

theorem drop_hits {p : List Step} {sb : Sub} (hp : p ≠ []) (hgp : Spec.good p = true) (hg : Spec.good (p ++ sb.path) = true) {n : Node} (hu : Uniq p n)
    (hl : ∀ m, (hits p n).head? = some (.inl m) → m.children = []) (hself : hits (p ++ sb.path) (delete (p ++ sb.path) n) = []) :
    ((hits p (delete (p ++ sb.path) n)).head?.map cellH = sb.drop p ((hits p n).head?.map cellH)) ∧
      ∀ m, (hits p (delete (p ++ sb.path) n)).head? = some (.inl m) → m.children = [] := by
  cases sb with
  | text =>
    simp only [Sub.path, List.append_nil] at hself ⊢
    rw [hself]
    exact ⟨rfl, fun m hm => by cases hm⟩
  | attr x =>
    have hc := child_of_good hg
    simp only [Sub.path] at hself hg ⊢
    rw [delete_del hg (by simp) ((uniq_append_attr hc n).2 hu)]
    by_cases hh : hits (p ++ [.attr x]) n = []
    · rw [if_pos hh]
      refine ⟨?_, hl⟩
      rcases hits_one hu with h | ⟨y, h⟩
      · rw [h]; rfl
      · rw [h]
        simp only [List.head?_cons, Option.map_some]
        rw [Sub.drop, if_pos]
        rw [hits_then hc, h] at hh
        cases y with
        | inr s => rfl
        | inl m =>
          simp only [List.flatMap_cons, hits, List.flatMap_nil, List.append_nil] at hh
          simpa [cellH] using hh
    · rw [if_neg hh]
      obtain ⟨m, h1, h2, h3⟩ := hits_del_attr hp hg hu hh
      have hch : m.children = [] := hl m (by rw [h1]; rfl)
      have hch' : (m.delAttr x).children = [] := by simpa using hch
      have hw : cellH (.inl (m.delAttr x)) = (cellH (.inl m)).without x := by
        simp only [cellH, Elem.without, strVal_delAttr]
        congr 1
        funext q
        rw [Node.attr?_delAttr, Function.update_apply]
      have hv : emptyBut (lastPreds p) (m.delAttr x) = true ↔ ((cellH (.inl m)).without x).Vacant p := by
        rw [vacant_iff hch', ← hw]; rfl
      rw [h3, h1]
      simp only [List.head?_cons, Option.map_some]
      have hx : (cellH (.inl m)).attrs x ≠ none := by
        intro hn
        simp only [cellH] at hn
        rw [hn] at h2
        simp at h2
      rw [Sub.drop, if_neg hx]
      by_cases he : emptyBut (lastPreds p) (m.delAttr x) = true
      · rw [if_pos he, if_pos (hv.1 he)]
        exact ⟨rfl, fun m hm => by cases hm⟩
      · rw [if_neg he, if_neg (fun h => he (hv.2 h))]
        refine ⟨by simp [hw], fun m' hm' => ?_⟩
        cases hm'
        exact hch'

/-- The elements, in terms of hits. -/
def cellsH (P : γ → List Step) (n : Node) : γ → Option Elem := fun g => (hits (P g) n).head?.map cellH

/-- One operation. -/
theorem cell_run [PyUnicode] {eng : Engine} (heng : EngineOk eng) {ctx : Ctx} (h : CellFields ctx fs P grp sub) {a s n} (hs : Node.get a s = some n)
    (ht : HitsTidy P n) (op : ROp fs) (hop : op.Textual) :
    ∃ n', op.run eng ctx a s = (.ok (), s.modify a (fun _ => n')) ∧ HitsTidy P n' ∧ cellsH P n' = op.replayCell P grp sub (cellsH P n) ∧
      ∀ p', Spec.good p' = true → (∀ g, Part (P g) p') → hits p' n' = hits p' n ∧ (Uniq p' n → Uniq p' n') := by
  have hdel : ∀ i, managerDelete eng ctx (fs i).xp (fs i).e (.elem a) s = (.ok (), s.modify a (fun _ => delete (fs i).p n)) ∧ HitsTidy P (delete (fs i).p n) ∧
      cellsH P (delete (fs i).p n) = Function.update (cellsH P n) (grp i) ((sub i).drop (P (grp i)) (cellsH P n (grp i))) ∧
      ∀ p', Spec.good p' = true → (∀ g, Part (P g) p') → hits p' (delete (fs i).p n) = hits p' n ∧ (Uniq p' n → Uniq p' (delete (fs i).p n)) := by
    intro i
    have hu := (h.uniq i).2 (ht (grp i)).1
    have hsi := single_of_uniq (h.ok i).good hu
    have hp := ne_nil_of_field (h.ok i).simple
    have hother : ∀ p', Spec.good p' = true → Part (P (grp i)) p' → hits p' (delete (fs i).p n) = hits p' n ∧ (Uniq p' n → Uniq p' (delete (fs i).p n)) := by
      intro p' hg' hpt
      have hpt' : Part (fs i).p p' := by rw [h.path]; exact part_append hpt _
      rw [delete_del (h.ok i).good hp hu]
      split_ifs
      · exact ⟨rfl, id⟩
      · exact ⟨hits_del_other (h.ok i).good hg' hpt' n, uniq_del_other (h.ok i).good hg' hpt' n⟩
    have hu' : Uniq (fs i).p (delete (fs i).p n) := uniq_of_single (h.ok i).good (tidy_delete (h.ok i) hsi).1.1
    have hself : hits (fs i).p (delete (fs i).p n) = [] := (hits_nil_iff (h.ok i).good hu').2 (hits_delete_self (h.ok i) hsi)
    have hg := h.good_field i
    have hd := drop_hits (sb := sub i) (h.pok (grp i)).1 (h.good _) hg (ht (grp i)).1 (ht (grp i)).2 (by rw [← h.path]; exact hself)
    rw [← h.path] at hd
    refine ⟨?_, ?_, ?_, fun p' hg' hpt => hother p' hg' (hpt _)⟩
    · rw [delete_run heng (h.ok i) hs hsi]
      congr 1
      exact Node.modify_congr hs rfl
    · intro g
      by_cases hgi : g = grp i
      · subst hgi
        exact ⟨(h.uniq i).1 hu', hd.2⟩
      · obtain ⟨k1, k2⟩ := hother (P g) (h.good g) (h.part _ _ (Ne.symm hgi))
        exact ⟨k2 (ht g).1, by rw [k1]; exact (ht g).2⟩
    · funext g
      by_cases hgi : g = grp i
      · subst hgi
        rw [Function.update_self]
        exact hd.1
      · rw [Function.update_of_ne hgi]
        unfold cellsH
        rw [(hother (P g) (h.good g) (h.part _ _ (Ne.symm hgi))).1]
  cases op with
  | delete i =>
    obtain ⟨k1, k2, k3, k4⟩ := hdel i
    exact ⟨_, k1, k2, k3, k4⟩
  | set i v =>
    obtain ⟨o, h1, h2⟩ := hop
    cases o with
    | none =>
      obtain ⟨k1, k2, k3, k4⟩ := hdel i
      refine ⟨_, ?_, k2, ?_, k4⟩
      · show writeAs _ _ _ _ _ _ _ = _
        rw [h1]
        show managerSet eng ctx (.ok none) _ _ _ _ = _
        rw [C17_none_is_delete, k1]
      · rw [k3, ROp.replayCell, h1]
    | some t =>
      have hu := (h.uniq i).2 (ht (grp i)).1
      have hp := ne_nil_of_field (h.ok i).simple
      have hg := h.good_field i
      have hw : Writable (fs i).p n := by
        rw [writable_hits (h.ok i).good hp hu, h.path]
        cases hsb : sub i with
        | text => simpa [Sub.path] using (ht (grp i)).2
        | attr x =>
          intro m hm
          rw [hsb] at hg
          obtain ⟨v, hv⟩ := hits_inr (child_of_good hg) (List.mem_of_mem_head? hm)
          cases hv
      have hrun : writeAs (.ok (some t)) eng ctx (fs i).xp (fs i).e (.elem a) s = (.ok (), s.modify a (fun _ => write (fs i).p t n)) := by
        rw [show writeAs (.ok (some t)) eng ctx (fs i).xp (fs i).e (.elem a) s = (.ok (), s.modify a (write (fs i).p t)) from
          managerSet_str heng (h.ok i).simple.parse (h.ok i).simple.path (h.ok i).simple.canonical (h.ok i).simple.ok (attrPreds_stringOk (h.ok i).preds) (h2 t rfl) hs hw]
        congr 1
        exact Node.modify_congr hs rfl
      rw [write_wr (h.ok i).good t hu] at hrun
      have hother : ∀ p', Spec.good p' = true → Part (P (grp i)) p' → hits p' (wr (fs i).p t n) = hits p' n ∧ (Uniq p' n → Uniq p' (wr (fs i).p t n)) := by
        intro p' hg' hpt
        have hpt' : Part (fs i).p p' := by rw [h.path]; exact part_append hpt _
        exact ⟨hits_wr_other (h.ok i).good hg' hpt' t n, uniq_wr_other (h.ok i).good hg' hpt' t n⟩
      obtain ⟨y, q1, q2, q3⟩ := put_hits (sb := sub i) (h.pok (grp i)).1 (h.good _) hg (ht (grp i)).1 (ht (grp i)).2 t
      rw [← h.path] at q1
      refine ⟨_, ?_, ?_, ?_, fun p' hg' hpt => hother p' hg' (hpt _)⟩
      · show writeAs _ _ _ _ _ _ _ = _
        rw [h1]
        exact hrun
      · intro g
        by_cases hgi : g = grp i
        · subst hgi
          refine ⟨(h.uniq i).1 (uniq_wr_self (h.ok i).good t n hu), ?_⟩
          rw [q1]
          intro m hm
          simp only [List.head?_cons, Option.some.injEq] at hm
          exact q3 m hm
        · obtain ⟨k1, k2⟩ := hother (P g) (h.good g) (h.part _ _ (Ne.symm hgi))
          exact ⟨k2 (ht g).1, by rw [k1]; exact (ht g).2⟩
      · rw [ROp.replayCell, h1]
        funext g
        by_cases hgi : g = grp i
        · subst hgi
          simp only [Function.update_self]
          unfold cellsH
          rw [q1, ← q2]; rfl
        · simp only [Function.update_of_ne hgi]
          unfold cellsH
          rw [(hother (P g) (h.good g) (h.part _ _ (Ne.symm hgi))).1]

/-- C107.  Let the fields of an object be grouped: each group belongs to an element below the object's element (at the end of a path), and its fields are for the
text of this element and for attributes of it.  The paths of the groups part; there is at most one element at each step, and the elements have no children.
Then every history of assignments and deletions runs without exception and changes nothing outside of the object's element; afterwards the element of each group is what the replay
of the history on an element that can be missing says: an assignment makes it if needed and sets the text or the attribute; deleting the text field removes the
element with all its attributes; deleting an attribute field removes the attribute, and the element with its text if no other attribute is left (but those in
the predicates of the path).  Other groups are not affected; neither is any field whose path parts from the paths of the groups. -/
theorem C107_history [PyUnicode] (eng : Engine) (heng : EngineOk eng) (ctx : Ctx) (h : CellFields ctx fs P grp sub) (a : Node.Addr) (ops : List (ROp fs))
    (hops : ∀ op ∈ ops, op.Textual) (s n : Node) (hs : s.get a = some n) (ht : CellsTidy P n) :
    ∃ n', runHistory eng ctx a ops s = (.ok (), s.modify a (fun _ => n')) ∧ CellsTidy P n' ∧
      (∀ g, cellOf (P g) n' = List.foldl (ROp.replayCell (fs := fs) P grp sub) (fun g => cellOf (P g) n) ops g) ∧
      ∀ f : RField, f.Ok ctx → (∀ g, Part (P g) f.p) → Single f.p n →
        readAs f.toPython eng ctx f.xp f.e (.elem a) (s.modify a (fun _ => n')) =
          ((readAs f.toPython eng ctx f.xp f.e (.elem a) s).1, s.modify a (fun _ => n')) := by
  have key : ∀ (ops : List (ROp fs)), (∀ op ∈ ops, op.Textual) → ∀ (s n : Node), s.get a = some n → HitsTidy P n →
      ∃ n', runHistory eng ctx a ops s = (.ok (), s.modify a (fun _ => n')) ∧ HitsTidy P n' ∧ cellsH P n' = ops.foldl (ROp.replayCell P grp sub) (cellsH P n) ∧
      ∀ p', Spec.good p' = true → (∀ g, Part (P g) p') → hits p' n' = hits p' n ∧ (Uniq p' n → Uniq p' n') := by
    intro ops
    induction ops with
    | nil =>
      intro _ s n hs ht
      have : s.modify a (fun _ => n) = s := Node.modify_id hs rfl
      exact ⟨n, by rw [this]; rfl, ht, rfl, fun p' _ _ => ⟨rfl, id⟩⟩
    | cons op ops ih =>
      intro hops s n hs ht
      obtain ⟨n1, h1, h2, h3, h4⟩ := cell_run heng h hs ht op (hops op (by simp))
      have hs1 : Node.get a (s.modify a (fun _ => n1)) = some n1 := by rw [Node.get_modify, hs]; rfl
      obtain ⟨n2, k1, k2, k3, k4⟩ := ih (fun o ho => hops o (by simp [ho])) _ n1 hs1 h2
      rw [Node.modify_modify] at k1
      refine ⟨n2, ?_, k2, ?_, ?_⟩
      · show (op.run eng ctx a >>= fun _ => runHistory eng ctx a ops) s = _
        rw [bind_ok h1, k1]
        rfl
      · rw [List.foldl_cons, ← h3]
        exact k3
      · intro p' hg hp
        exact ⟨(k4 p' hg hp).1.trans (h4 p' hg hp).1, fun hu => (k4 p' hg hp).2 ((h4 p' hg hp).2 hu)⟩
  have hcell : ∀ n : Node, HitsTidy P n → (fun g => cellOf (P g) n) = cellsH P n := fun n ht => funext fun g => cellOf_hits (h.good g) (ht g).1
  have ht0 := (h.tidy_iff n).1 ht
  obtain ⟨n', h1, h2, h3, h4⟩ := key ops hops s n hs ht0
  refine ⟨n', h1, (h.tidy_iff n').2 h2, ?_, ?_⟩
  · intro g
    rw [hcell n ht0, ← h3, ← hcell n' h2]
  · intro f hf hpart hsi
    have hg : Node.get a (s.modify a (fun _ => n')) = some n' := by rw [Node.get_modify, hs]; rfl
    have hu := uniq_of_single hf.good hsi
    obtain ⟨k1, k2⟩ := h4 f.p hf.good hpart
    rw [read_item heng hf hg (k2 hu), read_item heng hf hs hu, k1]

/-- C107.  What a field reads is determined by the element of its group. -/
theorem C107_read [PyUnicode] (eng : Engine) (heng : EngineOk eng) (ctx : Ctx) (h : CellFields ctx fs P grp sub) (a : Node.Addr) (s n : Node) (hs : s.get a = some n)
    (ht : CellsTidy P n) (i : ι) : ∃ v, readAs (fs i).toPython eng ctx (fs i).xp (fs i).e (.elem a) s = (v, s) ∧
      CellShows (fs i) (P (grp i)) (cellOf (P (grp i)) n) v (sub i) := by
  obtain ⟨hu, hl⟩ := (h.tidy_iff n).1 ht (grp i)
  have hg := h.good_field i
  refine ⟨_, read_item heng (h.ok i) hs ((h.uniq i).2 hu), ?_⟩
  rw [cellOf_hits (h.good _) hu, h.path]
  cases hsb : sub i with
  | attr x =>
    rw [hsb] at hg
    show _ = _
    congr 1
    simp only [Sub.path]
    rw [hits_then (child_of_good hg)]
    rcases hits_one hu with h0 | ⟨y, h0⟩
    · rw [h0]; rfl
    · rw [h0]
      obtain ⟨m, rfl⟩ := hits_inl (child_of_good hg) (n := n) (y := y) (by rw [h0]; simp)
      simp only [List.flatMap_cons, List.flatMap_nil, List.append_nil, hits, List.head?_cons, Option.map_some, Option.bind_some, cellH]
      cases m.attr? x <;> rfl
  | text =>
    simp only [Sub.path, List.append_nil]
    rcases hits_one hu with h0 | ⟨y, h0⟩
    · rw [h0]; exact rfl
    · rw [h0] at hl ⊢
      simp only [List.head?_cons, Option.map_some, CellShows]
      rcases child_or_attr (h.good (grp i)) with hc | ⟨p', x, hp', hc⟩
      · obtain ⟨m, rfl⟩ := hits_inl hc (n := n) (y := y) (by rw [h0]; simp)
        obtain ⟨q, ps, hlast⟩ := getLast_child (h.pok (grp i)).1 hc
        rw [if_neg (by simp [textual, hlast])]
        exact ⟨m, hl m rfl, rfl, fun q => rfl, rfl⟩
      · rw [hp'] at h0
        obtain ⟨v, rfl⟩ := hits_inr hc (n := n) (y := y) (by rw [h0]; simp)
        rw [if_pos (by rw [hp']; simp [textual])]
        rfl

end
/-! ### consequences -/

/-- C107.  Where there is no element, an assignment and then a deletion of the same field leave none, whichever field of the group it is. -/
theorem C107_undo (p : List Step) (sb : Sub) (t : Str) (hr : ∀ q, required (lastPreds p) q ≠ none → q ∈ eqAttrs (lastPreds p)) : sb.drop p (some (sb.put p t none)) = none := by
  cases sb with
  | text => rfl
  | attr x =>
    rw [Sub.drop, if_neg (by simp [Sub.put]), if_pos]
    intro q hq
    simp only [Sub.put, Elem.without, Option.getD_none, Elem.new, Function.update_idem] at hq
    by_cases hx : q = x
    · subst hx; simp at hq
    · rw [Function.update_of_ne hx] at hq
      exact hr q hq

/-- Deleting the only attribute (that the path does not ask for) takes the text along, whatever it is. -/
theorem C107_text_lost (p : List Step) (x : QName) (e : Elem) (hx : e.attrs x ≠ none) (ho : ∀ q, q ≠ x → e.attrs q ≠ none → q ∈ eqAttrs (lastPreds p)) :
    Sub.drop p (.attr x) (some e) = none := by
  rw [Sub.drop, if_neg hx, if_pos]
  intro q hq
  simp only [Elem.without] at hq
  by_cases h : q = x
  · subst h; simp at hq
  · rw [Function.update_of_ne h] at hq
    exact ho q h hq

/-- - while with another attribute left it stays, with its text. -/
theorem C107_text_kept (p : List Step) (x y : QName) (e : Elem) (hx : e.attrs x ≠ none) (hxy : y ≠ x) (hy : e.attrs y ≠ none) (hn : y ∉ eqAttrs (lastPreds p)) :
    Sub.drop p (.attr x) (some e) = some ⟨e.text, Function.update e.attrs x none⟩ := by
  rw [Sub.drop, if_neg hx, if_neg]
  · rfl
  · intro hv
    exact hn (hv y (by simp only [Elem.without]; rw [Function.update_of_ne hxy]; exact hy))

/-! ### mods.Role -/

/-- mods.py:172-177: `type = StringField('mods:roleTerm/@type')`, `authority = StringField('mods:roleTerm/@authority')`, `text = StringField('mods:roleTerm')`. -/
def roleFields : Fin 3 → RField
  | 0 => strField c%"mods:roleTerm/@type" (Domain.xast c%"mods:roleTerm/@type") [.child (Mods.q c%"roleTerm") [], .attr ⟨none, c%"type"⟩]
  | 1 => strField c%"mods:roleTerm/@authority" (Domain.xast c%"mods:roleTerm/@authority") [.child (Mods.q c%"roleTerm") [], .attr ⟨none, c%"authority"⟩]
  | 2 => strField c%"mods:roleTerm" (Domain.xast c%"mods:roleTerm") [.child (Mods.q c%"roleTerm") []]

def roleSub : Fin 3 → Sub
  | 0 => .attr ⟨none, c%"type"⟩
  | 1 => .attr ⟨none, c%"authority"⟩
  | 2 => .text

def rolePath : Unit → List Step := fun _ => [.child (Mods.q c%"roleTerm") []]

theorem role_cells : CellFields Mods.ctx roleFields rolePath (fun _ => ()) roleSub where
  ok := fun
    | 0 => ⟨⟨by decide, by rfl, by decide, by decide⟩, by decide, by intro h; cases h⟩
    | 1 => ⟨⟨by decide, by rfl, by decide, by decide⟩, by decide, by intro h; cases h⟩
    | 2 => ⟨⟨by decide, by rfl, by decide, by decide⟩, by decide, by intro h; cases h⟩
  path := fun
    | 0 => rfl
    | 1 => rfl
    | 2 => rfl
  pok := fun _ => ⟨by simp [rolePath], rfl, rfl, by intro h; cases h⟩
  part := fun g g' h => absurd rfl h

/-- `role.text = 'author'; role.type = 'text'; role.authority = 'local'; del role.type`. -/
def roleOps : List (ROp roleFields) :=
  [.set 2 (some c%"author" : Option Str), .set 0 (some c%"text" : Option Str), .set 1 (some c%"local" : Option Str), .delete 0]

theorem roleOps_ok : ∀ op ∈ roleOps, op.Textual := by
  intro op hop
  simp only [roleOps, List.mem_cons, List.not_mem_nil, or_false] at hop
  rcases hop with rfl | rfl | rfl | rfl
  · exact ⟨some c%"author", rfl, fun t ht => by cases ht; decide⟩
  · exact ⟨some c%"text", rfl, fun t ht => by cases ht; decide⟩
  · exact ⟨some c%"local", rfl, fun t ht => by cases ht; decide⟩
  · trivial

theorem role_tidy : CellsTidy rolePath (Node.empty (Mods.q c%"role")) := by
  refine (role_cells.tidy_iff _).2 (fun _ => ⟨⟨by simp, by simp⟩, fun m hm => ?_⟩)
  simp [rolePath, hits] at hm

/-- After this the text and the authority are there, and `del role.authority` then removes the whole `roleTerm`: all three fields read `None`. -/
example : ∃ n', runHistory refEngine Mods.ctx [] roleOps (Node.empty (Mods.q c%"role")) = (.ok (), n') ∧
    ∃ e, cellOf (rolePath ()) n' = some e ∧ e.text = c%"author" ∧ e.attrs ⟨none, c%"authority"⟩ = some c%"local" ∧ e.attrs ⟨none, c%"type"⟩ = none ∧
    ∃ n'', runHistory (fs := roleFields) refEngine Mods.ctx [] [.delete 1] n' = (.ok (), n'') ∧ cellOf (rolePath ()) n'' = none := by
  obtain ⟨n', h1, h2, h3, -⟩ := C107_history refEngine refEngine_ok Mods.ctx role_cells [] roleOps roleOps_ok _ _ rfl role_tidy
  have h4 := h3 ()
  simp only [roleOps, List.foldl_cons, List.foldl_nil, ROp.replayCell, roleFields, strField, strToXml, roleSub, Function.update_self] at h4
  rw [C107_text_kept (y := ⟨none, c%"authority"⟩) (hxy := by decide) (hx := by simp [Sub.put, Function.update_apply]) (hy := by simp [Sub.put, Function.update_apply])
    (hn := by simp [rolePath, lastPreds, Step.preds, eqAttrs])] at h4
  refine ⟨_, h1, _, h4, ?_, ?_, ?_, ?_⟩
  · simp [Sub.put]
  · simp [Sub.put, Function.update_apply]
  · simp
  · obtain ⟨n'', k1, -, k3, -⟩ := C107_history refEngine refEngine_ok Mods.ctx role_cells [] [.delete 1] (by intro op h; cases List.mem_singleton.1 h; trivial) _ n' rfl h2
    refine ⟨n'', k1, ?_⟩
    have k4 := k3 ()
    simp only [List.foldl_cons, List.foldl_nil, ROp.replayCell, roleSub, Function.update_self] at k4
    rw [k4, h4]
    refine C107_text_lost _ _ _ (by simp [Sub.put, Function.update_apply]) ?_
    intro q hq hne
    exfalso
    revert hne
    simp [Sub.put, Function.update_apply, hq, Elem.new, rolePath, lastPreds, Step.preds, required]
    intro ht
    rw [if_neg ht]
    rfl

/-- The fields read what the element of the group says. -/
example (n : Node) (ht : CellsTidy rolePath n) : ∃ v, readAs (roleFields 2).toPython refEngine Mods.ctx (roleFields 2).xp (roleFields 2).e (.elem []) n = (v, n) ∧
    CellShows (roleFields 2) (rolePath ()) (cellOf (rolePath ()) n) v .text :=
  C107_read refEngine refEngine_ok Mods.ctx role_cells [] n n rfl ht 2

/-! ### two groups -/

/-- `title = StringField('title')`, `lang = StringField('title/@lang')`, `size = IntegerField("note[@type='a']/@size")`. -/
def twoFields : Fin 3 → RField
  | 0 => strField c%"title" (ast c%"title") [.child ⟨none, c%"title"⟩ []]
  | 1 => strField c%"title/@lang" (ast c%"title/@lang") [.child ⟨none, c%"title"⟩ [], .attr ⟨none, c%"lang"⟩]
  | 2 => intField xpathNumber c%"note[@type='a']/@size" (ast c%"note[@type='a']/@size")
      [.child ⟨none, c%"note"⟩ [.attr ⟨none, c%"type"⟩ (some (.str c%"a"))], .attr ⟨none, c%"size"⟩]

def twoPaths : Bool → List Step
  | true => [.child ⟨none, c%"title"⟩ []]
  | false => [.child ⟨none, c%"note"⟩ [.attr ⟨none, c%"type"⟩ (some (.str c%"a"))]]

def twoGroup : Fin 3 → Bool
  | 0 => true
  | 1 => true
  | 2 => false

def twoSub : Fin 3 → Sub
  | 0 => .text
  | 1 => .attr ⟨none, c%"lang"⟩
  | 2 => .attr ⟨none, c%"size"⟩

theorem two_cells : CellFields sampleCtx twoFields twoPaths twoGroup twoSub where
  ok := fun
    | 0 => ⟨⟨by decide, by rfl, by decide, by decide⟩, by decide, by intro h; cases h⟩
    | 1 => ⟨⟨by decide, by rfl, by decide, by decide⟩, by decide, by intro h; cases h⟩
    | 2 => ⟨⟨by decide, by rfl, by decide, by decide⟩, by decide, by intro h; cases h⟩
  path := fun
    | 0 => rfl
    | 1 => rfl
    | 2 => rfl
  pok := fun
    | true => ⟨by simp [twoPaths], rfl, rfl, by intro h; cases h⟩
    | false => ⟨by simp [twoPaths], rfl, rfl, by intro h; cases h⟩
  part := fun
    | true, true, h => absurd rfl h
    | false, false, h => absurd rfl h
    | true, false, _ => .inl (C69_apart_names (by decide) _ _)
    | false, true, _ => .inl (C69_apart_names (by decide) _ _)

/-- `obj.size = 7; obj.title = 'T'; obj.lang = 'en'; del obj.title`: the note keeps its size, the title is gone. -/
example : ∃ n', runHistory (fs := twoFields) refEngine sampleCtx [] [.set 2 (some (7 : Int)), .set 0 (some c%"T" : Option Str), .set 1 (some c%"en" : Option Str), .delete 0] bare
      = (.ok (), n') ∧ cellOf (twoPaths true) n' = none ∧ (cellOf (twoPaths false) n').map (fun e => e.attrs ⟨none, c%"size"⟩) = some (some c%"7") := by
  obtain ⟨n', h1, -, h3, -⟩ := C107_history refEngine refEngine_ok sampleCtx two_cells [] [.set 2 (some (7 : Int)), .set 0 (some c%"T" : Option Str), .set 1 (some c%"en" : Option Str), .delete 0]
    (by
      intro op hop
      simp only [List.mem_cons, List.not_mem_nil, or_false] at hop
      rcases hop with rfl | rfl | rfl | rfl
      · exact ⟨_, rfl, fun t ht => by cases ht; exact intStr_xmlOk 7⟩
      · exact ⟨_, rfl, fun t ht => by cases ht; decide⟩
      · exact ⟨_, rfl, fun t ht => by cases ht; decide⟩
      · trivial) bare bare rfl
    ((two_cells.tidy_iff _).2 (fun
      | true => ⟨⟨by simp [bare], by simp [bare]⟩, fun m hm => by simp [twoPaths, hits, bare] at hm⟩
      | false => ⟨⟨by simp [bare], by simp [bare]⟩, fun m hm => by simp [twoPaths, hits, bare] at hm⟩))
  refine ⟨_, h1, ?_, ?_⟩
  · show cellOf _ n' = _
    rw [h3 true]; rfl
  · show Option.map _ (cellOf _ n') = _
    rw [h3 false]
    simp only [List.foldl_cons, List.foldl_nil, ROp.replayCell, twoFields, strField, strToXml, intField, intToXml, twoGroup, Function.update_self, ne_eq, Bool.false_eq_true,
      not_false_eq_true, Function.update_of_ne, twoSub, Sub.put, Option.map_some, reduceCtorEq]
    decide +kernel

end Props
