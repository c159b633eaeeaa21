import Verif.Props.Bundled
import Verif.Props.Cells
/-
Property C115: the bundled classes, with all their fields, are records of elements with a text and attributes.

Model: the field tables of Verif/Domain/Bundled.lean; `managerGet`, `managerSet`, `managerDelete` (Verif/XmlMap/Manager.lean).
Specification: Verif/Spec/Cell.lean and the replay of C107; the table `attached` below.
-/
namespace Props
open XPath Xml Spec Fields Bundled

/-! ### which fields share an element -/

/-- The fields that are for an attribute of the element of another field of the class: class, field, the other field, attribute. -/
def attached : List (Str × Str × Str × Str) := [
  (c%"mods.Role", c%"type", c%"text", c%"type"),
  (c%"mods.Role", c%"authority", c%"text", c%"authority"),
  (c%"cerp._BaseMessage", c%"message_id_supplied", c%"message_id", c%"Supplied"),
  (c%"cerp.Message", c%"message_id_supplied", c%"message_id", c%"Supplied"),
  (c%"cerp.ChildMessage", c%"message_id_supplied", c%"message_id", c%"Supplied")]

/-- The one field that is left out: its element has child elements that another field makes. -/
def leftOut : List (Str × Str) := [(c%"teimap.TeiDiv", c%"docauthor")]

/-- The row of the table for a field. -/
def attachedTo (c : ClassDecl) (f : Str) : Option (Str × Str) := (attached.find? (fun x => x.1 == c.name && x.2.1 == f)).map (fun x => (x.2.2.1, x.2.2.2))

/-- The field whose element this field is for. -/
def hostOf (c : ClassDecl) (f : Str) : Str := match attachedTo c f with
  | some x => x.1
  | none => f

/-- What the field shows of the element: the text or an attribute. -/
def partOf (c : ClassDecl) (f : Str) : Sub := match attachedTo c f with
  | some x => .attr ⟨none, x.2⟩
  | none => .text

/-- The names of the fields that have an element (or an attribute) of their own. -/
def hosts (c : ClassDecl) : List Str := (c.fields.map FieldDecl.name).filter (fun f => attachedTo c f == none && !leftOut.contains (c.name, f))

/-- An element below an object of the class that a field has for its own. -/
abbrev Host (c : ClassDecl) : Type := {h : Str // h ∈ hosts c}

/-- The XPath of a field of the class. -/
def xpathOf (c : ClassDecl) (f : Str) : Str := ((c.fields.find? (fun x => x.name == f)).map FieldDecl.xpath).getD []

/-- The path to the element. -/
def hostPath (c : ClassDecl) (h : Host c) : List Step := steps (classCtx c) (xpathOf c h.1)

/-! ### the check -/

/-- The same steps, for paths with attribute predicates. -/
def sameSteps : List Step → List Step → Bool
  | [], [] => true
  | .child q ps :: r, .child q' ps' :: r' => q == q' && samePreds ps ps' && sameSteps r r'
  | .attr q :: r, .attr q' :: r' => q == q' && sameSteps r r'
  | _, _ => false

theorem sameSteps_ok : ∀ {p p' : List Step}, sameSteps p p' = true → p = p'
  | [], [], _ => rfl
  | .child q ps :: r, .child q' ps' :: r', h => by
    simp only [sameSteps, Bool.and_eq_true, beq_iff_eq] at h
    rw [h.1.1, samePreds_ok h.1.2, sameSteps_ok h.2]
  | .attr q :: r, .attr q' :: r', h => by
    simp only [sameSteps, Bool.and_eq_true, beq_iff_eq] at h
    rw [h.1, sameSteps_ok h.2]

/-- The check of a field: it is one of C69, its host is a host, its path is the path of the host and the step to its part. -/
def cellField (c : ClassDecl) (f : FieldDecl) : Bool := recordable c f &&
  (leftOut.contains (c.name, f.name) || ((hosts c).contains (hostOf c f.name) &&
    sameSteps (steps (classCtx c) f.xpath) (steps (classCtx c) (xpathOf c (hostOf c f.name)) ++ (partOf c f.name).path)))

/-- The check of a host: its path is one that C107 covers and parts from those of the other hosts. -/
def cellHost (c : ClassDecl) (h : Str) : Bool :=
  (let p := steps (classCtx c) (xpathOf c h)
   !p.isEmpty && pathOk p && attrPreds p && (match p.getLast? with | some .text => false | _ => true)) &&
  (hosts c).all (fun h' => h == h' || partB (steps (classCtx c) (xpathOf c h)) (steps (classCtx c) (xpathOf c h')))

def cellsOk : Bool := records.all (fun c => c.fields.all (cellField c) && (hosts c).all (cellHost c))

theorem cellsOk_true : cellsOk = true := by decide +kernel

/-- A choice of fields of a class: any, even the same field several times. -/
structure Choice (c : ClassDecl) {ι : Type} (sel : ι → FieldDecl) : Prop where
  mem : ∀ i, sel i ∈ c.fields
  kept : ∀ i, (c.name, (sel i).name) ∉ leftOut

theorem choice_checked {c : ClassDecl} (hc : c ∈ records) : (∀ f ∈ c.fields, cellField c f = true) ∧ ∀ h ∈ hosts c, cellHost c h = true := by
  have h := cellsOk_true
  unfold cellsOk at h
  rw [List.all_eq_true] at h
  have h1 := h c hc
  rw [Bool.and_eq_true, List.all_eq_true, List.all_eq_true] at h1
  exact h1

theorem choice_host {c : ClassDecl} (hc : c ∈ records) {ι : Type} {sel : ι → FieldDecl} (hs : Choice c sel) (i : ι) : hostOf c (sel i).name ∈ hosts c := by
  have h := (choice_checked hc).1 _ (hs.mem i)
  unfold cellField at h
  simp only [Bool.and_eq_true, Bool.or_eq_true, List.contains_iff_mem] at h
  rcases h.2 with h | h
  · exact absurd h (hs.kept i)
  · exact h.1

/-- The element that a field of the choice is for. -/
def choiceHost {c : ClassDecl} (hc : c ∈ records) {ι : Type} {sel : ι → FieldDecl} (hs : Choice c sel) (i : ι) : Host c :=
  ⟨hostOf c (sel i).name, choice_host hc hs i⟩

theorem choice_cells [PyUnicode] (number) {c : ClassDecl} (hc : c ∈ records) {ctx : Ctx} (hctx : Extends (classCtx c) ctx) {ι : Type} {sel : ι → FieldDecl}
    (hs : Choice c sel) :
    CellFields ctx (fun i => fieldOf number c (sel i)) (hostPath c) (choiceHost hc hs) (fun i => partOf c (sel i).name) where
  ok := fun i => by
    have h := (choice_checked hc).1 _ (hs.mem i)
    unfold cellField at h
    rw [Bool.and_eq_true] at h
    exact recordable_ok number h.1 hctx
  path := fun i => by
    have h := (choice_checked hc).1 _ (hs.mem i)
    unfold cellField at h
    simp only [Bool.and_eq_true, Bool.or_eq_true, List.contains_iff_mem] at h
    rcases h.2 with h | h
    · exact absurd h (hs.kept i)
    · show (declField _ _ _ _).p = _
      rw [(declField_xp _ _ _ _).2.2]
      exact sameSteps_ok h.2
  pok := fun g => by
    have h := (choice_checked hc).2 _ g.2
    unfold cellHost at h
    simp only [Bool.and_eq_true] at h
    obtain ⟨⟨⟨⟨h1, h2⟩, h3⟩, h4⟩, -⟩ := h
    refine ⟨?_, h2, h3, ?_⟩
    · intro he
      unfold hostPath at he
      rw [he] at h1
      cases h1
    · intro he
      unfold hostPath at he
      rw [he] at h4
      cases h4
  part := fun g g' hne => by
    have h := (choice_checked hc).2 _ g.2
    unfold cellHost at h
    rw [Bool.and_eq_true, List.all_eq_true] at h
    have h1 := h.2 _ g'.2
    rw [Bool.or_eq_true, beq_iff_eq] at h1
    rcases h1 with h1 | h1
    · exact absurd (Subtype.ext h1) hne
    · exact partB_ok h1

/-! ### the theorems -/

section
variable [PyUnicode] {ι : Type}

/-- C115.  Take any class that comes with eulxml whose fields are child elements and attributes, any of its fields (only `docauthor` of `teimap.TeiDiv` is left
out), also those for an attribute of another field's element, and an object of the class, in a context that declares at least the prefixes of the class.  There
is at most one element at each step of the paths and the elements at the end have no children.  Then every history of assignments and deletions (of values that give text XML
can hold, or nothing) runs without exception and changes nothing outside of the object's element; afterwards the element of each group of fields is what the
replay of the history says, and every field reads what this element says. -/
theorem C115_bundled_cells (eng : Engine) (heng : EngineOk eng) (number : Str → XNum) (c : ClassDecl) (hc : c ∈ records) (ctx : Ctx)
    (hctx : Extends (classCtx c) ctx) (sel : ι → FieldDecl) (hsel : Choice c sel) (a : Node.Addr)
    (ops : List (ROp (fun i => fieldOf number c (sel i)))) (hops : ∀ op ∈ ops, op.Textual) (s n : Node) (hs : s.get a = some n)
    (ht : CellsTidy (hostPath c) n) :
    ∃ n', runHistory eng ctx a ops s = (.ok (), s.modify a (fun _ => n')) ∧ CellsTidy (hostPath c) n' ∧
      (∀ g, cellOf (hostPath c g) n' = List.foldl (ROp.replayCell (fs := fun i => fieldOf number c (sel i)) (hostPath c) (choiceHost hc hsel)
        (fun i => partOf c (sel i).name)) (fun g => cellOf (hostPath c g) n) ops g) ∧
      ∀ i, ∃ v, readAs (fieldOf number c (sel i)).toPython eng ctx (fieldOf number c (sel i)).xp (fieldOf number c (sel i)).e (.elem a) (s.modify a (fun _ => n'))
          = (v, s.modify a (fun _ => n')) ∧
        CellShows (fieldOf number c (sel i)) (hostPath c (choiceHost hc hsel i)) (cellOf (hostPath c (choiceHost hc hsel i)) n') v (partOf c (sel i).name) := by
  obtain ⟨n', h1, h2, h3, -⟩ := C107_history eng heng ctx (choice_cells number hc hctx hsel) a ops hops s n hs ht
  have hg : Node.get a (s.modify a (fun _ => n')) = some n' := by rw [Node.get_modify, hs]; rfl
  exact ⟨n', h1, h2, h3, fun i => C107_read eng heng ctx (choice_cells number hc hctx hsel) a _ n' hg h2 i⟩

omit [PyUnicode] in
/-- C115.  A new object of the class has room for all of its fields. -/
theorem C115_new_object (c : ClassDecl) (hc : c ∈ records) (q : QName) : CellsTidy (hostPath c) (Node.empty q) := by
  intro g
  have h := (choice_checked hc).2 _ g.2
  unfold cellHost at h
  simp only [Bool.and_eq_true] at h
  obtain ⟨⟨⟨⟨h1, h2⟩, h3⟩, h4⟩, -⟩ := h
  have hp : hostPath c g ≠ [] := by intro he; unfold hostPath at he; rw [he] at h1; cases h1
  have hgd : Spec.good (hostPath c g) = true := good_of h2 h3 (by intro he; unfold hostPath at he; rw [he] at h4; cases h4)
  have hu : Uniq (hostPath c g) (Node.empty q) := by
    cases h : hostPath c g with
    | nil => trivial
    | cons st r => cases st <;> simp [Uniq]
  refine ⟨single_of_uniq hgd hu, (writable_hits hgd hp hu).mpr ?_⟩
  intro m hm
  cases h : hostPath c g with
  | nil => exact absurd h hp
  | cons st r => rw [h] at hm; cases st <;> simp [hits, Node.attr?] at hm

end

/-! ### a CERP message -/

/-- All six fields of `cerp.Message`. -/
def messageFields (i : Fin 6) : FieldDecl := cerp_Message.fields[i]'(by exact i.2)

theorem messageChoice : Choice cerp_Message messageFields where
  mem := fun i => List.getElem_mem _
  kept := by decide +kernel

theorem extends_self (ctx : Ctx) : Extends ctx ctx := ⟨fun nss h => ⟨nss, h, fun _ _ h => h⟩, fun _ _ h => h⟩

/-- The element of `message_id`. -/
def messageIdHost : Host cerp_Message := ⟨c%"message_id", by decide +kernel⟩

theorem message_record : cerp_Message ∈ records := by simp [records]

/-- `message.message_id = t; message.message_id_supplied = True; message.message_id_supplied = False` -/
def supplyOps (number : Str → XNum) (t : Str) : List (ROp (fun i => fieldOf number cerp_Message (messageFields i))) :=
  [.set 3 (some t : Option Str), .set 4 (some true : Option Bool), .set 4 (some false : Option Bool)]

/-- C115.  An effect that the replay shows, and that a user of the class will not expect: on a message without `MessageId` the assignments
`message_id = t; message_id_supplied = True; message_id_supplied = False` leave no message id, whatever `t` is. -/
theorem C115_message_id_lost [PyUnicode] (eng : Engine) (heng : EngineOk eng) (number : Str → XNum) (t : Str) (ht : xmlOk t = true) (a : Node.Addr) (s n : Node)
    (hs : s.get a = some n) (htidy : CellsTidy (hostPath cerp_Message) n) (hnone : cellOf (hostPath cerp_Message messageIdHost) n = none) :
    ∃ s', runHistory eng (classCtx cerp_Message) a (supplyOps number t) s = (.ok (), s') ∧
      readAs (strToPython false) eng (classCtx cerp_Message) c%"xm:MessageId" (ast c%"xm:MessageId") (.elem a) s' = (.ok none, s') := by
  obtain ⟨n', h1, -, h3, h4⟩ := C115_bundled_cells eng heng number cerp_Message message_record (classCtx cerp_Message) (extends_self _) messageFields messageChoice a
    (supplyOps number t) (by
      intro op hop
      simp only [supplyOps, List.mem_cons, List.not_mem_nil, or_false] at hop
      rcases hop with rfl | rfl | rfl
      · exact ⟨some t, rfl, fun t' h => by cases h; exact ht⟩
      · exact ⟨some c%"1", rfl, fun t' h => by cases h; decide⟩
      · exact ⟨none, rfl, fun t' h => by cases h⟩) s n hs htidy
  refine ⟨_, h1, ?_⟩
  have hg3 : choiceHost message_record messageChoice 3 = messageIdHost := Subtype.ext (by decide +kernel)
  have hg4 : choiceHost message_record messageChoice 4 = messageIdHost := Subtype.ext (by decide +kernel)
  have hp3 : partOf cerp_Message (messageFields 3).name = .text := by rfl
  have hp4 : partOf cerp_Message (messageFields 4).name = .attr ⟨none, c%"Supplied"⟩ := by rfl
  have hx3 : (fieldOf number cerp_Message (messageFields 3)).toXml (some t : Option Str) = .ok (some t) := rfl
  have hx4 : (fieldOf number cerp_Message (messageFields 4)).toXml (some true : Option Bool) = .ok (some c%"1") := rfl
  have hx5 : (fieldOf number cerp_Message (messageFields 4)).toXml (some false : Option Bool) = .ok none := rfl
  have hc := h3 messageIdHost
  simp only [supplyOps, List.foldl_cons, List.foldl_nil, ROp.replayCell, hx3, hx4, hx5, hg3, hg4, hp3, hp4, Function.update_self, hnone] at hc
  rw [C107_text_lost] at hc
  · obtain ⟨v, k1, k2⟩ := h4 3
    rw [hg3, hc, hp3] at k2
    rw [show readAs (strToPython false) eng (classCtx cerp_Message) c%"xm:MessageId" (ast c%"xm:MessageId") (.elem a) _ = _ from k1, k2]
    rfl
  · simp [Sub.put, Function.update_apply]
  · intro q hq hne
    exfalso
    revert hne
    have hl : lastPreds (hostPath cerp_Message messageIdHost) = [] := by rfl
    simp [Sub.put, Function.update_apply, hq, Elem.new, hl, required]

/-- A new message is such a message. -/
example (number : Str → XNum) : ∃ s', runHistory refEngine (classCtx cerp_Message) [] (supplyOps number c%"<m@x>") bare = (.ok (), s') ∧
    readAs (strToPython false) refEngine (classCtx cerp_Message) c%"xm:MessageId" (ast c%"xm:MessageId") (.elem []) s' = (.ok none, s') :=
  C115_message_id_lost refEngine refEngine_ok number c%"<m@x>" (by decide) [] bare bare rfl (C115_new_object cerp_Message message_record _) (by decide +kernel)

end Props
