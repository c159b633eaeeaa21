import Verif.Domain.Cerp
import Verif.XmlMap.DocBuild
import Verif.Props.ListField
/-
Properties C58 (body of an e-mail) and C59 (headers of an e-mail): `Message.from_email_message`.

Model: Verif/Domain/Cerp.lean.
-/
namespace Props
open XPath Xml Spec Fields Cerp

section
variable [PyUnicode] {eng : Engine}

theorem cerp_field (t : Str) (h : ∃ x, t = x ∧ x ∈ [c%"LocalId", c%"MessageId", c%"MimeVersion", c%"OrigDate", c%"From", c%"Sender", c%"To", c%"Cc", c%"Bcc", c%"InReplyTo", c%"References", c%"Subject",
      c%"Comments", c%"Keywords", c%"Header", c%"SingleBody", c%"Eol", c%"Name", c%"Value", c%"ContentType", c%"Charset", c%"ContentName", c%"BodyContent", c%"Content"]) :
    SimpleField Cerp.ctx (Cerp.xp t) (Cerp.xast (Cerp.xp t)) [.child (Cerp.q t) []] := by
  obtain ⟨x, rfl, h⟩ := h
  simp only [List.mem_cons, List.not_mem_nil, or_false] at h
  rcases h with rfl | rfl | rfl | rfl | rfl | rfl | rfl | rfl | rfl | rfl | rfl | rfl | rfl | rfl | rfl | rfl | rfl | rfl | rfl | rfl | rfl | rfl | rfl | rfl <;>
    exact ⟨by decide, by rfl, by rfl, by decide⟩


/-! ### the specified document -/

/-- The element for a header. -/
def headerNode (h : Str × Str) : Node := .mk (.elem (Cerp.q c%"Header")) [] none [leaf (Cerp.q c%"Name") h.1, leaf (Cerp.q c%"Value") h.2] none

/-- The element for the body. -/
def bodyNode (m : Email) (text : Str) : Node := .mk (.elem (Cerp.q c%"SingleBody")) [] none
  ((if truthy (m.get c%"Content-Type") then [leaf (Cerp.q c%"ContentType") m.contentType] else []) ++
   (if truthy m.contentCharset then [leaf (Cerp.q c%"Charset") (m.contentCharset.getD [])] else []) ++
   (if truthy m.filename then [leaf (Cerp.q c%"ContentName") (m.filename.getD [])] else []) ++
   [.mk (.elem (Cerp.q c%"BodyContent")) [] none [leaf (Cerp.q c%"Content") text] none]) none

/-- The list fields and the headers they come from. -/
def headerFields : List (Str × Str) := [(c%"From", c%"From"), (c%"Sender", c%"From"), (c%"To", c%"To"), (c%"Cc", c%"Cc"), (c%"Bcc", c%"Bcc"), (c%"InReplyTo", c%"In-Reply-To"),
  (c%"References", c%"References"), (c%"Subject", c%"Subject"), (c%"Comments", c%"Comments"), (c%"Keywords", c%"Keywords")]

/-- The children of the message element: for each element name the elements, in order. -/
def messageParts (lib : Lib) (m : Email) (localId : Option Int) (text : Str) : List (Str × List Node) :=
  [(c%"LocalId", if localId.isSome then [leaf (Cerp.q c%"LocalId") c%"<built-in function id>"] else []),
   (c%"MessageId", if truthy (m.get c%"Message-Id") then
      [.mk (.elem (Cerp.q c%"MessageId")) [(⟨none, c%"Supplied"⟩, c%"1")] (m.get c%"Message-Id") [] none] else []),
   (c%"MimeVersion", ((m.get c%"MIME-Version").map (leaf (Cerp.q c%"MimeVersion"))).toList),
   (c%"OrigDate", (m.getAll c%"Date").map (fun d => leaf (Cerp.q c%"OrigDate") (parseMailDate lib d)))] ++
  headerFields.map (fun f => (f.1, (m.getAll f.2).map (leaf (Cerp.q f.1)))) ++
  [(c%"Header", m.headers.map headerNode),
   (c%"SingleBody", if m.multipart then [] else [bodyNode m text]),
   (c%"Eol", [leaf (Cerp.q c%"Eol") lib.eol])]

/-- The specified document. -/
def messageNode (lib : Lib) (m : Email) (localId : Option Int) (text : Str) : Node :=
  .mk (.elem (Cerp.q c%"Message")) [] none ((messageParts lib m localId text).map (·.2)).flatten none

/-- All strings that go into the document can be held by XML. -/
structure EmailOk (lib : Lib) (m : Email) (text : Str) : Prop where
  headers : ∀ h ∈ m.headers, xmlOk h.1 = true ∧ xmlOk h.2 = true
  dates : ∀ d ∈ m.getAll c%"Date", xmlOk (parseMailDate lib d) = true
  contentType : xmlOk m.contentType = true
  charset : xmlOk (m.contentCharset.getD []) = true
  filename : xmlOk (m.filename.getD []) = true
  text : xmlOk text = true
  eol : xmlOk lib.eol = true

theorem getAll_ok {m : Email} (h : ∀ h ∈ m.headers, xmlOk h.1 = true ∧ xmlOk h.2 = true) (name : Str) : ∀ v ∈ m.getAll name, xmlOk v = true := by
  intro v hv
  obtain ⟨x, hx, rfl⟩ := List.mem_map.1 hv
  exact (h x (List.mem_filter.1 hx).1).2

theorem get_ok {m : Email} (h : ∀ h ∈ m.headers, xmlOk h.1 = true ∧ xmlOk h.2 = true) {name v : Str} (hv : m.get name = some v) : xmlOk v = true :=
  getAll_ok h name v (List.mem_of_mem_head? hv)

/-! ### the statements -/

theorem setStr_adds (heng : EngineOk eng) {t : Str} (hf : SimpleField Cerp.ctx (Cerp.xp t) (Cerp.xast (Cerp.xp t)) [.child (Cerp.q t) []]) {v : Option Str} (hv : ∀ w, v = some w → xmlOk w = true) :
    AddsAt (Cerp.q t) (setStr eng t v) ((v.map (leaf (Cerp.q t))).toList) := by
  cases v with
  | none => exact addsAt_setNone heng hf
  | some w => exact addsAt_set heng hf (hv w rfl)

theorem extendStr_adds (heng : EngineOk eng) {t : Str} (hf : SimpleField Cerp.ctx (Cerp.xp t) (Cerp.xast (Cerp.xp t)) [.child (Cerp.q t) []]) {vs : List Str} (hv : ∀ v ∈ vs, xmlOk v = true) :
    AddsAt (Cerp.q t) (extendStr eng t vs) (vs.map (leaf (Cerp.q t))) := by
  have := addsAt_extend heng hf (strKind_ok Cerp.ctx (Cerp.xast (Cerp.xp t)) (q := Cerp.q t) (ps := []) rfl) (vs.map some) (by
    intro v hv'
    obtain ⟨w, hw, rfl⟩ := List.mem_map.1 hv'
    exact ⟨w, rfl, hv w hw⟩)
  rw [List.map_map] at this
  exact this

theorem appendStr_adds (heng : EngineOk eng) {t : Str} (hf : SimpleField Cerp.ctx (Cerp.xp t) (Cerp.xast (Cerp.xp t)) [.child (Cerp.q t) []]) {v : Str} (hv : xmlOk v = true) :
    AddsAt (Cerp.q t) (appendStr eng t v) [leaf (Cerp.q t) v] :=
  addsAt_append heng hf (strKind_ok Cerp.ctx (Cerp.xast (Cerp.xp t)) (q := Cerp.q t) (ps := []) rfl) (v := some v) ⟨v, rfl, hv⟩

theorem localId_adds (heng : EngineOk eng) (localId : Option Int) :
    AddsAt (Cerp.q c%"LocalId") (setLocalId eng localId) (if localId.isSome then [leaf (Cerp.q c%"LocalId") c%"<built-in function id>"] else []) := by
  cases localId with
  | none => exact addsAt_nothing _ _ (fun a s n _ _ => rfl)
  | some i => exact setStr_adds heng (cerp_field _ ⟨_, rfl, by decide⟩) (v := some _) (by rintro w ⟨⟩; decide)

/-- The last child is the only match. -/
theorem matches_last {q : QName} {n c : Node} (hn : NoChild q n) (hc : c.isElem q = true) :
    (Step.matches [.child q []] (n.withChildren (n.children ++ [c]))).head? = some (.elem [n.children.length]) := by
  have hm : isMember q [] c = true := by simp [isMember, hc, satAll]
  have h0 : n.children.filter (isMember q []) = [] := noChild_members hn
  have := idxs_mid (sel := isMember q []) hm [] n.children
  rw [h0, List.length_nil] at this
  rw [matches_single, Node.withChildren_children, List.head?_map, List.head?_eq_getElem?, this]
  rfl

theorem modify_last (n c : Node) (f : Node → Node) : (n.withChildren (n.children ++ [c])).modify [n.children.length] f = n.withChildren (n.children ++ [f c]) := by
  rw [Node.modify_cons, Node.withChildren_children, modify_mid, Node.withChildren_withChildren]
  rfl

theorem messageId_adds (heng : EngineOk eng) {m : Email} (h : ∀ h ∈ m.headers, xmlOk h.1 = true ∧ xmlOk h.2 = true) :
    AddsAt (Cerp.q c%"MessageId") (setMessageId eng m) (if truthy (m.get c%"Message-Id") then
      [.mk (.elem (Cerp.q c%"MessageId")) [(⟨none, c%"Supplied"⟩, c%"1")] (m.get c%"Message-Id") [] none] else []) := by
  by_cases ht : truthy (m.get c%"Message-Id") = true
  · rw [if_pos ht]
    refine ⟨by simp [Node.isElem, Node.tag], fun a s n hs hn => ?_⟩
    obtain ⟨v, hv⟩ : ∃ v, m.get c%"Message-Id" = some v := by
      cases hx : m.get c%"Message-Id" with
      | none => rw [hx] at ht; cases ht
      | some v => exact ⟨v, rfl⟩
    have hvx := get_ok h hv
    unfold setMessageId
    rw [if_pos ht, hv]
    have hf1 : SimpleField Cerp.ctx c%"xm:MessageId/@Supplied" (Cerp.xast c%"xm:MessageId/@Supplied") [.child (Cerp.q c%"MessageId") [], .attr ⟨none, c%"Supplied"⟩] :=
      ⟨by decide, by rfl, by rfl, by decide⟩
    have hm1 : Step.matches [.child (Cerp.q c%"MessageId") [], .attr ⟨none, c%"Supplied"⟩] n = [] := by
      rw [List.eq_nil_iff_forall_not_mem]
      intro x hx
      simp only [Step.matches, List.mem_flatten, List.mem_mapIdx] at hx
      obtain ⟨l, ⟨i, hi, rfl⟩, hx⟩ := hx
      rw [hn _ (List.getElem_mem hi)] at hx
      simp at hx
    have hmiss : missing [.child (Cerp.q c%"MessageId") [], .attr ⟨none, c%"Supplied"⟩] n = ([], [.child (Cerp.q c%"MessageId") [], .attr ⟨none, c%"Supplied"⟩]) := by
      show place _ n 1 = _
      unfold place
      rw [show List.take (0 + 1) [Step.child (Cerp.q c%"MessageId") [], .attr ⟨none, c%"Supplied"⟩] = [.child (Cerp.q c%"MessageId") []] from rfl, noChild_matches hn]
      rfl
    have hw1 : Writable [.child (Cerp.q c%"MessageId") [], .attr ⟨none, c%"Supplied"⟩] n := by
      unfold Writable
      rw [hm1, hmiss]
      intro h; cases h
    have e1 : write [.child (Cerp.q c%"MessageId") [], .attr ⟨none, c%"Supplied"⟩] c%"1" n =
        n.withChildren (n.children ++ [.mk (.elem (Cerp.q c%"MessageId")) [(⟨none, c%"Supplied"⟩, c%"1")] none [] none]) := by
      unfold write
      rw [hm1, hmiss]
      cases n
      rfl
    have h1 := managerSet_str heng hf1.parse hf1.path hf1.canonical hf1.ok rfl (v := c%"1") (by decide) hs hw1
    rw [bind_ok h1]
    have hs2 : (s.modify a (write [.child (Cerp.q c%"MessageId") [], .attr ⟨none, c%"Supplied"⟩] c%"1")).get a =
        some (n.withChildren (n.children ++ [.mk (.elem (Cerp.q c%"MessageId")) [(⟨none, c%"Supplied"⟩, c%"1")] none [] none])) := by
      rw [Node.get_modify, hs, Option.map_some, e1]
    have hf2 := cerp_field c%"MessageId" ⟨_, rfl, by decide⟩
    have hm2 := matches_last hn (c := .mk (.elem (Cerp.q c%"MessageId")) [(⟨none, c%"Supplied"⟩, c%"1")] none [] none) (by decide)
    have hw2 : Writable [.child (Cerp.q c%"MessageId") []] (n.withChildren (n.children ++ [.mk (.elem (Cerp.q c%"MessageId")) [(⟨none, c%"Supplied"⟩, c%"1")] none [] none])) := by
      unfold Writable
      rw [hm2]
      intro z hz
      cases n
      simp only [Node.withChildren, Node.get, Node.children, List.getElem?_append_right (Nat.le_refl _), Nat.sub_self, List.getElem?_cons_zero, Option.some.injEq] at hz
      subst hz
      rfl
    have h2 := managerSet_str heng hf2.parse hf2.path hf2.canonical hf2.ok rfl hvx hs2 hw2
    show managerSet eng Cerp.ctx (.ok (some (.str v))) (Cerp.xp c%"MessageId") (Cerp.xast (Cerp.xp c%"MessageId")) (.elem a) _ = _
    rw [h2, Node.modify_modify]
    congr 1
    refine Node.modify_congr hs ?_
    show write _ v (write _ c%"1" n) = _
    rw [e1]
    unfold write
    rw [hm2]
    show Node.modify [n.children.length] _ _ = _
    rw [modify_last]; rfl
  · rw [if_neg ht]
    refine addsAt_nothing _ _ (fun a s n _ _ => ?_)
    unfold setMessageId
    rw [if_neg ht]; rfl


theorem newHeader_run (heng : EngineOk eng) {h : Str × Str} (hh : xmlOk h.1 = true ∧ xmlOk h.2 = true) : newHeader eng h = .ok (headerNode h) := by
  have := seqAt_run [(Cerp.q c%"Name", setStr eng c%"Name" (some h.1), [leaf (Cerp.q c%"Name") h.1]), (Cerp.q c%"Value", setStr eng c%"Value" (some h.2), [leaf (Cerp.q c%"Value") h.2])]
    (by
      intro x hx
      simp only [List.mem_cons, List.not_mem_nil, or_false] at hx
      rcases hx with rfl | rfl
      · exact setStr_adds heng (cerp_field _ ⟨_, rfl, by decide⟩) (v := some h.1) (by rintro w ⟨⟩; exact hh.1)
      · exact setStr_adds heng (cerp_field _ ⟨_, rfl, by decide⟩) (v := some h.2) (by rintro w ⟨⟩; exact hh.2))
    (by show [Cerp.q c%"Name", Cerp.q c%"Value"].Nodup; decide) [] (Node.empty (Cerp.q c%"Header")) _ rfl (by intro x _ c hc; cases hc)
  unfold newHeader
  have h2 : (do setStr eng c%"Name" (some h.1) []; setStr eng c%"Value" (some h.2) []) (Node.empty (Cerp.q c%"Header")) = (.ok (), headerNode h) := this
  rw [h2]

theorem headers_adds (heng : EngineOk eng) {m : Email} (h : ∀ h ∈ m.headers, xmlOk h.1 = true ∧ xmlOk h.2 = true) :
    AddsAt (Cerp.q c%"Header") (addHeaders eng m) (m.headers.map headerNode) := by
  have h1 : m.headers.mapM (newHeader eng) = .ok (m.headers.map headerNode) := by
    have : ∀ l : List (Str × Str), (∀ h ∈ l, xmlOk h.1 = true ∧ xmlOk h.2 = true) → l.mapM (newHeader eng) = .ok (l.map headerNode) := by
      intro l
      induction l with
      | nil => intro _; rfl
      | cons x l ih =>
        intro hl
        rw [List.mapM_cons, newHeader_run heng (hl x (by simp)), ih (fun y hy => hl y (by simp [hy]))]
        rfl
    exact this _ h
  have h2 := addsAt_extend heng (cerp_field c%"Header" ⟨_, rfl, by decide⟩) (storeNode_ok (Cerp.q c%"Header") []) (m.headers.map headerNode) (by
    intro v hv
    obtain ⟨x, -, rfl⟩ := List.mem_map.1 hv
    rfl)
  rw [List.map_map] at h2
  refine ⟨h2.1, fun a s n hs hn => ?_⟩
  unfold addHeaders
  rw [h1, bind_ok (ofExcept_run _ s)]
  exact h2.2 a s n hs hn

/-- A statement at a child that was created before, as the last one. -/
theorem onChild_run (heng : EngineOk eng) {t : Str} (hf : SimpleField Cerp.ctx (Cerp.xp t) (Cerp.xast (Cerp.xp t)) [.child (Cerp.q t) []]) {a s n c} {f : Node.Addr → M Unit} {g : Node → Node}
    (hs : Node.get a s = some n) (hn : NoChild (Cerp.q t) n) (hc : c.isElem (Cerp.q t) = true) (hfg : ∀ b s, Node.get b s = some c → f b s = (.ok (), s.modify b g)) :
    onChild eng t f a (s.modify a (fun n => n.withChildren (n.children ++ [c]))) = (.ok (), s.modify a (fun n => n.withChildren (n.children ++ [g c]))) := by
  have hs2 : (s.modify a (fun n => n.withChildren (n.children ++ [c]))).get a = some (n.withChildren (n.children ++ [c])) := by rw [Node.get_modify, hs]; rfl
  unfold onChild
  rw [bind_ok (findNode_path heng hf.parse hf.path hs2), matches_last hn hc]
  show f (a ++ [n.children.length]) _ = _
  rw [hfg _ _ (by
    rw [Node.get_append, hs2]
    cases n
    simp [Node.get, Node.withChildren, Node.children]), Node.modify_append, Node.modify_modify]
  congr 1
  refine Node.modify_congr hs ?_
  exact modify_last n c g

theorem child_adds {q : QName} {f : Node.Addr → M Unit} {new : List Node} (h : AddsAt q f new) {c : Node} (hc : NoChild q c) (b : Node.Addr) (s : Node) (hs : Node.get b s = some c) :
    f b s = (.ok (), s.modify b (fun n => n.withChildren (n.children ++ new))) := h.2 b s c hs hc

theorem body_adds (heng : EngineOk eng) {lib : Lib} {m : Email} {text : Str} (ht : m.multipart = false → bodyText lib m = .ok text) (h : EmailOk lib m text) :
    AddsAt (Cerp.q c%"SingleBody") (addBody eng lib m) (if m.multipart then [] else [bodyNode m text]) := by
  cases hmp : m.multipart with
  | true =>
    refine addsAt_nothing _ _ (fun a s n _ _ => ?_)
    unfold addBody
    rw [hmp]; rfl
  | false =>
    refine ⟨by intro c hc; rw [if_neg (by simp), List.mem_singleton] at hc; subst hc; rfl, fun a s n hs hn => ?_⟩
    rw [if_neg (by simp)]
    have hf := cerp_field c%"SingleBody" ⟨_, rfl, by decide⟩
    have hstep : ∀ (b : Bool) (t : Str) (v : Str), SimpleField Cerp.ctx (Cerp.xp t) (Cerp.xast (Cerp.xp t)) [.child (Cerp.q t) []] → xmlOk v = true → ∀ cs : List Node, (∀ c ∈ cs, c.isElem (Cerp.q t) = false) →
        (if b then onChild eng c%"SingleBody" (appendStr eng t v) a else pure ()) (s.modify a (fun n => n.withChildren (n.children ++ [.mk (.elem (Cerp.q c%"SingleBody")) [] none cs none]))) =
          (.ok (), s.modify a (fun n => n.withChildren (n.children ++ [.mk (.elem (Cerp.q c%"SingleBody")) [] none (cs ++ if b then [leaf (Cerp.q t) v] else []) none]))) := by
      intro b t v hft hv cs hcs
      cases b with
      | false => simp; rfl
      | true =>
        rw [if_pos rfl, if_pos rfl]
        rw [onChild_run heng hf hs hn (c := .mk (.elem (Cerp.q c%"SingleBody")) [] none cs none) (by rfl) (child_adds (appendStr_adds heng hft hv) (by exact hcs))]
        rfl
    have h1 : createChild eng c%"SingleBody" a s = (.ok (), s.modify a (fun n => n.withChildren (n.children ++ [.mk (.elem (Cerp.q c%"SingleBody")) [] none [] none]))) :=
      (addsAt_create heng hf).2 a s n hs hn
    have hct : ∀ b : Bool, ∀ t v, ∀ c ∈ (if b then [leaf (Cerp.q t) v] else []), ∀ t', t ≠ t' → c.isElem (Cerp.q t') = false := by
      intro b t v c hc t' htt
      cases b with
      | false => simp at hc
      | true =>
        rw [if_pos rfl, List.mem_singleton] at hc
        subst hc
        simp [leaf, Node.isElem, Node.tag, Cerp.q, htt]
    have h2 := hstep (truthy (m.get c%"Content-Type")) c%"ContentType" m.contentType (cerp_field _ ⟨_, rfl, by decide⟩) h.contentType [] (by simp)
    rw [List.nil_append] at h2
    have h3 := hstep (truthy m.contentCharset) c%"Charset" (m.contentCharset.getD []) (cerp_field _ ⟨_, rfl, by decide⟩) h.charset _ (fun c hc => hct (truthy (m.get c%"Content-Type")) c%"ContentType" m.contentType c hc _ (by decide))
    have h4 := hstep (truthy m.filename) c%"ContentName" (m.filename.getD []) (cerp_field _ ⟨_, rfl, by decide⟩) h.filename _ (fun c hc => by
      rcases List.mem_append.1 hc with hc | hc
      · exact hct (truthy (m.get c%"Content-Type")) c%"ContentType" m.contentType c hc _ (by decide)
      · exact hct (truthy m.contentCharset) c%"Charset" (m.contentCharset.getD []) c hc _ (by decide))
    generalize hcs : ((if truthy (m.get c%"Content-Type") then [leaf (Cerp.q c%"ContentType") m.contentType] else []) ++
      (if truthy m.contentCharset then [leaf (Cerp.q c%"Charset") (m.contentCharset.getD [])] else []) ++
      (if truthy m.filename then [leaf (Cerp.q c%"ContentName") (m.filename.getD [])] else [])) = cs at h4
    have hno : ∀ c ∈ cs, c.isElem (Cerp.q c%"BodyContent") = false := by
      rw [← hcs]
      intro c hc
      rcases List.mem_append.1 hc with hc | hc
      · rcases List.mem_append.1 hc with hc | hc
        · exact hct (truthy (m.get c%"Content-Type")) c%"ContentType" m.contentType c hc _ (by decide)
        · exact hct (truthy m.contentCharset) c%"Charset" (m.contentCharset.getD []) c hc _ (by decide)
      · exact hct (truthy m.filename) c%"ContentName" (m.filename.getD []) c hc _ (by decide)
    have hfb := cerp_field c%"BodyContent" ⟨_, rfl, by decide⟩
    have h5 := onChild_run (f := Cerp.createChild eng c%"BodyContent") heng hf hs hn (c := .mk (.elem (Cerp.q c%"SingleBody")) [] none cs none) (by rfl) (child_adds (addsAt_create heng hfb) (by exact hno))
    have h6 : onChild eng c%"SingleBody" (onChild eng c%"BodyContent" (setStr eng c%"Content" (some text))) a
        (s.modify a (fun n => n.withChildren (n.children ++ [.mk (.elem (Cerp.q c%"SingleBody")) [] none (cs ++ [Node.empty (Cerp.q c%"BodyContent")]) none]))) =
        (.ok (), s.modify a (fun n => n.withChildren (n.children ++ [.mk (.elem (Cerp.q c%"SingleBody")) [] none (cs ++ [.mk (.elem (Cerp.q c%"BodyContent")) [] none [leaf (Cerp.q c%"Content") text] none]) none]))) := by
      refine onChild_run heng hf hs hn (c := .mk (.elem (Cerp.q c%"SingleBody")) [] none (cs ++ [Node.empty (Cerp.q c%"BodyContent")]) none) (by rfl)
        (g := fun _ => .mk (.elem (Cerp.q c%"SingleBody")) [] none (cs ++ [.mk (.elem (Cerp.q c%"BodyContent")) [] none [leaf (Cerp.q c%"Content") text] none]) none) ?_
      intro b s' hs'
      have hs0 : (s'.modify b (fun n => n.withChildren cs)).get b = some (.mk (.elem (Cerp.q c%"SingleBody")) [] none cs none) := by rw [Node.get_modify, hs']; rfl
      have key := onChild_run heng hfb hs0 (by exact hno) (c := Node.empty (Cerp.q c%"BodyContent")) (by rfl)
        (child_adds (setStr_adds heng (cerp_field c%"Content" ⟨_, rfl, by decide⟩) (v := some text) (by rintro w ⟨⟩; exact h.text)) (by intro c hc; cases hc))
      rw [Node.modify_modify, Node.modify_modify] at key
      have e1 : s'.modify b ((fun n => n.withChildren (n.children ++ [Node.empty (Cerp.q c%"BodyContent")])) ∘ fun n => n.withChildren cs) = s' :=
        Node.modify_id hs' rfl
      rw [e1] at key
      rw [key]
      congr 1
      exact Node.modify_congr hs' rfl
    show addBody eng lib m a s = _
    unfold addBody
    rw [hmp, if_neg (by simp), bind_ok h1, bind_ok (m := addContentType eng m a) h2, bind_ok (m := addCharset eng m a) h3, bind_ok (m := addFilename eng m a) h4, bind_ok h5, ht hmp, bind_ok (ofExcept_run _ _)]
    rw [show bodyNode m text = .mk (.elem (Cerp.q c%"SingleBody")) [] none (cs ++ [.mk (.elem (Cerp.q c%"BodyContent")) [] none [leaf (Cerp.q c%"Content") text] none]) none by
      rw [← hcs]; rfl]
    exact h6


theorem fromEmail_run (heng : EngineOk eng) {lib : Lib} {m : Email} {text : Str} (localId : Option Int) (ht : m.multipart = false → bodyText lib m = .ok text) (h : EmailOk lib m text) :
    fromEmail eng lib m localId = .ok (messageNode lib m localId text) := by
  have F : ∀ t name, t ∈ headerFields.map (·.1) → AddsAt (Cerp.q t) (extendStr eng t (m.getAll name)) ((m.getAll name).map (leaf (Cerp.q t))) := by
    intro t name htm
    refine extendStr_adds heng (cerp_field t ⟨_, rfl, ?_⟩) (getAll_ok h.headers name)
    revert t
    decide
  let L : List (QName × (Node.Addr → M Unit) × List Node) :=
    [(Cerp.q c%"LocalId", setLocalId eng localId, if localId.isSome then [leaf (Cerp.q c%"LocalId") c%"<built-in function id>"] else []),
     (Cerp.q c%"MessageId", setMessageId eng m, if truthy (m.get c%"Message-Id") then
        [.mk (.elem (Cerp.q c%"MessageId")) [(⟨none, c%"Supplied"⟩, c%"1")] (m.get c%"Message-Id") [] none] else []),
     (Cerp.q c%"MimeVersion", setStr eng c%"MimeVersion" (m.get c%"MIME-Version"), ((m.get c%"MIME-Version").map (leaf (Cerp.q c%"MimeVersion"))).toList),
     (Cerp.q c%"OrigDate", extendStr eng c%"OrigDate" ((m.getAll c%"Date").map (parseMailDate lib)), ((m.getAll c%"Date").map (parseMailDate lib)).map (leaf (Cerp.q c%"OrigDate")))] ++
    headerFields.map (fun f => (Cerp.q f.1, extendStr eng f.1 (m.getAll f.2), (m.getAll f.2).map (leaf (Cerp.q f.1)))) ++
    [(Cerp.q c%"Header", addHeaders eng m, m.headers.map headerNode),
     (Cerp.q c%"SingleBody", addBody eng lib m, if m.multipart then [] else [bodyNode m text]),
     (Cerp.q c%"Eol", setStr eng c%"Eol" (some lib.eol), [leaf (Cerp.q c%"Eol") lib.eol])]
  have hL : ∀ x ∈ L, AddsAt x.1 x.2.1 x.2.2 := by
    intro x hx
    simp only [L, List.mem_append, List.mem_cons, List.not_mem_nil, or_false] at hx
    rcases hx with ((rfl | rfl | rfl | rfl) | hx) | (rfl | rfl | rfl)
    · exact localId_adds heng localId
    · exact messageId_adds heng h.headers
    · exact setStr_adds heng (cerp_field _ ⟨_, rfl, by decide⟩) (fun w hw => get_ok h.headers hw)
    · exact extendStr_adds heng (cerp_field _ ⟨_, rfl, by decide⟩) (by
        intro v hv
        obtain ⟨d, hd, rfl⟩ := List.mem_map.1 hv
        exact h.dates d hd)
    · obtain ⟨f, hf, rfl⟩ := List.mem_map.1 hx
      exact F f.1 f.2 (List.mem_map_of_mem hf)
    · exact headers_adds heng h.headers
    · exact body_adds heng ht h
    · exact setStr_adds heng (cerp_field _ ⟨_, rfl, by decide⟩) (v := some lib.eol) (by rintro w ⟨⟩; exact h.eol)
  have hrun := seqAt_run L hL (by
    show [Cerp.q c%"LocalId", Cerp.q c%"MessageId", Cerp.q c%"MimeVersion", Cerp.q c%"OrigDate", Cerp.q c%"From", Cerp.q c%"Sender", Cerp.q c%"To", Cerp.q c%"Cc", Cerp.q c%"Bcc",
      Cerp.q c%"InReplyTo", Cerp.q c%"References", Cerp.q c%"Subject", Cerp.q c%"Comments", Cerp.q c%"Keywords", Cerp.q c%"Header", Cerp.q c%"SingleBody", Cerp.q c%"Eol"].Nodup
    decide) [] (Node.empty (Cerp.q c%"Message")) _ rfl (by intro x _ c hc; cases hc)
  have h2 : fillMessage eng lib m localId [] (Node.empty (Cerp.q c%"Message")) =
      (.ok (), Node.modify [] (fun n => n.withChildren (n.children ++ (L.map (·.2.2)).flatten)) (Node.empty (Cerp.q c%"Message"))) := hrun
  unfold fromEmail
  rw [h2]
  show Except.ok (Node.mk (.elem (Cerp.q c%"Message")) [] none ([] ++ (L.map (·.2.2)).flatten) none) = _
  rw [List.nil_append]
  have h3 : L.map (·.2.2) = (messageParts lib m localId text).map (·.2) := by
    simp only [L, messageParts, List.map_append, List.map_cons, List.map_nil, List.map_map]
    rfl
  rw [h3]
  rfl


/-! ### C58, C59 -/

/-- The strings of a StringListField `xm:tag`. -/
def readStrList (eng : Engine) (tag : Str) (n : Node) : Except PyErr (List (Option Str)) :=
  (readList eng Cerp.ctx (strKind Cerp.ctx (Cerp.xast (Cerp.xp tag))) (Cerp.xp tag) [] n).1

theorem parts_members {lib : Lib} {m : Email} {localId : Option Int} {text : Str} {t : Str} {new : List Node} (h : (t, new) ∈ messageParts lib m localId text) :
    members (Cerp.q t) [] (messageNode lib m localId text) = new := by
  have htag : ∀ x ∈ messageParts lib m localId text, ∀ c ∈ x.2, c.isElem (Cerp.q x.1) = true := by
    intro x hx c hc
    simp only [messageParts, List.mem_append, List.mem_cons, List.not_mem_nil, or_false] at hx
    rcases hx with ((rfl | rfl | rfl | rfl) | hx) | (rfl | rfl | rfl)
    · simp only at hc; split_ifs at hc <;> simp at hc; subst hc; rfl
    · simp only at hc; split_ifs at hc <;> simp at hc; subst hc; rfl
    · cases hx : m.get c%"MIME-Version" <;> simp [hx] at hc; subst hc; rfl
    · obtain ⟨d, -, rfl⟩ := List.mem_map.1 hc; rfl
    · obtain ⟨f, -, rfl⟩ := List.mem_map.1 hx
      obtain ⟨d, -, rfl⟩ := List.mem_map.1 hc
      simp [leaf, Node.isElem, Node.tag]
    · obtain ⟨d, -, rfl⟩ := List.mem_map.1 hc; rfl
    · simp only at hc; split_ifs at hc <;> simp at hc; subst hc; rfl
    · simp at hc; subst hc; rfl
  have hnd : ((messageParts lib m localId text).map (·.1)).Nodup := by
    show [c%"LocalId", c%"MessageId", c%"MimeVersion", c%"OrigDate", c%"From", c%"Sender", c%"To", c%"Cc", c%"Bcc", c%"InReplyTo", c%"References", c%"Subject", c%"Comments", c%"Keywords", c%"Header",
      c%"SingleBody", c%"Eol"].Nodup
    decide
  have key : ∀ l : List (Str × List Node), (∀ x ∈ l, ∀ c ∈ x.2, c.isElem (Cerp.q x.1) = true) → (l.map (·.1)).Nodup →
      ((t, new) ∈ l → (l.map (·.2)).flatten.filter (isMember (Cerp.q t) []) = new) ∧ (t ∉ l.map (·.1) → (l.map (·.2)).flatten.filter (isMember (Cerp.q t) []) = []) := by
    intro l
    induction l with
    | nil => intro _ _; simp
    | cons x l ih =>
      intro h1 h2
      obtain ⟨i1, i2⟩ := ih (fun y hy => h1 y (by simp [hy])) (List.nodup_cons.1 h2).2
      have hsame : x.2.filter (isMember (Cerp.q x.1) []) = x.2 := List.filter_eq_self.2 (fun c hc => by simp [isMember, h1 x (by simp) c hc, satAll])
      have hdiff : t ≠ x.1 → x.2.filter (isMember (Cerp.q t) []) = [] := by
        intro hne
        rw [List.filter_eq_nil_iff]
        intro c hc
        have := h1 x (by simp) c hc
        simp only [Node.isElem, beq_iff_eq] at this
        simp only [isMember, Node.isElem, this, Cerp.q, satAll, Bool.and_true, beq_iff_eq, Tag.elem.injEq, QName.mk.injEq, true_and]
        exact fun he => hne he.symm
      constructor
      · intro hm
        rw [List.map_cons, List.flatten_cons, List.filter_append]
        rcases List.mem_cons.1 hm with rfl | hm
        · rw [hsame, i2 (List.nodup_cons.1 h2).1, List.append_nil]
        · rw [hdiff (by
            rintro rfl
            exact (List.nodup_cons.1 h2).1 (List.mem_map_of_mem (f := (·.1)) hm)), i1 hm, List.nil_append]
      · intro hm
        rw [List.map_cons, List.mem_cons, not_or] at hm
        rw [List.map_cons, List.flatten_cons, List.filter_append, hdiff hm.1, i2 hm.2]
        rfl
  exact (key _ htag hnd).1 h

theorem readStrList_run (heng : EngineOk eng) {t : Str} (hf : SimpleField Cerp.ctx (Cerp.xp t) (Cerp.xast (Cerp.xp t)) [.child (Cerp.q t) []]) {n : Node} {vs : List Str} (h : members (Cerp.q t) [] n = vs.map (leaf (Cerp.q t))) :
    readStrList eng t n = .ok (vs.map some) := by
  have hat : ListAt eng xpathNumber Cerp.ctx (Cerp.xp t) (Cerp.xast (Cerp.xp t)) (Cerp.q t) [] (strKind Cerp.ctx (Cerp.xast (Cerp.xp t))) strView [] n n :=
    ⟨heng, xpathNumber_ok, hf, .str rfl, rfl, by
      rw [h]
      intro m hm
      obtain ⟨v, -, rfl⟩ := List.mem_map.1 hm
      rfl⟩
  obtain ⟨s', h1, h2⟩ := C25_list_refinement hat [] (by simp)
  have hs : s' = n := (congrArg Prod.snd h1).symm
  subst hs
  have h3 : pyListAll ((members (Cerp.q t) [] s').map strView.item) ([] : List (ListOp (Option Str))) = ([], (members (Cerp.q t) [] s').map strView.item) := rfl
  rw [h3] at h2
  unfold readStrList
  rw [h2, h, List.map_map]
  show Except.ok _ = Except.ok _
  congr 1
  refine List.map_congr_left (fun v _ => ?_)
  simp [strView, leaf, Node.strVal, Node.strValL]


/-- What a field `xm:tag` reads: the first member. -/
theorem first_member {q : QName} {n : Node} {l : List Node} (h : members q [] n = l) :
    ((Step.matches [.child q []] n).head?.bind (fun x => refText n x)) = l.head?.map Node.strVal := by
  rw [matches_single]
  unfold members at h
  cases hi : idxs (isMember q []) n.children with
  | nil =>
    have : l.length = 0 := by rw [← h, ← idxs_length, hi]; rfl
    rw [List.length_eq_zero_iff.1 this]; rfl
  | cons i is =>
    obtain ⟨A, x, B, h1, h2, h3, h4⟩ := idxs_get (sel := isMember q []) (cs := n.children) (k := 0) (i := i) (by rw [hi]; rfl)
    have hA : A.filter (isMember q []) = [] := List.length_eq_zero_iff.1 (by omega)
    have hl : l.head? = some x := by rw [← h, h1, List.filter_append, hA, List.filter_cons_of_pos h3]; rfl
    rw [hl]
    simp only [List.map_cons, List.head?_cons, Option.bind_some, refText, Option.map_some]
    rw [← h2, show [A.length] = [] ++ [A.length] from rfl, get_mid (n := n) rfl h1]
    rfl

/-- C59 and C58.  If XML can hold all strings, `from_email_message` returns exactly the specified document. -/
theorem C59_document (heng : EngineOk eng) (lib : Lib) (m : Email) (localId : Option Int) (text : Str) (ht : m.multipart = false → bodyText lib m = .ok text) (h : EmailOk lib m text) :
    fromEmail eng lib m localId = .ok (messageNode lib m localId text) := fromEmail_run heng localId ht h

/-- C59.  Each of the list fields from, to, cc, bcc, in_reply_to, references, subject, comments, keywords shows the values of the header of the same name, in order (`headerFields`); the
dates are those of the Date headers; the number and order of all headers is kept in `headers`. -/
theorem C59_header_lists (heng : EngineOk eng) (lib : Lib) (m : Email) (localId : Option Int) (text : Str) (ht : m.multipart = false → bodyText lib m = .ok text) (h : EmailOk lib m text) :
    ∃ n, fromEmail eng lib m localId = .ok n ∧
      (∀ f ∈ headerFields, readStrList eng f.1 n = .ok ((m.getAll f.2).map some)) ∧
      readStrList eng c%"OrigDate" n = .ok ((m.getAll c%"Date").map (fun d => some (parseMailDate lib d))) ∧
      members (Cerp.q c%"Header") [] n = m.headers.map headerNode := by
  refine ⟨_, fromEmail_run heng localId ht h, ?_, ?_, ?_⟩
  · intro f hf
    refine readStrList_run heng (cerp_field f.1 ⟨_, rfl, ?_⟩) (parts_members (List.mem_append_left _ (List.mem_append_right _ (List.mem_map_of_mem (f := fun f => (f.1, (m.getAll f.2).map (leaf (Cerp.q f.1)))) hf))))
    revert f
    decide
  · have := readStrList_run heng (cerp_field c%"OrigDate" ⟨_, rfl, by decide⟩) (vs := (m.getAll c%"Date").map (parseMailDate lib)) (n := messageNode lib m localId text) (by
      rw [List.map_map]
      exact parts_members (by simp [messageParts]))
    rw [this, List.map_map]; rfl
  · exact parts_members (by simp [messageParts])

/-- C59.  The message id and the MIME version are those of the first header of that name; an absent or empty message id leaves no element. -/
theorem C59_single_headers (heng : EngineOk eng) (lib : Lib) (m : Email) (localId : Option Int) (text : Str) (ht : m.multipart = false → bodyText lib m = .ok text) (h : EmailOk lib m text) :
    ∃ n, fromEmail eng lib m localId = .ok n ∧
      (readStr eng Cerp.ctx (Cerp.xp c%"MessageId") (Cerp.xast (Cerp.xp c%"MessageId")) (.elem []) n).1 = .ok (if m.get c%"Message-Id" = some [] then none else m.get c%"Message-Id") ∧
      (readStr eng Cerp.ctx (Cerp.xp c%"MimeVersion") (Cerp.xast (Cerp.xp c%"MimeVersion")) (.elem []) n).1 = .ok (m.get c%"MIME-Version") := by
  refine ⟨_, fromEmail_run heng localId ht h, ?_, ?_⟩
  · rw [C20_reads_first_match eng heng _ _ _ _ (cerp_field c%"MessageId" ⟨_, rfl, by decide⟩) [] _ _ rfl]
    have hm := parts_members (lib := lib) (m := m) (localId := localId) (text := text) (t := c%"MessageId") (new := if truthy (m.get c%"Message-Id") then
      [.mk (.elem (Cerp.q c%"MessageId")) [(⟨none, c%"Supplied"⟩, c%"1")] (m.get c%"Message-Id") [] none] else []) (by simp [messageParts])
    rw [first_member hm]
    cases hg : m.get c%"Message-Id" with
    | none => rfl
    | some v =>
      cases v with
      | nil => rfl
      | cons c v => simp [truthy, Node.strVal, Node.strValL]
  · rw [C20_reads_first_match eng heng _ _ _ _ (cerp_field c%"MimeVersion" ⟨_, rfl, by decide⟩) [] _ _ rfl]
    have hm := parts_members (lib := lib) (m := m) (localId := localId) (text := text) (t := c%"MimeVersion") (new := ((m.get c%"MIME-Version").map (leaf (Cerp.q c%"MimeVersion"))).toList) (by simp [messageParts])
    rw [first_member hm]
    cases hg : m.get c%"MIME-Version" with
    | none => rfl
    | some v => simp [leaf, Node.strVal, Node.strValL]

/-- The characters removed from the body: control characters below U+0020 other than tab, line feed, carriage return. -/
def isRemoved (c : Char) : Prop := c.toNat < 32 ∧ c ≠ '\t' ∧ c ≠ '\n' ∧ c ≠ '\r'

/-- C58.  The conversion keeps the order and removes exactly the control characters; every position that is kept is kept once. -/
theorem C58_removes_exactly (s : Str) : ∃ f : Char → Bool, (∀ c, f c = false ↔ isRemoved c) ∧ stripControl s = s.filter f := by
  refine ⟨_, fun c => ?_, rfl⟩
  have e : ∀ d : Char, c.toNat = d.toNat ↔ c = d := fun d => ⟨fun h => Char.toNat_inj.1 h, fun h => by rw [h]⟩
  have h9 := e '\t'
  have h10 := e '\n'
  have h13 := e '\r'
  simp only [show '\t'.toNat = 9 from rfl, show '\n'.toNat = 10 from rfl, show '\r'.toNat = 13 from rfl] at h9 h10 h13
  simp only [isRemoved, Bool.not_eq_false', Bool.and_eq_true, decide_eq_true_eq, bne_iff_ne, ne_eq, h9, h10, h13]
  tauto

/-- C58.  The body of the result is the payload without these characters, and XML can hold it, if the payload has none of the two code points U+FFFE, U+FFFF. -/
theorem C58_body (heng : EngineOk eng) (lib : Lib) (m : Email) (localId : Option Int) (s : Str) (hm : m.multipart = false) (hp : m.payload = .text s)
    (hs : ∀ c ∈ s, c.toNat ≠ 0xFFFE ∧ c.toNat ≠ 0xFFFF) (h : EmailOk lib m []) :
    ∃ n, fromEmail eng lib m localId = .ok n ∧ members (Cerp.q c%"SingleBody") [] n = [bodyNode m (stripControl s)] ∧ xmlOk (stripControl s) = true := by
  have hx : xmlOk (stripControl s) = true := by
    unfold xmlOk
    rw [List.all_eq_true]
    intro c hc
    obtain ⟨hc1, hc2⟩ := List.mem_filter.1 hc
    obtain ⟨h1, h2⟩ := hs c hc1
    unfold xmlChar
    by_cases h32 : c.toNat < 32
    · have : c = '\t' ∨ c = '\n' ∨ c = '\r' := by
        by_cases h9 : c.toNat = 9
        · exact .inl (Char.toNat_inj.1 h9)
        by_cases h10 : c.toNat = 10
        · exact .inr (.inl (Char.toNat_inj.1 h10))
        by_cases h13 : c.toNat = 13
        · exact .inr (.inr (Char.toNat_inj.1 h13))
        simp [h32, h9, h10, h13] at hc2
      rcases this with rfl | rfl | rfl <;> decide
    · have : 32 ≤ c.toNat := Nat.le_of_not_lt h32
      simp [this, h1, h2]
  have h' : EmailOk lib m (stripControl s) := ⟨h.headers, h.dates, h.contentType, h.charset, h.filename, hx, h.eol⟩
  refine ⟨_, fromEmail_run heng localId (fun _ => by unfold bodyText; rw [hp]) h', ?_, hx⟩
  have : (if m.multipart then [] else [bodyNode m (stripControl s)]) = [bodyNode m (stripControl s)] := by rw [hm]; rfl
  rw [← this]
  exact parts_members (by simp [messageParts])

end

/-! ### a concrete message -/

/-- Dates are not converted, nothing is decoded. -/
def sampleLib : Lib := ⟨fun _ => none, fun _ _ => .ok [], fun _ => [], c%"LF"⟩

/-- A message with two receivers, a sender that is not the author, and a body with a control character. -/
def sampleEmail : Email where
  headers := [(c%"From", c%"a"), (c%"to", c%"b"), (c%"Sender", c%"s"), (c%"To", c%"c"), (c%"Message-ID", c%"7")]
  multipart := false
  contentType := c%"text/plain"
  contentCharset := none
  filename := some c%"f"
  charset := none
  payload := .text ['x', Char.ofNat 7, '\n', 'y']

theorem sampleEmail_ok : EmailOk sampleLib sampleEmail [] where
  headers := by decide
  dates := by decide
  contentType := by decide
  charset := by decide
  filename := by decide
  text := by decide
  eol := by decide

example : ∃ n, fromEmail refEngine sampleLib sampleEmail none = .ok n ∧ members (Cerp.q c%"SingleBody") [] n = [bodyNode sampleEmail ['x', '\n', 'y']] ∧ xmlOk ['x', '\n', 'y'] = true :=
  C58_body refEngine_ok sampleLib sampleEmail none _ rfl rfl (by decide) sampleEmail_ok

example : sampleEmail.getAll c%"To" = [c%"b", c%"c"] := by decide

/-- Counterexample: the field `sender_list` does not show the Sender header but the From header. -/
theorem C59_counterexample_sender : sampleEmail.getAll c%"Sender" = [c%"s"] ∧ ∃ n, fromEmail refEngine sampleLib sampleEmail none = .ok n ∧ readStrList refEngine c%"Sender" n = .ok [some c%"a"] := by
  refine ⟨by decide, ?_⟩
  obtain ⟨n, h1, h2, -⟩ := C59_header_lists refEngine_ok sampleLib sampleEmail none (stripControl ['x', Char.ofNat 7, '\n', 'y']) (fun _ => rfl)
    ⟨sampleEmail_ok.headers, sampleEmail_ok.dates, sampleEmail_ok.contentType, sampleEmail_ok.charset, sampleEmail_ok.filename, by decide, sampleEmail_ok.eol⟩
  exact ⟨n, h1, h2 (c%"Sender", c%"From") (by decide)⟩

/-- Counterexample: with a local id, the element does not hold the id but a description of the built-in function `id`, and the integer field reads `None`. -/
theorem C59_counterexample_local_id (localId : Int) : ∃ n, fromEmail refEngine sampleLib sampleEmail (some localId) = .ok n ∧
    members (Cerp.q c%"LocalId") [] n = [leaf (Cerp.q c%"LocalId") c%"<built-in function id>"] ∧
    intToPython xpathNumber (some (.elem (leaf (Cerp.q c%"LocalId") c%"<built-in function id>"))) = .ok none := by
  refine ⟨_, C59_document refEngine_ok sampleLib sampleEmail (some localId) (stripControl ['x', Char.ofNat 7, '\n', 'y']) (fun _ => rfl)
    ⟨sampleEmail_ok.headers, sampleEmail_ok.dates, sampleEmail_ok.contentType, sampleEmail_ok.charset, sampleEmail_ok.filename, by decide, sampleEmail_ok.eol⟩, ?_, by decide⟩
  exact parts_members (by simp [messageParts])

/-- Counterexample: code points that XML does not allow can remain in the body; then the assignment raises. -/
theorem C58_counterexample_noncharacter : xmlOk (stripControl [Char.ofNat 0xFFFE]) = false ∧
    fromEmail refEngine sampleLib { sampleEmail with payload := .text [Char.ofNat 0xFFFE] } none = .error .valueError := by
  constructor
  · decide
  · decide +kernel

/-! ### C59 applied to the sample message -/

example := C59_document refEngine_ok sampleLib sampleEmail (some 5) ['x', '\n', 'y'] (fun _ => rfl) { sampleEmail_ok with text := by decide }
example := C59_header_lists refEngine_ok sampleLib sampleEmail (some 5) ['x', '\n', 'y'] (fun _ => rfl) { sampleEmail_ok with text := by decide }
example := C59_single_headers refEngine_ok sampleLib sampleEmail (some 5) ['x', '\n', 'y'] (fun _ => rfl) { sampleEmail_ok with text := by decide }

end Props
