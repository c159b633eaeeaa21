import Verif.Props.LeafRecord
import Verif.Domain.Bundled
/-
Property C72: the bundled classes are records.

Model: the field tables of Verif/Domain/Bundled.lean; `managerGet`, `managerSet`, `managerDelete` (Verif/XmlMap/Manager.lean).
Specification: the records of C69 and C71.
-/
namespace Props
open XPath Xml Spec Fields Bundled

/-! ### contexts -/

/-- All prefixes and variables of `ctx` have the same meaning in `ctx'`. -/
structure Extends (ctx ctx' : Ctx) : Prop where
  namespaces : ∀ nss, ctx.namespaces = some nss → ∃ nss', ctx'.namespaces = some nss' ∧ ∀ p u, nss.lookup p = some u → nss'.lookup p = some u
  vars : ∀ x v, ctx.vars.lookup x = some v → ctx'.vars.lookup x = some v

theorem resName_mono {ctx ctx' : Ctx} (h : Extends ctx ctx') {pfx nm q} (hq : resName ctx pfx nm = some q) : resName ctx' pfx nm = some q := by
  unfold resName at hq ⊢
  by_cases h1 : nm = c%"*"
  · rw [if_pos h1] at hq; cases hq
  · rw [if_neg h1] at hq ⊢
    match pfx, hq with
    | none, hq => exact hq
    | some [], hq => exact hq
    | some (c :: cs), hq =>
      simp only at hq ⊢
      cases hn : ctx.namespaces with
      | none => rw [hn] at hq; cases hq
      | some nss =>
        obtain ⟨nss', h2, h3⟩ := h.namespaces nss hn
        rw [hn] at hq
        rw [h2]
        simp only at hq ⊢
        cases hl : nss.lookup (c :: cs) with
        | none => rw [hl] at hq; cases hq
        | some u => rw [hl] at hq; rw [h3 _ _ hl]; exact hq

theorem resLit_mono {ctx ctx' : Ctx} (h : Extends ctx ctx') {e v} (hv : resLit ctx e = some v) : resLit ctx' e = some v := by
  unfold resLit at hv ⊢
  split at hv
  · exact hv
  · exact hv
  · rename_i nm
    cases hl : ctx.vars.lookup nm with
    | none => rw [hl] at hv; cases hv
    | some l => rw [hl] at hv; rw [h.vars _ _ hl]; exact hv
  · cases hv

mutual
theorem res_mono {ctx ctx' : Ctx} (h : Extends ctx ctx') : ∀ (e : Expr) {r}, res ctx e = some r → res ctx' e = some r
  | .step ax (.name pfx nm) ps, r, hr => by
    simp only [res] at hr ⊢
    by_cases h1 : ax = none ∨ ax = some c%"child"
    · rw [if_pos h1] at hr ⊢
      cases hq : resName ctx pfx nm with
      | none => rw [hq] at hr; cases hr
      | some q =>
        cases hl : resPreds ctx ps with
        | none => rw [hq, hl] at hr; cases hr
        | some l => rw [hq, hl] at hr; rw [resName_mono h hq, resPreds_mono h ps hl]; exact hr
    · rw [if_neg h1] at hr ⊢
      by_cases h2 : ax = some c%"@" ∨ ax = some c%"attribute"
      · rw [if_pos h2] at hr ⊢
        cases h3 : (ps.isEmpty && nm != c%"text") with
        | false => rw [h3] at hr; cases hr
        | true =>
          rw [h3] at hr
          simp only [if_true] at hr ⊢
          cases hq : resName ctx pfx nm with
          | none => rw [hq] at hr; cases hr
          | some q => rw [hq] at hr; rw [resName_mono h hq]; exact hr
      · rw [if_neg h2] at hr; cases hr
  | .step ax (.type nm lit) ps, r, hr => by simp only [res] at hr ⊢; exact hr
  | .binary l .slash r', r, hr => by
    simp only [res] at hr ⊢
    cases h1 : res ctx l with
    | none => rw [h1] at hr; cases hr
    | some x =>
      cases h2 : res ctx r' with
      | none => rw [h1, h2] at hr; obtain ⟨a, _ | b⟩ := x <;> cases hr
      | some y => rw [h1, h2] at hr; rw [res_mono h l h1, res_mono h r' h2]; exact hr
  | .binary l .eq r', r, hr => by
    simp only [res] at hr ⊢
    cases h1 : res ctx l with
    | none => rw [h1] at hr; cases hr
    | some x =>
      cases h2 : resLit ctx r' with
      | none => rw [h1, h2] at hr; obtain ⟨a, _ | b⟩ := x <;> cases hr
      | some y => rw [h1, h2] at hr; rw [res_mono h l h1, resLit_mono h h2]; exact hr
  | .binary _ .or _, _, hr | .binary _ .and _, _, hr | .binary _ .ne _, _, hr | .binary _ .lt _, _, hr | .binary _ .le _, _, hr
  | .binary _ .gt _, _, hr | .binary _ .ge _, _, hr | .binary _ .plus _, _, hr | .binary _ .minus _, _, hr | .binary _ .mult _, _, hr
  | .binary _ .div _, _, hr | .binary _ .mod _, _, hr | .binary _ .union _, _, hr | .binary _ .dslash _, _, hr
  | .lit _, _, hr | .int _, _, hr | .float _, _, hr | .neg _, _, hr | .pred _ _, _, hr | .root, _, hr | .abs _ _, _, hr | .abbrev _, _, hr
  | .var _ _, _, hr | .call _ _ _, _, hr => by simp [res] at hr
theorem resPreds_mono {ctx ctx' : Ctx} (h : Extends ctx ctx') : ∀ (es : List Expr) {r}, resPreds ctx es = some r → resPreds ctx' es = some r
  | [], r, hr => hr
  | e :: es, r, hr => by
    simp only [resPreds] at hr ⊢
    cases h1 : res ctx e with
    | none => rw [h1] at hr; cases hr
    | some x =>
      obtain ⟨p, cmp⟩ := x
      rw [h1] at hr
      rw [res_mono h e h1]
      simp only at hr ⊢
      cases h2 : toPred p cmp with
      | none => rw [h2] at hr; cases hr
      | some q =>
        cases h3 : resPreds ctx es with
        | none => rw [h2, h3] at hr; cases hr
        | some l => rw [h2, h3] at hr; rw [resPreds_mono h es h3]; exact hr
end

/-! ### `repr` -/

/-- A literal that is written without escapes where only ASCII is printable is written so everywhere. -/
theorem plainLit_mono (u : PyUnicode) {s : Str} (h : @plainLit asciiPrintable s = true) : @plainLit u s = true := by
  unfold plainLit at h ⊢
  rw [Bool.and_eq_true] at h ⊢
  refine ⟨?_, h.2⟩
  rw [List.all_eq_true] at h ⊢
  intro c hc
  have := h.1 c hc
  rw [Bool.and_eq_true] at this ⊢
  refine ⟨this.1, ?_⟩
  have h2 := this.2
  unfold isPrintable at h2 ⊢
  split_ifs at h2 ⊢
  exact h2

mutual
theorem lexSafe_mono (u : PyUnicode) : ∀ (e : Expr), @Expr.lexSafe asciiPrintable e = true → @Expr.lexSafe u e = true
  | .lit s, h => by simp only [Expr.lexSafe] at h ⊢; exact plainLit_mono u h
  | .int _, h => by simp only [Expr.lexSafe]
  | .float f, h => by simp only [Expr.lexSafe] at h ⊢; exact h
  | .neg e, h => by simp only [Expr.lexSafe] at h ⊢; exact lexSafe_mono u e h
  | .binary l op r, h => by
    simp only [Expr.lexSafe, Bool.and_eq_true] at h ⊢
    exact ⟨⟨lexSafe_mono u l h.1.1, lexSafe_mono u r h.1.2⟩, h.2⟩
  | .pred b ps, h => by
    simp only [Expr.lexSafe, Bool.and_eq_true] at h ⊢
    exact ⟨lexSafe_mono u b h.1, lexSafes_mono u ps h.2⟩
  | .root, h => by simp [Expr.lexSafe] at h
  | .abs _ r, h => by simp only [Expr.lexSafe] at h ⊢; exact lexSafe_mono u r h
  | .step ax t ps, h => by
    simp only [Expr.lexSafe, Bool.and_eq_true] at h ⊢
    exact ⟨h.1, lexSafes_mono u ps h.2⟩
  | .abbrev _, h => by simp only [Expr.lexSafe]
  | .var none nm, h => by simp only [Expr.lexSafe] at h ⊢; exact h
  | .var (some p) nm, h => by simp only [Expr.lexSafe] at h ⊢; exact h
  | .call none nm args, h => by
    simp only [Expr.lexSafe, Bool.and_eq_true] at h ⊢
    exact ⟨h.1, argsSafe_mono u args h.2⟩
  | .call (some p) nm args, h => by
    simp only [Expr.lexSafe, Bool.and_eq_true] at h ⊢
    exact ⟨h.1, argsSafe_mono u args h.2⟩
theorem lexSafes_mono (u : PyUnicode) : ∀ (es : List Expr), @Expr.lexSafes asciiPrintable es = true → @Expr.lexSafes u es = true
  | [], h => by simp only [Expr.lexSafes]
  | e :: es, h => by
    simp only [Expr.lexSafes, Bool.and_eq_true] at h ⊢
    exact ⟨lexSafe_mono u e h.1, lexSafes_mono u es h.2⟩
theorem argsSafe_mono (u : PyUnicode) : ∀ (es : List Expr), @Expr.argsSafe asciiPrintable es = true → @Expr.argsSafe u es = true
  | [], h => by simp only [Expr.argsSafe]
  | e :: es, h => by
    simp only [Expr.argsSafe, Bool.and_eq_true] at h ⊢
    exact ⟨lexSafe_mono u e h.1, argsTailSafe_mono u es h.2⟩
theorem argsTailSafe_mono (u : PyUnicode) : ∀ (es : List Expr), @Expr.argsTailSafe asciiPrintable es = true → @Expr.argsTailSafe u es = true
  | [], h => by simp only [Expr.argsTailSafe]
  | e :: es, h => by
    simp only [Expr.argsTailSafe, Bool.and_eq_true] at h ⊢
    exact ⟨⟨lexSafe_mono u e h.1.1, h.1.2⟩, argsTailSafe_mono u es h.2⟩
end

theorem canonical_mono (u : PyUnicode) {e : Expr} (h : @Expr.canonical asciiPrintable e = true) : @Expr.canonical u e = true := by
  unfold Expr.canonical at h ⊢
  rw [Bool.and_eq_true] at h ⊢
  exact ⟨h.1, lexSafe_mono u e h.2⟩

/-! ### the check -/

/-- The context of an object of the class with no other declarations. -/
def classCtx (c : ClassDecl) : Ctx := ⟨some c.namespaces, []⟩

/-- The simple path of an XPath, if it is one. -/
def simplePath (ctx : Ctx) (xp : Str) : Option (Expr × List Step) := match parse0 xp with
  | .ok e => match res ctx e with
    | some (p, none) => if @Expr.canonical asciiPrintable e && pathOk p then some (e, p) else none
    | _ => none
  | .error _ => none

theorem simplePath_ok [u : PyUnicode] {ctx ctx' : Ctx} (hx : Extends ctx ctx') {xp e p} (h : simplePath ctx xp = some (e, p)) : SimpleField ctx' xp e p := by
  unfold simplePath at h
  cases h1 : parse0 xp with
  | error _ => rw [h1] at h; cases h
  | ok e' =>
    rw [h1] at h
    simp only at h
    match h2 : res ctx e' with
    | none => rw [h2] at h; cases h
    | some (p', some v) => rw [h2] at h; cases h
    | some (p', none) =>
      rw [h2] at h
      simp only at h
      cases h3 : (@Expr.canonical asciiPrintable e' && pathOk p') with
      | false => rw [h3] at h; cases h
      | true =>
        rw [h3] at h
        simp only [if_true, Option.some.injEq, Prod.mk.injEq] at h
        obtain ⟨rfl, rfl⟩ := h
        rw [Bool.and_eq_true] at h3
        exact ⟨h1, res_mono hx _ h2, canonical_mono u h3.1, h3.2⟩

/-- Do the steps select different elements, because of their names or because they compare an attribute with different texts? -/
def apartB (q : QName) (ps : List Pred) (q' : QName) (ps' : List Pred) : Bool :=
  q != q' || ps.any (fun x => match x with
    | .attr t (some (.str v)) => ps'.any (fun y => match y with | .attr t' (some (.str w)) => t == t' && v != w | _ => false)
    | _ => false)

theorem apartB_ok {q ps q' ps'} (h : apartB q ps q' ps' = true) : Apart q ps q' ps' := by
  unfold apartB at h
  rw [Bool.or_eq_true] at h
  rcases h with h | h
  · exact C69_apart_names (by simpa using h) _ _
  · rw [List.any_eq_true] at h
    obtain ⟨x, hx, h⟩ := h
    match x, hx, h with
    | .attr t (some (.str v)), hx, h =>
      simp only [List.any_eq_true] at h
      obtain ⟨y, hy, h⟩ := h
      match y, hy, h with
      | .attr t' (some (.str w)), hy, h =>
        simp only [Bool.and_eq_true, beq_iff_eq, bne_iff_ne] at h
        obtain ⟨rfl, h⟩ := h
        exact C69_apart_predicates h hx hy

/-- The same attribute predicates. -/
def samePreds : List Pred → List Pred → Bool
  | [], [] => true
  | .attr q v :: l, .attr q' v' :: l' => q == q' && v == v' && samePreds l l'
  | _, _ => false

theorem samePreds_ok : ∀ {l l' : List Pred}, samePreds l l' = true → l = l'
  | [], [], _ => rfl
  | .attr q v :: l, .attr q' v' :: l', h => by
    simp only [samePreds, Bool.and_eq_true, beq_iff_eq] at h
    rw [h.1.1, h.1.2, samePreds_ok h.2]

/-- Do the paths part? -/
def partB : List Step → List Step → Bool
  | .child q ps :: r, .child q' ps' :: r' => apartB q ps q' ps' || (q == q' && samePreds ps ps' && partB r r')
  | .attr q :: _, .attr q' :: _ => q != q'
  | .child _ _ :: _, .attr _ :: _ => true
  | .attr _ :: _, .child _ _ :: _ => true
  | _, _ => false

theorem partB_ok : ∀ {p p' : List Step}, partB p p' = true → Part p p'
  | .child q ps :: r, .child q' ps' :: r', h => by
    simp only [partB, Bool.or_eq_true, Bool.and_eq_true, beq_iff_eq] at h
    rcases h with h | ⟨⟨h1, h2⟩, h3⟩
    · exact .inl (apartB_ok h)
    · exact .inr ⟨h1, samePreds_ok h2, partB_ok h3⟩
  | .attr q :: _, .attr q' :: _, h => by simpa [partB, Part] using h
  | .child _ _ :: _, .attr _ :: _, _ => trivial
  | .attr _ :: _, .child _ _ :: _, _ => trivial

/-- A field of a class as a field of a record, at a given path.  `number` is XPath's `number()`. -/
def declField (number : Str → XNum) (f : FieldDecl) (e : Expr) (p : List Step) : RField := match f.kind with
  | .str normalize => ⟨f.xpath, e, p, Option Str, strToXml, strToPython normalize⟩
  | .int => intField number f.xpath e p
  | .bool t fl => boolField t fl f.xpath e p

/-- The field in the class. -/
def fieldOf (number : Str → XNum) (c : ClassDecl) (f : FieldDecl) : RField :=
  declField number f (ast f.xpath) (steps (classCtx c) f.xpath)

/-- Is the field one for elements and attributes that C69 covers? -/
def recordable (c : ClassDecl) (f : FieldDecl) : Bool := match simplePath (classCtx c) f.xpath with
  | some (_, p) => attrPreds p && (match p.getLast? with | some .text => false | _ => true)
  | none => false

/-- Do the fields part? -/
def disjoint (c : ClassDecl) (f g : FieldDecl) : Bool := match simplePath (classCtx c) f.xpath, simplePath (classCtx c) g.xpath with
  | some (_, p), some (_, p') => partB p p'
  | _, _ => false

/-- Is the field one for the text or an attribute of the element itself, that C71 covers? -/
def leafLike (c : ClassDecl) (f : FieldDecl) : Bool := match simplePath (classCtx c) f.xpath with
  | some (_, [.text]) => true
  | some (_, [.attr _]) => true
  | _ => false

/-- Are the fields not for the same attribute, or both for the text? -/
def different (c : ClassDecl) (f g : FieldDecl) : Bool := match simplePath (classCtx c) f.xpath, simplePath (classCtx c) g.xpath with
  | some (_, [.attr q]), some (_, [.attr q']) => q != q'
  | some (_, [.text]), some (_, [.attr _]) => true
  | some (_, [.attr _]), some (_, [.text]) => true
  | _, _ => false

theorem simplePath_eq {ctx xp e p} (h : simplePath ctx xp = some (e, p)) : ast xp = e ∧ steps ctx xp = p := by
  unfold simplePath at h
  cases h1 : parse0 xp with
  | error _ => rw [h1] at h; cases h
  | ok e' =>
    rw [h1] at h
    simp only at h
    match h2 : res ctx e' with
    | none => rw [h2] at h; cases h
    | some (p', some v) => rw [h2] at h; cases h
    | some (p', none) =>
      rw [h2] at h
      simp only at h
      cases h3 : (@Expr.canonical asciiPrintable e' && pathOk p') with
      | false => rw [h3] at h; cases h
      | true =>
        rw [h3] at h
        simp only [if_true, Option.some.injEq, Prod.mk.injEq] at h
        obtain ⟨rfl, rfl⟩ := h
        have ha : ast xp = e' := by unfold ast; rw [h1]
        refine ⟨ha, ?_⟩
        unfold steps
        rw [ha]
        unfold resPath
        rw [h2]
        rfl

theorem declField_xp (number f e p) : (declField number f e p).xp = f.xpath ∧ (declField number f e p).e = e ∧ (declField number f e p).p = p := by
  unfold declField
  cases f.kind <;> exact ⟨rfl, rfl, rfl⟩

theorem recordable_ok [PyUnicode] (number) {c : ClassDecl} {f : FieldDecl} (h : recordable c f = true) {ctx' : Ctx} (hx : Extends (classCtx c) ctx') :
    (fieldOf number c f).Ok ctx' := by
  unfold recordable at h
  match hs : simplePath (classCtx c) f.xpath with
  | none => rw [hs] at h; cases h
  | some (e, p) =>
    rw [hs] at h
    simp only [Bool.and_eq_true] at h
    obtain ⟨h1, h2⟩ := simplePath_eq hs
    obtain ⟨k1, k2, k3⟩ := declField_xp number f (ast f.xpath) (steps (classCtx c) f.xpath)
    refine ⟨?_, ?_, ?_⟩
    · show SimpleField ctx' (declField _ _ _ _).xp (declField _ _ _ _).e (declField _ _ _ _).p
      rw [k1, k2, k3, h1, h2]
      exact simplePath_ok hx hs
    · show attrPreds (declField _ _ _ _).p = true
      rw [k3, h2]; exact h.1
    · show (declField _ _ _ _).p.getLast? ≠ some .text
      rw [k3, h2]
      intro ht
      rw [ht] at h
      exact absurd h.2 (by simp)

theorem disjoint_ok (number) {c : ClassDecl} {f g : FieldDecl} (h : disjoint c f g = true) : Part (fieldOf number c f).p (fieldOf number c g).p := by
  unfold disjoint at h
  match hs : simplePath (classCtx c) f.xpath, hs' : simplePath (classCtx c) g.xpath with
  | none, _ => rw [hs] at h; cases h
  | some (e, p), none => rw [hs, hs'] at h; cases h
  | some (e, p), some (e', p') =>
    rw [hs, hs'] at h
    show Part (declField _ _ _ _).p (declField _ _ _ _).p
    rw [(declField_xp _ _ _ _).2.2, (declField_xp _ _ _ _).2.2, (simplePath_eq hs).2, (simplePath_eq hs').2]
    exact partB_ok h

theorem leafLike_ok [PyUnicode] (number) {c : ClassDecl} {f : FieldDecl} (h : leafLike c f = true) {ctx' : Ctx} (hx : Extends (classCtx c) ctx') :
    LeafField ctx' (fieldOf number c f) := by
  unfold leafLike at h
  obtain ⟨k1, k2, k3⟩ := declField_xp number f (ast f.xpath) (steps (classCtx c) f.xpath)
  match hs : simplePath (classCtx c) f.xpath with
  | none => rw [hs] at h; cases h
  | some (e, p) =>
    rw [hs] at h
    obtain ⟨h1, h2⟩ := simplePath_eq hs
    refine ⟨?_, ?_⟩
    · show SimpleField ctx' (declField _ _ _ _).xp (declField _ _ _ _).e (declField _ _ _ _).p
      rw [k1, k2, k3, h1, h2]
      exact simplePath_ok hx hs
    · show (declField _ _ _ _).p = _ ∨ ∃ q, (declField _ _ _ _).p = _
      rw [k3, h2]
      match p, h with
      | [.text], _ => exact .inl rfl
      | [.attr q], _ => exact .inr ⟨q, rfl⟩

theorem different_ok (number) {c : ClassDecl} {f g : FieldDecl} (h : different c f g = true) : (fieldOf number c f).p ≠ (fieldOf number c g).p := by
  unfold different at h
  show (declField _ _ _ _).p ≠ (declField _ _ _ _).p
  rw [(declField_xp _ _ _ _).2.2, (declField_xp _ _ _ _).2.2]
  match hs : simplePath (classCtx c) f.xpath, hs' : simplePath (classCtx c) g.xpath with
  | none, _ => rw [hs] at h; cases h
  | some (e, p), none => rw [hs, hs'] at h; simp at h
  | some (e, p), some (e', p') =>
    rw [hs, hs'] at h
    rw [(simplePath_eq hs).2, (simplePath_eq hs').2]
    match p, p', h with
    | [.attr q], [.attr q'], h => simpa using h
    | [.text], [.attr _], _ => simp
    | [.attr _], [.text], _ => simp

/-! ### the theorems -/

/-- The pairs of fields of a bundled class that do interfere: one is for the element or attribute inside of the other's element. -/
def interfering : List (Str × Str × Str) := [
  (c%"mods.Role", c%"type", c%"text"),
  (c%"mods.Role", c%"authority", c%"text"),
  (c%"cerp._BaseMessage", c%"message_id", c%"message_id_supplied"),
  (c%"cerp.Message", c%"message_id", c%"message_id_supplied"),
  (c%"cerp.ChildMessage", c%"message_id", c%"message_id_supplied"),
  (c%"teimap.TeiDiv", c%"author", c%"docauthor")]

/-- The check of all classes. -/
def recordsOk : Bool := records.all (fun c => c.fields.all (fun f => recordable c f && c.fields.all (fun g => f.name == g.name || disjoint c f g ||
  interfering.contains (c.name, f.name, g.name) || interfering.contains (c.name, g.name, f.name))))

theorem recordsOk_true : recordsOk = true := by decide +kernel

def leavesOk : Bool := leaves.all (fun c => c.fields.all (fun f => leafLike c f && c.fields.all (fun g => f.name == g.name || different c f g)))

theorem leavesOk_true : leavesOk = true := by decide +kernel

/-- The listed pairs are not reported in vain: the paths do not part. -/
theorem C72_interfering_pairs : interfering.all (fun x => records.any (fun c => c.name == x.1 &&
    c.fields.any (fun f => f.name == x.2.1 && c.fields.any (fun g => g.name == x.2.2 && !disjoint c f g)))) = true := by decide +kernel

/-- A choice of fields of a class, without two that interfere. -/
structure Selection (c : ClassDecl) {ι : Type} (sel : ι → FieldDecl) : Prop where
  mem : ∀ i, sel i ∈ c.fields
  inj : ∀ i j, (sel i).name = (sel j).name → i = j
  apart : ∀ i j, (c.name, (sel i).name, (sel j).name) ∉ interfering

theorem selection_record {c : ClassDecl} (hc : c ∈ records) {ι : Type} {sel : ι → FieldDecl} (hs : Selection c sel) :
    (∀ i, recordable c (sel i) = true) ∧ ∀ i j, i ≠ j → disjoint c (sel i) (sel j) = true := by
  have h := recordsOk_true
  unfold recordsOk at h
  rw [List.all_eq_true] at h
  have h1 := h c hc
  rw [List.all_eq_true] at h1
  have h2 : ∀ i, _ := fun i => h1 (sel i) (hs.mem i)
  simp only [Bool.and_eq_true] at h2
  refine ⟨fun i => (h2 i).1, fun i j hij => ?_⟩
  have h3 := (h2 i).2
  rw [List.all_eq_true] at h3
  have h4 := h3 (sel j) (hs.mem j)
  simp only [Bool.or_eq_true, beq_iff_eq, List.contains_iff_mem] at h4
  rcases h4 with ((h4 | h4) | h4) | h4
  · exact absurd (hs.inj i j h4) hij
  · exact h4
  · exact absurd h4 (hs.apart i j)
  · exact absurd h4 (hs.apart j i)

section
variable [PyUnicode] {ι : Type} [DecidableEq ι]

/-- C72.  Take any class that comes with eulxml whose fields are child elements and attributes, any of its fields without two that interfere (the list
`interfering` is short), and an object of the class, in a context that declares at least the prefixes of the class.  Then the fields behave like a record:
every history of assignments and deletions runs without exception, changes nothing outside of the object's element, and afterwards every field reads the
value last assigned to it. -/
theorem C72_bundled_records (eng : Engine) (heng : EngineOk eng) (number : Str → XNum) (c : ClassDecl) (hc : c ∈ records) (ctx : Ctx)
    (hctx : Extends (classCtx c) ctx) (sel : ι → FieldDecl) (hsel : Selection c sel) (a : Node.Addr)
    (ops : List (ROp (fun i => fieldOf number c (sel i)))) (hops : ∀ op ∈ ops, op.Ok) (s n : Node) (hs : s.get a = some n)
    (ht : Tidy (fun i => fieldOf number c (sel i)) n) :
    ∃ n', runHistory eng ctx a ops s = (.ok (), s.modify a (fun _ => n')) ∧ Tidy (fun i => fieldOf number c (sel i)) n' ∧
      ∀ i, readAs (fieldOf number c (sel i)).toPython eng ctx (fieldOf number c (sel i)).xp (fieldOf number c (sel i)).e (.elem a) (s.modify a (fun _ => n'))
        = (List.foldl (ROp.replay (fs := fun i => fieldOf number c (sel i))) (readRec (fun i => fieldOf number c (sel i)) eng ctx a s) ops i,
            s.modify a (fun _ => n')) := by
  obtain ⟨h1, h2⟩ := selection_record hc hsel
  exact C69_record (fs := fun i => fieldOf number c (sel i)) eng heng ctx (fun i => recordable_ok number (h1 i) hctx)
    (fun i j hij => disjoint_ok number (h2 i j hij)) a ops hops s n hs ht

omit [DecidableEq ι] in
/-- C72.  A new object of the class has room for all of its fields. -/
theorem C72_new_object (number : Str → XNum) (c : ClassDecl) (hc : c ∈ records) (sel : ι → FieldDecl) (hsel : Selection c sel) (q : QName) :
    Tidy (fun i => fieldOf number c (sel i)) (Node.empty q) :=
  C69_new_element _ (classCtx c) (fun i => recordable_ok number ((selection_record hc hsel).1 i)
    ⟨fun nss h => ⟨nss, h, fun _ _ h => h⟩, fun _ _ h => h⟩) q

/-- C72.  The classes for elements with text. -/
theorem C72_bundled_leaves (eng : Engine) (heng : EngineOk eng) (number : Str → XNum) (c : ClassDecl) (hc : c ∈ leaves) (ctx : Ctx)
    (hctx : Extends (classCtx c) ctx) (sel : ι → FieldDecl) (hmem : ∀ i, sel i ∈ c.fields) (hinj : ∀ i j, (sel i).name = (sel j).name → i = j) (a : Node.Addr)
    (ops : List (ROp (fun i => fieldOf number c (sel i)))) (hops : ∀ op ∈ ops, op.Textual) (s n : Node) (hs : s.get a = some n) (hn : n.children = []) :
    ∃ n', runHistory eng ctx a ops s = (.ok (), s.modify a (fun _ => n')) ∧ n'.children = [] ∧ n'.tag = n.tag ∧ n'.tail = n.tail ∧
      ∀ i, readAs (fieldOf number c (sel i)).toPython eng ctx (fieldOf number c (sel i)).xp (fieldOf number c (sel i)).e (.elem a) (s.modify a (fun _ => n'))
        = ((fieldOf number c (sel i)).toPython ((List.foldl (ROp.replayText (fs := fun i => fieldOf number c (sel i)))
            (fun j => heldText (fieldOf number c (sel j)).p n) ops i).map .str), s.modify a (fun _ => n')) := by
  have h := leavesOk_true
  unfold leavesOk at h
  rw [List.all_eq_true] at h
  have h1 := h c hc
  rw [List.all_eq_true] at h1
  have h2 : ∀ i, _ := fun i => h1 (sel i) (hmem i)
  simp only [Bool.and_eq_true] at h2
  refine C71_text_and_attributes (fs := fun i => fieldOf number c (sel i)) eng heng ctx (fun i => leafLike_ok number (h2 i).1 hctx) ?_ a ops hops s n hs hn
  intro i j hij
  by_cases hne : i = j
  · exact hne
  · have h3 := (h2 i).2
    rw [List.all_eq_true] at h3
    have h4 := h3 (sel j) (hmem j)
    simp only [Bool.or_eq_true, beq_iff_eq] at h4
    rcases h4 with h4 | h4
    · exact hinj i j h4
    · exact absurd hij (different_ok number h4)

end

/-- C72.  The values that can be assigned: strings that XML can hold (for a field with `normalize` in an element: with normal white space), and `None` ... -/
theorem C72_keeps_string (number name normalize xp e p) (o : Option Str) (h : ∀ v, o = some v → xmlOk v = true ∧ (normalize = true → normSpace v = v)) :
    (declField number ⟨name, .str normalize, xp⟩ e p).Keeps o := by
  cases o with
  | none => exact ⟨none, rfl, rfl⟩
  | some v =>
    refine ⟨some v, rfl, (h v rfl).1, fun _ => rfl, fun _ m _ hm => ?_⟩
    show strToPython normalize (some (.elem m)) = .ok (some v)
    cases normalize with
    | false => simp [strToPython, hm]
    | true => simp [strToPython, hm, (h v rfl).2 rfl]

/-- ... integers (in an element up to 2^53), and `None` ... -/
theorem C72_keeps_integer (number : Str → XNum) (hnum : NumberOk number) (name xp e p) (o : Option Int)
    (h : ∀ n, o = some n → textual p = true ∨ n.natAbs ≤ 2 ^ 53) : (declField number ⟨name, .int, xp⟩ e p).Keeps o :=
  C69_keeps_integer number hnum xp e p o h

/-- ... and `True` and `False`. -/
theorem C72_keeps_boolean (number name) (t : Str) (f : Option Str) (ht : xmlOk t = true) (hf : ∀ x, f = some x → xmlOk x = true ∧ x ≠ t) (xp e p) (b : Bool) :
    (declField number ⟨name, .bool t f, xp⟩ e p).Keeps (some b) :=
  C69_keeps_boolean t f ht hf xp e p b

/-! ### an example, and limits -/

/-- All ten fields of `premis.Event`. -/
theorem eventSelection : Selection premis_Event (fun i : Fin 10 => premis_Event.fields[i]'(by exact i.2)) where
  mem := fun i => List.getElem_mem _
  inj := by decide +kernel
  apart := by decide +kernel

/-- A history on a new event, in a document that declares further prefixes. -/
example (number : Str → XNum) : ∃ s', runHistory (fs := fun i : Fin 10 => fieldOf number premis_Event (premis_Event.fields[i]'(by exact i.2))) refEngine
      ⟨some (premisNs ++ [(c%"x", c%"urn:x")]), []⟩ [] [.set 2 (some c%"E1" : Option Str), .set 0 (some c%"fixity" : Option Str), .delete 2,
        .set 1 (some c%"local" : Option Str), .set 2 (some c%"E2" : Option Str)] (Node.empty ⟨none, c%"event"⟩) = (.ok (), s') ∧
    (readAs (fieldOf number premis_Event premis_Event.fields[2]).toPython refEngine ⟨some (premisNs ++ [(c%"x", c%"urn:x")]), []⟩
      (fieldOf number premis_Event premis_Event.fields[2]).xp (fieldOf number premis_Event premis_Event.fields[2]).e (.elem []) s').1
      = .ok (some c%"E2" : Option Str) := by
  obtain ⟨n', h1, -, h3⟩ := C72_bundled_records refEngine refEngine_ok number premis_Event (by simp [records]) ⟨some (premisNs ++ [(c%"x", c%"urn:x")]), []⟩
    ⟨fun nss h => ⟨_, rfl, fun p u hp => by
        have : nss = premisNs := by simpa [classCtx, premis_Event] using h.symm
        subst this
        rw [List.lookup_append, hp]; rfl⟩, fun x v h => by simp [classCtx] at h⟩
    _ eventSelection [] [.set 2 (some c%"E1" : Option Str), .set 0 (some c%"fixity" : Option Str), .delete 2,
        .set 1 (some c%"local" : Option Str), .set 2 (some c%"E2" : Option Str)]
    (by
      intro op hop
      simp only [List.mem_cons, List.not_mem_nil, or_false] at hop
      rcases hop with rfl | rfl | rfl | rfl | rfl
      · exact C72_keeps_string number _ false _ _ _ _ (fun v hv => by cases hv; exact ⟨by decide, by simp⟩)
      · exact C72_keeps_string number _ false _ _ _ _ (fun v hv => by cases hv; exact ⟨by decide, by simp⟩)
      · trivial
      · exact C72_keeps_string number _ false _ _ _ _ (fun v hv => by cases hv; exact ⟨by decide, by simp⟩)
      · exact C72_keeps_string number _ false _ _ _ _ (fun v hv => by cases hv; exact ⟨by decide, by simp⟩))
    (Node.empty ⟨none, c%"event"⟩) (Node.empty ⟨none, c%"event"⟩) rfl (C72_new_object number premis_Event (by simp [records]) _ eventSelection _)
  exact ⟨_, h1, congrArg Prod.fst (h3 2)⟩

/-- Fields that interfere: assigning to `message_id_supplied` of a new CERP message makes `message_id` read the empty string instead of `None`. -/
theorem C72_counterexample_message_id :
    let ctx := classCtx cerp_Message
    let r := managerSet refEngine ctx (.ok (some (.str c%"1"))) c%"xm:MessageId/@Supplied" (ast c%"xm:MessageId/@Supplied") (.elem []) bare
    (readStr refEngine ctx c%"xm:MessageId" (ast c%"xm:MessageId") (.elem []) bare).1 = .ok none ∧ r.1 = .ok () ∧
    (readStr refEngine ctx c%"xm:MessageId" (ast c%"xm:MessageId") (.elem []) r.2).1 = .ok (some []) := by decide +kernel

/-- And assigning to `author` of a TEI div changes what `docauthor` reads, and then `docauthor` refuses assignments. -/
theorem C72_counterexample_author :
    let ctx := classCtx teimap_TeiDiv
    let r := writeStr refEngine ctx c%"A" c%"tei:docAuthor/tei:name/tei:choice/tei:sic" (ast c%"tei:docAuthor/tei:name/tei:choice/tei:sic") (.elem []) bare
    let r' := writeStr refEngine ctx c%"B" c%"tei:docAuthor" (ast c%"tei:docAuthor") (.elem []) r.2
    (readStr refEngine ctx c%"tei:docAuthor" (ast c%"tei:docAuthor") (.elem []) bare).1 = .ok none ∧ r.1 = .ok () ∧
    (readStr refEngine ctx c%"tei:docAuthor" (ast c%"tei:docAuthor") (.elem []) r.2).1 = .ok (some c%"A") ∧ r'.1.isOk = false := by decide +kernel

end Props
