import Verif.Spec.Found
import Verif.Props.Computed
import Verif.Props.ListField
import Verif.Props.FieldDelete
/-
Property C120: assigning to a field that has found something, with any XPath.

Model: `managerSet` (Verif/XmlMap/Manager.lean), `listSet` (Verif/XmlMap/NodeList.lean), `setInXml` and `findTerminalStep` (Verif/XmlMap/Fields.lean).  Specification: Verif/Spec/Found.lean.
-/
namespace Props
open XPath Xml Spec Fields

section
variable [PyUnicode] {eng : Engine} {ctx : Ctx} {xp : Str} {e : Expr} {a : Node.Addr} {s : Node}

omit [PyUnicode] in
theorem endsIn_iff {ax : Option Str} {t : NodeTest} : ∀ {e : Expr}, EndsIn e ax t ↔ findTerminalStep e = some (ax, t) := by
  intro e
  constructor
  · intro h
    induction h with
    | step ax t ps => rfl
    | slash l _ ih => rw [findTerminalStep]; exact ih
    | dslash l _ ih => rw [findTerminalStep]; exact ih
  · intro h
    induction e using findTerminalStep.induct with
    | case1 ax' t' ps =>
      rw [findTerminalStep] at h
      injection h with h
      injection h with h1 h2
      subst h1 h2
      exact .step _ _ _
    | case2 l r ih => rw [findTerminalStep] at h; exact .slash l (ih h)
    | case3 l r ih => rw [findTerminalStep] at h; exact .dslash l (ih h)
    | case4 e h1 h2 h3 =>
      rw [findTerminalStep] at h
      · cases h
      · exact h1
      · exact h2
      · exact h3

omit [PyUnicode] in
theorem resName_loc {pfx : Option Str} {nm : Str} {q : QName} (h : resName ctx pfx nm = some q) : attrName ctx pfx nm = (q, true) ∧ q.loc = nm ∧ nm ≠ c%"*" := by
  obtain ⟨h1, h2, h3⟩ := resName_attr h
  exact ⟨h1, h3, by rw [← h3]; exact h2⟩

theorem setInXml_assigned (t : Str) {r : Ref} (hfit : FitsStep ctx e r) (hsane : Sane r) {m : Node} (hm : s.get r.addr = some m) :
    (∃ s', Assigned ctx e t s r s' ∧ xmlOk t = true ∧ setInXml ctx (.ref r) (some t) (findTerminalStep e) s = (.ok (), s')) ∨
    ((xmlOk t = false ∨ ∀ s', ¬ Assigned ctx e t s r s') ∧ ∃ er, setInXml ctx (.ref r) (some t) (findTerminalStep e) s = (.error er, s)) := by
  cases r with
  | elem b =>
    have hm : s.get b = some m := hm
    have hn : nodeAt b s = (.ok m, s) := by unfold nodeAt; rw [hm]
    have hrun : setInXml ctx (.ref (.elem b)) (some t) (findTerminalStep e) s = (if m.children = [] then setElemText b (some t) else raise .exception) s := by
      unfold setInXml
      exact bind_ok hn
    rw [hrun]
    by_cases hc : m.children = []
    · rw [if_pos hc]
      cases hx : xmlOk t with
      | true => exact .inl ⟨_, .elem b m hm hc, rfl, by unfold setElemText; rw [if_neg (by simp [hx])]; rfl⟩
      | false => exact .inr ⟨.inl rfl, .valueError, by unfold setElemText; rw [if_pos (by simp [hx])]; rfl⟩
    · rw [if_neg hc]
      refine .inr ⟨.inr ?_, .exception, rfl⟩
      rintro s' (⟨_, m', h1, h2⟩ | _ | _)
      rw [hm] at h1
      cases h1
      exact hc h2
  | attr b q =>
    cases hT : findTerminalStep e with
    | none =>
      refine .inr ⟨.inr ?_, .attributeError, rfl⟩
      rintro s' (_ | ⟨_, _, ax, pfx, nm, h1, -⟩ | _)
      rw [endsIn_iff, hT] at h1
      cases h1
    | some T =>
      obtain ⟨ax, T⟩ := T
      cases T with
      | name pfx nm =>
        obtain ⟨b', hb⟩ | ⟨b', q', hb, hq⟩ := hfit.name ax pfx nm (endsIn_iff.2 hT)
        · cases hb
        cases hb
        by_cases hstar : nm = c%"*"
        · refine .inr ⟨.inr ?_, .valueError, ?_⟩
          · rintro s' (_ | ⟨_, _, ax, pfx, nm', h1, h2⟩ | _)
            rw [endsIn_iff, hT] at h1
            cases h1
            exact (resName_loc h2).2.2 hstar
          · subst hstar
            unfold setInXml
            have hn : isTextTest (some (ax, NodeTest.name pfx c%"*")) = false := rfl
            simp only [hn, Bool.false_eq_true, if_false]
            have hl : (attrName ctx pfx c%"*").1.loc = c%"*" := by
              unfold attrName
              split
              · rfl
              · split
                · split <;> rfl
                · rfl
            unfold setAttrib
            simp only [hl, if_true]
            rfl
        · have hq := hq hstar
          obtain ⟨k1, k2, k3⟩ := resName_loc hq
          have hnt : nm ≠ c%"text" := by rw [← k2]; exact hsane
          have hn : isTextTest (some (ax, NodeTest.name pfx nm)) = false := by simp [isTextTest, hnt]
          have hrun : setInXml ctx (.ref (.attr b q)) (some t) (some (ax, .name pfx nm)) s = setAttrib b q (some t) s := by
            unfold setInXml
            simp only [hn, Bool.false_eq_true, if_false, k1]
            rfl
          rw [hrun]
          simp only [setAttrib]
          rw [if_neg (by rw [k2]; exact k3)]
          cases hx : xmlOk t with
          | true => exact .inl ⟨_, .attr b q ax pfx nm (endsIn_iff.2 hT) hq, rfl, by rw [if_neg (by simp)]; rfl⟩
          | false => exact .inr ⟨.inl rfl, .valueError, by rw [if_pos rfl]; rfl⟩
      | type nm lit =>
        refine .inr ⟨.inr ?_, .attributeError, ?_⟩
        · rintro s' (_ | ⟨_, _, ax, pfx, nm', h1, -⟩ | _)
          rw [endsIn_iff, hT] at h1
          cases h1
        · have hn : isTextTest (some (ax, NodeTest.type nm lit)) = false := by
            simp only [isTextTest]
            by_cases hx : nm = c%"text"
            · subst hx
              obtain ⟨b', hb⟩ | ⟨b', hb⟩ := hfit.text ax lit (endsIn_iff.2 hT)
              · cases hb
              · cases hb
            · simpa using hx
          unfold setInXml
          simp only [hn, Bool.false_eq_true, if_false]
          rfl
  | text b =>
    cases hT : findTerminalStep e with
    | none =>
      refine .inr ⟨.inr ?_, .attributeError, rfl⟩
      rintro s' (_ | _ | ⟨_, ax, lit, h1⟩)
      rw [endsIn_iff, hT] at h1
      cases h1
    | some T =>
      obtain ⟨ax, T⟩ := T
      cases T with
      | name pfx nm =>
        obtain ⟨b', hb⟩ | ⟨b', q', hb, hq⟩ := hfit.name ax pfx nm (endsIn_iff.2 hT)
        · cases hb
        · cases hb
      | type nm lit =>
        by_cases hx : nm = c%"text"
        · subst hx
          have hrun : setInXml ctx (.ref (.text b)) (some t) (some (ax, .type c%"text" lit)) s = setElemText b (some t) s := by
            unfold setInXml
            simp only [show isTextTest (some (ax, NodeTest.type c%"text" lit)) = true from rfl, if_true]
            rfl
          rw [hrun]
          cases hx : xmlOk t with
          | true => exact .inl ⟨_, .text b ax lit (endsIn_iff.2 hT), rfl, by unfold setElemText; rw [if_neg (by simp [hx])]; rfl⟩
          | false => exact .inr ⟨.inl rfl, .valueError, by unfold setElemText; rw [if_pos (by simp [hx])]; rfl⟩
        · refine .inr ⟨.inr ?_, .attributeError, ?_⟩
          · rintro s' (_ | _ | ⟨_, ax, lit, h1⟩)
            rw [endsIn_iff, hT] at h1
            cases h1
            exact hx rfl
          · unfold setInXml
            simp only [show isTextTest (some (ax, NodeTest.type nm lit)) = false by simpa [isTextTest] using hx, Bool.false_eq_true, if_false]
            rfl
  | tail b => exact hsane.elim

/-- C120.  Assigning a text to a single-value field whose XPath, whatever it is, selects something: the first selected node gets the text, and nothing else changes; this works for elements without children, and
for attributes and texts if the last step of the XPath names them, and if XML allows the text.  In all other cases an exception is raised and nothing changes. -/
theorem C120_assign (t : Str) {r : Ref} {rs : List Ref} (hsel : eng.xpath xp s a ctx = .ok (.nodes (r :: rs))) (hfit : FitsStep ctx e r) (hsane : Sane r) {m : Node} (hm : s.get r.addr = some m) :
    (∃ s', Assigned ctx e t s r s' ∧ xmlOk t = true ∧ managerSet eng ctx (.ok (some (.str t))) xp e (.elem a) s = (.ok (), s')) ∨
    ((xmlOk t = false ∨ ∀ s', ¬ Assigned ctx e t s r s') ∧ ∃ er, managerSet eng ctx (.ok (some (.str t))) xp e (.elem a) s = (.error er, s)) := by
  have hrun : managerSet eng ctx (.ok (some (.str t))) xp e (.elem a) s = setInXml ctx (.ref r) (some t) (findTerminalStep e) s := by
    unfold managerSet
    rw [bind_ok (show ofExcept (.ok (some (.str t))) s = (.ok (some (XValue.str t)), s) from rfl), bind_ok (findNode_value hsel)]
    rfl
  rw [hrun]
  exact setInXml_assigned t hfit hsane hm

/-- C120.  The same for `obj.list[key] = value`, with the selected node that has this index, from the front or from the back. -/
theorem C120_item {α : Type} (toXml : α → Except PyErr (Option Str)) (v : α) (t : Str) (hv : toXml v = .ok (some t)) (key : Int) {rs : List Ref} {r : Ref} (hsel : eng.xpath xp s a ctx = .ok (.nodes rs))
    (hkey : pyGet rs key = .ok r) (hfit : FitsStep ctx e r) (hsane : Sane r) {m : Node} (hm : s.get r.addr = some m) :
    (∃ s', Assigned ctx e t s r s' ∧ xmlOk t = true ∧ listSet eng ctx (storeText ctx toXml e) xp e (.elem a) key v s = (.ok (), s')) ∨
    ((xmlOk t = false ∨ ∀ s', ¬ Assigned ctx e t s r s') ∧ ∃ er, listSet eng ctx (storeText ctx toXml e) xp e (.elem a) key v s = (.error er, s)) := by
  have hms : listMatches eng ctx xp (.elem a) s = (.ok rs, s) := by
    unfold listMatches
    rw [bind_ok (show evalXPath eng ctx xp (.elem a) s = (.ok (.nodes rs), s) from by show (eng.xpath xp s a ctx, s) = _; rw [hsel])]
    rfl
  have hlt : key < rs.length := by
    rw [pyGet_pos] at hkey
    unfold pos at hkey
    split_ifs at hkey <;> first | omega | cases hkey
  have hrun : listSet eng ctx (storeText ctx toXml e) xp e (.elem a) key v s = setInXml ctx (.ref r) (some t) (findTerminalStep e) s := by
    unfold listSet
    rw [bind_ok hms, if_neg (by omega), if_neg (by omega), bind_ok (show ofExcept (pyGet rs key) s = (.ok r, s) by rw [hkey]; rfl)]
    unfold storeText
    rw [bind_ok (show ofExcept (toXml v) s = (.ok (some t), s) by rw [hv]; rfl)]
  rw [hrun]
  exact setInXml_assigned t hfit hsane hm

/-- What the field finds after the assignment. -/
theorem assigned_item (t : Str) {r : Ref} {s' : Node} {m : Node} (hm : s.get r.addr = some m) (h : Assigned ctx e t s r s') :
    (∃ b m', r = .elem b ∧ itemOf s' (.ref r) = some (.elem m') ∧ m'.strVal = t) ∨ ((∀ b, r ≠ .elem b) ∧ itemOf s' (.ref r) = some (.str t)) := by
  cases h with
  | elem b m' h1 h2 =>
    refine .inl ⟨b, m'.setText (some t), rfl, ?_, ?_⟩
    · show ((s.modify b (Node.setText (some t))).get b).map _ = _
      rw [Node.get_modify, h1]; rfl
    · cases m'
      simp only [Node.children] at h2
      subst h2
      simp [Node.setText, Node.strVal, Node.strValL]
  | attr b q ax pfx nm h1 h2 =>
    have hm : s.get b = some m := hm
    refine .inr ⟨fun _ => by simp, ?_⟩
    show (((s.modify b (Node.setAttr q t)).get b).bind _).map _ = _
    rw [Node.get_modify, hm]
    simp [Node.attr?_setAttr]
  | text b ax lit h1 =>
    have hm : s.get b = some m := hm
    refine .inr ⟨fun _ => by simp, ?_⟩
    show (((s.modify b (Node.setText (some t))).get b).bind _).map _ = _
    rw [Node.get_modify, hm]
    cases m; rfl

theorem readAs_found {α : Type} (conv : Option Item → Except PyErr α) {r : Ref} {rs : List Ref} (hsel : eng.xpath xp s a ctx = .ok (.nodes (r :: rs))) :
    readAs conv eng ctx xp e (.elem a) s = (conv (itemOf s (.ref r)), s) := by
  unfold readAs managerGet
  rw [bind_ok (findNode_value hsel), if_neg (by simp), bind_ok (show getDoc s = (.ok s, s) from rfl), ofExcept_eq]
  rfl

/-- C120.  A `StringField` then reads the text, provided that the XPath still selects this node first. -/
theorem C120_reads (t : Str) {r : Ref} {rs : List Ref} {s' : Node} {m : Node} (hm : s.get r.addr = some m) (h : Assigned ctx e t s r s') (hsel : eng.xpath xp s' a ctx = .ok (.nodes (r :: rs))) :
    readAs (strToPython false) eng ctx xp e (.elem a) s' = (.ok (some t), s') := by
  rw [readAs_found _ hsel]
  rcases assigned_item t hm h with ⟨b, m', -, h2, h3⟩ | ⟨-, h2⟩
  · rw [h2]
    simp only [strToPython, h3]
    rfl
  · rw [h2]; rfl

/-- C120.  An `IntegerField` to which `n` has been assigned then reads `n`, provided that the XPath still selects this node first; for elements up to 2^53, as in C31. -/
theorem C120_reads_integer (number : Str → XNum) (hnum : NumberOk number) (n : Int) {r : Ref} {rs : List Ref} {s' : Node} {m : Node} (hm : s.get r.addr = some m)
    (h : Assigned ctx e (intStr n) s r s') (hn : (∀ b, r ≠ .elem b) ∨ n.natAbs ≤ 2 ^ 53) (hsel : eng.xpath xp s' a ctx = .ok (.nodes (r :: rs))) :
    readAs (intToPython number) eng ctx xp e (.elem a) s' = (.ok (some n), s') := by
  rw [readAs_found _ hsel]
  rcases assigned_item _ hm h with ⟨b, m', h1, h2, h3⟩ | ⟨-, h2⟩
  · have hb : n.natAbs ≤ 2 ^ 53 := hn.resolve_left (fun h => h b h1)
    rw [h2]
    simp only [intToPython, h3, hnum.exact n hb, intOfNum, Nat.pow_zero, Nat.div_one, decide_eq_true_eq, orNone]
    congr 3
    split_ifs <;> omega
  · rw [h2]
    simp only [intToPython, pyInt_intStr, orNone]

/-- C120.  The exceptions: an element with children raises `Exception`, text that XML does not allow `ValueError`, `@*` `ValueError`, and an attribute or text that the last step does not name (for an
absolute path, a union, `node()`, an expression in parentheses with predicates) `AttributeError`. -/
theorem C120_exceptions (t : Str) {r : Ref} {rs : List Ref} (hsel : eng.xpath xp s a ctx = .ok (.nodes (r :: rs))) {m : Node} (hm : s.get r.addr = some m) :
    (∀ b, r = .elem b → m.children ≠ [] → managerSet eng ctx (.ok (some (.str t))) xp e (.elem a) s = (.error .exception, s)) ∧
    (∀ b, r = .elem b → m.children = [] → xmlOk t = false → managerSet eng ctx (.ok (some (.str t))) xp e (.elem a) s = (.error .valueError, s)) ∧
    (∀ b q ax pfx, r = .attr b q → EndsIn e ax (.name pfx c%"*") → managerSet eng ctx (.ok (some (.str t))) xp e (.elem a) s = (.error .valueError, s)) ∧
    ((∀ b, r ≠ .elem b) → (∀ ax pfx nm, ¬ EndsIn e ax (.name pfx nm)) → (∀ ax lit, ¬ EndsIn e ax (.type c%"text" lit)) →
      managerSet eng ctx (.ok (some (.str t))) xp e (.elem a) s = (.error .attributeError, s)) := by
  have hrun : managerSet eng ctx (.ok (some (.str t))) xp e (.elem a) s = setInXml ctx (.ref r) (some t) (findTerminalStep e) s := by
    unfold managerSet
    rw [bind_ok (show ofExcept (.ok (some (.str t))) s = (.ok (some (XValue.str t)), s) from rfl), bind_ok (findNode_value hsel)]
    rfl
  rw [hrun]
  refine ⟨?_, ?_, ?_, ?_⟩
  · rintro b rfl hc
    have hrun : setInXml ctx (.ref (.elem b)) (some t) (findTerminalStep e) s = (if m.children = [] then setElemText b (some t) else raise .exception) s := by
      unfold setInXml
      exact bind_ok (nodeAt_run (show s.get b = some m from hm))
    rw [hrun, if_neg hc]
    rfl
  · rintro b rfl hc hx
    have hrun : setInXml ctx (.ref (.elem b)) (some t) (findTerminalStep e) s = (if m.children = [] then setElemText b (some t) else raise .exception) s := by
      unfold setInXml
      exact bind_ok (nodeAt_run (show s.get b = some m from hm))
    rw [hrun, if_pos hc]
    unfold setElemText
    rw [if_pos (by simp [hx])]
    rfl
  · rintro b q ax pfx rfl hend
    rw [endsIn_iff.1 hend]
    unfold setInXml
    have hn : isTextTest (some (ax, NodeTest.name pfx c%"*")) = false := rfl
    simp only [hn, Bool.false_eq_true, if_false]
    have hl : (attrName ctx pfx c%"*").1.loc = c%"*" := by
      unfold attrName
      split
      · rfl
      · split
        · split <;> rfl
        · rfl
    unfold setAttrib
    simp only [hl, if_true]
    rfl
  · intro hne hname htext
    have hsome : ∀ ax pfx nm, findTerminalStep e ≠ some (ax, .name pfx nm) := fun ax pfx nm h => hname ax pfx nm (endsIn_iff.2 h)
    have hty : ∀ ax lit, findTerminalStep e ≠ some (ax, .type c%"text" lit) := fun ax lit h => htext ax lit (endsIn_iff.2 h)
    have hno : isTextTest (findTerminalStep e) = false := by
      cases hT : findTerminalStep e with
      | none => rfl
      | some T =>
        obtain ⟨ax, T⟩ := T
        cases T with
        | name pfx nm => exact absurd hT (hsome ax pfx nm)
        | type nm lit =>
          simp only [isTextTest, beq_eq_false_iff_ne]
          rintro rfl
          exact hty ax lit hT
    cases r with
    | elem b => exact absurd rfl (hne b)
    | _ =>
      unfold setInXml
      simp only [hno, Bool.false_eq_true, if_false]
      cases hT : findTerminalStep e with
      | none => rfl
      | some T =>
        obtain ⟨ax, T⟩ := T
        cases T with
        | name pfx nm => exact absurd hT (hsome ax pfx nm)
        | type nm lit => rfl

end

/-! ### an example

`.//a[@b][last()]/@b` on a document with such elements at two depths: the engine answers with the attribute of the last one. -/

def lastXPath : Str := c%".//a[@b][last()]/@b"
def lastDoc : Node := bare.withChildren [Node.empty ⟨none, c%"x"⟩, (Node.empty ⟨none, c%"y"⟩).withChildren [(Node.empty ⟨none, c%"a"⟩).setAttr ⟨none, c%"b"⟩ c%"old"]]
def lastEngine : Engine := ⟨fun _ _ _ _ => .ok (.nodes [.attr [1, 0] ⟨none, c%"b"⟩])⟩

theorem last_ends : EndsIn (ast lastXPath) (some c%"@") (.name none c%"b") := endsIn_iff.2 (by decide +kernel)

theorem last_fits : FitsStep sampleCtx (ast lastXPath) (.attr [1, 0] ⟨none, c%"b"⟩) where
  name := by
    intro ax pfx nm h
    have h := endsIn_iff.1 h
    rw [endsIn_iff.1 last_ends] at h
    cases h
    exact .inr ⟨_, _, rfl, fun _ => by rfl⟩
  text := by
    intro ax lit h
    have h := endsIn_iff.1 h
    rw [endsIn_iff.1 last_ends] at h
    cases h

/-- The attribute gets the value, and the field reads it. -/
example : ∃ s', s' = bare.withChildren [Node.empty ⟨none, c%"x"⟩, (Node.empty ⟨none, c%"y"⟩).withChildren [(Node.empty ⟨none, c%"a"⟩).setAttr ⟨none, c%"b"⟩ c%"new"]] ∧
    managerSet lastEngine sampleCtx (.ok (some (.str c%"new"))) lastXPath (ast lastXPath) (.elem []) lastDoc = (.ok (), s') ∧
    readAs (strToPython false) lastEngine sampleCtx lastXPath (ast lastXPath) (.elem []) s' = (.ok (some c%"new"), s') := by
  have hA : Assigned sampleCtx (ast lastXPath) c%"new" lastDoc (.attr [1, 0] ⟨none, c%"b"⟩) (lastDoc.modify [1, 0] (Node.setAttr ⟨none, c%"b"⟩ c%"new")) :=
    .attr _ _ _ _ _ last_ends (by rfl)
  rcases C120_assign (eng := lastEngine) (ctx := sampleCtx) (xp := lastXPath) (e := ast lastXPath) (a := []) (s := lastDoc) c%"new" rfl last_fits (by decide : c%"b" ≠ c%"text") rfl with
    ⟨s', h1, -, h3⟩ | ⟨h1 | h1, -⟩
  · have e1 : s' = lastDoc.modify [1, 0] (Node.setAttr ⟨none, c%"b"⟩ c%"new") := by cases h1; rfl
    exact ⟨s', by rw [e1]; decide +kernel, h3, C120_reads (s := lastDoc) c%"new" rfl h1 rfl⟩
  · exact absurd h1 (by decide)
  · exact absurd hA (h1 _)

/-- Counterexample: an attribute that an absolute path selects cannot be assigned. -/
theorem C120_counterexample_absolute (s : Node) (a b : Node.Addr) (eng : Engine) (h : eng.xpath c%"//a/@b" s a sampleCtx = .ok (.nodes [.attr b ⟨none, c%"b"⟩])) (t : Str) :
    managerSet eng sampleCtx (.ok (some (.str t))) c%"//a/@b" (ast c%"//a/@b") (.elem a) s = (.error .attributeError, s) := by
  unfold managerSet
  rw [bind_ok (show ofExcept (.ok (some (.str t))) s = (.ok (some (XValue.str t)), s) from rfl), bind_ok (findNode_value h)]
  have hT : findTerminalStep (ast c%"//a/@b") = none := by decide +kernel
  rw [hT]
  rfl

end Props
