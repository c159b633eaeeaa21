import Verif.Domain.Tei
import Verif.Domain.Ead
import Verif.Domain.Mods
import Verif.Domain.Premis
import Verif.Spec.UnionPath
import Verif.Props.TypedField
import Verif.Props.Cerp
import Mathlib.Tactic.ByContra
/-
Properties C60 (TEI indentation), C61 (EAD series), C62 (EAD short titles), C63 (MODS emptiness), C64 (PREMIS version).

Models: Verif/Domain/{Reads,Tei,Ead,Mods,Premis}.lean.
-/
namespace Props
open XPath Xml Spec Fields

/-! ### reading -/

/-- The string value of the first child of a name. -/
def childText (q : QName) (n : Node) : Option Str := (n.children.find? (Node.isElem q)).map Node.strVal

theorem members_eq (q : QName) (n : Node) : members q [] n = n.children.filter (Node.isElem q) := by
  unfold members
  congr 1
  funext c
  simp [isMember, satAll]

section
variable [PyUnicode] {eng : Engine}

theorem getStr_child (heng : EngineOk eng) {ctx : Ctx} {xp : Str} {q : QName} (hf : SimpleField ctx xp (Domain.xast xp) [.child q []]) {a s n} (hs : Node.get a s = some n) :
    Domain.getStr eng ctx xp a s = (.ok (childText q n), s) := by
  have h := C20_reads_first_match eng heng ctx xp _ _ hf a s n hs
  rw [first_member (members_eq q n), List.head?_filter] at h
  exact h

theorem getStr_attr (heng : EngineOk eng) {ctx : Ctx} {xp : Str} {q : QName} (hf : SimpleField ctx xp (Domain.xast xp) [.attr q]) {a s n} (hs : Node.get a s = some n) :
    Domain.getStr eng ctx xp a s = (.ok (n.attr? q), s) := by
  have h := C20_reads_first_match eng heng ctx xp _ _ hf a s n hs
  have e : ((Step.matches [.attr q] n).head?.bind (fun x => refText n x)) = n.attr? q := by
    simp only [Step.matches, List.isEmpty_nil, Bool.true_and]
    cases hq : n.attr? q with
    | none => rfl
    | some v => simp [refText, Node.get, hq]
  rw [e] at h
  exact h

theorem getNode_run (heng : EngineOk eng) {ctx : Ctx} {xp : Str} {q : QName} (hf : SimpleField ctx xp (Domain.xast xp) [.child q []]) {a s n} (hs : Node.get a s = some n) :
    Domain.getNode eng ctx xp a s = (.ok ((idxs (Node.isElem q) n.children).head?.map (fun i => a ++ [i])), s) := by
  have e : isMember q [] = Node.isElem q := by funext c; simp [isMember, satAll]
  unfold Domain.getNode
  rw [bind_ok (findNode_path heng hf.parse hf.path hs), matches_single, e]
  cases h : (idxs (Node.isElem q) n.children) <;> rfl

theorem getNodes_run (heng : EngineOk eng) {ctx : Ctx} {xp : Str} {q : QName} {ax t es} (hx : Domain.xast xp = .step ax t es) (hf : SimpleField ctx xp (Domain.xast xp) [.child q []])
    {a s n} (hs : Node.get a s = some n) :
    Domain.getNodes eng ctx xp a s = (.ok ((idxs (Node.isElem q) n.children).map (fun i => a ++ [i])), s) := by
  have e : isMember q [] = Node.isElem q := by funext c; simp [isMember, satAll]
  have hp := hf.parse
  have hr := hf.path
  rw [hx] at hp hr
  unfold Domain.getNodes
  rw [bind_ok (listMatches_run heng hp hr hs), e]
  show (Except.ok _, s) = _
  simp only [List.map_map]
  rfl
end

/-! ### C60 -/

section
variable [PyUnicode] {eng : Engine}

/-- The attribute `rend` of a line. -/
def rendAttr : QName := ⟨none, c%"rend"⟩

theorem tei_field : SimpleField Tei.ctx c%"@rend" (Domain.xast c%"@rend") [.attr rendAttr] := ⟨by decide, by rfl, by rfl, by decide⟩

theorem isPrefixOf_iff (p s : Str) : p.isPrefixOf s = true ↔ p <+: s := List.isPrefixOf_iff_prefix

/-- C60.  `rend="indent"` gives 0. -/
theorem C60_plain_indent (heng : EngineOk eng) (a : Node.Addr) (s n : Node) (hs : s.get a = some n) (hr : n.attr? rendAttr = some c%"indent") :
    Tei.indent eng a s = (.ok (some 0), s) := by
  unfold Tei.indent
  rw [bind_ok (getStr_attr heng tei_field hs), hr]
  rfl

theorem indent_suffix (heng : EngineOk eng) {a s n} (hs : Node.get a s = some n) {r : Str} (hr : n.attr? rendAttr = some (c%"indent" ++ r)) (h0 : r ≠ []) :
    Tei.indent eng a s = (match pyInt r with | some k => .ok (some k) | none => .error .valueError, s) := by
  unfold Tei.indent
  rw [bind_ok (getStr_attr heng tei_field hs), hr]
  have hp : (c%"indent").isPrefixOf (c%"indent" ++ r) = true := by rw [isPrefixOf_iff]; exact List.prefix_append _ _
  have hd : (c%"indent" ++ r).drop (c%"indent").length = r := List.drop_left
  simp only [hp, hd, h0, if_true, if_false]
  cases pyInt r <;> rfl

/-- C60.  `rend="indent<k>"` gives the integer, however large. -/
theorem C60_indent_number (heng : EngineOk eng) (a : Node.Addr) (s n : Node) (k : Int) (hs : s.get a = some n) (hr : n.attr? rendAttr = some (c%"indent" ++ intStr k)) :
    Tei.indent eng a s = (.ok (some k), s) := by
  have h0 : intStr k ≠ [] := by
    intro h
    have := pyInt_intStr k
    rw [h] at this
    cases this
  rw [indent_suffix heng hs hr h0, pyInt_intStr]

/-- C60.  A value that does not start with `indent` gives `None`. -/
theorem C60_other_rend (heng : EngineOk eng) (a : Node.Addr) (s n : Node) (v : Str) (hs : s.get a = some n) (hr : n.attr? rendAttr = some v) (hv : ¬ c%"indent" <+: v) :
    Tei.indent eng a s = (.ok none, s) := by
  unfold Tei.indent
  rw [bind_ok (getStr_attr heng tei_field hs), hr]
  have : (c%"indent").isPrefixOf v = false := by
    rw [← Bool.not_eq_true, isPrefixOf_iff]; exact hv
  simp only [this]
  rfl

/-- Characters that can occur in a string that `int` accepts. -/
def intChar (c : Char) : Bool := isDigit c || c == '_' || c == '+' || c == '-' || isPySpace c

theorem pyDigits_chars : ∀ (s d : Str), pyDigits s = some d → ∀ c ∈ s, isDigit c = true ∨ c = '_'
  | [], d, h => by simp [pyDigits] at h
  | [x], d, h => by
    simp only [pyDigits] at h
    split_ifs at h with hx
    intro c hc
    rw [List.mem_singleton] at hc
    subst hc
    exact .inl hx
  | x :: y :: s, d, h => by
    simp only [pyDigits] at h
    split_ifs at h with hx hy
    · obtain ⟨d', hd, -⟩ := Option.map_eq_some_iff.1 h
      intro c hc
      simp only [List.mem_cons] at hc
      rcases hc with rfl | rfl | hc
      · exact .inl hx
      · exact .inr hy
      · exact pyDigits_chars s d' hd c hc
    · obtain ⟨d', hd, -⟩ := Option.map_eq_some_iff.1 h
      intro c hc
      rw [List.mem_cons] at hc
      rcases hc with rfl | hc
      · exact .inl hx
      · exact pyDigits_chars (y :: s) d' hd c hc

theorem mem_dropWhile_or {p : Char → Bool} : ∀ {s : Str} {c : Char}, c ∈ s → p c = true ∨ c ∈ s.dropWhile p
  | [], c, h => by cases h
  | x :: s, c, h => by
    rw [List.dropWhile_cons]
    by_cases hx : p x = true
    · rw [if_pos hx]
      rcases List.mem_cons.1 h with rfl | h
      · exact .inl hx
      · exact mem_dropWhile_or h
    · rw [if_neg hx]; exact .inr h

theorem mem_pyStrip {s : Str} {c : Char} (h : c ∈ s) : isPySpace c = true ∨ c ∈ pyStrip s := by
  unfold pyStrip
  rw [List.mem_reverse]
  rcases mem_dropWhile_or (p := isPySpace) h with h | h
  · exact .inl h
  · exact mem_dropWhile_or (List.mem_reverse.2 h)

theorem pyInt_chars {s : Str} {k : Int} (h : pyInt s = some k) : ∀ c ∈ s, intChar c = true := by
  intro c hc
  rcases mem_pyStrip hc with hc | hc
  · simp [intChar, hc]
  unfold pyInt at h
  cases hp : pyStrip s with
  | nil => rw [hp] at hc; cases hc
  | cons x r =>
    rw [hp] at h hc
    simp only at h
    have hd : ∀ {t d}, pyDigits t = some d → c ∈ t → intChar c = true := by
      intro t d ht hct
      rcases pyDigits_chars t d ht c hct with h | h <;> simp [intChar, h]
    split_ifs at h with h1 h2
    · obtain ⟨d, hd', -⟩ := Option.map_eq_some_iff.1 h
      rcases List.mem_cons.1 hc with rfl | hc
      · simp [intChar, h1]
      · exact hd hd' hc
    · obtain ⟨d, hd', -⟩ := Option.map_eq_some_iff.1 h
      rcases List.mem_cons.1 hc with rfl | hc
      · simp [intChar, h2]
      · exact hd hd' hc
    · obtain ⟨d, hd', -⟩ := Option.map_eq_some_iff.1 h
      exact hd hd' hc

/-- C60.  `indent` followed by anything with a character that no integer has (such as a letter) is a `ValueError`. -/
theorem C60_not_a_number (heng : EngineOk eng) (a : Node.Addr) (s n : Node) (r : Str) (hs : s.get a = some n) (hr : n.attr? rendAttr = some (c%"indent" ++ r)) (c : Char) (hc : c ∈ r) (hi : intChar c = false) :
    Tei.indent eng a s = (.error .valueError, s) := by
  rw [indent_suffix heng hs hr (by rintro rfl; cases hc)]
  cases h : pyInt r with
  | none => rfl
  | some k => rw [pyInt_chars h c hc] at hi; cases hi

/-- Counterexample: a line without `rend` has no indentation of `None`; the method raises. -/
theorem C60_counterexample_no_rend (heng : EngineOk eng) (a : Node.Addr) (s n : Node) (hs : s.get a = some n) (hr : n.attr? rendAttr = none) :
    Tei.indent eng a s = (.error .attributeError, s) := by
  unfold Tei.indent
  rw [bind_ok (getStr_attr heng tei_field hs), hr]
  rfl

end

section
local instance : PyUnicode := asciiPrintable
example : (Tei.indent refEngine [0] (.mk (.elem ⟨none, c%"lg"⟩) [] none [.mk (.elem ⟨none, c%"l"⟩) [(rendAttr, c%"indent12")] none [] none] none)).1 = .ok (some 12) := by decide
example : (Tei.indent refEngine [] (.mk (.elem ⟨none, c%"l"⟩) [(rendAttr, c%"italic")] none [] none)).1 = .ok none := by decide
example : (Tei.indent refEngine [] (.mk (.elem ⟨none, c%"l"⟩) [(rendAttr, c%"indented")] none [] none)).1 = .error .valueError := by decide
end

/-! ### C61 -/

/-- The first child that has one of the names. -/
def firstOf (names : List QName) (n : Node) : Option Node := n.children.find? (fun c => names.any (fun q => c.isElem q))

/-- The names of the subordinate components: `c02` to `c12` in the EAD namespace. -/
def subNames : List QName := [c%"c02", c%"c03", c%"c04", c%"c05", c%"c06", c%"c07", c%"c08", c%"c09", c%"c10", c%"c11", c%"c12"].map Ead.q

/-- The attribute `level`. -/
def levelAttr : QName := ⟨none, c%"level"⟩

theorem level_field [PyUnicode] : SimpleField Ead.ctx c%"@level" (Domain.xast c%"@level") [.attr levelAttr] := ⟨by decide, by rfl, by rfl, by decide⟩
theorem c01_field [PyUnicode] : SimpleField Ead.ctx Ead.topXPath (Domain.xast Ead.topXPath) [.child (Ead.q c%"c01") []] := ⟨by decide, by rfl, by rfl, by decide⟩

/-- The XPath of `Component.c` parses, and is a union of child steps. -/
theorem component_union : ∃ e, parse0 Ead.componentXPath = .ok e ∧ unionPaths Ead.ctx e = some (subNames.map (fun q => [.child q []])) := by
  refine ⟨Domain.xast Ead.componentXPath, by decide +kernel, by rfl⟩

section
variable [PyUnicode] {eng : Engine}

theorem mem_idxs {sel : Node → Bool} : ∀ {cs : List Node} {i : Nat}, i ∈ idxs sel cs ↔ ∃ c, cs[i]? = some c ∧ sel c = true
  | [], i => by simp [idxs]
  | x :: cs, i => by
    have ih := @mem_idxs sel cs
    rw [idxs]
    cases i with
    | zero => by_cases hx : sel x = true <;> simp [hx]
    | succ i => by_cases hx : sel x = true <;> simp [hx, ih]

/-- Elements in document order of which the members are known: the first. -/
theorem sorted_first {sel : Node → Bool} {cs : List Node} {l : List Node.Addr} (hs : l.Pairwise (fun b c => addrLt b c = true))
    (hm : ∀ b, b ∈ l ↔ ∃ i c, b = [i] ∧ cs[i]? = some c ∧ sel c = true) :
    (l = [] ∧ cs.find? sel = none) ∨ ∃ i c l', l = [i] :: l' ∧ cs[i]? = some c ∧ cs.find? sel = some c := by
  cases l with
  | nil =>
    refine .inl ⟨rfl, ?_⟩
    rw [List.find?_eq_none]
    intro c hc hsel
    obtain ⟨i, hi⟩ := List.mem_iff_getElem?.1 hc
    have := (hm [i]).2 ⟨i, c, rfl, hi, hsel⟩
    cases this
  | cons b l' =>
    refine .inr ?_
    obtain ⟨j, c, rfl, hj, hsel⟩ := (hm b).1 (by simp)
    refine ⟨j, c, l', rfl, hj, ?_⟩
    rw [List.find?_eq_some_iff_getElem]
    obtain ⟨hlt, he⟩ := List.getElem?_eq_some_iff.1 hj
    refine ⟨hsel, j, hlt, he, fun i hi => ?_⟩
    by_contra hc
    have hsel' : sel cs[i] = true := by simpa using hc
    have hmem := (hm [i]).2 ⟨i, _, rfl, List.getElem?_eq_getElem (by omega), hsel'⟩
    rcases List.mem_cons.1 hmem with h | h
    · have : i = j := by simpa using h
      omega
    · have := (List.pairwise_cons.1 hs).1 _ h
      simp [addrLt] at this
      omega

/-- What `Component.c` gives: nothing, or a list whose first member is the first component. -/
theorem components_run (heng : EngineUnionOk eng) {a s n} (hs : Node.get a s = some n) :
    ∃ l, Domain.getNodes eng Ead.ctx Ead.componentXPath a s = (.ok l, s) ∧
      ((l = [] ∧ firstOf subNames n = none) ∨ ∃ i c l', l = (a ++ [i]) :: l' ∧ s.get (a ++ [i]) = some c ∧ firstOf subNames n = some c) := by
  obtain ⟨e, hp, hu⟩ := component_union
  obtain ⟨l, h1, h2, h3⟩ := heng.union Ead.ctx Ead.componentXPath e _ s n a hp hu hs
  have he : evalXPath eng Ead.ctx Ead.componentXPath (.elem a) s = (.ok (.nodes (l.map (fun b => .elem (a ++ b)))), s) := by
    show (eng.xpath Ead.componentXPath s a Ead.ctx, s) = _
    rw [h1]
  have hl : listMatches eng Ead.ctx Ead.componentXPath (.elem a) s = (.ok (l.map (fun b => .elem (a ++ b))), s) := by
    unfold listMatches; rw [bind_ok he]; rfl
  refine ⟨l.map (a ++ ·), ?_, ?_⟩
  · unfold Domain.getNodes
    rw [bind_ok hl]
    show (Except.ok _, s) = _
    simp only [List.map_map]
    rfl
  · have hm : ∀ b, b ∈ l ↔ ∃ i c, b = [i] ∧ n.children[i]? = some c ∧ (fun c : Node => subNames.any (fun q => c.isElem q)) c = true := by
      intro b
      rw [h3]
      constructor
      · rintro ⟨p, hp, hb⟩
        obtain ⟨q, hq, rfl⟩ := List.mem_map.1 hp
        rw [matches_single] at hb
        obtain ⟨i, hi, hb⟩ := List.mem_map.1 hb
        obtain ⟨c, hc, hc2⟩ := mem_idxs.1 hi
        simp only [isMember, satAll, Bool.and_true] at hc2
        refine ⟨i, c, by simpa using hb.symm, hc, ?_⟩
        rw [List.any_eq_true]
        exact ⟨q, hq, hc2⟩
      · rintro ⟨i, c, rfl, hc, hsel⟩
        obtain ⟨q, hq, hc2⟩ := List.any_eq_true.1 hsel
        refine ⟨[.child q []], List.mem_map_of_mem hq, ?_⟩
        rw [matches_single]
        exact List.mem_map_of_mem (mem_idxs.2 ⟨c, hc, by simp [isMember, satAll, hc2]⟩)
    rcases sorted_first h2 hm with ⟨rfl, h⟩ | ⟨i, c, l', rfl, hc, h⟩
    · exact .inl ⟨rfl, h⟩
    · refine .inr ⟨i, c, l'.map (a ++ ·), rfl, ?_, h⟩
      rw [Node.get_append, hs]
      simp [Node.get, hc]

theorem hasComponents_run (heng : EngineUnionOk eng) {a s n} (hs : Node.get a s = some n) :
    Ead.hasComponents eng a s = (.ok (firstOf subNames n).isSome, s) := by
  obtain ⟨l, h1, h2⟩ := components_run heng hs
  unfold Ead.hasComponents
  rw [bind_ok h1]
  rcases h2 with ⟨rfl, h⟩ | ⟨i, c, l', rfl, -, h⟩
  · rw [h]; rfl
  · rw [h]; rfl

/-- C61.  `hasSubseries` is true exactly if there is a first subordinate component (`c02` to `c12`, in document order, whatever else is in between) and it has the level series or
subseries or has itself a subordinate component.  The document is not changed. -/
theorem C61_subseries (heng : EngineUnionOk eng) (a : Node.Addr) (s n : Node) (hs : s.get a = some n) :
    ∃ b, Ead.hasSubseries eng a s = (.ok b, s) ∧ (b = true ↔ ∃ c, firstOf subNames n = some c ∧
      (c.attr? levelAttr = some c%"series" ∨ c.attr? levelAttr = some c%"subseries" ∨ ∃ d, firstOf subNames c = some d)) := by
  obtain ⟨l, h1, h2⟩ := components_run heng hs
  unfold Ead.hasSubseries
  rw [bind_ok h1]
  rcases h2 with ⟨rfl, h⟩ | ⟨i, c, l', rfl, hc, h⟩
  · exact ⟨false, rfl, by simp [h]⟩
  · have e1 : ofExcept (pyGet ((a ++ [i]) :: l') 0) s = (.ok (a ++ [i]), s) := rfl
    rw [if_neg (by simp), bind_ok e1, bind_ok (getStr_attr heng.toEngineOk level_field hc)]
    by_cases hl : c.attr? levelAttr = some c%"series" ∨ c.attr? levelAttr = some c%"subseries"
    · rw [if_pos hl]
      exact ⟨true, rfl, by simp only [true_iff]; exact ⟨c, h, by tauto⟩⟩
    · rw [if_neg hl, hasComponents_run heng hc]
      refine ⟨_, rfl, ?_⟩
      rw [h]
      simp only [Option.some.injEq, exists_eq_left', Option.isSome_iff_exists]
      tauto

/-- C61.  `hasSeries` is true exactly if there is a first `c01` and it has the level series or has a subordinate component. -/
theorem C61_series (heng : EngineUnionOk eng) (a : Node.Addr) (s n : Node) (hs : s.get a = some n) :
    ∃ b, Ead.hasSeries eng a s = (.ok b, s) ∧ (b = true ↔ ∃ c, firstOf [Ead.q c%"c01"] n = some c ∧
      (c.attr? levelAttr = some c%"series" ∨ ∃ d, firstOf subNames c = some d)) := by
  have e0 : firstOf [Ead.q c%"c01"] n = n.children.find? (Node.isElem (Ead.q c%"c01")) := by
    unfold firstOf
    congr 1
    funext c
    simp
  rw [e0]
  have h1 := getNodes_run heng.toEngineOk (ax := none) (t := .name (some c%"e") c%"c01") (es := []) (by decide) c01_field hs
  unfold Ead.hasSeries
  rw [bind_ok h1]
  cases hi : idxs (Node.isElem (Ead.q c%"c01")) n.children with
  | nil =>
    have : n.children.find? (Node.isElem (Ead.q c%"c01")) = none := by
      rw [← List.head?_filter, List.head?_eq_none_iff, ← List.length_eq_zero_iff, ← idxs_length, hi]; rfl
    exact ⟨false, rfl, by simp [this]⟩
  | cons i is =>
    obtain ⟨A, c, B, h1, h2, h3, h4⟩ := idxs_get (sel := Node.isElem (Ead.q c%"c01")) (cs := n.children) (k := 0) (i := i) (by rw [hi]; rfl)
    have hA : A.filter (Node.isElem (Ead.q c%"c01")) = [] := List.length_eq_zero_iff.1 (by omega)
    have h : n.children.find? (Node.isElem (Ead.q c%"c01")) = some c := by
      rw [← List.head?_filter, h1, List.filter_append, hA, List.filter_cons_of_pos h3]; rfl
    have hc : s.get (a ++ [i]) = some c := by rw [← h2, get_mid hs h1]
    have e1 : ofExcept (pyGet (((i :: is).map (fun i => a ++ [i]))) 0) s = (.ok (a ++ [i]), s) := rfl
    rw [if_neg (by simp), bind_ok e1, bind_ok (getStr_attr heng.toEngineOk level_field hc)]
    by_cases hl : c.attr? levelAttr = some c%"series"
    · rw [if_pos hl]
      exact ⟨true, rfl, by simp only [true_iff]; exact ⟨c, h, .inl hl⟩⟩
    · rw [if_neg hl, hasComponents_run heng hc]
      refine ⟨_, rfl, ?_⟩
      rw [h]
      simp only [Option.some.injEq, exists_eq_left', Option.isSome_iff_exists]
      tauto
end

/-- A component whose first subordinate component, behind a heading, is a `c03` without level that has a `c04`. -/
def sampleComponent : Node :=
  .mk (.elem (Ead.q c%"c02")) [] none [.mk (.elem (Ead.q c%"did")) [] none [] none, .mk (.elem (Ead.q c%"c03")) [] none [.mk (.elem (Ead.q c%"c04")) [] none [] none] none,
    .mk (.elem (Ead.q c%"c02")) [(levelAttr, c%"series")] none [] none] none

example : (Ead.hasSubseries refEngineU [] sampleComponent).1 = .ok true := by decide +kernel
example : (Ead.hasSubseries refEngineU [1] sampleComponent).1 = .ok false := by decide +kernel
example : ∃ b, Ead.hasSubseries refEngineU [] sampleComponent = (.ok b, sampleComponent) ∧ (b = true ↔ ∃ c, firstOf subNames sampleComponent = some c ∧
      (c.attr? levelAttr = some c%"series" ∨ c.attr? levelAttr = some c%"subseries" ∨ ∃ d, firstOf subNames c = some d)) := C61_subseries refEngineU_ok [] _ _ rfl

/-- The level subseries counts only below the top level; a later series does not count. -/
theorem C61_only_first_counts :
    (Ead.hasSeries refEngineU [] (.mk (.elem (Ead.q c%"dsc")) [] none [.mk (.elem (Ead.q c%"c01")) [(levelAttr, c%"subseries")] none [] none,
      .mk (.elem (Ead.q c%"c01")) [(levelAttr, c%"series")] none [] none] none)).1 = .ok false := by decide +kernel

/-! ### C62 -/

section
variable [PyUnicode] {eng : Engine}

/-- The name `unitdate`. -/
def unitdateName : QName := Ead.q c%"unitdate"

theorem unitdate_field : SimpleField Ead.ctx c%"e:unitdate" (Domain.xast c%"e:unitdate") [.child unitdateName []] := ⟨by decide, by rfl, by rfl, by decide⟩

omit [PyUnicode] in
theorem idxs_none {sel : Node → Bool} {cs : List Node} (h : ∀ c ∈ cs, sel c = false) : idxs sel cs = [] := by
  rw [← List.length_eq_zero_iff, idxs_length, List.length_eq_zero_iff, List.filter_eq_nil_iff]
  intro c hc
  simp [h c hc]

omit [PyUnicode] in
theorem idxs_first {sel : Node → Bool} {A B : List Node} {d : Node} (hA : ∀ c ∈ A, sel c = false) (hd : sel d = true) : (idxs sel (A ++ d :: B)).head? = some A.length := by
  have h := idxs_mid (sel := sel) hd B A
  have h0 : A.filter sel = [] := by
    rw [List.filter_eq_nil_iff]
    intro c hc
    simp [hA c hc]
  rw [h0, List.length_nil] at h
  rw [List.head?_eq_getElem?, h]

/-- C62.  Without a unit date among its children, the short form of a title is the object itself. -/
theorem C62_without_date (heng : EngineOk eng) (keepTail : Bool) (a : Node.Addr) (s n : Node) (hs : s.get a = some n) (hn : ∀ c ∈ n.children, c.isElem unitdateName = false) :
    Ead.short eng keepTail a s = (.ok .self, s) := by
  unfold Ead.short
  rw [bind_ok (getNode_run heng unitdate_field hs), idxs_none hn]
  rfl

theorem removeUnitdate_run (heng : EngineOk eng) {n : Node} {A B : List Node} {d : Node} (hn : n.children = A ++ d :: B) (hA : ∀ c ∈ A, c.isElem unitdateName = false) (hd : d.isElem unitdateName = true) :
    Ead.removeUnitdate eng n = (.ok (), n.withChildren (A ++ B)) := by
  unfold Ead.removeUnitdate
  rw [bind_ok (getNode_run heng unitdate_field (a := []) (s := n) rfl), hn, idxs_first hA hd]
  show (Except.ok (), Node.removeChild A.length n) = _
  unfold Node.removeChild
  rw [hn]
  congr 2
  rw [List.eraseIdx_append_of_length_le (Nat.le_refl _), Nat.sub_self]
  rfl

/-- C62.  Otherwise the short form is a new object: name, attributes and leading text are those of the title, the children are those of the title without the first unit date, all
others unchanged and in order.  The document is not changed. -/
theorem C62_with_date (heng : EngineOk eng) (keepTail : Bool) (a : Node.Addr) (s n : Node) (A B : List Node) (d : Node) (hs : s.get a = some n) (hn : n.children = A ++ d :: B)
    (hA : ∀ c ∈ A, c.isElem unitdateName = false) (hd : d.isElem unitdateName = true) :
    ∃ m, Ead.short eng keepTail a s = (.ok (.copy m), s) ∧ m.tag = n.tag ∧ m.attrs = n.attrs ∧ m.text = n.text ∧ m.children = A ++ B := by
  have hc : (Ead.deepcopy keepTail n).children = A ++ d :: B := by
    unfold Ead.deepcopy
    split_ifs
    · exact hn
    · cases n; exact hn
  have h := removeUnitdate_run heng hc hA hd
  refine ⟨(Ead.deepcopy keepTail n).withChildren (A ++ B), ?_, ?_, ?_, ?_, ?_⟩
  · unfold Ead.short
    rw [bind_ok (getNode_run heng unitdate_field hs), hn, idxs_first hA hd]
    show (nodeAt a >>= _) s = _
    rw [bind_ok (show nodeAt a s = (.ok n, s) by unfold nodeAt; rw [hs]), h]
    rfl
  all_goals
    unfold Ead.deepcopy
    split_ifs <;> cases n <;> rfl

omit [PyUnicode] in
theorem strValL_append (A B : List Node) : Node.strValL (A ++ B) = Node.strValL A ++ Node.strValL B := by
  induction A with
  | nil => rfl
  | cons c A ih =>
    obtain ⟨t, at', x, ch, l⟩ := c
    simp only [List.cons_append, Node.strValL, ih, List.append_assoc]

/-- C62.  If no text follows the unit date directly, the text of the short form is the text of the title with the text of the unit date cut out. -/
theorem C62_text (heng : EngineOk eng) (keepTail : Bool) (a : Node.Addr) (s n : Node) (A B : List Node) (d : Node) (hs : s.get a = some n) (hn : n.children = A ++ d :: B)
    (hA : ∀ c ∈ A, c.isElem unitdateName = false) (hd : d.isElem unitdateName = true) (ht : d.tail.getD [] = []) :
    ∃ m pre post, Ead.short eng keepTail a s = (.ok (.copy m), s) ∧ n.strVal = pre ++ d.strVal ++ post ∧ m.strVal = pre ++ post := by
  obtain ⟨m, h1, h2, -, h4, h5⟩ := C62_with_date heng keepTail a s n A B d hs hn hA hd
  refine ⟨m, n.text.getD [] ++ Node.strValL A, Node.strValL B, h1, ?_, ?_⟩
  · obtain ⟨t, at', x, ch, l⟩ := n
    simp only [Node.children] at hn
    subst hn
    obtain ⟨dt, da, dx, dc, dl⟩ := d
    simp only [Node.isElem, Node.tag, beq_iff_eq] at hd
    subst hd
    simp only [Node.tail] at ht
    simp only [Node.strVal, Node.text, strValL_append, Node.strValL, ht, List.nil_append, List.append_assoc]
  · obtain ⟨t, at', x, ch, l⟩ := m
    simp only [Node.children, Node.text] at h5 h4
    subst h5 h4
    simp only [Node.strVal, strValL_append, List.append_assoc]
    rfl

end

/-- `<unittitle>Papers, <unitdate>1900</unitdate> (bulk) <unitdate>1950</unitdate></unittitle>` -/
def sampleTitle : Node := .mk (.elem (Ead.q c%"unittitle")) [] (some c%"Papers, ")
  [.mk (.elem unitdateName) [] (some c%"1900") [] (some c%" (bulk) "), .mk (.elem unitdateName) [] (some c%"1950") [] none] none

example : ∃ m pre post, Ead.short refEngine true [0] (.mk (.elem (Ead.q c%"did")) [] none [.mk (.elem (Ead.q c%"unittitle")) [] (some c%"Papers, ") [.mk (.elem unitdateName) [] (some c%"1900") [] none] none] none) =
      (.ok (.copy m), .mk (.elem (Ead.q c%"did")) [] none [.mk (.elem (Ead.q c%"unittitle")) [] (some c%"Papers, ") [.mk (.elem unitdateName) [] (some c%"1900") [] none] none] none) ∧
    (Node.mk (.elem (Ead.q c%"unittitle")) [] (some c%"Papers, ") [.mk (.elem unitdateName) [] (some c%"1900") [] none] none).strVal = pre ++ (Node.mk (.elem unitdateName) [] (some c%"1900") [] none).strVal ++ post ∧ m.strVal = pre ++ post :=
  C62_text refEngine_ok true [0] _ _ [] [] _ rfl rfl (by simp) (by decide) rfl

/-- Counterexample: text behind the unit date is lost with it, and a second unit date stays. -/
theorem C62_counterexample_tail : sampleTitle.strVal = c%"Papers, 1900 (bulk) 1950" ∧
    ∃ m, Ead.short refEngine true [] sampleTitle = (.ok (.copy m), sampleTitle) ∧ m.strVal = c%"Papers, 1950" := by
  refine ⟨by decide, _, rfl, by decide⟩

/-! ### C63 -/

/-- Not set, or empty. -/
def Unset (v : Option Str) : Prop := v = none ∨ v = some []

theorem truthy_iff (v : Option Str) : (!Domain.truthy v) = true ↔ Unset v := by
  rcases v with _ | _ | _ <;> simp [Domain.truthy, Unset]

theorem noText_iff (v : Option Str) : Core.noText v = true ↔ Unset v := by
  rcases v with _ | _ | _ <;> simp [Core.noText, Unset]

/-- The attribute `type`. -/
def typeAttr : QName := ⟨none, c%"type"⟩

section
variable [PyUnicode] {eng : Engine}

theorem mods_child (t : Str) (h : t ∈ [c%"dateCreated", c%"dateIssued", c%"publisher", c%"title", c%"subTitle", c%"partNumber", c%"partName", c%"nonSort", c%"number", c%"start", c%"end", c%"total",
      c%"detail", c%"extent"]) : SimpleField Mods.ctx (c%"mods:" ++ t) (Domain.xast (c%"mods:" ++ t)) [.child (Mods.q t) []] := by
  simp only [List.mem_cons, List.not_mem_nil, or_false] at h
  rcases h with rfl | rfl | rfl | rfl | rfl | rfl | rfl | rfl | rfl | rfl | rfl | rfl | rfl | rfl <;> exact ⟨by decide, by rfl, by rfl, by decide⟩

theorem mods_step (t : Str) (h : t ∈ [c%"dateCreated", c%"dateIssued", c%"detail"]) : Domain.xast (c%"mods:" ++ t) = .step none (.name (some c%"mods") t) [] := by
  simp only [List.mem_cons, List.not_mem_nil, or_false] at h
  rcases h with rfl | rfl | rfl <;> decide

theorem mods_type : SimpleField Mods.ctx c%"@type" (Domain.xast c%"@type") [.attr typeAttr] := ⟨by decide, by rfl, by rfl, by decide⟩

omit [PyUnicode] in
theorem nodeAt_run {a s n} (hs : Node.get a s = some n) : nodeAt a s = (.ok n, s) := by unfold nodeAt; rw [hs]

omit [PyUnicode] in
/-- `all` over objects, each of which answers by its element. -/
theorem allM_run {f : Node.Addr → M Bool} {g : Node → Bool} {a s n} (hs : Node.get a s = some n) (hf : ∀ b m, s.get b = some m → f b s = (.ok (g m), s)) (sel : Node → Bool) :
    Mods.allM f ((idxs sel n.children).map (fun i => a ++ [i])) s = (.ok ((n.children.filter sel).all g), s) := by
  have key : ∀ (is : List Nat) (ms : List Node), is.map (fun i => s.get (a ++ [i])) = ms.map some → Mods.allM f (is.map (fun i => a ++ [i])) s = (.ok (ms.all g), s) := by
    intro is
    induction is with
    | nil =>
      intro ms h
      cases ms with
      | nil => rfl
      | cons m ms => cases h
    | cons i is ih =>
      intro ms h
      cases ms with
      | nil => cases h
      | cons m ms =>
        simp only [List.map_cons, List.cons.injEq] at h
        simp only [List.map_cons, Mods.allM]
        rw [bind_ok (hf _ m h.1)]
        cases hg : g m with
        | true =>
          simp only [if_true]
          rw [ih ms h.2]
          simp [hg]
        | false => simp [hg]; rfl
  refine key _ _ ?_
  have h2 : ∀ (pre cs : List Node), n.children = pre ++ cs → (idxs sel cs).map (fun i => s.get (a ++ [pre.length + i])) = (cs.filter sel).map some := by
    intro pre cs
    induction cs generalizing pre with
    | nil => intro _; rfl
    | cons c cs ih =>
      intro h
      have h3 := ih (pre ++ [c]) (by rw [h, List.append_assoc]; rfl)
      have h4 : ((idxs sel cs).map (· + 1)).map (fun i => s.get (a ++ [pre.length + i])) = (cs.filter sel).map some := by
        rw [← h3, List.map_map]
        refine List.map_congr_left (fun i _ => ?_)
        simp only [Function.comp, List.length_append, List.length_singleton]
        congr 3
        omega
      rw [idxs]
      by_cases hc : sel c = true
      · rw [if_pos hc, List.map_cons, h4, List.filter_cons_of_pos hc, List.map_cons]
        congr 1
        rw [Nat.add_zero]
        exact get_mid hs h
      · rw [if_neg hc, h4, List.filter_cons_of_neg hc]
  have := h2 [] n.children rfl
  simpa using this

/-- C63.  A date is empty exactly if no text is at its start; attributes do not matter. -/
theorem C63_date (a : Node.Addr) (s n : Node) (hs : s.get a = some n) : ∃ b, Mods.dateEmpty a s = (.ok b, s) ∧ (b = true ↔ Unset n.text) := by
  refine ⟨Core.noText n.text, ?_, noText_iff _⟩
  unfold Mods.dateEmpty
  rw [bind_ok (nodeAt_run hs)]; rfl

/-- C63.  A typed note is empty exactly if it has no children, no text in it or behind it, and no attribute other than `type`. -/
theorem C63_typed_note (a : Node.Addr) (s n : Node) (hs : s.get a = some n) :
    ∃ b, Mods.typedNoteEmpty a s = (.ok b, s) ∧ (b = true ↔ n.children = [] ∧ (∀ p ∈ n.attrs, p.1 = typeAttr) ∧ Unset n.text ∧ Unset n.tail) := by
  refine ⟨_, by unfold Mods.typedNoteEmpty; rw [bind_ok (nodeAt_run hs)]; rfl, ?_⟩
  simp only [Bool.and_eq_true, beq_iff_eq, List.length_eq_zero_iff, noText_iff, List.filter_eq_nil_iff, bne_iff_ne, ne_eq, not_not, and_assoc]
  exact Iff.rfl

theorem anyStr_run {a s n} (vals : List (Str × Option Str)) (hs : Node.get a s = some n) (h : ∀ x ∈ vals, Domain.getStr eng Mods.ctx x.1 a s = (.ok x.2, s)) :
    Mods.anyStr eng a (vals.map (·.1)) s = (.ok (vals.any (fun x => Domain.truthy x.2)), s) := by
  induction vals with
  | nil => rfl
  | cons x vals ih =>
    simp only [List.map_cons, Mods.anyStr]
    rw [bind_ok (h x (by simp))]
    cases ht : Domain.truthy x.2 with
    | true => simp [ht]; rfl
    | false =>
      simp only [Bool.false_eq_true, if_false]
      rw [ih (fun y hy => h y (by simp [hy]))]
      simp [ht]

omit [PyUnicode] in
theorem not_any_iff (vals : List (Str × Option Str)) : (!vals.any (fun x => Domain.truthy x.2)) = true ↔ ∀ x ∈ vals, Unset x.2 := by
  simp only [Bool.not_eq_true', List.any_eq_false, Bool.not_eq_true]
  refine forall₂_congr (fun x _ => ?_)
  rw [← truthy_iff, Bool.not_eq_true']

/-- C63.  A title is empty exactly if title, subtitle, part number, part name, non-sorting part and type are not set or empty. -/
theorem C63_title_info (heng : EngineOk eng) (a : Node.Addr) (s n : Node) (hs : s.get a = some n) :
    ∃ b, Mods.titleInfoEmpty eng a s = (.ok b, s) ∧ (b = true ↔
      (∀ t ∈ [c%"title", c%"subTitle", c%"partNumber", c%"partName", c%"nonSort"], Unset (childText (Mods.q t) n)) ∧ Unset (n.attr? typeAttr)) := by
  have h := anyStr_run (eng := eng) (a := a) (s := s) ([c%"title", c%"subTitle", c%"partNumber", c%"partName", c%"nonSort"].map (fun t => (c%"mods:" ++ t, childText (Mods.q t) n)) ++ [(c%"@type", n.attr? typeAttr)]) hs (by
    intro x hx
    rcases List.mem_append.1 hx with hx | hx
    · obtain ⟨t, ht, rfl⟩ := List.mem_map.1 hx
      have hin : ∀ t ∈ [c%"title", c%"subTitle", c%"partNumber", c%"partName", c%"nonSort"], t ∈ [c%"dateCreated", c%"dateIssued", c%"publisher", c%"title", c%"subTitle", c%"partNumber", c%"partName",
        c%"nonSort", c%"number", c%"start", c%"end", c%"total", c%"detail", c%"extent"] := by decide
      exact getStr_child heng (mods_child t (hin t ht)) hs
    · rw [List.mem_singleton] at hx
      subst hx
      exact getStr_attr heng mods_type hs)
  refine ⟨_, by
    unfold Mods.titleInfoEmpty
    rw [bind_ok (show Mods.anyStr eng a [c%"mods:title", c%"mods:subTitle", c%"mods:partNumber", c%"mods:partName", c%"mods:nonSort", c%"@type"] s = _ from h)]
    rfl, ?_⟩
  rw [not_any_iff]
  simp [or_imp, forall_and, and_assoc]

/-- C63.  A detail of a part is empty exactly if its number is not set or empty. -/
theorem C63_part_detail (heng : EngineOk eng) (a : Node.Addr) (s n : Node) (hs : s.get a = some n) :
    ∃ b, Mods.partDetailEmpty eng a s = (.ok b, s) ∧ (b = true ↔ Unset (childText (Mods.q c%"number") n)) := by
  refine ⟨_, by unfold Mods.partDetailEmpty; rw [bind_ok (m := Domain.getStr eng Mods.ctx c%"mods:number" a) (getStr_child heng (mods_child c%"number" (by decide)) hs)]; rfl, truthy_iff _⟩

/-- C63.  An extent is empty exactly if start, end and total are not set or empty. -/
theorem C63_part_extent (heng : EngineOk eng) (a : Node.Addr) (s n : Node) (hs : s.get a = some n) :
    ∃ b, Mods.partExtentEmpty eng a s = (.ok b, s) ∧ (b = true ↔ ∀ t ∈ [c%"start", c%"end", c%"total"], Unset (childText (Mods.q t) n)) := by
  have h := anyStr_run (eng := eng) (a := a) (s := s) ([c%"start", c%"end", c%"total"].map (fun t => (c%"mods:" ++ t, childText (Mods.q t) n))) hs (by
    intro x hx
    obtain ⟨t, ht, rfl⟩ := List.mem_map.1 hx
    refine getStr_child heng (mods_child t ?_) hs
    clear hx
    revert t
    decide)
  refine ⟨_, by
    unfold Mods.partExtentEmpty
    rw [bind_ok (show Mods.anyStr eng a [c%"mods:start", c%"mods:end", c%"mods:total"] s = _ from h)]
    rfl, ?_⟩
  rw [not_any_iff]
  simp

/-- C63.  A part is empty exactly if each of its details is empty, the first extent (if any) is empty, and the type is not set or empty. -/
theorem C63_part (heng : EngineOk eng) (a : Node.Addr) (s n : Node) (hs : s.get a = some n) :
    ∃ b, Mods.partEmpty eng a s = (.ok b, s) ∧ (b = true ↔
      (∀ c ∈ n.children, c.isElem (Mods.q c%"detail") = true → Unset (childText (Mods.q c%"number") c)) ∧
      (∀ c, n.children.find? (Node.isElem (Mods.q c%"extent")) = some c → ∀ t ∈ [c%"start", c%"end", c%"total"], Unset (childText (Mods.q t) c)) ∧
      Unset (n.attr? typeAttr)) := by
  have hd : ∀ b m, s.get b = some m → Mods.partDetailEmpty eng b s = (.ok (!Domain.truthy (childText (Mods.q c%"number") m)), s) := by
    intro b m hb
    unfold Mods.partDetailEmpty
    rw [bind_ok (m := Domain.getStr eng Mods.ctx c%"mods:number" b) (getStr_child heng (mods_child c%"number" (by decide)) hb)]; rfl
  have h1 : Mods.listEmpty eng (Mods.partDetailEmpty eng) c%"mods:detail" a s = (.ok ((n.children.filter (Node.isElem (Mods.q c%"detail"))).all (fun m => !Domain.truthy (childText (Mods.q c%"number") m))), s) := by
    unfold Mods.listEmpty
    rw [bind_ok (m := Domain.getNodes eng Mods.ctx c%"mods:detail" a) (getNodes_run heng (mods_step c%"detail" (by decide)) (mods_child c%"detail" (by decide)) hs)]
    exact allM_run hs hd _
  have h2 : ∃ b, Mods.extentEmpty eng a s = (.ok b, s) ∧ (b = true ↔ ∀ c, n.children.find? (Node.isElem (Mods.q c%"extent")) = some c → ∀ t ∈ [c%"start", c%"end", c%"total"], Unset (childText (Mods.q t) c)) := by
    unfold Mods.extentEmpty
    rw [bind_ok (m := Domain.getNode eng Mods.ctx c%"mods:extent" a) (getNode_run heng (mods_child c%"extent" (by decide)) hs)]
    cases hi : idxs (Node.isElem (Mods.q c%"extent")) n.children with
    | nil =>
      have : n.children.find? (Node.isElem (Mods.q c%"extent")) = none := by
        rw [← List.head?_filter, List.head?_eq_none_iff, ← List.length_eq_zero_iff, ← idxs_length, hi]; rfl
      exact ⟨true, rfl, by simp [this]⟩
    | cons i is =>
      obtain ⟨A, c, B, h1, h2, h3, h4⟩ := idxs_get (sel := Node.isElem (Mods.q c%"extent")) (cs := n.children) (k := 0) (i := i) (by rw [hi]; rfl)
      have hA : A.filter (Node.isElem (Mods.q c%"extent")) = [] := List.length_eq_zero_iff.1 (by omega)
      have h : n.children.find? (Node.isElem (Mods.q c%"extent")) = some c := by
        rw [← List.head?_filter, h1, List.filter_append, hA, List.filter_cons_of_pos h3]; rfl
      have hc : s.get (a ++ [i]) = some c := by rw [← h2, get_mid hs h1]
      obtain ⟨b, hb1, hb2⟩ := C63_part_extent heng (a ++ [i]) s c hc
      exact ⟨b, hb1, by rw [hb2, h]; simp⟩
  obtain ⟨b2, h2, h3⟩ := h2
  unfold Mods.partEmpty
  rw [bind_ok h1]
  cases hb : (n.children.filter (Node.isElem (Mods.q c%"detail"))).all (fun m => !Domain.truthy (childText (Mods.q c%"number") m)) with
  | false =>
    refine ⟨false, rfl, ?_⟩
    simp only [Bool.false_eq_true, false_iff, not_and]
    intro hall
    rw [← Bool.not_eq_true, List.all_eq_true] at hb
    refine absurd (fun c hc => ?_) hb
    rw [List.mem_filter] at hc
    exact (truthy_iff _).2 (hall c hc.1 hc.2)
  | true =>
    have hall : ∀ c ∈ n.children, c.isElem (Mods.q c%"detail") = true → Unset (childText (Mods.q c%"number") c) := by
      intro c hc hc2
      exact (truthy_iff _).1 (List.all_eq_true.1 hb c (List.mem_filter.2 ⟨hc, hc2⟩))
    simp only [if_true]
    rw [bind_ok h2]
    cases b2 with
    | false =>
      refine ⟨false, rfl, ?_⟩
      simp only [Bool.false_eq_true, false_iff, not_and]
      intro _ hx
      exact absurd (h3.2 hx) (by simp)
    | true =>
      simp only [if_true]
      refine ⟨_, by rw [bind_ok (getStr_attr heng mods_type hs)]; rfl, ?_⟩
      rw [truthy_iff]
      exact ⟨fun h => ⟨hall, h3.1 rfl, h⟩, fun h => h.2.2⟩

/-- C63.  Origin information is empty exactly if every date of creation and every date of issue is empty and the publisher is not set or empty. -/
theorem C63_origin_info (heng : EngineOk eng) (a : Node.Addr) (s n : Node) (hs : s.get a = some n) :
    ∃ b, Mods.originInfoEmpty eng a s = (.ok b, s) ∧ (b = true ↔
      (∀ c ∈ n.children, c.isElem (Mods.q c%"dateCreated") = true ∨ c.isElem (Mods.q c%"dateIssued") = true → Unset c.text) ∧ Unset (childText (Mods.q c%"publisher") n)) := by
  have hd : ∀ b m, s.get b = some m → Mods.dateEmpty b s = (.ok (Core.noText m.text), s) := by
    intro b m hb
    unfold Mods.dateEmpty
    rw [bind_ok (nodeAt_run hb)]; rfl
  have h1 : ∀ t ∈ [c%"dateCreated", c%"dateIssued"], Mods.listEmpty eng Mods.dateEmpty (c%"mods:" ++ t) a s = (.ok ((n.children.filter (Node.isElem (Mods.q t))).all (fun m => Core.noText m.text)), s) := by
    intro t ht
    unfold Mods.listEmpty
    rw [bind_ok (getNodes_run heng (mods_step t (by revert t; decide)) (mods_child t (by revert t; decide)) hs)]
    exact allM_run hs hd _
  have hall : ∀ t, (n.children.filter (Node.isElem (Mods.q t))).all (fun m => Core.noText m.text) = true ↔ ∀ c ∈ n.children, c.isElem (Mods.q t) = true → Unset c.text := by
    intro t
    simp only [List.all_eq_true, List.mem_filter, noText_iff, and_imp]
  have h2 : ∃ b, Mods.allM (fun xp => Mods.listEmpty eng Mods.dateEmpty xp a) [c%"mods:dateCreated", c%"mods:dateIssued"] s = (.ok b, s) ∧ (b = true ↔
      ∀ c ∈ n.children, c.isElem (Mods.q c%"dateCreated") = true ∨ c.isElem (Mods.q c%"dateIssued") = true → Unset c.text) := by
    simp only [Mods.allM]
    rw [bind_ok (m := Mods.listEmpty eng Mods.dateEmpty c%"mods:dateCreated" a) (h1 c%"dateCreated" (by decide))]
    have a1 := hall c%"dateCreated"
    have a2 := hall c%"dateIssued"
    cases hb : (n.children.filter (Node.isElem (Mods.q c%"dateCreated"))).all (fun m => Core.noText m.text) with
    | false =>
      refine ⟨false, rfl, ?_⟩
      rw [hb] at a1
      simp only [Bool.false_eq_true, false_iff] at a1 ⊢
      exact fun h => a1 (fun c hc hc2 => h c hc (.inl hc2))
    | true =>
      rw [hb] at a1
      simp only [if_true]
      rw [bind_ok (m := Mods.listEmpty eng Mods.dateEmpty c%"mods:dateIssued" a) (h1 c%"dateIssued" (by decide))]
      refine ⟨(n.children.filter (Node.isElem (Mods.q c%"dateIssued"))).all (fun m => Core.noText m.text), ?_, ?_⟩
      · cases (n.children.filter (Node.isElem (Mods.q c%"dateIssued"))).all (fun m => Core.noText m.text) <;> rfl
      · rw [a2]
        exact ⟨fun h c hc => by rintro (h1 | h1); exacts [a1.1 rfl c hc h1, h c hc h1], fun h c hc h1 => h c hc (.inr h1)⟩
  obtain ⟨b, h2, h3⟩ := h2
  unfold Mods.originInfoEmpty
  rw [bind_ok h2]
  cases b with
  | false =>
    refine ⟨false, rfl, ?_⟩
    simp only [Bool.false_eq_true, false_iff, not_and]
    intro hx
    exact absurd (h3.2 hx) (by simp)
  | true =>
    refine ⟨_, by simp only [if_true]; rw [bind_ok (m := Domain.getStr eng Mods.ctx c%"mods:publisher" a) (getStr_child heng (mods_child c%"publisher" (by decide)) hs)]; rfl, ?_⟩
    rw [truthy_iff]
    exact ⟨fun h => ⟨h3.1 rfl, h⟩, fun h => h.2⟩

end

/-- A part with an empty detail, one with a number, and an empty extent. -/
def samplePart : Node := .mk (.elem (Mods.q c%"part")) [] none
  [.mk (.elem (Mods.q c%"detail")) [(typeAttr, c%"volume")] none [] none, .mk (.elem (Mods.q c%"detail")) [] none [.mk (.elem (Mods.q c%"number")) [] (some c%"3") [] none] none,
   .mk (.elem (Mods.q c%"extent")) [(⟨none, c%"unit"⟩, c%"pages")] none [] none] none

example : (Mods.partEmpty refEngine [] samplePart).1 = .ok false ∧ (Mods.partDetailEmpty refEngine [0] samplePart).1 = .ok true ∧ (Mods.partExtentEmpty refEngine [2] samplePart).1 = .ok true := by decide +kernel
example : (Mods.titleInfoEmpty refEngine [] (.mk (.elem (Mods.q c%"titleInfo")) [] none [.mk (.elem (Mods.q c%"title")) [] (some c%"A") [] none] none)).1 = .ok false := by decide +kernel
example : (Mods.typedNoteEmpty [] (.mk (.elem (Mods.q c%"note")) [(typeAttr, c%"admin")] none [] none)).1 = .ok true := by decide

/-- Counterexample: origin information with a date of another kind (captured, valid, modified, copyright, other) counts as empty, although its documentation says that it is empty only if all
child date elements are. -/
theorem C63_counterexample_captured : (Mods.originInfoEmpty refEngine [] (.mk (.elem (Mods.q c%"originInfo")) [] none [.mk (.elem (Mods.q c%"dateCaptured")) [] (some c%"2001") [] none] none)).1 = .ok true := by
  decide +kernel

/-- Counterexample: a date whose text stands behind a comment counts as empty, although the field `date` reads it. -/
theorem C63_counterexample_comment : (Mods.dateEmpty [] (.mk (.elem (Mods.q c%"dateCreated")) [] none [.mk .comment [] (some c%"x") [] (some c%"2001")] none)).1 = .ok true ∧
    (Domain.getStr refEngine Mods.ctx c%"text()" [] (.mk (.elem (Mods.q c%"dateCreated")) [] none [.mk .comment [] (some c%"x") [] (some c%"2001")] none)).1 = .ok (some c%"2001") := by
  decide +kernel

/-- Counterexample: a title with a label only counts as empty. -/
theorem C63_counterexample_label : (Mods.titleInfoEmpty refEngine [] (.mk (.elem (Mods.q c%"titleInfo")) [(⟨none, c%"displayLabel"⟩, c%"A")] none [] none)).1 = .ok true := by
  decide +kernel

/-! ### C64 -/

section
variable [PyUnicode] {eng : Engine}

/-- The attribute `version`. -/
def versionAttr : QName := ⟨none, c%"version"⟩

theorem version_field : SimpleField Premis.ctx c%"@version" (Domain.xast c%"@version") [.attr versionAttr] := ⟨by decide, by rfl, by rfl, by decide⟩

omit [PyUnicode] in
theorem setAttr_setAttr (n : Node) (q : QName) (w v : Str) : (n.setAttr q w).setAttr q v = n.setAttr q v := by
  obtain ⟨t, a, x, c, l⟩ := n
  simp only [Node.setAttr, Node.withAttrs, Node.attrs]
  congr 1
  induction a with
  | nil => simp [Node.setAttrL]
  | cons p a ih =>
    obtain ⟨q', v'⟩ := p
    simp only [Node.setAttrL]
    split_ifs with h
    · simp [Node.setAttrL]
    · simp [Node.setAttrL, h, ih]

/-- Assigning a version sets the attribute and nothing else. -/
theorem setVersion_run (heng : EngineOk eng) {v : Str} (hv : xmlOk v = true) (n : Node) : Premis.setVersion eng (some v) n = (.ok (), n.setAttr versionAttr v) := by
  have h := managerSet_str heng version_field.parse version_field.path version_field.canonical version_field.ok rfl hv (a := []) (s := n) (n := n) rfl (by
    unfold Writable
    simp only [Step.matches, List.isEmpty_nil, Bool.true_and]
    by_cases hq : (n.attr? versionAttr).isSome = true
    · rw [if_pos hq]; trivial
    · rw [if_neg hq]
      intro h
      cases h)
  show managerSet eng Premis.ctx (.ok (some (.str v))) _ _ _ n = _
  rw [h]
  congr 1
  show write _ _ n = _
  unfold write
  simp only [Step.matches, List.isEmpty_nil, Bool.true_and]
  by_cases hq : (n.attr? versionAttr).isSome = true
  · rw [if_pos hq]; rfl
  · rw [if_neg hq]; exact setAttr_setAttr n versionAttr [] v

omit [PyUnicode] in
theorem assignAll_append (ks : List Premis.Kwarg) (k : Premis.Kwarg) (n : Node) : Premis.assignAll (ks ++ [k]) n = (Premis.assignAll ks >>= fun _ => k.2) n := by
  induction ks generalizing n with
  | nil =>
    simp only [List.nil_append, Premis.assignAll]
    rw [bind_ok (show (pure () : M Unit) n = (.ok (), n) from rfl)]
    cases h : k.2 n with
    | mk r s => cases r with
      | ok u => rw [bind_ok h]; rfl
      | error e => rw [bind_err h]
  | cons x ks ih =>
    simp only [List.cons_append, Premis.assignAll]
    cases h : x.2 n with
    | mk r s => cases r with
      | ok u =>
        rw [bind_ok h, ih]
        cases h2 : Premis.assignAll ks s with
        | mk r2 s2 => cases r2 with
          | ok u2 => rw [bind_ok h2, bind_ok (show (x.2 >>= fun _ => Premis.assignAll ks) n = (.ok u2, s2) by rw [bind_ok h, h2])]
          | error e => rw [bind_err h2, bind_err (show (x.2 >>= fun _ => Premis.assignAll ks) n = (.error e, s2) by rw [bind_ok h, h2])]
      | error e => rw [bind_err h, bind_err (bind_err h)]

/-- The element of the new object before fields are assigned: the given one, or an empty `premis` element. -/
def startNode (node : Option Node) : Node := node.getD (Node.empty ⟨some Premis.ns, c%"premis"⟩)

/-- C64.  Without a version among the arguments the object has version 2.1; apart from that attribute the element is as the other arguments leave it. -/
theorem C64_default_version (heng : EngineOk eng) (node : Option Node) (kwargs : List Premis.Kwarg) (hk : ∀ k ∈ kwargs, k.1 ≠ c%"version") (n : Node)
    (hr : Premis.assignAll kwargs (startNode node) = (.ok (), n)) :
    Premis.premisInit eng node kwargs = (.ok (), n.setAttr versionAttr c%"2.1") := by
  have hc : (kwargs.map (·.1)).contains c%"version" = false := by
    rw [← Bool.not_eq_true, List.contains_iff_mem]
    intro h
    obtain ⟨k, hk1, hk2⟩ := List.mem_map.1 h
    exact hk k hk1 hk2
  unfold Premis.premisInit Premis.initObject
  simp only [hc, Bool.false_eq_true, if_false]
  rw [assignAll_append]
  have hr' : Premis.assignAll kwargs (node.getD (Node.empty ⟨some Premis.ns, c%"premis"⟩)) = (.ok (), n) := hr
  rw [bind_ok hr']
  exact setVersion_run heng (by decide) n

/-- C64.  A version among the arguments is not overridden: the arguments are assigned in their order, and nothing else. -/
theorem C64_given_version (node : Option Node) (kwargs : List Premis.Kwarg) (hk : ∃ k ∈ kwargs, k.1 = c%"version") :
    Premis.premisInit eng node kwargs = Premis.assignAll kwargs (startNode node) := by
  have hc : (kwargs.map (·.1)).contains c%"version" = true := by
    rw [List.contains_iff_mem]
    obtain ⟨k, hk1, hk2⟩ := hk
    exact List.mem_map.2 ⟨k, hk1, hk2⟩
  unfold Premis.premisInit Premis.initObject
  simp only [hc, if_true]
  rfl

/-- C64.  With a version as the only argument, the object has that version, and nothing else changes. -/
theorem C64_only_version (heng : EngineOk eng) (node : Option Node) (v : Str) (hv : xmlOk v = true) :
    Premis.premisInit eng node [(c%"version", Premis.setVersion eng (some v))] = (.ok (), (startNode node).setAttr versionAttr v) := by
  rw [C64_given_version node _ ⟨_, List.mem_singleton.2 rfl, rfl⟩]
  unfold Premis.assignAll
  rw [bind_ok (m := Premis.setVersion eng (some v)) (setVersion_run heng hv _)]
  rfl

omit [PyUnicode] in
theorem attr_setAttr (n : Node) (q : QName) (v : Str) : (n.setAttr q v).attr? q = some v := by
  obtain ⟨t, a, x, c, l⟩ := n
  simp only [Node.setAttr, Node.withAttrs, Node.attr?, Node.attrs]
  induction a with
  | nil => simp [Node.setAttrL]
  | cons p a ih =>
    obtain ⟨q', v'⟩ := p
    simp only [Node.setAttrL]
    split_ifs with h
    · simp
    · rw [List.lookup_cons]
      have : (q == q') = false := by simp [Ne.symm h]
      rw [this]
      exact ih

/-- Counterexample: loading an existing document sets its version to 2.1, whatever it was. -/
theorem C64_counterexample_overwritten (heng : EngineOk eng) (root : Node) :
    Premis.loadPremis eng root = (.ok (), root.setAttr versionAttr c%"2.1") ∧ (root.setAttr versionAttr c%"2.1").attr? versionAttr = some c%"2.1" :=
  ⟨C64_default_version heng (some root) [] (by simp) root rfl, attr_setAttr _ _ _⟩

end

example : Premis.premisInit refEngine none [(c%"version", Premis.setVersion refEngine (some c%"3.0"))] = (.ok (), .mk (.elem ⟨some Premis.ns, c%"premis"⟩) [(versionAttr, c%"3.0")] none [] none) :=
  C64_only_version refEngine_ok none _ (by decide)
example : Premis.premisInit refEngine none [] = (.ok (), .mk (.elem ⟨some Premis.ns, c%"premis"⟩) [(versionAttr, c%"2.1")] none [] none) :=
  C64_default_version refEngine_ok none [] (by simp) _ rfl


/-- The namespaces are those of the standards. -/
example : (Ead.short refEngine false [] (.mk (.elem ⟨some c%"urn:isbn:1-931666-22-9", c%"unittitle"⟩) [] (some c%"Letters, ")
    [.mk (.elem ⟨some c%"urn:isbn:1-931666-22-9", c%"unitdate"⟩) [] (some c%"1900") [] none] none)).1 =
    .ok (.copy (.mk (.elem ⟨some c%"urn:isbn:1-931666-22-9", c%"unittitle"⟩) [] (some c%"Letters, ") [] none)) := by decide +kernel

/-! ### the other theorems applied to documents -/

/-- A line group with lines that are indented in different ways. -/
def sampleLines : Node := .mk (.elem ⟨none, c%"lg"⟩) [] none [.mk (.elem ⟨none, c%"l"⟩) [(rendAttr, c%"indent")] none [] none, .mk (.elem ⟨none, c%"l"⟩) [(rendAttr, c%"indent12")] none [] none,
  .mk (.elem ⟨none, c%"l"⟩) [(rendAttr, c%"italic")] none [] none, .mk (.elem ⟨none, c%"l"⟩) [(rendAttr, c%"indented")] none [] none] none

example := C60_plain_indent refEngine_ok [0] sampleLines _ rfl rfl
example := C60_indent_number refEngine_ok [1] sampleLines _ 12 rfl (by decide)
example := C60_other_rend refEngine_ok [2] sampleLines _ c%"italic" rfl rfl (by decide)
example := C60_not_a_number refEngine_ok [3] sampleLines _ c%"ed" rfl rfl 'e' (by decide) (by decide)
example := C62_without_date refEngine_ok false [0] sampleTitle _ rfl (by decide)
example := C62_with_date refEngine_ok false [] sampleTitle _ [] _ _ rfl rfl (by simp) (by decide)
example := C63_date [0] samplePart _ rfl
example := C63_typed_note [0] samplePart _ rfl
example := C63_title_info refEngine_ok [0] samplePart _ rfl
example := C63_part_detail refEngine_ok [1] samplePart _ rfl
example := C63_part_extent refEngine_ok [2] samplePart _ rfl
example := C63_part refEngine_ok [] samplePart _ rfl
example := C64_given_version (eng := refEngine) none [(c%"version", Premis.setVersion refEngine (some c%"3.0"))] (by decide)

end Props
