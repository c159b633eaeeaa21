import Verif.Props.Search
import Verif.Props.Bundled
import Verif.Domain.BundledLists
/-
Property C117 for the list fields of the bundled classes that C77 leaves out: those whose XPath is more than one child step with a name (the list at the top of
Verif/Domain/BundledLists.lean, but for `language_codes`, which lists attributes: see C105).
-/
namespace Props
open XPath Xml Spec Fields Bundled

theorem nameTest_mono {ctx ctx' : Ctx} (h : Extends ctx ctx') {pfx nm t} (ht : nameTest ctx pfx nm = some t) : nameTest ctx' pfx nm = some t := by
  unfold nameTest at ht ⊢
  by_cases h1 : nm = c%"*"
  · rw [if_pos h1] at ht ⊢
    cases pfx with
    | none => exact ht
    | some p =>
      simp only at ht ⊢
      cases hn : ctx.namespaces with
      | none => rw [hn] at ht; cases ht
      | some nss =>
        obtain ⟨nss', h2, h3⟩ := h.namespaces nss hn
        rw [hn] at ht
        rw [h2]
        simp only at ht ⊢
        cases hl : nss.lookup p with
        | none => rw [hl] at ht; cases ht
        | some u => rw [hl] at ht; rw [h3 _ _ hl]; exact ht
  · rw [if_neg h1] at ht ⊢
    cases hq : resName ctx pfx nm with
    | none => rw [hq] at ht; cases ht
    | some q => rw [hq] at ht; rw [resName_mono h hq]; exact ht

/-- More declarations do not change the meaning of a path. -/
theorem lang_mono {ctx ctx' : Ctx} (h : Extends ctx ctx') : ∀ (e : Expr) {P : Lang}, lang ctx e = some P → lang ctx' e = some P
  | .binary l .slash r, P, hp => by
    simp only [lang] at hp ⊢
    split at hp
    · rename_i A B hA hB
      rw [lang_mono h l hA, lang_mono h r hB]; exact hp
    · cases hp
  | .binary l .dslash r, P, hp => by
    simp only [lang] at hp ⊢
    split at hp
    · rename_i A B hA hB
      rw [lang_mono h l hA, lang_mono h r hB]; exact hp
    · cases hp
  | .binary l .union r, P, hp => by
    simp only [lang] at hp ⊢
    split at hp
    · rename_i A B hA hB
      rw [lang_mono h l hA, lang_mono h r hB]; exact hp
    · cases hp
  | .abbrev false, P, hp => hp
  | .step ax (.name pfx nm) ps, P, hp => by
    simp only [lang] at hp ⊢
    by_cases hax : ax = none ∨ ax = some c%"child"
    · rw [if_pos hax] at hp ⊢
      split at hp
      · rename_i test l ht hl
        rw [nameTest_mono h ht, resPreds_mono h ps hl]; exact hp
      · cases hp
    · rw [if_neg hax] at hp; cases hp
  | .binary l .or r, P, hp => by simp [lang] at hp
  | .binary l .and r, P, hp => by simp [lang] at hp
  | .binary l .eq r, P, hp => by simp [lang] at hp
  | .binary l .ne r, P, hp => by simp [lang] at hp
  | .binary l .lt r, P, hp => by simp [lang] at hp
  | .binary l .le r, P, hp => by simp [lang] at hp
  | .binary l .gt r, P, hp => by simp [lang] at hp
  | .binary l .ge r, P, hp => by simp [lang] at hp
  | .binary l .plus r, P, hp => by simp [lang] at hp
  | .binary l .minus r, P, hp => by simp [lang] at hp
  | .binary l .mult r, P, hp => by simp [lang] at hp
  | .binary l .div r, P, hp => by simp [lang] at hp
  | .binary l .mod r, P, hp => by simp [lang] at hp
  | .step ax (.type _ _) ps, P, hp => by simp [lang] at hp
  | .abbrev true, P, hp => by simp [lang] at hp
  | .lit _, P, hp => by simp [lang] at hp
  | .int _, P, hp => by simp [lang] at hp
  | .float _, P, hp => by simp [lang] at hp
  | .neg _, P, hp => by simp [lang] at hp
  | .pred _ _, P, hp => by simp [lang] at hp
  | .root, P, hp => by simp [lang] at hp
  | .abs _ _, P, hp => by simp [lang] at hp
  | .var _ _, P, hp => by simp [lang] at hp
  | .call _ _ _, P, hp => by simp [lang] at hp

/-- A list field of a bundled class. -/
structure DeepList where
  name : Str
  namespaces : List (Str × Str)
  kind : LKind
  xpath : Str

/-- The list fields of eulxml/xmlmap/{dc,eadmap,teimap}.py with longer XPaths. -/
def deepLists : List DeepList := [
  -- dc.py:110
  ⟨c%"dc.DublinCore.elements", dcNs, .node, c%"dc:*"⟩,
  -- eadmap.py:103
  ⟨c%"eadmap.ControlledAccessHeadings.terms", eadmapNs, .node,
    c%"e:corpname|e:famname|e:function|e:genreform|e:geogname|e:occupation|e:persname|e:subject|e:title"⟩,
  -- eadmap.py:270
  ⟨c%"eadmap.Component.c", eadmapNs, .node, c%"e:c02|e:c03|e:c04|e:c05|e:c06|e:c07|e:c08|e:c09|e:c10|e:c11|e:c12"⟩,
  -- eadmap.py:379
  ⟨c%"eadmap.ArchivalDescription.extent", eadmapNs, .str, c%"e:did/e:physdesc/e:extent"⟩,
  -- eadmap.py:454
  ⟨c%"eadmap.ProfileDescription.languages", eadmapNs, .str, c%"e:langusage/e:language"⟩,
  -- teimap.py:56
  ⟨c%"teimap.TeiEpigraph.quote", teimapNs, .node, c%"tei:q|tei:quote|tei:cit/tei:q|tei:cit/tei:quote"⟩,
  -- teimap.py:75
  ⟨c%"teimap.TeiDiv.floatingText", teimapNs, .node, c%"tei:floatingText/tei:body/tei:div"⟩,
  -- teimap.py:79
  ⟨c%"teimap.TeiFloatingText.line_group", teimapNs, .node, c%".//tei:lg"⟩,
  -- teimap.py:80
  ⟨c%"teimap.TeiFloatingText.line", teimapNs, .node, c%".//tei:l"⟩,
  -- teimap.py:102
  ⟨c%"teimap.TeiSection.all_figures", teimapNs, .node, c%".//tei:figure"⟩,
  -- teimap.py:119
  ⟨c%"teimap.TeiHeader.author_list", teimapNs, .node, c%"tei:fileDesc/tei:titleStmt/tei:author/tei:name"⟩,
  -- teimap.py:121
  ⟨c%"teimap.TeiHeader.editor_list", teimapNs, .node, c%"tei:fileDesc/tei:titleStmt/tei:editor/tei:name"⟩]

/-- The check: the XPath parses, and is of the kind. -/
def searchable (f : DeepList) : Bool := match parse0 f.xpath with
  | .ok e => match lang ⟨some f.namespaces, []⟩ e with
    | some P => !P []
    | none => false
  | .error _ => false

theorem deepLists_checked : deepLists.all searchable = true := by decide +kernel

/-- C117.  The XPath of each of these fields is of the kind, in every context that has the namespaces of its class. -/
theorem C117_bundled_path {f : DeepList} (hf : f ∈ deepLists) {ctx : Ctx} (hctx : Extends ⟨some f.namespaces, []⟩ ctx) :
    ∃ P, SearchPath ctx f.xpath (ast f.xpath) P := by
  have h := List.all_eq_true.1 deepLists_checked f hf
  unfold searchable at h
  unfold ast
  split at h
  · rename_i e he
    split at h
    · rename_i P hP
      refine ⟨P, ?_⟩
      simp only [he]
      exact ⟨he, lang_mono hctx e hP, by simpa using h⟩
    · cases h
  · cases h

/-- C117.  So all theorems of C117 hold for these fields, on every element on which the members are not nested (and, for the two lists of strings, have no children). -/
theorem C117_bundled [PyUnicode] {eng : Engine} (heng : SearchOk eng) {f : DeepList} (hf : f ∈ deepLists) {ctx : Ctx} (hctx : Extends ⟨some f.namespaces, []⟩ ctx) :
    ∃ P, ∀ (s n : Node) (o : Node.Addr), s.get o = some n → Scattered P n →
      (f.kind = .node → SearchAt eng xpathNumber ctx f.xpath (ast f.xpath) P nodeKind (wayView P) o s n) ∧
      (f.kind = .str → (∀ m ∈ inside P n, m.children = []) → SearchAt eng xpathNumber ctx f.xpath (ast f.xpath) P (strKind ctx (ast f.xpath)) strView o s n) := by
  obtain ⟨P, hP⟩ := C117_bundled_path hf hctx
  refine ⟨P, fun s n o hn hsc => ⟨fun _ => ?_, fun _ hm => ?_⟩⟩
  · exact ⟨heng, xpathNumber_ok, hP, .node, hn, fun _ _ => trivial, hsc⟩
  · exact ⟨heng, xpathNumber_ok, hP, covered_str _ _ _ _, hn, hm, hsc⟩

/-- To which of these lists nothing can be added. -/
theorem C117_bundled_refuse : (deepLists.filter (fun f => refuses (ast f.xpath))).map DeepList.name =
    [c%"eadmap.ControlledAccessHeadings.terms", c%"eadmap.Component.c", c%"teimap.TeiEpigraph.quote", c%"teimap.TeiFloatingText.line_group", c%"teimap.TeiFloatingText.line",
      c%"teimap.TeiSection.all_figures"] := by decide +kernel

/-- `<ead:c01><e:did/><e:c02/><e:c02/></ead:c01>`: a component with two parts, none of them with parts in a part. -/
def componentDoc : Node := .mk (.elem ⟨some c%"urn:isbn:1-931666-22-9", c%"c01"⟩) [] none
  [.empty ⟨some c%"urn:isbn:1-931666-22-9", c%"did"⟩, .empty ⟨some c%"urn:isbn:1-931666-22-9", c%"c02"⟩, .empty ⟨some c%"urn:isbn:1-931666-22-9", c%"c03"⟩] none

example : (inside ((lang ⟨some eadmapNs, []⟩ (ast c%"e:c02|e:c03|e:c04|e:c05|e:c06|e:c07|e:c08|e:c09|e:c10|e:c11|e:c12")).getD Lang.any) componentDoc).length = 2 := by decide +kernel

end Props
