import Verif.XmlMap.TrimEnds
import Verif.Props.Found
import Verif.Props.Taking
/-
Property C125: assigning what is already there changes nothing; the last of several assignments wins.

Model: `managerSet`, `listSet`, `listAssign`.  Specification: Verif/Spec/Found.lean (what an assignment to the found node does).
-/
namespace Props
open XPath Xml Spec Fields

/-- The node shows exactly this text: an element without children that has this text, or an attribute, or a text in front of the first child. -/
def Bears (s : Node) (r : Ref) (t : Str) : Prop := ∃ m, s.get r.addr = some m ∧ ((∃ b, r = .elem b ∧ m.children = [] ∧ m.text = some t) ∨ (∃ b q, r = .attr b q ∧ m.attr? q = some t) ∨ ∃ b, r = .text b ∧ m.text = some t)

theorem setAttrL_there (q : QName) (v : Str) : ∀ (l : List (QName × Str)), l.lookup q = some v → Node.setAttrL q v l = l
  | [], h => by cases h
  | (q', v') :: l, h => by
    rw [Node.setAttrL]
    split
    · rename_i hq
      subst hq
      simp at h
      rw [h]
    · rename_i hq
      rw [List.lookup_cons, show (q == q') = false from by simpa using fun h => hq h.symm] at h
      rw [setAttrL_there q v l h]

theorem setText_there {m : Node} {t : Str} (h : m.text = some t) : m.setText (some t) = m := by
  cases m
  simp only [Node.text] at h
  subst h
  rfl

theorem setAttr_there {m : Node} {q : QName} {t : Str} (h : m.attr? q = some t) : m.setAttr q t = m := by
  cases m
  simp only [Node.attr?, Node.attrs] at h
  simp only [Node.setAttr, Node.withAttrs, Node.attrs]
  rw [setAttrL_there q t _ h]

section
variable {ctx : Ctx} {e : Expr} {s : Node}

/-- What an assignment of the text that is there makes of the document is the document. -/
theorem assigned_same {t : Str} {r : Ref} {s' : Node} (hb : Bears s r t) (h : Assigned ctx e t s r s') : s' = s := by
  obtain ⟨m, hm, hc⟩ := hb
  cases h with
  | elem b m' h1 h2 =>
    rcases hc with ⟨b', hr, h3, h4⟩ | ⟨b', q, hr, -⟩ | ⟨b', hr, -⟩
    · exact Node.modify_id hm (setText_there h4)
    · cases hr
    · cases hr
  | attr b q ax pfx nm h1 h2 =>
    rcases hc with ⟨b', hr, -⟩ | ⟨b', q', hr, h3⟩ | ⟨b', hr, -⟩
    · cases hr
    · cases hr
      exact Node.modify_id hm (setAttr_there h3)
    · cases hr
  | text b ax lit h1 =>
    rcases hc with ⟨b', hr, -⟩ | ⟨b', q', hr, -⟩ | ⟨b', hr, h3⟩
    · cases hr
    · cases hr
    · exact Node.modify_id hm (setText_there h3)

/-- After an assignment the node shows the text. -/
theorem assigned_bears {t : Str} {r : Ref} {s' : Node} {m : Node} (hm : s.get r.addr = some m) (h : Assigned ctx e t s r s') : Bears s' r t := by
  cases h with
  | elem b m' h1 h2 =>
    refine ⟨m'.setText (some t), by show (s.modify b _).get b = _; rw [Node.get_modify, h1]; rfl, .inl ⟨b, rfl, ?_, ?_⟩⟩
    · cases m'; exact h2
    · cases m'; rfl
  | attr b q ax pfx nm h1 h2 =>
    have hm : s.get b = some m := hm
    exact ⟨m.setAttr q t, by show (s.modify b _).get b = _; rw [Node.get_modify, hm]; rfl, .inr (.inl ⟨b, q, rfl, by simp [Node.attr?_setAttr]⟩)⟩
  | text b ax lit h1 =>
    have hm : s.get b = some m := hm
    exact ⟨m.setText (some t), by show (s.modify b _).get b = _; rw [Node.get_modify, hm]; rfl, .inr (.inr ⟨b, rfl, by cases m; rfl⟩)⟩

/-- Two assignments to the same node: the document is the one that the second alone makes. -/
theorem assigned_twice {t u : Str} {r : Ref} {s' s'' : Node} (h1 : Assigned ctx e t s r s') (h2 : Assigned ctx e u s' r s'') : Assigned ctx e u s r s'' := by
  cases h1 with
  | elem b m1 h3 h4 =>
    cases h2 with
    | elem _ m2 h5 h6 =>
      rw [Node.modify_modify]
      have : (fun n : Node => Node.setText (some u) (Node.setText (some t) n)) = Node.setText (some u) := by funext n; cases n; rfl
      rw [show (Node.setText (some u) ∘ Node.setText (some t)) = Node.setText (some u) from this]
      exact .elem b m1 h3 h4
  | attr b q ax pfx nm h3 h4 =>
    cases h2 with
    | attr _ _ ax' pfx' nm' h5 h6 =>
      rw [Node.modify_modify]
      have : (Node.setAttr q u ∘ Node.setAttr q t) = Node.setAttr q u := by
        funext n
        cases n
        simp only [Function.comp, Node.setAttr, Node.withAttrs, Node.attrs, Node.setAttrL_setAttrL]
      rw [this]
      exact .attr b q ax pfx nm h3 h4
  | text b ax lit h3 =>
    cases h2 with
    | text _ ax' lit' h5 =>
      rw [Node.modify_modify]
      have : (Node.setText (some u) ∘ Node.setText (some t)) = Node.setText (some u) := by funext n; cases n; rfl
      rw [this]
      exact .text b ax lit h3

variable [PyUnicode] {eng : Engine} {a : Node.Addr} {xp : Str}

/-- C125.  Assigning the text that the found node already shows leaves the document as it is (and if XML allows the text and the XPath names the node, it does not raise). -/
theorem C125_same {t : Str} {r : Ref} {rs : List Ref} (hsel : eng.xpath xp s a ctx = .ok (.nodes (r :: rs))) (hfit : FitsStep ctx e r) (hsane : Sane r) (hb : Bears s r t) :
    (managerSet eng ctx (.ok (some (.str t))) xp e (.elem a) s).2 = s ∧
    (xmlOk t = true → (∃ s', Assigned ctx e t s r s') → managerSet eng ctx (.ok (some (.str t))) xp e (.elem a) s = (.ok (), s)) := by
  obtain ⟨m, hm, -⟩ := id hb
  rcases C120_assign t hsel hfit hsane hm with ⟨s', h1, h2, h3⟩ | ⟨h1, er, h2⟩
  · have := assigned_same hb h1
    subst this
    exact ⟨by rw [h3], fun _ _ => h3⟩
  · refine ⟨by rw [h2], fun hx ⟨s', hs⟩ => ?_⟩
    rcases h1 with h1 | h1
    · rw [h1] at hx; cases hx
    · exact absurd hs (h1 s')

/-- C125.  Twice is once: after an assignment that worked, the same assignment changes nothing and works, provided that the XPath still selects this node first. -/
theorem C125_twice {t : Str} {r : Ref} {rs rs' : List Ref} {s' m : Node} (hsel : eng.xpath xp s a ctx = .ok (.nodes (r :: rs))) (hfit : FitsStep ctx e r) (hsane : Sane r) (hm : s.get r.addr = some m)
    (h : managerSet eng ctx (.ok (some (.str t))) xp e (.elem a) s = (.ok (), s')) (hsel' : eng.xpath xp s' a ctx = .ok (.nodes (r :: rs'))) :
    managerSet eng ctx (.ok (some (.str t))) xp e (.elem a) s' = (.ok (), s') := by
  rcases C120_assign t hsel hfit hsane hm with ⟨s1, h1, h2, h3⟩ | ⟨-, er, h2⟩
  · rw [h3] at h
    cases h
    have hb := assigned_bears hm h1
    refine (C125_same hsel' hfit hsane hb).2 h2 ?_
    obtain ⟨m', hm', -⟩ := id hb
    cases h1 with
    | elem b m1 h5 h6 => exact ⟨_, .elem b _ (by rw [Node.get_modify, h5]; rfl) (by cases m1; exact h6)⟩
    | attr b q ax pfx nm h5 h6 => exact ⟨_, .attr b q ax pfx nm h5 h6⟩
    | text b ax lit h5 => exact ⟨_, .text b ax lit h5⟩
  · rw [h2] at h
    cases h

/-- C125.  The last write wins: after two assignments that worked the document is the one that the second alone makes. -/
theorem C125_last {t u : Str} {r : Ref} {rs rs' : List Ref} {s1 s2 m : Node} (hsel : eng.xpath xp s a ctx = .ok (.nodes (r :: rs))) (hfit : FitsStep ctx e r) (hsane : Sane r) (hm : s.get r.addr = some m)
    (h1 : managerSet eng ctx (.ok (some (.str t))) xp e (.elem a) s = (.ok (), s1)) (hsel' : eng.xpath xp s1 a ctx = .ok (.nodes (r :: rs')))
    (h2 : managerSet eng ctx (.ok (some (.str u))) xp e (.elem a) s1 = (.ok (), s2)) : managerSet eng ctx (.ok (some (.str u))) xp e (.elem a) s = (.ok (), s2) := by
  rcases C120_assign t hsel hfit hsane hm with ⟨s1', h3, -, h4⟩ | ⟨-, er, h4⟩
  · rw [h4] at h1
    cases h1
    obtain ⟨m', hm', -⟩ := assigned_bears hm h3
    rcases C120_assign u hsel' hfit hsane hm' with ⟨s2', h5, hx, h6⟩ | ⟨-, er, h6⟩
    · rw [h6] at h2
      cases h2
      have h7 := assigned_twice h3 h5
      rcases C120_assign u hsel hfit hsane hm with ⟨s3, h8, -, h9⟩ | ⟨h8, -⟩
      · have : s3 = s2 := by
          cases h7 <;> cases h8 <;> rfl
        rw [h9, this]
      · rcases h8 with h8 | h8
        · rw [h8] at hx; cases hx
        · exact absurd h7 (h8 _)
    · rw [h6] at h2
      cases h2
  · rw [h4] at h1
    cases h1

variable {α : Type} [DecidableEq α] {mapper : Item → Except PyErr α} {toXml : α → Except PyErr (Option Str)}

/-- Item number `j` of the list: the value whose text the selected node shows already. -/
def Stored (ctx : Ctx) (e : Expr) (toXml : α → Except PyErr (Option Str)) (s : Node) (r : Ref) (v : α) : Prop := ∃ t, toXml v = .ok (some t) ∧ Bears s r t ∧ FitsStep ctx e r ∧ Sane r

omit [DecidableEq α] in
/-- C125.  `obj.list[i] = obj.list[i]`, and any value whose text the item shows already: nothing changes. -/
theorem C125_item {key : Int} {rs : List Ref} {r : Ref} {v : α} (hsel : eng.xpath xp s a ctx = .ok (.nodes rs)) (hkey : pyGet rs key = .ok r) (hv : Stored ctx e toXml s r v) :
    (listSet eng ctx (storeText ctx toXml e) xp e (.elem a) key v s).2 = s := by
  obtain ⟨t, ht, hb, hfit, hsane⟩ := hv
  obtain ⟨m, hm, -⟩ := id hb
  rcases C120_item toXml v t ht key hsel hkey hfit hsane hm with ⟨s', h1, -, h3⟩ | ⟨-, er, h2⟩
  · rw [h3]
    exact assigned_same hb h1
  · rw [h2]

omit [DecidableEq α] in
theorem setFrom_there {rs : List Ref} (hsel : eng.xpath xp s a ctx = .ok (.nodes rs)) : ∀ (l : List α) (i : Nat), (∀ (k : Nat) v, l[k]? = some v → ∃ r, rs[i + k]? = some r ∧ Stored ctx e toXml s r v) →
    (listSetFrom eng ctx (storeText ctx toXml e) xp e (.elem a) i l s).2 = s
  | [], _, _ => rfl
  | v :: l, i, h => by
    obtain ⟨r, hr, hv⟩ := h 0 v rfl
    have hlen : i < rs.length := (List.getElem?_eq_some_iff.mp hr).1
    have hkey : pyGet rs (i : Int) = .ok r := by
      rw [pyGet_pos, show pos rs.length (i : Int) = some i from by unfold pos; rw [if_pos (by omega)]; simp]
      simp only [Nat.add_zero] at hr
      simp only [hr]
    have h1 := C125_item hsel hkey hv
    unfold listSetFrom
    cases hx : listSet eng ctx (storeText ctx toXml e) xp e (.elem a) (i : Int) v s with
    | mk x s1 =>
      rw [hx] at h1
      simp only at h1
      rw [h1] at hx
      cases x with
      | error er => rw [bind_err hx]
      | ok u =>
        rw [bind_ok hx]
        exact setFrom_there hsel l (i + 1) (fun k w hw => by
          obtain ⟨r', h2, h3⟩ := h (k + 1) w (by simpa using hw)
          exact ⟨r', by rw [← h2]; congr 1; omega, h3⟩)

omit [DecidableEq α] in
/-- C125.  `obj.list = list(obj.list)`: assigning a list the values whose texts its items show already changes nothing. -/
theorem C125_list {rs : List Ref} {l : List α} (hsel : eng.xpath xp s a ctx = .ok (.nodes rs)) (hlen : rs.length = l.length)
    (hread : ∀ (j : Nat) r v, rs[j]? = some r → l[j]? = some v → Yields mapper s r v ∧ Stored ctx e toXml s r v) : (listAssign eng ctx mapper (storeText ctx toXml e) xp e (.elem a) l s).2 = s := by
  have h1 : (listSetFrom eng ctx (storeText ctx toXml e) xp e (.elem a) 0 l s).2 = s := setFrom_there hsel l 0 (fun k v hv => by
    have hk : k < rs.length := by rw [hlen]; exact (List.getElem?_eq_some_iff.mp hv).1
    exact ⟨rs[k], by rw [Nat.zero_add]; exact List.getElem?_eq_getElem hk, (hread k _ v (List.getElem?_eq_getElem hk) hv).2⟩)
  have hn : listLen eng ctx mapper xp (.elem a) s = (.ok l.length, s) := by
    unfold listLen listData
    refine bind_ok ?_
    rw [bind_ok (matches_of eng ctx xp hsel)]
    show ofExcept (mapMatches mapper s rs) s = _
    rw [mapMatches_of mapper hlen (fun j r v h2 h3 => (hread j r v h2 h3).1)]
    rfl
  unfold listAssign
  cases hx : listSetFrom eng ctx (storeText ctx toXml e) xp e (.elem a) 0 l s with
  | mk x s1 =>
    rw [hx] at h1
    simp only at h1
    subst h1
    cases x with
    | error er => rw [bind_err hx]
    | ok u =>
      rw [bind_ok hx, bind_ok hn, listTrimAll_stop hn (Nat.le_refl _)]

/-- The same, and the XPath names the node and XML allows the text. -/
def Stores (ctx : Ctx) (e : Expr) (toXml : α → Except PyErr (Option Str)) (s : Node) (r : Ref) (v : α) : Prop :=
  ∃ t s', toXml v = .ok (some t) ∧ Bears s r t ∧ FitsStep ctx e r ∧ Sane r ∧ xmlOk t = true ∧ Assigned ctx e t s r s'

omit [DecidableEq α] in
/-- C125.  … and it works if XML allows the text and the XPath names the node. -/
theorem C125_item_works {key : Int} {rs : List Ref} {r : Ref} {v : α} (hsel : eng.xpath xp s a ctx = .ok (.nodes rs)) (hkey : pyGet rs key = .ok r) (hv : Stores ctx e toXml s r v) :
    listSet eng ctx (storeText ctx toXml e) xp e (.elem a) key v s = (.ok (), s) := by
  obtain ⟨t, s1, ht, hb, hfit, hsane, hx, hs⟩ := hv
  obtain ⟨m, hm, -⟩ := id hb
  rcases C120_item toXml v t ht key hsel hkey hfit hsane hm with ⟨s', h1, -, h3⟩ | ⟨h1 | h1, -⟩
  · rw [h3, assigned_same hb h1]
  · rw [h1] at hx; cases hx
  · exact absurd hs (h1 _)

omit [DecidableEq α] in
theorem setFrom_works {rs : List Ref} (hsel : eng.xpath xp s a ctx = .ok (.nodes rs)) : ∀ (l : List α) (i : Nat), (∀ (k : Nat) v, l[k]? = some v → ∃ r, rs[i + k]? = some r ∧ Stores ctx e toXml s r v) →
    listSetFrom eng ctx (storeText ctx toXml e) xp e (.elem a) i l s = (.ok (), s)
  | [], _, _ => rfl
  | v :: l, i, h => by
    obtain ⟨r, hr, hv⟩ := h 0 v rfl
    have hlen : i < rs.length := (List.getElem?_eq_some_iff.mp hr).1
    have hkey : pyGet rs (i : Int) = .ok r := by
      rw [pyGet_pos, show pos rs.length (i : Int) = some i from by unfold pos; rw [if_pos (by omega)]; simp]
      simp only [Nat.add_zero] at hr
      simp only [hr]
    unfold listSetFrom
    rw [bind_ok (C125_item_works hsel hkey hv)]
    exact setFrom_works hsel l (i + 1) (fun k w hw => by
      obtain ⟨r', h2, h3⟩ := h (k + 1) w (by simpa using hw)
      exact ⟨r', by rw [← h2]; congr 1; omega, h3⟩)

omit [DecidableEq α] in
/-- C125.  … and it does not raise if XML allows the texts and the XPath names the nodes. -/
theorem C125_list_works {rs : List Ref} {l : List α} (hsel : eng.xpath xp s a ctx = .ok (.nodes rs)) (hlen : rs.length = l.length)
    (hread : ∀ (j : Nat) r v, rs[j]? = some r → l[j]? = some v → Yields mapper s r v ∧ Stores ctx e toXml s r v) : listAssign eng ctx mapper (storeText ctx toXml e) xp e (.elem a) l s = (.ok (), s) := by
  have h1 : listSetFrom eng ctx (storeText ctx toXml e) xp e (.elem a) 0 l s = (.ok (), s) := setFrom_works hsel l 0 (fun k v hv => by
    have hk : k < rs.length := by rw [hlen]; exact (List.getElem?_eq_some_iff.mp hv).1
    exact ⟨rs[k], by rw [Nat.zero_add]; exact List.getElem?_eq_getElem hk, (hread k _ v (List.getElem?_eq_getElem hk) hv).2⟩)
  have hn : listLen eng ctx mapper xp (.elem a) s = (.ok l.length, s) := by
    unfold listLen listData
    refine bind_ok ?_
    rw [bind_ok (matches_of eng ctx xp hsel)]
    show ofExcept (mapMatches mapper s rs) s = _
    rw [mapMatches_of mapper hlen (fun j r v h2 h3 => (hread j r v h2 h3).1)]
    rfl
  unfold listAssign
  rw [bind_ok h1, bind_ok hn, listTrimAll_stop hn (Nat.le_refl _)]

end
/-- The hypotheses are met: the attribute at the end of `.//a[@b][last()]/@b` has the value `old`, and assigning it changes nothing. -/
example : Bears lastDoc (.attr [1, 0] ⟨none, c%"b"⟩) c%"old" ∧ managerSet lastEngine sampleCtx (.ok (some (.str c%"old"))) lastXPath (ast lastXPath) (.elem []) lastDoc = (.ok (), lastDoc) := by
  have hb : Bears lastDoc (.attr [1, 0] ⟨none, c%"b"⟩) c%"old" := ⟨_, rfl, .inr (.inl ⟨_, _, rfl, rfl⟩)⟩
  exact ⟨hb, (C125_same (rs := []) rfl last_fits (by decide : c%"b" ≠ c%"text") hb).2 (by decide) ⟨_, .attr _ _ _ _ _ last_ends rfl⟩⟩

/-- The same for a list in an order other than that of the document. -/
example : (listAssign backEngine sampleCtx readElem (storeText sampleCtx (fun v => .ok (some v)) (ast c%"//a")) c%"//a" (ast c%"//a") (.elem []) [c%"two", c%"one"] listDoc) = (.ok (), listDoc) := by
  have hends : ∀ ax t, ¬ EndsIn (ast c%"//a") ax t := fun ax t h => by
    have h := endsIn_iff.1 h
    rw [show findTerminalStep (ast c%"//a") = none by decide +kernel] at h
    cases h
  have hfit : ∀ r, FitsStep sampleCtx (ast c%"//a") r := fun r => ⟨fun ax pfx nm h => absurd h (hends _ _), fun ax lit h => absurd h (hends _ _)⟩
  refine C125_list_works (rs := [.elem [3], .elem [0]]) rfl rfl (fun j r v h1 h2 => ?_)
  match j, h1, h2 with
  | 0, h1, h2 => cases h1; cases h2; exact ⟨⟨_, rfl, rfl⟩, _, _, rfl, ⟨_, rfl, .inl ⟨_, rfl, rfl, rfl⟩⟩, hfit _, trivial, by decide, .elem _ _ rfl rfl⟩
  | 1, h1, h2 => cases h1; cases h2; exact ⟨⟨_, rfl, rfl⟩, _, _, rfl, ⟨_, rfl, .inl ⟨_, rfl, rfl, rfl⟩⟩, hfit _, trivial, by decide, .elem _ _ rfl rfl⟩

end Props
