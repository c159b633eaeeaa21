import Verif.Core.SchemaTypes
import Verif.Props.TypedField
import Mathlib.Data.List.Sort
/-
Properties C44-C46: order of declaration, choices of schema fields, lookup of schema types; C67: what a list field over a simple path reads.

Model: Verif/Core/SchemaTypes.lean.
-/
namespace Props
open Core Py Xml XPath Fields Spec

/-! ### C44 -/

/-- The fields of the classes that were created, in program order. -/
def created (rs : List (Except PyErr (Dict Str Nat))) : Dict Str Nat := (rs.filterMap Except.toOption).flatten

theorem runBody_eq (ctr : Nat) (ds : List Decl) : (runBody ctr ds).2 = ctr + ds.length ∧ (runBody ctr ds).1.map (fun x => (x.1, x.2.1)) = ds ∧
    ((runBody ctr ds).1.map (fun x => x.2.2)).Pairwise (· < ·) ∧ ∀ x ∈ (runBody ctr ds).1, ctr ≤ x.2.2 ∧ x.2.2 < ctr + ds.length := by
  induction ds generalizing ctr with
  | nil => simp [runBody]
  | cons d ds ih =>
    obtain ⟨x, k⟩ := d
    obtain ⟨h1, h2, h3, h4⟩ := ih (ctr + 1)
    simp only [runBody, List.map_cons, h1, h2, List.pairwise_cons, List.length_cons]
    refine ⟨by omega, trivial, ⟨?_, h3⟩, ?_⟩
    · intro c hc
      obtain ⟨y, hy, rfl⟩ := List.mem_map.1 hc
      have := h4 y hy; omega
    · intro y hy
      rcases List.mem_cons.1 hy with rfl | hy
      · simp
      · have := h4 y hy; omega

theorem runMeta_eq (ctr : Nat) (fs : List (Str × DeclKind × Nat)) : ctr ≤ (runMeta ctr fs).2 ∧
    ∀ d, (runMeta ctr fs).1 = .ok d → d = fs.map (fun x => (x.1, x.2.2)) := by
  induction fs generalizing ctr with
  | nil => simp [runMeta]
  | cons f fs ih =>
    obtain ⟨x, k, c⟩ := f
    cases k with
    | plain =>
      obtain ⟨h1, h2⟩ := ih ctr
      simp only [runMeta]
      cases hr : runMeta ctr fs with
      | mk r n =>
        rw [hr] at h1 h2
        cases r with
        | error e => exact ⟨h1, fun d h => by simp at h⟩
        | ok d' => refine ⟨h1, fun d h => ?_⟩; simp at h; subst h; rw [h2 d' rfl]; rfl
    | schema ok =>
      obtain ⟨h1, h2⟩ := ih (ctr + 1)
      simp only [runMeta]
      cases ok with
      | false => simp
      | true =>
        simp only [if_true]
        cases hr : runMeta (ctr + 1) fs with
        | mk r n =>
          rw [hr] at h1 h2
          simp only at h1
          cases r with
          | error e => exact ⟨by simp only; omega, fun d h => by simp at h⟩
          | ok d' => refine ⟨by simp only; omega, fun d h => ?_⟩; simp at h; subst h; rw [h2 d' rfl]; rfl

theorem runClass_eq (ctr : Nat) (ds : List Decl) : ctr + ds.length ≤ (runClass ctr ds).2 ∧
    ∀ d, (runClass ctr ds).1 = .ok d → d.map (·.1) = ds.map (·.1) ∧ (d.map (·.2)).Pairwise (· < ·) ∧ ∀ x ∈ d, ctr ≤ x.2 ∧ x.2 < ctr + ds.length := by
  obtain ⟨h1, h2, h3, h4⟩ := runBody_eq ctr ds
  obtain ⟨k1, k2⟩ := runMeta_eq (runBody ctr ds).2 (runBody ctr ds).1
  unfold runClass
  refine ⟨by simp only; omega, fun d hd => ?_⟩
  have := k2 d hd
  subst this
  refine ⟨?_, ?_, ?_⟩
  · conv_rhs => rw [← h2]
    simp [Function.comp_def]
  · simpa [Function.comp_def] using h3
  · intro x hx
    obtain ⟨y, hy, rfl⟩ := List.mem_map.1 hx
    exact h4 y hy

/-- C44.  Over a whole program, with plain and schema fields, and with class statements that fail in between, the fields of the classes are numbered
in the order of their declaration. -/
theorem C44_numbered_in_order (ctr : Nat) (prog : List (List Decl)) :
    ((created (runClasses ctr prog)).map (·.2)).Pairwise (· < ·) ∧ ∀ x ∈ created (runClasses ctr prog), ctr ≤ x.2 := by
  induction prog generalizing ctr with
  | nil => simp [created, runClasses]
  | cons ds prog ih =>
    obtain ⟨h1, h2⟩ := runClass_eq ctr ds
    obtain ⟨k1, k2⟩ := ih (runClass ctr ds).2
    simp only [runClasses]
    cases hr : (runClass ctr ds).1 with
    | error e =>
      have : created (Except.error e :: runClasses (runClass ctr ds).2 prog) = created (runClasses (runClass ctr ds).2 prog) := by
        unfold created
        rw [List.filterMap_cons]
        rfl
      rw [this]
      exact ⟨k1, fun x hx => by have := k2 x hx; omega⟩
    | ok d =>
      obtain ⟨g1, g2, g3⟩ := h2 d hr
      have : created (Except.ok d :: runClasses (runClass ctr ds).2 prog) = d ++ created (runClasses (runClass ctr ds).2 prog) := by
        unfold created
        rw [List.filterMap_cons]
        rfl
      rw [this, List.map_append, List.pairwise_append]
      refine ⟨⟨g2, k1, ?_⟩, ?_⟩
      · intro a ha b hb
        obtain ⟨x, hx, rfl⟩ := List.mem_map.1 ha
        obtain ⟨y, hy, rfl⟩ := List.mem_map.1 hb
        have := g3 x hx; have := k2 y hy; omega
      · intro x hx
        rcases List.mem_append.1 hx with hx | hx
        · exact (g3 x hx).1
        · have := k2 x hx; omega

/-- C44.  The fields of a class that is created are those declared, in the same order: replaced schema fields keep their place. -/
theorem C44_replaced_in_place (ctr : Nat) (ds : List Decl) (d : Dict Str Nat) (h : (runClass ctr ds).1 = .ok d) : d.keys = ds.map (·.1) :=
  ((runClass_eq ctr ds).2 d h).1

theorem foldl_set_new (table : Dict Str Nat) (d : Dict Nat Str) (h : (d.map (·.1) ++ table.map (·.2)).Nodup) :
    table.foldl (fun (d : Dict Nat Str) (p : Str × Nat) => d.set p.2 p.1) d = d ++ table.map (fun p => (p.2, p.1)) := by
  induction table generalizing d with
  | nil => simp
  | cons p table ih =>
    have hs : ∀ (d : Dict Nat Str) (k : Nat) (v : Str), k ∉ d.map (·.1) → d.set k v = d ++ [(k, v)] := by
      intro d k v hk
      induction d with
      | nil => rfl
      | cons q d ih =>
        simp only [List.map_cons, List.mem_cons, not_or] at hk
        rw [Dict.set, if_neg hk.1, ih hk.2]; rfl
    have hn : p.2 ∉ d.map (·.1) := by
      have := (List.nodup_append.1 h).2.2
      intro hc
      exact this _ hc p.2 (by simp) rfl
    rw [List.foldl_cons, hs d _ _ hn, ih]
    · simp
    · simpa [List.append_assoc] using h

/-- `defaultOrder` lists the names by their numbers. -/
theorem defaultOrder_eq {sel table : Dict Str Nat} (hs : (sel.map (·.2)).Pairwise (· < ·)) (hperm : table.Perm sel) : defaultOrder table = sel.map (·.1) := by
  have hnd : (table.map (·.2)).Nodup := ((hperm.map (·.2)).nodup_iff).2 (List.Pairwise.imp (R := (· < ·)) (fun h => Nat.ne_of_lt h) hs)
  unfold defaultOrder
  rw [foldl_set_new table [] (by simpa using hnd)]
  simp only [List.nil_append]
  have hk : (Dict.keys (table.map (fun p => (p.2, p.1)))).insertionSort (· ≤ ·) = sel.map (·.2) := by
    have hp1 : ((Dict.keys (table.map (fun p => (p.2, p.1)))).insertionSort (· ≤ ·)).Perm (sel.map (·.2)) := by
      refine (List.perm_insertionSort _ _).trans ?_
      simpa [Dict.keys, Function.comp_def] using hperm.map (·.2)
    have hp2 := List.pairwise_insertionSort (· ≤ ·) (Dict.keys (table.map (fun p => (p.2, p.1))))
    refine hp1.eq_of_pairwise (le := fun a b => a ≤ b) (fun a b _ _ h1 h2 => by omega) hp2 (hs.imp (fun h => by omega))
  rw [hk]
  have hwf : Dict.Wf (table.map (fun p => (p.2, p.1))) := by
    simpa [Dict.Wf, Dict.keys, Function.comp_def] using hnd
  have hget : ∀ p ∈ sel, Dict.get? (table.map (fun p => (p.2, p.1))) p.2 = some p.1 := by
    intro p hp
    apply Dict.get?_of_mem hwf
    exact List.mem_map.2 ⟨p, hperm.mem_iff.2 hp, rfl⟩
  clear hk hs hperm
  induction sel with
  | nil => rfl
  | cons p sel ih =>
    rw [List.map_cons, List.filterMap_cons, hget p (by simp)]
    simp only [List.map_cons]
    rw [ih (fun q hq => hget q (by simp [hq]))]

/-- C44.  The default order of a form is the order of declaration: take any program, and any selection of the fields it created (the table of a class
with inherited and overridden fields is one), listed in any order. -/
theorem C44_default_order (ctr : Nat) (prog : List (List Decl)) (sel table : Dict Str Nat) (hsel : sel.Sublist (created (runClasses ctr prog)))
    (hperm : table.Perm sel) : defaultOrder table = sel.map (·.1) := by
  have hs : (sel.map (·.2)).Pairwise (· < ·) := (C44_numbered_in_order ctr prog).1.sublist (hsel.map _)
  exact defaultOrder_eq hs hperm

/-- A program with a schema field, a failing class, and a subclass overriding a field. -/
example : runClasses 0 [[(c%"a", .plain), (c%"t", .schema true), (c%"b", .plain)], [(c%"x", .schema false)], [(c%"a", .plain)]] =
    [.ok [(c%"a", 0), (c%"t", 1), (c%"b", 2)], .error .exception, .ok [(c%"a", 5)]] := by decide
example : defaultOrder [(c%"a", 5), (c%"t", 1), (c%"b", 2)] = [c%"t", c%"b", c%"a"] :=
  C44_default_order 0 [[(c%"a", .plain), (c%"t", .schema true), (c%"b", .plain)], [(c%"x", .schema false)], [(c%"a", .plain)]]
    [(c%"t", 1), (c%"b", 2), (c%"a", 5)] _ (by decide) (by decide)

/-- Counterexample: one field under two names (`b = a` in a class body).  Only the second name gets a place. -/
theorem C44_counterexample_alias : defaultOrder [(c%"a", 0), (c%"b", 0)] = [c%"b"] := by decide

/-! ### C67: list fields over simple paths -/

/-- Reading a list of strings (StringListField). -/
def readStrs [PyUnicode] (eng : Engine) (ctx : Ctx) (xp : Str) (node : Ref) : M (List (Option Str)) :=
  listData eng ctx (fun it => strToPython false (some it)) xp node

theorem refText_of_match : ∀ (p : List Step) (n : Node) (x : Ref), x ∈ Step.matches p n → ∃ t, refText n x = some t
  | [], n, x, h => by simp [Step.matches] at h; subst h; exact ⟨n.strVal, rfl⟩
  | .attr q :: r, n, x, h => by
    simp only [Step.matches] at h
    split_ifs at h with h1
    · simp only [Bool.and_eq_true] at h1
      simp only [List.mem_singleton] at h
      subst h
      obtain ⟨v, hv⟩ := Option.isSome_iff_exists.1 h1.2
      exact ⟨v, by simp [refText, Node.get, hv]⟩
    · simp at h
  | .text :: r, n, x, h => by
    simp only [Step.matches] at h
    split_ifs at h with h1 h2
    · rcases List.mem_append.1 h with h | h
      · simp only [List.mem_singleton] at h
        subst h
        obtain ⟨v, hv⟩ := Option.isSome_iff_exists.1 h2
        exact ⟨v, by simp [refText, Node.get, hv]⟩
      · exact tails h
    · exact tails (by simpa using h)
    · simp at h
  | .child q ps :: r, n, x, h => by
    obtain ⟨i, c, hc, -, -, y, hy, rfl⟩ := mem_matches_child.mp h
    obtain ⟨t, ht⟩ := refText_of_match r c y hy
    refine ⟨t, ?_⟩
    rw [← ht]
    cases y <;> simp [Ref.under, refText, Node.get_cons, hc]
where
  tails {n : Node} {x : Ref} (h : x ∈ tailRefs n.children) : ∃ t, refText n x = some t := by
    unfold tailRefs at h
    obtain ⟨l, hl, hx⟩ := List.mem_flatten.1 h
    obtain ⟨i, hi, rfl⟩ := List.mem_mapIdx.1 hl
    split_ifs at hx with h2
    · simp only [List.mem_singleton] at hx
      subst hx
      obtain ⟨v, hv⟩ := Option.isSome_iff_exists.1 h2
      exact ⟨v, by simp [refText, Node.get_cons, List.getElem?_eq_getElem hi, Node.get, hv]⟩
    · simp at hx

/-- C67.  A list of strings over a simple path has one item per match, in document order: the string value of an element, the value of an attribute,
the content of a text node.  Reading changes nothing. -/
theorem C67_strings_in_document_order [PyUnicode] (eng : Engine) (heng : EngineOk eng) (ctx : Ctx) (xp : Str) (e : Expr) (p : List Step)
    (hp : parse0 xp = .ok e) (hr : resPath ctx e = some p) (a : Node.Addr) (s n : Node) (hs : s.get a = some n) :
    readStrs eng ctx xp (.elem a) s = (.ok ((Step.matches p n).map (refText n)), s) := by
  have h1 : evalXPath eng ctx xp (.elem a) s = (.ok (.nodes ((Step.matches p n).map (Ref.under a))), s) := by
    show (eng.xpath xp s a ctx, s) = _
    rw [heng.path ctx xp e p s n a hp hr hs]
  have h2 : listMatches eng ctx xp (.elem a) s = (.ok ((Step.matches p n).map (Ref.under a)), s) := by
    unfold listMatches
    rw [bind_ok h1]; rfl
  unfold readStrs listData
  rw [bind_ok h2]
  rw [bind_ok (show getDoc s = (.ok s, s) from rfl), ofExcept_eq]
  congr 1
  have hm : ∀ x ∈ Step.matches p n, mapMatch (fun it => strToPython false (some it)) s (x.under a) = .ok (refText n x) := by
    intro x hx
    obtain ⟨t, ht⟩ := refText_of_match p n x hx
    obtain ⟨m, hgm⟩ := get_of_match p n x hx
    have hg : s.get (a ++ x.addr) = some m := by rw [Node.get_append, hs]; exact hgm
    cases x <;> simp only [Ref.addr] at hgm hg <;> simp only [refText, hgm, Option.map_some, Option.bind_some, Option.some.injEq] at ht <;>
      simp only [mapMatch, itemOf, Ref.under, hg, refText, hgm, Option.map_some, Option.bind_some, ht, strToPython, Bool.false_eq_true, if_false]
  generalize Step.matches p n = l at hm
  induction l with
  | nil => rfl
  | cons x l ih =>
    rw [List.map_cons, mapMatches, hm x (by simp)]
    simp only
    rw [ih (fun y hy => hm y (by simp [hy]))]
    rfl

/-- A concrete case: two elements in different parents. -/
example : (readStrs refEngine sampleCtx c%"p/v" (.elem []) (.mk (.elem ⟨none, c%"r"⟩) [] none
    [.mk (.elem ⟨none, c%"p"⟩) [] none [.mk (.elem ⟨none, c%"v"⟩) [] (some c%"1") [] none] none,
     .mk (.elem ⟨none, c%"p"⟩) [] none [.mk (.elem ⟨none, c%"v"⟩) [] (some c%"2") [] none] none] none)).1 =
    .ok [some c%"1", some c%"2"] := by decide

/-! ### C46 -/

/-- An element of the document with this `name` attribute. -/
def Named (doc : Node) (name : Str) (b : Node.Addr) : Prop :=
  ∃ m, doc.get b = some m ∧ m.isElement = true ∧ m.attr? ⟨none, c%"name"⟩ = some name

/-- What is assumed of the XPath engine here: `//*[@name="..."]`, evaluated at any element, selects the elements of the whole document with that
name, each once.  (True of XPath for names without double quotes, see `C46_counterexample_quote`.) -/
def NamedOk (eng : Engine) (name : Str) (doc : Node) (a : Node.Addr) : Prop :=
  ∃ l, eng.xpath (typeXPath name) doc a ⟨none, []⟩ = .ok (.nodes l) ∧ l.Nodup ∧ ∀ r, r ∈ l ↔ ∃ b, r = .elem b ∧ Named doc name b

/-- C46.  `get_type(name)` returns an element exactly if it is the only one in the whole document with that name, and raises `Exception` otherwise.
Nothing changes. -/
theorem C46_unique [PyUnicode] (eng : Engine) (name : Str) (a : Node.Addr) (s : Node) (heng : NamedOk eng name s a) :
    (∀ b, getType eng (some name) none (.elem a) s = (.ok (.elem b), s) ↔ (Named s name b ∧ ∀ b', Named s name b' → b' = b)) ∧
    ((∀ b, ¬ (Named s name b ∧ ∀ b', Named s name b' → b' = b)) → getType eng (some name) none (.elem a) s = (.error .exception, s)) := by
  obtain ⟨l, h1, h2, h3⟩ := heng
  have he : evalXPath eng ⟨none, []⟩ (typeXPath name) (.elem a) s = (.ok (.nodes l), s) := by
    show (eng.xpath (typeXPath name) s a ⟨none, []⟩, s) = _
    rw [h1]
  have hrun : getType eng (some name) none (.elem a) s = match l with
      | [] => (.error .exception, s)
      | [r] => (.ok r, s)
      | _ => (.error .exception, s) := by
    unfold getType
    simp only
    rw [bind_ok he]
    match l with
    | [] => rfl
    | [r] => rfl
    | _ :: _ :: _ => rfl
  rw [hrun]
  match l, h2, h3 with
  | [], _, h3 =>
    refine ⟨fun b => ⟨fun h => by simp at h, fun ⟨hb, _⟩ => ?_⟩, fun _ => rfl⟩
    exact absurd ((h3 (.elem b)).2 ⟨b, rfl, hb⟩) (by simp)
  | [r], _, h3 =>
    obtain ⟨b0, rfl, hb0⟩ := (h3 r).1 (by simp)
    have hu : ∀ b', Named s name b' → b' = b0 := by
      intro b' hb'
      have := (h3 (.elem b')).2 ⟨b', rfl, hb'⟩
      simpa using this
    refine ⟨fun b => ⟨fun h => ?_, fun ⟨hb, _⟩ => ?_⟩, fun h => absurd ⟨hb0, hu⟩ (h b0)⟩
    · simp at h; subst h; exact ⟨hb0, hu⟩
    · rw [hu b hb]
  | r1 :: r2 :: l, h2, h3 =>
    obtain ⟨b1, rfl, hb1⟩ := (h3 r1).1 (by simp)
    obtain ⟨b2, rfl, hb2⟩ := (h3 r2).1 (by simp)
    have hne : b1 ≠ b2 := by rintro rfl; simp at h2
    refine ⟨fun b => ⟨fun h => by simp at h, fun ⟨_, hb⟩ => ?_⟩, fun _ => rfl⟩
    exact absurd ((hb b1 hb1).trans (hb b2 hb2).symm) hne

mutual
/-- Addresses of the elements that satisfy a test, in document order. -/
def addrs (f : Node → Bool) : Node → List Node.Addr
  | .mk t at' x c l => (if f (.mk t at' x c l) then [[]] else []) ++ addrsL f 0 c
def addrsL (f : Node → Bool) (i : Nat) : List Node → List Node.Addr
  | [] => []
  | c :: cs => (addrs f c).map (i :: ·) ++ addrsL f (i + 1) cs
end

mutual
theorem mem_addrs (f : Node → Bool) : ∀ (n : Node) (b : Node.Addr), b ∈ addrs f n ↔ ∃ m, n.get b = some m ∧ f m = true
  | .mk t at' x c l, b => by
    simp only [addrs, List.mem_append, mem_addrsL f 0 c b]
    cases b with
    | nil =>
      by_cases h : f (.mk t at' x c l) = true
      · simp [h, Node.get]
      · simp [h, Node.get]
    | cons i b =>
      have : (i :: b) ∉ (if f (.mk t at' x c l) = true then [([] : Node.Addr)] else []) := by split_ifs <;> simp
      simp only [this, false_or, Node.get_cons, Node.children, Nat.zero_add, List.cons.injEq]
      constructor
      · rintro ⟨j, b', k, ⟨rfl, rfl⟩, h2, m, h3, h4⟩
        exact ⟨m, by simp [h2, h3], h4⟩
      · rintro ⟨m, h3, h4⟩
        cases hc : c[i]? with
        | none => simp [hc] at h3
        | some k => exact ⟨i, b, k, ⟨rfl, rfl⟩, hc, m, by simpa [hc] using h3, h4⟩
theorem mem_addrsL (f : Node → Bool) : ∀ (i : Nat) (cs : List Node) (b : Node.Addr), b ∈ addrsL f i cs ↔
    ∃ j b' c, b = (i + j) :: b' ∧ cs[j]? = some c ∧ ∃ m, c.get b' = some m ∧ f m = true
  | i, [], b => by simp [addrsL]
  | i, c :: cs, b => by
    simp only [addrsL, List.mem_append, List.mem_map, mem_addrs f c, mem_addrsL f (i + 1) cs b]
    constructor
    · rintro (⟨b', ⟨m, h1, h2⟩, rfl⟩ | ⟨j, b', c', rfl, h2, h3⟩)
      · exact ⟨0, b', c, rfl, rfl, m, h1, h2⟩
      · exact ⟨j + 1, b', c', by rw [Nat.add_assoc, Nat.add_comm 1 j], by simpa using h2, h3⟩
    · rintro ⟨j, b', c', rfl, h2, m, h3, h4⟩
      cases j with
      | zero => simp at h2; subst h2; exact .inl ⟨b', ⟨m, h3, h4⟩, rfl⟩
      | succ j => exact .inr ⟨j, b', c', by rw [Nat.add_assoc, Nat.add_comm 1 j], by simpa using h2, m, h3, h4⟩
end

mutual
theorem nodup_addrs (f : Node → Bool) : ∀ (n : Node), (addrs f n).Nodup
  | .mk t at' x c l => by
    simp only [addrs]
    rw [List.nodup_append]
    refine ⟨by split_ifs <;> simp, nodup_addrsL f 0 c, ?_⟩
    intro b hb b' hb' heq
    subst heq
    obtain ⟨j, b', c', h, -⟩ := (mem_addrsL f 0 c b).1 hb'
    subst h
    split_ifs at hb <;> simp at hb
theorem nodup_addrsL (f : Node → Bool) : ∀ (i : Nat) (cs : List Node), (addrsL f i cs).Nodup
  | i, [] => by simp [addrsL]
  | i, c :: cs => by
    simp only [addrsL]
    rw [List.nodup_append]
    refine ⟨(List.nodup_map_iff (fun a b h => by simpa using h)).2 (nodup_addrs f c), nodup_addrsL f (i + 1) cs, ?_⟩
    intro b hb b' hb' heq
    subst heq
    obtain ⟨j, b', c', h, -⟩ := (mem_addrsL f (i + 1) cs b).1 hb'
    obtain ⟨b2, -, h2⟩ := List.mem_map.1 hb
    subst h
    simp only [List.cons.injEq] at h2
    omega
end

/-- The test of `Named`. -/
def isNamed (name : Str) (m : Node) : Bool := m.isElement && m.attr? ⟨none, c%"name"⟩ == some name

/-- The name in an XPath of the form `//*[@name="..."]`. -/
def typeName (s : Str) : Option Str :=
  if (c%"//*[@name=\"").isPrefixOf s ∧ (c%"\"]").isSuffixOf s then some ((s.drop 11).take (s.length - 13)) else none

/-- The reference engine, extended by `//*[@name="..."]`. -/
def schemaEngine : Engine where
  xpath s doc a ctx := match refEngine.xpath s doc a ctx with
    | .ok v => .ok v
    | .error e => match typeName s with
      | some name => .ok (.nodes ((addrs (isNamed name) doc).map .elem))
      | none => .error e

theorem schemaEngine_ok : EngineOk schemaEngine where
  path := by
    intro ctx s e p doc n a hp hr hn
    simp only [schemaEngine, refEngine_ok.path ctx s e p doc n a hp hr hn]
  cmp := by
    intro ctx s e p v q doc n a hp hr hq hn
    simp only [schemaEngine, refEngine_ok.cmp ctx s e p v q doc n a hp hr hq hn]

theorem typeName_typeXPath (name : Str) : typeName (typeXPath name) = some name := by
  unfold typeName typeXPath
  rw [if_pos]
  · congr 1
    rw [List.append_assoc, List.drop_left' (by rfl)]
    rw [List.take_left' (by simp)]
  · constructor
    · rw [List.isPrefixOf_iff_prefix, List.append_assoc]; exact List.prefix_append _ _
    · rw [List.isSuffixOf_iff_suffix]; exact List.suffix_append _ _

theorem schemaEngine_named {name : Str} {e : Expr} (hp : parse0 (typeXPath name) = .ok e) (hr : res ⟨none, []⟩ e = none) (doc : Node) (a : Node.Addr) :
    NamedOk schemaEngine name doc a := by
  have href : refEngine.xpath (typeXPath name) doc a ⟨none, []⟩ = .error .xpathError := by
    simp only [refEngine, hp]
    cases doc.get a with
    | none => rfl
    | some n => simp only [hr]
  refine ⟨(addrs (isNamed name) doc).map .elem, ?_, ?_, ?_⟩
  · show (match refEngine.xpath (typeXPath name) doc a ⟨none, []⟩ with
      | .ok v => Except.ok v
      | .error e => match typeName (typeXPath name) with
        | some name => .ok (.nodes ((addrs (isNamed name) doc).map .elem))
        | none => .error e) = _
    rw [href, typeName_typeXPath]
  · exact (List.nodup_map_iff (fun a b h => by simpa using h)).2 (nodup_addrs _ _)
  · intro r
    simp only [List.mem_map, mem_addrs, Named, isNamed, Bool.and_eq_true, beq_iff_eq]
    constructor
    · rintro ⟨b, h, rfl⟩; exact ⟨b, rfl, h⟩
    · rintro ⟨b, rfl, h⟩; exact ⟨b, h, rfl⟩

/-- A schema with two types; the name of one is used twice. -/
def sampleSchema : Node := .mk (.elem ⟨some xsNs, c%"schema"⟩) [] none
  [.mk (.elem ⟨some xsNs, c%"simpleType"⟩) [(⟨none, c%"name"⟩, c%"T")] none
    [.mk (.elem ⟨some xsNs, c%"restriction"⟩) [(⟨none, c%"base"⟩, c%"xs:string")] none
      [.mk (.elem ⟨some xsNs, c%"enumeration"⟩) [(⟨none, c%"value"⟩, c%"x")] none [] none,
       .mk (.elem ⟨some xsNs, c%"enumeration"⟩) [(⟨none, c%"value"⟩, [])] none [] none,
       .mk (.elem ⟨some xsNs, c%"enumeration"⟩) [(⟨none, c%"value"⟩, c%"y")] none [] none] none] none,
   .mk (.elem ⟨some xsNs, c%"simpleType"⟩) [(⟨none, c%"name"⟩, c%"U")] none [] none,
   .mk (.elem ⟨some xsNs, c%"complexType"⟩) [] none [.mk (.elem ⟨some xsNs, c%"element"⟩) [(⟨none, c%"name"⟩, c%"U")] none [] none] none] none


theorem sample_named (n : Str) (h : n = c%"T" ∨ n = c%"U") : NamedOk schemaEngine n sampleSchema [] := by
  rcases h with rfl | rfl
  · exact schemaEngine_named (e := ast (typeXPath c%"T")) (by decide) (by decide) _ _
  · exact schemaEngine_named (e := ast (typeXPath c%"U")) (by decide) (by decide) _ _

/-- Concrete cases: one type `T`; two elements `U`, of which one is no type; no `V`. -/
example : getType schemaEngine (some c%"T") none (.elem []) sampleSchema = (.ok (.elem [0]), sampleSchema) := by decide
example : (getType schemaEngine (some c%"U") none (.elem []) sampleSchema).1 = .error .exception := by decide
example : (getType schemaEngine (some c%"V") none (.elem []) sampleSchema).1 = .error .exception := by decide
example : ∀ b, getType schemaEngine (some c%"T") none (.elem []) sampleSchema = (.ok (.elem b), sampleSchema) ↔
    (Named sampleSchema c%"T" b ∧ ∀ b', Named sampleSchema c%"T" b' → b' = b) :=
  (C46_unique schemaEngine c%"T" [] sampleSchema (sample_named _ (.inl rfl))).1

/-- Counterexample: a name with a double quote is pasted into the XPath as it is.  The string of `get_type('T" or @name="U')` reads as a test for two
names. -/
theorem C46_counterexample_quote : typeXPath c%"T\" or @name=\"U" = c%"//*[@name=\"T\" or @name=\"U\"]" := by decide

/-- Neither a name nor an XPath is refused. -/
theorem C46_no_argument [PyUnicode] (eng : Engine) (a : Ref) (s : Node) : getType eng none none a s = (.error .exception, s) := rfl

/-! ### C45 -/

/-- The `xs:restriction` children. -/
def restrictions (m : Node) : List Node := m.children.filter (Node.isElem ⟨some xsNs, c%"restriction"⟩)

/-- The base of a type: the `base` of the first restriction that has one. -/
def baseOf (m : Node) : Option Str := (restrictions m).findSome? (Node.attr? ⟨none, c%"base"⟩)

/-- The enumerated values of a type, in document order. -/
def enumOf (m : Node) : List Str := (restrictions m).flatMap (fun r =>
  (r.children.filter (Node.isElem ⟨some xsNs, c%"enumeration"⟩)).filterMap (Node.attr? ⟨none, c%"value"⟩))

/-- Is it the name `string`, with or without a prefix? -/
def IsString (b : Str) : Prop := b = c%"string" ∨ ∃ p, ':' ∉ p ∧ b = p ++ c%":string"

theorem flatten_mapIdx {α β} (cs : List α) (F : Nat → α → List β) (G : α → List β) (h : ∀ i c, cs[i]? = some c → F i c = G c) :
    (cs.mapIdx F).flatten = cs.flatMap G := by
  have : cs.mapIdx F = cs.map G := by
    apply List.ext_getElem (by simp)
    intro i h1 h2
    simp only [List.getElem_mapIdx, List.getElem_map]
    exact h i _ (List.getElem?_eq_getElem (by simpa using h1))
  rw [this, List.flatMap_def]

theorem flatMap_filter_if {α β} (f : α → Bool) (g : α → List β) (l : List α) : l.flatMap (fun c => if f c = true then g c else []) = (l.filter f).flatMap g := by
  induction l with
  | nil => rfl
  | cons c l ih =>
    rw [List.flatMap_cons, ih, List.filter_cons]
    split_ifs <;> simp

theorem texts_child (q : QName) (r : List Step) (n : Node) : (Step.matches (.child q [] :: r) n).map (refText n) =
    (n.children.filter (Node.isElem q)).flatMap (fun c => (Step.matches r c).map (refText c)) := by
  rw [← flatMap_filter_if, ← flatten_mapIdx n.children (fun i c => ((if c.isElem q && satAll [] c then (Step.matches r c).map (Ref.under [i]) else []).map (refText n)))]
  · rw [Step.matches, List.map_flatten]
    congr 1
    apply List.ext_getElem (by simp)
    intro i h1 h2
    simp
  · intro i c hc
    simp only [satAll, Bool.and_true]
    split_ifs
    · rw [List.map_map]
      apply List.map_congr_left
      intro y _
      cases y <;> simp [Ref.under, refText, Node.get_cons, hc]
    · rfl

theorem texts_attr (q : QName) (n : Node) : (Step.matches [.attr q] n).map (refText n) = if (n.attr? q).isSome then [n.attr? q] else [] := by
  simp only [Step.matches, List.isEmpty_nil, Bool.true_and]
  split_ifs <;> simp [refText, Node.get]

/-- The prefix `xs` is declared for schema types (core.py:665, 679). -/
def XsCtx (ctx : Ctx) : Prop := ∃ nss, ctx.namespaces = some nss ∧ nss.lookup c%"xs" = some xsNs

theorem base_path {ctx : Ctx} (h : XsCtx ctx) : res ctx (ast c%"xs:restriction/@base") =
    some ([.child ⟨some xsNs, c%"restriction"⟩ [], .attr ⟨none, c%"base"⟩], none) := by
  have e : ast c%"xs:restriction/@base" = .binary (.step none (.name (some c%"xs") c%"restriction") []) .slash
      (.step (some c%"@") (.name none c%"base") []) := by decide
  rw [e]
  obtain ⟨nss, h1, h2⟩ := h
  simp [res, resPreds, resName, h1, h2]

theorem value_path {ctx : Ctx} (h : XsCtx ctx) : resPath ctx (ast c%"xs:restriction/xs:enumeration/@value") =
    some [.child ⟨some xsNs, c%"restriction"⟩ [], .child ⟨some xsNs, c%"enumeration"⟩ [], .attr ⟨none, c%"value"⟩] := by
  have e : ast c%"xs:restriction/xs:enumeration/@value" = .binary (.binary (.step none (.name (some c%"xs") c%"restriction") []) .slash
      (.step none (.name (some c%"xs") c%"enumeration") [])) .slash (.step (some c%"@") (.name none c%"value") []) := by decide
  rw [e]
  obtain ⟨nss, h1, h2⟩ := h
  simp [resPath, res, resPreds, resName, h1, h2]

section
variable [PyUnicode] {eng : Engine} (heng : EngineOk eng) {ctx : Ctx} (hctx : XsCtx ctx)
include heng hctx

theorem xsdBase_run {b : Node.Addr} {s m : Node} (hm : s.get b = some m) : xsdBase eng ctx (.elem b) s = (.ok (baseOf m), s) := by
  unfold xsdBase
  rw [readStr_run0 heng (by decide) (base_path hctx) hm]
  congr 2
  have h1 := texts_child ⟨some xsNs, c%"restriction"⟩ [.attr ⟨none, c%"base"⟩] m
  have h2 : ∀ (l : List Ref), l.head?.bind (fun x => refText m x) = (l.map (refText m)).head?.join := by intro l; cases l <;> simp
  rw [h2, h1]
  unfold baseOf restrictions
  generalize m.children.filter _ = l
  induction l with
  | nil => rfl
  | cons r l ih =>
    rw [List.flatMap_cons, texts_attr, List.findSome?_cons]
    cases hr : r.attr? ⟨none, c%"base"⟩ with
    | none => simpa [hr] using ih
    | some v => simp [hr]

theorem xsdValues_run {b : Node.Addr} {s m : Node} (hm : s.get b = some m) : xsdValues eng ctx (.elem b) s = (.ok ((enumOf m).map some), s) := by
  have h := C67_strings_in_document_order eng heng ctx c%"xs:restriction/xs:enumeration/@value" _ _ (by decide) (value_path hctx) b s m hm
  unfold xsdValues
  rw [show listData eng ctx (fun it => strToPython false (some it)) c%"xs:restriction/xs:enumeration/@value" (.elem b) s = _ from h]
  congr 2
  rw [texts_child]
  unfold enumOf restrictions
  rw [List.map_flatMap]
  congr 1
  funext r
  rw [texts_child]
  generalize r.children.filter _ = l
  induction l with
  | nil => rfl
  | cons c l ih =>
    rw [List.flatMap_cons, ih, texts_attr, List.filterMap_cons]
    cases hc : c.attr? ⟨none, c%"value"⟩ <;> simp

end

theorem splitOn_none {t : Str} (ht : ':' ∉ t) : t.splitOn ':' = [t] := by
  induction t with
  | nil => rfl
  | cons c t ih =>
    simp only [List.mem_cons, not_or] at ht
    rw [List.splitOn, List.splitOnP_cons_eq_if_modifyHead]
    have : (c == ':') = false := by simpa using Ne.symm ht.1
    rw [this]
    simp only [Bool.false_eq_true, if_false]
    have := ih ht.2
    rw [List.splitOn] at this
    rw [this]; rfl

theorem splitOn_first {p : Str} (t : Str) (hp : ':' ∉ p) : (p ++ ':' :: t).splitOn ':' = p :: t.splitOn ':' := by
  induction p with
  | nil =>
    rw [List.nil_append, List.splitOn, List.splitOnP_cons_eq_if_modifyHead]
    simp [List.splitOn]
  | cons c p ih =>
    simp only [List.mem_cons, not_or] at hp
    rw [List.cons_append, List.splitOn, List.splitOnP_cons_eq_if_modifyHead]
    have h2 : (c == ':') = false := by simpa using Ne.symm hp.1
    rw [h2]
    simp only [Bool.false_eq_true, if_false]
    have := ih hp.2
    rw [List.splitOn] at this
    rw [this]; rfl

theorem baseType_string (b : Str) : baseType (some b) = .ok c%"string" ↔ IsString b := by
  unfold baseType IsString
  simp only
  by_cases h : ':' ∈ b
  · rw [if_pos h]
    obtain ⟨p, r, rfl, hp⟩ := List.eq_append_cons_of_mem h
    rw [splitOn_first r hp]
    have key : (∃ p', ':' ∉ p' ∧ p ++ ':' :: r = p' ++ c%":string") ↔ r = c%"string" := by
      constructor
      · rintro ⟨p', hp', he⟩
        have h1 := splitOn_first r hp
        rw [he, show p' ++ c%":string" = p' ++ ':' :: c%"string" from rfl, splitOn_first _ hp'] at h1
        simp only [List.cons.injEq] at h1
        rw [h1.1] at he
        have := List.append_cancel_left he
        simpa using this
      · rintro rfl; exact ⟨p, hp, rfl⟩
    rw [key]
    have hne : p ++ ':' :: r ≠ c%"string" := by
      intro he
      rw [he] at h
      revert h; decide
    by_cases hr : ':' ∈ r
    · obtain ⟨p2, r2, rfl, hp2⟩ := List.eq_append_cons_of_mem hr
      rw [splitOn_first r2 hp2]
      have h3 : p2 ++ ':' :: r2 ≠ c%"string" := by
        intro he
        rw [he] at hr
        revert hr; decide
      cases hs : r2.splitOn ':' with
      | nil => exact absurd hs (by rw [List.splitOn]; exact List.splitOnP_ne_nil _ _)
      | cons => simp [hne, h3]
    · rw [splitOn_none hr]
      simp [hne]
  · rw [if_neg h]
    have : ¬ ∃ p', ':' ∉ p' ∧ b = p' ++ c%":string" := by
      rintro ⟨p', -, rfl⟩; exact h (by simp)
    simp [this]

/-- C45.  A schema field over a type based on `string` (with any prefix): the class gets a string field with the same XPath, `required` and place; if the
type enumerates values, the choices are a blank and then the values in document order, less one blank; otherwise there are none. -/
theorem C45_choices [PyUnicode] (eng : Engine) (heng : EngineOk eng) (ctx : Ctx) (hctx : XsCtx ctx) (f : SchemaFld) (a b : Node.Addr) (s m : Node)
    (hn : NamedOk eng f.schemaType s a) (hb : Named s f.schemaType b ∧ ∀ b', Named s f.schemaType b' → b' = b) (hm : s.get b = some m)
    (t : Str) (ht : baseOf m = some t) (hs : IsString t) :
    getField eng ctx f (.elem a) s = (.ok ⟨f.xpath, f.required,
      if enumOf m = [] then none else some (([] :: (enumOf m).erase []).map some), f.counter⟩, s) := by
  unfold getField
  rw [bind_ok (((C46_unique eng f.schemaType a s hn).1 b).2 hb), bind_ok (xsdBase_run heng hctx hm), ht]
  rw [bind_ok (show ofExcept (baseType (some t)) s = (.ok c%"string", s) by rw [(baseType_string t).2 hs]; rfl)]
  rw [bind_ok (xsdValues_run heng hctx hm), if_pos rfl, pure_run]
  congr 3
  unfold schemaChoices
  generalize enumOf m = l
  by_cases hl : l = []
  · subst hl; rfl
  · rw [if_neg hl, if_neg (by simpa using hl)]
    simp only [List.map_cons, Option.some.injEq, List.cons.injEq, true_and]
    rw [List.map_erase (fun a b h => by simpa using h)]
    split_ifs with h
    · rfl
    · rw [List.erase_of_not_mem h]

/-- C45.  Any other type is refused: another base, no base, no such type, several of them.  Nothing changes. -/
theorem C45_refused [PyUnicode] (eng : Engine) (heng : EngineOk eng) (ctx : Ctx) (hctx : XsCtx ctx) (f : SchemaFld) (a : Node.Addr) (s : Node)
    (hn : NamedOk eng f.schemaType s a)
    (h : ∀ b m, (Named s f.schemaType b ∧ ∀ b', Named s f.schemaType b' → b' = b) → s.get b = some m → ∀ t, baseOf m = some t → ¬ IsString t) :
    ∃ e, getField eng ctx f (.elem a) s = (.error e, s) := by
  by_cases hu : ∃ b, Named s f.schemaType b ∧ ∀ b', Named s f.schemaType b' → b' = b
  · obtain ⟨b, hb⟩ := hu
    obtain ⟨m, hm, -⟩ := hb.1
    have ht := h b m hb hm
    unfold getField
    rw [bind_ok (((C46_unique eng f.schemaType a s hn).1 b).2 hb), bind_ok (xsdBase_run heng hctx hm)]
    cases hbt : baseType (baseOf m) with
    | error e =>
      refine ⟨e, ?_⟩
      rw [bind_err (show ofExcept (.error e) s = (.error e, s) from rfl)]
    | ok t =>
      refine ⟨.exception, ?_⟩
      rw [bind_ok (show ofExcept (.ok t) s = (.ok t, s) from rfl), bind_ok (xsdValues_run heng hctx hm), if_neg]
      · rfl
      · rintro rfl
        cases hbo : baseOf m with
        | none => rw [hbo] at hbt; simp [baseType] at hbt
        | some t0 => rw [hbo] at hbt; exact ht t0 hbo ((baseType_string t0).1 hbt)
  · have := (C46_unique eng f.schemaType a s hn).2 (fun b hb => hu ⟨b, hb⟩)
    refine ⟨.exception, ?_⟩
    unfold getField
    rw [bind_err this]

/-- C45.  If the type enumerates the blank at most once, the choices contain it once, in front; the other values are all there, in order. -/
theorem C45_one_blank (l : List Str) (h : l.count [] ≤ 1) : ([] :: l.erase [] : List Str).count [] = 1 ∧
    (([] :: l.erase [] : List Str).filter (fun x => x ≠ [])) = l.filter (fun x => x ≠ []) := by
  refine ⟨?_, ?_⟩
  · rw [List.count_cons_self, List.count_erase_self]; omega
  · rw [List.filter_cons]
    simp only [ne_eq, not_true_eq_false, decide_false, Bool.false_eq_true, if_false]
    clear h
    induction l with
    | nil => rfl
    | cons x l ih =>
      by_cases hx : x = []
      · subst hx; simp
      · rw [List.erase_cons_tail (by simpa using hx)]
        simp only [List.filter_cons, hx, not_false_eq_true, decide_true, if_true, ih]

/-- Counterexample: a type that lists the blank twice keeps one of them, so that the form offers two. -/
theorem C45_counterexample_two_blanks : schemaChoices [some [], some c%"a", some []] = some [some [], some c%"a", some []] := by decide

/-- A concrete case. -/
example : getField schemaEngine ⟨some [(c%"xs", xsNs)], []⟩ ⟨c%"a/@b", c%"T", some true, 7⟩ (.elem []) sampleSchema =
    (.ok ⟨c%"a/@b", some true, some [some [], some c%"x", some c%"y"], 7⟩, sampleSchema) :=
  C45_choices schemaEngine schemaEngine_ok _ ⟨_, rfl, by decide⟩ ⟨c%"a/@b", c%"T", some true, 7⟩ [] [0] sampleSchema _ (sample_named _ (.inl rfl))
    (((C46_unique schemaEngine c%"T" [] sampleSchema (sample_named _ (.inl rfl))).1 [0]).1 (by decide)) rfl c%"xs:string" (by decide)
    (.inr ⟨c%"xs", by decide, rfl⟩)

/-- Concrete refusals: a base without type, two colons, a number. -/
example : baseType none = .error .typeError ∧ baseType (some c%"a:b:string") = .error .valueError ∧ baseType (some c%"xs:integer") = .ok c%"integer" := by
  decide

/-! ### the other theorems applied to the sample schema -/

example : ∃ e, getField schemaEngine ⟨some [(c%"xs", xsNs)], []⟩ ⟨c%"a", c%"U", none, 7⟩ (.elem []) sampleSchema = (.error e, sampleSchema) :=
  C45_refused schemaEngine schemaEngine_ok _ ⟨_, rfl, by decide⟩ ⟨c%"a", c%"U", none, 7⟩ [] sampleSchema (sample_named _ (.inr rfl)) (by
    intro b m hb
    exfalso
    have h := (C46_unique schemaEngine c%"U" [] sampleSchema (sample_named _ (.inr rfl))).1 b
    have := h.2 hb
    have h2 : (getType schemaEngine (some c%"U") none (.elem []) sampleSchema).1 = .error .exception := by decide
    rw [this] at h2
    simp at h2)
example := C44_replaced_in_place 3 [(c%"a", .plain), (c%"t", .schema true), (c%"b", .plain)] _ rfl
example := C45_one_blank [c%"x", [], c%"y"] (by decide)

end Props
