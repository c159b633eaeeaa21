import Verif.Props.TypedField
import Verif.Props.FieldDelete
/-
Property C76: a single-value field and a list field with the same XPath (`creator` and `creator_list` in eulxml/xmlmap/dc.py, and similarly in
eadmap.py, cerp.py, mods.py) are views of the same data.

Model: `managerGet`, `managerSet`, `managerDelete` (Verif/XmlMap/Manager.lean), `NodeList` (Verif/XmlMap/NodeList.lean).
-/
namespace Props
open XPath Xml Spec Fields

section
variable [PyUnicode]

/-- `findNode` and `listMatches` evaluate the same expression. -/
theorem find_of_matches {eng : Engine} {ctx : Ctx} {xp : Str} {node : Ref} {s : Node} {ms : List Ref}
    (h : listMatches eng ctx xp node s = (.ok ms, s)) : findNode eng ctx xp node s = (.ok (ms.head?.map Found.ref), s) := by
  unfold listMatches at h
  unfold findNode
  cases hv : evalXPath eng ctx xp node s with
  | mk o s1 =>
    cases o with
    | error x => rw [bind_err hv] at h; cases h
    | ok v =>
      rw [bind_ok hv] at h ⊢
      cases v with
      | nodes l =>
        have h' : (Except.ok l, s1) = (Except.ok (ε := PyErr) ms, s) := h
        cases h'
        cases ms <;> rfl
      | str _ => cases h
      | num _ => cases h
      | bool _ => cases h

theorem listMatches_state {eng : Engine} {ctx : Ctx} {xp : Str} {node : Ref} {s : Node} : (listMatches eng ctx xp node s).2 = s := by
  unfold listMatches
  cases node with
  | elem a =>
    have hv : evalXPath eng ctx xp (.elem a) s = (eng.xpath xp s a ctx, s) := rfl
    cases hx : eng.xpath xp s a ctx with
    | error x => rw [hx] at hv; rw [bind_err hv]
    | ok v =>
      rw [hx] at hv; rw [bind_ok hv]
      cases v <;> rfl
  | attr _ _ => rfl
  | text _ => rfl
  | tail _ => rfl

/-- C76, reading, for every XPath, engine and mapper: the single-value field reads the first item of the list. -/
theorem C76_first_item {α : Type} [DecidableEq α] (eng : Engine) (ctx : Ctx) (toPython : Option Item → Except PyErr α) (xp : Str) (e : Expr) (node : Ref)
    (s : Node) (v : α) (vs : List α) (h : listData eng ctx (fun it => toPython (some it)) xp node s = (.ok (v :: vs), s)) :
    readAs toPython eng ctx xp e node s = (.ok v, s) := by
  unfold listData at h
  cases hm : listMatches eng ctx xp node s with
  | mk o s1 =>
    have hs1 : s1 = s := by have := listMatches_state (eng := eng) (ctx := ctx) (xp := xp) (node := node) (s := s); rw [hm] at this; exact this
    subst hs1
    cases o with
    | error x => rw [bind_err hm] at h; cases h
    | ok ms =>
      rw [bind_ok hm, bind_ok (show getDoc s1 = (.ok s1, s1) from rfl), ofExcept_eq] at h
      have h := congrArg Prod.fst h
      simp only at h
      unfold readAs managerGet
      rw [bind_ok (find_of_matches hm)]
      simp only [Bool.false_eq_true, and_false, if_false]
      rw [bind_ok (show getDoc s1 = (.ok s1, s1) from rfl), ofExcept_eq]
      congr 1
      cases ms with
      | nil => simp [mapMatches] at h
      | cons r rs =>
        simp only [mapMatches, mapMatch] at h
        simp only [List.head?_cons, Option.map_some, Option.bind_some]
        cases hi : itemOf s1 (.ref r) with
        | none => simp [hi] at h
        | some it =>
          simp only [hi] at h
          cases ht : toPython (some it) with
          | error x => simp [ht] at h
          | ok w =>
            simp only [ht] at h
            cases hr : mapMatches (fun it => toPython (some it)) s1 rs with
            | error x => simp [hr] at h
            | ok ws => simp only [hr, Except.ok.injEq, List.cons.injEq] at h; rw [h.1]

/-- C76, reading: if the list is empty, the single-value field reads what its mapper says of a missing node (`None`). -/
theorem C76_empty {α : Type} [DecidableEq α] (eng : Engine) (ctx : Ctx) (toPython : Option Item → Except PyErr α) (xp : Str) (e : Expr) (node : Ref)
    (s : Node) (h : listData eng ctx (fun it => toPython (some it)) xp node s = (.ok [], s)) :
    readAs toPython eng ctx xp e node s = (toPython none, s) := by
  unfold listData at h
  cases hm : listMatches eng ctx xp node s with
  | mk o s1 =>
    have hs1 : s1 = s := by have := listMatches_state (eng := eng) (ctx := ctx) (xp := xp) (node := node) (s := s); rw [hm] at this; exact this
    subst hs1
    cases o with
    | error x => rw [bind_err hm] at h; cases h
    | ok ms =>
      rw [bind_ok hm, bind_ok (show getDoc s1 = (.ok s1, s1) from rfl), ofExcept_eq] at h
      have h := congrArg Prod.fst h
      simp only at h
      unfold readAs managerGet
      rw [bind_ok (find_of_matches hm)]
      simp only [Bool.false_eq_true, and_false, if_false]
      rw [bind_ok (show getDoc s1 = (.ok s1, s1) from rfl), ofExcept_eq]
      cases ms with
      | nil => rfl
      | cons r rs =>
        simp only [mapMatches] at h
        cases h1 : mapMatch (fun it => toPython (some it)) s1 r with
        | error x => simp [h1] at h
        | ok w =>
          simp only [h1] at h
          cases h2 : mapMatches (fun it => toPython (some it)) s1 rs with
          | error x => simp [h2] at h
          | ok ws => simp [h2] at h

/-- C76, assigning, for every XPath, engine and mapper: `obj.field = v` does the same to the document, with the same result or exception, as
`obj.field_list[0] = v`. -/
theorem C76_set_is_item_zero {α : Type} (eng : Engine) (ctx : Ctx) (toXml : α → Except PyErr (Option Str)) (xp : Str) (e : Expr) (node : Ref)
    (s : Node) (ms : List Ref) (hms : listMatches eng ctx xp node s = (.ok ms, s)) (v : α) (t : Str) (hv : toXml v = .ok (some t)) :
    writeAs (toXml v) eng ctx xp e node s = listSet eng ctx (storeText ctx toXml e) xp e node 0 v s := by
  have hst : ∀ r s, storeText ctx toXml e r v s = setInXml ctx (.ref r) (some t) (findTerminalStep e) s := by
    intro r s
    unfold storeText
    rw [hv, bind_ok (ofExcept_run _ s)]
  unfold writeAs managerSet listSet
  rw [hv]
  simp only [Except.map, Option.map_some]
  rw [bind_ok (ofExcept_run _ s), bind_ok (find_of_matches hms), bind_ok hms]
  cases ms with
  | nil =>
    rw [if_pos (by rfl)]
    simp only [List.head?_nil, Option.map_none]
    have h0 : ((do
      let idx ← appendIndex ([] : List Ref)
      createNode eng ctx e node idx : M Ref)) s = createNode eng ctx e node none s := rfl
    cases hc : createNode eng ctx e node none s with
    | mk o s1 =>
      rw [hc] at h0
      cases o with
      | error x => rw [bind_err hc, bind_err h0]
      | ok r => rw [bind_ok hc, bind_ok h0, hst]; rfl
  | cons r rs =>
    rw [if_neg (by simp only [List.length_cons]; omega), if_neg (by simp only [List.length_cons]; omega)]
    have hg : pyGet (r :: rs) 0 = .ok r := rfl
    rw [hg, bind_ok (ofExcept_run _ s), hst]
    rfl

/-- C76, deleting: `del obj.field` removes the first item: it does what `del obj.field_list[0]` does, and nothing if the list is empty. -/
theorem C76_delete_is_item_zero (eng : Engine) (heng : EngineOk eng) (ctx : Ctx) (xp : Str) (e : Expr) (q : QName) (ps : List Pred)
    (hf : SimpleField ctx xp e [.child q ps]) (hps : attrOnly ps = true) (a : Node.Addr) (s n : Node) (hs : s.get a = some n) :
    (members q ps n ≠ [] → managerDelete eng ctx xp e (.elem a) s = listDel eng ctx xp (.elem a) 0 s) ∧
    (members q ps n = [] → managerDelete eng ctx xp e (.elem a) s = (.ok (), s)) := by
  have hm := matches_single (q := q) (ps := ps) n
  have hal : Aligned [.child q ps] n := by
    intro x hx
    rw [hm] at hx
    have := List.mem_of_mem_head? hx
    obtain ⟨i, -, rfl⟩ := List.mem_map.mp this
    rfl
  have hnt : ∀ b, (Step.matches [.child q ps] n).head? ≠ some (.tail b) := by
    intro b hx
    rw [hm] at hx
    have := List.mem_of_mem_head? hx
    obtain ⟨i, -, h⟩ := List.mem_map.mp this
    cases h
  have hrun := managerDelete_run heng hf.parse hf.path hf.canonical hf.ok (by simp [attrPreds, Step.preds, hps]) hs hal hnt
  obtain ⟨ax, t, es, rfl⟩ := res_single hf.path
  rw [hrun]
  unfold listDel
  rw [bind_ok (listMatches_run heng hf.parse hf.path hs)]
  unfold delete
  have hlen : members q ps n = [] ↔ idxs (isMember q ps) n.children = [] := by
    rw [← List.length_eq_zero_iff, ← List.length_eq_zero_iff, idxs_length]
    rfl
  cases hi : idxs (isMember q ps) n.children with
  | nil =>
    refine ⟨fun h => absurd (hlen.mpr hi) h, fun _ => ?_⟩
    congr 1
    apply Node.modify_id hs
    rw [hm, hi]
    rfl
  | cons i is =>
    refine ⟨fun _ => ?_, fun h => by rw [hlen, hi] at h; cases h⟩
    rw [if_neg (by simp only [List.length_map, List.length_cons]; omega)]
    have hg : pyGet ((i :: is).map (fun i => Ref.elem (a ++ [i]))) 0 = .ok (Ref.elem (a ++ [i])) := rfl
    rw [hg, bind_ok (ofExcept_run _ s)]
    have hrm : removeMatch (Ref.elem (a ++ [i])) s = (Except.ok (), s.modify (a ++ [i]).dropLast (Node.removeChild ((a ++ [i]).getLast?.getD 0))) := by
      simp only [removeMatch]
      rw [if_neg (by simp)]
      rfl
    rw [hrm]
    congr 1
    rw [List.dropLast_concat, List.getLast?_concat]
    apply Node.modify_congr hs
    rw [hm, hi]
    rfl

/-! ### histories -/

/-- Operations on a list field `l` and a single-value field `f` with the same XPath. -/
inductive SharedOp (α : Type) where
  /-- an operation on the list -/
  | list (op : ListOp α)
  /-- `obj.l = vs` -/
  | assign (vs : List α)
  /-- `del obj.l` -/
  | clear
  /-- `obj.f = v` -/
  | set (v : α)
  /-- `del obj.f` -/
  | delete

/-- On one Python list: the single-value field stands for its first item (assigning creates it if there is none). -/
def SharedOp.replay {α : Type} [DecidableEq α] (l : List α) : SharedOp α → Except PyErr (ListRes α) × List α
  | .list op => pyList l op
  | .assign vs => (.ok .unit, vs)
  | .clear => (.ok .unit, [])
  | .set v => (.ok .unit, v :: l.tail)
  | .delete => (.ok .unit, l.tail)

/-- A history on one Python list: results, and the list at the end. -/
def SharedOp.replayAll {α : Type} [DecidableEq α] (l : List α) : List (SharedOp α) → List (Except PyErr (ListRes α)) × List α
  | [] => ([], l)
  | op :: ops => ((op.replay l).1 :: (replayAll (op.replay l).2 ops).1, (replayAll (op.replay l).2 ops).2)

/-- The first item, if there is one. -/
def firstOr {α : Type} (missing : Except PyErr α) : List α → Except PyErr α
  | v :: _ => .ok v
  | [] => missing

/-- Only storable values are assigned, no insertion at negative indices. -/
def SharedOp.Ok {α : Type} (storable : α → Prop) : SharedOp α → Prop
  | .list op => op.supported = true ∧ ∀ v ∈ op.values, storable v
  | .assign vs => ∀ v ∈ vs, storable v
  | .set v => storable v
  | _ => True

/-- No result, or the exception. -/
def asUnit {α : Type} : Except PyErr Unit → Except PyErr (ListRes α)
  | .ok _ => .ok .unit
  | .error x => .error x

/-- A kind of field whose values are stored as text: the list field and the single-value field use the same mapper. -/
structure TextKind (α : Type) where
  toPython : Option Item → Except PyErr α
  toXml : α → Except PyErr (Option Str)

/-- The list field of this kind. -/
def TextKind.list {α : Type} (k : TextKind α) (ctx : Ctx) (e : Expr) : ListKind α := ⟨fun it => k.toPython (some it), storeText ctx k.toXml e⟩

/-- `StringField` / `StringListField`. -/
def strPair : TextKind (Option Str) := ⟨strToPython false, strToXml⟩
/-- `IntegerField` / `IntegerListField`. -/
def intPair (number : Str → XNum) : TextKind (Option Int) := ⟨intToPython number, intToXml⟩

/-- The pairs covered. -/
inductive PairOk (number : Str → XNum) : {α : Type} → TextKind α → ListView α → Prop
  | str : PairOk number strPair strView
  | int : PairOk number (intPair number) (intView number)

/-- Run an operation on the object whose element is at `a`. -/
def SharedOp.run {α : Type} [DecidableEq α] (eng : Engine) (ctx : Ctx) (k : TextKind α) (xp : Str) (e : Expr) (a : Node.Addr) (s : Node) :
    SharedOp α → Except PyErr (ListRes α) × Node
  | .list op => listOp eng ctx (k.list ctx e) xp e a op s
  | .assign vs => (asUnit (writeList eng ctx (k.list ctx e) xp e a vs s).1, (writeList eng ctx (k.list ctx e) xp e a vs s).2)
  | .clear => (asUnit (deleteList eng ctx (k.list ctx e) xp a s).1, (deleteList eng ctx (k.list ctx e) xp a s).2)
  | .set v => (asUnit (writeAs (k.toXml v) eng ctx xp e (.elem a) s).1, (writeAs (k.toXml v) eng ctx xp e (.elem a) s).2)
  | .delete => (asUnit (managerDelete eng ctx xp e (.elem a) s).1, (managerDelete eng ctx xp e (.elem a) s).2)

/-- Run a history: results and the document at the end. -/
def runShared {α : Type} [DecidableEq α] (eng : Engine) (ctx : Ctx) (k : TextKind α) (xp : Str) (e : Expr) (a : Node.Addr) (s : Node) :
    List (SharedOp α) → List (Except PyErr (ListRes α)) × Node
  | [] => ([], s)
  | op :: ops => ((op.run eng ctx k xp e a s).1 :: (runShared eng ctx k xp e a (op.run eng ctx k xp e a s).2 ops).1,
      (runShared eng ctx k xp e a (op.run eng ctx k xp e a s).2 ops).2)

theorem pairOk_covered {number : Str → XNum} {ctx : Ctx} {e : Expr} {q : QName} {ps : List Pred} (hps : attrOnly ps = true) {α : Type} {k : TextKind α}
    {V : ListView α} (h : PairOk number k V) : Covered number ctx e q ps (k.list ctx e) V := by
  cases h with
  | str => exact .str hps
  | int => exact .int hps

theorem pairOk_text {number : Str → XNum} {α : Type} {k : TextKind α} {V : ListView α} (h : PairOk number k V) {v : α} (hv : V.storable v) :
    ∃ t, k.toXml v = .ok (some t) := by
  cases h with
  | str => obtain ⟨t, rfl, -⟩ := hv; exact ⟨t, rfl⟩
  | int => obtain ⟨n, rfl, -⟩ := hv; exact ⟨intStr n, rfl⟩

section
variable {eng : Engine} (heng : EngineOk eng) {number : Str → XNum} (hnum : NumberOk number) {ctx : Ctx} {xp : Str} {e : Expr} {q : QName} {ps : List Pred}
  (hf : SimpleField ctx xp e [.child q ps]) (hps : attrOnly ps = true) {α : Type} [DecidableEq α] {k : TextKind α} {V : ListView α} (hk : PairOk number k V)
include heng hnum hf hps hk

theorem shared_step {a : Node.Addr} {s n : Node} (hs : s.get a = some n) {l : List α} (hl : Holds q ps V.fits V.item n l) (op : SharedOp α)
    (hop : op.Ok V.storable) :
    ∃ n', op.run eng ctx k xp e a s = ((op.replay l).1, s.modify a (fun _ => n')) ∧ Holds q ps V.fits V.item n' (op.replay l).2 ∧
      SameButMembers q ps n n' := by
  obtain ⟨put, hS⟩ := (pairOk_covered (ctx := ctx) (e := e) (q := q) hps hk).store_ok hnum
  obtain ⟨ax, t, es, rfl⟩ := res_single hf.path
  have hms := listMatches_run heng hf.parse hf.path hs
  cases op with
  | list op => exact runOp_run heng hf.parse hf.path (pathOk_single hf.ok) hS hs hl op hop.1 hop.2
  | assign vs =>
    obtain ⟨n', h1, h2, h3⟩ := listAssign_run heng hf.parse hf.path (pathOk_single hf.ok) hS vs hs hl hop
    have h1 : writeList eng ctx (k.list ctx _) xp _ a vs s = _ := h1
    exact ⟨n', by simp only [SharedOp.run, h1]; rfl, h2, h3⟩
  | clear =>
    obtain ⟨n', h1, h2, h3⟩ := listDeleteAll_run heng hf.parse hf.path hS hs hl
    have h1 : deleteList eng ctx (k.list ctx _) xp a s = _ := h1
    exact ⟨n', by simp only [SharedOp.run, h1]; rfl, h2, h3⟩
  | set v =>
    obtain ⟨w, hw⟩ := pairOk_text hk hop
    have h0 := C76_set_is_item_zero eng ctx k.toXml xp (.step ax t es) (.elem a) s _ hms v w hw
    obtain ⟨n', h1, h2, h3⟩ := runOp_run heng hf.parse hf.path (pathOk_single hf.ok) hS hs hl (.set 0 v) rfl
      (by intro x hx; rw [List.mem_singleton.mp hx]; exact hop)
    have hp : pyList l (.set 0 v) = (.ok .unit, v :: l.tail) := by
      cases l with
      | nil => rfl
      | cons x l => simp [pyList, pos]; omega
    rw [hp] at h1 h2
    have h4 : listSet eng ctx (storeText ctx k.toXml (.step ax t es)) xp (.step ax t es) (.elem a) 0 v s = (.ok (), s.modify a (fun _ => n')) := by
      have h1' : (do
        listSet eng ctx (storeText ctx k.toXml (.step ax t es)) xp (.step ax t es) (.elem a) 0 v
        pure (ListRes.unit : ListRes α) : M (ListRes α)) s = (.ok .unit, s.modify a (fun _ => n')) := h1
      cases hc : listSet eng ctx (storeText ctx k.toXml (.step ax t es)) xp (.step ax t es) (.elem a) 0 v s with
      | mk o s1 =>
        cases o with
        | error x => rw [bind_err hc] at h1'; cases h1'
        | ok r =>
          rw [bind_ok hc] at h1'
          have : (Except.ok (ε := PyErr) (ListRes.unit : ListRes α), s1) = (.ok .unit, s.modify a (fun _ => n')) := h1'
          cases this
          rfl
    refine ⟨n', ?_, h2, h3⟩
    simp only [SharedOp.run, h0, h4]
    rfl
  | delete =>
    obtain ⟨d1, d2⟩ := C76_delete_is_item_zero eng heng ctx xp (.step ax t es) q ps hf hps a s n hs
    by_cases hm : members q ps n = []
    · have hl0 : l = [] := by rw [← hl.2, hm]; rfl
      refine ⟨n, ?_, ?_, same_refl n⟩
      · simp only [SharedOp.run, d2 hm]
        rw [Node.modify_id hs rfl]
        rfl
      · subst hl0
        exact hl
    · have hd := listDel_run heng hf.parse hf.path hs hl 0
      have hlen : 0 < l.length := by
        rw [← hl.2, List.length_map]
        exact List.length_pos_iff.mpr hm
      have hpos : pos l.length 0 = some 0 := by
        unfold pos
        rw [if_pos ⟨by omega, by omega⟩]
        rfl
      rw [hpos] at hd
      obtain ⟨n', h1, h2, h3⟩ := hd
      refine ⟨n', ?_, ?_, h3⟩
      · simp only [SharedOp.run, d1 hm, h1]
        rfl
      · have : l.eraseIdx 0 = l.tail := by cases l <;> rfl
        rw [this] at h2
        exact h2

/-- C76.  Every history of operations on both fields gives the results and exceptions of the same history on one Python list whose first item the
single-value field stands for; at the end the list field shows that list, and the single-value field its first item, or what its mapper says of
a missing node; and nothing but the members of the list changed. -/
theorem C76_shared_history {a : Node.Addr} : ∀ (ops : List (SharedOp α)) (_ : ∀ op ∈ ops, op.Ok V.storable) {s n : Node} (_ : s.get a = some n)
    (_ : ∀ m ∈ members q ps n, V.fits m),
    ∃ n', runShared eng ctx k xp e a s ops = ((SharedOp.replayAll ((members q ps n).map V.item) ops).1, s.modify a (fun _ => n')) ∧
      SameButMembers q ps n n' ∧
      readList eng ctx (k.list ctx e) xp a (s.modify a (fun _ => n')) = (.ok (SharedOp.replayAll ((members q ps n).map V.item) ops).2, s.modify a (fun _ => n')) ∧
      readAs k.toPython eng ctx xp e (.elem a) (s.modify a (fun _ => n')) = (firstOr (k.toPython none) (SharedOp.replayAll ((members q ps n).map V.item) ops).2, s.modify a (fun _ => n')) := by
  obtain ⟨put, hS⟩ := (pairOk_covered (ctx := ctx) (e := e) (q := q) hps hk).store_ok hnum
  have key : ∀ (ops : List (SharedOp α)) (_ : ∀ op ∈ ops, op.Ok V.storable) {s n : Node} (_ : s.get a = some n) {l : List α}
      (_ : Holds q ps V.fits V.item n l), ∃ n', runShared eng ctx k xp e a s ops = ((SharedOp.replayAll l ops).1, s.modify a (fun _ => n')) ∧
        SameButMembers q ps n n' ∧ Holds q ps V.fits V.item n' (SharedOp.replayAll l ops).2 := by
    intro ops
    induction ops with
    | nil =>
      intro _ s n hs l hl
      exact ⟨n, by rw [Node.modify_id hs rfl]; rfl, same_refl n, hl⟩
    | cons op ops ih =>
      intro hops s n hs l hl
      obtain ⟨n1, h1, h2, h3⟩ := shared_step heng hnum hf hps hk hs hl op (hops op (by simp))
      obtain ⟨n2, h4, h5, h6⟩ := ih (fun o ho => hops o (by simp [ho])) (s := s.modify a (fun _ => n1)) (n := n1) (by rw [Node.get_modify, hs]; rfl) h2
      refine ⟨n2, ?_, same_trans h3 h5, h6⟩
      simp only [runShared, h1, h4, SharedOp.replayAll]
      rw [Node.modify_modify]
      rfl
  intro ops hops s n hs hfit
  obtain ⟨n', h1, h2, h3⟩ := key ops hops hs (l := (members q ps n).map V.item) ⟨hfit, rfl⟩
  have hg : (s.modify a (fun _ => n')).get a = some n' := by rw [Node.get_modify, hs]; rfl
  have hr : readList eng ctx (k.list ctx e) xp a (s.modify a (fun _ => n')) = (.ok (SharedOp.replayAll ((members q ps n).map V.item) ops).2, s.modify a (fun _ => n')) := by
    obtain ⟨ax, t, es, rfl⟩ := res_single hf.path
    exact listData_run heng hf.parse hf.path hS hg h3
  refine ⟨n', h1, h2, hr, ?_⟩
  generalize (SharedOp.replayAll ((members q ps n).map V.item) ops).2 = l at hr ⊢
  cases l with
  | nil => exact C76_empty eng ctx k.toPython xp e (.elem a) _ hr
  | cons v vs => exact C76_first_item eng ctx k.toPython xp e (.elem a) _ v vs hr

end

end

/-- A pair of fields with the XPath `m:k[@id='1']`. -/
theorem sharedField : SimpleField sampleCtx c%"m:k[@id='1']" (ast c%"m:k[@id='1']") [.child ⟨some c%"http://m", c%"k"⟩ [.attr ⟨none, c%"id"⟩ (some (.str c%"1"))]] :=
  ⟨by decide, by rfl, by decide, by decide⟩

/-- The hypotheses can be met: on an empty element, assigning creates the item; further items are appended; deleting the field promotes the second item. -/
example : ∃ n', runShared refEngine sampleCtx strPair c%"m:k[@id='1']" (ast c%"m:k[@id='1']") [] (Node.empty ⟨none, c%"r"⟩)
      [.set (some c%"A"), .list (.append (some c%"B")), .list (.get 0), .delete, .list .len]
      = ([.ok .unit, .ok .unit, .ok (.val (some c%"A")), .ok .unit, .ok (.nat 1)], n') ∧
    readAs strPair.toPython refEngine sampleCtx c%"m:k[@id='1']" (ast c%"m:k[@id='1']") (.elem []) n' = (.ok (some c%"B"), n') := by
  obtain ⟨n', h1, -, -, h4⟩ := C76_shared_history refEngine_ok xpathNumber_ok sharedField (by decide) (PairOk.str (number := xpathNumber)) (a := [])
    [.set (some c%"A"), .list (.append (some c%"B")), .list (.get 0), .delete, .list .len]
    (by
      intro op hop
      simp only [List.mem_cons, List.not_mem_nil, or_false] at hop
      rcases hop with rfl | rfl | rfl | rfl | rfl
      · exact ⟨_, rfl, by decide⟩
      · refine ⟨rfl, fun v hv => ?_⟩
        rw [show v = (some c%"B" : Option Str) from (List.mem_singleton (α := Option Str)).mp hv]
        exact ⟨_, rfl, by decide⟩
      · exact ⟨rfl, fun v hv => by cases hv⟩
      · trivial
      · exact ⟨rfl, fun v hv => by cases hv⟩)
    (s := Node.empty ⟨none, c%"r"⟩) rfl (by intro m hm; cases hm)
  exact ⟨_, h1, h4⟩

/-! ### C76 applied to documents -/

/-- A document with two items. -/
def twoItems : Node := .mk (.elem ⟨none, c%"r"⟩) [] none [(Node.empty ⟨none, c%"k"⟩).setText (some c%"A"), (Node.empty ⟨none, c%"k"⟩).setText (some c%"B")] none

example : readAs (strToPython false) refEngine sampleCtx c%"k" (ast c%"k") (.elem []) twoItems = (.ok (some c%"A"), twoItems) :=
  C76_first_item refEngine sampleCtx (strToPython false) c%"k" (ast c%"k") (.elem []) twoItems (some c%"A") [some c%"B"] (by decide)
example : readAs (strToPython false) refEngine sampleCtx c%"j" (ast c%"j") (.elem []) twoItems = (.ok none, twoItems) :=
  C76_empty refEngine sampleCtx (strToPython false) c%"j" (ast c%"j") (.elem []) twoItems (by decide)
example := C76_set_is_item_zero refEngine sampleCtx strToXml c%"k" (ast c%"k") (.elem []) twoItems [.elem [0], .elem [1]] (by decide) (some c%"C") c%"C" rfl
example := C76_delete_is_item_zero refEngine refEngine_ok sampleCtx c%"k" (ast c%"k") ⟨none, c%"k"⟩ [] ⟨by decide, by rfl, by decide, by decide⟩ rfl [] twoItems twoItems rfl

end Props
