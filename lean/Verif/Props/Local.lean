import Verif.Props.TypedField
import Verif.Spec.SelfPath
import Verif.XmlMap.LocalLists
import Verif.Props.ListField
/-
Property C111: an XmlObject for an element inside a document behaves like one whose element is a document of its own, and does not change anything else in the document, as long as the XPaths look downwards.

Model: `managerGet`, `managerSet`, `managerCreate`, `managerDelete` (Verif/XmlMap/Manager.lean).  Specification: Verif/Spec/Local.lean.
-/
namespace Props
open XPath Xml Spec Fields

section
variable [PyUnicode] {eng : Engine} {ctx : Ctx} {xp : Str} {e : Expr}

/-- C111.  Reading (any mapper, also with `instantiate_on_get`), assigning (any mapper, also one that refuses the value; any value but an element that is itself part of the document), deleting, and creating, for a field with any XPath that
looks downwards only, for an object whose element is anywhere in a document: the result and the element afterwards are those for an object whose element is the whole document, also if there is an exception;
the rest of the document is as before. -/
theorem C111_local (hflat : flat e = true) (hdown : ∀ x ∈ xp :: lookups e, Downward eng ctx x) :
    (∀ {α : Type} (inst : Bool) (toPy : Option Item → Except PyErr α), LocalProg (fun _ v => v) (fun a => managerGet eng ctx inst (fun doc m => toPy (m.bind (itemOf doc))) xp e (.elem a))) ∧
    (∀ xv : Except PyErr (Option XValue), (∀ b, xv ≠ .ok (some (.elem (.own b)))) → LocalProg (fun _ v => v) (fun a => managerSet eng ctx xv xp e (.elem a))) ∧
    LocalProg (fun _ v => v) (fun a => managerDelete eng ctx xp e (.elem a)) ∧
    LocalProg Found.under (fun a => managerCreate eng ctx xp e (.elem a)) := by
  have hu : ∀ a, (Ref.elem []).under a = .elem a := fun a => by simp [Ref.under]
  refine ⟨fun inst toPy s n a hs => ?_, fun xv hv s n a hs => ?_, fun s n a hs => ?_, fun s n a hs => ?_⟩
  · have := lifts_managerGet hflat hdown (a := a) (n := n) inst toPy s hs
    rw [hu] at this; exact this
  · have := lifts_managerSet hflat hdown (a := a) (n := n) (xv := xv) (fun v h => by
      cases v with
      | str x => rfl
      | elem w =>
        cases w with
        | own b => exact absurd h (hv b)
        | foreign w => rfl) s hs
    rw [hu] at this; exact this
  · have := lifts_managerDelete hflat hdown (a := a) (n := n) s hs
    rw [hu] at this; exact this
  · have := lifts_managerCreate hflat hdown (a := a) (n := n) s hs
    rw [hu] at this; exact this

/-- C111 for list fields: reading the list, all operations on it, assigning a list and deleting it, for text mappers of every kind and for `NodeListField`s (new elements from outside the document), as long as the XPath does not select the
object's element itself. -/
theorem C111_lists (hflat : flat e = true) (hdown : ∀ x ∈ xp :: lookups e, Downward eng ctx x) (hin : Inside eng ctx xp) :
    (∀ {α : Type} [DecidableEq α] (mapper : Item → Except PyErr α) (toXml : α → Except PyErr (Option Str)),
      LocalProg (fun _ v => v) (fun a => listData eng ctx mapper xp (.elem a)) ∧
      (∀ op, LocalProg (fun _ v => v) (fun a => runOp eng ctx mapper (storeText ctx toXml e) xp e (.elem a) op)) ∧
      (∀ vs, LocalProg (fun _ v => v) (fun a => listAssign eng ctx mapper (storeText ctx toXml e) xp e (.elem a) vs)) ∧
      LocalProg (fun _ v => v) (fun a => listDeleteAll eng ctx mapper xp (.elem a))) ∧
    (textEnd e = false → ∀ (mapper : Item → Except PyErr Node),
      (∀ op, LocalProg (fun _ v => v) (fun a => runOp eng ctx mapper (fun r w => storeNode r (.foreign w)) xp e (.elem a) op)) ∧
      (∀ vs, LocalProg (fun _ v => v) (fun a => listAssign eng ctx mapper (fun r w => storeNode r (.foreign w)) xp e (.elem a) vs))) := by
  have hd := hdown xp (by simp)
  have hl : ∀ x ∈ lookups e, Downward eng ctx x := fun x hx => hdown x (by simp [hx])
  refine ⟨fun mapper toXml => ⟨fun s n a hs => lifts_data hd s hs, fun op s n a hs => ?_, fun vs s n a hs => ?_, fun s n a hs => lifts_deleteAll hd hin s hs⟩, fun hte mapper => ⟨fun op s n a hs => ?_, fun vs s n a hs => ?_⟩⟩
  · exact lifts_op hd hin hflat hl (fun r v n _ => lifts_storeText ctx toXml e r v n) op s hs
  · exact lifts_assign hd hin hflat hl (fun r v n _ => lifts_storeText ctx toXml e r v n) vs s hs
  · exact lifts_op hd hin hflat hl (fun r v n h => lifts_storeNode r v n (h hte)) op s hs
  · exact lifts_assign hd hin hflat hl (fun r v n h => lifts_storeNode r v n (h hte)) vs s hs

omit [PyUnicode] in
/-- A program that is local changes nothing that is not inside the object's element. -/
theorem C111_outside {α : Type} {re : Node.Addr → α → α} {m : Node.Addr → M α} (hm : LocalProg re m) (s n : Node) (a : Node.Addr) (hs : s.get a = some n)
    (b : Node.Addr) (hb : ¬ a <+: b) (hb' : ¬ b <+: a) : (m a s).2.get b = s.get b := by
  rw [hm s n a hs]
  exact Node.get_modify_other _ _ hb hb'

omit [PyUnicode] in
/-- Programs one after the other, where later ones may depend on what earlier ones have read: local again.  So everything C111 says holds for histories of any length. -/
theorem C111_histories {α β : Type} {m : Node.Addr → M α} {k : α → Node.Addr → M β} (hm : LocalProg (fun _ v => v) m) (hk : ∀ x, LocalProg (fun _ v => v) (k x)) :
    LocalProg (fun _ v => v) (fun a => do let x ← m a; k x a) := by
  intro s n a hs
  exact lifts_bind (g := id) (h := id) (fun s' hs' => hm s' n a hs') (fun x n' _ s' hs' => hk x s' n' a hs') s hs

end

section
variable [PyUnicode] {eng : Engine} {ctx : Ctx}

/-- What a path selects exists. -/
theorem matches_exist (p : List Step) (n : Node) : ∀ r ∈ Step.matches p n, (n.get r.addr).isSome := by
  induction p generalizing n with
  | nil => intro r hr; simp only [Step.matches, List.mem_singleton] at hr; subst hr; rfl
  | cons st p ih =>
    intro r hr
    cases st with
    | child q ps =>
      obtain ⟨i, c, hc, -, -, y, hy, rfl⟩ := mem_matches_child.1 hr
      have := ih c y hy
      rw [under_addr]
      show (Node.get (i :: y.addr) n).isSome
      rw [Node.get_cons, hc]; exact this
    | attr q =>
      simp only [Step.matches] at hr
      split at hr
      · simp only [List.mem_singleton] at hr; subst hr; rfl
      · cases hr
    | text =>
      cases p with
      | nil =>
        rcases match_text_one hr with ⟨rfl, -⟩ | ⟨i, c, rfl, hc, -⟩
        · rfl
        · show (Node.get [i] n).isSome
          rw [Node.get_cons, hc]; rfl
      | cons st' p' => simp [Step.matches] at hr

theorem downward_path (heng : EngineOk eng) {x : Str} {e : Expr} {p : List Step} (hp : parse0 x = .ok e) (hr : res ctx e = some (p, none)) : Downward eng ctx x := by
  intro s n a hs
  have hr' : resPath ctx e = some p := by simp [resPath, hr]
  rw [heng.path ctx x e p s n a hp hr' hs, heng.path ctx x e p n n [] hp hr' rfl]
  rw [map_under_nil]
  refine ⟨rfl, fun l hl r hm => ?_⟩
  cases hl
  exact matches_exist p n r hm

theorem lookups_down (heng : EngineOk eng) (e : Expr) (p : List Step) (hc : e.canonical = true) (hr : res ctx e = some (p, none)) : flat e = true ∧ ∀ x ∈ lookups e, Downward eng ctx x := by
  match e, hc, hr with
  | .step ax t ps, hc, hr =>
    refine ⟨rfl, fun x hx => ?_⟩
    simp only [lookups, List.mem_singleton] at hx; subst hx
    exact downward_path heng (parse0_ser hc) hr
  | .binary l op r, hc, hr =>
    cases op with
    | slash =>
      obtain ⟨h1, h2, ax, t, ps, rfl⟩ := canonical_slash hc hr
      simp only [res.eq_def ctx (.binary l .slash _)] at hr
      split at hr
      · rename_i p1 p2 e1 e2
        obtain ⟨i1, i2⟩ := lookups_down heng l p1 h1 e1
        refine ⟨by simp [flat, i1, isSlash], fun x hx => ?_⟩
        simp only [lookups, List.mem_cons, List.mem_append, List.not_mem_nil, or_false] at hx
        rcases hx with rfl | hx | rfl
        · exact downward_path heng (parse0_ser h1) e1
        · exact i2 x hx
        · exact downward_path heng (parse0_ser h2) e2
      · cases hr
    | eq =>
      simp only [res] at hr
      split at hr <;> simp at hr
    | _ => simp [res] at hr
  | .abs .., _, hr => simp [res] at hr
  | .lit .., _, hr => simp [res] at hr

/-- C111 for the XPaths of C12-C19: every path of child steps, with or without an attribute or `text()` at the end. -/
theorem C111_paths (heng : EngineOk eng) (xp : Str) (e : Expr) (p : List Step) (hf : SimpleField ctx xp e p) :
    flat e = true ∧ ∀ x ∈ xp :: lookups e, Downward eng ctx x := by
  obtain ⟨h1, h2⟩ := lookups_down heng e p hf.canonical hf.path
  refine ⟨h1, fun x hx => ?_⟩
  rcases List.mem_cons.1 hx with rfl | hx
  · exact downward_path heng hf.parse hf.path
  · exact h2 x hx

/-- And these never select the element itself. -/
theorem C111_paths_inside (heng : EngineOk eng) (xp : Str) (e : Expr) (p : List Step) (hf : SimpleField ctx xp e p) : Inside eng ctx xp := by
  intro n l hl hm
  rw [heng.path ctx xp e p n n [] hf.parse (by simp [resPath, hf.path]) rfl, map_under_nil] at hl
  cases hl
  have hp : p ≠ [] := ne_nil_of_field hf
  cases p with
  | nil => exact hp rfl
  | cons st p =>
    cases st with
    | child q ps =>
      obtain ⟨i, c, -, -, -, y, -, h⟩ := mem_matches_child.1 hm
      cases y <;> simp [Ref.under] at h
    | attr q =>
      simp only [Step.matches] at hm
      split at hm
      · simp at hm
      · cases hm
    | text =>
      cases p with
      | nil => rcases match_text_one hm with ⟨h, -⟩ | ⟨i, c, h, -⟩ <;> cases h
      | cons st' p' => simp [Step.matches] at hm

end

/-- An XPath that looks upwards: what the engine says about `../b`. -/
def upEngine : Engine := ⟨fun x s a _ =>
  if x = c%"../b" ∧ a ≠ [] then .ok (.nodes ((((s.get a.dropLast).map (Step.matches [.child ⟨none, c%"b"⟩ []])).getD []).map (Ref.under a.dropLast)))
  else .ok (.nodes [])⟩

/-- `<r><b>old</b><c/></r>` -/
def upDoc : Node := .mk (.elem ⟨none, c%"r"⟩) [] none [.mk (.elem ⟨none, c%"b"⟩) [] (some c%"old") [] none, .mk (.elem ⟨none, c%"c"⟩) [] none [] none] none

/-- With an XPath that looks upwards, assigning through an object changes an element outside the object's element; the same for an object whose element is a document raises an exception. -/
theorem C111_counterexample_upwards :
    let c : Node := .mk (.elem ⟨none, c%"c"⟩) [] none [] none
    upDoc.get [1] = some c ∧
    writeStr upEngine sampleCtx c%"new" c%"../b" (ast c%"../b") (.elem [1]) upDoc =
      (.ok (), .mk (.elem ⟨none, c%"r"⟩) [] none [.mk (.elem ⟨none, c%"b"⟩) [] (some c%"new") [] none, c] none) ∧
    writeStr upEngine sampleCtx c%"new" c%"../b" (ast c%"../b") (.elem []) c = (.error .exception, c) := by
  refine ⟨by rfl, by rfl, by rfl⟩

/-- What the engine says about `*`. -/
def starEngine : Engine := ⟨fun _ s a _ => .ok (.nodes (((s.get a).map (fun n => (List.range n.children.length).map (fun i => Ref.elem [i]))).getD [] |>.map (Ref.under a)))⟩

theorem star_down (x : Str) : Downward starEngine sampleCtx x := by
  intro s n a hs
  simp only [starEngine, hs, Option.map_some, Option.getD_some, show Node.get [] n = some n from rfl, map_under_nil]
  refine ⟨rfl, fun l hl r hr => ?_⟩
  cases hl
  simp only [List.mem_map, List.mem_range] at hr
  obtain ⟨i, hi, rfl⟩ := hr
  show (Node.get [i] n).isSome
  rw [Node.get_cons, List.getElem?_eq_getElem hi]; rfl

/-- A field with XPath `*`, which is none of the XPaths of C12-C19. -/
example : LocalProg (fun _ v => v) (fun a => writeStr starEngine sampleCtx c%"new" c%"*" (ast c%"*") (.elem a)) :=
  (C111_local (by decide +kernel) (fun x _ => star_down x)).2.1 _ (by intro b h; cases h)

/-- With XPath `.` a list field of an object that is inside a document can remove the object's element from the document; the same for an object whose element is a document raises an exception. -/
theorem C111_counterexample_itself :
    let c : Node := .mk (.elem ⟨none, c%"c"⟩) [] none [] none
    upDoc.get [1] = some c ∧
    listDel selfEngine sampleCtx c%"." (.elem [1]) 0 upDoc =
      (.ok (), .mk (.elem ⟨none, c%"r"⟩) [] none [.mk (.elem ⟨none, c%"b"⟩) [] (some c%"old") [] none] none) ∧
    listDel selfEngine sampleCtx c%"." (.elem []) 0 c = (.error .attributeError, c) := by
  refine ⟨by rfl, by rfl, by rfl⟩

/-- The operations of the list field `a` (strings) are local. -/
example (op : ListOp (Option Str)) : LocalProg (fun _ v => v) (fun a => runOp refEngine sampleCtx (strKind sampleCtx (ast c%"a")).read (strKind sampleCtx (ast c%"a")).store c%"a" (ast c%"a") (.elem a) op) := by
  have hf : SimpleField sampleCtx c%"a" (ast c%"a") [.child ⟨none, c%"a"⟩ []] := ⟨by decide, by rfl, by decide, by decide⟩
  have h := C111_paths refEngine_ok _ _ _ hf
  exact ((C111_lists h.1 h.2 (C111_paths_inside refEngine_ok _ _ _ hf)).1 _ _).2.1 op

/-- `m:a[@id='1']/b/@c` is local: assigned for the second `a` of the document inside `<r><q/>...</r>`, it changes that element as it would change a document. -/
example : LocalProg (fun _ v => v) (fun a => do
    writeStr refEngine sampleCtx c%"new" c%"m:a[@id='1']/b/@c" (ast c%"m:a[@id='1']/b/@c") (.elem a)
    managerDelete refEngine sampleCtx c%"m:a/b" (ast c%"m:a/b") (.elem a)) := by
  have h1 := C111_paths (eng := refEngine) refEngine_ok c%"m:a[@id='1']/b/@c" (ast c%"m:a[@id='1']/b/@c") _ (ctx := sampleCtx) ⟨by decide, by rfl, by decide, by decide⟩
  have h2 := C111_paths (eng := refEngine) refEngine_ok c%"m:a/b" (ast c%"m:a/b") _ (ctx := sampleCtx) ⟨by decide, by rfl, by decide, by decide⟩
  exact C111_histories ((C111_local h1.1 h1.2).2.1 _ (by intro b h; cases h)) (fun _ => (C111_local h2.1 h2.2).2.2.1)

end Props
