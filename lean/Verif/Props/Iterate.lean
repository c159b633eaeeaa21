import Verif.Spec.Iterate
import Verif.Props.ListField
/-
Property C95: a loop over a list field goes over the items that the list had when it started.

Model: `listFor`, `runProg` (Verif/XmlMap/Iterate.lean).  Specification: Verif/Spec/Iterate.lean.
-/
namespace Props
open XPath Xml Spec Fields

section
variable [PyUnicode] {eng : Engine} {ctx : Ctx} {xp : Str} {ax t es} {q : QName} {ps : List Pred}
  {α σ : Type} [DecidableEq α] {mapper : Item → Except PyErr α} {store : Ref → α → M Unit} {good : Node → Prop} {value : Node → α} {put : α → Node → Node} {ok : α → Prop}

theorem runProg_run (heng : EngineOk eng) (hp : parse0 xp = .ok (.step ax t es)) (hr : res ctx (.step ax t es) = some ([.child q ps], none)) (hok : okAll ps = true)
    (hS : StoreOk q ps mapper store good value put ok) (pr : Prog σ α) (h : Spec.Prog.NoAssign ok pr) : ∀ {a s n l}, Node.get a s = some n → Holds q ps good value n l →
    ∃ n', runProg eng ctx mapper store xp (.step ax t es) (.elem a) pr s = ((pyProg pr l).1, s.modify a (fun _ => n')) ∧ Holds q ps good value n' (pyProg pr l).2 ∧
      SameButMembers q ps n n' := by
  induction pr with
  | raises e =>
    intro a s n l hs hl
    exact ⟨n, by rw [Node.modify_id hs rfl]; rfl, hl, same_refl n⟩
  | done v b =>
    intro a s n l hs hl
    exact ⟨n, by rw [Node.modify_id hs rfl]; rfl, hl, same_refl n⟩
  | op o next ih =>
    intro a s n l hs hl
    cases h with
    | op h1 h2 _ h4 =>
      obtain ⟨n', k1, k2, k3⟩ := runOp_run heng hp hr hok hS hs hl o h1 h2
      have hs' : (s.modify a (fun _ => n')).get a = some n' := by rw [Node.get_modify, hs]; rfl
      obtain ⟨n'', m1, m2, m3⟩ := ih _ (h4 (pyList l o).1) hs' k2
      refine ⟨n'', ?_, m2, same_trans k3 m3⟩
      rw [runProg]
      simp only [k1]
      rw [m1, Node.modify_modify]
      rfl

theorem listFor_go (heng : EngineOk eng) (hp : parse0 xp = .ok (.step ax t es)) (hr : res ctx (.step ax t es) = some ([.child q ps], none)) (hok : okAll ps = true)
    (hS : StoreOk q ps mapper store good value put ok) (body : σ → α → Prog σ α) (doc : Node) : ∀ (rs : List Ref) (items : List α) (v : σ) {a s n l},
    (∀ v, ∀ x ∈ items, Spec.Prog.NoAssign ok (body v x)) →
    mapMatches mapper doc rs = .ok items → Node.get a s = some n → Holds q ps good value n l →
    ∃ n', listFor.go eng ctx mapper store xp (.step ax t es) (.elem a) body doc v rs s = ((pyFor body v items l).1, s.modify a (fun _ => n')) ∧
      Holds q ps good value n' (pyFor body v items l).2 ∧ SameButMembers q ps n n'
  | [], items, v, a, s, n, l, _, hm, hs, hl => by
    cases hm
    exact ⟨n, by rw [Node.modify_id hs rfl]; rfl, hl, same_refl n⟩
  | r :: rs, items, v, a, s, n, l, hb, hm, hs, hl => by
    rw [mapMatches] at hm
    cases h1 : mapMatch mapper doc r with
    | error e => rw [h1] at hm; cases hm
    | ok x =>
      rw [h1] at hm
      cases h2 : mapMatches mapper doc rs with
      | error e => rw [h2] at hm; cases hm
      | ok xs =>
        rw [h2] at hm
        cases hm
        obtain ⟨n', k1, k2, k3⟩ := runProg_run heng hp hr hok hS (body v x) (hb v x (by simp)) hs hl
        have hs' : (s.modify a (fun _ => n')).get a = some n' := by rw [Node.get_modify, hs]; rfl
        rw [listFor.go, bind_ok (show (ofExcept (mapMatch mapper doc r) : M α) s = (.ok x, s) by rw [h1]; rfl), pyFor]
        revert k1 k2
        cases pyProg (body v x) l with
        | mk res l' =>
          intro k1 k2
          cases res with
          | error e => exact ⟨n', by rw [bind_err k1], k2, k3⟩
          | ok vb =>
            obtain ⟨v', b⟩ := vb
            rw [bind_ok k1]
            cases b with
            | false => exact ⟨n', rfl, k2, k3⟩
            | true =>
              obtain ⟨n'', m1, m2, m3⟩ := listFor_go heng hp hr hok hS body doc rs xs v' (fun v y hy => hb v y (by simp [hy])) h2 hs' k2
              refine ⟨n'', ?_, m2, same_trans k3 m3⟩
              rw [Node.modify_modify] at m1
              exact m1

omit [PyUnicode] in
theorem steady_length {l : List α} {o : ListOp α} (h : o.steady l.length) : (pyList l o).2.length = l.length ∧ o.supported = true := by
  cases o with
  | set i v =>
    have h : i ≠ l.length := h
    refine ⟨?_, rfl⟩
    simp only [pyList]
    rw [if_neg h]
    cases pos l.length i <;> simp
  | get i =>
    refine ⟨?_, rfl⟩
    simp only [pyList]
    cases pos l.length i with
    | none => rfl
    | some k => simp only; cases l[k]? <;> rfl
  | index v => refine ⟨?_, rfl⟩; simp only [pyList]; split <;> rfl
  | len => exact ⟨rfl, rfl⟩
  | count v => exact ⟨rfl, rfl⟩
  | contains v => exact ⟨rfl, rfl⟩
  | eq v => exact ⟨rfl, rfl⟩
  | del i => exact h.elim
  | append i => exact h.elim
  | extend i => exact h.elim
  | insert i v => exact h.elim
  | pop i => exact h.elim
  | remove i => exact h.elim

theorem steady_run (heng : EngineOk eng) (hp : parse0 xp = .ok (.step ax t es)) (hr : res ctx (.step ax t es) = some ([.child q ps], none)) (hok : okAll ps = true)
    (hS : StoreOk q ps mapper store good value put ok) (pr : Prog σ α) : ∀ {a s n} {l : List α}, Spec.Prog.Steady ok l.length pr → Node.get a s = some n → Holds q ps good value n l →
    ∃ n', runProg eng ctx mapper store xp (.step ax t es) (.elem a) pr s = ((pyProg pr l).1, s.modify a (fun _ => n')) ∧ Holds q ps good value n' (pyProg pr l).2 ∧
      (pyProg pr l).2.length = l.length ∧ SameButMembers q ps n n' := by
  induction pr with
  | raises e =>
    intro a s n l h hs hl
    exact ⟨n, by rw [Node.modify_id hs rfl]; rfl, hl, rfl, same_refl n⟩
  | done v b =>
    intro a s n l h hs hl
    exact ⟨n, by rw [Node.modify_id hs rfl]; rfl, hl, rfl, same_refl n⟩
  | op o next ih =>
    intro a s n l h hs hl
    cases h with
    | op h1 h2 h3 =>
      obtain ⟨hlen, hsup⟩ := steady_length h1
      obtain ⟨n', k1, k2, k3⟩ := runOp_run heng hp hr hok hS hs hl o hsup h2
      have hs' : (s.modify a (fun _ => n')).get a = some n' := by rw [Node.get_modify, hs]; rfl
      obtain ⟨n'', m1, m2, m3, m4⟩ := ih (pyList l o).1 (l := (pyList l o).2) (by rw [hlen]; exact h3 _) hs' k2
      refine ⟨n'', ?_, m2, m3.trans hlen, same_trans k3 m4⟩
      rw [runProg]
      simp only [k1]
      rw [m1, Node.modify_modify]
      rfl

theorem listForNow_go (heng : EngineOk eng) (hp : parse0 xp = .ok (.step ax t es)) (hr : res ctx (.step ax t es) = some ([.child q ps], none)) (hok : okAll ps = true)
    (hS : StoreOk q ps mapper store good value put ok) (body : Nat → σ → α → Prog σ α) : ∀ (j i : Nat) (v : σ) {a s n} {l : List α}, i + j = l.length →
    (∀ i < l.length, ∀ v x, Spec.Prog.Steady ok l.length (body i v x)) → Node.get a s = some n → Holds q ps good value n l →
    ∃ n', listForNow.go eng ctx mapper store xp (.step ax t es) (.elem a) body i j v s = ((pyForSelf body j i v l).1, s.modify a (fun _ => n')) ∧
      Holds q ps good value n' (pyForSelf body j i v l).2 ∧ SameButMembers q ps n n'
  | 0, i, v, a, s, n, l, _, _, hs, hl => ⟨n, by rw [Node.modify_id hs rfl]; rfl, hl, same_refl n⟩
  | j + 1, i, v, a, s, n, l, hi, hb, hs, hl => by
    have hil : i < l.length := by omega
    have hpos : pos l.length (i : Int) = some i := by
      unfold pos
      rw [if_pos (by omega)]
      simp
    have hget := listGet_run heng hp hr hS hs hl (i : Int)
    rw [show pyGet l (i : Int) = .ok (l[i]'hil) from pyGet_some hpos] at hget
    obtain ⟨n', k1, k2, k4, k3⟩ := steady_run heng hp hr hok hS (body i v (l[i]'hil)) (hb i hil v _) hs hl
    have hs' : (s.modify a (fun _ => n')).get a = some n' := by rw [Node.get_modify, hs]; rfl
    rw [listForNow.go, bind_ok hget, pyForSelf, List.getElem?_eq_getElem hil]
    simp only
    revert k1 k2 k4
    cases pyProg (body i v (l[i]'hil)) l with
    | mk res l' =>
      intro k1 k2 k4
      cases res with
      | error e => exact ⟨n', by rw [bind_err k1], k2, k3⟩
      | ok vb =>
        obtain ⟨v', b⟩ := vb
        rw [bind_ok k1]
        cases b with
        | false => exact ⟨n', rfl, k2, k3⟩
        | true =>
          have k4 : l'.length = l.length := k4
          obtain ⟨n'', m1, m2, m3⟩ := listForNow_go heng hp hr hok hS body j (i + 1) v' (l := l') (by omega) (by rw [k4]; exact hb) hs' k2
          refine ⟨n'', ?_, m2, same_trans k3 m3⟩
          rw [Node.modify_modify] at m1
          exact m1

end

section
variable [PyUnicode] {eng : Engine} {number : Str → XNum} {ctx : Ctx} {xp : Str} {e : Expr} {q : QName} {ps : List Pred} {α σ : Type} [DecidableEq α]
  {k : ListKind α} {V : ListView α} {a : Node.Addr} {s n : Node}

/-- `for x in obj.field: body`. -/
def forList (eng : Engine) (ctx : Ctx) (k : ListKind α) (xp : Str) (e : Expr) (a : Node.Addr) (body : σ → α → Prog σ α) (v : σ) : M σ :=
  listFor eng ctx k.read k.store xp e (.elem a) body v

/-- C95.  `for x in obj.field: body`, where the body works on the field in any way except for assigning to an index, is the loop over a copy of the Python list: the body gets the
items that the list had when the loop started, each one once and in this order, whatever it inserts and removes; results, exceptions, `break` and the list at the end are those of Python, and nothing but
the members of the list changes. -/
theorem C95_loop (h : ListAt eng number ctx xp e q ps k V a s n) (body : σ → α → Prog σ α) (v : σ)
    (hb : ∀ v, ∀ x ∈ (members q ps n).map V.item, Spec.Prog.NoAssign V.storable (body v x)) :
    ∃ n', forList eng ctx k xp e a body v s = ((pyFor body v ((members q ps n).map V.item) ((members q ps n).map V.item)).1, s.modify a (fun _ => n')) ∧
      readList eng ctx k xp a (s.modify a (fun _ => n')) = (.ok (pyFor body v ((members q ps n).map V.item) ((members q ps n).map V.item)).2, s.modify a (fun _ => n')) ∧
      SameButMembers q ps n n' := by
  obtain ⟨put, hS⟩ := h.kind.store_ok h.num
  obtain ⟨ax, t, es, rfl⟩ := res_single h.field.path
  have hl : Holds q ps V.fits V.item n ((members q ps n).map V.item) := ⟨h.fits, rfl⟩
  have hm := mapMatches_run hS h.node n.children [] rfl hl.1
  simp only [List.length_nil, Nat.zero_add] at hm
  obtain ⟨n', k1, k2, k3⟩ := listFor_go h.engine h.field.parse h.field.path (pathOk_single h.field.ok) hS body s _ _ v hb hm h.node hl
  refine ⟨n', ?_, listData_run h.engine h.field.parse h.field.path hS (by rw [Node.get_modify, h.node]; rfl) k2, k3⟩
  unfold forList listFor
  rw [bind_ok (listMatches_run h.engine h.field.parse h.field.path h.node), bind_ok (show getDoc s = (.ok s, s) from rfl)]
  exact k1

omit [PyUnicode] in
theorem pyFor_remove : ∀ (l : List α), pyFor removeBody () l l = (.ok (), [])
  | [] => rfl
  | x :: l => by
    rw [pyFor]
    have : pyProg (removeBody () x) (x :: l) = (.ok ((), true), l) := by
      simp [removeBody, pyProg, pyList]
    rw [this]
    exact pyFor_remove l

omit [PyUnicode] in
theorem pyFor_append (f : α → α) : ∀ (items l : List α), pyFor (appendBody f) () items l = (.ok (), l ++ items.map f)
  | [], l => by simp [pyFor]
  | x :: items, l => by
    rw [pyFor]
    have : pyProg (appendBody f () x) l = (.ok ((), true), l ++ [f x]) := rfl
    rw [this]
    show pyFor (appendBody f) () items (l ++ [f x]) = _
    rw [pyFor_append f items]
    simp

/-- C95.  `for x in obj.field: obj.field.remove(x)` empties the list, with equal items too (on a Python list it leaves every other item). -/
theorem C95_remove_each (h : ListAt eng number ctx xp e q ps k V a s n) :
    ∃ n', forList eng ctx k xp e a removeBody () s = (.ok (), s.modify a (fun _ => n')) ∧ readList eng ctx k xp a (s.modify a (fun _ => n')) = (.ok [], s.modify a (fun _ => n')) ∧
      SameButMembers q ps n n' := by
  have := C95_loop h removeBody () (fun _ x _ => .op rfl (fun v hv => by cases hv) (fun i v hh => by cases hh) (fun r => by
    cases r with
    | ok _ => exact .done
    | error _ => exact .raises))
  rw [pyFor_remove] at this
  exact this

/-- C95.  `for x in obj.field: obj.field.append(f(x))` ends, and has put the new items behind the old ones (on a Python list it does not end). -/
theorem C95_append_each (h : ListAt eng number ctx xp e q ps k V a s n) (f : α → α) (hf : ∀ m ∈ members q ps n, V.storable (f (V.item m))) :
    ∃ n', forList eng ctx k xp e a (appendBody f) () s = (.ok (), s.modify a (fun _ => n')) ∧
      readList eng ctx k xp a (s.modify a (fun _ => n')) = (.ok ((members q ps n).map V.item ++ (members q ps n).map (fun m => f (V.item m))), s.modify a (fun _ => n')) ∧
      SameButMembers q ps n n' := by
  have := C95_loop h (appendBody f) () (fun _ x hx => .op rfl (fun v hv => by
      obtain ⟨m, hm, rfl⟩ := List.mem_map.mp hx
      rw [List.mem_singleton.mp hv]
      exact hf m hm) (fun i v hh => by cases hh) (fun r => by
    cases r with
    | ok _ => exact .done
    | error _ => exact .raises))
  rw [pyFor_append, List.map_map] at this
  exact this

/-- C95.  `obj.field.extend(obj.field)` repeats the list, as in Python. -/
theorem C95_extend_self (h : ListAt eng number ctx xp e q ps k V a s n) (hf : ∀ m ∈ members q ps n, V.storable (V.item m)) :
    ∃ n', listExtendSelf eng ctx k.read k.store xp e (.elem a) s = (.ok (), s.modify a (fun _ => n')) ∧
      readList eng ctx k xp a (s.modify a (fun _ => n')) = (.ok ((members q ps n).map V.item ++ (members q ps n).map V.item), s.modify a (fun _ => n')) ∧
      SameButMembers q ps n n' := C95_append_each h id hf

/-- The values of the field are texts of its members (not the members themselves, as for a NodeListField): the model `listForNow` is for these. -/
def TextualKind (ctx : Ctx) (e : Expr) (k : ListKind α) : Prop := ∃ toXml, k.store = storeText ctx toXml e

/-- C95.  `for i, x in enumerate(obj.field): body`, where the body assigns to items, and reads, but neither adds nor removes any: it is the loop over the Python list itself; an item that has been assigned before its turn
comes has its new value. -/
theorem C95_loop_assigning (h : ListAt eng number ctx xp e q ps k V a s n) (_ : TextualKind ctx e k) (body : Nat → σ → α → Prog σ α) (v : σ)
    (hb : ∀ i < (members q ps n).length, ∀ v x, Spec.Prog.Steady V.storable (members q ps n).length (body i v x)) :
    ∃ n', listForNow eng ctx k.read k.store xp e (.elem a) body v s =
        ((pyForSelf body (members q ps n).length 0 v ((members q ps n).map V.item)).1, s.modify a (fun _ => n')) ∧
      readList eng ctx k xp a (s.modify a (fun _ => n')) = (.ok (pyForSelf body (members q ps n).length 0 v ((members q ps n).map V.item)).2, s.modify a (fun _ => n')) ∧
      SameButMembers q ps n n' := by
  obtain ⟨put, hS⟩ := h.kind.store_ok h.num
  obtain ⟨ax, t, es, rfl⟩ := res_single h.field.path
  have hl : Holds q ps V.fits V.item n ((members q ps n).map V.item) := ⟨h.fits, rfl⟩
  obtain ⟨n', k1, k2, k3⟩ := listForNow_go h.engine h.field.parse h.field.path (pathOk_single h.field.ok) hS body (members q ps n).length 0 v (l := (members q ps n).map V.item) (by simp)
    (by simpa using hb) h.node hl
  refine ⟨n', ?_, listData_run h.engine h.field.parse h.field.path hS (by rw [Node.get_modify, h.node]; rfl) k2, k3⟩
  unfold listForNow
  rw [bind_ok (listMatches_run h.engine h.field.parse h.field.path h.node)]
  have hlen := matches_length hl a
  rw [← k1]
  congr 1
  rw [List.length_map, List.length_map] at *
  exact hlen

omit [PyUnicode] in
theorem pyForSelf_replace (f : α → α) : ∀ (todo done : List α), pyForSelf (replaceBody f) todo.length done.length () (done ++ todo) = (.ok (), done ++ todo.map f)
  | [], done => by simp [pyForSelf]
  | x :: todo, done => by
    rw [List.length_cons, pyForSelf]
    have h1 : (done ++ x :: todo)[done.length]? = some x := by simp
    rw [h1]
    simp only
    have h2 : pyProg (replaceBody f done.length () x) (done ++ x :: todo) = (.ok ((), true), done ++ f x :: todo) := by
      have hpos : pos (done ++ x :: todo).length (done.length : Int) = some done.length := by
        unfold pos
        rw [if_pos (by simp only [List.length_append, List.length_cons]; omega)]
        simp
      simp only [replaceBody, pyProg, pyList, hpos]
      rw [if_neg (by simp only [List.length_append, List.length_cons]; omega)]
      simp [pyProg]
    rw [h2]
    have := pyForSelf_replace f todo (done ++ [f x])
    simp only [List.length_append, List.length_singleton, List.append_assoc, List.singleton_append] at this
    exact this

/-- C95.  `for i, x in enumerate(obj.field): obj.field[i] = f(x)` replaces each item. -/
theorem C95_replace_each (h : ListAt eng number ctx xp e q ps k V a s n) (hk : TextualKind ctx e k) (f : α → α) (hf : ∀ x, V.storable (f x)) :
    ∃ n', listForNow eng ctx k.read k.store xp e (.elem a) (replaceBody f) () s = (.ok (), s.modify a (fun _ => n')) ∧
      readList eng ctx k xp a (s.modify a (fun _ => n')) = (.ok ((members q ps n).map (fun m => f (V.item m))), s.modify a (fun _ => n')) ∧ SameButMembers q ps n n' := by
  have := C95_loop_assigning h hk (replaceBody f) () (fun i hi v x => .op (fun e => by omega) (fun v hv => by rw [List.mem_singleton.mp hv]; exact hf x) (fun r => by
    cases r with
    | ok _ => exact .done
    | error _ => exact .raises))
  have e := pyForSelf_replace f ((members q ps n).map V.item) []
  rw [List.length_map, List.nil_append, List.length_nil] at e
  rw [e, List.nil_append, List.map_map] at this
  exact this

omit [PyUnicode] [DecidableEq α] in
/-- C30.  A key that is neither an integer nor a slice raises `TypeError`, a slice `AssertionError`, and nothing changes, whatever the list is. -/
theorem C30_key_types [PyUnicode] (store : Ref → α → M Unit) (read : Item → Except PyErr α) (node : Ref) (v : α) (s : Node) :
    listGetKey eng ctx read xp node .other s = (.error .typeError, s) ∧ listSetKey eng ctx store xp e node .other v s = (.error .typeError, s) ∧
    listDelKey eng ctx xp node .other s = (.error .typeError, s) ∧
    listGetKey eng ctx read xp node .slice s = (.error .assertionError, s) ∧ listSetKey eng ctx store xp e node .slice v s = (.error .assertionError, s) ∧
    listDelKey eng ctx xp node .slice s = (.error .assertionError, s) := ⟨rfl, rfl, rfl, rfl, rfl, rfl⟩

/-- C30.  Integers, and booleans as the integers 0 and 1, are the keys of C25. -/
theorem C30_integer_keys (v : α) (s : Node) :
    (∀ i : Int, (do let x ← listGetKey eng ctx k.read xp (.elem a) (.int i); pure (ListRes.val x)) s = listOp eng ctx k xp e a (.get i) s ∧
      (do listSetKey eng ctx k.store xp e (.elem a) (.int i) v; pure ListRes.unit) s = listOp eng ctx k xp e a (.set i v) s ∧
      (do listDelKey eng ctx xp (.elem a) (.int i); pure ListRes.unit) s = listOp eng ctx k xp e a (.del i) s) ∧
    ∀ b : Bool, listGetKey eng ctx k.read xp (.elem a) (.bool b) s = listGetKey eng ctx k.read xp (.elem a) (.int (if b then 1 else 0)) s ∧
      listSetKey eng ctx k.store xp e (.elem a) (.bool b) v s = listSetKey eng ctx k.store xp e (.elem a) (.int (if b then 1 else 0)) v s ∧
      listDelKey eng ctx xp (.elem a) (.bool b) s = listDelKey eng ctx xp (.elem a) (.int (if b then 1 else 0)) s := by
  refine ⟨fun i => ⟨?_, ?_, ?_⟩, fun b => ⟨rfl, rfl, rfl⟩⟩ <;> rfl

end

/-! ### the hypotheses can be met -/

/-- A body that looks before it acts, keeps a variable, and leaves the loop: for each item, if there are less than four items, insert another one in front; if not, remove the
item, and stop. -/
def busyBody (v : Nat) (x : Option Str) : Prog Nat (Option Str) := .op .len (fun r => match r with
  | .ok (.nat n) => if n < 4 then .op (.insert 0 (some c%"new")) (fun _ => .done (v + 1) true) else .op (.remove x) (fun _ => .done v false)
  | .ok _ => .raises .runtimeError
  | .error e => .raises e)

theorem busyBody_ok (v : Nat) (x : Option Str) : Spec.Prog.NoAssign (fun v => ∃ t, v = some t ∧ xmlOk t = true) (busyBody v x) := by
  refine .op rfl (fun v hv => by cases hv) (fun i v hh => by cases hh) (fun r => ?_)
  match r with
  | .ok (.nat n) =>
    by_cases hn : n < 4
    · simp only [hn, if_true]
      exact .op rfl (fun v hv => ⟨c%"new", List.mem_singleton.mp hv, by decide⟩) (fun i v hh => by cases hh) (fun _ => .done)
    · simp only [hn, if_false]
      exact .op rfl (fun v hv => by cases hv) (fun i v hh => by cases hh) (fun _ => .done)
  | .ok .unit => exact .raises
  | .ok (.val _) => exact .raises
  | .ok (.bool _) => exact .raises
  | .error _ => exact .raises

/-- The members of the example for C25 are "one" and "two". -/
example : ∃ n', forList refEngine sampleCtx (strKind sampleCtx (ast c%"a[@n='1']")) c%"a[@n='1']" (ast c%"a[@n='1']") [] busyBody 0 listDoc = (.ok 2, n') ∧
    readList refEngine sampleCtx (strKind sampleCtx (ast c%"a[@n='1']")) c%"a[@n='1']" [] n' = (.ok [some c%"new", some c%"new", some c%"one", some c%"two"], n') := by
  obtain ⟨n', h1, h2, -⟩ := C95_loop listAt_str busyBody 0 (fun v x _ => busyBody_ok v x)
  exact ⟨_, h1, h2⟩

example : ∃ n', forList refEngine sampleCtx (strKind sampleCtx (ast c%"a[@n='1']")) c%"a[@n='1']" (ast c%"a[@n='1']") [] (removeBody (α := Option Str)) () listDoc = (.ok (), n') ∧
    readList refEngine sampleCtx (strKind sampleCtx (ast c%"a[@n='1']")) c%"a[@n='1']" [] n' = (.ok [], n') := by
  obtain ⟨n', h1, h2, -⟩ := C95_remove_each listAt_str
  exact ⟨_, h1, h2⟩

/-- Each item is replaced by its first letter. -/
example : ∃ n', listForNow refEngine sampleCtx (strKind sampleCtx (ast c%"a[@n='1']")).read (strKind sampleCtx (ast c%"a[@n='1']")).store c%"a[@n='1']" (ast c%"a[@n='1']") (.elem [])
      (replaceBody (fun x => if x = some c%"one" then some c%"o" else some c%"t")) () listDoc = (.ok (), n') ∧
    readList refEngine sampleCtx (strKind sampleCtx (ast c%"a[@n='1']")) c%"a[@n='1']" [] n' = (.ok [some c%"o", some c%"t"], n') := by
  obtain ⟨n', h1, h2, -⟩ := C95_replace_each listAt_str ⟨_, rfl⟩ (fun x => if x = some c%"one" then some c%"o" else some c%"t") (fun x => by
    by_cases h : x = some c%"one"
    · exact ⟨c%"o", by rw [if_pos h], by decide⟩
    · exact ⟨c%"t", by rw [if_neg h], by decide⟩)
  exact ⟨_, h1, h2⟩

/-! ### C95 applied to the sample list -/

theorem listDoc_storable : ∀ m ∈ members ⟨none, c%"a"⟩ [.attr ⟨none, c%"n"⟩ (some (.str c%"1"))] listDoc, strView.storable (strView.item m) := by
  intro m hm
  exact ⟨_, rfl, by revert m; decide⟩
example := C95_append_each listAt_str (fun _ => some c%"x") (fun _ _ => ⟨_, rfl, by decide⟩)
example := C95_extend_self listAt_str listDoc_storable

end Props
