import Verif.XmlMap.ListBetween
import Verif.Spec.ListBetween
import Verif.Props.Iterate
/-
Property C96: giving a list field the items of the list field of another object.

Model: `listAssignLive`, `listAssignCopy`, `listExtendMoving`, `listAssignSelf` (Verif/XmlMap/ListBetween.lean).  Specification: Verif/Spec/ListBetween.lean.
-/
namespace Props
open XPath Xml Spec Fields

theorem both_ok {α β} {m : Both α} {f : α → Both β} {s s' : Node × Node} {x : α} (h : m s = (.ok x, s')) : (m >>= f) s = f x s' := by
  show Both.bind m f s = _
  simp only [Both.bind, h]

theorem both_err {α β} {m : Both α} {f : α → Both β} {s s' : Node × Node} {e} (h : m s = (.error e, s')) : (m >>= f) s = (.error e, s') := by
  show Both.bind m f s = _
  simp only [Both.bind, h]

theorem onTarget_run {α} {m : M α} {t t' s : Node} {r} (h : m t = (r, t')) : onTarget m (t, s) = (r, (t', s)) := by
  simp only [onTarget, h]

theorem onSource_run {α} {m : M α} {t s s' : Node} {r} (h : m s = (r, s')) : onSource m (t, s) = (r, (t, s')) := by
  simp only [onSource, h]

section
variable [PyUnicode] {eng : Engine} {α : Type} [DecidableEq α]
  {ctx : Ctx} {xp : Str} {ax t es} {q : QName} {ps : List Pred} {mapper : Item → Except PyErr α} {store : Ref → α → M Unit} {good : Node → Prop} {value : Node → α} {put : α → Node → Node} {ok : α → Prop}
  {ctx' : Ctx} {xp' : Str} {ax' t' es'} {q' : QName} {ps' : List Pred} {mapper' : Item → Except PyErr α} {store' : Ref → α → M Unit} {good' : Node → Prop} {value' : Node → α} {put' : α → Node → Node}
  {ok' : α → Prop}

/-- Both documents after something: the result, the two lists, and everything else as before. -/
def Step2 (q : QName) (ps : List Pred) (good : Node → Prop) (value : Node → α) (q' : QName) (ps' : List Pred) (good' : Node → Prop) (value' : Node → α) (a b : Node.Addr) (s n u m : Node) {β : Type}
    (r : Except PyErr β × (Node × Node)) (e : Except PyErr β) (l l' : List α) : Prop :=
  ∃ n' m', r = (e, (s.modify a (fun _ => n'), u.modify b (fun _ => m'))) ∧ Holds q ps good value n' l ∧ Holds q' ps' good' value' m' l' ∧ SameButMembers q ps n n' ∧ SameButMembers q' ps' m m'

omit [PyUnicode] [DecidableEq α] in
theorem step2_same {a b s n u m} {l l' : List α} (hs : Node.get a s = some n) (hl : Holds q ps good value n l) (hu : Node.get b u = some m) (hl' : Holds q' ps' good' value' m l') {β : Type}
    (e : Except PyErr β) : Step2 q ps good value q' ps' good' value' a b s n u m (e, (s, u)) e l l' := by
  refine ⟨n, m, ?_, hl, hl', same_refl n, same_refl m⟩
  rw [Node.modify_id hs rfl, Node.modify_id hu rfl]

variable (heng : EngineOk eng) (hp : parse0 xp = .ok (.step ax t es)) (hr : res ctx (.step ax t es) = some ([.child q ps], none)) (hok : okAll ps = true)
  (hS : StoreOk q ps mapper store good value put ok)
  (hp' : parse0 xp' = .ok (.step ax' t' es')) (hr' : res ctx' (.step ax' t' es') = some ([.child q' ps'], none)) (hS' : StoreOk q' ps' mapper' store' good' value' put' ok')

include heng hp hr hok hS in
theorem listSet_nat {a s n} {l : List α} (hs : Node.get a s = some n) (hl : Holds q ps good value n l) {i : Nat} (hi : i ≤ l.length) {v : α} (hv : ok v) :
    Step1 q ps good value a s n (listSet eng ctx store xp (.step ax t es) (.elem a) i v s) (.ok (), l.take i ++ v :: l.drop (i + 1)) := by
  rcases Nat.lt_or_eq_of_le hi with hlt | rfl
  · have hpos : pos l.length (i : Int) = some i := by
      unfold pos
      rw [if_pos (by omega)]
      simp
    obtain ⟨n', h1, h2, h3⟩ := listSet_mid heng hp hr hok hS hs hl hpos hv
    refine ⟨n', h1, ?_, h3⟩
    rw [List.set_eq_take_append_cons_drop, if_pos hlt] at h2
    exact h2
  · obtain ⟨n', h1, h2, h3, -⟩ := listSet_end heng hp hr hok hS hs hl hv
    refine ⟨n', h1, ?_, h3⟩
    rw [List.take_length, List.drop_of_length_le (by omega)]
    exact h2

include heng hp hr hok hS hp' hr' hS' in
theorem assignItem_run {a b s n u m} {l l' : List α} (hs : Node.get a s = some n) (hl : Holds q ps good value n l) (hu : Node.get b u = some m) (hl' : Holds q' ps' good' value' m l')
    (moves : Bool) {i j : Nat} (hi : i ≤ l.length) (hj : j < l'.length) (hv : ok l'[j]) :
    Step2 q ps good value q' ps' good' value' a b s n u m (assignItem eng store ctx xp (.step ax t es) (.elem a) ctx' mapper' xp' (.elem b) moves i j (s, u)) (.ok ())
      (l.take i ++ l'[j] :: l.drop (i + 1)) (if moves then l'.eraseIdx j else l') := by
  have hpos : pos l'.length (j : Int) = some j := by
    unfold pos
    rw [if_pos (by omega)]
    simp
  have h1 := listGet_run heng hp' hr' hS' hu hl' (j : Int)
  rw [pyGet_some hpos] at h1
  obtain ⟨n', k1, k2, k3⟩ := listSet_nat heng hp hr hok hS hs hl hi hv
  unfold assignItem
  rw [both_ok (onSource_run h1), both_ok (onTarget_run k1)]
  cases moves with
  | false =>
    simp only [Bool.false_eq_true, if_false]
    refine ⟨n', m, ?_, k2, hl', k3, same_refl m⟩
    rw [Node.modify_id hu rfl]
    rfl
  | true =>
    simp only [if_true]
    have hd := listDel_run heng hp' hr' hu hl' (j : Int)
    rw [hpos] at hd
    obtain ⟨m', d1, d2, d3⟩ := hd
    exact ⟨n', m', onSource_run d1, k2, d2, k3, d3⟩

include heng hp' hr' hS' in
theorem assignItem_end {a b s u m} {l' : List α} (hu : Node.get b u = some m) (hl' : Holds q' ps' good' value' m l') (xa : Expr) (moves : Bool) {i j : Nat} (hj : l'.length ≤ j) :
    assignItem eng store ctx xp xa (.elem a) ctx' mapper' xp' (.elem b) moves i j (s, u) = (.error .indexError, (s, u)) := by
  have h1 := listGet_run heng hp' hr' hS' hu hl' (j : Int)
  rw [pyGet_pos, show pos l'.length (j : Int) = none by unfold pos; rw [if_neg (by omega), if_neg (by omega)]] at h1
  unfold assignItem
  exact both_err (onSource_run h1)

omit [PyUnicode] [DecidableEq α] in
theorem Step2.trans {β γ : Type} {a b s n u m} {r : Except PyErr γ × (Node × Node)} {e : Except PyErr γ} {l l' : List α} {n' m' : Node} {x : Both β} {f : β → Both γ} {v : β}
    (hs : Node.get a s = some n) (hu : Node.get b u = some m)
    (h1 : x (s, u) = (.ok v, (s.modify a (fun _ => n'), u.modify b (fun _ => m')))) (h2 : SameButMembers q ps n n') (h3 : SameButMembers q' ps' m m')
    (h4 : Node.get a (s.modify a (fun _ => n')) = some n' → Node.get b (u.modify b (fun _ => m')) = some m' →
      Step2 q ps good value q' ps' good' value' a b (s.modify a (fun _ => n')) n' (u.modify b (fun _ => m')) m' (f v (s.modify a (fun _ => n'), u.modify b (fun _ => m'))) e l l')
    (hr : r = (x >>= f) (s, u)) :
    Step2 q ps good value q' ps' good' value' a b s n u m r e l l' := by
  obtain ⟨n'', m'', k1, k2, k3, k4, k5⟩ := h4 (by rw [Node.get_modify, hs]; rfl) (by rw [Node.get_modify, hu]; rfl)
  refine ⟨n'', m'', ?_, k2, k3, same_trans h2 k4, same_trans h3 k5⟩
  rw [hr, both_ok h1, k1, Node.modify_modify, Node.modify_modify]
  rfl

include heng hp hr hok hS hp' hr' hS' in
/-- Texts: the items of the source from index `i` on arrive. -/
theorem assignLive_copies : ∀ (k i : Nat) {a b s n u m} {l l' : List α}, Node.get a s = some n → Holds q ps good value n l → Node.get b u = some m → Holds q' ps' good' value' m l' →
    i ≤ l.length → i + k = l'.length → (∀ v ∈ l', ok v) →
    Step2 q ps good value q' ps' good' value' a b s n u m (assignLive eng store ctx xp (.step ax t es) (.elem a) ctx' mapper' xp' (.elem b) false i k (s, u)) (.ok ())
      (l.take i ++ l'.drop i ++ l.drop l'.length) l'
  | 0, i, a, b, s, n, u, m, l, l', hs, hl, hu, hl', hi, hk, hv => by
    have hk : i = l'.length := hk
    subst hk
    rw [List.drop_length, List.append_nil, List.take_append_drop]
    exact step2_same hs hl hu hl' (.ok ())
  | k + 1, i, a, b, s, n, u, m, l, l', hs, hl, hu, hl', hi, hk, hv => by
    have hj : i < l'.length := by omega
    obtain ⟨n', m', k1, k2, k3, k4, k5⟩ := assignItem_run heng hp hr hok hS hp' hr' hS' hs hl hu hl' false hi hj (hv _ (List.getElem_mem hj))
    refine Step2.trans hs hu k1 k4 k5 (fun hs' hu' => ?_) rfl
    have hlen : (l.take i ++ l'[i] :: l.drop (i + 1)).take (i + 1) = l.take i ++ [l'[i]] := by
      rw [List.take_append, List.take_of_length_le (by simp), List.length_take, Nat.min_eq_left hi, Nat.add_sub_cancel_left]
      simp
    have hdrop : (l.take i ++ l'[i] :: l.drop (i + 1)).drop l'.length = l.drop l'.length := by
      rw [List.drop_append, List.drop_of_length_le (by simp; omega), List.length_take, Nat.min_eq_left hi, show l'.length - i = (l'.length - i - 1) + 1 by omega, List.drop_succ_cons,
        List.drop_drop, List.nil_append]
      congr 1
      omega
    have := assignLive_copies k (i + 1) hs' k2 hu' k3 (by simp only [List.length_append, List.length_take, List.length_cons]; omega) (by simp; omega) (by simpa using hv)
    rw [hlen] at this
    simp only [Bool.false_eq_true, if_false] at this
    rw [hdrop] at this
    have e : l.take i ++ [l'[i]] ++ l'.drop (i + 1) ++ l.drop l'.length = l.take i ++ l'.drop i ++ l.drop l'.length := by
      rw [List.append_assoc (l.take i), List.singleton_append, List.getElem_cons_drop]
    rw [e] at this
    exact this

include heng hp hr hS hp' hr' hS' in
theorem trimLive_run : ∀ (fuel : Nat) {a b s n u m} {l l' : List α}, Node.get a s = some n → Holds q ps good value n l → Node.get b u = some m → Holds q' ps' good' value' m l' →
    l.length ≤ l'.length + fuel →
    Step2 q ps good value q' ps' good' value' a b s n u m (trimLive eng mapper ctx xp (.elem a) ctx' mapper' xp' (.elem b) fuel (s, u)) (.ok ()) (l.take l'.length) l'
  | 0, a, b, s, n, u, m, l, l', hs, hl, hu, hl', h => by
    rw [List.take_of_length_le (by omega)]
    exact step2_same hs hl hu hl' (.ok ())
  | fuel + 1, a, b, s, n, u, m, l, l', hs, hl, hu, hl', h => by
    rw [trimLive, both_ok (onTarget_run (listLen_run heng hp hr hS hs hl)), both_ok (onSource_run (listLen_run heng hp' hr' hS' hu hl'))]
    by_cases hg : l.length > l'.length
    · rw [if_pos hg]
      have hk : pos l.length ((l.length : Int) - 1) = some (l.length - 1) := by
        unfold pos; rw [if_pos ⟨by omega, by omega⟩]; congr 1; omega
      obtain ⟨n', h1, h2, h3⟩ := listTrim_run heng hp hr hS 1 (l.length - 1) hs hl (by omega)
      have hpop : ∃ x, listPop eng ctx mapper xp (.elem a) none s = (.ok x, s.modify a (fun _ => n')) := by
        have hgt := listGet_run heng hp hr hS hs hl ((l.length : Int) - 1)
        rw [pyGet_some hk] at hgt
        have hd := listDel_run heng hp hr hs hl ((l.length : Int) - 1)
        rw [hk] at hd
        obtain ⟨n1, d1, -, -⟩ := hd
        have hp1 : listPop eng ctx mapper xp (.elem a) none s = (.ok (l[l.length - 1]'(pos_lt hk)), s.modify a (fun _ => n1)) := by
          unfold listPop
          simp only [bind_assoc']
          rw [bind_ok (listLen_run heng hp hr hS hs hl), bind_ok (show (pure ((l.length : Int) - 1) : M Int) s = (.ok _, s) from rfl), bind_ok hgt, bind_ok d1]
          rfl
        refine ⟨l[l.length - 1]'(pos_lt hk), hp1.trans ?_⟩
        rw [listTrim, bind_ok (listLen_run heng hp hr hS hs hl), if_pos (by omega), bind_ok hp1] at h1
        have := congrArg Prod.snd h1
        simp only [listTrim] at this
        exact congrArg (Prod.mk _) this
      obtain ⟨x, hx⟩ := hpop
      have hx2 : onTarget (listPop eng ctx mapper xp (.elem a) none) (s, u) = (.ok x, (s.modify a (fun _ => n'), u.modify b (fun _ => m))) := by
        rw [Node.modify_id hu rfl]
        exact onTarget_run hx
      refine Step2.trans hs hu hx2 h3 (same_refl m) (fun hs' hu' => ?_) rfl
      have := trimLive_run fuel hs' h2 hu' hl' (by simp; omega)
      rw [List.take_take, Nat.min_eq_left (by omega)] at this
      exact this
    · rw [if_neg hg, List.take_of_length_le (by omega)]
      exact step2_same hs hl hu hl' (.ok ())

include heng hp hr hok hS hp' hr' hS' in
/-- Elements, moved in the order of the source. -/
theorem assignCopy_run : ∀ (k i : Nat) {a b s n u m} {l l' : List α}, Node.get a s = some n → Holds q ps good value n l → Node.get b u = some m → Holds q' ps' good' value' m l' →
    i ≤ l.length → k = l'.length → (∀ v ∈ l', ok v) →
    Step2 q ps good value q' ps' good' value' a b s n u m (assignCopy eng store ctx xp (.step ax t es) (.elem a) ctx' mapper' xp' (.elem b) i k (s, u)) (.ok ())
      (l.take i ++ l' ++ l.drop (i + l'.length)) []
  | 0, i, a, b, s, n, u, m, l, [], hs, hl, hu, hl', hi, hk, hv => by
    simp only [List.append_nil, List.length_nil, Nat.add_zero, List.take_append_drop]
    exact step2_same hs hl hu hl' (.ok ())
  | k + 1, i, a, b, s, n, u, m, l, x :: l', hs, hl, hu, hl', hi, hk, hv => by
    obtain ⟨n', m', k1, k2, k3, k4, k5⟩ := assignItem_run heng hp hr hok hS hp' hr' hS' hs hl hu hl' true hi (j := 0) (by simp) (hv _ (by simp))
    refine Step2.trans hs hu k1 k4 k5 (fun hs' hu' => ?_) rfl
    have := assignCopy_run k (i + 1) hs' k2 hu' k3 (by simp only [List.length_append, List.length_take, List.length_cons]; omega) (by simpa using hk) (fun v hv' => hv v (by simp at hv'; simp [hv']))
    have e1 : (l.take i ++ x :: l.drop (i + 1)).take (i + 1) = l.take i ++ [x] := by
      rw [List.take_append, List.take_of_length_le (by simp), List.length_take, Nat.min_eq_left hi, Nat.add_sub_cancel_left]
      simp
    have e2 : (l.take i ++ x :: l.drop (i + 1)).drop (i + 1 + l'.length) = l.drop (i + (x :: l').length) := by
      rw [List.drop_append, List.drop_of_length_le (by simp; omega), List.length_take, Nat.min_eq_left hi, show i + 1 + l'.length - i = l'.length + 1 by omega, List.drop_succ_cons,
        List.drop_drop, List.nil_append]
      congr 1
      simp; omega
    simp only [List.getElem_cons_zero, if_true, List.eraseIdx_cons_zero] at this
    rw [e1, e2, List.append_assoc (l.take i), List.singleton_append] at this
    exact this

include heng hp hr hok hS hp' hr' hS' in
theorem extendMoving_run : ∀ (k : Nat) {a b s n u m} {l l' : List α}, Node.get a s = some n → Holds q ps good value n l → Node.get b u = some m → Holds q' ps' good' value' m l' →
    k = l'.length → (∀ v ∈ l', ok v) →
    Step2 q ps good value q' ps' good' value' a b s n u m (extendMoving eng mapper store ctx xp (.step ax t es) (.elem a) ctx' mapper' xp' (.elem b) k (s, u)) (.ok ()) (l ++ l') []
  | 0, a, b, s, n, u, m, l, [], hs, hl, hu, hl', hk, hv => by
    rw [List.append_nil]
    exact step2_same hs hl hu hl' (.ok ())
  | k + 1, a, b, s, n, u, m, l, x :: l', hs, hl, hu, hl', hk, hv => by
    obtain ⟨n', m', k1, k2, k3, k4, k5⟩ := assignItem_run heng hp hr hok hS hp' hr' hS' hs hl hu hl' true (Nat.le_refl l.length) (j := 0) (by simp) (hv _ (by simp))
    rw [extendMoving, both_ok (onTarget_run (listLen_run heng hp hr hS hs hl))]
    refine Step2.trans hs hu k1 k4 k5 (fun hs' hu' => ?_) rfl
    have := extendMoving_run k hs' k2 hu' k3 (by simpa using hk) (fun v hv' => hv v (by simp at hv'; simp [hv']))
    have e : l.take l.length ++ x :: l.drop (l.length + 1) ++ l' = l ++ x :: l' := by
      rw [List.take_length, List.drop_of_length_le (by omega)]
      simp
    simp only [List.getElem_cons_zero, if_true, List.eraseIdx_cons_zero] at this
    rw [e] at this
    exact this

include heng hp hr hok hS hp' hr' hS' in
/-- Elements, taken by their index out of the shrinking source: `o` is what has been passed over. -/
theorem assignLive_moves : ∀ (l' o d : List α) (k : Nat) {a b s n u m} {l : List α}, Node.get a s = some n → Holds q ps good value n l → Node.get b u = some m →
    Holds q' ps' good' value' m (o ++ l') → d.length = o.length → l.take o.length = d → o.length ≤ l.length → l'.length ≤ k → (∀ v ∈ l', ok v) →
    Step2 q ps good value q' ps' good' value' a b s n u m (assignLive eng store ctx xp (.step ax t es) (.elem a) ctx' mapper' xp' (.elem b) true o.length k (s, u))
      (if (evens l').length < k then .error .indexError else .ok ()) (d ++ evens l' ++ l.drop (o.length + (evens l').length)) (o ++ odds l')
  | [], o, d, k, a, b, s, n, u, m, l, hs, hl, hu, hl', hd, ht, hi, hk, hv => by
    have e1 : d ++ evens ([] : List α) ++ l.drop (o.length + (evens ([] : List α)).length) = l := by
      simp only [evens, List.append_nil, List.length_nil, Nat.add_zero]
      rw [← ht, List.take_append_drop]
    have e2 : o ++ odds ([] : List α) = o := List.append_nil o
    rw [e1, e2]
    rw [List.append_nil] at hl'
    cases k with
    | zero => exact step2_same hs hl hu hl' _
    | succ k =>
      rw [assignLive, if_pos (show (evens ([] : List α)).length < k + 1 from Nat.succ_pos k)]
      have := assignItem_end (store := store) (ctx := ctx) (xp := xp) (a := a) (s := s) heng hp' hr' hS' hu hl' (.step ax t es) true (i := o.length) (j := o.length) (by omega)
      rw [both_err this]
      exact step2_same hs hl hu hl' _
  | [x], o, d, k, a, b, s, n, u, m, l, hs, hl, hu, hl', hd, ht, hi, hk, hv => by
    cases k with
    | zero => simp at hk
    | succ k =>
      have hj : o.length < (o ++ [x]).length := by simp
      have hx : (o ++ [x])[o.length] = x := by simp
      obtain ⟨n', m', k1, k2, k3, k4, k5⟩ := assignItem_run heng hp hr hok hS hp' hr' hS' hs hl hu hl' true hi hj (by rw [hx]; exact hv x (by simp))
      refine Step2.trans hs hu k1 k4 k5 (fun hs' hu' => ?_) rfl
      rw [if_pos rfl, List.eraseIdx_append_of_length_le (by omega), Nat.sub_self, List.eraseIdx_cons_zero, List.append_nil] at k3
      rw [hx, ht] at k2
      have e1 : d ++ evens [x] ++ l.drop (o.length + (evens [x]).length) = d ++ x :: l.drop (o.length + 1) := by
        simp [evens]
      have e2 : o ++ odds [x] = o := List.append_nil o
      rw [e1, e2]
      cases k with
      | zero =>
        rw [if_neg (show ¬ (evens [x]).length < 0 + 1 from Nat.lt_irrefl 1)]
        exact step2_same hs' k2 hu' k3 (β := Unit) (.ok ())
      | succ k =>
        rw [if_pos (show (evens [x]).length < k + 1 + 1 from Nat.succ_lt_succ (Nat.succ_pos k))]
        rw [assignLive, both_err (assignItem_end heng hp' hr' hS' hu' k3 (.step ax t es) true (by omega))]
        exact step2_same hs' k2 hu' k3 (β := Unit) _
  | x :: y :: l', o, d, k, a, b, s, n, u, m, l, hs, hl, hu, hl', hd, ht, hi, hk, hv => by
    cases k with
    | zero => simp at hk
    | succ k =>
      have hj : o.length < (o ++ x :: y :: l').length := by simp
      have hx : (o ++ x :: y :: l')[o.length] = x := by simp
      obtain ⟨n', m', k1, k2, k3, k4, k5⟩ := assignItem_run heng hp hr hok hS hp' hr' hS' hs hl hu hl' true hi hj (by rw [hx]; exact hv x (by simp))
      refine Step2.trans hs hu k1 k4 k5 (fun hs' hu' => ?_) rfl
      rw [if_pos rfl, List.eraseIdx_append_of_length_le (by omega), Nat.sub_self, List.eraseIdx_cons_zero, show o ++ y :: l' = (o ++ [y]) ++ l' by simp] at k3
      rw [hx, ht] at k2
      have ht' : (d ++ x :: l.drop (o.length + 1)).take (o ++ [y]).length = d ++ [x] := by
        rw [List.length_append, List.length_singleton, ← hd, List.take_append, List.take_of_length_le (by omega)]
        simp
      have := assignLive_moves l' (o ++ [y]) (d ++ [x]) k hs' k2 hu' k3 (by simp [hd]) ht' (by simp [hd]) (by simp at hk ⊢; omega) (fun v hv' => hv v (by simp [hv']))
      simp only [List.length_append, List.length_singleton] at this
      have e1 : (d ++ x :: l.drop (o.length + 1)).drop (o.length + 1 + (evens l').length) = l.drop (o.length + (evens (x :: y :: l')).length) := by
        rw [List.drop_append, List.drop_of_length_le (by omega), hd, show o.length + 1 + (evens l').length - o.length = (evens l').length + 1 by omega, List.drop_succ_cons, List.drop_drop,
          List.nil_append]
        congr 1
        simp [evens]; omega
      rw [e1] at this
      simp only [evens, odds, List.length_cons, List.append_assoc, List.singleton_append, Nat.add_lt_add_iff_right] at this ⊢
      exact this

end

section
variable [PyUnicode] {eng : Engine} {number : Str → XNum} {α : Type} [DecidableEq α] {ctx : Ctx} {xp : Str} {e : Expr} {q : QName} {ps : List Pred} {k : ListKind α} {V : ListView α} {a : Node.Addr} {s n : Node}
  {ctx' : Ctx} {xp' : Str} {e' : Expr} {q' : QName} {ps' : List Pred} {k' : ListKind α} {V' : ListView α} {b : Node.Addr} {u m : Node}

/-- The two list fields read so, and nothing else has changed. -/
def BothRead (eng : Engine) (ctx : Ctx) (k : ListKind α) (xp : Str) (q : QName) (ps : List Pred) (a : Node.Addr) (s n : Node) (ctx' : Ctx) (k' : ListKind α) (xp' : Str) (q' : QName) (ps' : List Pred)
    (b : Node.Addr) (u m : Node) (after : Node × Node) (l l' : List α) : Prop :=
  ∃ n' m', after = (s.modify a (fun _ => n'), u.modify b (fun _ => m')) ∧ readList eng ctx k xp a after.1 = (.ok l, after.1) ∧ readList eng ctx' k' xp' b after.2 = (.ok l', after.2) ∧
    SameButMembers q ps n n' ∧ SameButMembers q' ps' m m'

theorem Step2.read (h : ListAt eng number ctx xp e q ps k V a s n) (h' : ListAt eng number ctx' xp' e' q' ps' k' V' b u m) {r : Except PyErr Unit × (Node × Node)} {ex : Except PyErr Unit} {l l' : List α}
    (hst : Step2 q ps V.fits V.item q' ps' V'.fits V'.item a b s n u m r ex l l') :
    r.1 = ex ∧ BothRead eng ctx k xp q ps a s n ctx' k' xp' q' ps' b u m r.2 l l' := by
  obtain ⟨put, hS⟩ := h.kind.store_ok h.num
  obtain ⟨put', hS'⟩ := h'.kind.store_ok h'.num
  obtain ⟨ax, t, es, rfl⟩ := res_single h.field.path
  obtain ⟨ax', t', es', rfl⟩ := res_single h'.field.path
  obtain ⟨n', m', rfl, h2, h3, h4, h5⟩ := hst
  exact ⟨rfl, n', m', rfl, listData_run h.engine h.field.parse h.field.path hS (by rw [Node.get_modify, h.node]; rfl) h2,
    listData_run h.engine h'.field.parse h'.field.path hS' (by rw [Node.get_modify, h'.node]; rfl) h3, h4, h5⟩

/-- `obj.field = other.field`. -/
def assignField (eng : Engine) (ctx : Ctx) (k : ListKind α) (xp : Str) (e : Expr) (a : Node.Addr) (ctx' : Ctx) (k' : ListKind α) (xp' : Str) (b : Node.Addr) (moves : Bool) : Both Unit :=
  listAssignLive eng k.read k.store ctx xp e (.elem a) ctx' k'.read xp' (.elem b) moves

/-- C96.  `obj.field = other.field` for list fields of texts: afterwards `obj.field` has the items of `other.field`, which are as before; nothing but the members of `obj.field` changes. -/
theorem C96_assign_texts (h : ListAt eng number ctx xp e q ps k V a s n) (h' : ListAt eng number ctx' xp' e' q' ps' k' V' b u m) (_ : TextualKind ctx e k) (hv : ∀ x ∈ members q' ps' m, V.storable (V'.item x)) :
    (assignField eng ctx k xp e a ctx' k' xp' b false (s, u)).1 = .ok () ∧
    BothRead eng ctx k xp q ps a s n ctx' k' xp' q' ps' b u m (assignField eng ctx k xp e a ctx' k' xp' b false (s, u)).2 ((members q' ps' m).map V'.item) ((members q' ps' m).map V'.item) := by
  obtain ⟨put, hS⟩ := h.kind.store_ok h.num
  obtain ⟨put', hS'⟩ := h'.kind.store_ok h'.num
  obtain ⟨ax, t, es, rfl⟩ := res_single h.field.path
  obtain ⟨ax', t', es', rfl⟩ := res_single h'.field.path
  have hl : Holds q ps V.fits V.item n ((members q ps n).map V.item) := ⟨h.fits, rfl⟩
  have hl' : Holds q' ps' V'.fits V'.item m ((members q' ps' m).map V'.item) := ⟨h'.fits, rfl⟩
  refine Step2.read h h' ?_
  unfold assignField listAssignLive
  rw [both_ok (onSource_run (listLen_run h.engine h'.field.parse h'.field.path hS' h'.node hl'))]
  obtain ⟨n', m', k1, k2, k3, k4, k5⟩ := assignLive_copies h.engine h.field.parse h.field.path (pathOk_single h.field.ok) hS h'.field.parse h'.field.path hS' _ 0 h.node hl h'.node hl' (Nat.zero_le _) (Nat.zero_add _)
    (fun v hx => by obtain ⟨x, hx', rfl⟩ := List.mem_map.mp hx; exact hv x hx')
  refine Step2.trans h.node h'.node k1 k4 k5 (fun hs hu => ?_) rfl
  simp only [List.take_zero, List.drop_zero, List.nil_append] at k2
  rw [both_ok (onTarget_run (listLen_run h.engine h.field.parse h.field.path hS hs k2))]
  have := trimLive_run h.engine h.field.parse h.field.path hS h'.field.parse h'.field.path hS' (((members q' ps' m).map V'.item ++ ((members q ps n).map V.item).drop ((members q' ps' m).map V'.item).length).length + (s.modify a (fun _ => n')).nodes)
    hs k2 hu k3 (by omega)
  rw [List.take_left' rfl] at this
  exact this

/-- C96.  `obj.field = list(other.field)` for list fields of elements: the elements are moved from `other` to `obj`, in their order. -/
theorem C96_assign_elements (h : ListAt eng number ctx xp e q ps nodeKind (nodeView q ps) a s n) (h' : ListAt eng number ctx' xp' e' q' ps' nodeKind (nodeView q' ps') b u m)
    (hv : ∀ x ∈ members q' ps' m, isMember q ps x = true) :
    (listAssignCopy eng nodeKind.read nodeKind.store ctx xp e (.elem a) ctx' nodeKind.read xp' (.elem b) (s, u)).1 = .ok () ∧
    BothRead eng ctx nodeKind xp q ps a s n ctx' nodeKind xp' q' ps' b u m (listAssignCopy eng nodeKind.read nodeKind.store ctx xp e (.elem a) ctx' nodeKind.read xp' (.elem b) (s, u)).2
      (members q' ps' m) [] := by
  obtain ⟨put, hS⟩ := h.kind.store_ok h.num
  obtain ⟨put', hS'⟩ := h'.kind.store_ok h'.num
  obtain ⟨ax, t, es, rfl⟩ := res_single h.field.path
  obtain ⟨ax', t', es', rfl⟩ := res_single h'.field.path
  have hl : Holds q ps (nodeView q ps).fits (nodeView q ps).item n (members q ps n) := ⟨h.fits, List.map_id _⟩
  have hl' : Holds q' ps' (nodeView q' ps').fits (nodeView q' ps').item m (members q' ps' m) := ⟨h'.fits, List.map_id _⟩
  refine Step2.read h h' ?_
  unfold listAssignCopy
  rw [both_ok (onSource_run (listLen_run h.engine h'.field.parse h'.field.path hS' h'.node hl'))]
  obtain ⟨n', m', k1, k2, k3, k4, k5⟩ := assignCopy_run h.engine h.field.parse h.field.path (pathOk_single h.field.ok) hS h'.field.parse h'.field.path hS' _ 0 h.node hl h'.node hl' (Nat.zero_le _) rfl hv
  refine Step2.trans h.node h'.node k1 k4 k5 (fun hs hu => ?_) rfl
  simp only [List.take_zero, List.nil_append, Nat.zero_add] at k2
  rw [both_ok (onTarget_run (listLen_run h.engine h.field.parse h.field.path hS hs k2))]
  obtain ⟨n'', t1, t2, t3⟩ := listTrim_run h.engine h.field.parse h.field.path hS ((members q' ps' m ++ (members q ps n).drop (members q' ps' m).length).length + (s.modify a (fun _ => n')).nodes) (members q' ps' m).length hs k2 (by omega)
  rw [List.take_left' rfl] at t2
  refine ⟨n'', m', ?_, t2, k3, t3, same_refl m'⟩
  rw [onTarget_run ((listTrimAll_run ..).trans t1), Node.modify_id hu rfl]

/-- C96.  `obj.field.extend(other.field)` for list fields of elements: the elements are moved from `other` to the end of `obj.field`, in their order. -/
theorem C96_extend_elements (h : ListAt eng number ctx xp e q ps nodeKind (nodeView q ps) a s n) (h' : ListAt eng number ctx' xp' e' q' ps' nodeKind (nodeView q' ps') b u m)
    (hv : ∀ x ∈ members q' ps' m, isMember q ps x = true) :
    (listExtendMoving eng nodeKind.read nodeKind.store ctx xp e (.elem a) ctx' nodeKind.read xp' (.elem b) (s, u)).1 = .ok () ∧
    BothRead eng ctx nodeKind xp q ps a s n ctx' nodeKind xp' q' ps' b u m (listExtendMoving eng nodeKind.read nodeKind.store ctx xp e (.elem a) ctx' nodeKind.read xp' (.elem b) (s, u)).2
      (members q ps n ++ members q' ps' m) [] := by
  obtain ⟨put, hS⟩ := h.kind.store_ok h.num
  obtain ⟨put', hS'⟩ := h'.kind.store_ok h'.num
  obtain ⟨ax, t, es, rfl⟩ := res_single h.field.path
  obtain ⟨ax', t', es', rfl⟩ := res_single h'.field.path
  have hl : Holds q ps (nodeView q ps).fits (nodeView q ps).item n (members q ps n) := ⟨h.fits, List.map_id _⟩
  have hl' : Holds q' ps' (nodeView q' ps').fits (nodeView q' ps').item m (members q' ps' m) := ⟨h'.fits, List.map_id _⟩
  refine Step2.read h h' ?_
  unfold listExtendMoving
  rw [both_ok (onSource_run (listLen_run h.engine h'.field.parse h'.field.path hS' h'.node hl'))]
  exact extendMoving_run h.engine h.field.parse h.field.path (pathOk_single h.field.ok) hS h'.field.parse h'.field.path hS' _ h.node hl h'.node hl' rfl hv

/-- The elements of the source that `obj.field = other.field` leaves in the target. -/
def arrived (l l' : List α) : List α := if l'.length ≤ 1 then [] else evens l' ++ l.drop (evens l').length

omit [DecidableEq α] in
theorem evens_lt : ∀ {l : List α}, 2 ≤ l.length → (evens l).length < l.length
  | [], h => by simp at h
  | [_], h => by simp at h
  | [_, _], _ => by simp [evens]
  | [_, _, _], _ => by simp [evens]
  | _ :: _ :: _ :: _ :: l, _ => by
    have : (evens l).length ≤ l.length := by
      clear * -
      match l with
      | [] => simp [evens]
      | [_] => simp [evens]
      | _ :: _ :: l =>
        have := evens_le l
        simp only [evens, List.length_cons]; omega
    simp only [evens, List.length_cons]; omega
where
  evens_le : ∀ l : List α, (evens l).length ≤ l.length
  | [] => by simp [evens]
  | [_] => by simp [evens]
  | _ :: _ :: l => by
    have := evens_le l
    simp only [evens, List.length_cons]; omega

/-- C96.  `obj.field = other.field` for list fields of elements does not give `obj` the elements of `other`: if `other` has none, `obj` has none afterwards; if it has one, it is lost, with all of `obj`'s; if it
has more, an IndexError is raised when every second one has been moved to `obj`. -/
theorem C96_counterexample_live_elements (h : ListAt eng number ctx xp e q ps nodeKind (nodeView q ps) a s n) (h' : ListAt eng number ctx' xp' e' q' ps' nodeKind (nodeView q' ps') b u m)
    (hv : ∀ x ∈ members q' ps' m, isMember q ps x = true) :
    (assignField eng ctx nodeKind xp e a ctx' nodeKind xp' b true (s, u)).1 = (if (members q' ps' m).length ≤ 1 then .ok () else .error .indexError) ∧
    BothRead eng ctx nodeKind xp q ps a s n ctx' nodeKind xp' q' ps' b u m (assignField eng ctx nodeKind xp e a ctx' nodeKind xp' b true (s, u)).2
      (arrived (members q ps n) (members q' ps' m)) (odds (members q' ps' m)) := by
  obtain ⟨put, hS⟩ := h.kind.store_ok h.num
  obtain ⟨put', hS'⟩ := h'.kind.store_ok h'.num
  obtain ⟨ax, t, es, rfl⟩ := res_single h.field.path
  obtain ⟨ax', t', es', rfl⟩ := res_single h'.field.path
  have hl : Holds q ps (nodeView q ps).fits (nodeView q ps).item n (members q ps n) := ⟨h.fits, List.map_id _⟩
  have hl' : Holds q' ps' (nodeView q' ps').fits (nodeView q' ps').item m (members q' ps' m) := ⟨h'.fits, List.map_id _⟩
  refine Step2.read h h' ?_
  unfold assignField listAssignLive
  rw [both_ok (onSource_run (listLen_run h.engine h'.field.parse h'.field.path hS' h'.node hl'))]
  obtain ⟨n', m', k1, k2, k3, k4, k5⟩ := assignLive_moves h.engine h.field.parse h.field.path (pathOk_single h.field.ok) hS h'.field.parse h'.field.path hS' (members q' ps' m) [] [] (members q' ps' m).length h.node hl
    h'.node hl' rfl rfl (Nat.zero_le _) (Nat.le_refl _) hv
  simp only [List.length_nil, List.nil_append, Nat.zero_add] at k1 k2 k3
  unfold arrived
  by_cases hlen : (members q' ps' m).length ≤ 1
  · rw [if_pos hlen, if_pos hlen]
    have hodds : odds (members q' ps' m) = [] := by
      revert hlen
      match members q' ps' m with
      | [] => intro _; rfl
      | [_] => intro _; rfl
      | _ :: _ :: _ => intro h; simp at h
    have hev : ¬ (evens (members q' ps' m)).length < (members q' ps' m).length := by
      revert hlen
      match members q' ps' m with
      | [] => intro _; simp [evens]
      | [_] => intro _; simp [evens]
      | _ :: _ :: _ => intro h; simp at h
    rw [if_neg hev] at k1
    refine Step2.trans h.node h'.node k1 k4 k5 (fun hs hu => ?_) rfl
    rw [both_ok (onTarget_run (listLen_run h.engine h.field.parse h.field.path hS hs k2))]
    have := trimLive_run h.engine h.field.parse h.field.path hS h'.field.parse h'.field.path hS'
      ((evens (members q' ps' m) ++ (members q ps n).drop (evens (members q' ps' m)).length).length + (s.modify a (fun _ => n')).nodes) hs k2 hu k3 (by omega)
    rw [hodds, List.length_nil, List.take_zero] at this
    rw [hodds]
    exact this
  · rw [if_neg hlen, if_neg hlen]
    rw [if_pos (evens_lt (by omega))] at k1
    rw [both_err k1]
    exact ⟨n', m', rfl, k2, k3, k4, k5⟩

/-- C96.  `obj.field = obj.field` for texts leaves the list as it is. -/
theorem C96_self_texts (h : ListAt eng number ctx xp e q ps k V a s n) (_ : TextualKind ctx e k) (hv : ∀ x ∈ members q ps n, V.storable (V.item x)) :
    ∃ n', listAssignSelf eng ctx k.read k.store xp e (.elem a) s = (.ok (), s.modify a (fun _ => n')) ∧
      readList eng ctx k xp a (s.modify a (fun _ => n')) = (.ok ((members q ps n).map V.item), s.modify a (fun _ => n')) ∧ SameButMembers q ps n n' := by
  obtain ⟨put, hS⟩ := h.kind.store_ok h.num
  obtain ⟨ax, t, es, rfl⟩ := res_single h.field.path
  have hl : Holds q ps V.fits V.item n ((members q ps n).map V.item) := ⟨h.fits, rfl⟩
  have hv' : ∀ v ∈ (members q ps n).map V.item, V.storable v := fun v hx => by obtain ⟨x, hx', rfl⟩ := List.mem_map.mp hx; exact hv x hx'
  revert hl hv'
  generalize (members q ps n).map V.item = l
  intro hl hv'
  have key : ∀ (j i : Nat) {s n}, i + j = l.length → Node.get a s = some n → Holds q ps V.fits V.item n l →
      Step1 q ps V.fits V.item a s n (assignSelf eng ctx k.read k.store xp (.step ax t es) (.elem a) i j s) (.ok (), l) := by
    intro j
    induction j with
    | zero => intro i s n _ hs hl; exact step1_same hs hl (.ok ())
    | succ j ih =>
      intro i s n hi hs hl
      have hil : i < l.length := by omega
      have hpos : pos l.length (i : Int) = some i := by
        unfold pos
        rw [if_pos (by omega)]
        simp
      have hget := listGet_run h.engine h.field.parse h.field.path hS hs hl (i : Int)
      rw [pyGet_some hpos] at hget
      obtain ⟨n', k1, k2, k3⟩ := listSet_mid h.engine h.field.parse h.field.path (pathOk_single h.field.ok) hS hs hl hpos (hv' _ (List.getElem_mem hil))
      rw [List.set_getElem_self] at k2
      obtain ⟨n'', m1, m2, m3⟩ := ih (i + 1) (by omega) (by rw [Node.get_modify, hs]; rfl) k2
      refine ⟨n'', ?_, m2, same_trans k3 m3⟩
      rw [assignSelf, bind_ok hget, bind_ok k1, m1, Node.modify_modify]
      rfl
  obtain ⟨n', k1, k2, k3⟩ := key l.length 0 (by omega) h.node hl
  refine ⟨n', ?_, listData_run h.engine h.field.parse h.field.path hS (by rw [Node.get_modify, h.node]; rfl) k2, k3⟩
  unfold listAssignSelf
  rw [bind_ok (listLen_run h.engine h.field.parse h.field.path hS h.node hl)]
  exact k1

/-- C96.  `obj.field = obj.field` for elements changes nothing at all. -/
theorem C96_self_elements (h : ListAt eng number ctx xp e q ps nodeKind (nodeView q ps) a s n) : listAssignSelfNodes eng ctx xp (.elem a) s = (.ok (), s) := by
  obtain ⟨ax, t, es, rfl⟩ := res_single h.field.path
  unfold listAssignSelfNodes
  rw [bind_ok (listMatches_run h.engine h.field.parse h.field.path h.node)]
  have hget : ∀ i ∈ idxs (isMember q ps) n.children, ∃ x, s.get (a ++ [i]) = some x := by
    intro i hi
    obtain ⟨j, hj⟩ := List.mem_iff_getElem?.mp hi
    obtain ⟨A, x, B, h1, h2, -⟩ := idxs_get hj
    obtain ⟨rfl, -⟩ := h2
    exact ⟨x, get_mid h.node h1⟩
  revert hget
  generalize idxs (isMember q ps) n.children = is
  intro hget
  induction is with
  | nil => rfl
  | cons i is ih =>
    obtain ⟨x, hx⟩ := hget i (by simp)
    have : storeNode (.elem (a ++ [i])) (.own (a ++ [i])) s = (.ok (), s) := by
      simp only [storeNode]
      rw [if_neg (by simp), bind_ok (show nodeAt (a ++ [i]) s = (.ok x, s) by simp only [nodeAt, hx])]
      rw [if_neg (fun hpre => by have := hpre.length_le; simp at this)]
      simp
      rfl
    rw [List.map_cons]
    show (storeNode (.elem (a ++ [i])) (.own (a ++ [i])) >>= fun _ => _) s = _
    rw [bind_ok this]
    exact ih (fun j hj => hget j (by simp [hj]))

end

/-! ### the hypotheses can be met -/

/-- `<o><a n="1">x</a>,<a n="1">y</a><a n="2">w</a><a n="1">z</a></o>` -/
def otherDoc : Node := .mk (.elem ⟨none, c%"o"⟩) [] none
  [.mk (.elem ⟨none, c%"a"⟩) [(⟨none, c%"n"⟩, c%"1")] (some c%"x") [] (some c%","),
   .mk (.elem ⟨none, c%"a"⟩) [(⟨none, c%"n"⟩, c%"1")] (some c%"y") [] none,
   .mk (.elem ⟨none, c%"a"⟩) [(⟨none, c%"n"⟩, c%"2")] (some c%"w") [] none,
   .mk (.elem ⟨none, c%"a"⟩) [(⟨none, c%"n"⟩, c%"1")] (some c%"z") [] none] none

theorem otherAt_node : ListAt refEngine xpathNumber sampleCtx c%"a[@n='1']" (ast c%"a[@n='1']") ⟨none, c%"a"⟩ [.attr ⟨none, c%"n"⟩ (some (.str c%"1"))]
    nodeKind (nodeView ⟨none, c%"a"⟩ [.attr ⟨none, c%"n"⟩ (some (.str c%"1"))]) [] otherDoc otherDoc where
  engine := refEngine_ok
  num := xpathNumber_ok
  field := listField
  kind := .node
  node := rfl
  fits := by intro m _; trivial

theorem otherAt_str : ListAt refEngine xpathNumber sampleCtx c%"a[@n='1']" (ast c%"a[@n='1']") ⟨none, c%"a"⟩ [.attr ⟨none, c%"n"⟩ (some (.str c%"1"))]
    (strKind sampleCtx (ast c%"a[@n='1']")) strView [] otherDoc otherDoc where
  engine := refEngine_ok
  num := xpathNumber_ok
  field := listField
  kind := .str (by decide)
  node := rfl
  fits := by
    have : ∀ m ∈ members ⟨none, c%"a"⟩ [.attr ⟨none, c%"n"⟩ (some (.str c%"1"))] otherDoc, m.children = [] := by decide
    exact this

/-- The texts "one" and "two" become "x", "y" and "z". -/
example : ∃ after, assignField refEngine sampleCtx (strKind sampleCtx (ast c%"a[@n='1']")) c%"a[@n='1']" (ast c%"a[@n='1']") [] sampleCtx (strKind sampleCtx (ast c%"a[@n='1']")) c%"a[@n='1']" [] false
      (listDoc, otherDoc) = (.ok (), after) ∧
    readList refEngine sampleCtx (strKind sampleCtx (ast c%"a[@n='1']")) c%"a[@n='1']" [] after.1 = (.ok [some c%"x", some c%"y", some c%"z"], after.1) := by
  obtain ⟨h1, n', m', h2, h3, -⟩ := C96_assign_texts listAt_str otherAt_str ⟨_, rfl⟩ (by
    have : ∀ x ∈ members ⟨none, c%"a"⟩ [.attr ⟨none, c%"n"⟩ (some (.str c%"1"))] otherDoc, xmlOk x.strVal = true := by decide
    exact fun x hx => ⟨_, rfl, this x hx⟩)
  refine ⟨_, Prod.ext h1 rfl, ?_⟩
  exact h3

theorem otherDoc_members : ∀ x ∈ members ⟨none, c%"a"⟩ [.attr ⟨none, c%"n"⟩ (some (.str c%"1"))] otherDoc,
    isMember ⟨none, c%"a"⟩ [.attr ⟨none, c%"n"⟩ (some (.str c%"1"))] x = true := by decide

/-- The elements of the other document are moved. -/
example : (listAssignCopy refEngine nodeKind.read nodeKind.store sampleCtx c%"a[@n='1']" (ast c%"a[@n='1']") (.elem []) sampleCtx nodeKind.read c%"a[@n='1']" (.elem []) (listDoc, otherDoc)).1 = .ok () ∧
    (readList refEngine sampleCtx nodeKind c%"a[@n='1']" []
      (listAssignCopy refEngine nodeKind.read nodeKind.store sampleCtx c%"a[@n='1']" (ast c%"a[@n='1']") (.elem []) sampleCtx nodeKind.read c%"a[@n='1']" (.elem []) (listDoc, otherDoc)).2.1).1 =
      .ok (members ⟨none, c%"a"⟩ [.attr ⟨none, c%"n"⟩ (some (.str c%"1"))] otherDoc) := by
  obtain ⟨h1, n', m', h2, h3, -⟩ := C96_assign_elements listAt_node otherAt_node otherDoc_members
  exact ⟨h1, by rw [h3]⟩

/-- Extending. -/
example : (readList refEngine sampleCtx nodeKind c%"a[@n='1']" []
      (listExtendMoving refEngine nodeKind.read nodeKind.store sampleCtx c%"a[@n='1']" (ast c%"a[@n='1']") (.elem []) sampleCtx nodeKind.read c%"a[@n='1']" (.elem []) (listDoc, otherDoc)).2.1).1.toOption.map
        List.length = some 5 := by
  obtain ⟨h1, n', m', h2, h3, -⟩ := C96_extend_elements listAt_node otherAt_node otherDoc_members
  rw [h3]
  rfl

/-- The IndexError: "x" and "z" have arrived. -/
example : (assignField refEngine sampleCtx nodeKind c%"a[@n='1']" (ast c%"a[@n='1']") [] sampleCtx nodeKind c%"a[@n='1']" [] true (listDoc, otherDoc)).1 = .error .indexError ∧
    (readList refEngine sampleCtx nodeKind c%"a[@n='1']" []
      (assignField refEngine sampleCtx nodeKind c%"a[@n='1']" (ast c%"a[@n='1']") [] sampleCtx nodeKind c%"a[@n='1']" [] true (listDoc, otherDoc)).2.1).1.toOption.map (List.map Node.strVal) =
      some [c%"x", c%"z"] := by
  obtain ⟨h1, n', m', h2, h3, -⟩ := C96_counterexample_live_elements listAt_node otherAt_node otherDoc_members
  rw [h3]
  exact ⟨h1, by rfl⟩

example : ∃ n', listAssignSelf refEngine sampleCtx (strKind sampleCtx (ast c%"a[@n='1']")).read (strKind sampleCtx (ast c%"a[@n='1']")).store c%"a[@n='1']" (ast c%"a[@n='1']") (.elem []) listDoc = (.ok (), n') ∧
    readList refEngine sampleCtx (strKind sampleCtx (ast c%"a[@n='1']")) c%"a[@n='1']" [] n' = (.ok [some c%"one", some c%"two"], n') := by
  obtain ⟨n', h1, h2, -⟩ := C96_self_texts listAt_str ⟨_, rfl⟩ (by
    have : ∀ x ∈ members ⟨none, c%"a"⟩ [.attr ⟨none, c%"n"⟩ (some (.str c%"1"))] listDoc, xmlOk x.strVal = true := by decide
    exact fun x hx => ⟨_, rfl, this x hx⟩)
  exact ⟨_, h1, h2⟩

example : listAssignSelfNodes refEngine sampleCtx c%"a[@n='1']" (.elem []) listDoc = (.ok (), listDoc) := C96_self_elements listAt_node

end Props
