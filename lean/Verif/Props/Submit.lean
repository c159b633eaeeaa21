import Verif.Spec.Submit
import Verif.Props.FormTree
/-
Property C94: a form is shown, some inputs are edited, and it is sent back and saved.

Model: Verif/Forms/Submit.lean.  Specification: Verif/Spec/Submit.lean.
-/
namespace Props
open XPath Xml Spec Fields Core Forms Py

/-! ### the page -/

/-- What a form shows of a field: nothing if there is no such field, or it cannot be read. -/
def valueOf (o : Forms.Own Plain2) (n : Node) (x : Str) : CVal Plain2 := match o.m.look x with
  | none => .null
  | some i => match fieldVal (o.m.fs i) n with
    | .ok v => o.m.show_ i v
    | .error _ => .null

mutual
def WForm.page (w : WForm) (pfx : Option Str) (n : Node) : List (Str × Option Str) := match w with
  | .mk o inputs subs => inputs.map (fun p => (addPrefix pfx p.1, sends p.2 (valueOf o n p.1))) ++ WSubs.page subs pfx n
def WSubs.page (l : WSubs) (pfx : Option Str) (n : Node) : List (Str × Option Str) := match l with
  | .nil => []
  | .cons name h f rest => WForm.page f (some (addPrefix pfx name)) ((subElem h.p n).getD (newAt h.p)) ++ WSubs.page rest pfx n
end

mutual
theorem WForm.page_names (w : WForm) (pfx : Option Str) (n : Node) : (WForm.page w pfx n).map (·.1) = PForm.inputs pfx (WForm.toPage w) := match w with
  | .mk o inputs subs => by
    rw [WForm.page, WForm.toPage, PForm.inputs, PSets.inputs, List.map_append, WSubs.page_names subs, List.append_nil, List.map_map, List.map_map]
    rfl
theorem WSubs.page_names (l : WSubs) (pfx : Option Str) (n : Node) : (WSubs.page l pfx n).map (·.1) = PSubs.inputs pfx (WSubs.toPage l) := match l with
  | .nil => rfl
  | .cons name h f rest => by
    rw [WSubs.page, WSubs.toPage, PSubs.inputs, List.map_append, WForm.page_names f, WSubs.page_names rest]
end

theorem look_name {A : Type} (m : FormModel A) (i : m.ι) : m.look (m.name i) = some i := (m.look_iff i _).2 rfl

theorem submission_get {edits : Str → Option (Option Str)} : ∀ {page : List (Str × Option Str)}, (page.map (·.1)).Nodup → ∀ {x o}, (x, o) ∈ page →
    (submission edits page).get? x = received edits x o := by
  intro page hn x o hx
  cases hr : received edits x o with
  | some t =>
    refine Dict.get?_of_mem ?_ (List.mem_filterMap.mpr ⟨(x, o), hx, ?_⟩)
    · show ((submission edits page).map (·.1)).Nodup
      refine List.Sublist.nodup ?_ hn
      clear hx hn
      induction page with
      | nil => exact List.Sublist.slnil
      | cons p page ih =>
        unfold submission at ih ⊢
        cases hp : ((edits p.1).getD p.2) with
        | none => simp only [List.filterMap_cons, hp, Option.map_none, List.map_cons]; exact ih.cons _
        | some t => simp only [List.filterMap_cons, hp, Option.map_some, List.map_cons]; exact ih.cons₂ _
    · show ((edits x).getD o).map _ = _
      unfold received at hr
      rw [hr]; rfl
  | none =>
    cases hg : (submission edits page).get? x with
    | none => rfl
    | some t =>
      obtain ⟨⟨y, o'⟩, hp, hq⟩ := List.mem_filterMap.mp (Dict.mem_of_get? hg)
      simp only [Option.map_eq_some_iff, Prod.mk.injEq] at hq
      obtain ⟨t', h1, rfl, rfl⟩ := hq
      have : o' = o := by
        have h2 := Dict.get?_of_mem (d := page) hn hp
        have h3 := Dict.get?_of_mem (d := page) hn hx
        rw [h2] at h3
        simpa using h3
      subst this
      unfold received at hr
      rw [hr] at h1; cases h1

section
variable [PyUnicode] {eng : Engine}

theorem WSubs.page_keep (pfx : Option Str) {n n' : Node} : ∀ (l : WSubs) {M}, FSubs.Ok (WSubs.bare l) M →
    (∀ q, FSubs.Has q (WSubs.bare l) → hits q n' = hits q n ∧ Uniq q n ∧ Uniq q n') → WSubs.page l pfx n' = WSubs.page l pfx n
  | .nil, _, _, _ => rfl
  | .cons name h f rest, M, hl, hh => by
    rw [WSubs.bare] at hl hh
    obtain ⟨h1, h2, h3⟩ := hh h.p (.inl rfl)
    rw [WSubs.page, WSubs.page, subElem_elems hl.1 h2, subElem_elems hl.1 h3, elems_hits h1, WSubs.page_keep pfx rest hl.2.2.2.2.2 (fun q hq => hh q (.inr hq))]

theorem all_keep {P : (o : Forms.Own Plain2) → Node → Str → FormField → o.m.ι → Prop} (pfx : Option Str) {n n' : Node} : ∀ (l : WSubs) {M}, FSubs.Ok (WSubs.bare l) M →
    (∀ q, FSubs.Has q (WSubs.bare l) → hits q n' = hits q n ∧ Uniq q n ∧ Uniq q n') → WSubs.All P l pfx n → WSubs.All P l pfx n'
  | .nil, _, _, _, _ => trivial
  | .cons name h f rest, M, hl, hh, ha => by
    rw [WSubs.bare] at hl hh
    obtain ⟨h1, h2, h3⟩ := hh h.p (.inl rfl)
    refine ⟨?_, all_keep pfx rest hl.2.2.2.2.2 (fun q hq => hh q (.inr hq)) ha.2⟩
    rw [subElem_elems hl.1 h3, elems_hits h1, ← subElem_elems hl.1 h2]
    exact ha.1

theorem FSubs.Fit.uniq {n : Node} : ∀ {l : FSubs Plain2}, FSubs.Fit l n → ∀ q, FSubs.Has q l → Uniq q n
  | .nil, _, _, h => h.elim
  | .cons h _ _ rest, hi, q, hq => by
    rcases hq with rfl | hq
    · exact hi.1.1
    · exact FSubs.Fit.uniq hi.2 q hq

theorem showOwn_run (heng : EngineOk eng) {o : Forms.Own Plain2} (hf : ∀ i, (o.m.fs i).Ok o.ctx) {a s n} (hs : Node.get a s = some n) (pfx : Option Str) :
    ∀ (inputs : List (Str × FormField)), (∀ x f i, (x, f) ∈ inputs → o.m.name i = x → ∃ v, fieldVal (o.m.fs i) n = .ok v) →
    showOwn eng o pfx a inputs s = (.ok (inputs.map (fun p => (addPrefix pfx p.1, sends p.2 (valueOf o n p.1)))), s)
  | [], _ => rfl
  | (x, f) :: rest, h => by
    have hi : initialValue eng o a x s = (.ok (valueOf o n x), s) := by
      unfold initialValue valueOf
      cases hl : o.m.look x with
      | none => rfl
      | some i =>
        obtain ⟨v, hv⟩ := h x f i (by simp) ((o.m.look_iff i x).1 hl)
        have hr := readAs_run heng (conv := (o.m.fs i).toPython) (hf i).simple hs
        rw [show (o.m.fs i).toPython ((Step.matches (o.m.fs i).p n).head?.bind (seen n)) = .ok v from hv] at hr
        simp only [hv]
        rw [bind_ok hr]; rfl
    rw [showOwn, bind_ok hi, bind_ok (showOwn_run heng hf hs pfx rest (fun y g i hy => h y g i (by simp [hy])))]
    rfl

mutual
theorem showForm_run (heng : EngineOk eng) (w : WForm) (pfx : Option Str) (ht : FTree.Ok (WForm.bare w)) {a s n} (hs : Node.get a s = some n) (hi : FTree.Fit (WForm.bare w) n)
    (hr : WForm.All Readable w pfx n) :
    ∃ n0, showForm eng w pfx a s = (.ok (WForm.page w pfx n), s.modify a (fun _ => n0)) ∧ Frame (FTree.Paths (WForm.bare w)) n n0 := match w, ht, hi, hr with
  | .mk o inputs subs, ht, hi, hr => by
    rw [WForm.bare] at ht hi
    obtain ⟨n0, r1, r2⟩ := showSubs_run heng subs pfx ht.2 hs hi.2 hr.2
    refine ⟨n0, ?_, r2.mono (fun q hq => by rw [WForm.bare]; exact .inr hq)⟩
    rw [showForm, bind_ok (showOwn_run (o := o) heng ht.1.field hs pfx inputs hr.1), bind_ok r1]
    rfl
theorem showSubs_run (heng : EngineOk eng) (l : WSubs) (pfx : Option Str) {M} (hl : FSubs.Ok (WSubs.bare l) M) {a s n} (hs : Node.get a s = some n)
    (hi : FSubs.Fit (WSubs.bare l) n) (hr : WSubs.All Readable l pfx n) :
    ∃ n0, showSubs eng l pfx a s = (.ok (WSubs.page l pfx n), s.modify a (fun _ => n0)) ∧ Frame (fun q => FSubs.Has q (WSubs.bare l)) n n0 := match l, hl, hi, hr with
  | .nil, _, _, _ => ⟨n, by rw [Node.modify_id hs rfl]; rfl, Frame.refl _ _⟩
  | .cons name h f rest, hl, hi, hr => by
    rw [WSubs.bare] at hl hi
    obtain ⟨⟨i1, i2⟩, i3⟩ := hi
    obtain ⟨n1, c1, c2, c3, c4, c5⟩ := hop_create heng hl.1 hs i1
    have hfit : FTree.Fit (WForm.bare f) ((elems h.p n).head?.getD (newAt h.p)) := by
      cases he : (elems h.p n).head? with
      | none => exact new_fit hl
      | some x => exact i2 x (List.mem_of_mem_head? he)
    obtain ⟨b, hg, hb, hput⟩ := hop_some heng hl.1 (s := s.modify a (fun _ => n1)) (get_modify_here hs) c3 c4
    have hse := subElem_elems hl.1 i1
    have hr1 := hr.1
    rw [hse] at hr1
    obtain ⟨x0, f1, f3⟩ := showForm_run heng f (some (addPrefix pfx name)) hl.2.2.2.2.1 hb hfit hr1
    obtain ⟨p1, p2, p3⟩ := hop_put hl.1 c3 c4 (FSubs.Ok.under hl) f3
    rw [hput, modify_twice] at f1
    have hloc : Local h.p n (chg h.p (fun _ => x0) n1) := ⟨p1.tag.trans c2.tag, fun t h => (p1.attr t h).trans (c2.attr t h), fun g h1 h2 => (p1.other g h1 h2).trans (c2.other g h1 h2),
          fun g h1 h2 hu => p1.uniq g h1 h2 (c2.uniq g h1 h2 hu)⟩
    have hkeep : ∀ q, FSubs.Has q (WSubs.bare rest) → hits q (chg h.p (fun _ => x0) n1) = hits q n ∧ Uniq q n ∧ Uniq q (chg h.p (fun _ => x0) n1) := by
      intro q hq
      have hu := FSubs.Fit.uniq i3 q hq
      exact ⟨(local_has hl hloc q hq).1, hu, (local_has hl hloc q hq).2 hu⟩
    have hall : WSubs.All Readable rest pfx (chg h.p (fun _ => x0) n1) := all_keep pfx rest hl.2.2.2.2.2 hkeep hr.2
    obtain ⟨n0, s1, s4⟩ := showSubs_run heng rest pfx hl.2.2.2.2.2 (s := s.modify a (fun _ => chg h.p (fun _ => x0) n1)) (get_modify_here hs)
      (FSubs.Fit.keep (local_has hl hloc) i3) hall
    rw [modify_twice] at s1
    refine ⟨n0, ?_, (frame_of (P := fun q => FSubs.Has q (WSubs.bare (.cons name h f rest))) (by rw [WSubs.bare]; exact .inl rfl) hloc).trans
      (s4.mono (fun q hq => by rw [WSubs.bare]; exact .inr hq))⟩
    rw [showSubs, bind_ok c1, bind_ok hg]
    simp only
    rw [bind_ok f1, bind_ok s1, WSubs.page, hse, WSubs.page_keep pfx rest hl.2.2.2.2.2 hkeep]
    rfl
end

/-! ### the form with data -/

variable {dj : Django} {edits : Str → Option (Option Str)}

/-- The data are those that come back from the page. -/
def Back (edits : Str → Option (Option Str)) (post : Dict Str Str) (page : List (Str × Option Str)) : Prop := ∀ x o, (x, o) ∈ page → post.get? x = received edits x o

theorem cleanOwn_get {pfx : Option Str} {post : Dict Str Str} {inputs : List (Str × FormField)} (hn : (inputs.map (·.1)).Nodup) {x : Str} {f : FormField} (hx : (x, f) ∈ inputs) :
    (cleanOwn dj pfx post inputs).get? x = cleans dj f (post.get? (addPrefix pfx x)) := by
  induction inputs with
  | nil => simp at hx
  | cons p inputs ih =>
    simp only [List.map_cons, List.nodup_cons] at hn
    unfold cleanOwn at ih ⊢
    rcases List.mem_cons.mp hx with rfl | hx
    · simp only [List.filterMap_cons]
      cases hc : cleans dj f (post.get? (addPrefix pfx x)) with
      | some v => simp [Dict.get?]
      | none =>
        simp only [Option.map_none]
        cases hg : Dict.get? (List.filterMap (fun p => (cleans dj p.2 (post.get? (addPrefix pfx p.1))).map (fun v => (p.1, v))) inputs) x with
        | none => rfl
        | some v =>
          obtain ⟨⟨y, g⟩, hp, hq⟩ := List.mem_filterMap.mp (Dict.mem_of_get? hg)
          simp only [Option.map_eq_some_iff, Prod.mk.injEq] at hq
          obtain ⟨t', h1, rfl, rfl⟩ := hq
          exact absurd (List.mem_map.mpr ⟨_, hp, rfl⟩) hn.1
    · have hne : p.1 ≠ x := fun e => hn.1 (List.mem_map.mpr ⟨_, hx, e.symm⟩)
      simp only [List.filterMap_cons]
      cases hc : cleans dj p.2 (post.get? (addPrefix pfx p.1)) with
      | none => simp only [Option.map_none]; exact ih hn.2 hx
      | some v =>
        simp only [Option.map_some, Dict.get?]
        rw [if_neg (Ne.symm hne)]
        exact ih hn.2 hx

theorem cleanOwn_mem {pfx : Option Str} {post : Dict Str Str} {inputs : List (Str × FormField)} {x : Str} {v : CVal Plain2}
    (h : (cleanOwn dj pfx post inputs).get? x = some v) : ∃ f, (x, f) ∈ inputs ∧ cleans dj f (post.get? (addPrefix pfx x)) = some v := by
  obtain ⟨⟨y, g⟩, hp, hq⟩ := List.mem_filterMap.mp (Dict.mem_of_get? h)
  simp only [Option.map_eq_some_iff, Prod.mk.injEq] at hq
  obtain ⟨t', h1, rfl, rfl⟩ := hq
  exact ⟨g, hp, h1⟩

theorem bindSubs_has (post : Dict Str Str) (pfx : Option Str) (q : List Step) : ∀ l : WSubs, FSubs.Has q (bindSubs dj post l pfx) ↔ FSubs.Has q (WSubs.bare l)
  | .nil => Iff.rfl
  | .cons name h f rest => by
    rw [bindSubs, WSubs.bare]
    exact or_congr Iff.rfl (bindSubs_has post pfx q rest)

theorem bindForm_own (post : Dict Str Str) (w : WForm) (pfx : Option Str) : (FTree.own (bindForm dj post w pfx)).m = (FTree.own (WForm.bare w)).m := by
  cases w; rfl

mutual
theorem bindForm_fits (post : Dict Str Str) (w : WForm) (pfx : Option Str) {n : Node} (h : FTree.Fits (WForm.bare w) n) : FTree.Fits (bindForm dj post w pfx) n := match w, h with
  | .mk o inputs subs, h => by rw [WForm.bare] at h; rw [bindForm]; exact ⟨h.1, bindSubs_fits post subs pfx h.2⟩
theorem bindSubs_fits (post : Dict Str Str) (l : WSubs) (pfx : Option Str) {n : Node} (h : FSubs.Fits (WSubs.bare l) n) : FSubs.Fits (bindSubs dj post l pfx) n := match l, h with
  | .nil, _ => trivial
  | .cons name h f rest, hh => by
    rw [WSubs.bare] at hh; rw [bindSubs]
    exact ⟨hh.1, fun m hm => bindForm_fits post f _ (hh.2.1 m hm), bindSubs_fits post rest pfx hh.2.2⟩
end

mutual
theorem bindForm_new (post : Dict Str Str) (w : WForm) (pfx : Option Str) : FTree.New (bindForm dj post w pfx) := match w with
  | .mk o inputs subs => by rw [bindForm]; exact bindSubs_new post subs pfx
theorem bindSubs_new (post : Dict Str Str) (l : WSubs) (pfx : Option Str) : FSubs.New (bindSubs dj post l pfx) := match l with
  | .nil => trivial
  | .cons name h f rest => by rw [bindSubs]; exact ⟨rfl, bindForm_new post f _, bindSubs_new post rest pfx⟩
end

mutual
theorem bindForm_plain (post : Dict Str Str) (w : WForm) (pfx : Option Str) (h : FTree.Plain (WForm.bare w)) : FTree.Plain (bindForm dj post w pfx) := match w, h with
  | .mk o inputs subs, h => by rw [WForm.bare] at h; rw [bindForm]; exact bindSubs_plain post subs pfx h
theorem bindSubs_plain (post : Dict Str Str) (l : WSubs) (pfx : Option Str) (h : FSubs.Plain (WSubs.bare l)) : FSubs.Plain (bindSubs dj post l pfx) := match l, h with
  | .nil, _ => trivial
  | .cons name h f rest, hh => by
    rw [WSubs.bare] at hh; rw [bindSubs]
    exact ⟨hh.1, bindForm_plain post f _ hh.2.1, bindSubs_plain post rest pfx hh.2.2⟩
end

mutual
theorem bindForm_noSchema (post : Dict Str Str) (w : WForm) (pfx : Option Str) (h : FTree.NoSchema (WForm.bare w)) : FTree.NoSchema (bindForm dj post w pfx) := match w, h with
  | .mk o inputs subs, h => by rw [WForm.bare] at h; rw [bindForm]; exact ⟨h.1, bindSubs_noSchema post subs pfx h.2⟩
theorem bindSubs_noSchema (post : Dict Str Str) (l : WSubs) (pfx : Option Str) (h : FSubs.NoSchema (WSubs.bare l)) : FSubs.NoSchema (bindSubs dj post l pfx) := match l, h with
  | .nil, _ => trivial
  | .cons name h f rest, hh => by
    rw [WSubs.bare] at hh; rw [bindSubs]
    exact ⟨bindForm_noSchema post f _ hh.1, bindSubs_noSchema post rest pfx hh.2⟩
end

theorem valueOf_read {o : Forms.Own Plain2} {n : Node} {i : o.m.ι} {v} (hv : fieldVal (o.m.fs i) n = .ok v) : valueOf o n (o.m.name i) = o.m.show_ i v := by
  unfold valueOf
  rw [look_name]
  simp only [hv]

/-- What comes back for an own field. -/
theorem back_own {o : Forms.Own Plain2} {inputs : List (Str × FormField)} {subs : WSubs} {pfx : Option Str} {n : Node} {post : Dict Str Str}
    (hb : Back edits post (WForm.page (.mk o inputs subs) pfx n)) {f : FormField} {i : o.m.ι} (hx : (o.m.name i, f) ∈ inputs) {v} (hv : fieldVal (o.m.fs i) n = .ok v) :
    post.get? (addPrefix pfx (o.m.name i)) = received edits (addPrefix pfx (o.m.name i)) (sends f (o.m.show_ i v)) := by
  refine hb _ _ ?_
  rw [WForm.page, List.mem_append]
  refine .inl (List.mem_map.mpr ⟨_, hx, ?_⟩)
  simp only [valueOf_read hv]

mutual
theorem bindForm_ok (w : WForm) (pfx : Option Str) {n : Node} {post : Dict Str Str} (hb : Back edits post (WForm.page w pfx n)) (ht : FTree.Ok (WForm.bare w))
    (hff : WForm.ForFields w) (hr : WForm.All Readable w pfx n) (ha : WForm.All (Acceptable dj edits) w pfx n) : FTree.Ok (bindForm dj post w pfx) := match w, hb, ht, hff, hr, ha with
  | .mk o inputs subs, hb, ht, hff, hr, ha => by
    rw [WForm.bare] at ht
    rw [bindForm]
    refine ⟨⟨ht.1.field, ht.1.part, ht.1.names, _, rfl, fun x v hv => ?_⟩,
      bindSubs_ok subs pfx (fun x o h => hb x o (by rw [WForm.page]; exact List.mem_append_right _ h)) ht.2 hff.2 hr.2 ha.2⟩
    obtain ⟨f, h1, h2⟩ := cleanOwn_mem hv
    obtain ⟨⟨i, rfl⟩, -⟩ := hff.1 x f h1
    obtain ⟨u, hu⟩ := hr.1 _ f i h1 rfl
    rw [back_own hb h1 hu] at h2
    exact ⟨i, rfl, ha.1 _ f i h1 rfl v ⟨u, hu, h2⟩⟩
theorem bindSubs_ok (l : WSubs) (pfx : Option Str) {M} {n : Node} {post : Dict Str Str} (hb : Back edits post (WSubs.page l pfx n)) (hl : FSubs.Ok (WSubs.bare l) M)
    (hff : WSubs.ForFields l) (hr : WSubs.All Readable l pfx n) (ha : WSubs.All (Acceptable dj edits) l pfx n) : FSubs.Ok (bindSubs dj post l pfx) M := match l, hb, hl, hff, hr, ha with
  | .nil, _, _, _, _, _ => trivial
  | .cons name h f rest, hb, hl, hff, hr, ha => by
    rw [WSubs.bare] at hl
    rw [bindSubs]
    refine ⟨hl.1, hl.2.1, fun q hq => hl.2.2.1 q ((bindSubs_has post pfx q rest).1 hq), ?_,
      bindForm_ok f _ (fun x o h => hb x o (by rw [WSubs.page]; exact List.mem_append_left _ h)) hl.2.2.2.2.1 hff.1 hr.1 ha.1,
      bindSubs_ok rest pfx (fun x o h => hb x o (by rw [WSubs.page]; exact List.mem_append_right _ h)) hl.2.2.2.2.2 hff.2 hr.2 ha.2⟩
    rw [bindForm_own]
    exact hl.2.2.2.1
end

mutual
/-- The form is valid if and only if all inputs are. -/
theorem bindForm_valid (w : WForm) (pfx : Option Str) {n : Node} {post : Dict Str Str} (hb : Back edits post (WForm.page w pfx n))
    (hff : WForm.ForFields w) (hr : WForm.All Readable w pfx n) : FTree.AllValid (bindForm dj post w pfx) ↔ WForm.All (ValidInput dj edits) w pfx n := match w, hb, hff, hr with
  | .mk o inputs subs, hb, hff, hr => by
    rw [bindForm]
    refine and_congr ?_ (bindSubs_valid subs pfx (fun x o h => hb x o (by rw [WForm.page]; exact List.mem_append_right _ h)) hff.2 hr.2)
    show validOwn dj pfx post inputs = true ↔ _
    unfold validOwn
    rw [List.all_eq_true]
    constructor
    · rintro h x f i hx rfl
      obtain ⟨u, hu⟩ := hr.1 _ f i hx rfl
      have := h _ hx
      simp only [back_own hb hx hu] at this
      obtain ⟨c, hc⟩ := Option.isSome_iff_exists.mp this
      exact ⟨c, u, hu, hc⟩
    · rintro h ⟨x, f⟩ hx
      obtain ⟨⟨i, rfl⟩, -⟩ := hff.1 x f hx
      obtain ⟨c, u, hu, hc⟩ := h _ f i hx rfl
      simp only [back_own hb hx hu, hc, Option.isSome_some]
theorem bindSubs_valid (l : WSubs) (pfx : Option Str) {n : Node} {post : Dict Str Str} (hb : Back edits post (WSubs.page l pfx n))
    (hff : WSubs.ForFields l) (hr : WSubs.All Readable l pfx n) : FSubs.AllValid (bindSubs dj post l pfx) ↔ WSubs.All (ValidInput dj edits) l pfx n := match l, hb, hff, hr with
  | .nil, _, _, _ => Iff.rfl
  | .cons name h f rest, hb, hff, hr => by
    rw [bindSubs]
    exact and_congr (bindForm_valid f _ (fun x o h => hb x o (by rw [WSubs.page]; exact List.mem_append_left _ h)) hff.1 hr.1)
      (bindSubs_valid rest pfx (fun x o h => hb x o (by rw [WSubs.page]; exact List.mem_append_right _ h)) hff.2 hr.2)
end

mutual
theorem bindForm_null (w : WForm) (pfx : Option Str) {n : Node} {post : Dict Str Str} (hb : Back edits post (WForm.page w pfx n)) (hr : WForm.All Readable w pfx n)
    (h : WForm.All (NothingEntered dj edits) w pfx n) : FTree.Null (bindForm dj post w pfx) := match w, hb, hr, h with
  | .mk o inputs subs, hb, hr, h => by
    rw [bindForm]
    refine ⟨?_, bindSubs_null subs pfx (fun x o h => hb x o (by rw [WForm.page]; exact List.mem_append_right _ h)) hr.2 h.2⟩
    rintro i v w ⟨-, c, hc, hv⟩ hw
    cases hc
    obtain ⟨f, h1, h2⟩ := cleanOwn_mem hv
    obtain ⟨u, hu⟩ := hr.1 _ f i h1 rfl
    rw [show post.get? (addPrefix pfx (o.m.name i)) = _ from back_own hb h1 hu] at h2
    exact h.1 _ f i h1 rfl v ⟨u, hu, h2⟩ w hw
theorem bindSubs_null (l : WSubs) (pfx : Option Str) {n : Node} {post : Dict Str Str} (hb : Back edits post (WSubs.page l pfx n)) (hr : WSubs.All Readable l pfx n)
    (h : WSubs.All (NothingEntered dj edits) l pfx n) : FSubs.Null (bindSubs dj post l pfx) := match l, hb, hr, h with
  | .nil, _, _, _ => trivial
  | .cons name h f rest, hb, hr, hh => by
    rw [bindSubs]
    exact ⟨bindForm_null f _ (fun x o h => hb x o (by rw [WSubs.page]; exact List.mem_append_left _ h)) hr.1 hh.1,
      bindSubs_null rest pfx (fun x o h => hb x o (by rw [WSubs.page]; exact List.mem_append_right _ h)) hr.2 hh.2⟩
end

theorem PForm.Named.fields : ∀ {f : PForm}, PForm.Named f → ∀ {l s t}, f = .mk l s t → l.Nodup := by
  rintro _ h l s t rfl
  exact h.1

mutual
theorem bindForm_after (w : WForm) (pfx : Option Str) {n n' : Node} {post : Dict Str Str} (hb : Back edits post (WForm.page w pfx n)) (hn : PForm.Named (WForm.toPage w))
    (hff : WForm.ForFields w) (hr : WForm.All Readable w pfx n) (hv : WForm.All (ValidInput dj edits) w pfx n) (hs : FTree.Saved (bindForm dj post w pfx) n n') :
    WForm.After dj edits w pfx n n' := match w, hb, hn, hff, hr, hv, hs with
  | .mk o inputs subs, hb, hn, hff, hr, hv, hs => by
    rw [bindForm] at hs
    rw [WForm.toPage] at hn
    obtain ⟨s1, s2, s3, s4⟩ := hs
    refine ⟨?_, fun i hi => ?_, fun g ctx h1 h2 h3 h4 => s3 g ctx h1 h2 h3 (fun q hq => h4 q ((bindSubs_has post pfx q subs).1 hq)),
      bindSubs_after subs pfx (fun x o h => hb x o (by rw [WForm.page]; exact List.mem_append_right _ h)) hn.2.2.2.2.1 hff.2 hr.2 hv.2 s4⟩
    · rintro x f i hx rfl
      obtain ⟨c, u, hu, hc⟩ := hv.1 _ f i hx rfl
      refine ⟨c, ⟨u, hu, hc⟩, s1 i c ⟨(hff.1 _ f hx).2, _, rfl, ?_⟩⟩
      have hnd : (inputs.map (·.1)).Nodup := hn.1
      rw [show (cleanOwn dj pfx post inputs).get? (o.m.name i) = _ from cleanOwn_get hnd hx, back_own hb hx hu, hc]
    · refine s2 i ?_
      rintro v ⟨-, c, hc, hv'⟩
      cases hc
      obtain ⟨f, h1, -⟩ := cleanOwn_mem hv'
      exact hi (List.mem_map.mpr ⟨_, h1, rfl⟩)
theorem bindSubs_after (l : WSubs) (pfx : Option Str) {n n' : Node} {post : Dict Str Str} (hb : Back edits post (WSubs.page l pfx n)) (hn : PSubs.Named (WSubs.toPage l))
    (hff : WSubs.ForFields l) (hr : WSubs.All Readable l pfx n) (hv : WSubs.All (ValidInput dj edits) l pfx n) (hs : FSubs.Saved (bindSubs dj post l pfx) n n') :
    WSubs.After dj edits l pfx n n' := match l, hb, hn, hff, hr, hv, hs with
  | .nil, _, _, _, _, _, _ => trivial
  | .cons name h f rest, hb, hn, hff, hr, hv, hs => by
    rw [bindSubs] at hs
    rw [WSubs.toPage] at hn
    obtain ⟨⟨m', s1, s2⟩, s3, s4⟩ := hs
    have hb1 : Back edits post (WForm.page f (some (addPrefix pfx name)) ((subElem h.p n).getD (newAt h.p))) :=
      fun x o h => hb x o (by rw [WSubs.page]; exact List.mem_append_left _ h)
    refine ⟨⟨m', bindForm_after f _ hb1 hn.1 hff.1 hr.1 hv.1 s1, s2⟩, fun he hq hp hne => ?_,
      bindSubs_after rest pfx (fun x o h => hb x o (by rw [WSubs.page]; exact List.mem_append_right _ h)) hn.2 hff.2 hr.2 hv.2 s4⟩
    refine s3 he hq (bindForm_plain post f _ hp) ?_
    have hr1 := hr.1
    rw [he] at hr1 hb1
    exact bindForm_null f _ hb1 hr1 hne
end

/-! ### C94 -/

/-- C94.  A form, with subforms at any depth, is made for an object and shown; some inputs are edited (`edits`), and the form is sent back; for a copy of the same document the form is made
again, with the data, and validated.  Then this succeeds; if all inputs are valid and the schemas accept everything, the form is valid; and if it is valid, all inputs are valid, and what has been
saved is `After`: each field reads the cleaned value of what its input has sent, and everything else is as before. -/
theorem C94_cycle (heng : EngineOk eng) (w : WForm) (pfx : Option Str) (ht : FTree.Ok (WForm.bare w)) (hn : PForm.Named (WForm.toPage w)) (hff : WForm.ForFields w)
    (a : Node.Addr) (s n : Node) (hs : s.get a = some n) (hfit : FTree.Fits (WForm.bare w) n) (hr : WForm.All Readable w pfx n)
    (edits : Str → Option (Option Str)) (ha : WForm.All (Acceptable dj edits) w pfx n) :
    ∃ page s1, showForm eng w pfx a s = (.ok page, s1) ∧
    ∃ s0 r t' n', initTree eng (bindForm dj (submission edits page) w pfx) a s = (.ok (), s0) ∧
      validTree eng (bindForm dj (submission edits page) w pfx) a s0 = (.ok r, t', s.modify a (fun _ => n')) ∧
      (r = true → WForm.All (ValidInput dj edits) w pfx n ∧ WForm.After dj edits w pfx n n') ∧
      (WForm.All (ValidInput dj edits) w pfx n → FTree.NoSchema (WForm.bare w) → r = true) := by
  obtain ⟨n0, h1, -⟩ := showForm_run heng w pfx ht hs (FTree.Fits.fit ht hfit) hr
  refine ⟨_, _, h1, ?_⟩
  have hnd : ((WForm.page w pfx n).map (·.1)).Nodup := by rw [WForm.page_names]; exact C86_distinct pfx _ hn
  have hb : Back edits (submission edits (WForm.page w pfx n)) (WForm.page w pfx n) := fun x o h => submission_get hnd h
  obtain ⟨s0, r, t', n', c1, c2, c3, c4⟩ := C85_valid heng (bindForm dj (submission edits (WForm.page w pfx n)) w pfx) (bindForm_ok w pfx hb ht hff hr ha) (bindForm_new _ w pfx) a s n hs
    (bindForm_fits _ w pfx hfit)
  refine ⟨s0, r, t', n', c1, c2, fun e => ?_, fun hv hsch => c4 ((bindForm_valid w pfx hb hff hr).2 hv) (bindForm_noSchema _ w pfx hsch)⟩
  obtain ⟨k1, -, k2, -⟩ := c3 e
  have hv := (bindForm_valid w pfx hb hff hr).1 k1
  exact ⟨hv, bindForm_after w pfx hb hn hff hr hv k2⟩

/-- C94.  An input that is not valid: the form is not valid, and the fields of the form's own object read what they read before. -/
theorem C94_invalid (heng : EngineOk eng) (w : WForm) (pfx : Option Str) (ht : FTree.Ok (WForm.bare w)) (hn : PForm.Named (WForm.toPage w)) (hff : WForm.ForFields w)
    (a : Node.Addr) (s n : Node) (hs : s.get a = some n) (hfit : FTree.Fits (WForm.bare w) n) (hr : WForm.All Readable w pfx n)
    (edits : Str → Option (Option Str)) (ha : WForm.All (Acceptable dj edits) w pfx n) (hbad : ¬ WForm.All (ValidInput dj edits) w pfx n) :
    ∃ page s1, showForm eng w pfx a s = (.ok page, s1) ∧
    ∃ s0 t' n', initTree eng (bindForm dj (submission edits page) w pfx) a s = (.ok (), s0) ∧
      validTree eng (bindForm dj (submission edits page) w pfx) a s0 = (.ok false, t', s.modify a (fun _ => n')) ∧
      ∀ i, fieldVal ((FTree.own (WForm.bare w)).m.fs i) n' = fieldVal ((FTree.own (WForm.bare w)).m.fs i) n := by
  obtain ⟨n0, h1, -⟩ := showForm_run heng w pfx ht hs (FTree.Fits.fit ht hfit) hr
  refine ⟨_, _, h1, ?_⟩
  have hnd : ((WForm.page w pfx n).map (·.1)).Nodup := by rw [WForm.page_names]; exact C86_distinct pfx _ hn
  have hb : Back edits (submission edits (WForm.page w pfx n)) (WForm.page w pfx n) := fun x o h => submission_get hnd h
  obtain ⟨s0, t', n', c1, c2, c3, -⟩ := C85_invalid heng (bindForm dj (submission edits (WForm.page w pfx n)) w pfx) (bindForm_ok w pfx hb ht hff hr ha) (bindForm_new _ w pfx) a s n hs
    (bindForm_fits _ w pfx hfit) (fun h => hbad ((bindForm_valid w pfx hb hff hr).1 h))
  refine ⟨s0, t', n', c1, c2, ?_⟩
  rw [bindForm_own] at c3
  exact c3

/-! ### nobody touches anything -/

omit [PyUnicode] in
theorem oneLine_id {s : Str} (h : ∀ c ∈ s, isDigit c = true ∨ c = '-') : oneLine s = s := by
  unfold oneLine
  refine List.filter_eq_self.mpr fun c hc => ?_
  have h1 : c ≠ '\n' := by rintro rfl; rcases h _ hc with h | h <;> exact absurd h (by decide)
  have h2 : c ≠ '\r' := by rintro rfl; rcases h _ hc with h | h <;> exact absurd h (by decide)
  simp [h1, h2]

omit [PyUnicode] in
theorem intStr_shape (n : Int) : (∀ c ∈ intStr n, isDigit c = true ∨ c = '-') ∧ intStr n ≠ [] := by
  obtain ⟨h1, h2, -⟩ := natStr_spec n.natAbs
  unfold intStr
  by_cases hn : n < 0
  · rw [if_pos hn]
    refine ⟨fun c hc => ?_, by simp⟩
    rcases List.mem_cons.mp hc with rfl | hc
    · exact .inr rfl
    · exact .inl (h2 c hc)
  · rw [if_neg hn]
    exact ⟨fun c hc => .inl (h2 c hc), h1⟩

omit [PyUnicode] in
/-- A value that the form field gives back, comes back. -/
theorem gives_back (hd : DjangoOk dj) {f : FormField} {v : CVal Plain2} (h : GivesBack dj f v) : ∃ c, cleans dj f (sends f v) = some c ∧ stored c = stored v := by
  obtain ⟨k, ch, req⟩ := f
  cases k with
  | char =>
    match v, h with
    | .null, h =>
      refine ⟨.str [], ?_, rfl⟩
      have h : req = false := h
      subst h
      simp [cleans, sends, dispText, oneLine, hd.strip]
    | .str s, h =>
      obtain ⟨h1, h2, h3⟩ := h
      refine ⟨.str s, ?_, rfl⟩
      simp only [cleans, sends, dispText, h1, Option.getD_some, h2]
      rw [if_neg]
      rintro ⟨a, b⟩
      have := (h3 b).symm.trans a; cases this
  | integer =>
    match v, h with
    | .null, h =>
      have h : req = false := h
      subst h
      exact ⟨.null, by simp [cleans, sends, dispText, oneLine], rfl⟩
    | .other (.int n), _ =>
      refine ⟨.other (.int n), ?_, rfl⟩
      simp only [cleans, sends, dispText, oneLine_id (intStr_shape n).1, Option.getD_some]
      rw [if_neg (intStr_shape n).2, hd.int]; rfl
  | date =>
    match v, h with
    | .null, h =>
      have h : req = false := h
      subst h
      exact ⟨.null, by simp [cleans, sends, dispText, oneLine], rfl⟩
    | .other (.date d), h =>
      obtain ⟨h1, h2, h3⟩ := h
      refine ⟨.other (.date d), ?_, rfl⟩
      have hs := strftime_shape ((valid_iff d).2 h1)
      simp only [cleans, sends, dispText, oneLine_id hs.1, Option.getD_some]
      rw [if_neg hs.2, hd.date d h1 h2 h3]; rfl
  | boolean =>
    match v, h with
    | .other (.bool b), h =>
      refine ⟨.other (.bool b), ?_, rfl⟩
      have h : req = false ∨ b = true := h
      cases b with
      | true => simp [cleans, sends, ticked, tickText, boxValue]
      | false =>
        rcases h with h | h
        · subst h; simp [cleans, sends, ticked, boxValue]
        · cases h
  | choice =>
    match v, h with
    | .null, h =>
      obtain ⟨h1, h2⟩ := h
      have h1 : req = false := h1
      have h2 : [] ∈ ch := h2
      subst h1
      refine ⟨.str [], ?_, rfl⟩
      simp [cleans, sends, dispText, h2]
    | .str s, h =>
      obtain ⟨h1, h2⟩ := h
      have h1 : s ∈ ch := h1
      have e : sends ⟨.choice, ch, req⟩ (.str s) = some s := if_pos h1
      refine ⟨.str s, ?_, rfl⟩
      rw [e]
      by_cases hs : s = []
      · have h2 : req = false := h2 hs
        subst h2 hs
        rfl
      · show (if s = [] then _ else if s ∈ ch then _ else _) = _
        rw [if_neg hs, if_pos h1]
        rfl

mutual
theorem WForm.All.imp {P Q : (o : Forms.Own Plain2) → Node → Str → FormField → o.m.ι → Prop} (h : ∀ o n x f i, P o n x f i → Q o n x f i) (w : WForm) (pfx : Option Str) {n : Node}
    (ha : WForm.All P w pfx n) : WForm.All Q w pfx n := match w, ha with
  | .mk o inputs subs, ha => ⟨fun x f i hx hi => h _ _ _ _ _ (ha.1 x f i hx hi), WSubs.All.imp h subs pfx ha.2⟩
theorem WSubs.All.imp {P Q : (o : Forms.Own Plain2) → Node → Str → FormField → o.m.ι → Prop} (h : ∀ o n x f i, P o n x f i → Q o n x f i) (l : WSubs) (pfx : Option Str) {n : Node}
    (ha : WSubs.All P l pfx n) : WSubs.All Q l pfx n := match l, ha with
  | .nil, _ => trivial
  | .cons name hh f rest, ha => ⟨WForm.All.imp h f _ ha.1, WSubs.All.imp h rest pfx ha.2⟩
end

omit [PyUnicode] in
theorem given_cleaned (hd : DjangoOk dj) {o : Forms.Own Plain2} {n : Node} {x : Str} {f : FormField} {i : o.m.ι} (h : Given dj o n x f i) :
    ∃ v c, fieldVal (o.m.fs i) n = .ok v ∧ o.m.Keeps i (stored c) ∧ stored c = stored (o.m.show_ i v) ∧ ∀ c', Cleaned dj untouched o n x f i c' ↔ c' = c := by
  obtain ⟨v, h1, h2, h3⟩ := h
  obtain ⟨c, h4, h5⟩ := gives_back hd h2
  refine ⟨v, c, h1, h5 ▸ h3, h5, fun c' => ⟨?_, ?_⟩⟩
  · rintro ⟨u, hu, hc⟩
    rw [h1] at hu
    cases hu
    rw [show received untouched x (sends f (o.m.show_ i v)) = sends f (o.m.show_ i v) from rfl, h4] at hc
    exact (Option.some.inj hc).symm
  · rintro rfl
    exact ⟨v, h1, h4⟩

theorem own_same (hd : DjangoOk dj) {o : Forms.Own Plain2} {inputs : List (Str × FormField)} {pfx : Option Str} {n n' : Node}
    (hg : ∀ x f i, (x, f) ∈ inputs → o.m.name i = x → Given dj o n (addPrefix pfx x) f i)
    (h1 : ∀ x f i, (x, f) ∈ inputs → o.m.name i = x → ∃ c, Cleaned dj untouched o n (addPrefix pfx x) f i c ∧ (fieldVal (o.m.fs i) n').map (o.m.show_ i) = .ok (stored c))
    (h2 : ∀ i, o.m.name i ∉ inputs.map (·.1) → fieldVal (o.m.fs i) n' = fieldVal (o.m.fs i) n) (i : o.m.ι) :
    (fieldVal (o.m.fs i) n').map (fun v => stored (o.m.show_ i v)) = (fieldVal (o.m.fs i) n).map (fun v => stored (o.m.show_ i v)) := by
  by_cases hi : o.m.name i ∈ inputs.map (·.1)
  · obtain ⟨⟨y, f⟩, hx, hy⟩ := List.mem_map.mp hi
    have hy : y = o.m.name i := hy
    subst hy
    obtain ⟨c, hc, hr⟩ := h1 _ f i hx rfl
    obtain ⟨v, c', h1, -, h3, h4⟩ := given_cleaned hd (hg _ f i hx rfl)
    obtain rfl := (h4 c).1 hc
    rw [h1]
    show _ = Except.ok (stored (o.m.show_ i v))
    rw [← h3, ← stored_stored c]
    cases hf : fieldVal (o.m.fs i) n' with
    | error e => rw [hf] at hr; cases hr
    | ok u =>
      rw [hf] at hr
      have hr : Except.ok (o.m.show_ i u) = (Except.ok (stored c) : Except PyErr _) := hr
      show Except.ok (stored (o.m.show_ i u)) = _
      rw [Except.ok.inj hr]
  · rw [h2 i hi]

mutual
theorem after_same (hd : DjangoOk dj) (w : WForm) (pfx : Option Str) {n n' : Node} (hg : WForm.All (Given dj) w pfx n) (hb : WForm.Blanks dj w pfx n)
    (ha : WForm.After dj untouched w pfx n n') : WForm.Same w n n' := match w, hg, hb, ha with
  | .mk o inputs subs, hg, hb, ha => ⟨own_same hd hg.1 ha.1 ha.2.1, afters_same hd subs pfx hg.2 hb ha.2.2.2⟩
theorem afters_same (hd : DjangoOk dj) (l : WSubs) (pfx : Option Str) {n n' : Node} (hg : WSubs.All (Given dj) l pfx n) (hb : WSubs.Blanks dj l pfx n)
    (ha : WSubs.After dj untouched l pfx n n') : WSubs.Same l n n' := match l, hg, hb, ha with
  | .nil, _, _, _ => trivial
  | .cons name h f rest, hg, hb, ha => by
    refine ⟨?_, afters_same hd rest pfx hg.2 hb.2 ha.2.2⟩
    have hb1 := hb.1
    have hg1 := hg.1
    obtain ⟨m', a1, a2⟩ := ha.1
    cases hs : subElem h.p n with
    | none =>
      rw [hs] at hb1
      exact ha.2.1 hs hb1.1 hb1.2.1 hb1.2.2
    | some m =>
      rw [hs] at hb1 hg1 a1
      exact ⟨m', after_same hd f _ hg1 hb1 a1, a2⟩
end

/-- C94.  A form is shown and sent back, and nobody touches an input.  If the form fields give back what they show, the form is valid (as far as the schemas allow) and saving it
changes nothing that can be read: the objects are the `Same`. -/
theorem C94_unchanged (heng : EngineOk eng) (hd : DjangoOk dj) (w : WForm) (pfx : Option Str) (ht : FTree.Ok (WForm.bare w)) (hn : PForm.Named (WForm.toPage w)) (hff : WForm.ForFields w)
    (a : Node.Addr) (s n : Node) (hs : s.get a = some n) (hfit : FTree.Fits (WForm.bare w) n) (hg : WForm.All (Given dj) w pfx n) (hb : WForm.Blanks dj w pfx n)
    (hsch : FTree.NoSchema (WForm.bare w)) :
    ∃ page s1, showForm eng w pfx a s = (.ok page, s1) ∧
    ∃ s0 t' n', initTree eng (bindForm dj (submission untouched page) w pfx) a s = (.ok (), s0) ∧
      validTree eng (bindForm dj (submission untouched page) w pfx) a s0 = (.ok true, t', s.modify a (fun _ => n')) ∧ WForm.Same w n n' := by
  have hr : WForm.All Readable w pfx n := WForm.All.imp (fun o n x f i h => ⟨h.choose, h.choose_spec.1⟩) w pfx hg
  have ha : WForm.All (Acceptable dj untouched) w pfx n := WForm.All.imp (fun o n x f i h => by
    obtain ⟨v, c, h1, h2, -, h4⟩ := given_cleaned hd h
    intro c' hc'
    rw [(h4 c').1 hc']; exact h2) w pfx hg
  have hv : WForm.All (ValidInput dj untouched) w pfx n := WForm.All.imp (fun o n x f i h => by
    obtain ⟨v, c, h1, h2, -, h4⟩ := given_cleaned hd h
    exact ⟨c, (h4 c).2 rfl⟩) w pfx hg
  obtain ⟨page, s1, c1, s0, r, t', n', c2, c3, c4, c5⟩ := C94_cycle heng w pfx ht hn hff a s n hs hfit hr untouched ha
  obtain rfl := c5 hv hsch
  exact ⟨page, s1, c1, s0, t', n', c2, c3, after_same hd w pfx hg hb (c4 rfl).2⟩

end
/-! ### examples -/

/-- Django as it is now: texts are stripped; numbers are read like `int` does, dates in the format in which they are shown. -/
def djangoNow : Django := ⟨pyStrip, pyInt, fun s => match strptime fmtDate s with | .ok d => some d | .error _ => none⟩

theorem djangoNow_ok : DjangoOk djangoNow where
  strip := rfl
  int := pyInt_intStr
  date := by
    intro d h1 h2 h3
    show (match strptime fmtDate (strftimeDate d) with | .ok d => some d | .error _ => none) = _
    rw [strptime_strftime ((valid_iff d).2 h1) h2 h3]

/-- A form for a class with one field. -/
def webOwn (m : FormModel Plain2) (x : Str) : Own Plain2 :=
  { m := m, ctx := sampleCtx, fields := none, exclude := none, modelNames := [x], valid := true, schemaValid := fun _ => true, cleaned := some [] }

/-- The classes of the example for C85; the form for a page has all fields, the title is required. -/
def webForm : WForm := .mk
  { m := pageModel, ctx := sampleCtx, fields := none, exclude := none, modelNames := [c%"title", c%"note", c%"pages", c%"done"], valid := true, schemaValid := fun _ => true, cleaned := some [] }
  [(c%"title", ⟨.char, [], true⟩), (c%"note", ⟨.char, [], false⟩), (c%"pages", ⟨.integer, [], false⟩), (c%"done", ⟨.boolean, [], false⟩)]
  (.cons c%"name" (oneHop c%"name") (.mk (webOwn (oneModel c%"family") c%"family") [(c%"family", ⟨.char, [], false⟩)]
      (.cons c%"role" (oneHop c%"role") (.mk (webOwn (oneModel c%"roleTerm") c%"roleTerm") [(c%"roleTerm", ⟨.choice, [[], c%"author"], false⟩)] .nil) .nil))
    (.cons c%"origin" (oneHop c%"origin") (.mk (webOwn (oneModel c%"place") c%"place") [(c%"place", ⟨.char, [], false⟩)] .nil) .nil))

theorem webOwn_ok (x : Str) (hp : (strField x (ast x) [.child ⟨none, x⟩ []]).Ok sampleCtx) (hd : '.' ∉ x) : OwnOk (webOwn (oneModel x) x) where
  field := fun _ => hp
  part := fun i j h => absurd rfl h
  names := by intro y hy; rw [List.mem_singleton.mp hy]; exact hd
  data := ⟨_, rfl, fun y w hw => by cases hw⟩

theorem webForm_ok : FTree.Ok (WForm.bare webForm) := by
  have hop : ∀ x, SimpleField sampleCtx x (ast x) [.child ⟨none, x⟩ []] → HopOk (oneHop x) := fun x h => ⟨h, rfl, rfl⟩
  refine ⟨⟨pageModel_ok, pageModel_part, by decide, _, rfl, fun y w hw => by cases hw⟩, hop _ ⟨by decide, by rfl, by decide, by decide⟩, ?_, ?_, fun _ => by rfl,
    ⟨webOwn_ok _ ⟨⟨by decide, by rfl, by decide, by decide⟩, by decide, by intro h; cases h⟩ (by decide),
      hop _ ⟨by decide, by rfl, by decide, by decide⟩, ?_, (by rintro q ⟨⟩), fun _ => by rfl,
      ⟨webOwn_ok _ ⟨⟨by decide, by rfl, by decide, by decide⟩, by decide, by intro h; cases h⟩ (by decide), trivial⟩, trivial⟩,
    hop _ ⟨by decide, by rfl, by decide, by decide⟩, ?_, (by rintro q ⟨⟩), fun _ => by rfl,
    ⟨webOwn_ok _ ⟨⟨by decide, by rfl, by decide, by decide⟩, by decide, by intro h; cases h⟩ (by decide), trivial⟩, trivial⟩
  · rintro q ⟨i, rfl⟩
    match (show Fin 4 from i) with
    | 0 | 1 | 2 => exact .inl (C69_apart_names (by decide) _ _)
    | 3 => trivial
  · rintro q (rfl | h)
    on_goal 2 => exact h.elim
    exact .inl (C69_apart_names (by decide) _ _)
  · rintro q ⟨i, rfl⟩
    exact .inl (C69_apart_names (by decide) _ _)
  · rintro q ⟨i, rfl⟩
    match (show Fin 4 from i) with
    | 0 | 1 | 2 => exact .inl (C69_apart_names (by decide) _ _)
    | 3 => trivial

theorem webForm_fits : FTree.Fits (WForm.bare webForm) pageDoc :=
  let h := pageForm_fits
  ⟨h.1, h.2.1, (fun m h => by have h : (none : Option Node) = some m := h; cases h), h.2.2.2.1, (fun m h => by have h : (none : Option Node) = some m := h; cases h), trivial⟩

theorem webForm_named : PForm.Named (WForm.toPage webForm) := by
  have key : ∀ l : List Str, l.all (fun x => !x.isEmpty && !x.contains '-' && !(x.head?.any isDigit)) = true → ∀ x ∈ l, PyName x := by
    intro l h x hx
    have := List.all_eq_true.mp h x hx
    simp only [Bool.and_eq_true, Bool.not_eq_true', List.isEmpty_eq_false_iff, List.contains_eq_mem, decide_eq_false_iff_not] at this
    refine ⟨this.1.1, this.1.2, fun c hc => ?_⟩
    have h2 := this.2
    rw [show x.head? = some c from hc] at h2
    exact h2
  simp only [webForm, WForm.toPage, WSubs.toPage, PForm.Named, PSubs.Named, PSets.Named, PSubs.names, PSets.names]
  exact ⟨by decide, key _ (by decide), by decide, key _ (by decide), ⟨⟨by decide, key _ (by decide), by decide, key _ (by decide), ⟨⟨by decide, key _ (by decide), by decide, key _ (by decide), trivial, trivial⟩, trivial⟩,
    trivial⟩, ⟨by decide, key _ (by decide), by decide, key _ (by decide), trivial, trivial⟩, trivial⟩, trivial⟩

theorem webForm_fields : WForm.ForFields webForm := by
  refine ⟨?_, ⟨?_, ⟨?_, trivial⟩, trivial⟩, ⟨?_, trivial⟩, trivial⟩
  · intro x f h
    simp only [List.mem_cons, Prod.mk.injEq, List.not_mem_nil, or_false] at h
    rcases h with ⟨rfl, -⟩ | ⟨rfl, -⟩ | ⟨rfl, -⟩ | ⟨rfl, -⟩
    · exact ⟨⟨(0 : Fin 4), rfl⟩, show _ ∈ _ by decide, fun l hl => by cases hl⟩
    · exact ⟨⟨(1 : Fin 4), rfl⟩, show _ ∈ _ by decide, fun l hl => by cases hl⟩
    · exact ⟨⟨(2 : Fin 4), rfl⟩, show _ ∈ _ by decide, fun l hl => by cases hl⟩
    · exact ⟨⟨(3 : Fin 4), rfl⟩, show _ ∈ _ by decide, fun l hl => by cases hl⟩
  all_goals
    intro x f h
    simp only [List.mem_cons, Prod.mk.injEq, List.not_mem_nil, or_false] at h
    obtain ⟨rfl, -⟩ := h
    exact ⟨⟨(), rfl⟩, show _ ∈ _ by decide, fun l hl => by cases hl⟩

/-- For the form of the example it is enough to look at its inputs. -/
theorem webForm_all {P : (o : Forms.Own Plain2) → Node → Str → FormField → o.m.ι → Prop}
    (h0 : P (FTree.own (WForm.bare webForm)) pageDoc c%"title" ⟨.char, [], true⟩ (0 : Fin 4)) (h1 : P (FTree.own (WForm.bare webForm)) pageDoc c%"note" ⟨.char, [], false⟩ (1 : Fin 4))
    (h2 : P (FTree.own (WForm.bare webForm)) pageDoc c%"pages" ⟨.integer, [], false⟩ (2 : Fin 4)) (h3 : P (FTree.own (WForm.bare webForm)) pageDoc c%"done" ⟨.boolean, [], false⟩ (3 : Fin 4))
    (h4 : P (webOwn (oneModel c%"family") c%"family") (newAt (oneHop c%"name").p) c%"name-family" ⟨.char, [], false⟩ ())
    (h5 : P (webOwn (oneModel c%"roleTerm") c%"roleTerm") (newAt (oneHop c%"role").p) c%"name-role-roleTerm" ⟨.choice, [[], c%"author"], false⟩ ())
    (h6 : P (webOwn (oneModel c%"place") c%"place") (newAt (oneHop c%"origin").p) c%"origin-place" ⟨.char, [], false⟩ ()) : WForm.All P webForm none pageDoc := by
  refine ⟨?_, ⟨?_, ⟨?_, trivial⟩, trivial⟩, ⟨?_, trivial⟩, trivial⟩
  · intro x f i h hi
    simp only [List.mem_cons, Prod.mk.injEq, List.not_mem_nil, or_false] at h
    have e : ∀ j : Fin 4, pageModel.name j = x → i = j := fun j hj => by
      have a := (pageModel.look_iff i x).2 hi
      have b := (pageModel.look_iff j x).2 hj
      exact Option.some.inj (a.symm.trans b)
    rcases h with ⟨rfl, rfl⟩ | ⟨rfl, rfl⟩ | ⟨rfl, rfl⟩ | ⟨rfl, rfl⟩
    · obtain rfl := e 0 rfl; exact h0
    · obtain rfl := e 1 rfl; exact h1
    · obtain rfl := e 2 rfl; exact h2
    · obtain rfl := e 3 rfl; exact h3
  all_goals
    intro x f i h hi
    simp only [List.mem_cons, Prod.mk.injEq, List.not_mem_nil, or_false] at h
    obtain ⟨rfl, rfl⟩ := h
  · exact h4
  · exact h5
  · exact h6

/-- The form for the page of the example for C85 is shown and sent back as it is: it is valid, and the page reads the same. -/
example : ∃ page s1, showForm refEngine webForm none [] pageDoc = (.ok page, s1) ∧
    ∃ s0 t' n', initTree refEngine (bindForm djangoNow (submission untouched page) webForm none) [] pageDoc = (.ok (), s0) ∧
      validTree refEngine (bindForm djangoNow (submission untouched page) webForm none) [] s0 = (.ok true, t', n') ∧ WForm.Same webForm pageDoc n' := by
  have hnull : ∀ (x : Str) (n : Node), fieldVal ((oneModel x).fs ()) n = .ok (none : Option Str) → ∀ (y : Str) (f : FormField), f.kind = .char → f.required = false →
      Given djangoNow (webOwn (oneModel x) x) n y f () := by
    intro x n h y f hk hr
    refine ⟨(none : Option Str), h, ?_, (none : Option Str), rfl, C69_keeps_string _ _ _ _ (fun v hv => by cases hv)⟩
    show GivesBack djangoNow f .null
    unfold GivesBack
    rw [hk]; exact hr
  have hempty : ∀ (x : Str) (n : Node), fieldVal ((oneModel x).fs ()) n = .ok (none : Option Str) → ∀ (y : Str) (f : FormField), f.required = false →
      (f.kind = .char ∨ f.kind = .choice ∧ [] ∈ f.choices) → NothingEntered djangoNow untouched (webOwn (oneModel x) x) n y f () := by
    intro x n h y f hr hk c hc w hw
    obtain ⟨v, hv, hc⟩ := hc
    obtain rfl : v = (none : Option Str) := by
      have := hv.symm.trans h
      exact Except.ok.inj this
    obtain rfl : c = .str [] := by
      obtain ⟨k, ch, req⟩ := f
      rcases hk with hk | ⟨hk, hk2⟩
      · have hk : k = .char := hk
        have hr : req = false := hr
        subst hk hr
        exact (Option.some.inj hc).symm
      · have hk : k = .choice := hk
        have hr : req = false := hr
        subst hk hr
        have e : sends ⟨.choice, ch, false⟩ (.null) = some [] := if_pos hk2
        have hc : cleans djangoNow ⟨.choice, ch, false⟩ (sends ⟨.choice, ch, false⟩ .null) = some c := hc
        rw [e] at hc
        exact (Option.some.inj hc).symm
    cases hw
    rfl
  obtain ⟨page, s1, h1, s0, t', n', h2, h3, h4⟩ := C94_unchanged (dj := djangoNow) refEngine_ok djangoNow_ok webForm none webForm_ok webForm_named webForm_fields [] pageDoc pageDoc rfl webForm_fits
    (webForm_all ⟨(some c%"old" : Option Str), rfl, ⟨rfl, by decide, by decide⟩, (some c%"old" : Option Str), rfl, C69_keeps_string _ _ _ _ (fun u hu => by cases hu; decide)⟩
      ⟨(none : Option Str), rfl, rfl, (none : Option Str), rfl, C69_keeps_string _ _ _ _ (fun u hu => by cases hu)⟩
      ⟨(none : Option Int), by rfl, rfl, (none : Option Int), rfl, C69_keeps_integer xpathNumber xpathNumber_ok _ _ _ _ (fun n hn => by cases hn)⟩
      ⟨(some true : Option Bool), by rfl, .inl rfl, (some true : Option Bool), rfl, C69_keeps_boolean _ _ (by decide) (fun x hx => by cases hx) _ _ _ _⟩
      (hnull _ _ (by rfl) _ _ rfl rfl)
      ⟨(none : Option Str), by rfl, ⟨rfl, by decide⟩, (none : Option Str), rfl, C69_keeps_string _ _ _ _ (fun u hu => by cases hu)⟩
      (hnull _ _ (by rfl) _ _ rfl rfl))
    ⟨⟨⟨_, rfl⟩, ⟨⟨_, rfl⟩, trivial, trivial⟩, ⟨fun x f i h hi => by
        simp only [List.mem_cons, Prod.mk.injEq, List.not_mem_nil, or_false] at h
        obtain ⟨rfl, rfl⟩ := h
        exact hempty _ _ (by rfl) _ _ rfl (.inl rfl), ⟨fun x f i h hi => by
          simp only [List.mem_cons, Prod.mk.injEq, List.not_mem_nil, or_false] at h
          obtain ⟨rfl, rfl⟩ := h
          exact hempty _ _ (by rfl) _ _ rfl (.inr ⟨rfl, by decide⟩), trivial⟩, trivial⟩⟩,
      ⟨⟨_, rfl⟩, trivial, fun x f i h hi => by
        simp only [List.mem_cons, Prod.mk.injEq, List.not_mem_nil, or_false] at h
        obtain ⟨rfl, rfl⟩ := h
        exact hempty _ _ (by rfl) _ _ rfl (.inl rfl), trivial⟩, trivial⟩
    ⟨fun _ => rfl, ⟨fun _ => rfl, ⟨fun _ => rfl, trivial⟩, trivial⟩, ⟨fun _ => rfl, trivial⟩, trivial⟩
  exact ⟨page, s1, h1, s0, t', n', h2, h3, h4⟩

/-- The user of the example: a new title, no tick, and a family. -/
def someEdits : Str → Option (Option Str) := fun x =>
  if x = c%"title" then some (some c%" New ") else if x = c%"done" then some none else if x = c%"name-family" then some (some c%"Doe") else none

/-- What the browser sends then. -/
example : submission someEdits [(c%"title", some c%"old"), (c%"note", some []), (c%"pages", some []), (c%"done", some c%"on"), (c%"name-family", some []), (c%"name-role-roleTerm", some []),
    (c%"origin-place", some [])] = [(c%"title", c%" New "), (c%"note", []), (c%"pages", []), (c%"name-family", c%"Doe"), (c%"name-role-roleTerm", []), (c%"origin-place", [])] := by decide

/-- The page is shown as expected. -/
example : (showForm refEngine webForm none [] pageDoc).1 = .ok [(c%"title", some c%"old"), (c%"note", some []), (c%"pages", some []), (c%"done", some c%"on"), (c%"name-family", some []),
    (c%"name-role-roleTerm", some []), (c%"origin-place", some [])] := by decide +kernel

/-- This value, and no other one, is the cleaned one. -/
theorem acceptable_of {dj : Django} {edits : Str → Option (Option Str)} {o : Forms.Own Plain2} {n : Node} {x : Str} {f : FormField} {i : o.m.ι} (v) (c : CVal Plain2)
    (hv : fieldVal (o.m.fs i) n = .ok v) (hc : cleans dj f (received edits x (sends f (o.m.show_ i v))) = some c) (hk : o.m.Keeps i (stored c)) :
    Readable o n x f i ∧ Acceptable dj edits o n x f i ∧ ValidInput dj edits o n x f i := by
  refine ⟨⟨v, hv⟩, ?_, c, v, hv, hc⟩
  rintro c' ⟨u, hu, hc'⟩
  rw [hv] at hu
  cases hu
  rw [hc] at hc'
  cases hc'
  exact hk

/-- The page is shown, the user makes these edits, and sends it: the form is valid, the page has the stripped title and no tick, and the family is "Doe". -/
example : ∃ page s1, showForm refEngine webForm none [] pageDoc = (.ok page, s1) ∧
    ∃ s0 t' n', initTree refEngine (bindForm djangoNow (submission someEdits page) webForm none) [] pageDoc = (.ok (), s0) ∧
      validTree refEngine (bindForm djangoNow (submission someEdits page) webForm none) [] s0 = (.ok true, t', n') ∧ WForm.After djangoNow someEdits webForm none pageDoc n' ∧
      (fieldVal (pageModel.fs (0 : Fin 4)) n').map (pageModel.show_ (0 : Fin 4)) = .ok (.str c%"New") ∧
      (fieldVal (pageModel.fs (3 : Fin 4)) n').map (pageModel.show_ (3 : Fin 4)) = .ok (.other (.bool false)) := by
  have hstr : ∀ (xp : Str) (e : Expr) (p : List Step) (s : Str), xmlOk s = true → (strField xp e p).Keeps (some s : Option Str) :=
    fun xp e p s h => C69_keeps_string _ _ _ _ (fun u hu => by cases hu; exact h)
  have hnone : ∀ (xp : Str) (e : Expr) (p : List Step), (strField xp e p).Keeps (none : Option Str) :=
    fun xp e p => C69_keeps_string _ _ _ _ (fun u hu => by cases hu)
  have hall : WForm.All (fun o n x f i => Readable o n x f i ∧ Acceptable djangoNow someEdits o n x f i ∧ ValidInput djangoNow someEdits o n x f i) webForm none pageDoc :=
    webForm_all
      (acceptable_of (some c%"old" : Option Str) (.str c%"New") (by rfl) (by rfl) ⟨_, rfl, hstr _ _ _ _ (by decide)⟩)
      (acceptable_of (none : Option Str) (.str []) (by rfl) (by rfl) ⟨_, rfl, hnone _ _ _⟩)
      (acceptable_of (none : Option Int) .null (by rfl) (by rfl) ⟨(none : Option Int), rfl, C69_keeps_integer xpathNumber xpathNumber_ok _ _ _ _ (fun n hn => by cases hn)⟩)
      (acceptable_of (some true : Option Bool) (.other (.bool false)) (by rfl) (by rfl) ⟨(some false : Option Bool), rfl, C69_keeps_boolean _ _ (by decide) (fun x hx => by cases hx) _ _ _ _⟩)
      (acceptable_of (none : Option Str) (.str c%"Doe") (by rfl) (by rfl) ⟨_, rfl, hstr _ _ _ _ (by decide)⟩)
      (acceptable_of (none : Option Str) (.str []) (by rfl) (by rfl) ⟨_, rfl, hnone _ _ _⟩)
      (acceptable_of (none : Option Str) (.str []) (by rfl) (by rfl) ⟨_, rfl, hnone _ _ _⟩)
  obtain ⟨page, s1, h1, s0, r, t', n', h2, h3, h4, h5⟩ := C94_cycle (dj := djangoNow) refEngine_ok webForm none webForm_ok webForm_named webForm_fields [] pageDoc pageDoc rfl webForm_fits
    (WForm.All.imp (fun _ _ _ _ _ h => h.1) _ _ hall) someEdits (WForm.All.imp (fun _ _ _ _ _ h => h.2.1) _ _ hall)
  obtain rfl := h5 (WForm.All.imp (fun _ _ _ _ _ h => h.2.2) _ _ hall) ⟨fun _ => rfl, ⟨fun _ => rfl, ⟨fun _ => rfl, trivial⟩, trivial⟩, ⟨fun _ => rfl, trivial⟩, trivial⟩
  have ha := (h4 rfl).2
  refine ⟨page, s1, h1, s0, t', n', h2, h3, ha, ?_, ?_⟩
  · obtain ⟨c, ⟨v, hv, hc⟩, hr⟩ := ha.1 c%"title" ⟨.char, [], true⟩ (0 : Fin 4) (by simp) rfl
    obtain rfl : v = (some c%"old" : Option Str) := Except.ok.inj (hv.symm.trans (show _ = Except.ok (some c%"old" : Option Str) by rfl))
    obtain rfl : c = .str c%"New" := (Option.some.inj hc).symm
    exact hr
  · obtain ⟨c, ⟨v, hv, hc⟩, hr⟩ := ha.1 c%"done" ⟨.boolean, [], false⟩ (3 : Fin 4) (by simp) rfl
    obtain rfl : c = .other (.bool false) := (Option.some.inj hc).symm
    exact hr

/-- An input that is not valid: the title is required. -/
example : ∃ page s1, showForm refEngine webForm none [] pageDoc = (.ok page, s1) ∧
    ∃ s0 t' n', initTree refEngine (bindForm djangoNow (submission (fun x => if x = c%"title" then some (some c%"  ") else none) page) webForm none) [] pageDoc = (.ok (), s0) ∧
      validTree refEngine (bindForm djangoNow (submission (fun x => if x = c%"title" then some (some c%"  ") else none) page) webForm none) [] s0 = (.ok false, t', n') := by
  have hnone : ∀ (xp : Str) (e : Expr) (p : List Step), (strField xp e p).Keeps (none : Option Str) :=
    fun xp e p => C69_keeps_string _ _ _ _ (fun u hu => by cases hu)
  let ed : Str → Option (Option Str) := fun x => if x = c%"title" then some (some c%"  ") else none
  have htitle : ∀ c, ¬ Cleaned djangoNow ed (FTree.own (WForm.bare webForm)) pageDoc c%"title" ⟨.char, [], true⟩ (0 : Fin 4) c := by
    rintro c ⟨v, hv, hc⟩
    have : (none : Option (CVal Plain2)) = some c := hc
    cases this
  have hall : WForm.All (fun o n x f i => Readable o n x f i ∧ Acceptable djangoNow ed o n x f i) webForm none pageDoc := by
    have h := fun {o n x f i} (h : Readable o n x f i ∧ Acceptable djangoNow ed o n x f i ∧ ValidInput djangoNow ed o n x f i) => And.intro h.1 h.2.1
    exact webForm_all ⟨⟨(some c%"old" : Option Str), by rfl⟩, fun c hc => absurd hc (htitle c)⟩
      (h (acceptable_of (none : Option Str) (.str []) (by rfl) (by rfl) ⟨_, rfl, hnone _ _ _⟩))
      (h (acceptable_of (none : Option Int) .null (by rfl) (by rfl) ⟨(none : Option Int), rfl, C69_keeps_integer xpathNumber xpathNumber_ok _ _ _ _ (fun n hn => by cases hn)⟩))
      (h (acceptable_of (some true : Option Bool) (.other (.bool true)) (by rfl) (by rfl) ⟨(some true : Option Bool), rfl, C69_keeps_boolean _ _ (by decide) (fun x hx => by cases hx) _ _ _ _⟩))
      (h (acceptable_of (none : Option Str) (.str []) (by rfl) (by rfl) ⟨_, rfl, hnone _ _ _⟩))
      (h (acceptable_of (none : Option Str) (.str []) (by rfl) (by rfl) ⟨_, rfl, hnone _ _ _⟩))
      (h (acceptable_of (none : Option Str) (.str []) (by rfl) (by rfl) ⟨_, rfl, hnone _ _ _⟩))
  obtain ⟨page, s1, h1, s0, t', n', h2, h3, -⟩ := C94_invalid (dj := djangoNow) refEngine_ok webForm none webForm_ok webForm_named webForm_fields [] pageDoc pageDoc rfl webForm_fits
    (WForm.All.imp (fun _ _ _ _ _ h => h.1) _ _ hall) ed (WForm.All.imp (fun _ _ _ _ _ h => h.2) _ _ hall)
    (fun h => by obtain ⟨c, hc⟩ := h.1 c%"title" ⟨.char, [], true⟩ (0 : Fin 4) (by simp) rfl; exact htitle c hc)
  exact ⟨page, s1, h1, s0, t', n', h2, h3⟩

/-- A box that must be ticked makes the form invalid if it is not, and a required integer or date if it is empty. -/
example : ∀ dj : Django, cleans dj ⟨.boolean, [], true⟩ none = none ∧ cleans dj ⟨.boolean, [], true⟩ (some c%"false") = none ∧ cleans dj ⟨.boolean, [], true⟩ (some c%"on") = some (.other (.bool true)) ∧
    cleans dj ⟨.integer, [], true⟩ (some []) = none ∧ cleans dj ⟨.date, [], true⟩ none = none := by
  intro dj
  exact ⟨rfl, rfl, rfl, rfl, rfl⟩

/-! ### what does not come back -/

/-- A class with one BooleanField (`@done`, "yes", "no"). -/
def flagModel : FormModel Plain2 where
  ι := Unit
  name := fun _ => c%"done"
  look := fun y => if y = c%"done" then some () else none
  look_iff := by
    intro i y
    by_cases h : y = c%"done"
    · subst h; simp
    · simp [h, Ne.symm h]
  fs := fun _ => boolField c%"yes" (some c%"no") c%"@done" (ast c%"@done") [.attr ⟨none, c%"done"⟩]
  show_ := fun _ (v : Option Bool) => match v with | none => .null | some b => .other (.bool b)
  take := fun _ c => match c with | .other (.bool b) => some (some b : Option Bool) | _ => none
  take_show := by
    intro i c v h
    match c with
    | .null => cases h
    | .other (.bool n) => cases h; rfl
    | .str _ => cases h
    | .other (.int _) => cases h
    | .other (.date _) => cases h

/-- A class with one DateField (`@day`). -/
def dayModel : FormModel Plain2 where
  ι := Unit
  name := fun _ => c%"day"
  look := fun y => if y = c%"day" then some () else none
  look_iff := by
    intro i y
    by_cases h : y = c%"day"
    · subst h; simp
    · simp [h, Ne.symm h]
  fs := fun _ => dateField c%"@day" (ast c%"@day") [.attr ⟨none, c%"day"⟩]
  show_ := fun _ (v : Option DateTime) => match v with | none => .null | some b => .other (.date b)
  take := fun _ c => match c with | .null => some (none : Option DateTime) | .other (.date b) => some (some b : Option DateTime) | _ => none
  take_show := by
    intro i c v h
    match c with
    | .null => cases h; rfl
    | .other (.bool n) => cases h
    | .str _ => cases h
    | .other (.int _) => cases h
    | .other (.date _) => cases h; rfl

/-- The form is shown, sent back untouched, made again and validated: what has been sent, the result, and the document. -/
def roundTrip (w : WForm) (n : Node) : Except PyErr (Dict Str Str × Except PyErr Bool × Node) := match showForm refEngine w none [] n with
  | (.error e, _) => .error e
  | (.ok page, _) => match initTree refEngine (bindForm djangoNow (submission untouched page) w none) [] n with
    | (.error e, _) => .error e
    | (.ok _, s0) => match validTree refEngine (bindForm djangoNow (submission untouched page) w none) [] s0 with
      | (r, _, s) => .ok (submission untouched page, r, s)

/-- C94 needs `GivesBack`.  A flag that is not in the document is shown without a tick; if the form is sent back untouched, the flag is there and False. -/
theorem C94_counterexample_unset_boolean :
    roundTrip (.mk (webOwn flagModel c%"done") [(c%"done", ⟨.boolean, [], false⟩)] .nil) bare = .ok ([], .ok true, .mk (.elem ⟨none, c%"r"⟩) [(⟨none, c%"done"⟩, c%"no")] none [] none) := by decide +kernel

/-- A text that is not among the choices is replaced by the first choice. -/
theorem C94_counterexample_choice :
    roundTrip (.mk (webOwn (oneModel c%"x") c%"x") [(c%"x", ⟨.choice, [c%"a", c%"b"], false⟩)] .nil) (bare.withChildren [.mk (.elem ⟨none, c%"x"⟩) [] (some c%"other") [] none]) =
      .ok ([(c%"x", c%"a")], .ok true, bare.withChildren [.mk (.elem ⟨none, c%"x"⟩) [] (some c%"a") [] none]) := by decide +kernel

/-- Line breaks, and white space at the ends, are lost. -/
theorem C94_counterexample_white_space :
    roundTrip (.mk (webOwn (oneModel c%"x") c%"x") [(c%"x", ⟨.char, [], false⟩)] .nil) (bare.withChildren [.mk (.elem ⟨none, c%"x"⟩) [] (some c%" one\ntwo") [] none]) =
      .ok ([(c%"x", c%" onetwo")], .ok true, bare.withChildren [.mk (.elem ⟨none, c%"x"⟩) [] (some c%"onetwo") [] none]) := by decide +kernel

/-- A date that is not in the document, and not required: the form cannot be saved (AttributeError). -/
theorem C94_counterexample_no_date :
    roundTrip (.mk (webOwn dayModel c%"day") [(c%"day", ⟨.date, [], false⟩)] .nil) bare = .ok ([(c%"day", [])], .error .attributeError, bare) := by decide +kernel

/-- A flag of an object that is not there: the object is there if the form is sent back untouched. -/
theorem C94_counterexample_flag_of_nothing :
    roundTrip (.mk (webOwn (oneModel c%"x") c%"x") [] (.cons c%"sub" (oneHop c%"sub") (.mk (webOwn flagModel c%"done") [(c%"done", ⟨.boolean, [], false⟩)] .nil) .nil)) bare =
      .ok ([], .ok true, bare.withChildren [.mk (.elem ⟨none, c%"sub"⟩) [(⟨none, c%"done"⟩, c%"no")] none [] none]) := by decide +kernel

end Props
