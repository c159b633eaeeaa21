import Verif.XmlMap.Live
import Verif.Props.Moving
import Verif.Props.Local
/-
Property C112: objects for the items of a NodeListField stay usable while the list is changed and rearranged, in the list or outside.

Model: `liveRuns` (Verif/XmlMap/Live.lean, on the model of C109).  Specification: Verif/Spec/Live.lean.
-/
namespace Props
open XPath Xml Spec Fields

section
variable [PyUnicode] {eng : Engine} {number : Str → XNum} {ctx : Ctx} {xp : Str} {e : Expr} {q : QName} {ps : List Pred} {a : Node.Addr} {s n : Node}

/-- C112.  `items = list(obj.field)`, any new elements, and then any sequence of operations on the list and of programs (reading, assigning, deleting, list operations, see C111) through the kept objects, whether their elements are in the
list at that time or not: all results and errors are those of a shelf whose things are documents of their own; at the end each object has the element that this predicts, and the list shows those that are on the shelf, in their order.
Nothing but the list's members changes. -/
theorem C112_history {ρ : Type} (h : ListAt eng number ctx xp e q ps nodeKind (nodeView q ps) a s n) {news : List Node} (hnews : ∀ v ∈ news, isMember q ps v = true) (ops : List (LiveOp ρ))
    (hops : LiveOk q ps ((members q ps n).length + news.length) ⟨List.range (members q ps n).length, elementOf q ps n news⟩ ops) :
    ∃ pl pl' n', itemObjs eng ctx xp a news s = (.ok pl, s) ∧
      liveRuns eng ctx xp e a pl ops s = ((liveAll ⟨List.range (members q ps n).length, elementOf q ps n news⟩ ops).1, pl', s.modify a (fun _ => n')) ∧
      pl'.length = (members q ps n).length + news.length ∧
      Arranged q ps (liveAll ⟨List.range (members q ps n).length, elementOf q ps n news⟩ ops).2.val n pl' (liveAll ⟨List.range (members q ps n).length, elementOf q ps n news⟩ ops).2.order n' ∧
      readList eng ctx nodeKind xp a (s.modify a (fun _ => n')) =
        (.ok ((liveAll ⟨List.range (members q ps n).length, elementOf q ps n news⟩ ops).2.order.map (liveAll ⟨List.range (members q ps n).length, elementOf q ps n news⟩ ops).2.val), s.modify a (fun _ => n')) := by
  have h0 := itemObjs_run h news
  have hread := readList_members h
  obtain ⟨ax, t, es, rfl⟩ := res_single h.field.path
  obtain ⟨pl', n', h1, h2, h3, h4⟩ := liveRuns_run h.engine h.field.parse h.field.path (pathOk_single h.field.ok) ops (st := ⟨List.range (members q ps n).length, elementOf q ps n news⟩) h.node (shelved_start n hnews)
    (by rw [start_length]; exact hops)
  have h5 := arranged_of h3 h4
  exact ⟨_, pl', n', h0, h1, by rw [h2, start_length], h5, by rw [← h5.members]; exact hread n'⟩

end

/-! ### the hypotheses can be met -/

/-- `item.b = v`, and then the value of `item.b`, for an object with the StringField `b`. -/
def writeRead (v : Str) : Node.Addr → M (Option Str) := fun a => do
  writeStr refEngine sampleCtx v c%"b" (ast c%"b") (.elem a)
  readAs (strToPython false) refEngine sampleCtx c%"b" (ast c%"b") (.elem a)

theorem writeRead_local (v : Str) : LocalProg (fun _ v => v) (writeRead v) := by
  have h := C111_paths (eng := refEngine) refEngine_ok c%"b" (ast c%"b") _ (ctx := sampleCtx) ⟨by decide, by rfl, by decide, by decide⟩
  exact C111_histories ((C111_local h.1 h.2).2.1 _ (by intro b h; cases h)) (fun _ => (C111_local h.1 h.2).1 false _)

/-- With `items = list(obj.field)` for three items: the last is moved to the front and edited, the one that was first is taken out of the list, edited and put back at the end, and an object for a new element is edited before it is added. -/
def liveSample : List (LiveOp (Option Str)) :=
  [.list (.insert 0 2), .obj 2 (writeRead c%"x"), .list (.pop (some 1)), .obj 0 (writeRead c%"y"), .obj 3 (writeRead c%"z"), .list (.append 0), .list (.set 1 3), .obj 0 (writeRead c%"yy")]

example : ∃ pl pl' n', itemObjs refEngine sampleCtx c%"a" [] [.mk (.elem ⟨none, c%"a"⟩) [] (some c%"four") [] none] threeDoc = (.ok pl, threeDoc) ∧
    liveRuns refEngine sampleCtx c%"a" (ast c%"a") [] pl liveSample threeDoc = ((liveAll ⟨[0, 1, 2], elementOf ⟨none, c%"a"⟩ [] threeDoc [.mk (.elem ⟨none, c%"a"⟩) [] (some c%"four") [] none]⟩ liveSample).1, pl', n') ∧
    ((readList refEngine sampleCtx nodeKind c%"a" [] n').1.toOption.getD []).map (fun m => (m.text, m.children.map Node.text)) =
      [(some c%"three", [some c%"x"]), (some c%"four", [some c%"z"]), (some c%"one", [some c%"yy"])] := by
  obtain ⟨pl, pl', n', h1, h2, -, -, h5⟩ := C112_history listAt_three (news := [.mk (.elem ⟨none, c%"a"⟩) [] (some c%"four") [] none]) (by decide) liveSample (by
    refine ⟨by decide, ⟨by decide, writeRead_local _, by rfl⟩, by decide, ⟨by decide, writeRead_local _, by rfl⟩, ⟨by decide, writeRead_local _, by rfl⟩, by decide, by decide, ⟨by decide, writeRead_local _, by rfl⟩, trivial⟩)
  exact ⟨pl, pl', _, h1, h2, by rw [h5]; rfl⟩

/-- An item that is edited so that it does not fit the XPath of the list any more is no longer shown: with XPath `a[@n='1']`, after `items[0].n = '2'` the list has one item less. -/
theorem C112_counterexample_unfit :
    ∃ pl r, itemObjs refEngine sampleCtx c%"a[@n='1']" [] [] listDoc = (.ok pl, listDoc) ∧
      liveRuns refEngine sampleCtx c%"a[@n='1']" (ast c%"a[@n='1']") [] pl [.obj 0 (fun a => writeStr refEngine sampleCtx c%"2" c%"@n" (ast c%"@n") (.elem a))] listDoc = r ∧
      ((readList refEngine sampleCtx nodeKind c%"a[@n='1']" [] listDoc).1.toOption.getD []).map Node.text = [some c%"one", some c%"two"] ∧
      ((readList refEngine sampleCtx nodeKind c%"a[@n='1']" [] r.2.2).1.toOption.getD []).map Node.text = [some c%"two"] := by
  refine ⟨[.at 0, .at 3], _, by decide +kernel, rfl, by decide +kernel, by decide +kernel⟩

end Props
