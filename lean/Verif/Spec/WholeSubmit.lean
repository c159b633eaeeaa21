import Verif.Forms.WholeSubmit
import Verif.Spec.SetSubmit
import Verif.Spec.Whole
import Verif.Props.Submit
/-
Specification of C103: a form with subforms and formsets is shown, edited, and sent back.

`WForm.page` (Verif/Props/Submit.lean) is the page of the form and its subforms in C94, `listPage` that of a list in C101, `setPage` that of a list of objects in C102.
-/
namespace Props
open XPath Xml Spec Fields Forms Core Py

/-- What the input for the field `x` of the member `i` shows: what the field reads; nothing for new members. -/
def setValue (w : WSet) (ms : List Node) (i : Nat) (x : Str) : CVal Plain2 := match ms[i]? with
  | none => .null
  | some m => valueOf w.own m x

/-- The page of a formset of an object with the element `n`. -/
def WebSet.page (number : Str → XNum) (pfx : Option Str) (n : Node) : WebSet → List (Str × Option Str)
  | .nodes name _ _ q ps _ w => setPage w (setPrefix pfx name) (members q ps n).length (setValue w (members q ps n))
  | .strings name _ _ q ps => listPage (setPrefix pfx name) ((members q ps n).map (fun m => strText (strView.item m)))
  | .integers name _ _ q ps => listPage (setPrefix pfx name) ((members q ps n).map (fun m => intText ((intView number).item m)))

/-- The page of the form. -/
def wholePage (number : Str → XNum) (w : WForm) (sets : List WebSet) (pfx : Option Str) (n : Node) : List (Str × Option Str) :=
  WForm.page w pfx n ++ sets.flatMap (WebSet.page number pfx n)

/-- The names of subforms and formsets are different, and the names in the forms of formsets are Python names. -/
structure WholeNamed (w : WForm) (sets : List WebSet) : Prop where
  form : PForm.Named (WForm.toPage w)
  parts : ∀ o inputs subs, w = .mk o inputs subs → (PSubs.names (WSubs.toPage subs) ++ sets.map WebSet.name).Nodup
  setNames : ∀ set ∈ sets, PyName set.name
  fields : ∀ name xp e q ps new ws, WebSet.nodes name xp e q ps new ws ∈ sets →
    (ws.inputs.map (·.1)).Nodup ∧ ∀ x ∈ ws.inputs.map (·.1), PyName x ∧ x ≠ c%"ORDER" ∧ x ≠ c%"DELETE"

section
variable [PyUnicode] (number : Str → XNum) (dj : Django) (post : Dict Str Str) (pfx : Option Str) (n : Node)

/-- The formset fits the object with the element `n`, and what it shows can be read. -/
def WebSet.Ok (ctx : Ctx) : WebSet → Prop
  | .nodes _ xp e q ps new w => SimpleField ctx xp e [.child q ps] ∧ SetFit w q ps (members q ps n) new ∧
      ∀ m ∈ members q ps n, ∀ x f j, (x, f) ∈ w.inputs → w.own.m.name j = x → ∃ v, fieldVal (w.own.m.fs j) m = .ok v
  | .strings _ xp e q ps => LField.Ok number ctx (strList ctx xp e q ps) ∧ ∀ m ∈ members q ps n, strView.fits m
  | .integers _ xp e q ps => LField.Ok number ctx (intList number ctx xp e q ps) ∧ ∀ m ∈ members q ps n, (intView number).fits m

/-- The data say how many forms there are, not too many, and for a list of objects that as many are initial ones as there are objects; and all values that have been sent can be stored. -/
def WebSet.Sent (absMax : Nat) : WebSet → Prop
  | .nodes name _ _ q ps _ w => ∃ t : Nat, Counts dj post (setPrefix pfx name) t ∧ NumberSent dj post (countName (setPrefix pfx name) c%"INITIAL_FORMS") (members q ps n).length ∧ t ≤ absMax ∧
      (members q ps n).length ≤ t ∧ SentKept dj w post (setPrefix pfx name) (members q ps n).length (setValue w (members q ps n)) t
  | .strings name _ _ _ _ => ∃ t : Int, Counts dj post (setPrefix pfx name) t ∧ t ≤ absMax ∧ ∀ i < t.toNat, xmlOk (dj.strip (sentText post (setPrefix pfx name) i)) = true
  | .integers name _ _ _ _ => ∃ t : Int, Counts dj post (setPrefix pfx name) t ∧ t ≤ absMax ∧
      ∀ i < t.toNat, ∀ x, sentText post (setPrefix pfx name) i ≠ [] → dj.int (sentText post (setPrefix pfx name) i) = some x → x.natAbs ≤ 2 ^ 53

/-- All that has been sent for the formset is valid: each form of an object that is not to be deleted, unless it is one for a new object that has been left as it was; each item of a list of integers. -/
def WebSet.Valid : WebSet → Prop
  | .nodes name _ _ q ps _ w => ∀ t : Nat, Counts dj post (setPrefix pfx name) t → ∀ i < t, ¬ DeletedForm w post (setPrefix pfx name) i →
      ¬ BlankForm dj w post (setPrefix pfx name) (members q ps n).length (setValue w (members q ps n)) i → ValidForm dj w post (setPrefix pfx name) i
  | .strings _ _ _ _ _ => True
  | .integers name _ _ _ _ => ∀ t : Int, Counts dj post (setPrefix pfx name) t → ∀ i < t.toNat,
      sentText post (setPrefix pfx name) i = [] ∨ ∃ x, dj.int (sentText post (setPrefix pfx name) i) = some x

/-- The formset has been saved; the object has now the element `n'`.  A list of strings holds the texts that have been sent, stripped, without the empty ones; a list of integers the numbers, without zeros.
A list of objects: as in C102. -/
def WebSet.After (n' : Node) : WebSet → Prop
  | .nodes name _ _ q ps new w => ∀ t : Nat, Counts dj post (setPrefix pfx name) t → ∃ saved : Nat → Node,
      (∀ i < t, ¬ BlankForm dj w post (setPrefix pfx name) (members q ps n).length (setValue w (members q ps n)) i →
        FormAfter dj w post (setPrefix pfx name) i (formElem (members q ps n) new i) (saved i)) ∧
      ∀ subs, SubmittedAs dj w post (setPrefix pfx name) (members q ps n).length (setValue w (members q ps n)) t subs →
        Apart (fun i _ => saved i) w.canDelete (members q ps n) new subs →
        (w.canOrder = false → members q ps n' = keptMembers (fun i _ => saved i) w.canDelete (members q ps n) subs ++ newMembers (fun i _ => saved i) new (members q ps n) subs) ∧
        (w.canOrder = true →
          (∀ i ∈ counting w.canDelete (members q ps n) subs, ∀ j ∈ counting w.canDelete (members q ps n) subs, j ≠ i → saved j ≠ saved i) →
          ∃ order : List Nat, order.Perm (counting w.canDelete (members q ps n) subs) ∧ order.Pairwise (OrderedBy subs) ∧
            (∀ i j d e, [i, j].Sublist (counting w.canDelete (members q ps n) subs) → subs[i]? = some d → subs[j]? = some e → d.order = e.order → [i, j].Sublist order) ∧
            members q ps n' = order.map saved)
  | .strings name _ _ q ps => ∀ t : Int, Counts dj post (setPrefix pfx name) t →
      (members q ps n').map strView.item = (((List.range t.toNat).map (fun i => dj.strip (sentText post (setPrefix pfx name) i))).filter (fun t => decide (t ≠ []))).map some
  | .integers name _ _ q ps => ∀ t : Int, Counts dj post (setPrefix pfx name) t → ∃ f : Nat → Option Int,
      (∀ i < t.toNat, (sentText post (setPrefix pfx name) i = [] ∧ f i = none) ∨
        (sentText post (setPrefix pfx name) i ≠ [] ∧ ∃ x, dj.int (sentText post (setPrefix pfx name) i) = some x ∧ f i = some x)) ∧
      (members q ps n').map (intView number).item = ((List.range t.toNat).map f).filter (fun v => decide (v ≠ none ∧ v ≠ some 0))

/-- No schema has anything against an element of the set. -/
def WebSet.NoSchema : WebSet → Prop
  | .nodes _ _ _ _ _ _ w => ∀ n, w.own.schemaValid n = true
  | _ => True

/-- The paths of the fields, NodeFields and lists have nothing to do with each other. -/
structure WebApart (w : WForm) (sets : List WebSet) : Prop where
  lists : sets.Pairwise (fun x y => Spec.Apart x.q x.ps y.q y.ps)
  tree : ∀ set ∈ sets, ∀ p, FTree.Paths (WForm.bare w) p → Part p [.child set.q set.ps]

/-- What has been sent, for each input, whatever the page was. -/
def sentData : Str → Option (Option Str) := fun x => some (post.get? x)

/-- The form has been sent (`edits` says what has been entered, as in C94) and saved: of the element `n` it has made `n'`.  Each field with an input reads the cleaned value of what has been sent, each
other field of the class, and whatever else there is, what it read before; the subforms as in C94; the formsets. -/
def WholeAfter (edits : Str → Option (Option Str)) (w : WForm) (sets : List WebSet) (n' : Node) : Prop := match w with
  | .mk o inputs subs =>
    (∀ x f i, (x, f) ∈ inputs → o.m.name i = x → ∃ c, Cleaned dj edits o n (addPrefix pfx x) f i c ∧ (fieldVal (o.m.fs i) n').map (o.m.show_ i) = .ok (stored c)) ∧
    (∀ i, o.m.name i ∉ inputs.map (·.1) → fieldVal (o.m.fs i) n' = fieldVal (o.m.fs i) n) ∧
    (∀ g ctx, g.Ok ctx → Single g.p n → (∀ p, FTree.Paths (WForm.bare (.mk o inputs subs)) p → Part p g.p) → (∀ set ∈ sets, Part [.child set.q set.ps] g.p) → fieldVal g n' = fieldVal g n) ∧
    WSubs.After dj edits subs pfx n n' ∧ ∀ set ∈ sets, WebSet.After number dj post pfx n n' set

/-- Nothing is lost by showing the list: as in C102 for objects; texts are single lines that need no stripping; numbers are not too large.  And there are not too many members. -/
def WebSet.Given (absMax : Nat) : WebSet → Prop
  | .nodes _ _ _ q ps _ w => SetGiven dj w (setValue w (members q ps n)) (members q ps n) ∧ w.count (members q ps n).length ≤ absMax
  | .strings _ _ _ q ps => (∀ m ∈ members q ps n, ∀ t, strView.item m = some t → oneLine t = t ∧ dj.strip t = t ∧ xmlOk t = true) ∧ 1000 ≤ absMax ∧ (members q ps n).length ≤ absMax
  | .integers _ _ _ q ps => (∀ m ∈ members q ps n, ∀ x, (intView number).item m = some x → x.natAbs ≤ 2 ^ 53) ∧ 1000 ≤ absMax ∧ (members q ps n).length ≤ absMax

/-- The list holds what it held: the same strings, without the empty ones; the same numbers, without zeros; objects that read alike (if the formset has an order, as far as their elements are different). -/
def WebSet.Same (n' : Node) : WebSet → Prop
  | .nodes _ _ _ q ps _ w => ∃ saved : Nat → Node, (∀ i m, (members q ps n)[i]? = some m → ReadsAlike w m (saved i)) ∧
      ((w.canOrder = true → ∀ i < (members q ps n).length, ∀ j < (members q ps n).length, j ≠ i → saved j ≠ saved i) → members q ps n' = (List.range (members q ps n).length).map saved)
  | .strings _ _ _ q ps => (members q ps n').map strView.item = ((members q ps n).map strView.item).filter (fun v => decide (v ≠ none ∧ v ≠ some []))
  | .integers _ _ _ q ps => (members q ps n').map (intView number).item = ((members q ps n).map (intView number).item).filter (fun v => decide (v ≠ none ∧ v ≠ some 0))

end

/-- The number of forms of a formset that are shown. -/
def WebSet.shown (n : Node) : WebSet → Nat
  | .nodes _ _ _ q ps _ w => w.count (members q ps n).length
  | .strings _ _ _ q ps => shownCount (members q ps n).length
  | .integers _ _ _ q ps => shownCount (members q ps n).length

end Props
