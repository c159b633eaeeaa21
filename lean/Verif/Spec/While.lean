import Verif.XmlMap.Fields
/-
Python's `while`.
-/
namespace Spec
open Fields Xml

/-- `while test(): body()` on a document: `While test body s r s' k` says that the loop, started on `s`, ends after `k` times `body` with the result `r` (an exception of the test or the body, or none) and the document `s'`. -/
inductive While (test : M Bool) (body : M Unit) : Node → Except PyErr Unit → Node → Nat → Prop
  /-- The test is false. -/
  | stop {s s'} : test s = (.ok false, s') → While test body s (.ok ()) s' 0
  /-- The test raises. -/
  | testRaises {s s' er} : test s = (.error er, s') → While test body s (.error er) s' 0
  /-- The body raises. -/
  | bodyRaises {s s1 s' er} : test s = (.ok true, s1) → body s1 = (.error er, s') → While test body s (.error er) s' 1
  /-- Another round. -/
  | again {s s1 s2 s' r k} : test s = (.ok true, s1) → body s1 = (.ok (), s2) → While test body s2 r s' k → While test body s r s' (k + 1)

end Spec
