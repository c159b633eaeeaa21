import Verif.Spec.SimplePath
/-
A reference XPath engine for the fragment, used to show that the hypothesis `EngineOk` can be met and to evaluate concrete
cases.
-/
namespace Spec
open Xml XPath

/-- Evaluates paths and comparisons of the fragment, and rejects everything else. -/
def refEngine : Engine where
  xpath s doc a ctx := match parse0 s, doc.get a with
    | .ok e, some n => match res ctx e with
      | some (p, none) => .ok (.nodes ((Step.matches p n).map (Ref.under a)))
      | some (p, some v) => match toPred p (some v) with
        | some q => .ok (.bool (q.sat n))
        | none => .error .xpathError
      | none => .error .xpathError
    | _, _ => .error .xpathError

theorem refEngine_ok : EngineOk refEngine where
  path := by
    intro ctx s e p doc n a hp hr hn
    simp only [refEngine, hp, hn]
    unfold resPath at hr
    split at hr <;> simp at hr
    rename_i p' h
    subst hr
    rw [h]
  cmp := by
    intro ctx s e p v q doc n a hp hr hq hn
    simp only [refEngine, hp, hn, hr, hq]

end Spec
