import Verif.Spec.RefEngine
/-
XPath engines and the path `.`.
-/
namespace Spec
open Xml XPath

/-- XPath 1.0: `.` is the context node. -/
def SelfOk (eng : Engine) : Prop := ∀ (doc n : Node) (a : Node.Addr) (ctx : Ctx), doc.get a = some n → eng.xpath c%"." doc a ctx = .ok (.nodes [.elem a])

/-- The reference engine, with `.`. -/
def selfEngine : Engine where
  xpath s doc a ctx := if s = c%"." then .ok (.nodes [.elem a]) else refEngine.xpath s doc a ctx

theorem selfEngine_self : SelfOk selfEngine := by
  intro doc n a ctx _
  simp [selfEngine]

end Spec
