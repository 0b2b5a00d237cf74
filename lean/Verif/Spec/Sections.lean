import Verif.Spec.Geometry
import Verif.Model.MinCurve
import Verif.Model.Sections

/-!
When a stretch of a survey is one circular arc or straight line, independent of the code.
-/

namespace Welleng.Spec

/-- The stations `a … b` have the directions of one circular curve (of less than half a turn). -/
def OnArc (st : ℕ → Station) (a b : ℕ) : Prop :=
  ∃ (γ τ ν : ℝ → V3) (κ : ℝ), CircularCurve γ τ ν κ ∧ 0 ≤ κ ∧
    κ * ((st b).md - (st a).md) < Real.pi ∧
    ∀ k, a ≤ k → k ≤ b → τ ((st k).md - (st a).md) = tangent (st k).inc (st k).azi

/-- The intervals before and after station `k` continue each other: both are straight, or the
normals of their planes agree in each component within the tolerances; if severities are compared
too, they agree after rounding. -/
def Continues (rtol atol : ℝ) (dlsCont : Bool) (around : ℝ → ℝ) (sv : ℕ → Sec.Row) (k : ℕ) : Prop :=
  (match Sec.normal (sv (k - 1)).st (sv k).st, Sec.normal (sv k).st (sv (k + 1)).st with
    | none, none => True
    | some a, some b => |a.x - b.x| ≤ atol + rtol * |b.x| ∧ |a.y - b.y| ≤ atol + rtol * |b.y| ∧
        |a.z - b.z| ≤ atol + rtol * |b.z|
    | _, _ => False) ∧
  (dlsCont = true → around (sv k).dls = around (sv (k + 1)).dls)

end Welleng.Spec
