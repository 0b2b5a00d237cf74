import Verif.Spec.Geometry
import Mathlib.Data.List.Chain

/-!
Specification of the path of a well through given stations, independent of the code.  All rows are
`[north, east, vertical(down)]`.
-/

namespace Welleng.Spec

open Real

/-- From the depth `a` to the depth `b` the well, at the position `γ md` with the direction `τ md`, runs
along one circular arc (or straight) and turns by less than half a circle. -/
def OneArc (a b : ℝ) (γ τ : ℝ → V3) : Prop :=
  ∃ g t ν κ, CircularCurve g t ν κ ∧ 0 ≤ κ ∧ κ * (b - a) < π ∧
    ∀ s, a ≤ s → s ≤ b → γ s = g (s - a) ∧ τ s = t (s - a)

/-- The well through stations given by depth and direction: it starts at `p`, has the direction of
each station at its depth, the depths increase, and between neighbours it runs along one arc. -/
structure WellPath (p : V3) (st : List (ℝ × V3)) (γ τ : ℝ → V3) : Prop where
  start : ∀ s, st.head? = some s → γ s.1 = p
  dirs : ∀ s ∈ st, τ s.1 = s.2
  arcs : st.IsChain fun a b => a.1 < b.1 ∧ OneArc a.1 b.1 γ τ

end Welleng.Spec
