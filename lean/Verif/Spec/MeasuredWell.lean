import Verif.Spec.TrueWell
import Verif.Model.MinCurve

/-! A well as it was drilled together with a survey of it whose directions are not exact. -/

namespace Welleng.Spec

/-- The hole runs along `γ` from the depth `a` to the depth `b`, with curvature at most `κ`.  The rows
`st` are a survey of it from `a` to `b`: increasing depths at most `h` apart, each direction within `ε` of
that of the hole at its depth.  `D`, less than half a circle, bounds the turn of an interval, both as
measured and as the curvature allows. -/
structure MeasuredWell (γ τ : ℝ → V3) (κ a b h ε D : ℝ) (st : List Station) : Prop where
  well : TrueWell γ τ κ a b
  bent : 0 ≤ κ
  top : ∃ s, st[0]? = some s ∧ s.md = a
  bottom : ∃ s, st.getLast? = some s ∧ s.md = b
  measured : ∀ r ∈ st, V3.norm (tangent r.inc r.azi - τ r.md) ≤ ε
  spaced : st.IsChain fun p q => p.md < q.md ∧ q.md - p.md ≤ h ∧ dogleg2 p q ≤ D
  turn : κ * h ≤ 2 * Real.sin (D / 2)
  turn_nonneg : 0 ≤ D
  turn_lt : D < Real.pi

end Welleng.Spec
