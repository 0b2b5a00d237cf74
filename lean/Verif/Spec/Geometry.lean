import Verif.Model.Vec
import Mathlib.Analysis.SpecialFunctions.Trigonometric.Deriv

/-!
Geometric specification, independent of the code: unit tangent of a well, circular
arcs, rotation about the vertical axis.  All rows are `[north, east, vertical(down)]`.
-/

namespace Welleng.Spec

open Real

/-- Unit tangent of a well with the given inclination (from vertical) and azimuth
(from north, clockwise). -/
noncomputable def tangent (inc azi : ℝ) : V3 :=
  ⟨sin inc * cos azi, sin inc * sin azi, cos inc⟩

/-- `f` has derivative `f'` at `s`, componentwise. -/
def HasDeriv (f : ℝ → V3) (f' : V3) (s : ℝ) : Prop :=
  HasDerivAt (fun u => (f u).x) f'.x s ∧
  HasDerivAt (fun u => (f u).y) f'.y s ∧
  HasDerivAt (fun u => (f u).z) f'.z s

/-- `γ` is a curve parametrised by arc length with tangent `τ`, principal normal
`ν` and constant curvature `κ` in a fixed plane (Frenet equations without torsion):
a circular arc, or a straight line if `κ = 0`. -/
structure CircularCurve (γ τ ν : ℝ → V3) (κ : ℝ) : Prop where
  deriv_pos : ∀ s, HasDeriv γ (τ s) s
  deriv_tan : ∀ s, HasDeriv τ (κ • ν s) s
  deriv_nor : ∀ s, HasDeriv ν (-(κ • τ s)) s
  unit_tan : ∀ s, (τ s).IsUnit
  unit_nor : ∀ s, (ν s).IsUnit
  ortho : ∀ s, V3.dot (τ s) (ν s) = 0

/-- Rotation of a `[n, e, v]` row about the vertical by the angle `θ`, north
turning towards east. -/
noncomputable def rotZ (θ : ℝ) (p : V3) : V3 :=
  ⟨cos θ * p.x - sin θ * p.y, sin θ * p.x + cos θ * p.y, p.z⟩

/-- A survey station: measured depth, inclination, azimuth. -/
structure Stn where
  md : ℝ
  inc : ℝ
  azi : ℝ

/-- Balanced-tangential displacement between two stations: half of the interval
along each of the two tangents. -/
noncomputable def balancedTangential (a b : Stn) : V3 :=
  ((b.md - a.md) / 2) • (tangent a.inc a.azi + tangent b.inc b.azi)

end Welleng.Spec
