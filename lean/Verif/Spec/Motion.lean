import Verif.Spec.Geometry
import Verif.Model.Angles

/-!
Rigid motions that keep the vertical: turning about a vertical axis, mirroring in a vertical plane, and
shifting, for positions `[n, e, v]`, stations and covariances.
-/

namespace Welleng.Spec

open Welleng Real

/-- A motion: an orthogonal matrix, the shift, and what the matrix does to azimuths. -/
structure Motion where
  q : M3
  shift : V3
  azi : ℝ → ℝ
  orth : q.transpose * q = 1
  dir : ∀ i a, ![(tangent i (azi a)).x, (tangent i (azi a)).y, (tangent i (azi a)).z]
    = q.mulVec ![(tangent i a).x, (tangent i a).y, (tangent i a).z]

namespace Motion

/-- The linear part. -/
def lin (m : Motion) (p : V3) : V3 :=
  ⟨m.q 0 0 * p.x + m.q 0 1 * p.y + m.q 0 2 * p.z,
   m.q 1 0 * p.x + m.q 1 1 * p.y + m.q 1 2 * p.z,
   m.q 2 0 * p.x + m.q 2 1 * p.y + m.q 2 2 * p.z⟩

/-- A moved point. -/
def point (m : Motion) (p : V3) : V3 := m.lin p + m.shift

/-- A moved station: the same depth and inclination. -/
def station (m : Motion) (s : Station) : Station := ⟨s.md, s.inc, m.azi s.azi⟩

/-- A moved covariance. -/
def cov (m : Motion) (c : M3) : M3 := m.q * c * m.q.transpose

/-- A shift. -/
def shifting (v : V3) : Motion where
  q := 1
  shift := v
  azi := id
  orth := by simp
  dir i a := by simp

/-- A turn by `θ` about the vertical through the origin, and a shift. -/
noncomputable def turning (θ : ℝ) (v : V3) : Motion where
  q := !![cos θ, -sin θ, 0; sin θ, cos θ, 0; 0, 0, 1]
  shift := v
  azi a := a + θ
  orth := by
    have h := sin_sq_add_cos_sq θ
    ext i j
    fin_cases i <;> fin_cases j <;> simp [Matrix.mul_apply, Fin.sum_univ_three] <;>
      first | linear_combination h | ring
  dir i a := by
    funext j
    fin_cases j <;> simp [tangent, Matrix.mulVec, dotProduct, Fin.sum_univ_three, cos_add, sin_add] <;> ring

/-- A reflection in the vertical plane through north, and a shift. -/
def mirroring (v : V3) : Motion where
  q := !![1, 0, 0; 0, -1, 0; 0, 0, 1]
  shift := v
  azi a := -a
  orth := by
    ext i j
    fin_cases i <;> fin_cases j <;> simp [Matrix.mul_apply, Fin.sum_univ_three]
  dir i a := by
    funext j
    fin_cases j <;> simp [tangent, Matrix.mulVec, dotProduct, Fin.sum_univ_three]

end Motion

end Welleng.Spec
