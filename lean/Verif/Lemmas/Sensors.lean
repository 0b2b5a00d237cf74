import Verif.Spec.Sensors
import Mathlib.Tactic.LinearCombination
import Mathlib.Tactic.FieldSimp
import Mathlib.Tactic.Positivity
import Mathlib.Analysis.SpecialFunctions.Trigonometric.InverseDeriv

/-!
Sensitivities of the survey equations.
-/

namespace Welleng.Spec

open Real Filter Topology

/-- The derivatives of any differentiable solution of the survey equations along a differentiable
path of readings that starts at the nominal ones. -/
theorem sens_core {G B d I A t : ℝ} (hG : 0 < G) (hI : sin I ≠ 0) (hB : B ≠ 0) (hd : cos d ≠ 0)
    {gx gy gz mx my mz fI fA : ℝ → ℝ} {ux uy uz vx vy vz dI dA : ℝ}
    (hgx : HasDerivAt gx ux 0) (hgy : HasDerivAt gy uy 0) (hgz : HasDerivAt gz uz 0)
    (hmx : HasDerivAt mx vx 0) (hmy : HasDerivAt my vy 0) (hmz : HasDerivAt mz vz 0)
    (h0 : (⟨gx 0, gy 0, gz 0, mx 0, my 0, mz 0⟩ : Readings) = nominal G B d I A t)
    (hfI : HasDerivAt fI dI 0) (hfA : HasDerivAt fA dA 0) (hI0 : fI 0 = I) (hA0 : fA 0 = A)
    (hs : ∀ᶠ x in 𝓝 0, Solves ⟨gx x, gy x, gz x, mx x, my x, mz x⟩ (fI x) (fA x)) :
    dI = -(cos I * (sin t * ux + cos t * uy) + sin I * uz) / G ∧
    dA = (tan d * sin A * (cos I * (sin t * ux + cos t * uy) + sin I * uz)
        + (cos I / sin I - tan d * cos A) * (cos t * ux - sin t * uy)) / G
      + (-cos I * sin A * (sin t * vx + cos t * vy) + cos A * (cos t * vx - sin t * vy)
        - sin I * sin A * vz) / (B * cos d) := by
  simp only [nominal, Readings.mk.injEq] at h0
  obtain ⟨ex, ey, ez, fx, fy, fz⟩ := h0
  have hi := sin_sq_add_cos_sq I
  have ha := sin_sq_add_cos_sq A
  have ht := sin_sq_add_cos_sq t
  -- the size of the gravity vector
  have hg0 : √(gx 0 ^ 2 + gy 0 ^ 2 + gz 0 ^ 2) = G := by
    rw [ex, ey, ez, show (-(G * sin I * sin t)) ^ 2 + (-(G * sin I * cos t)) ^ 2 + (G * cos I) ^ 2
      = G ^ 2 by linear_combination (G ^ 2 * sin I ^ 2) * ht + G ^ 2 * hi]
    exact sqrt_sq hG.le
  have hne : gx 0 ^ 2 + gy 0 ^ 2 + gz 0 ^ 2 ≠ 0 := by
    intro h; rw [h, sqrt_zero] at hg0; exact hG.ne hg0
  have dg : HasDerivAt (fun x => √(gx x ^ 2 + gy x ^ 2 + gz x ^ 2))
      (-sin I * (sin t * ux + cos t * uy) + cos I * uz) 0 := by
    refine ((((hgx.pow 2).add (hgy.pow 2)).add (hgz.pow 2)).sqrt hne).congr_deriv ?_
    simp only [Pi.add_apply, Pi.pow_apply]
    rw [hg0, ex, ey, ez, div_eq_iff (by positivity)]
    push_cast
    ring
  -- first equation
  have e1 := (dg.mul hfI.cos).congr_of_eventuallyEq (hs.mono fun x hx => hx.1)
  have q1 := hgz.unique e1
  simp only [hg0, hI0] at q1
  have r1 : dI = -(cos I * (sin t * ux + cos t * uy) + sin I * uz) / G := by
    rw [eq_div_iff hG.ne']
    apply mul_left_cancel₀ hI
    linear_combination q1 + uz * hi
  refine ⟨r1, ?_⟩
  -- second equation
  have dN := ((((hgx.mul hmy).sub (hgy.mul hmx)).mul dg).mul hfA.cos)
  have dD := (((hmz.mul ((hgx.pow 2).add (hgy.pow 2))).sub
    (hgz.mul ((hgx.mul hmx).add (hgy.mul hmy)))).mul hfA.sin)
  have e2 := dD.congr_of_eventuallyEq (hs.mono fun x hx => hx.2)
  have q2 := dN.unique e2
  simp only [Pi.mul_apply, Pi.add_apply, Pi.sub_apply, Pi.pow_apply, hg0, hA0] at q2
  obtain ⟨P, hP⟩ : ∃ P, P = B * (cos d * cos I * cos A - sin d * sin I) := ⟨_, rfl⟩
  obtain ⟨Q, hQ⟩ : ∃ Q, Q = B * (cos d * sin A) := ⟨_, rfl⟩
  have fx' : mx 0 = P * sin t + Q * cos t := by rw [fx, hP, hQ]; ring
  have fy' : my 0 = P * cos t - Q * sin t := by rw [fy, hP, hQ]; ring
  -- combinations that do not depend on the toolface
  have c0 : gx 0 * my 0 - gy 0 * mx 0 = G * sin I * Q := by
    rw [ex, ey, fx', fy']; linear_combination (G * sin I * Q) * ht
  have c1 : ux * my 0 + gx 0 * vy - (uy * mx 0 + gy 0 * vx)
      = -(sin t * ux + cos t * uy) * Q + (cos t * ux - sin t * uy) * P
        + G * sin I * (cos t * vx - sin t * vy) := by
    rw [ex, ey, fx', fy']; ring
  have p0 : gx 0 ^ 2 + gy 0 ^ 2 = G ^ 2 * sin I ^ 2 := by
    rw [ex, ey]; linear_combination (G ^ 2 * sin I ^ 2) * ht
  have p1 : 2 * gx 0 * ux + 2 * gy 0 * uy = -2 * G * sin I * (sin t * ux + cos t * uy) := by
    rw [ex, ey]; ring
  have d0 : gx 0 * mx 0 + gy 0 * my 0 = -G * sin I * P := by
    rw [ex, ey, fx', fy']; linear_combination (-G * sin I * P) * ht
  have d1 : ux * mx 0 + gx 0 * vx + (uy * my 0 + gy 0 * vy)
      = (sin t * ux + cos t * uy) * P + (cos t * ux - sin t * uy) * Q
        - G * sin I * (sin t * vx + cos t * vy) := by
    rw [ex, ey, fx', fy']; ring
  obtain ⟨a, ha'⟩ : ∃ a, a = sin t * ux + cos t * uy := ⟨_, rfl⟩
  obtain ⟨b, hb'⟩ : ∃ b, b = cos t * ux - sin t * uy := ⟨_, rfl⟩
  obtain ⟨m, hm'⟩ : ∃ m, m = sin t * vx + cos t * vy := ⟨_, rfl⟩
  obtain ⟨l, hl'⟩ : ∃ l, l = cos t * vx - sin t * vy := ⟨_, rfl⟩
  rw [← ha', ← hb', ← hl'] at c1
  rw [← ha'] at p1
  rw [← ha', ← hb', ← hm'] at d1
  rw [← ha', ← hb', ← hm', ← hl']
  rw [← ha'] at q2
  have q3 : ((-a * Q + b * P + G * sin I * l) * G + G * sin I * Q * (-sin I * a + cos I * uz)) * cos A
      + G * sin I * Q * G * (-sin A * dA)
      = (vz * (G ^ 2 * sin I ^ 2) + mz 0 * (-2 * G * sin I * a) - (uz * (-G * sin I * P)
        + G * cos I * (a * P + b * Q - G * sin I * m))) * sin A
      + (mz 0 * (G ^ 2 * sin I ^ 2) - G * cos I * (-G * sin I * P)) * (cos A * dA) := by
    rw [← c1, ← c0, ← p0, ← p1, ← d0, ← d1, ← ez]
    push_cast at q2
    linear_combination q2
  rw [fz, hP, hQ] at q3
  have hK : G ^ 2 * sin I * B * cos d ≠ 0 := by
    have := hG.ne'; positivity
  apply mul_right_cancel₀ hK
  have target : ((tan d * sin A * (cos I * a + sin I * uz) + (cos I / sin I - tan d * cos A) * b) / G
      + (-cos I * sin A * m + cos A * l - sin I * sin A * vz) / (B * cos d))
        * (G ^ 2 * sin I * B * cos d)
      = G * sin I * B * (sin d * sin A * (cos I * a + sin I * uz))
        + G * B * (cos I * cos d - sin I * sin d * cos A) * b
        + G ^ 2 * sin I * (-cos I * sin A * m + cos A * l - sin I * sin A * vz) := by
    rw [tan_eq_sin_div_cos]
    have := hG.ne'
    field_simp
  rw [target]
  linear_combination (-1 : ℝ) * q3 + (G * B * cos d * cos I * b - G ^ 2 * sin I * B * cos d * dA) * ha
    + (G * B * sin A * cos d * cos A * a - G ^ 2 * sin I * B * cos d * cos A ^ 2 * dA) * hi

end Welleng.Spec
