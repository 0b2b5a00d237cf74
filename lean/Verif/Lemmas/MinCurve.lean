import Verif.Model.MinCurve
import Verif.Spec.Geometry
import Verif.Lemmas.Vec

namespace Welleng

open Real Spec

theorem sin_sq_half (x : ℝ) : sin (x / 2) ^ 2 = (1 - cos x) / 2 := by
  have h := cos_sq (x / 2)
  have h2 : 2 * (x / 2) = x := by ring
  rw [h2] at h
  have := sin_sq_add_cos_sq (x / 2)
  linarith

theorem tangent_unit (i a : ℝ) : (tangent i a).IsUnit := by
  simp only [V3.IsUnit, V3.dot, tangent]
  have h1 := sin_sq_add_cos_sq i
  have h2 := sin_sq_add_cos_sq a
  linear_combination h1 + sin i ^ 2 * h2

theorem tangent_dot (i1 a1 i2 a2 : ℝ) :
    V3.dot (tangent i1 a1) (tangent i2 a2)
      = sin i1 * sin i2 * cos (a2 - a1) + cos i1 * cos i2 := by
  simp only [V3.dot, tangent, cos_sub]; ring

/-- The quantity under the square root in `get_dogleg`. -/
theorem dogleg_arg (i1 a1 i2 a2 : ℝ) :
    sin ((i2 - i1) / 2) ^ 2 + sin i1 * sin i2 * sin ((a2 - a1) / 2) ^ 2
      = (1 - V3.dot (tangent i1 a1) (tangent i2 a2)) / 2 := by
  rw [sin_sq_half, sin_sq_half, tangent_dot, cos_sub i2 i1]; ring

theorem unit_dot_le {a b : V3} (ha : a.IsUnit) (hb : b.IsUnit) : V3.dot a b ≤ 1 := by
  have h := V3.dot_sq_le a b
  rw [ha, hb] at h
  nlinarith

theorem unit_dot_ge {a b : V3} (ha : a.IsUnit) (hb : b.IsUnit) : -1 ≤ V3.dot a b := by
  have h := V3.dot_sq_le a b
  rw [ha, hb] at h
  nlinarith

theorem dogleg_arg_mem (i1 a1 i2 a2 : ℝ) :
    0 ≤ sin ((i2 - i1) / 2) ^ 2 + sin i1 * sin i2 * sin ((a2 - a1) / 2) ^ 2 ∧
    sin ((i2 - i1) / 2) ^ 2 + sin i1 * sin i2 * sin ((a2 - a1) / 2) ^ 2 ≤ 1 := by
  rw [dogleg_arg]
  have h1 := unit_dot_le (tangent_unit i1 a1) (tangent_unit i2 a2)
  have h2 := unit_dot_ge (tangent_unit i1 a1) (tangent_unit i2 a2)
  constructor <;> linarith

theorem getDogleg_nonneg (i1 a1 i2 a2 : ℝ) : 0 ≤ getDogleg i1 a1 i2 a2 := by
  unfold getDogleg
  have := arcsin_nonneg.mpr (sqrt_nonneg
    (sin ((i2 - i1) / 2) ^ 2 + sin i1 * sin i2 * sin ((a2 - a1) / 2) ^ 2))
  linarith

theorem getDogleg_le_pi (i1 a1 i2 a2 : ℝ) : getDogleg i1 a1 i2 a2 ≤ π := by
  unfold getDogleg
  have := arcsin_le_pi_div_two (√
    (sin ((i2 - i1) / 2) ^ 2 + sin i1 * sin i2 * sin ((a2 - a1) / 2) ^ 2))
  linarith

theorem sin_half_dogleg (i1 a1 i2 a2 : ℝ) :
    sin (getDogleg i1 a1 i2 a2 / 2)
      = √((1 - V3.dot (tangent i1 a1) (tangent i2 a2)) / 2) := by
  have hm := dogleg_arg_mem i1 a1 i2 a2
  unfold getDogleg
  rw [mul_div_cancel_left₀ _ (two_ne_zero), sin_arcsin, dogleg_arg]
  · linarith [sqrt_nonneg
      (sin ((i2 - i1) / 2) ^ 2 + sin i1 * sin i2 * sin ((a2 - a1) / 2) ^ 2)]
  · exact sqrt_le_one.mpr hm.2

theorem cos_getDogleg (i1 a1 i2 a2 : ℝ) :
    cos (getDogleg i1 a1 i2 a2) = V3.dot (tangent i1 a1) (tangent i2 a2) := by
  have h := sin_sq_half (getDogleg i1 a1 i2 a2)
  rw [sin_half_dogleg, sq_sqrt] at h
  · linarith
  · have := dogleg_arg_mem i1 a1 i2 a2
    rw [dogleg_arg] at this; exact this.1

/-- The dogleg is determined by the cosine. -/
theorem getDogleg_eq_arccos (i1 a1 i2 a2 : ℝ) :
    getDogleg i1 a1 i2 a2 = arccos (V3.dot (tangent i1 a1) (tangent i2 a2)) := by
  rw [← cos_getDogleg, arccos_cos (getDogleg_nonneg ..) (getDogleg_le_pi ..)]

theorem minCurveStepRf_eq (dm i1 a1 i2 a2 rf : ℝ) :
    minCurveStepRf dm i1 a1 i2 a2 rf = (dm * rf / 2) • (tangent i1 a1 + tangent i2 a2) := by
  ext <;> simp [minCurveStepRf, tangent] <;> ring

theorem norm_add_unit {a b : V3} (ha : a.IsUnit) (hb : b.IsUnit) {d : ℝ} (h0 : 0 ≤ d)
    (h1 : d ≤ π) (h : cos d = V3.dot a b) : V3.norm (a + b) = 2 * cos (d / 2) := by
  unfold V3.norm
  have hc : 0 ≤ cos (d / 2) := cos_nonneg_of_mem_Icc ⟨by linarith [pi_pos], by linarith⟩
  have : V3.dot (a + b) (a + b) = (2 * cos (d / 2)) ^ 2 := by
    have hs := cos_sq (d / 2)
    rw [show 2 * (d / 2) = d by ring] at hs
    rw [V3.dot_add_left, V3.dot_add_right, V3.dot_add_right, V3.dot_comm b a, ha, hb, ← h,
      mul_pow, hs]; ring
  rw [this, sqrt_sq (by linarith)]

end Welleng
