import Verif.Props.MeshRings
import Mathlib.Analysis.SpecialFunctions.Trigonometric.Inverse

/-! C384: how far out the vertices of the pedal-curve method are. -/

namespace Welleng.Props

open Real Welleng Mesh

/-- The variance in the direction of `w`, across the well, for the variances `hh` on the high side
and `ll` on the lateral axis and their covariance `hl`. -/
noncomputable def varianceToward (hh hl ll : ℝ) (w : Fin 3 → ℝ) : ℝ :=
  (hh * w 0 ^ 2 + 2 * hl * (w 0 * w 1) + ll * w 1 ^ 2) / (w 0 ^ 2 + w 1 ^ 2)

theorem pedal_denominator {h l : ℝ} (hh : 0 < h) (hl : 0 < l) (t : ℝ) :
    0 < l ^ 2 * cos t ^ 2 + h ^ 2 * sin t ^ 2 := by
  rcases eq_or_ne (cos t) 0 with hc | hc
  · have h1 := sin_sq_add_cos_sq t
    have h2 : sin t ^ 2 = 1 := by rw [hc] at h1; linarith
    rw [hc, h2]; positivity
  · positivity

theorem pedal_square {h l : ℝ} (hh : 0 < h) (hl : 0 < l) (t : ℝ) :
    pedalVertex h l t 0 ^ 2 + pedalVertex h l t 1 ^ 2
      = h ^ 2 * l ^ 2 / (l ^ 2 * cos t ^ 2 + h ^ 2 * sin t ^ 2) := by
  have hd := pedal_denominator hh hl t
  simp only [pedalVertex, Matrix.cons_val_zero, Matrix.cons_val_one]
  field_simp

/-- **C384** (partial) A vertex of the pedal-curve method is exactly as far out as the ellipse with
semi-axes `h` on the high side and `l` on the lateral axis reaches in the direction of the vertex,
and no point of that ellipse is further out in that direction.  So for uncorrelated high side and
lateral errors and no margins the vertex is `sigma` standard deviations out. -/
theorem C384_pedal_partial {h l : ℝ} (hh : 0 < h) (hl : 0 < l) (t : ℝ) :
    let w := pedalVertex h l t
    0 < w 0 ^ 2 + w 1 ^ 2 ∧
    w 0 ^ 2 + w 1 ^ 2 = varianceToward (h ^ 2) 0 (l ^ 2) w ∧
    (∀ u, h * cos u * w 0 + l * sin u * w 1 ≤ w 0 ^ 2 + w 1 ^ 2) ∧
    ∀ s1 s2 sigma, h = semiAxis s1 sigma 0 0 0 → l = semiAxis s2 sigma 0 0 0 →
      w 0 ^ 2 + w 1 ^ 2 = sigma ^ 2 * varianceToward (s1 ^ 2) 0 (s2 ^ 2) w := by
  intro w
  have hd := pedal_denominator hh hl t
  have hsq : w 0 ^ 2 + w 1 ^ 2 = _ := pedal_square hh hl t
  have hpos : 0 < w 0 ^ 2 + w 1 ^ 2 := by rw [hsq]; positivity
  have hnum : h ^ 2 * w 0 ^ 2 + l ^ 2 * w 1 ^ 2 = (w 0 ^ 2 + w 1 ^ 2) ^ 2 := by
    rw [hsq]
    simp only [w, pedalVertex, Matrix.cons_val_zero, Matrix.cons_val_one]
    have h1 := sin_sq_add_cos_sq t
    field_simp
    linear_combination h1
  have hv : w 0 ^ 2 + w 1 ^ 2 = varianceToward (h ^ 2) 0 (l ^ 2) w := by
    unfold varianceToward
    rw [eq_div_iff hpos.ne']
    linear_combination -hnum
  refine ⟨hpos, hv, ?_, ?_⟩
  · intro u
    have h1 := sin_sq_add_cos_sq u
    refine abs_le_of_sq_le_sq' ?_ hpos.le |>.2
    rw [← hnum]
    nlinarith [sq_nonneg (cos u * (l * w 1) - sin u * (h * w 0))]
  · intro s1 s2 sigma e1 e2
    rw [hv]
    have e1' : h = s1 * sigma := by rw [e1]; unfold semiAxis; ring
    have e2' : l = s2 * sigma := by rw [e2]; unfold semiAxis; ring
    unfold varianceToward
    rw [e1', e2']
    ring

/-- Non-vacuity: semi-axes two and one, half a radian round. -/
example : pedalVertex 2 1 (1 / 2) 0 ^ 2 + pedalVertex 2 1 (1 / 2) 1 ^ 2
    = varianceToward (2 ^ 2) 0 (1 ^ 2) (pedalVertex 2 1 (1 / 2)) :=
  (C384_pedal_partial (by norm_num) (by norm_num) _).2.1

/-- **C384** (negation) Correlated errors are not covered: the second vertex of the ring with twelve,
for standard deviations one and correlation one and no margins, is one metre out, where the standard
deviation is more than that. -/
theorem C384_correlated :
    let w := pedalVertex (semiAxis 1 1 0 0 0) (semiAxis 1 1 0 0 0) (arccos (2 / 3))
    w 0 ^ 2 + w 1 ^ 2 = 1 ∧ 1 < varianceToward 1 1 1 w := by
  intro w
  have hs : semiAxis 1 1 0 0 0 = 1 := by norm_num [semiAxis]
  have hc : cos (arccos (2 / 3)) = 2 / 3 := cos_arccos (by norm_num) (by norm_num)
  have hp : 0 < sin (arccos (2 / 3)) := by
    rw [sin_arccos]; exact sqrt_pos.2 (by norm_num)
  have h1 := sin_sq_add_cos_sq (arccos (2 / 3))
  have h0 : w 0 = 2 / 3 := by
    simp only [w, hs, pedalVertex, Matrix.cons_val_zero]
    rw [hc] at h1 ⊢
    rw [show (1 : ℝ) ^ 2 * (2 / 3) ^ 2 + 1 ^ 2 * sin (arccos (2 / 3)) ^ 2 = 1 by linarith]
    norm_num
  have h1' : w 1 = sin (arccos (2 / 3)) := by
    simp only [w, hs, pedalVertex, Matrix.cons_val_one, Matrix.cons_val_zero]
    rw [hc] at h1 ⊢
    rw [show (1 : ℝ) ^ 2 * (2 / 3) ^ 2 + 1 ^ 2 * sin (arccos (2 / 3)) ^ 2 = 1 by linarith]
    norm_num
  have hq : w 0 ^ 2 + w 1 ^ 2 = 1 := by rw [h0, h1']; rw [hc] at h1; linarith
  refine ⟨hq, ?_⟩
  unfold varianceToward
  rw [hq, div_one]
  have : 0 < w 0 * w 1 := by rw [h0, h1']; positivity
  linarith

end Welleng.Props
