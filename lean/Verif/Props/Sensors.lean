import Verif.Lemmas.Sensors
import Verif.Model.Weights
import Mathlib.Analysis.SpecialFunctions.Integrals.Basic
import Mathlib.Analysis.SpecialFunctions.Trigonometric.ArctanDeriv

/-!
C98, C99: the weighting functions of the sensor errors are the sensitivities of the computed
inclination and azimuth to the sensor readings.
-/

namespace Welleng.Props

open Real Filter Topology
open Spec Err

/-- The sensitivities of the survey with six sensors. -/
theorem sensitivity_six {G B d I A t : ℝ} (hG : 0 < G) (hI : sin I ≠ 0) (hB : B ≠ 0)
    (hd : cos d ≠ 0) (u : Readings) :
    Sensitivity G B d I A t u
      (-(cos I * (sin t * u.gx + cos t * u.gy) + sin I * u.gz) / G)
      ((tan d * sin A * (cos I * (sin t * u.gx + cos t * u.gy) + sin I * u.gz)
        + (cos I / sin I - tan d * cos A) * (cos t * u.gx - sin t * u.gy)) / G
      + (-cos I * sin A * (sin t * u.mx + cos t * u.my) + cos A * (cos t * u.mx - sin t * u.my)
        - sin I * sin A * u.mz) / (B * cos d)) := by
  intro fI fA hI0 hA0 dI dA hs
  have lin : ∀ a b : ℝ, HasDerivAt (fun x : ℝ => a + x * b) b 0 := by
    intro a b
    simpa using ((hasDerivAt_id (0 : ℝ)).mul_const b).const_add a
  exact sens_core hG hI hB hd (lin _ _) (lin _ _) (lin _ _) (lin _ _) (lin _ _) (lin _ _)
    (by simp) dI.hasDerivAt dA.hasDerivAt hI0 hA0 hs

/-- The sensitivities of the survey with axial interference correction. -/
theorem sensitivity_axial {G B d I A t : ℝ} (hG : 0 < G) (hI : sin I ≠ 0) (hB : B ≠ 0)
    (hd : cos d ≠ 0) (hF : 1 - sin I ^ 2 * sin A ^ 2 ≠ 0) (u : Readings) (b e : ℝ) {dI : ℝ}
    (hdI : dI = -(cos I * (sin t * u.gx + cos t * u.gy) + sin I * u.gz) / G) :
    SensitivityAxial G B d I A t u b e dI
      (((tan d * sin A * (cos I * (sin t * u.gx + cos t * u.gy) + sin I * u.gz)
        + (cos I / sin I - tan d * cos A) * (cos t * u.gx - sin t * u.gy)) / G
      + (-cos I * sin A * (sin t * u.mx + cos t * u.my) + cos A * (cos t * u.mx - sin t * u.my)
        - sin I * sin A * (B * (cos d * cos I * cos A - sin d * sin I) * dI
          + b * (cos d * sin I * cos A + sin d * cos I)
          + B * e * (cos d * cos I - sin d * sin I * cos A))) / (B * cos d))
        / (1 - sin I ^ 2 * sin A ^ 2)) := by
  intro fI fA hI0 hA0 hdfI hdfA hs
  have lin : ∀ a b : ℝ, HasDerivAt (fun x : ℝ => a + x * b) b 0 := by
    intro a b
    simpa using ((hasDerivAt_id (0 : ℝ)).mul_const b).const_add a
  have hz : HasDerivAt (fun x => (B + x * b) * (cos (d + x * e) * sin (fI x) * cos (fA x)
      + sin (d + x * e) * cos (fI x)))
      (b * (cos d * sin I * cos A + sin d * cos I)
        + B * (-sin d * e * sin I * cos A + cos d * (cos I * deriv fI 0) * cos A
          + cos d * sin I * (-sin A * deriv fA 0) + cos d * e * cos I
          + sin d * (-sin I * deriv fI 0))) 0 := by
    have h1 := ((lin d e).cos.mul hdfI.hasDerivAt.sin).mul hdfA.hasDerivAt.cos
    have h2 := (lin d e).sin.mul hdfI.hasDerivAt.cos
    refine ((lin B b).mul (h1.add h2)).congr_deriv ?_
    simp only [Pi.mul_apply, Pi.add_apply, zero_mul, add_zero, hI0, hA0]
    ring
  have := sens_core hG hI hB hd (lin _ u.gx) (lin _ u.gy) (lin _ u.gz) (lin _ u.mx) (lin _ u.my) hz
    (t := t) (A := A) (by simp [nominal, hI0, hA0]) hdfI.hasDerivAt hdfA.hasDerivAt hI0 hA0 hs
  obtain ⟨r1, r2⟩ := this
  rw [← hdI] at r1
  refine ⟨r1, ?_⟩
  rw [r1] at r2
  rw [eq_div_iff hF]
  obtain ⟨X, hX⟩ : ∃ X, X = (tan d * sin A * (cos I * (sin t * u.gx + cos t * u.gy) + sin I * u.gz)
        + (cos I / sin I - tan d * cos A) * (cos t * u.gx - sin t * u.gy)) / G := ⟨_, rfl⟩
  rw [← hX] at r2 ⊢
  have hBd : B * cos d ≠ 0 := mul_ne_zero hB hd
  field_simp at r2 ⊢
  linear_combination r2

/-! ### Solutions exist -/

/-- Solutions of the survey equations exist near the nominal readings, so the sensitivities are
determined. -/
theorem C98_solution_exists {G B d I A t : ℝ} (hG : 0 < G) (hI : I ∈ Set.Ioo 0 π) (hB : 0 < B)
    (hd : 0 < cos d) (u : Readings) :
    ∃ fI fA : ℝ → ℝ, fI 0 = I ∧ fA 0 = A ∧ DifferentiableAt ℝ fI 0 ∧ DifferentiableAt ℝ fA 0 ∧
      ∀ᶠ x in 𝓝 0, Solves ((nominal G B d I A t).shift u x) (fI x) (fA x) := by
  have hsI : 0 < sin I := sin_pos_of_mem_Ioo hI
  have hi := sin_sq_add_cos_sq I
  have ha := sin_sq_add_cos_sq A
  have ht := sin_sq_add_cos_sq t
  obtain ⟨r, hr⟩ : ∃ r : ℝ → Readings, r = (nominal G B d I A t).shift u := ⟨_, rfl⟩
  obtain ⟨g, hg⟩ : ∃ g : ℝ → ℝ, g = fun x => √((r x).gx ^ 2 + (r x).gy ^ 2 + (r x).gz ^ 2) :=
    ⟨_, rfl⟩
  obtain ⟨N, hN⟩ : ∃ N : ℝ → ℝ, N = fun x => ((r x).gx * (r x).my - (r x).gy * (r x).mx) * g x :=
    ⟨_, rfl⟩
  obtain ⟨D, hD⟩ : ∃ D : ℝ → ℝ, D = fun x => (r x).mz * ((r x).gx ^ 2 + (r x).gy ^ 2)
      - (r x).gz * ((r x).gx * (r x).mx + (r x).gy * (r x).my) := ⟨_, rfl⟩
  have hsum : (r 0).gx ^ 2 + (r 0).gy ^ 2 + (r 0).gz ^ 2 = G ^ 2 := by
    rw [hr]; simp only [Readings.shift, nominal, zero_mul, add_zero]
    linear_combination (G ^ 2 * sin I ^ 2) * ht + G ^ 2 * hi
  have g0 : g 0 = G := by rw [hg]; simp only [hsum]; exact sqrt_sq hG.le
  have dg : DifferentiableAt ℝ g 0 := by
    rw [hg]
    refine DifferentiableAt.sqrt ?_ (by rw [hsum]; positivity)
    rw [hr]; simp only [Readings.shift]; fun_prop
  have dN : DifferentiableAt ℝ N 0 := by
    rw [hN]
    refine DifferentiableAt.mul ?_ dg
    rw [hr]; simp only [Readings.shift]; fun_prop
  have dD : DifferentiableAt ℝ D 0 := by
    rw [hD, hr]; simp only [Readings.shift]; fun_prop
  have N0 : N 0 = G ^ 2 * sin I * B * cos d * sin A := by
    rw [hN]; simp only [g0]; rw [hr]
    simp only [Readings.shift, nominal, zero_mul, add_zero]
    linear_combination (G ^ 2 * sin I * B * cos d * sin A) * ht
  have D0 : D 0 = G ^ 2 * sin I * B * cos d * cos A := by
    rw [hD, hr]
    simp only [Readings.shift, nominal, zero_mul, add_zero]
    linear_combination (B * (cos d * sin I * cos A + sin d * cos I) * (G ^ 2 * sin I ^ 2)
      + G ^ 2 * cos I * sin I * B * (cos d * cos I * cos A - sin d * sin I)) * ht
      + (G ^ 2 * sin I * B * cos d * cos A) * hi
  have hR : 0 < G ^ 2 * sin I * B * cos d := by positivity
  have hpos0 : 0 < N 0 * sin A + D 0 * cos A := by
    rw [N0, D0, show G ^ 2 * sin I * B * cos d * sin A * sin A + G ^ 2 * sin I * B * cos d * cos A *
      cos A = G ^ 2 * sin I * B * cos d by linear_combination (G ^ 2 * sin I * B * cos d) * ha]
    exact hR
  have hsq : ∀ x, N x ^ 2 + D x ^ 2 = (N x * cos A - D x * sin A) ^ 2
      + (N x * sin A + D x * cos A) ^ 2 := by
    intro x; linear_combination (-(N x ^ 2 + D x ^ 2)) * ha
  have hz0 : N 0 * cos A - D 0 * sin A = 0 := by rw [N0, D0]; ring
  have hsq0 : 0 < N 0 ^ 2 + D 0 ^ 2 := by rw [hsq]; positivity
  refine ⟨fun x => arccos ((r x).gz / g x),
    fun x => A + arcsin ((N x * cos A - D x * sin A) / √(N x ^ 2 + D x ^ 2)), ?_, ?_, ?_, ?_, ?_⟩
  · simp only [g0]
    rw [hr]
    simp only [Readings.shift, nominal, zero_mul, add_zero]
    rw [mul_div_cancel_left₀ _ hG.ne']
    exact arccos_cos hI.1.le hI.2.le
  · simp only [hz0, zero_div, arcsin_zero, add_zero]
  · have hq : (r 0).gz / g 0 = cos I := by
      rw [g0, hr]; simp only [Readings.shift, nominal, zero_mul, add_zero]
      exact mul_div_cancel_left₀ _ hG.ne'
    have hc : cos I ^ 2 < 1 := by nlinarith
    refine DifferentiableAt.comp (0 : ℝ) (g := arccos) ?_ ?_
    · rw [hq]
      refine (differentiableAt_arccos).mpr ⟨?_, ?_⟩
      · rintro h; rw [h] at hc; norm_num at hc
      · rintro h; rw [h] at hc; norm_num at hc
    · refine DifferentiableAt.div ?_ dg (by rw [g0]; exact hG.ne')
      rw [hr]; simp only [Readings.shift]; fun_prop
  · refine DifferentiableAt.const_add A ?_
    refine DifferentiableAt.comp (0 : ℝ) (g := arcsin) ?_ ?_
    · rw [hz0, zero_div]
      exact differentiableAt_arcsin.mpr ⟨by norm_num, by norm_num⟩
    · refine DifferentiableAt.div ((dN.mul_const _).sub (dD.mul_const _)) ?_ ?_
      · exact DifferentiableAt.sqrt ((dN.pow 2).add (dD.pow 2)) hsq0.ne'
      · exact (sqrt_pos.mpr hsq0).ne'
  · have cpos : ∀ᶠ x in 𝓝 (0 : ℝ), 0 < N x * sin A + D x * cos A := by
      have : ContinuousAt (fun x => N x * sin A + D x * cos A) 0 :=
        ((dN.mul_const _).add (dD.mul_const _)).continuousAt
      exact this.eventually (lt_mem_nhds hpos0)
    have gpos : ∀ᶠ x in 𝓝 (0 : ℝ), 0 < g x :=
      dg.continuousAt.eventually (lt_mem_nhds (by rw [g0]; exact hG))
    filter_upwards [cpos, gpos] with x hx hgx
    rw [← hr]
    have hgg : (r x).g = g x := by rw [hg]; rfl
    refine ⟨?_, ?_⟩
    · rw [hgg]
      have hab : |(r x).gz| ≤ g x := by
        rw [hg, ← sqrt_sq_eq_abs]
        exact sqrt_le_sqrt (by nlinarith [sq_nonneg (r x).gx, sq_nonneg (r x).gy])
      rw [cos_arccos]
      · field_simp
      · rw [le_div_iff₀ hgx]; linarith [neg_abs_le (r x).gz]
      · rw [div_le_one hgx]; exact (le_abs_self _).trans hab
    · have hρ : 0 < √(N x ^ 2 + D x ^ 2) := by
        rw [sqrt_pos, hsq]; positivity
      obtain ⟨ρ, hρ'⟩ : ∃ ρ, ρ = √(N x ^ 2 + D x ^ 2) := ⟨_, rfl⟩
      have hρ2 : ρ ^ 2 = (N x * cos A - D x * sin A) ^ 2 + (N x * sin A + D x * cos A) ^ 2 := by
        rw [hρ', sq_sqrt (by positivity), hsq]
      rw [← hρ'] at hρ
      have hle : |N x * cos A - D x * sin A| ≤ ρ := by
        apply abs_le_of_sq_le_sq _ hρ.le
        rw [hρ2]; nlinarith [sq_nonneg (N x * sin A + D x * cos A)]
      have hs1 : sin (arcsin ((N x * cos A - D x * sin A) / ρ)) = (N x * cos A - D x * sin A) / ρ :=
        sin_arcsin (by rw [le_div_iff₀ hρ]; linarith [(abs_le.mp hle).1])
          (by rw [div_le_one hρ]; exact (abs_le.mp hle).2)
      have hc1 : cos (arcsin ((N x * cos A - D x * sin A) / ρ)) = (N x * sin A + D x * cos A) / ρ := by
        rw [cos_arcsin]
        have : 1 - ((N x * cos A - D x * sin A) / ρ) ^ 2 = ((N x * sin A + D x * cos A) / ρ) ^ 2 := by
          field_simp
          linear_combination hρ2
        rw [this, sqrt_sq (by positivity)]
      have e1 : ((r x).gx * (r x).my - (r x).gy * (r x).mx) * (r x).g = N x := by rw [hN, hgg]
      have e2 : (r x).mz * ((r x).gx ^ 2 + (r x).gy ^ 2)
          - (r x).gz * ((r x).gx * (r x).mx + (r x).gy * (r x).my) = D x := by rw [hD]
      rw [e1, e2, cos_add, sin_add, ← hρ', hs1, hc1]
      field_simp
      linear_combination (0 : ℝ) * ha

/-! ### C98: six sensors -/

section

variable (c : Ctx) (tort : ℝ) (k : ℕ)

/-- Sensitivity at station `k` with toolface `t`. -/
def Sens (t : ℝ) (u : Readings) (w : V) : Prop :=
  w 0 = 0 ∧ Sensitivity c.G c.bTotal c.dip (c.s.inc k) (c.aziMag k) t u (w 1) (w 2)

/-- The perfect readings at station `k` with toolface `t`. -/
noncomputable def perfect (t : ℝ) : Readings :=
  nominal c.G c.bTotal c.dip (c.s.inc k) (c.aziMag k) t

theorem sens_of_eq (hG : 0 < c.G) (hI : sin (c.s.inc k) ≠ 0) (hB : c.bTotal ≠ 0)
    (hd : cos c.dip ≠ 0) {t : ℝ} {u : Readings} {w : V} (h0 : w 0 = 0)
    (h1 : w 1 = -(c.ci k * (sin t * u.gx + cos t * u.gy) + c.si k * u.gz) / c.G)
    (h2 : w 2 = (tan c.dip * c.sm k * (c.ci k * (sin t * u.gx + cos t * u.gy) + c.si k * u.gz)
        + (c.ci k / c.si k - tan c.dip * c.cm k) * (cos t * u.gx - sin t * u.gy)) / c.G
      + (-c.ci k * c.sm k * (sin t * u.mx + cos t * u.my) + c.cm k * (cos t * u.mx - sin t * u.my)
        - c.si k * c.sm k * u.mz) / (c.bTotal * cos c.dip)) : Sens c k t u w := by
  refine ⟨h0, ?_⟩
  rw [h1, h2]
  exact sensitivity_six hG hI hB hd u

/-- C98: the weights of bias and scale factor errors of the axial sensors are the change of
inclination and azimuth per unit of error, whatever the toolface. -/
theorem C98_axial_sensors (hG : 0 < c.G) (hI : sin (c.s.inc k) ≠ 0) (hB : c.bTotal ≠ 0)
    (hd : cos c.dip ≠ 0) (t : ℝ) :
    Sens c k t errGz (dpde .ABZ c tort k) ∧
    Sens c k t (scaled (perfect c k t) errGz) (dpde .ASZ c tort k) ∧
    Sens c k t errMz (dpde .MBZ c tort k) ∧
    Sens c k t (scaled (perfect c k t) errMz) (dpde .MSZ c tort k) ∧
    Sens c k t errMz (dpde .AMIL c tort k) := by
  have hG' := hG.ne'
  refine ⟨?_, ?_, ?_, ?_, ?_⟩ <;> apply sens_of_eq c k hG hI hB hd
  all_goals simp [dpde, errGz, errMz, scaled, perfect, nominal, Ctx.si, Ctx.ci, Ctx.sm, Ctx.cm,
    tan_eq_sin_div_cos]
  all_goals (try field_simp)
  all_goals (try ring)

/-- C98: the two weights of a cross-axial accelerometer bias have, together, the covariance of
independent errors of the two sensors, whatever the toolface. -/
theorem C98_cross_axial_accelerometer_bias (hG : 0 < c.G) (hI : sin (c.s.inc k) ≠ 0)
    (hB : c.bTotal ≠ 0) (hd : cos c.dip ≠ 0) (t : ℝ) :
    ∃ wx wy : V, Sens c k t errGx wx ∧ Sens c k t errGy wy ∧
      ∀ i j, wx i * wx j + wy i * wy j
        = dpde .ABXY_TI1 c tort k i * dpde .ABXY_TI1 c tort k j
          + dpde .ABXY_TI2 c tort k i * dpde .ABXY_TI2 c tort k j := by
  have ht := sin_sq_add_cos_sq t
  refine ⟨fun i => sin t * dpde .ABXY_TI1 c tort k i + cos t * dpde .ABXY_TI2 c tort k i,
    fun i => cos t * dpde .ABXY_TI1 c tort k i - sin t * dpde .ABXY_TI2 c tort k i, ?_, ?_, ?_⟩
  · apply sens_of_eq c k hG hI hB hd
    all_goals simp [dpde, errGx, neg_add_eq_sub, tan_pi_div_two_sub]
    all_goals simp only [tan_eq_sin_div_cos, cot_eq_cos_div_sin, Ctx.si, Ctx.ci]
    all_goals ring
  · apply sens_of_eq c k hG hI hB hd
    all_goals simp [dpde, errGy, neg_add_eq_sub, tan_pi_div_two_sub]
    all_goals simp only [tan_eq_sin_div_cos, cot_eq_cos_div_sin, Ctx.si, Ctx.ci]
    all_goals ring
  · intro i j
    linear_combination (dpde .ABXY_TI1 c tort k i * dpde .ABXY_TI1 c tort k j
          + dpde .ABXY_TI2 c tort k i * dpde .ABXY_TI2 c tort k j) * ht

/-- C98: the same for the cross-axial magnetometers. -/
theorem C98_cross_axial_magnetometer_bias (hG : 0 < c.G) (hI : sin (c.s.inc k) ≠ 0)
    (hB : c.bTotal ≠ 0) (hd : cos c.dip ≠ 0) (t : ℝ) :
    ∃ wx wy : V, Sens c k t errMx wx ∧ Sens c k t errMy wy ∧
      ∀ i j, wx i * wx j + wy i * wy j
        = dpde .MBXY_TI1 c tort k i * dpde .MBXY_TI1 c tort k j
          + dpde .MBXY_TI2 c tort k i * dpde .MBXY_TI2 c tort k j := by
  have ht := sin_sq_add_cos_sq t
  refine ⟨fun i => sin t * dpde .MBXY_TI1 c tort k i + cos t * dpde .MBXY_TI2 c tort k i,
    fun i => cos t * dpde .MBXY_TI1 c tort k i - sin t * dpde .MBXY_TI2 c tort k i, ?_, ?_, ?_⟩
  · apply sens_of_eq c k hG hI hB hd
    all_goals simp [dpde, errMx]
    all_goals ring
  · apply sens_of_eq c k hG hI hB hd
    all_goals simp [dpde, errMy]
    all_goals ring
  · intro i j
    linear_combination (dpde .MBXY_TI1 c tort k i * dpde .MBXY_TI1 c tort k j
          + dpde .MBXY_TI2 c tort k i * dpde .MBXY_TI2 c tort k j) * ht

/-- Averages over the toolface. -/
theorem toolface_average (a b e : ℝ) :
    (∫ t in (0 : ℝ)..2 * π, (a + b * (sin t ^ 2 * cos t ^ 2)
      + e * (sin t ^ 3 * cos t - sin t * cos t ^ 3))) / (2 * π) = a + b / 8 := by
  have h3 : ∫ t in (0 : ℝ)..2 * π, (sin t ^ 3 * cos t - sin t * cos t ^ 3) = 0 := by
    have : ∀ t ∈ Set.uIcc 0 (2 * π), HasDerivAt (fun t => sin t ^ 4 / 4 + cos t ^ 4 / 4)
        (sin t ^ 3 * cos t - sin t * cos t ^ 3) t := by
      intro t _
      refine ((((hasDerivAt_sin t).pow 4).div_const 4).add
        (((hasDerivAt_cos t).pow 4).div_const 4)).congr_deriv ?_
      simp
      ring
    rw [intervalIntegral.integral_eq_sub_of_hasDerivAt this]
    · simp
    · exact Continuous.intervalIntegrable (by fun_prop) _ _
  have h2 : ∫ t in (0 : ℝ)..2 * π, sin t ^ 2 * cos t ^ 2 = 2 * π / 8 := by
    rw [integral_sin_sq_mul_cos_sq]
    have : sin (4 * (2 * π)) = 0 := by
      have := sin_nat_mul_pi 8
      rw [show (4 * (2 * π) : ℝ) = ((8 : ℕ) : ℝ) * π by push_cast; ring]
      exact this
    rw [this]; simp
  rw [intervalIntegral.integral_add, intervalIntegral.integral_add,
    intervalIntegral.integral_const_mul, intervalIntegral.integral_const_mul, h2, h3]
  · simp
    have := pi_ne_zero
    field_simp
  all_goals exact Continuous.intervalIntegrable (by fun_prop) _ _

/-- C98: the three weights of the cross-axial accelerometer scale factors have, together, the
average over all toolfaces of the covariance of independent errors of the two sensors. -/
theorem C98_cross_axial_accelerometer_scale (hG : 0 < c.G) (hI : sin (c.s.inc k) ≠ 0)
    (hB : c.bTotal ≠ 0) (hd : cos c.dip ≠ 0) :
    ∃ wx wy : ℝ → V, (∀ t, Sens c k t (scaled (perfect c k t) errGx) (wx t)) ∧
      (∀ t, Sens c k t (scaled (perfect c k t) errGy) (wy t)) ∧
      ∀ i j, (∫ t in (0 : ℝ)..2 * π, (wx t i * wx t j + wy t i * wy t j)) / (2 * π)
        = dpde .ASXY_TI1 c tort k i * dpde .ASXY_TI1 c tort k j
          + dpde .ASXY_TI2 c tort k i * dpde .ASXY_TI2 c tort k j
          + dpde .ASXY_TI3 c tort k i * dpde .ASXY_TI3 c tort k j := by
  have hG' := hG.ne'
  have hI' : c.si k ≠ 0 := hI
  have h2 : √(2 : ℝ) ^ 2 = 2 := sq_sqrt (by norm_num)
  have h20 : √(2 : ℝ) ≠ 0 := by positivity
  obtain ⟨a, ha⟩ : ∃ a : V, a = fun i => 2 * dpde .ASXY_TI2 c tort k i := ⟨_, rfl⟩
  obtain ⟨b, hb⟩ : ∃ b : V, b = fun i => 2 * dpde .ASXY_TI3 c tort k i := ⟨_, rfl⟩
  have h1 : ∀ i, dpde .ASXY_TI1 c tort k i = a i / √2 := by
    intro i
    rw [ha]
    fin_cases i <;> simp [dpde] <;> ring
  refine ⟨fun t i => sin t ^ 2 * a i + sin t * cos t * b i,
    fun t i => cos t ^ 2 * a i - sin t * cos t * b i, ?_, ?_, ?_⟩
  · intro t
    rw [ha, hb]
    apply sens_of_eq c k hG hI hB hd
    all_goals simp [dpde, errGx, scaled, perfect, nominal]
    all_goals change _ = _
    all_goals rw [show sin (c.s.inc k) = c.si k from rfl]
    all_goals field_simp
    all_goals ring
  · intro t
    rw [ha, hb]
    apply sens_of_eq c k hG hI hB hd
    all_goals simp [dpde, errGy, scaled, perfect, nominal]
    all_goals change _ = _
    all_goals rw [show sin (c.s.inc k) = c.si k from rfl]
    all_goals field_simp
    all_goals ring
  · intro i j
    rw [h1, h1]
    have e : ∀ t, (sin t ^ 2 * a i + sin t * cos t * b i) * (sin t ^ 2 * a j + sin t * cos t * b j)
        + (cos t ^ 2 * a i - sin t * cos t * b i) * (cos t ^ 2 * a j - sin t * cos t * b j)
        = a i * a j + (2 * (b i * b j) - 2 * (a i * a j)) * (sin t ^ 2 * cos t ^ 2)
          + (a i * b j + b i * a j) * (sin t ^ 3 * cos t - sin t * cos t ^ 3) := by
      intro t
      linear_combination (a i * a j * (sin t ^ 2 + cos t ^ 2 + 1)) * sin_sq_add_cos_sq t
    simp only [e]
    rw [toolface_average]
    have e2 : dpde .ASXY_TI2 c tort k i * dpde .ASXY_TI2 c tort k j = a i * a j / 4 := by
      rw [ha]; ring
    have e3 : dpde .ASXY_TI3 c tort k i * dpde .ASXY_TI3 c tort k j = b i * b j / 4 := by
      rw [hb]; ring
    have e1 : a i / √2 * (a j / √2) = a i * a j / 2 := by
      rw [div_mul_div_comm, ← sq, h2]
    rw [e1, e2, e3]
    ring

/-- C98: the same for the cross-axial magnetometer scale factors. -/
theorem C98_cross_axial_magnetometer_scale (hG : 0 < c.G) (hI : sin (c.s.inc k) ≠ 0)
    (hB : c.bTotal ≠ 0) (hd : cos c.dip ≠ 0) :
    ∃ wx wy : ℝ → V, (∀ t, Sens c k t (scaled (perfect c k t) errMx) (wx t)) ∧
      (∀ t, Sens c k t (scaled (perfect c k t) errMy) (wy t)) ∧
      ∀ i j, (∫ t in (0 : ℝ)..2 * π, (wx t i * wx t j + wy t i * wy t j)) / (2 * π)
        = dpde .MSXY_TI1 c tort k i * dpde .MSXY_TI1 c tort k j
          + dpde .MSXY_TI2 c tort k i * dpde .MSXY_TI2 c tort k j
          + dpde .MSXY_TI3 c tort k i * dpde .MSXY_TI3 c tort k j := by
  have h2 : √(2 : ℝ) ^ 2 = 2 := sq_sqrt (by norm_num)
  have h20 : √(2 : ℝ) ≠ 0 := by positivity
  have hA := sin_sq_add_cos_sq (c.aziMag k)
  have hi := sin_sq_add_cos_sq (c.s.inc k)
  obtain ⟨P, hP⟩ : ∃ P, P = c.ci k * c.cm k - tan c.dip * c.si k := ⟨_, rfl⟩
  -- the sensitivity is a sin² + b cos² + e sin cos
  obtain ⟨a, ha⟩ : ∃ a, a = -c.ci k * c.sm k * P := ⟨_, rfl⟩
  obtain ⟨b, hb⟩ : ∃ b, b = c.cm k * c.sm k := ⟨_, rfl⟩
  obtain ⟨e, he⟩ : ∃ e, e = c.cm k * P - c.ci k * c.sm k * c.sm k := ⟨_, rfl⟩
  have t1 : c.si k * c.sm k * c.mix k = a + b := by
    rw [ha, hb, hP, Ctx.mix]; simp only [Ctx.si, Ctx.ci, Ctx.sm, Ctx.cm]
    linear_combination (sin (c.aziMag k) * cos (c.aziMag k)) * hi
  have t2 : c.sm k * (tan c.dip * c.si k * c.ci k - c.ci k * c.ci k * c.cm k - c.cm k) = a - b := by
    rw [ha, hb, hP]; ring
  have t3 : c.ci k * c.cm k * c.cm k - c.ci k * c.sm k * c.sm k - tan c.dip * c.si k * c.cm k
      = e := by
    rw [he, hP]; ring
  have hm : tan c.dip = sin c.dip / cos c.dip := tan_eq_sin_div_cos _
  refine ⟨fun t => ![0, 0, sin t ^ 2 * a + cos t ^ 2 * b + sin t * cos t * e],
    fun t => ![0, 0, cos t ^ 2 * a + sin t ^ 2 * b - sin t * cos t * e], ?_, ?_, ?_⟩
  · intro t
    apply sens_of_eq c k hG hI hB hd
    all_goals simp [errMx, scaled, perfect, nominal]
    rw [ha, hb, he, hP, hm]
    simp only [Ctx.si, Ctx.ci, Ctx.sm, Ctx.cm]
    field_simp
    ring
  · intro t
    apply sens_of_eq c k hG hI hB hd
    all_goals simp [errMy, scaled, perfect, nominal]
    rw [ha, hb, he, hP, hm]
    simp only [Ctx.si, Ctx.ci, Ctx.sm, Ctx.cm]
    field_simp
    ring
  · have key : (∫ t in (0 : ℝ)..2 * π,
        ((sin t ^ 2 * a + cos t ^ 2 * b + sin t * cos t * e)
          * (sin t ^ 2 * a + cos t ^ 2 * b + sin t * cos t * e)
        + (cos t ^ 2 * a + sin t ^ 2 * b - sin t * cos t * e)
          * (cos t ^ 2 * a + sin t ^ 2 * b - sin t * cos t * e))) / (2 * π)
        = (a + b) / √2 * ((a + b) / √2) + (a - b) / 2 * ((a - b) / 2) + e / 2 * (e / 2) := by
      have q : ∀ t, (sin t ^ 2 * a + cos t ^ 2 * b + sin t * cos t * e)
          * (sin t ^ 2 * a + cos t ^ 2 * b + sin t * cos t * e)
        + (cos t ^ 2 * a + sin t ^ 2 * b - sin t * cos t * e)
          * (cos t ^ 2 * a + sin t ^ 2 * b - sin t * cos t * e)
          = (a ^ 2 + b ^ 2) + (4 * (a * b) + 2 * e ^ 2 - 2 * (a ^ 2 + b ^ 2))
              * (sin t ^ 2 * cos t ^ 2)
            + (2 * e * (a - b)) * (sin t ^ 3 * cos t - sin t * cos t ^ 3) := by
        intro t
        linear_combination ((a ^ 2 + b ^ 2) * (sin t ^ 2 + cos t ^ 2 + 1)) * sin_sq_add_cos_sq t
      simp only [q]
      rw [toolface_average, div_mul_div_comm, ← sq (√2), h2]
      ring
    intro i j
    fin_cases i <;> fin_cases j <;> simp [dpde, -mul_eq_zero]
    rw [t1, t2, t3]
    exact key

/-- The hypotheses are met: a station at 45° inclination, and its weights are not zero. -/
noncomputable def sensorDemo : Ctx where
  s := ⟨3, fun k => 100 * k, fun _ => π / 4, fun _ => π / 4, true⟩
  tvd := fun k => 100 * k
  aziMag := fun _ => π / 4
  aziGrid := fun _ => π / 4
  G := 9.8
  dip := π / 4
  bTotal := 50000
  vlim := 0
  ref := .true
  tortuosity := none

example : 0 < sensorDemo.G ∧ sin (sensorDemo.s.inc 1) ≠ 0 ∧ sensorDemo.bTotal ≠ 0 ∧
    cos sensorDemo.dip ≠ 0 ∧ 0 < cos sensorDemo.dip ∧ sensorDemo.s.inc 1 ∈ Set.Ioo 0 π ∧
    dpde .ABZ sensorDemo 0 1 2 ≠ 0 := by
  have h2 : √(2 : ℝ) / 2 ≠ 0 := by positivity
  have h3 : (0 : ℝ) < √2 / 2 := by positivity
  have := pi_pos
  refine ⟨?_, ?_, ?_, ?_, ?_, ⟨?_, ?_⟩, ?_⟩ <;>
    simp [sensorDemo, dpde, Ctx.si, Ctx.sm] <;> linarith

end

end Welleng.Props
