import Verif.Props.Sensors
import Mathlib.Analysis.Calculus.ImplicitFunction.ProdDomain
import Mathlib.Analysis.SpecialFunctions.Trigonometric.InverseDeriv

/-!
C99, C100: the weighting functions of surveys with axial interference correction are the
sensitivities of the corrected survey. The azimuth weight of the axial accelerometer bias is not.
-/

namespace Welleng.Props

open Real Filter Topology
open Spec Err

section

variable (c : Ctx) (tort : ℝ) (k : ℕ)

/-- Sensitivity of the corrected survey at station `k` with toolface `t`. -/
def SensA (t : ℝ) (u : Readings) (b e : ℝ) (w : V) : Prop :=
  w 0 = 0 ∧ SensitivityAxial c.G c.bTotal c.dip (c.s.inc k) (c.aziMag k) t u b e (w 1) (w 2)

theorem sensA_of_eq (hG : 0 < c.G) (hI : sin (c.s.inc k) ≠ 0) (hB : c.bTotal ≠ 0)
    (hd : cos c.dip ≠ 0) (hF : c.funky k ≠ 0) {t b e : ℝ} {u : Readings} {w : V} (h0 : w 0 = 0)
    (h1 : w 1 = -(c.ci k * (sin t * u.gx + cos t * u.gy) + c.si k * u.gz) / c.G)
    (h2 : w 2 * c.funky k =
      (c.sm k * c.mix k * c.ci k * (c.ci k * (sin t * u.gx + cos t * u.gy) + c.si k * u.gz)
        + (c.ci k / c.si k - tan c.dip * c.cm k) * (cos t * u.gx - sin t * u.gy)) / c.G
      + (-c.ci k * c.sm k * (sin t * u.mx + cos t * u.my)
        + c.cm k * (cos t * u.mx - sin t * u.my)) / (c.bTotal * cos c.dip)
      - c.si k * c.sm k * (b * c.mix k / c.bTotal
          + e * (c.ci k - tan c.dip * c.si k * c.cm k))) : SensA c k t u b e w := by
  refine ⟨h0, ?_⟩
  have hF' : 1 - sin (c.s.inc k) ^ 2 * sin (c.aziMag k) ^ 2 ≠ 0 := hF
  have h := sensitivity_axial (t := t) hG hI hB hd hF' u b e h1
  convert h using 1
  rw [eq_div_iff hF']
  change w 2 * c.funky k = _
  rw [h2, h1]
  have hi := sin_sq_add_cos_sq (c.s.inc k)
  have hG' := hG.ne'
  simp only [Ctx.mix, Ctx.si, Ctx.ci, Ctx.sm, Ctx.cm, tan_eq_sin_div_cos]
  obtain ⟨X, hX⟩ : ∃ X, X = cos (c.s.inc k) * (sin t * u.gx + cos t * u.gy)
    + sin (c.s.inc k) * u.gz := ⟨_, rfl⟩
  rw [← hX]
  obtain ⟨Y, hY⟩ : ∃ Y, Y = cos (c.s.inc k) / sin (c.s.inc k) := ⟨_, rfl⟩
  rw [← hY]
  field_simp
  linear_combination (c.bTotal * X * sin (c.aziMag k) * sin c.dip) * hi

/-- C99: bias of the cross-axial accelerometers. -/
theorem C99_cross_axial_accelerometer_bias (hG : 0 < c.G) (hI : sin (c.s.inc k) ≠ 0)
    (hB : c.bTotal ≠ 0) (hd : cos c.dip ≠ 0) (hF : c.funky k ≠ 0) (t : ℝ) :
    ∃ wx wy : V, SensA c k t errGx 0 0 wx ∧ SensA c k t errGy 0 0 wy ∧
      ∀ i j, wx i * wx j + wy i * wy j
        = dpde .ABIXY_TI1 c tort k i * dpde .ABIXY_TI1 c tort k j
          + dpde .ABIXY_TI2 c tort k i * dpde .ABIXY_TI2 c tort k j := by
  have ht := sin_sq_add_cos_sq t
  have hG' := hG.ne'
  refine ⟨fun i => sin t * dpde .ABIXY_TI1 c tort k i + cos t * dpde .ABIXY_TI2 c tort k i,
    fun i => cos t * dpde .ABIXY_TI1 c tort k i - sin t * dpde .ABIXY_TI2 c tort k i, ?_, ?_, ?_⟩
  · apply sensA_of_eq c k hG hI hB hd hF
    all_goals simp [dpde, errGx, tan_pi_div_two_sub]
    all_goals simp only [cot_eq_cos_div_sin, Ctx.si, Ctx.ci]
    · ring
    · field_simp
  · apply sensA_of_eq c k hG hI hB hd hF
    all_goals simp [dpde, errGy, tan_pi_div_two_sub]
    all_goals simp only [cot_eq_cos_div_sin, Ctx.si, Ctx.ci]
    · ring
    · field_simp; ring
  · intro i j
    linear_combination (dpde .ABIXY_TI1 c tort k i * dpde .ABIXY_TI1 c tort k j
          + dpde .ABIXY_TI2 c tort k i * dpde .ABIXY_TI2 c tort k j) * ht

/-- C99: bias of the cross-axial magnetometers. -/
theorem C99_cross_axial_magnetometer_bias (hG : 0 < c.G) (hI : sin (c.s.inc k) ≠ 0)
    (hB : c.bTotal ≠ 0) (hd : cos c.dip ≠ 0) (hF : c.funky k ≠ 0) (t : ℝ) :
    ∃ wx wy : V, SensA c k t errMx 0 0 wx ∧ SensA c k t errMy 0 0 wy ∧
      ∀ i j, wx i * wx j + wy i * wy j
        = dpde .MBIXY_TI1 c tort k i * dpde .MBIXY_TI1 c tort k j
          + dpde .MBIXY_TI2 c tort k i * dpde .MBIXY_TI2 c tort k j := by
  have ht := sin_sq_add_cos_sq t
  refine ⟨fun i => sin t * dpde .MBIXY_TI1 c tort k i + cos t * dpde .MBIXY_TI2 c tort k i,
    fun i => cos t * dpde .MBIXY_TI1 c tort k i - sin t * dpde .MBIXY_TI2 c tort k i, ?_, ?_, ?_⟩
  · apply sensA_of_eq c k hG hI hB hd hF
    all_goals simp [dpde, errMx]
    field_simp
  · apply sensA_of_eq c k hG hI hB hd hF
    all_goals simp [dpde, errMy]
    field_simp; ring
  · intro i j
    linear_combination (dpde .MBIXY_TI1 c tort k i * dpde .MBIXY_TI1 c tort k j
          + dpde .MBIXY_TI2 c tort k i * dpde .MBIXY_TI2 c tort k j) * ht

/-- C99: scale factor of the axial accelerometer, and errors of the reference field strength and
dip. -/
theorem C99_axial_scale_and_reference (hG : 0 < c.G) (hI : sin (c.s.inc k) ≠ 0) (hB : c.bTotal ≠ 0)
    (hd : cos c.dip ≠ 0) (hF : c.funky k ≠ 0) (t : ℝ) :
    SensA c k t (scaled (perfect c k t) errGz) 0 0 (dpde .ASIZ c tort k) ∧
    SensA c k t errNone 1 0 (dpde .MFI c tort k) ∧
    SensA c k t errNone 0 1 (dpde .MDI c tort k) := by
  have hG' := hG.ne'
  refine ⟨?_, ?_, ?_⟩ <;> apply sensA_of_eq c k hG hI hB hd hF
  all_goals simp [dpde, errGz, errNone, scaled, perfect, nominal]
  all_goals (try simp only [Ctx.ci])
  all_goals (try field_simp)
  all_goals (try ring)

/-- C99: scale factors of the cross-axial accelerometers, on average over the toolface. -/
theorem C99_cross_axial_accelerometer_scale (hG : 0 < c.G) (hI : sin (c.s.inc k) ≠ 0)
    (hB : c.bTotal ≠ 0) (hd : cos c.dip ≠ 0) (hF : c.funky k ≠ 0) :
    ∃ wx wy : ℝ → V, (∀ t, SensA c k t (scaled (perfect c k t) errGx) 0 0 (wx t)) ∧
      (∀ t, SensA c k t (scaled (perfect c k t) errGy) 0 0 (wy t)) ∧
      ∀ i j, (∫ t in (0 : ℝ)..2 * π, (wx t i * wx t j + wy t i * wy t j)) / (2 * π)
        = dpde .ASIXY_TI1 c tort k i * dpde .ASIXY_TI1 c tort k j
          + dpde .ASIXY_TI2 c tort k i * dpde .ASIXY_TI2 c tort k j
          + dpde .ASIXY_TI3 c tort k i * dpde .ASIXY_TI3 c tort k j := by
  have hG' := hG.ne'
  have hI' : c.si k ≠ 0 := hI
  have h2 : √(2 : ℝ) ^ 2 = 2 := sq_sqrt (by norm_num)
  have h20 : √(2 : ℝ) ≠ 0 := by positivity
  obtain ⟨a, ha⟩ : ∃ a : V, a = fun i => 2 * dpde .ASIXY_TI2 c tort k i := ⟨_, rfl⟩
  obtain ⟨b, hb⟩ : ∃ b : V, b = fun i => 2 * dpde .ASIXY_TI3 c tort k i := ⟨_, rfl⟩
  have h1 : ∀ i, dpde .ASIXY_TI1 c tort k i = a i / √2 := by
    intro i
    rw [ha]
    fin_cases i <;> simp [dpde] <;> field_simp
  refine ⟨fun t i => sin t ^ 2 * a i + sin t * cos t * b i,
    fun t i => cos t ^ 2 * a i - sin t * cos t * b i, ?_, ?_, ?_⟩
  · intro t
    rw [ha, hb]
    apply sensA_of_eq c k hG hI hB hd hF
    all_goals simp [dpde, errGx, scaled, perfect, nominal]
    all_goals change _ = _
    all_goals rw [show sin (c.s.inc k) = c.si k from rfl]
    all_goals field_simp
    all_goals ring
  · intro t
    rw [ha, hb]
    apply sensA_of_eq c k hG hI hB hd hF
    all_goals simp [dpde, errGy, scaled, perfect, nominal]
    all_goals change _ = _
    all_goals rw [show sin (c.s.inc k) = c.si k from rfl]
    all_goals field_simp
    all_goals ring
  · intro i j
    rw [h1, h1]
    have e : ∀ t, (sin t ^ 2 * a i + sin t * cos t * b i) * (sin t ^ 2 * a j + sin t * cos t * b j)
        + (cos t ^ 2 * a i - sin t * cos t * b i) * (cos t ^ 2 * a j - sin t * cos t * b j)
        = a i * a j + (2 * (b i * b j) - 2 * (a i * a j)) * (sin t ^ 2 * cos t ^ 2)
          + (a i * b j + b i * a j) * (sin t ^ 3 * cos t - sin t * cos t ^ 3) := by
      intro t
      linear_combination (a i * a j * (sin t ^ 2 + cos t ^ 2 + 1)) * sin_sq_add_cos_sq t
    simp only [e]
    rw [toolface_average]
    have e2 : dpde .ASIXY_TI2 c tort k i * dpde .ASIXY_TI2 c tort k j = a i * a j / 4 := by
      rw [ha]; ring
    have e3 : dpde .ASIXY_TI3 c tort k i * dpde .ASIXY_TI3 c tort k j = b i * b j / 4 := by
      rw [hb]; ring
    have e1 : a i / √2 * (a j / √2) = a i * a j / 2 := by
      rw [div_mul_div_comm, ← sq, h2]
    rw [e1, e2, e3]
    ring

/-- C99: scale factors of the cross-axial magnetometers, on average over the toolface. -/
theorem C99_cross_axial_magnetometer_scale (hG : 0 < c.G) (hI : sin (c.s.inc k) ≠ 0)
    (hB : c.bTotal ≠ 0) (hd : cos c.dip ≠ 0) (hF : c.funky k ≠ 0) :
    ∃ wx wy : ℝ → V, (∀ t, SensA c k t (scaled (perfect c k t) errMx) 0 0 (wx t)) ∧
      (∀ t, SensA c k t (scaled (perfect c k t) errMy) 0 0 (wy t)) ∧
      ∀ i j, (∫ t in (0 : ℝ)..2 * π, (wx t i * wx t j + wy t i * wy t j)) / (2 * π)
        = dpde .MSIXY_TI1 c tort k i * dpde .MSIXY_TI1 c tort k j
          + dpde .MSIXY_TI2 c tort k i * dpde .MSIXY_TI2 c tort k j
          + dpde .MSIXY_TI3 c tort k i * dpde .MSIXY_TI3 c tort k j := by
  have h2 : √(2 : ℝ) ^ 2 = 2 := sq_sqrt (by norm_num)
  have h20 : √(2 : ℝ) ≠ 0 := by positivity
  have hi := sin_sq_add_cos_sq (c.s.inc k)
  obtain ⟨P, hP⟩ : ∃ P, P = c.ci k * c.cm k - tan c.dip * c.si k := ⟨_, rfl⟩
  obtain ⟨a, ha⟩ : ∃ a, a = -c.ci k * c.sm k * P / c.funky k := ⟨_, rfl⟩
  obtain ⟨b, hb⟩ : ∃ b, b = c.cm k * c.sm k / c.funky k := ⟨_, rfl⟩
  obtain ⟨e, he⟩ : ∃ e, e = (c.cm k * P - c.ci k * c.sm k * c.sm k) / c.funky k := ⟨_, rfl⟩
  have t1 : c.si k * c.sm k * c.mix k / (√2 * c.funky k) = (a + b) / √2 := by
    have : c.si k * c.sm k * c.mix k = -c.ci k * c.sm k * P + c.cm k * c.sm k := by
      rw [hP, Ctx.mix]; simp only [Ctx.si, Ctx.ci, Ctx.sm, Ctx.cm]
      linear_combination (sin (c.aziMag k) * cos (c.aziMag k)) * hi
    rw [this, ha, hb]; field_simp
  have t2 : c.sm k * (tan c.dip * c.si k * c.ci k - c.ci k ^ 2 * c.cm k - c.cm k)
      / (2 * c.funky k) = (a - b) / 2 := by
    rw [ha, hb, hP]; field_simp; ring
  have t3 : (c.ci k * c.cm k ^ 2 - c.ci k * c.sm k ^ 2 - tan c.dip * c.si k * c.cm k)
      / (2 * c.funky k) = e / 2 := by
    rw [he, hP]; field_simp; ring
  have hm : tan c.dip = sin c.dip / cos c.dip := tan_eq_sin_div_cos _
  refine ⟨fun t => ![0, 0, sin t ^ 2 * a + cos t ^ 2 * b + sin t * cos t * e],
    fun t => ![0, 0, cos t ^ 2 * a + sin t ^ 2 * b - sin t * cos t * e], ?_, ?_, ?_⟩
  · intro t
    apply sensA_of_eq c k hG hI hB hd hF
    all_goals simp [errMx, scaled, perfect, nominal]
    rw [ha, hb, he, hP, hm]
    generalize c.funky k = F at *
    simp only [Ctx.si, Ctx.ci, Ctx.sm, Ctx.cm]
    field_simp
    ring
  · intro t
    apply sensA_of_eq c k hG hI hB hd hF
    all_goals simp [errMy, scaled, perfect, nominal]
    rw [ha, hb, he, hP, hm]
    generalize c.funky k = F at *
    simp only [Ctx.si, Ctx.ci, Ctx.sm, Ctx.cm]
    field_simp
    ring
  · have key : (∫ t in (0 : ℝ)..2 * π,
        ((sin t ^ 2 * a + cos t ^ 2 * b + sin t * cos t * e)
          * (sin t ^ 2 * a + cos t ^ 2 * b + sin t * cos t * e)
        + (cos t ^ 2 * a + sin t ^ 2 * b - sin t * cos t * e)
          * (cos t ^ 2 * a + sin t ^ 2 * b - sin t * cos t * e))) / (2 * π)
        = (a + b) / √2 * ((a + b) / √2) + (a - b) / 2 * ((a - b) / 2) + e / 2 * (e / 2) := by
      have q : ∀ t, (sin t ^ 2 * a + cos t ^ 2 * b + sin t * cos t * e)
          * (sin t ^ 2 * a + cos t ^ 2 * b + sin t * cos t * e)
        + (cos t ^ 2 * a + sin t ^ 2 * b - sin t * cos t * e)
          * (cos t ^ 2 * a + sin t ^ 2 * b - sin t * cos t * e)
          = (a ^ 2 + b ^ 2) + (4 * (a * b) + 2 * e ^ 2 - 2 * (a ^ 2 + b ^ 2))
              * (sin t ^ 2 * cos t ^ 2)
            + (2 * e * (a - b)) * (sin t ^ 3 * cos t - sin t * cos t ^ 3) := by
        intro t
        linear_combination ((a ^ 2 + b ^ 2) * (sin t ^ 2 + cos t ^ 2 + 1)) * sin_sq_add_cos_sq t
      simp only [q]
      rw [toolface_average, div_mul_div_comm, ← sq (√2), h2]
      ring
    intro i j
    fin_cases i <;> fin_cases j <;> simp [dpde, -mul_eq_zero]
    rw [t1, t2, t3]
    exact key

end

/-! ### Solutions exist -/

/-- Solutions of the corrected survey equations exist near the nominal readings. -/
theorem C99_solution_exists {G B d I A t : ℝ} (hG : 0 < G) (hI : I ∈ Set.Ioo 0 π) (hB : 0 < B)
    (hd : 0 < cos d) (hF : 1 - sin I ^ 2 * sin A ^ 2 ≠ 0) (u : Readings) (b e : ℝ) :
    ∃ fI fA : ℝ → ℝ, fI 0 = I ∧ fA 0 = A ∧ DifferentiableAt ℝ fI 0 ∧ DifferentiableAt ℝ fA 0 ∧
      ∀ᶠ x in 𝓝 0, SolvesAxial (B + x * b) (d + x * e) ((nominal G B d I A t).shift u x)
        (fI x) (fA x) := by
  have hsI : 0 < sin I := sin_pos_of_mem_Ioo hI
  have hi := sin_sq_add_cos_sq I
  have ha := sin_sq_add_cos_sq A
  have ht := sin_sq_add_cos_sq t
  obtain ⟨r, hr⟩ : ∃ r : ℝ → Readings, r = (nominal G B d I A t).shift u := ⟨_, rfl⟩
  have c1 : ContDiffAt ℝ 1 (fun x => (r x).gx) 0 := by rw [hr]; simp only [Readings.shift]; fun_prop
  have c2 : ContDiffAt ℝ 1 (fun x => (r x).gy) 0 := by rw [hr]; simp only [Readings.shift]; fun_prop
  have c3 : ContDiffAt ℝ 1 (fun x => (r x).gz) 0 := by rw [hr]; simp only [Readings.shift]; fun_prop
  have c4 : ContDiffAt ℝ 1 (fun x => (r x).mx) 0 := by rw [hr]; simp only [Readings.shift]; fun_prop
  have c5 : ContDiffAt ℝ 1 (fun x => (r x).my) 0 := by rw [hr]; simp only [Readings.shift]; fun_prop
  obtain ⟨g, hg⟩ : ∃ g : ℝ → ℝ, g = fun x => √((r x).gx ^ 2 + (r x).gy ^ 2 + (r x).gz ^ 2) :=
    ⟨_, rfl⟩
  have hsum : (r 0).gx ^ 2 + (r 0).gy ^ 2 + (r 0).gz ^ 2 = G ^ 2 := by
    rw [hr]; simp only [Readings.shift, nominal, zero_mul, add_zero]
    linear_combination (G ^ 2 * sin I ^ 2) * ht + G ^ 2 * hi
  have g0 : g 0 = G := by rw [hg]; simp only [hsum]; exact sqrt_sq hG.le
  have dg : ContDiffAt ℝ 1 g 0 := by
    rw [hg]
    exact ContDiffAt.sqrt (((c1.pow 2).add (c2.pow 2)).add (c3.pow 2)) (by rw [hsum]; positivity)
  obtain ⟨f, hf⟩ : ∃ f : ℝ → ℝ, f = fun x => arccos ((r x).gz / g x) := ⟨_, rfl⟩
  have hq : (r 0).gz / g 0 = cos I := by
    rw [g0, hr]; simp only [Readings.shift, nominal, zero_mul, add_zero]
    exact mul_div_cancel_left₀ _ hG.ne'
  have f0 : f 0 = I := by rw [hf]; simp only [hq]; exact arccos_cos hI.1.le hI.2.le
  have df : ContDiffAt ℝ 1 f 0 := by
    rw [hf]
    have hc : cos I ^ 2 < 1 := by nlinarith
    refine ContDiffAt.comp (0 : ℝ) (g := arccos) ?_ (c3.div dg (by rw [g0]; exact hG.ne'))
    rw [hq]
    refine contDiffAt_arccos ?_ ?_
    · rintro h; rw [h] at hc; norm_num at hc
    · rintro h; rw [h] at hc; norm_num at hc
  obtain ⟨F, hFd⟩ : ∃ F : ℝ × ℝ → ℝ, F = fun p =>
      ((r p.1).gx * (r p.1).my - (r p.1).gy * (r p.1).mx) * g p.1 * cos p.2
      - ((B + p.1 * b) * (cos (d + p.1 * e) * sin (f p.1) * cos p.2
          + sin (d + p.1 * e) * cos (f p.1)) * ((r p.1).gx ^ 2 + (r p.1).gy ^ 2)
        - (r p.1).gz * ((r p.1).gx * (r p.1).mx + (r p.1).gy * (r p.1).my)) * sin p.2 :=
    ⟨_, rfl⟩
  have lift : ∀ {h : ℝ → ℝ}, ContDiffAt ℝ 1 h 0 → ContDiffAt ℝ 1 (fun p : ℝ × ℝ => h p.1) (0, A) :=
    fun hh => ContDiffAt.comp (0, A) (g := _) hh contDiffAt_fst
  have l1 := lift c1
  have l2 := lift c2
  have l3 := lift c3
  have l4 := lift c4
  have l5 := lift c5
  have lg := lift dg
  have lf := lift df
  have hFc : ContDiffAt ℝ 1 F (0, A) := by
    rw [hFd]
    have s2 : ContDiffAt ℝ 1 (fun p : ℝ × ℝ => sin p.2) (0, A) := by fun_prop
    have s3 : ContDiffAt ℝ 1 (fun p : ℝ × ℝ => cos p.2) (0, A) := by fun_prop
    have s4 : ContDiffAt ℝ 1 (fun p : ℝ × ℝ => B + p.1 * b) (0, A) := by fun_prop
    have s5 : ContDiffAt ℝ 1 (fun p : ℝ × ℝ => cos (d + p.1 * e)) (0, A) := by fun_prop
    have s6 : ContDiffAt ℝ 1 (fun p : ℝ × ℝ => sin (d + p.1 * e)) (0, A) := by fun_prop
    exact ((((l1.mul l5).sub (l2.mul l4)).mul lg).mul s3).sub
      ((((s4.mul (((s5.mul lf.sin).mul s3).add (s6.mul lf.cos))).mul
        ((l1.pow 2).add (l2.pow 2))).sub (l3.mul ((l1.mul l4).add (l2.mul l5)))).mul s2)
  have hst : HasStrictFDerivAt F (fderiv ℝ F (0, A)) (0, A) := hFc.hasStrictFDerivAt (by norm_num)
  have N0 : ((r 0).gx * (r 0).my - (r 0).gy * (r 0).mx) * g 0 = G ^ 2 * sin I * B * cos d * sin A := by
    rw [g0, hr]
    simp only [Readings.shift, nominal, zero_mul, add_zero]
    linear_combination (G ^ 2 * sin I * B * cos d * sin A) * ht
  have S0 : (r 0).gx ^ 2 + (r 0).gy ^ 2 = G ^ 2 * sin I ^ 2 := by
    rw [hr]; simp only [Readings.shift, nominal, zero_mul, add_zero]
    linear_combination (G ^ 2 * sin I ^ 2) * ht
  have P0 : (r 0).gz * ((r 0).gx * (r 0).mx + (r 0).gy * (r 0).my)
      = -(G ^ 2 * cos I * sin I * B * (cos d * cos I * cos A - sin d * sin I)) := by
    rw [hr]; simp only [Readings.shift, nominal, zero_mul, add_zero]
    linear_combination (-(G ^ 2 * cos I * sin I * B * (cos d * cos I * cos A - sin d * sin I))) * ht
  have hpart : HasDerivAt (fun a => F (0, a))
      (-(G ^ 2 * sin I * B * cos d * (1 - sin I ^ 2 * sin A ^ 2))) A := by
    have e : (fun a => F (0, a)) = fun a => G ^ 2 * sin I * B * cos d * sin A * cos a
        - (B * (cos d * sin I * cos a + sin d * cos I) * (G ^ 2 * sin I ^ 2)
          + G ^ 2 * cos I * sin I * B * (cos d * cos I * cos A - sin d * sin I)) * sin a := by
      funext a
      rw [hFd]
      simp only [zero_mul, add_zero, N0, S0, P0, f0]
      ring
    rw [e]
    have hc := hasDerivAt_cos A
    have h1 := hc.const_mul (G ^ 2 * sin I * B * cos d * sin A)
    have h2 := (((((hc.const_mul (cos d * sin I)).add_const (sin d * cos I)).const_mul B).mul_const
      (G ^ 2 * sin I ^ 2)).add_const
        (G ^ 2 * cos I * sin I * B * (cos d * cos I * cos A - sin d * sin I))).mul (hasDerivAt_sin A)
    refine (h1.sub h2).congr_deriv ?_
    linear_combination (-(G ^ 2 * sin I * B * cos d)) * ha
      - (G ^ 2 * sin I * B * cos d * cos A ^ 2) * hi
  have hcomp : HasDerivAt (fun a => F (0, a)) (fderiv ℝ F (0, A) (0, 1)) A := by
    have hin : HasDerivAt (fun a : ℝ => ((0 : ℝ), a)) (0, 1) A :=
      (hasDerivAt_const A (0 : ℝ)).prodMk (hasDerivAt_id A)
    exact hst.hasFDerivAt.comp_hasDerivAt A hin
  have hne : fderiv ℝ F (0, A) (0, 1) ≠ 0 := by
    rw [hcomp.unique hpart]
    have : G ^ 2 * sin I * B * cos d ≠ 0 := by positivity
    exact neg_ne_zero.mpr (mul_ne_zero this hF)
  have hinv : (fderiv ℝ F (0, A) ∘L .inr ℝ ℝ ℝ).IsInvertible := by
    refine ⟨ContinuousLinearEquiv.unitsEquivAut ℝ (Units.mk0 _ hne), ?_⟩
    ext
    simp
  obtain ⟨ψ, hψ⟩ : ∃ ψ, ψ = hst.implicitFunctionOfProdDomain hinv := ⟨_, rfl⟩
  have hF0 : F (0, A) = 0 := by
    rw [hFd]
    simp only [zero_mul, add_zero, N0, S0, P0, f0]
    linear_combination (-(G ^ 2 * sin I * B * cos d * sin A * cos A)) * hi
  refine ⟨f, ψ, f0, ?_, df.differentiableAt (by norm_num), ?_, ?_⟩
  · rw [hψ]
    exact (hst.eventually_apply_eq_iff_implicitFunctionOfProdDomain hinv).self_of_nhds.mp rfl
  · rw [hψ]
    exact (hst.hasStrictFDerivAt_implicitFunctionOfProdDomain hinv).hasFDerivAt.differentiableAt
  · have h1 := hst.eventually_apply_implicitFunctionOfProdDomain hinv
    have gpos : ∀ᶠ x in 𝓝 (0 : ℝ), 0 < g x :=
      dg.continuousAt.eventually (lt_mem_nhds (by rw [g0]; exact hG))
    filter_upwards [h1, gpos] with x hx hgx
    rw [← hψ, hF0, hFd] at hx
    rw [← hr]
    have hgg : (r x).g = g x := by rw [hg]; rfl
    refine ⟨?_, ?_⟩
    · change (r x).gz = (r x).g * cos (f x)
      rw [hgg, hf]
      have hab : |(r x).gz| ≤ g x := by
        rw [hg, ← sqrt_sq_eq_abs]
        exact sqrt_le_sqrt (by nlinarith [sq_nonneg (r x).gx, sq_nonneg (r x).gy])
      rw [cos_arccos]
      · field_simp
      · rw [le_div_iff₀ hgx]; linarith [neg_abs_le (r x).gz]
      · rw [div_le_one hgx]; exact (le_abs_self _).trans hab
    · change ((r x).gx * (r x).my - (r x).gy * (r x).mx) * (r x).g * cos (ψ x) = _
      rw [hgg]
      simp only
      linear_combination hx

/-! ### C100 -/

/-- C100, partial: the inclination weight of the axial accelerometer bias is the sensitivity, and
away from the limit of the denominator the azimuth weight is the sensitivity times `G²`. -/
theorem C100_axial_bias_partial (c : Ctx) (tort : ℝ) (k : ℕ) (hG : 0 < c.G)
    (hI : sin (c.s.inc k) ≠ 0) (hB : c.bTotal ≠ 0) (hd : cos c.dip ≠ 0)
    (hF : 1e-6 < c.funky k / c.G) (t : ℝ) :
    SensA c k t errGz 0 0 ![0, dpde .ABIZ c tort k 1, dpde .ABIZ c tort k 2 / c.G ^ 2] := by
  have hG' := hG.ne'
  have hF0 : 0 < c.funky k / c.G := lt_trans (by norm_num) hF
  have hF' : c.funky k ≠ 0 := by
    intro h; rw [h] at hF0; simp at hF0
  have e : dpde .ABIZ c tort k = ![0, -c.si k / c.G,
      (c.si k * c.ci k * c.sm k * c.mix k) / (c.funky k / c.G)] := by
    simp only [dpde]; rw [if_pos hF]
  rw [e]
  apply sensA_of_eq c k hG hI hB hd hF'
  all_goals simp [errGz]
  field_simp

/-- C100 is false: in the earth's gravity the azimuth weight of the axial accelerometer bias is
about 96 times the sensitivity of the corrected survey. -/
theorem C100_axial_bias_not_sensitivity (t tort : ℝ) :
    ¬ SensA sensorDemo 1 t errGz 0 0 (dpde .ABIZ sensorDemo tort 1) := by
  intro h
  have hp := pi_pos
  have h3 : (0 : ℝ) < √2 / 2 := by positivity
  have hq : (√(2 : ℝ) / 2) ^ 2 = 1 / 2 := by rw [div_pow, sq_sqrt (by norm_num)]; norm_num
  have hfun : sensorDemo.funky 1 = 3 / 4 := by
    simp only [Ctx.funky, sensorDemo, sin_pi_div_four, hq]; norm_num
  have hg : sensorDemo.G = 9.8 := rfl
  have hi : sin (sensorDemo.s.inc 1) ≠ 0 := by simp only [sensorDemo, sin_pi_div_four]; exact h3.ne'
  have hdp : 0 < cos sensorDemo.dip := by simp only [sensorDemo, cos_pi_div_four]; exact h3
  have hp' := C100_axial_bias_partial sensorDemo tort 1 (by rw [hg]; norm_num) hi
    (by simp [sensorDemo]) hdp.ne' (by rw [hfun, hg]; norm_num) t
  obtain ⟨fI, fA, a1, a2, a3, a4, a5⟩ := C99_solution_exists (G := sensorDemo.G)
    (B := sensorDemo.bTotal) (d := sensorDemo.dip) (I := sensorDemo.s.inc 1)
    (A := sensorDemo.aziMag 1) (t := t) (by rw [hg]; norm_num)
    ⟨by simp [sensorDemo]; positivity, by simp [sensorDemo]; linarith⟩
    (by simp [sensorDemo]) hdp
    (by change sensorDemo.funky 1 ≠ 0; rw [hfun]; norm_num) errGz 0 0
  have r1 := (h.2 fI fA a1 a2 a3 a4 a5).2
  have r2 := (hp'.2 fI fA a1 a2 a3 a4 a5).2
  rw [r1] at r2
  have r3 : dpde .ABIZ sensorDemo tort 1 2 = dpde .ABIZ sensorDemo tort 1 2 / sensorDemo.G ^ 2 := r2
  have hne : dpde .ABIZ sensorDemo tort 1 2 ≠ 0 := by
    have : dpde .ABIZ sensorDemo tort 1 2 = sensorDemo.si 1 * sensorDemo.ci 1 * sensorDemo.sm 1
        * sensorDemo.mix 1 / (3 / 4 / 9.8) := by
      simp only [dpde]
      rw [hfun, hg, if_pos (by norm_num)]
      rfl
    rw [this]
    have : 0 < sensorDemo.mix 1 := by
      simp only [Ctx.mix, sensorDemo, sin_pi_div_four, cos_pi_div_four, tan_pi_div_four]; positivity
    simp only [Ctx.si, Ctx.ci, Ctx.sm]
    rw [show sin (sensorDemo.s.inc 1) = √2 / 2 by simp [sensorDemo],
      show cos (sensorDemo.s.inc 1) = √2 / 2 by simp [sensorDemo],
      show sin (sensorDemo.aziMag 1) = √2 / 2 by simp [sensorDemo]]
    positivity
  rw [hg] at r3
  apply hne
  norm_num at r3
  linarith

/-- The hypotheses are met. -/
example : sensorDemo.funky 1 ≠ 0 ∧ (1e-6 : ℝ) < sensorDemo.funky 1 / sensorDemo.G := by
  have hq : (√(2 : ℝ) / 2) ^ 2 = 1 / 2 := by rw [div_pow, sq_sqrt (by norm_num)]; norm_num
  have hfun : sensorDemo.funky 1 = 3 / 4 := by
    simp only [Ctx.funky, sensorDemo, sin_pi_div_four, hq]; norm_num
  rw [hfun, show sensorDemo.G = 9.8 from rfl]
  norm_num

end Welleng.Props
