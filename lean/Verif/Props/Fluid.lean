import Verif.Model.Fluid
import Mathlib.Analysis.SpecialFunctions.Log.Deriv
import Mathlib.MeasureTheory.Integral.IntervalIntegral.FundThmCalculus
import Mathlib.Analysis.SpecialFunctions.Integrals.Basic
import Mathlib.Tactic.LinearCombination
import Mathlib.Tactic.FieldSimp
import Mathlib.Tactic.NormNum
import Mathlib.Tactic.Positivity

/-!
C48: the reference volumes; C93: the density profile balances the mass of the column.
-/

namespace Welleng.Props

open Fluid

/-- The density of a mixture of the three components in the given volume fractions. -/
def mixture (r : Ref) : ℝ :=
  r.volWater * r.waterDensity + r.volOil * r.oilDensity + r.volSolid * r.solidDensity

theorem init_ok {rho temp pressure w : ℝ} {material : String} {r : Ref}
    (h : init rho temp pressure w material = .ok r) :
    ∃ solid, materialDensity material = some solid ∧ 0 < solid ∧
      1 + volumeAdded rho (baseDensity w (water.density temp pressure) (oil.density temp pressure))
        solid ≠ 0 ∧
      r = ⟨rho, oil.density temp pressure, water.density temp pressure, solid,
        w / (1 + volumeAdded rho (baseDensity w (water.density temp pressure)
          (oil.density temp pressure)) solid),
        (1 - w) / (1 + volumeAdded rho (baseDensity w (water.density temp pressure)
          (oil.density temp pressure)) solid),
        volumeAdded rho (baseDensity w (water.density temp pressure)
          (oil.density temp pressure)) solid / (1 + volumeAdded rho (baseDensity w
            (water.density temp pressure) (oil.density temp pressure)) solid)⟩ := by
  unfold init at h
  cases hm : materialDensity material with
  | none => simp [hm] at h
  | some solid =>
    simp only [hm] at h
    split_ifs at h with h0
    simp only [Except.ok.injEq] at h
    refine ⟨solid, rfl, ?_, h0, h.symm⟩
    unfold materialDensity at hm
    split_ifs at hm <;> simp only [Option.some.injEq] at hm <;> rw [← hm] <;> norm_num

/-- C48, what holds: the volume fractions add to one, and none is negative when the water ratio
is between 0 and 1 and the fluid is at least as dense as its base. -/
theorem C48_volumes_partial {rho temp pressure w : ℝ} {material : String} {r : Ref}
    (h : init rho temp pressure w material = .ok r) :
    r.volWater + r.volOil + r.volSolid = 1 ∧
    (0 ≤ w → w ≤ 1 → w * r.waterDensity + (1 - w) * r.oilDensity ≤ rho →
      0 ≤ r.volWater ∧ 0 ≤ r.volOil ∧ 0 ≤ r.volSolid) := by
  obtain ⟨solid, -, hs, h0, rfl⟩ := init_ok h
  constructor
  · simp only
    rw [← add_div, ← add_div]
    rw [div_eq_one_iff_eq h0]; ring
  · intro h1 h2 h3
    simp only at h3
    have hv : 0 ≤ volumeAdded rho (baseDensity w (water.density temp pressure)
        (oil.density temp pressure)) solid := by
      unfold volumeAdded baseDensity
      exact div_nonneg (by linarith) hs.le
    exact ⟨div_nonneg h1 (by linarith), div_nonneg (by linarith) (by linarith),
      div_nonneg hv (by linarith)⟩

/-- C48 is false: the mixture of the computed fractions is lighter than the fluid that was asked
for, by the factor one plus the added volume. -/
theorem C48_mixture_density {rho temp pressure w : ℝ} {material : String} {r : Ref}
    (h : init rho temp pressure w material = .ok r) :
    mixture r * (1 + (rho - (w * r.waterDensity + (1 - w) * r.oilDensity)) / r.solidDensity)
      = rho := by
  obtain ⟨solid, -, hs, h0, rfl⟩ := init_ok h
  unfold mixture
  simp only
  have he : (rho - (w * water.density temp pressure + (1 - w) * oil.density temp pressure)) / solid
      = volumeAdded rho (baseDensity w (water.density temp pressure)
        (oil.density temp pressure)) solid := rfl
  rw [he]
  have hv : volumeAdded rho (baseDensity w (water.density temp pressure)
      (oil.density temp pressure)) solid * solid = rho - (w * water.density temp pressure +
        (1 - w) * oil.density temp pressure) := by
    rw [← he]; exact div_mul_cancel₀ _ hs.ne'
  set v := volumeAdded rho (baseDensity w (water.density temp pressure)
      (oil.density temp pressure)) solid
  have : (w / (1 + v) * water.density temp pressure + (1 - w) / (1 + v) * oil.density temp pressure
      + v / (1 + v) * solid) * (1 + v) = w * water.density temp pressure
        + (1 - w) * oil.density temp pressure + v * solid := by
    field_simp
  rw [this, hv]; ring

/-- C48 is false: any fluid weighted above its base comes out too light. -/
theorem C48_too_light {rho temp pressure w : ℝ} {material : String} {r : Ref}
    (h : init rho temp pressure w material = .ok r) (hrho : 0 < rho)
    (hb : w * r.waterDensity + (1 - w) * r.oilDensity < rho) : mixture r < rho := by
  have hm := C48_mixture_density h
  obtain ⟨solid, -, hs, h0, rfl⟩ := init_ok h
  simp only at hm hb
  have hp := div_pos (sub_pos.mpr hb) hs
  by_contra hc
  push Not at hc
  nlinarith

/-- A 10 ppg mud with the defaults: it is constructed, and it is above its base. -/
example : ∃ r, init 10 32 0 0.2 "barite" = .ok r ∧
    0.2 * r.waterDensity + (1 - 0.2) * r.oilDensity < 10 := by
  have h : 1 + volumeAdded 10 (baseDensity 0.2 (water.density 32 0) (oil.density 32 0)) 35 ≠ 0 := by
    norm_num [volumeAdded, baseDensity, Coef.density, oil, water]
  refine ⟨_, by simp only [init, materialDensity]; simp only [if_true]; rw [if_neg h], ?_⟩
  norm_num [Coef.density, oil, water]

/-- An unknown weighting material is rejected. -/
theorem C48_unknown_material {rho temp pressure w : ℝ} {material : String}
    (h1 : material ≠ "barite") (h2 : material ≠ "spe_11118") :
    init rho temp pressure w material = .error .assertion := by
  simp [init, materialDensity, h1, h2]

/-! ### C93 -/

theorem integral_column {v a1 a2 D : ℝ} (ha : a2 ≠ 0) (h0 : 0 < a1) (hD : 0 ≤ D)
    (h1 : 0 < a1 + a2 * D) :
    ∫ z in (0 : ℝ)..D, v * a1 / (a1 + a2 * z) = v * a1 / a2 * Real.log ((a1 + a2 * D) / a1) := by
  have hpos : ∀ z ∈ Set.uIcc 0 D, 0 < a1 + a2 * z := by
    intro z hz
    rw [Set.uIcc_of_le hD] at hz
    rcases le_total 0 a2 with h | h
    · nlinarith [hz.1]
    · nlinarith [hz.2, mul_le_mul_of_nonpos_left hz.2 h]
  have hd : ∀ z ∈ Set.uIcc 0 D, HasDerivAt (fun z => v * a1 / a2 * Real.log (a1 + a2 * z))
      (v * a1 / (a1 + a2 * z)) z := by
    intro z hz
    have hp := hpos z hz
    have h2 : HasDerivAt (fun z : ℝ => a1 + a2 * z) a2 z := by
      have := ((hasDerivAt_id z).const_mul a2).const_add a1
      simpa using this
    refine ((h2.log hp.ne').const_mul (v * a1 / a2)).congr_deriv ?_
    field_simp
  have hc : IntervalIntegrable (fun z => v * a1 / (a1 + a2 * z)) MeasureTheory.volume 0 D := by
    apply ContinuousOn.intervalIntegrable
    intro z hz
    have hp := (hpos z hz).ne'
    exact (ContinuousAt.div (f := fun _ => v * a1) (g := fun z => a1 + a2 * z) (by fun_prop) (by fun_prop)
      hp).continuousWithinAt
  rw [intervalIntegral.integral_eq_sub_of_hasDerivAt hd hc, Real.log_div h1.ne' h0.ne']
  simp only [mul_zero, add_zero]
  ring

/-- C93: the objective minimised for one depth vanishes exactly at the average density that
balances the mass of the column: the density at the top times the depth is the average density
times the length that the mud takes in the hole, where the solids keep their volume and the oil
and water at depth `z` change theirs in the ratio of their density at the top to that at `z`. -/
theorem C93_mass_balance_partial {rhoAvg rhoTop tempTop vw vo pressure D gradient : ℝ} (hD : 0 < D)
    (hs : 1 - vw - vo ≠ 0)
    (dOil dWater : ℝ → ℝ)
    (hO : dOil = fun z => oil.density (tempTop + gradient * z) (pressure + G * rhoAvg * z))
    (hW : dWater = fun z => water.density (tempTop + gradient * z) (pressure + G * rhoAvg * z))
    (ho0 : 0 < dOil 0) (hoD : 0 < dOil D) (hw0 : 0 < dWater 0) (hwD : 0 < dWater D)
    (hon : dOil D ≠ dOil 0) (hwn : dWater D ≠ dWater 0) :
    getDensity rhoAvg rhoTop tempTop vw vo pressure D gradient = .ok 0 ↔
      rhoAvg * ∫ z in (0 : ℝ)..D, ((1 - vw - vo) + vo * dOil 0 / dOil z + vw * dWater 0 / dWater z)
        = rhoTop * D := by
  obtain ⟨a1, ha1⟩ : ∃ a1, a1 = (coefficients oil rhoAvg pressure tempTop gradient).1 := ⟨_, rfl⟩
  obtain ⟨a2, ha2⟩ : ∃ a2, a2 = (coefficients oil rhoAvg pressure tempTop gradient).2 := ⟨_, rfl⟩
  obtain ⟨b1, hb1⟩ : ∃ b1, b1 = (coefficients water rhoAvg pressure tempTop gradient).1 := ⟨_, rfl⟩
  obtain ⟨b2, hb2⟩ : ∃ b2, b2 = (coefficients water rhoAvg pressure tempTop gradient).2 := ⟨_, rfl⟩
  have hoz : ∀ z, dOil z = a1 + a2 * z := by
    intro z; rw [hO, ha1, ha2]; simp only [coefficients, Coef.density]; ring
  have hwz : ∀ z, dWater z = b1 + b2 * z := by
    intro z; rw [hW, hb1, hb2]; simp only [coefficients, Coef.density]; ring
  simp only [hoz, hwz, mul_zero, add_zero] at *
  have ha2' : a2 ≠ 0 := by rintro h; apply hon; rw [h]; ring
  have hb2' : b2 ≠ 0 := by rintro h; apply hwn; rw [h]; ring
  have i1 := integral_column (v := vo) ha2' ho0 hD.le hoD
  have i2 := integral_column (v := vw) hb2' hw0 hD.le hwD
  have hpos : ∀ {c1 c2 : ℝ}, 0 < c1 → 0 < c1 + c2 * D → ∀ z ∈ Set.uIcc 0 D, c1 + c2 * z ≠ 0 := by
    intro c1 c2 h1 h2 z hz
    rw [Set.uIcc_of_le hD.le] at hz
    rcases le_total 0 c2 with h | h
    · nlinarith [hz.1]
    · nlinarith [hz.2, mul_le_mul_of_nonpos_left hz.2 h]
  have hint : ∀ {v c1 c2 : ℝ}, 0 < c1 → 0 < c1 + c2 * D →
      IntervalIntegrable (fun z => v * c1 / (c1 + c2 * z)) MeasureTheory.volume 0 D := by
    intro v c1 c2 h1 h2
    apply ContinuousOn.intervalIntegrable
    intro z hz
    exact (ContinuousAt.div (f := fun _ => v * c1) (g := fun z => c1 + c2 * z) (by fun_prop) (by fun_prop)
      (hpos h1 h2 z hz)).continuousWithinAt
  have hI : ∫ z in (0 : ℝ)..D, ((1 - vw - vo) + vo * a1 / (a1 + a2 * z) + vw * b1 / (b1 + b2 * z))
      = (1 - vw - vo) * D + vo * a1 / a2 * Real.log ((a1 + a2 * D) / a1)
        + vw * b1 / b2 * Real.log ((b1 + b2 * D) / b1) := by
    rw [intervalIntegral.integral_add
      ((intervalIntegrable_const).add (hint ho0 hoD)) (hint hw0 hwD),
      intervalIntegral.integral_add intervalIntegrable_const (hint ho0 hoD), i1, i2]
    simp only [intervalIntegral.integral_const, smul_eq_mul, sub_zero]
    ring
  rw [hI]
  have hr : ¬ raises vw vo D a1 a2 b1 b2 := by
    rintro ⟨-, h | h | h | h | h | h | h⟩
    · exact ho0.ne' h
    · exact ha2' h
    · exact hw0.ne' h
    · exact hb2' h
    · exact absurd h (not_le.mpr (div_pos hoD ho0))
    · exact absurd h (not_le.mpr (div_pos hwD hw0))
    · exact mul_ne_zero hD.ne' hs h
  unfold getDensity
  simp only
  rw [if_neg (by rw [← ha1, ← ha2, ← hb1, ← hb2]; exact hr), Except.ok.injEq]
  unfold objective
  simp only [← ha1, ← ha2, ← hb1, ← hb2]
  rw [abs_eq_zero, sub_eq_zero]
  unfold func
  rw [if_neg hD.ne']
  generalize Real.log ((a1 + a2 * D) / a1) = L1
  generalize Real.log ((b1 + b2 * D) / b1) = L2
  have hden : D * (1 - vw - vo) ≠ 0 := mul_ne_zero hD.ne' hs
  rw [← sub_div, eq_div_iff hden]
  constructor
  · intro h
    linear_combination h
  · intro h
    linear_combination h

/-- C93 at the surface: the objective vanishes exactly at the surface density. -/
theorem C93_surface {rhoAvg rhoTop tempTop vw vo pressure gradient : ℝ} :
    getDensity rhoAvg rhoTop tempTop vw vo pressure 0 gradient = .ok 0 ↔ rhoAvg = rhoTop := by
  unfold getDensity
  simp only [raises, ne_eq, not_true_eq_false, false_and, if_false, Except.ok.injEq]
  unfold objective func
  simp only [if_true]
  rw [abs_eq_zero, sub_eq_zero]

/-- C93 is false for a fluid without weighting material: below the surface the profile always
raises, since the solids fraction is a divisor. -/
theorem C93_unweighted_fails {temp pressure w applied : ℝ} {material : String} {r : Ref}
    (h : init (baseDensity w (water.density temp pressure) (oil.density temp pressure)) temp pressure
      w material = .ok r) {depth : ℝ} (hd : depth ≠ 0) (rhoAvg gradient : ℝ) :
    getDensity rhoAvg r.fluidDensity temp r.volWater r.volOil applied depth gradient
      = .error .zeroDivision := by
  have hsum := (C48_volumes_partial h).1
  obtain ⟨solid, -, hs, h0, rfl⟩ := init_ok h
  simp only [volumeAdded, sub_self, zero_div, add_zero] at hsum ⊢
  unfold getDensity
  simp only
  rw [if_pos]
  refine ⟨hd, ?_⟩
  right; right; right; right; right; right
  rw [show 1 - w / 1 - (1 - w) / 1 = 0 by ring, mul_zero]

/-- A column of 10000 ft, 120 °F at the top, 250 °F at the bottom, meets the hypotheses. -/
example :
    let dOil := fun z => oil.density (120 + 0.013 * z) (0 + G * 10 * z)
    let dWater := fun z => water.density (120 + 0.013 * z) (0 + G * 10 * z)
    0 < dOil 0 ∧ 0 < dOil 10000 ∧ 0 < dWater 0 ∧ 0 < dWater 10000 ∧
      dOil 10000 ≠ dOil 0 ∧ dWater 10000 ≠ dWater 0 := by
  norm_num [Coef.density, oil, water, G]

end Welleng.Props
