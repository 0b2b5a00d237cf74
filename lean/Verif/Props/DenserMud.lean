import Verif.Props.Fluid

/-! C386: a denser mud contains more weighting material. -/

namespace Welleng.Props

open Fluid

theorem fraction_lt {v v' : ℝ} (h0 : 0 ≤ v) (h : v < v') : v / (1 + v) < v' / (1 + v') := by
  rw [div_lt_div_iff₀ (by linarith) (by linarith)]
  linarith

/-- **C386** Of two muds made with the same base liquids and weighting material, neither lighter than
the base, the one of higher density has more weighting material, no more oil or water, and is the
denser mixture (if the material is denser than the base); in both, oil and water are in the ratio
requested. -/
theorem C386_denser {rho rho' temp pressure w : ℝ} {material : String} {r r' : Ref}
    (h : init rho temp pressure w material = .ok r) (h' : init rho' temp pressure w material = .ok r')
    (hw0 : 0 ≤ w) (hw1 : w ≤ 1) (hbase : w * r.waterDensity + (1 - w) * r.oilDensity ≤ rho)
    (hlt : rho < rho') :
    r.volSolid < r'.volSolid ∧ r'.volWater ≤ r.volWater ∧ r'.volOil ≤ r.volOil ∧
    r.volWater * (1 - w) = r.volOil * w ∧ r'.volWater * (1 - w) = r'.volOil * w ∧
    (w * r.waterDensity + (1 - w) * r.oilDensity < r.solidDensity → mixture r < mixture r') := by
  have m := C48_mixture_density h
  have m' := C48_mixture_density h'
  obtain ⟨solid, hm, hs, h0, rfl⟩ := init_ok h
  obtain ⟨solid', hm', -, h0', rfl⟩ := init_ok h'
  rw [hm] at hm'
  obtain rfl := Option.some.inj hm'
  simp only at hbase m m' ⊢
  have hv0 : 0 ≤ volumeAdded rho (baseDensity w (water.density temp pressure)
      (oil.density temp pressure)) solid := by
    unfold volumeAdded baseDensity
    exact div_nonneg (by linarith) hs.le
  have hvv : volumeAdded rho (baseDensity w (water.density temp pressure)
      (oil.density temp pressure)) solid < volumeAdded rho' (baseDensity w (water.density temp pressure)
      (oil.density temp pressure)) solid := by
    unfold volumeAdded
    exact div_lt_div_of_pos_right (by linarith) hs
  have e : ∀ x : ℝ, (x - (w * water.density temp pressure + (1 - w) * oil.density temp pressure)) / solid
      = volumeAdded x (baseDensity w (water.density temp pressure) (oil.density temp pressure)) solid :=
    fun _ => rfl
  refine ⟨fraction_lt hv0 hvv, ?_, ?_, ?_, ?_, ?_⟩
  · exact div_le_div_of_nonneg_left hw0 (by linarith) (by linarith)
  · exact div_le_div_of_nonneg_left (by linarith) (by linarith) (by linarith)
  · rw [div_mul_eq_mul_div, div_mul_eq_mul_div, mul_comm]
  · rw [div_mul_eq_mul_div, div_mul_eq_mul_div, mul_comm]
  · intro hd
    generalize mixture _ = x at m ⊢
    generalize mixture _ = x' at m' ⊢
    generalize w * water.density temp pressure + (1 - w) * oil.density temp pressure = b at hbase hd m m'
    have m2 : x * (solid + rho - b) = rho * solid := by
      have := congrArg (· * solid) m
      rw [mul_assoc, add_mul, div_mul_cancel₀ _ hs.ne'] at this
      linarith
    have m2' : x' * (solid + rho' - b) = rho' * solid := by
      have := congrArg (· * solid) m'
      rw [mul_assoc, add_mul, div_mul_cancel₀ _ hs.ne'] at this
      linarith
    have p : 0 < solid + rho - b := by linarith
    have p' : 0 < solid + rho' - b := by linarith
    rw [← eq_div_iff p.ne'] at m2
    rw [← eq_div_iff p'.ne'] at m2'
    rw [m2, m2', div_lt_div_iff₀ p p']
    nlinarith [mul_pos hs (mul_pos (sub_pos.2 hlt) (sub_pos.2 hd))]

/-- Non-vacuity: 10 and 12 ppg muds with the defaults. -/
example : ∃ r r', init 10 32 0 0.2 "barite" = .ok r ∧ init 12 32 0 0.2 "barite" = .ok r' ∧
    0.2 * r.waterDensity + (1 - 0.2) * r.oilDensity ≤ 10 ∧
    0.2 * r.waterDensity + (1 - 0.2) * r.oilDensity < r.solidDensity := by
  have h : 1 + volumeAdded 10 (baseDensity 0.2 (water.density 32 0) (oil.density 32 0)) 35 ≠ 0 := by
    norm_num [volumeAdded, baseDensity, water, oil, Coef.density]
  have h' : 1 + volumeAdded 12 (baseDensity 0.2 (water.density 32 0) (oil.density 32 0)) 35 ≠ 0 := by
    norm_num [volumeAdded, baseDensity, water, oil, Coef.density]
  refine ⟨_, _, by simp only [init, materialDensity, if_true]; rw [if_neg h],
    by simp only [init, materialDensity, if_true]; rw [if_neg h'], ?_, ?_⟩ <;>
  norm_num [water, oil, Coef.density]

end Welleng.Props
