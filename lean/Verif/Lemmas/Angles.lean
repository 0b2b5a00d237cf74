import Verif.Model.Angles
import Verif.Lemmas.MinCurve
import Mathlib.Analysis.SpecialFunctions.Complex.Arg

namespace Welleng

open Real Spec

theorem sin_atan2 (y x : ℝ) : sin (atan2 y x) = y / √(x ^ 2 + y ^ 2) := by
  unfold atan2
  rw [Complex.sin_arg, Complex.norm_def, Complex.normSq_mk]
  simp only [sq]

theorem cos_atan2 {y x : ℝ} (h : x ≠ 0 ∨ y ≠ 0) : cos (atan2 y x) = x / √(x ^ 2 + y ^ 2) := by
  unfold atan2
  rw [Complex.cos_arg, Complex.norm_def, Complex.normSq_mk]
  · simp only [sq]
  · intro h0
    have := Complex.ext_iff.mp h0
    simp only [Complex.zero_re, Complex.zero_im] at this
    tauto

theorem atan2_mul_sin_cos {r : ℝ} (hr : 0 < r) (θ : ℝ) :
    atan2 (r * sin θ) (r * cos θ) = toIocMod Real.two_pi_pos (-π) θ := by
  unfold atan2
  rw [← Complex.arg_mul_cos_add_sin_mul_I_eq_toIocMod hr θ]
  congr 1
  apply Complex.ext <;> simp [Complex.cos_ofReal_re, Complex.sin_ofReal_re]

theorem atan2_sin_cos {θ : ℝ} (h0 : -π < θ) (h1 : θ ≤ π) : atan2 (sin θ) (cos θ) = θ := by
  have := atan2_mul_sin_cos one_pos θ
  rw [one_mul, one_mul] at this
  rw [this]
  exact (toIocMod_eq_self _).mpr ⟨h0, by linarith⟩

theorem pmod_nonneg (a : ℝ) {b : ℝ} (hb : 0 < b) : 0 ≤ pmod a b := by
  unfold pmod
  have := Int.floor_le (a / b)
  have h2 := mul_le_mul_of_nonneg_left this hb.le
  rw [mul_div_cancel₀ _ hb.ne'] at h2
  linarith

theorem pmod_lt (a : ℝ) {b : ℝ} (hb : 0 < b) : pmod a b < b := by
  unfold pmod
  have := Int.lt_floor_add_one (a / b)
  have h2 := mul_lt_mul_of_pos_left this hb
  rw [mul_div_cancel₀ _ hb.ne'] at h2
  linarith

theorem pmod_add_int_mul (a : ℝ) {b : ℝ} (hb : 0 < b) (k : ℤ) : pmod (a + k * b) b = pmod a b := by
  unfold pmod
  have : (a + k * b) / b = a / b + k := by field_simp
  rw [this, Int.floor_add_intCast]
  push_cast
  ring

theorem pmod_eq_self {a b : ℝ} (hb : 0 < b) (h0 : 0 ≤ a) (h1 : a < b) : pmod a b = a := by
  unfold pmod
  have : ⌊a / b⌋ = 0 := by
    rw [Int.floor_eq_zero_iff]
    exact ⟨div_nonneg h0 hb.le, (div_lt_one hb).mpr h1⟩
  rw [this]; simp

theorem exists_pmod (a b : ℝ) : ∃ k : ℤ, pmod a b = a + k * b :=
  ⟨-⌊a / b⌋, by unfold pmod; push_cast; ring⟩

theorem sin_pmod (a : ℝ) : sin (pmod a (2 * π)) = sin a := by
  obtain ⟨k, hk⟩ := exists_pmod a (2 * π)
  rw [hk, sin_add_int_mul_two_pi]

theorem cos_pmod (a : ℝ) : cos (pmod a (2 * π)) = cos a := by
  obtain ⟨k, hk⟩ := exists_pmod a (2 * π)
  rw [hk, cos_add_int_mul_two_pi]

theorem pmod_atan2 {r : ℝ} (hr : 0 < r) (θ : ℝ) :
    pmod (atan2 (r * sin θ) (r * cos θ) + 2 * π) (2 * π) = pmod θ (2 * π) := by
  rw [atan2_mul_sin_cos hr]
  have h := toIocMod_add_toIocDiv_zsmul Real.two_pi_pos (-π) θ
  have h1 := pmod_add_int_mul (toIocMod Real.two_pi_pos (-π) θ) two_pi_pos 1
  have h2 := pmod_add_int_mul (toIocMod Real.two_pi_pos (-π) θ) two_pi_pos
    (toIocDiv Real.two_pi_pos (-π) θ)
  rw [zsmul_eq_mul] at h
  rw [h] at h2
  rw [Int.cast_one, one_mul] at h1
  rw [h1, h2]

theorem norm_of_unit {v : V3} (h : v.IsUnit) : V3.norm v = 1 := by
  unfold V3.norm; rw [h, sqrt_one]

theorem normalize_of_unit {v : V3} (h : v.IsUnit) : normalize v = v := by
  unfold normalize; rw [norm_of_unit h]; simp

theorem normalize_unit {v : V3} (h : v ≠ 0) : (normalize v).IsUnit := by
  have h0 : V3.dot v v ≠ 0 := fun h' => h (V3.dot_self_eq_zero.mp h')
  have hn : V3.norm v ≠ 0 := by
    intro h'
    have := V3.norm_sq v
    rw [h'] at this
    exact h0 (by rw [← this]; ring)
  unfold normalize V3.IsUnit
  rw [V3.dot_smul_left, V3.dot_smul_right, ← V3.norm_sq]
  field_simp

theorem getVec_nev (inc azi : ℝ) : getVec inc azi true = tangent inc azi := by
  unfold getVec
  simp only [one_mul, if_true]
  exact normalize_of_unit (tangent_unit inc azi)

theorem getVec_xyz (inc azi : ℝ) :
    getVec inc azi false = ⟨(tangent inc azi).y, (tangent inc azi).x, (tangent inc azi).z⟩ := by
  unfold getVec
  simp only [one_mul]
  have := tangent_unit inc azi
  apply normalize_of_unit
  simp only [V3.IsUnit, V3.dot, tangent, Bool.false_eq_true, if_false] at *
  linarith

/-- The angles found for a unit `[x, y, z]` row describe that row. -/
theorem tangent_getAnglesXyz {v : V3} (h : v.IsUnit) :
    tangent (getAnglesXyz v).1 (getAnglesXyz v).2 = ⟨v.y, v.x, v.z⟩ := by
  have hu : v.x ^ 2 + v.y ^ 2 + v.z ^ 2 = 1 := by
    have := h; simp only [V3.IsUnit, V3.dot] at this; linarith
  have hxy : 0 ≤ v.x ^ 2 + v.y ^ 2 := by positivity
  set ρ := √(v.x ^ 2 + v.y ^ 2) with hρ
  have hρ2 : ρ ^ 2 = v.x ^ 2 + v.y ^ 2 := sq_sqrt hxy
  have hnrm : √(v.z ^ 2 + ρ ^ 2) = 1 := by
    rw [hρ2, show v.z ^ 2 + (v.x ^ 2 + v.y ^ 2) = 1 by linarith, sqrt_one]
  have hs : sin (atan2 ρ v.z) = ρ := by rw [sin_atan2, hnrm, div_one]
  have hc : cos (atan2 ρ v.z) = v.z := by
    rw [cos_atan2, hnrm, div_one]
    by_contra hcon
    push Not at hcon
    rw [hcon.1, hcon.2] at hnrm
    simp at hnrm
  have e1 : sin ((getAnglesXyz v).2) = sin (atan2 v.x v.y) := by
    simp only [getAnglesXyz]; rw [sin_pmod, sin_add_two_pi]
  have e2 : cos ((getAnglesXyz v).2) = cos (atan2 v.x v.y) := by
    simp only [getAnglesXyz]; rw [cos_pmod, cos_add_two_pi]
  have e0 : (getAnglesXyz v).1 = atan2 ρ v.z := rfl
  unfold tangent
  rw [e1, e2, e0, hs, hc, sin_atan2]
  have hcomm : v.y ^ 2 + v.x ^ 2 = v.x ^ 2 + v.y ^ 2 := add_comm _ _
  rw [hcomm, ← hρ]
  by_cases hz : ρ = 0
  · have hx : v.x = 0 := by
      have : v.x ^ 2 + v.y ^ 2 = 0 := by rw [← hρ2, hz]; ring
      nlinarith [sq_nonneg v.x, sq_nonneg v.y]
    have hy : v.y = 0 := by
      have : v.x ^ 2 + v.y ^ 2 = 0 := by rw [← hρ2, hz]; ring
      nlinarith [sq_nonneg v.x, sq_nonneg v.y]
    ext <;> simp [hz, hx, hy]
  · rw [cos_atan2, hcomm, ← hρ]
    · ext
      · simp only; field_simp
      · simp only; field_simp
      · rfl
    · by_contra hcon
      push Not at hcon
      apply hz
      rw [hρ, hcon.1, hcon.2]; simp

theorem getAngles_xyz_of_unit {v : V3} (h : v.IsUnit) : getAngles v false = getAnglesXyz v := by
  unfold getAngles
  simp only [normalize_of_unit h]
  rfl

theorem getAngles_nev_of_unit {v : V3} (h : v.IsUnit) :
    getAngles v true = getAnglesXyz ⟨v.y, v.x, v.z⟩ := by
  unfold getAngles
  simp only [normalize_of_unit h]
  rfl

end Welleng
