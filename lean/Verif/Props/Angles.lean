import Verif.Lemmas.Angles
import Verif.Lemmas.Interpolate
import Mathlib.LinearAlgebra.Matrix.Trace
import Mathlib.Algebra.Order.Star.Real

/-!
Properties C11-C14: direction vectors and angles, NEV / XYZ conversion, borehole frame
rotation, curvature rate and radius (`/repo/welleng/utils.py` 160-526).
-/

namespace Welleng.Props

open Real Welleng Spec

/-! ## C11 -/

/-- C11: `get_vec` returns the unit tangent in the requested axis order. -/
theorem C11_getVec_is_unit_tangent (inc azi : ℝ) :
    (getVec inc azi true).IsUnit ∧ (getVec inc azi false).IsUnit ∧
    getVec inc azi true = tangent inc azi ∧
    getVec inc azi false = ⟨(tangent inc azi).y, (tangent inc azi).x, (tangent inc azi).z⟩ := by
  refine ⟨?_, ?_, getVec_nev .., getVec_xyz ..⟩
  · rw [getVec_nev]; exact tangent_unit ..
  · rw [getVec_xyz]
    have := tangent_unit inc azi
    simp only [V3.IsUnit, V3.dot] at this ⊢
    linarith

/-- The azimuth normalised into `[0, 2π)`: the unique angle in that range that differs from
`a` by a multiple of `2π`. -/
def IsNormalisedAzi (a b : ℝ) : Prop := 0 ≤ b ∧ b < 2 * π ∧ ∃ k : ℤ, b = a + k * (2 * π)

/-- C11: vector → angles undoes angles → vector, for both axis orders and every inclination
strictly between `0` and `π`. -/
theorem C11_angles_round_trip (nev : Bool) {inc : ℝ} (azi : ℝ) (h0 : 0 < inc) (h1 : inc < π) :
    (getAngles (getVec inc azi nev) nev).1 = inc ∧
    IsNormalisedAzi azi (getAngles (getVec inc azi nev) nev).2 := by
  have hs : 0 < sin inc := sin_pos_of_pos_of_lt_pi h0 h1
  have key : getAngles (getVec inc azi nev) nev
      = getAnglesXyz ⟨(tangent inc azi).y, (tangent inc azi).x, (tangent inc azi).z⟩ := by
    cases nev
    · rw [getAngles_xyz_of_unit (C11_getVec_is_unit_tangent inc azi).2.1, getVec_xyz]
    · rw [getAngles_nev_of_unit (C11_getVec_is_unit_tangent inc azi).1, getVec_nev]
  rw [key]
  have hr : √((sin inc * sin azi) ^ 2 + (sin inc * cos azi) ^ 2) = sin inc := by
    rw [show (sin inc * sin azi) ^ 2 + (sin inc * cos azi) ^ 2
      = sin inc ^ 2 * (sin azi ^ 2 + cos azi ^ 2) by ring, sin_sq_add_cos_sq, mul_one,
      sqrt_sq hs.le]
  constructor
  · simp only [getAnglesXyz, tangent]
    rw [hr, atan2_sin_cos (by linarith) h1.le]
  · simp only [getAnglesXyz, tangent]
    rw [pmod_atan2 hs]
    exact ⟨pmod_nonneg _ two_pi_pos, pmod_lt _ two_pi_pos, exists_pmod _ _⟩

/-- C11: at vertical (up or down) the inclination is still returned, whatever the azimuth. -/
theorem C11_vertical_inclination (nev : Bool) (azi : ℝ) :
    (getAngles (getVec 0 azi nev) nev).1 = 0 ∧ (getAngles (getVec π azi nev) nev).1 = π := by
  have key : ∀ inc, getAngles (getVec inc azi nev) nev
      = getAnglesXyz ⟨(tangent inc azi).y, (tangent inc azi).x, (tangent inc azi).z⟩ := by
    intro inc
    cases nev
    · rw [getAngles_xyz_of_unit (C11_getVec_is_unit_tangent inc azi).2.1, getVec_xyz]
    · rw [getAngles_nev_of_unit (C11_getVec_is_unit_tangent inc azi).1, getVec_nev]
  rw [key, key]
  constructor
  · have := atan2_sin_cos (θ := 0) (by linarith [pi_pos]) pi_pos.le
    simpa [getAnglesXyz, tangent] using this
  · have := atan2_sin_cos (θ := π) (by linarith [pi_pos]) le_rfl
    simpa [getAnglesXyz, tangent] using this

/-- C11: angles → vector undoes vector → angles for every non-zero vector (the result is the
direction of the vector), in both axis orders. -/
theorem C11_vector_round_trip (nev : Bool) {v : V3} (h : v ≠ 0) :
    getVec (getAngles v nev).1 (getAngles v nev).2 nev = normalize v := by
  have hu := normalize_unit h
  have hu' : (⟨(normalize v).y, (normalize v).x, (normalize v).z⟩ : V3).IsUnit := by
    simp only [V3.IsUnit, V3.dot] at hu ⊢
    linarith
  cases nev
  · rw [getVec_xyz]
    have : tangent (getAngles v false).1 (getAngles v false).2
        = ⟨(normalize v).y, (normalize v).x, (normalize v).z⟩ := tangent_getAnglesXyz hu
    rw [this]
  · rw [getVec_nev]
    show tangent (getAnglesXyz ⟨(normalize v).y, (normalize v).x, (normalize v).z⟩).1
      (getAnglesXyz ⟨(normalize v).y, (normalize v).x, (normalize v).z⟩).2 = _
    rw [tangent_getAnglesXyz hu']

example : (0 : ℝ) < π / 3 ∧ π / 3 < π := ⟨by positivity, by linarith [pi_pos]⟩
example : (⟨1, -2, 3⟩ : V3) ≠ 0 := by
  intro h; have := congrArg V3.x h; simp at this

/-! ## C12 -/

/-- C12: `get_xyz` and `get_nev` with the same datum are mutually inverse, swap the first two
axes, and preserve the distance between any two points. -/
theorem C12_nev_xyz_inverse (p q sx sn : V3) :
    getXyz (getNev p sx sn) sx sn = p ∧ getNev (getXyz p sx sn) sx sn = p ∧
    V3.norm (getNev p sx sn - getNev q sx sn) = V3.norm (p - q) ∧
    V3.norm (getXyz p sx sn - getXyz q sx sn) = V3.norm (p - q) ∧
    getNev sx sx sn = sn ∧
    getNev (sx + ⟨1, 0, 0⟩) sx sn = sn + ⟨0, 1, 0⟩ ∧
    getNev (sx + ⟨0, 1, 0⟩) sx sn = sn + ⟨1, 0, 0⟩ ∧
    getNev (sx + ⟨0, 0, 1⟩) sx sn = sn + ⟨0, 0, 1⟩ := by
  refine ⟨?_, ?_, ?_, ?_, ?_, ?_, ?_, ?_⟩
  · ext <;> simp [getNev, getXyz]
  · ext <;> simp [getNev, getXyz]
  · unfold V3.norm; congr 1; simp [V3.dot, getNev]; ring
  · unfold V3.norm; congr 1; simp [V3.dot, getXyz]; ring
  all_goals ext <;> simp [getNev] <;> ring

/-! ## C13 -/

/-- The borehole frame rotation is a rotation: orthogonal with determinant one, and its third
row is the borehole tangent, its second row horizontal. -/
theorem C13_transform_is_rotation (inc azi : ℝ) :
    getTransform inc azi * (getTransform inc azi).transpose = 1 ∧
    (getTransform inc azi).transpose * getTransform inc azi = 1 ∧
    (getTransform inc azi).det = 1 ∧
    getTransform inc azi 2 = ![(tangent inc azi).x, (tangent inc azi).y, (tangent inc azi).z] ∧
    getTransform inc azi 1 2 = 0 := by
  have h1 := sin_sq_add_cos_sq inc
  have h2 := sin_sq_add_cos_sq azi
  have hA : getTransform inc azi * (getTransform inc azi).transpose = 1 := by
    ext i j
    fin_cases i <;> fin_cases j <;>
      simp [getTransform, Matrix.mul_apply, Fin.sum_univ_three] <;>
      first
        | ring1
        | linear_combination h1 + (cos inc ^ 2) * h2
        | linear_combination h2
        | linear_combination h1 + (sin inc ^ 2) * h2
        | linear_combination (cos inc * sin inc) * h2
  refine ⟨hA, mul_eq_one_comm.mp hA, ?_, ?_, ?_⟩
  · simp [getTransform, Matrix.det_fin_three]
    linear_combination h1 + (cos inc ^ 2 + sin inc ^ 2) * h2
  · funext j; fin_cases j <;> simp [getTransform, tangent]
  · simp [getTransform]

/-- C13: covariances survive NEV → HLA → NEV and HLA → NEV → HLA unchanged, and so do error
vectors. -/
theorem C13_round_trip (inc azi : ℝ) (c : M3) (v : Fin 3 → ℝ) :
    hlaToNevCov inc azi (nevToHlaCov inc azi c) = c ∧
    nevToHlaCov inc azi (hlaToNevCov inc azi c) = c ∧
    hlaToNevVec inc azi (nevToHlaVec inc azi v) = v ∧
    nevToHlaVec inc azi (hlaToNevVec inc azi v) = v := by
  obtain ⟨hA, hB, -⟩ := C13_transform_is_rotation inc azi
  have hv : ∀ w, nevToHlaVec inc azi w = Matrix.vecMul w (getTransform inc azi).transpose := by
    intro w; funext j
    simp [nevToHlaVec, Matrix.vecMul, dotProduct, Matrix.transpose_apply]
  refine ⟨?_, ?_, ?_, ?_⟩
  · unfold hlaToNevCov nevToHlaCov
    rw [show (getTransform inc azi).transpose * (getTransform inc azi * c *
      (getTransform inc azi).transpose) * getTransform inc azi =
      ((getTransform inc azi).transpose * getTransform inc azi) * c *
      ((getTransform inc azi).transpose * getTransform inc azi) by simp only [Matrix.mul_assoc],
      hB, one_mul, mul_one]
  · unfold hlaToNevCov nevToHlaCov
    rw [show getTransform inc azi * ((getTransform inc azi).transpose * c *
      getTransform inc azi) * (getTransform inc azi).transpose =
      (getTransform inc azi * (getTransform inc azi).transpose) * c *
      (getTransform inc azi * (getTransform inc azi).transpose) by simp only [Matrix.mul_assoc],
      hA, one_mul, mul_one]
  · rw [hv]; unfold hlaToNevVec; rw [Matrix.vecMul_vecMul, hB, Matrix.vecMul_one]
  · rw [hv]; unfold hlaToNevVec; rw [Matrix.vecMul_vecMul, hA, Matrix.vecMul_one]

/-- C13: the transform keeps symmetry, non-negative definiteness (in both directions) and the
total variance. -/
theorem C13_preserves (inc azi : ℝ) (c : M3) :
    (c.IsSymm ↔ (nevToHlaCov inc azi c).IsSymm) ∧
    (c.PosSemidef ↔ (nevToHlaCov inc azi c).PosSemidef) ∧
    (nevToHlaCov inc azi c).trace = c.trace ∧ (nevToHlaCov inc azi c).det = c.det := by
  obtain ⟨hA, hB, hdet, -⟩ := C13_transform_is_rotation inc azi
  have back := (C13_round_trip inc azi c 0).1
  have sym : ∀ (m t : M3), m.IsSymm → (t * m * t.transpose).IsSymm := by
    intro m t h
    unfold Matrix.IsSymm at *
    simp only [Matrix.transpose_mul, Matrix.transpose_transpose, h, Matrix.mul_assoc]
  have psd : ∀ (m t : M3), m.PosSemidef → (t * m * t.transpose).PosSemidef := by
    intro m t h
    have := h.mul_mul_conjTranspose_same t
    rwa [Matrix.conjTranspose_eq_transpose_of_trivial] at this
  refine ⟨⟨sym _ _, fun h => ?_⟩, ⟨psd _ _, fun h => ?_⟩, ?_, ?_⟩
  · rw [← back]
    have := sym _ (getTransform inc azi).transpose h
    rwa [Matrix.transpose_transpose] at this
  · rw [← back]
    have := psd _ (getTransform inc azi).transpose h
    rwa [Matrix.transpose_transpose] at this
  · unfold nevToHlaCov
    rw [Matrix.trace_mul_comm, ← Matrix.mul_assoc, hB, one_mul]
  · unfold nevToHlaCov
    rw [Matrix.det_mul, Matrix.det_mul, Matrix.det_transpose, hdet, one_mul, mul_one]

/-- C13: the transformed covariance of an error vector is the covariance of the transformed
vector. -/
theorem C13_cov_of_vec (inc azi : ℝ) (v : Fin 3 → ℝ) :
    nevToHlaCov inc azi (covFromVec v) = covFromVec (nevToHlaVec inc azi v) := by
  ext i j
  simp only [nevToHlaCov, covFromVec, nevToHlaVec, Matrix.mul_apply, Matrix.transpose_apply,
    Matrix.of_apply, Fin.sum_univ_three]
  ring

example : ∃ c : M3, c.PosSemidef ∧ c ≠ 0 := ⟨1, Matrix.PosSemidef.one, one_ne_zero⟩

/-! ## C14 -/

/-- C14: on positive values, radius and curvature rate are mutually inverse (scalar and array
code paths) and strictly decreasing, and the radius of rate `d` is the radius of the circle on
which 30 units of length turn `d` degrees. -/
theorem C14_inverse {r : ℝ} (hr : 0 < r) :
    (∃ d, dlsFromRadius r = .val d ∧ 0 < d ∧ radiusFromDls d = .val r ∧
      radians d * r = 30) ∧
    (∃ d, radiusFromDls r = .val d ∧ 0 < d ∧ dlsFromRadius d = .val r ∧
      radians r * d = 30) := by
  have hpi := pi_pos
  refine ⟨⟨360 / (2 * π * r) * 30, ?_, by positivity, ?_, ?_⟩,
    ⟨30 / r * 360 / (2 * π), ?_, by positivity, ?_, ?_⟩⟩
  · simp [dlsFromRadius, hr.ne']
  · have : 360 / (2 * π * r) * 30 ≠ 0 := by positivity
    simp only [radiusFromDls, this, if_false, Ext.val.injEq]
    field_simp
  · unfold radians; field_simp; norm_num
  · simp [radiusFromDls, hr.ne']
  · have : 30 / r * 360 / (2 * π) ≠ 0 := by positivity
    simp only [dlsFromRadius, this, if_false, Ext.val.injEq]
    field_simp
  · unfold radians; field_simp; norm_num

theorem C14_strictly_decreasing {a b : ℝ} (ha : 0 < a) (hab : a < b) :
    (∃ x y, dlsFromRadius a = .val x ∧ dlsFromRadius b = .val y ∧ y < x) ∧
    (∃ x y, radiusFromDls a = .val x ∧ radiusFromDls b = .val y ∧ y < x) := by
  have hb : 0 < b := ha.trans hab
  have hpi := pi_pos
  have hinv : 1 / b < 1 / a := one_div_lt_one_div_of_lt ha hab
  refine ⟨⟨_, _, if_neg ha.ne', if_neg hb.ne', ?_⟩, ⟨_, _, if_neg ha.ne', if_neg hb.ne', ?_⟩⟩
  · have e : ∀ x : ℝ, 360 / (2 * π * x) * 30 = (360 * 30 / (2 * π)) * (1 / x) := by
      intro x; ring
    rw [e, e]
    exact mul_lt_mul_of_pos_left hinv (by positivity)
  · have e : ∀ x : ℝ, 30 / x * 360 / (2 * π) = (360 * 30 / (2 * π)) * (1 / x) := by
      intro x; ring
    rw [e, e]
    exact mul_lt_mul_of_pos_left hinv (by positivity)

/-- C14: the scalar and the array code path agree except at radius zero, where the scalar path
of `dls_from_radius` returns infinity and the array path returns zero. -/
theorem C14_scalar_vs_array (r : ℝ) :
    radiusFromDlsArr r = radiusFromDls r ∧
    (dlsFromRadiusArr r = dlsFromRadius r ↔ r ≠ 0) := by
  constructor
  · by_cases h : r = 0 <;> simp [radiusFromDlsArr, radiusFromDls, h]
  · by_cases h : r = 0 <;> simp [dlsFromRadiusArr, dlsFromRadius, h]

end Welleng.Props
