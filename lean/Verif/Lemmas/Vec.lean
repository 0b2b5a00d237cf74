import Verif.Model.Vec
import Mathlib.Analysis.InnerProductSpace.PiL2

namespace Welleng.V3

theorem dot_comm (a b : V3) : dot a b = dot b a := by simp only [dot]; ring
theorem dot_add_left (a b c : V3) : dot (a + b) c = dot a c + dot b c := by
  simp only [dot, add_x, add_y, add_z]; ring
theorem dot_add_right (a b c : V3) : dot a (b + c) = dot a b + dot a c := by
  simp only [dot, add_x, add_y, add_z]; ring
theorem dot_smul_left (c : ℝ) (a b : V3) : dot (c • a) b = c * dot a b := by
  simp only [dot, smul_x, smul_y, smul_z]; ring
theorem dot_smul_right (c : ℝ) (a b : V3) : dot a (c • b) = c * dot a b := by
  simp only [dot, smul_x, smul_y, smul_z]; ring
theorem dot_sub_left (a b c : V3) : dot (a - b) c = dot a c - dot b c := by
  simp only [dot, sub_x, sub_y, sub_z]; ring
theorem dot_sub_right (a b c : V3) : dot a (b - c) = dot a b - dot a c := by
  simp only [dot, sub_x, sub_y, sub_z]; ring
theorem dot_self_nonneg (a : V3) : 0 ≤ dot a a := by
  simp only [dot]; nlinarith [sq_nonneg a.x, sq_nonneg a.y, sq_nonneg a.z]
theorem norm_nonneg (a : V3) : 0 ≤ norm a := Real.sqrt_nonneg _
theorem norm_sq (a : V3) : norm a ^ 2 = dot a a := Real.sq_sqrt (dot_self_nonneg a)

theorem dot_self_eq_zero {a : V3} : dot a a = 0 ↔ a = 0 := by
  constructor
  · intro h
    simp only [dot] at h
    have hx : a.x = 0 := by nlinarith [sq_nonneg a.x, sq_nonneg a.y, sq_nonneg a.z]
    have hy : a.y = 0 := by nlinarith [sq_nonneg a.x, sq_nonneg a.y, sq_nonneg a.z]
    have hz : a.z = 0 := by nlinarith [sq_nonneg a.x, sq_nonneg a.y, sq_nonneg a.z]
    ext <;> assumption
  · rintro rfl; simp [dot]

/-- Cauchy–Schwarz. -/
theorem dot_sq_le (a b : V3) : dot a b ^ 2 ≤ dot a a * dot b b := by
  simp only [dot]
  nlinarith [sq_nonneg (a.x * b.y - a.y * b.x), sq_nonneg (a.x * b.z - a.z * b.x),
    sq_nonneg (a.y * b.z - a.z * b.y)]

theorem dot_le_norm (a b : V3) : dot a b ≤ norm a * norm b := by
  have h := dot_sq_le a b
  rw [← norm_sq, ← norm_sq, ← mul_pow] at h
  exact le_of_abs_le (abs_le_of_sq_le_sq h (mul_nonneg (norm_nonneg a) (norm_nonneg b)))

theorem norm_add_le (a b : V3) : norm (a + b) ≤ norm a + norm b := by
  apply Real.sqrt_le_iff.mpr
  refine ⟨add_nonneg (norm_nonneg a) (norm_nonneg b), ?_⟩
  have : dot (a + b) (a + b) = dot a a + 2 * dot a b + dot b b := by
    rw [dot_add_left, dot_add_right, dot_add_right, dot_comm b a]; ring
  rw [this, add_sq, norm_sq, norm_sq]
  nlinarith [dot_le_norm a b]

theorem norm_smul (c : ℝ) (a : V3) : norm (c • a) = |c| * norm a := by
  unfold norm
  rw [dot_smul_left, dot_smul_right, ← mul_assoc, Real.sqrt_mul (mul_self_nonneg c),
    Real.sqrt_mul_self_eq_abs]

theorem norm_zero : norm 0 = 0 := by simp [norm, dot]

/-- Unit vectors are equal iff their dot product is one. -/
theorem eq_of_dot_eq_one {a b : V3} (ha : a.IsUnit) (hb : b.IsUnit) (h : dot a b = 1) :
    a = b := by
  have : dot (a - b) (a - b) = 0 := by
    rw [dot_sub_left, dot_sub_right, dot_sub_right, dot_comm b a, ha, hb, h]; ring
  have := dot_self_eq_zero.mp this
  exact sub_eq_zero.mp this

end Welleng.V3
