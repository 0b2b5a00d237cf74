import Verif.Model.Connector
import Verif.Lemmas.Angles
import Verif.Lemmas.Arc
import Mathlib.Tactic.LinearCombination
import Mathlib.Tactic.FieldSimp

namespace Welleng.Con

open Real Spec

theorem cos_two_atan2 {y x : ℝ} (h : x ≠ 0 ∨ y ≠ 0) :
    cos (2 * atan2 y x) = (x ^ 2 - y ^ 2) / (x ^ 2 + y ^ 2) := by
  have hp : 0 < x ^ 2 + y ^ 2 := by rcases h with h | h <;> positivity
  rw [cos_two_mul, cos_atan2 h, div_pow, sq_sqrt hp.le]
  field_simp; ring

theorem sin_two_atan2 {y x : ℝ} (h : x ≠ 0 ∨ y ≠ 0) :
    sin (2 * atan2 y x) = 2 * x * y / (x ^ 2 + y ^ 2) := by
  have hp : 0 < x ^ 2 + y ^ 2 := by rcases h with h | h <;> positivity
  rw [sin_two_mul, cos_atan2 h, sin_atan2]
  have : √(x ^ 2 + y ^ 2) * √(x ^ 2 + y ^ 2) = x ^ 2 + y ^ 2 := mul_self_sqrt hp.le
  have hs : √(x ^ 2 + y ^ 2) ≠ 0 := (sqrt_pos.mpr hp).ne'
  field_simp
  rw [sq (√_), this]

theorem cos_checkDogleg (d : ℝ) : cos (checkDogleg d) = cos d := by
  unfold checkDogleg; split_ifs <;> simp [cos_add_two_pi]
theorem sin_checkDogleg (d : ℝ) : sin (checkDogleg d) = sin d := by
  unfold checkDogleg; split_ifs <;> simp [sin_add_two_pi]

theorem atan2_mem (y x : ℝ) : -π < atan2 y x ∧ atan2 y x ≤ π :=
  ⟨Complex.neg_pi_lt_arg _, Complex.arg_le_pi _⟩

theorem checkDogleg_nonneg (y x : ℝ) : 0 ≤ checkDogleg (2 * atan2 y x) := by
  have := atan2_mem y x
  unfold checkDogleg; split_ifs <;> linarith
theorem checkDogleg_le (y x : ℝ) : checkDogleg (2 * atan2 y x) ≤ 2 * π := by
  have := atan2_mem y x
  unfold checkDogleg; split_ifs <;> linarith

/-- The plane geometry behind `min_dist_to_target`. -/
theorem curveHold_plane {R p n T : ℝ} (hT : T ^ 2 = p ^ 2 + n ^ 2 - 2 * R * n)
    (h : 2 * R - n ≠ 0 ∨ p - T ≠ 0) :
    p = R * sin (2 * atan2 (p - T) (2 * R - n)) + T * cos (2 * atan2 (p - T) (2 * R - n)) ∧
    n = R * (1 - cos (2 * atan2 (p - T) (2 * R - n)))
      + T * sin (2 * atan2 (p - T) (2 * R - n)) := by
  rw [cos_two_atan2 h, sin_two_atan2 h]
  have hp : 0 < (2 * R - n) ^ 2 + (p - T) ^ 2 := by rcases h with h | h <;> positivity
  obtain ⟨q, hq⟩ : ∃ q, q = (2 * R - n) ^ 2 + (p - T) ^ 2 := ⟨_, rfl⟩
  rw [← hq] at hp ⊢
  have hq0 := hp.ne'
  constructor
  · field_simp
    linear_combination p * hq + (-(p - T)) * hT
  · field_simp
    linear_combination (n - R) * hq + (2 * R - n) * hT

theorem sin_eq_zero_cases {d : ℝ} (h0 : 0 ≤ d) (h1 : d ≤ 2 * π) (h : cos d = 1) :
    d = 0 ∨ d = 2 * π := by
  obtain ⟨k, hk⟩ := (cos_eq_one_iff d).mp h
  have hpi := pi_pos
  have hk0 : (-1 : ℤ) < k := by
    by_contra hc
    have : (k : ℝ) ≤ -1 := by exact_mod_cast not_lt.mp hc
    nlinarith
  have hk1 : k < 2 := by
    by_contra hc
    have : (2 : ℝ) ≤ k := by exact_mod_cast not_lt.mp hc
    nlinarith
  have : k = 0 ∨ k = 1 := by omega
  rcases this with rfl | rfl
  · left; simpa using hk.symm
  · right; simpa using hk.symm

/-- Position reached by an arc from the start point. -/
theorem arc_split {R : ℝ} (hR : R ≠ 0) (v u : V3) (d : ℝ) :
    arcPos (1 / R) v u (R * d) = (R * sin d) • v + (R * (1 - cos d)) • u ∧
    arcTan (1 / R) v u (R * d) = cos d • v + sin d • u := by
  have : 1 / R * (R * d) = d := by field_simp
  constructor
  · simp only [arcPos, this]
    ext <;> simp <;> field_simp
  · simp only [arcTan, this]

/-- The direction recovered by `get_vec_target` from a point on the straight after an arc. -/
theorem getVecTarget_eq {R d T : ℝ} {pos1 v u posT : V3} (hR : 0 < R) (hd : d ≠ 0)
    (hc : cos (d / 2) ≠ 0) (hv : v.IsUnit) (hu : u.IsUnit) (ho : V3.dot v u = 0)
    (hden : R * tan (d / 2) + T ≠ 0)
    (h : posT - pos1 = (R * sin d + T * cos d) • v + (R * (1 - cos d) + T * sin d) • u) :
    getVecTarget pos1 v posT T (R * d) (getRf d) = cos d • v + sin d • u := by
  have hhalf : R * d * getRf d / 2 = R * tan (d / 2) := by
    unfold getRf; rw [if_neg hd]; field_simp
  have e1 := tan_half_mul_sin hc
  have e2 := tan_half_mul_one_add_cos hc
  unfold getVecTarget
  simp only [hhalf, mul_eq_zero, hR.ne', hd, or_self, if_false]
  have hvec : posT - pos1 - (R * tan (d / 2)) • v
      = (R * tan (d / 2) + T) • (cos d • v + sin d • u) := by
    rw [h]
    ext <;> simp <;>
      first
      | linear_combination (-(R * v.x)) * e2 - (R * u.x) * e1
      | linear_combination (-(R * v.y)) * e2 - (R * u.y) * e1
      | linear_combination (-(R * v.z)) * e2 - (R * u.z) * e1
  have hun : (cos d • v + sin d • u).IsUnit := by
    simp only [V3.IsUnit, V3.dot_add_left, V3.dot_add_right, V3.dot_smul_left,
      V3.dot_smul_right, ho, V3.dot_comm u v]
    rw [hv, hu]
    linear_combination sin_sq_add_cos_sq d
  rw [hvec, smul_smul, one_div, inv_mul_cancel₀ hden, one_smul, normalize_of_unit hun]

/-- Splitting an offset into its component along a unit vector and a unit normal. -/
theorem offset_split {v delta : V3} (hv : v.IsUnit) {n : ℝ} (hn : 0 < n)
    (h : n ^ 2 = V3.dot delta delta - V3.dot delta v ^ 2) :
    ∃ u : V3, u.IsUnit ∧ V3.dot v u = 0 ∧ delta = V3.dot delta v • v + n • u := by
  refine ⟨(1 / n) • (delta - V3.dot delta v • v), ?_, ?_, ?_⟩
  · simp only [V3.IsUnit, V3.dot_smul_left, V3.dot_smul_right, V3.dot_sub_left, V3.dot_sub_right,
      V3.dot_comm v delta]
    rw [hv]
    field_simp
    linear_combination -h
  · simp only [V3.dot_smul_left, V3.dot_smul_right, V3.dot_sub_left, V3.dot_sub_right,
      V3.dot_comm v delta]
    rw [hv]; ring
  · ext <;> simp <;> field_simp <;> ring

theorem dot_le_norm_unit {v delta : V3} (hv : v.IsUnit) : V3.dot delta v ≤ V3.norm delta := by
  have := V3.dot_le_norm delta v
  rwa [norm_of_unit hv, mul_one] at this

end Welleng.Con
