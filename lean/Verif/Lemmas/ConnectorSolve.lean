import Verif.Model.ConnectorSolve
import Verif.Spec.Path
import Verif.Lemmas.Connector
import Verif.Lemmas.MinCurve
import Mathlib.Analysis.SpecialFunctions.Trigonometric.Bounds

namespace Welleng.Con

open Real Spec

theorem cos_angle {a b : V3} (ha : a.IsUnit) (hb : b.IsUnit) : cos (angle a b) = V3.dot a b :=
  cos_arccos (unit_dot_ge ha hb) (unit_dot_le ha hb)

theorem angle_nonneg (a b : V3) : 0 ≤ angle a b := arccos_nonneg _
theorem angle_le_pi (a b : V3) : angle a b ≤ π := arccos_le_pi _

theorem neg_unit {a : V3} (ha : a.IsUnit) : ((-1 : ℝ) • a).IsUnit := by
  simp only [V3.IsUnit, V3.dot_smul_left, V3.dot_smul_right]
  rw [ha]; norm_num

theorem angle_comm (a b : V3) : angle a b = angle b a := by
  unfold angle; rw [V3.dot_comm]

theorem angle_neg (a b : V3) : angle ((-1 : ℝ) • a) ((-1 : ℝ) • b) = angle a b := by
  unfold angle; rw [V3.dot_smul_left, V3.dot_smul_right]; congr 1; ring

theorem angle_self {a : V3} (ha : a.IsUnit) : angle a a = 0 := by
  unfold angle
  rw [show V3.dot a a = 1 from ha, arccos_one]

theorem half_eq (R : ℝ) {d : ℝ} (hd : d ≠ 0) : R * d * getRf d / 2 = R * tan (d / 2) := by
  unfold getRf; rw [if_neg hd]; field_simp

/-- A circular curve moved by a constant. -/
theorem CircularCurve.move {γ τ ν : ℝ → V3} {κ : ℝ} (h : CircularCurve γ τ ν κ) (q : V3) :
    CircularCurve (fun s => q + γ s) τ ν κ := by
  refine ⟨fun s => ?_, h.deriv_tan, h.deriv_nor, h.unit_tan, h.unit_nor, h.ortho⟩
  have hk : HasDeriv (fun _ : ℝ => q) 0 s :=
    ⟨hasDerivAt_const _ _, hasDerivAt_const _ _, hasDerivAt_const _ _⟩
  exact (hk.add (h.deriv_pos s)).congr (zero_add _)

/-- `get_pos` is the end of the arc between the two directions. -/
theorem arcTo_getPos {v1 v2 : V3} {d R : ℝ} (pos : V3) (h1 : v1.IsUnit) (h2 : v2.IsUnit)
    (hd0 : 0 < d) (hd1 : d < π) (hc : cos d = V3.dot v1 v2) (hR : 0 < R) :
    ArcTo R (R * d) pos v1 (getPos pos v1 v2 (R * d) (getRf d)) v2 := by
  obtain ⟨γ, τ, ν, hcc, g0, t0, tL, -⟩ := exists_arc h1 h2 hd0 hd1 hc (mul_pos hR hd0)
  have hk : d / (R * d) = 1 / R := by field_simp
  rw [hk] at hcc
  refine ⟨fun s => pos + γ s, τ, ν, CircularCurve.move hcc pos, ?_, t0, ?_, tL⟩
  · simp [g0]
  · have hkL : 1 / R * (R * d) = d := by field_simp
    have e1 := tan_half_mul_sin (cos_half_ne_zero hd0.le hd1)
    have e2 := tan_half_mul_one_add_cos (cos_half_ne_zero hd0.le hd1)
    have ht := hcc.tan_eq (R * d)
    rw [tL, t0, hkL] at ht
    show pos + γ (R * d) = _
    rw [hcc.pos_eq (one_div_ne_zero hR.ne') g0, hkL, t0]
    unfold getPos
    rw [half_eq R hd0.ne', ht, ← e1, ← e2]
    ext <;> simp <;> field_simp <;> ring

/-- End and angle of an arc that turns by less than half a circle. -/
theorem arcTo_end {R d : ℝ} {pos1 v1 pos2 v2 : V3} (h : ArcTo R (R * d) pos1 v1 pos2 v2)
    (hR : 0 < R) (hd0 : 0 ≤ d) (hd1 : d < π) :
    angle v1 v2 = d ∧ pos2 = getPos pos1 v1 v2 (R * d) (getRf d) ∧ v1.IsUnit ∧ v2.IsUnit := by
  obtain ⟨γ, τ, ν, hcc, g0, t0, gL, tL⟩ := h
  have hkL : 1 / R * (R * d) = d := by field_simp
  have hu1 : v1.IsUnit := t0 ▸ hcc.unit_tan 0
  have hu2 : v2.IsUnit := tL ▸ hcc.unit_tan _
  have ht := hcc.tan_eq (R * d)
  rw [tL, t0, hkL] at ht
  have ho := hcc.ortho 0
  rw [t0] at ho
  refine ⟨?_, ?_, hu1, hu2⟩
  · unfold angle
    rw [ht, V3.dot_add_right, V3.dot_smul_right, V3.dot_smul_right, ho,
      show V3.dot v1 v1 = 1 from hu1, mul_one, mul_zero, add_zero, arccos_cos hd0 hd1.le]
  · have hm := CircularCurve.move hcc (-pos1)
    have h0 : (fun s => -pos1 + γ s) 0 = 0 := by simp [g0]
    have hp := hm.pos_eq (one_div_ne_zero hR.ne') h0 (R * d)
    simp only [gL, hkL, t0] at hp
    have hp' : pos2 = pos1 + (-pos1 + pos2) := by abel
    rw [hp', hp]
    unfold getPos
    rcases eq_or_lt_of_le hd0 with hz | hpos
    · subst hz; ext <;> simp
    · have e1 := tan_half_mul_sin (cos_half_ne_zero hpos.le hd1)
      have e2 := tan_half_mul_one_add_cos (cos_half_ne_zero hpos.le hd1)
      rw [half_eq R hpos.ne', ht, ← e1, ← e2]
      ext <;> simp <;> field_simp <;> ring

/-- An arc walked backwards: `get_pos` from the far end along the reversed directions. -/
theorem getPos_back {q p v1 v2 : V3} {L f : ℝ}
    (h : q = getPos p ((-1 : ℝ) • v2) ((-1 : ℝ) • v1) L f) : p = getPos q v1 v2 L f := by
  rw [h]; unfold getPos
  ext <;> simp <;> ring

theorem one_le_getRf {d : ℝ} (h0 : 0 ≤ d) (h1 : d < π) : 1 ≤ getRf d := by
  unfold getRf
  split_ifs with h
  · exact le_rfl
  · have hd : 0 < d := lt_of_le_of_ne h0 (Ne.symm h)
    have := Real.le_tan (x := d / 2) (by linarith) (by linarith)
    rw [div_mul_eq_mul_div, le_div_iff₀ hd]; linarith

theorem getVecTarget_unit {pos1 vec1 posT : V3} {t dc f : ℝ} (hv : vec1.IsUnit)
    (h : ¬ dirUndefined pos1 vec1 posT t dc f) :
    (getVecTarget pos1 vec1 posT t dc f).IsUnit := by
  unfold getVecTarget
  simp only
  split_ifs with h0
  · exact hv
  · have h1 : ¬ (dc * f / 2 + t = 0 ∨ posT - pos1 - (dc * f / 2) • vec1 = 0) :=
      fun hh => h ⟨h0, hh⟩
    push Not at h1
    exact normalize_unit (smul_ne_zero (one_div_ne_zero h1.1) h1.2)

end Welleng.Con
