import Verif.Model.Interpolate
import Verif.Lemmas.Arc
import Verif.Lemmas.Angles

namespace Welleng

open Real Spec

/-- Swap of the first two components of a row. -/
def swap (v : V3) : V3 := ⟨v.y, v.x, v.z⟩

theorem swap_smul (c : ℝ) (v : V3) : swap (c • v) = c • swap v := rfl
theorem swap_add (a b : V3) : swap (a + b) = swap a + swap b := rfl
theorem swap_swap (v : V3) : swap (swap v) = v := rfl
theorem swap_unit {v : V3} (h : v.IsUnit) : (swap v).IsUnit := by
  simp only [V3.IsUnit, V3.dot, swap] at *; linarith

theorem getVec_xyz' (inc azi : ℝ) : getVec inc azi false = swap (tangent inc azi) :=
  getVec_xyz inc azi

theorem deltaXyz_eq (a b : Station) :
    deltaXyz a b = swap (minCurveStep (b.md - a.md) a.inc a.azi b.inc b.azi) := rfl

/-- Slerp of unit rows at the right angle needs no renormalisation and stays unit. -/
theorem slerp_arg_unit {t1 t2 : V3} {d x : ℝ} (h1 : t1.IsUnit) (h2 : t2.IsUnit) (hs : sin d ≠ 0)
    (hc : cos d = V3.dot t1 t2) :
    ((sin (d - x) / sin d) • t1 + (sin x / sin d) • t2).IsUnit := by
  simp only [V3.IsUnit, V3.dot_add_left, V3.dot_add_right, V3.dot_smul_left, V3.dot_smul_right,
    V3.dot_comm t2 t1, ← hc]
  rw [h1, h2, sin_sub]
  have e1 := sin_sq_add_cos_sq d
  have e2 := sin_sq_add_cos_sq x
  field_simp
  linear_combination (sin d ^ 2) * e2 - (sin x ^ 2) * e1

/-- Direction at distance `x` along the arc from `s1` to `s2`. -/
theorem interp_tangent {s1 s2 : Station} {x : ℝ} (h0 : dogleg2 s1 s2 ≠ 0)
    (hpi : dogleg2 s1 s2 < π) :
    tangent (interpAngles s1 s2 x).1 (interpAngles s1 s2 x).2 =
      (sin (dogleg2 s1 s2 - x * (dogleg2 s1 s2 / (s2.md - s1.md))) / sin (dogleg2 s1 s2))
          • tangent s1.inc s1.azi
        + (sin (x * (dogleg2 s1 s2 / (s2.md - s1.md))) / sin (dogleg2 s1 s2))
          • tangent s2.inc s2.azi := by
  have hd0 : 0 < dogleg2 s1 s2 := lt_of_le_of_ne (getDogleg_nonneg ..) (Ne.symm h0)
  have hs : sin (dogleg2 s1 s2) ≠ 0 := (sin_pos_of_pos_of_lt_pi hd0 hpi).ne'
  have hc : cos (dogleg2 s1 s2) = V3.dot (tangent s1.inc s1.azi) (tangent s2.inc s2.azi) :=
    cos_getDogleg ..
  have hu := slerp_arg_unit (x := x * (dogleg2 s1 s2 / (s2.md - s1.md)))
    (tangent_unit s1.inc s1.azi) (tangent_unit s2.inc s2.azi) hs hc
  set w := (sin (dogleg2 s1 s2 - x * (dogleg2 s1 s2 / (s2.md - s1.md))) / sin (dogleg2 s1 s2))
          • tangent s1.inc s1.azi
        + (sin (x * (dogleg2 s1 s2 / (s2.md - s1.md))) / sin (dogleg2 s1 s2))
          • tangent s2.inc s2.azi with hw
  have hwu : (swap w).IsUnit := swap_unit hu
  have hsl : slerp (getVec s1.inc s1.azi false) (getVec s2.inc s2.azi false) (dogleg2 s1 s2)
      (x * (dogleg2 s1 s2 / (s2.md - s1.md))) = swap w := by
    unfold slerp
    rw [getVec_xyz', getVec_xyz', ← swap_smul, ← swap_smul, ← swap_add, ← hw]
    exact normalize_of_unit hwu
  unfold interpAngles
  rw [if_neg h0]
  simp only
  rw [hsl, getAngles_xyz_of_unit hwu, tangent_getAnglesXyz hwu]
  rfl

/-- On a zero dogleg the two tangents are equal. -/
theorem tangent_eq_of_dogleg_zero {s1 s2 : Station} (h : dogleg2 s1 s2 = 0) :
    tangent s1.inc s1.azi = tangent s2.inc s2.azi := by
  apply V3.eq_of_dot_eq_one (tangent_unit ..) (tangent_unit ..)
  rw [← cos_getDogleg]
  unfold dogleg2 at h
  rw [h, cos_zero]

/-- The step formula when both tangents are equal. -/
theorem minCurveStep_same {L i1 a1 i2 a2 : ℝ} (h : tangent i1 a1 = tangent i2 a2) :
    minCurveStep L i1 a1 i2 a2 = L • tangent i1 a1 := by
  have hd : getDogleg i1 a1 i2 a2 = 0 := by
    rw [getDogleg_eq_arccos, ← h, tangent_unit, arccos_one]
  unfold minCurveStep
  rw [minCurveStepRf_eq, hd, ← h]
  ext <;> simp [getRf] <;> ring

/-- Everything interpolation does, in terms of a circular curve (curved interval). -/
theorem interp_on_arc {s1 s2 : Station} (hL : s1.md < s2.md) (h0 : dogleg2 s1 s2 ≠ 0)
    (hpi : dogleg2 s1 s2 < π) :
    ∃ γ τ ν, CircularCurve γ τ ν (dogleg2 s1 s2 / (s2.md - s1.md)) ∧ γ 0 = 0 ∧
      τ 0 = tangent s1.inc s1.azi ∧ τ (s2.md - s1.md) = tangent s2.inc s2.azi ∧
      (∀ x, τ x = tangent (interpAngles s1 s2 x).1 (interpAngles s1 s2 x).2) := by
  have hd0 : 0 < dogleg2 s1 s2 := lt_of_le_of_ne (getDogleg_nonneg ..) (Ne.symm h0)
  obtain ⟨γ, τ, ν, hc, g0, t0, tL, ts⟩ := exists_arc (L := s2.md - s1.md)
    (tangent_unit s1.inc s1.azi) (tangent_unit s2.inc s2.azi) hd0 hpi
    (cos_getDogleg ..) (by linarith)
  exact ⟨γ, τ, ν, hc, g0, t0, tL, fun x => by rw [ts, interp_tangent h0 hpi]⟩

theorem interp_split {s1 s2 : Station} (hL : s1.md < s2.md) (hpi : dogleg2 s1 s2 < π) {x : ℝ}
    (hx0 : 0 ≤ x) (hx1 : x ≤ s2.md - s1.md) :
    minCurveStep x s1.inc s1.azi (interpAngles s1 s2 x).1 (interpAngles s1 s2 x).2
      + minCurveStep (s2.md - s1.md - x) (interpAngles s1 s2 x).1 (interpAngles s1 s2 x).2
          s2.inc s2.azi
      = minCurveStep (s2.md - s1.md) s1.inc s1.azi s2.inc s2.azi := by
  by_cases h0 : dogleg2 s1 s2 = 0
  · have ht := tangent_eq_of_dogleg_zero h0
    have : interpAngles s1 s2 x = (s1.inc, s1.azi) := by unfold interpAngles; rw [if_pos h0]
    rw [this]
    simp only
    rw [minCurveStep_same rfl, minCurveStep_same ht, minCurveStep_same ht, ← add_smul]
    congr 1; ring
  · obtain ⟨γ, τ, ν, hc, g0, t0, tL, ts⟩ := interp_on_arc hL h0 hpi
    have hd0 : 0 < dogleg2 s1 s2 := lt_of_le_of_ne (getDogleg_nonneg ..) (Ne.symm h0)
    have hLp : 0 < s2.md - s1.md := by linarith
    have hκ : 0 ≤ dogleg2 s1 s2 / (s2.md - s1.md) := (div_pos hd0 hLp).le
    have hkL : dogleg2 s1 s2 / (s2.md - s1.md) * (s2.md - s1.md) = dogleg2 s1 s2 := by
      field_simp
    have e1 := arc_end hc g0 hκ hx0 (lt_of_le_of_lt
      ((mul_le_mul_of_nonneg_left hx1 hκ).trans hkL.le) hpi) t0 (ts x)
    have e3 := arc_end hc g0 hκ hLp.le (by rw [hkL]; exact hpi) t0 tL
    have e2 := arc_end (L := s2.md - s1.md - x) (hc.shift x) (by simp) hκ (by linarith)
      (lt_of_le_of_lt
        ((mul_le_mul_of_nonneg_left (by linarith : s2.md - s1.md - x ≤ s2.md - s1.md) hκ).trans
          hkL.le) hpi)
      (by simpa using ts x) (by
        show τ (x + (s2.md - s1.md - x)) = _
        rw [add_sub_cancel]; exact tL)
    rw [← e1, ← e2, ← e3]
    simp only [add_sub_cancel]

theorem twoRowPos_eq (startXyz p : V3) (s1 m : Station) :
    twoRowPos startXyz p s1 m = p + minCurveStep (m.md - s1.md) s1.inc s1.azi m.inc m.azi := by
  unfold twoRowPos
  rw [deltaXyz_eq]
  ext <;> simp [getNev, swap] <;> ring

end Welleng
