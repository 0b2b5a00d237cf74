import Verif.Props.InterpTvd
import Verif.Props.Refine

/-! Interpolating on the rest of an interval is interpolating on the interval. -/

namespace Welleng.Props

open Real Welleng Spec

/-- What is left to turn at a point of an arc. -/
theorem rest_dogleg {s1 s2 : Station} (hL : s1.md < s2.md) (hd : dogleg2 s1 s2 ≠ 0)
    (hpi : dogleg2 s1 s2 < π) {y : ℝ} (h0 : 0 ≤ y) (h1 : y ≤ s2.md - s1.md) {i a : ℝ}
    (ht : tangent i a = tangent (interpAngles s1 s2 y).1 (interpAngles s1 s2 y).2) :
    getDogleg i a s2.inc s2.azi
      = dogleg2 s1 s2 - y * (dogleg2 s1 s2 / (s2.md - s1.md)) := by
  have hdp : 0 < dogleg2 s1 s2 := lt_of_le_of_ne (getDogleg_nonneg ..) (Ne.symm hd)
  have hsin : 0 < sin (dogleg2 s1 s2) := sin_pos_of_pos_of_lt_pi hdp hpi
  have hLp : 0 < s2.md - s1.md := by linarith
  have hI := interp_tangent (x := y) hd hpi
  have hcos : V3.dot (tangent s1.inc s1.azi) (tangent s2.inc s2.azi) = cos (dogleg2 s1 s2) :=
    (cos_getDogleg ..).symm
  set d := dogleg2 s1 s2 with hdd
  set v := y * (d / (s2.md - s1.md)) with hv
  have y0 : 0 ≤ v := by positivity
  have y1 : v ≤ d := by
    rw [hv, ← mul_div_assoc, div_le_iff₀ hLp]
    nlinarith
  have hs2 := sin_sq_add_cos_sq d
  have c2 : V3.dot (tangent i a) (tangent s2.inc s2.azi) = cos (d - v) := by
    rw [ht, hI, V3.dot_add_left, V3.dot_smul_left, V3.dot_smul_left, hcos, tangent_unit,
      sin_sub, cos_sub]
    field_simp
    linear_combination -sin v * hs2
  rw [getDogleg_eq_arccos, c2, arccos_cos (by linarith) (by linarith)]

theorem sub_tangent {s1 s2 n : Station} (hL : s1.md < s2.md) (hpi : dogleg2 s1 s2 < π) {y x : ℝ}
    (h0 : 0 ≤ y) (h1 : y < s2.md - s1.md) (hm : n.md = s1.md + y)
    (ht : tangent n.inc n.azi = tangent (interpAngles s1 s2 y).1 (interpAngles s1 s2 y).2) :
    tangent (interpAngles n s2 x).1 (interpAngles n s2 x).2
      = tangent (interpAngles s1 s2 (y + x)).1 (interpAngles s1 s2 (y + x)).2 := by
  by_cases hd : dogleg2 s1 s2 = 0
  · have e : tangent n.inc n.azi = tangent s1.inc s1.azi := by rw [ht, interpAngles, if_pos hd]
    have hd' : dogleg2 n s2 = 0 := by
      have : getDogleg s1.inc s1.azi s2.inc s2.azi = 0 := hd
      unfold dogleg2
      rw [getDogleg_congr e rfl, this]
    rw [interpAngles, if_pos hd', interpAngles, if_pos hd]
    exact e
  · have hdp : 0 < dogleg2 s1 s2 := lt_of_le_of_ne (getDogleg_nonneg ..) (Ne.symm hd)
    have hsin : 0 < sin (dogleg2 s1 s2) := sin_pos_of_pos_of_lt_pi hdp hpi
    have hLp : 0 < s2.md - s1.md := by linarith
    have hr : dogleg2 n s2 = dogleg2 s1 s2 - y * (dogleg2 s1 s2 / (s2.md - s1.md)) :=
      rest_dogleg hL hd hpi h0 h1.le ht
    have hr0 : 0 < dogleg2 n s2 := by
      rw [hr, sub_pos, ← mul_div_assoc, div_lt_iff₀ hLp]
      nlinarith
    have hrpi : dogleg2 n s2 < π := by
      rw [hr]
      have : 0 ≤ y * (dogleg2 s1 s2 / (s2.md - s1.md)) := by positivity
      linarith
    have hsin' : 0 < sin (dogleg2 n s2) := sin_pos_of_pos_of_lt_pi hr0 hrpi
    have hκ : dogleg2 n s2 / (s2.md - n.md) = dogleg2 s1 s2 / (s2.md - s1.md) := by
      rw [hr, hm, div_eq_div_iff (by linarith) hLp.ne']
      field_simp
      ring
    rw [interp_tangent hr0.ne' hrpi, ht, interp_tangent hd hpi, interp_tangent hd hpi, hκ]
    set κ := dogleg2 s1 s2 / (s2.md - s1.md) with hk
    set d := dogleg2 s1 s2 with hdd
    rw [hr] at hsin' ⊢
    rw [smul_add, smul_smul, smul_smul, add_assoc, ← add_smul, add_mul]
    have e1 : sin (d - y * κ - x * κ) / sin (d - y * κ) * (sin (d - y * κ) / sin d)
        = sin (d - (y * κ + x * κ)) / sin d := by
      have := hsin'.ne'
      field_simp
      ring_nf
    have e2 : sin (d - y * κ - x * κ) / sin (d - y * κ) * (sin (y * κ) / sin d)
        + sin (x * κ) / sin (d - y * κ) = sin (y * κ + x * κ) / sin d := by
      have h1 := hsin'.ne'
      have h2 := hsin.ne'
      clear_value κ d
      generalize y * κ = v at *
      generalize x * κ = u at *
      obtain ⟨w, hw⟩ : ∃ w, d = w + v := ⟨d - v, by ring⟩
      subst hw
      rw [show w + v - v = w by ring] at *
      field_simp
      rw [sin_sub, sin_add, sin_add]
      ring
    rw [e1, e2]

theorem sub_pos' {s1 s2 n : Station} (hL : s1.md < s2.md) (hpi : dogleg2 s1 s2 < π) {y x : ℝ}
    (h0 : 0 ≤ y) (hx0 : 0 ≤ x) (hx1 : y + x ≤ s2.md - s1.md) (h1 : y < s2.md - s1.md)
    (hm : n.md = s1.md + y)
    (ht : tangent n.inc n.azi = tangent (interpAngles s1 s2 y).1 (interpAngles s1 s2 y).2) (p : V3) :
    interpPosNev (interpPosNev p s1 s2 y) n s2 x = interpPosNev p s1 s2 (y + x) := by
  have hs := sub_tangent (x := x) hL hpi h0 h1 hm ht
  unfold interpPosNev
  rw [minCurveStep_congr ht hs, add_assoc]
  congr 1
  by_cases hd : dogleg2 s1 s2 = 0
  · have : ∀ u, interpAngles s1 s2 u = (s1.inc, s1.azi) := by
      intro u; rw [interpAngles, if_pos hd]
    simp only [this]
    rw [minCurveStep_same rfl, minCurveStep_same rfl, minCurveStep_same rfl, ← add_smul]
  · obtain ⟨γ, τ, ν, hc, g0, t0, tL, ts⟩ := interp_on_arc hL hd hpi
    have hd0 : 0 < dogleg2 s1 s2 := lt_of_le_of_ne (getDogleg_nonneg ..) (Ne.symm hd)
    have hLp : 0 < s2.md - s1.md := by linarith
    have hκ : 0 ≤ dogleg2 s1 s2 / (s2.md - s1.md) := (div_pos hd0 hLp).le
    have hkL : dogleg2 s1 s2 / (s2.md - s1.md) * (s2.md - s1.md) = dogleg2 s1 s2 := by
      field_simp
    have lt : ∀ u, u ≤ s2.md - s1.md → dogleg2 s1 s2 / (s2.md - s1.md) * u < π := fun u hu =>
      lt_of_le_of_lt ((mul_le_mul_of_nonneg_left hu hκ).trans hkL.le) hpi
    have e1 := arc_end hc g0 hκ h0 (lt y h1.le) t0 (ts y)
    have e3 := arc_end hc g0 hκ (by linarith) (lt (y + x) hx1) t0 (ts (y + x))
    have e2 := arc_end (L := x) (hc.shift y) (by simp) hκ hx0 (lt x (by linarith))
      (by simpa using ts y) (ts (y + x))
    rw [← e1, ← e2, ← e3]
    abel_nf

/-- The vertical depth along an interval is a continuous function of the distance. -/
theorem depth_continuous {s1 s2 : Station} (hL : s1.md < s2.md) (hpi : dogleg2 s1 s2 < π) (p : V3) :
    ContinuousOn (fun y => (interpPosNev p s1 s2 y).z) (Set.Icc 0 (s2.md - s1.md)) := by
  by_cases hd : dogleg2 s1 s2 = 0
  · have : (fun y => (interpPosNev p s1 s2 y).z) = fun y => p.z + y * cos s1.inc := by
      funext y
      rw [interpPosNev, interpAngles, if_pos hd]
      simp only
      rw [minCurveStep_same rfl]
      rfl
    rw [this]
    fun_prop
  · refine ContinuousOn.congr (f := fun y => p.z + (s2.md - s1.md) / (dogleg2 s1 s2 *
        sin (dogleg2 s1 s2)) * (cos s1.inc * sin (dogleg2 s1 s2) * sin (y * dogleg2 s1 s2 /
        (s2.md - s1.md)) + (cos s1.inc * cos (dogleg2 s1 s2) - cos s2.inc)
            * (cos (y * dogleg2 s1 s2 / (s2.md - s1.md)) - 1))) ?_ ?_
    · fun_prop
    · intro y hy
      simp only [interpPosNev, V3.add_z]
      rw [interp_step_z hL hd hpi hy.1 hy.2]

/-- At the end of the interval is its lower station. -/
theorem interp_end {s1 s2 : Station} (hL : s1.md < s2.md) (hpi : dogleg2 s1 s2 < π) (p : V3) :
    interpPosNev p s1 s2 (s2.md - s1.md)
      = p + minCurveStep (s2.md - s1.md) s1.inc s1.azi s2.inc s2.azi := by
  have := interp_split hL hpi (x := s2.md - s1.md) (by linarith) le_rfl
  rw [sub_self, minCurveStep_zero, add_zero] at this
  rw [interpPosNev, this]

end Welleng.Props
