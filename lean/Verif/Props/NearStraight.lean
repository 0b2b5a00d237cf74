import Verif.Props.ShortestCurveHold
import Verif.Props.ConnectorOrigin

/-!
C413: how much longer than the straight distance a curve-and-hold path is.
-/

namespace Welleng.Props

open Real Spec Con

/-- C413: the solution is at least as long as the distance and exceeds it by at most the radius
times the dogleg less its sine, which is less than one full circle. -/
theorem C413_excess {pos1 vec1 u posT : V3} {a b R : ℝ} (hv : vec1.IsUnit)
    (hu : u.IsUnit) (ho : V3.dot vec1 u = 0) (hR : 0 < R) (hb : 0 < b) (hbR : b ≠ 2 * R)
    (h : posT = pos1 + a • vec1 + b • u) (hout : R ≤ V3.norm (posT - (pos1 + R • u))) :
    ∃ o, solveCurveHold pos1 vec1 posT R = some o ∧
      V3.norm (posT - pos1) ≤ o.md ∧
      o.md ≤ V3.norm (posT - pos1) + R * (o.dogleg - sin o.dogleg) ∧
      o.md < V3.norm (posT - pos1) + 2 * π * R := by
  have hq := (outside_iff hv hu ho hR h).mp hout
  obtain ⟨h1, -⟩ := dist_components hv hu ho h
  obtain ⟨o, k, k1, k2, k3, -, k5, k6⟩ := curveHold_reaches hv hu ho hR hb hbR h hq
  obtain ⟨i1, i2, i3, i4, i5, i6⟩ := curveHold_in_plane hv hu ho hR hb hbR h hq k
  refine ⟨o, by rw [solveCurveHold, distBatch_eq hv hu ho hb.le h, k], ?_, ?_, ?_⟩
  · rw [k6]
    exact path_dist k1 (by rw [k5]; positivity) k2
  · have hp := sin_sq_add_cos_sq o.dogleg
    have q : o.tangent + R * sin o.dogleg = a * cos o.dogleg + b * sin o.dogleg := by
      rw [i5, i6]; linear_combination (-o.tangent) * hp
    have hcs : a * cos o.dogleg + b * sin o.dogleg ≤ V3.norm (posT - pos1) := by
      apply le_of_sq_le_sq _ (V3.norm_nonneg _)
      rw [h1]
      nlinarith [sq_nonneg (a * sin o.dogleg - b * cos o.dogleg)]
    rw [i4]; linarith
  · have ht : o.tangent ≤ V3.norm (posT - pos1) := by
      apply le_of_sq_le_sq _ (V3.norm_nonneg _)
      rw [h1, straight_sq i5 i6]
      nlinarith [mul_pos hR hb]
    rw [i4]
    have := mul_lt_mul_of_pos_left i2 hR
    linarith

/-- C413: with small enough radii the path is as close to the straight distance as one likes. -/
theorem C413_limit {pos1 vec1 u posT : V3} {a b ε : ℝ} (hv : vec1.IsUnit)
    (hu : u.IsUnit) (ho : V3.dot vec1 u = 0) (hb : 0 < b)
    (h : posT = pos1 + a • vec1 + b • u) (hε : 0 < ε) :
    ∃ R₀ > 0, ∀ R, 0 < R → R < R₀ → ∃ o, solveCurveHold pos1 vec1 posT R = some o ∧
      V3.norm (posT - pos1) ≤ o.md ∧ o.md < V3.norm (posT - pos1) + ε := by
  have h2 : 0 < 2 * π := two_pi_pos
  refine ⟨min (b / 2) (ε / (2 * π)), lt_min (by positivity) (by positivity), fun R hR hlt => ?_⟩
  have r1 := lt_of_lt_of_le hlt (min_le_left _ _)
  have r2 := (lt_div_iff₀ h2).mp (lt_of_lt_of_le hlt (min_le_right _ _))
  obtain ⟨o, k, k1, -, k3⟩ := C413_excess hv hu ho hR hb (by intro hc; linarith) h
    ((outside_iff hv hu ho hR h).mpr (by nlinarith [sq_nonneg a]))
  exact ⟨o, k, k1, by linarith⟩

/-- C413 hypotheses: a target 3 behind and 1 to the side of a vertical well, radius 1. -/
example : (∃ o, solveCurveHold 0 ⟨0, 0, 1⟩ ⟨1, 0, -3⟩ 1 = some o ∧
      V3.norm ((⟨1, 0, -3⟩ : V3) - 0) ≤ o.md ∧
      o.md < V3.norm ((⟨1, 0, -3⟩ : V3) - 0) + 2 * π * 1) ∧
    ∃ R₀ > 0, ∀ R, 0 < R → R < R₀ → ∃ o, solveCurveHold 0 ⟨0, 0, 1⟩ ⟨1, 0, -3⟩ R = some o ∧
      V3.norm ((⟨1, 0, -3⟩ : V3) - 0) ≤ o.md ∧
      o.md < V3.norm ((⟨1, 0, -3⟩ : V3) - 0) + 1 / 1000 := by
  have hv : (⟨0, 0, 1⟩ : V3).IsUnit := by norm_num [V3.IsUnit, V3.dot]
  have hu : (⟨1, 0, 0⟩ : V3).IsUnit := by norm_num [V3.IsUnit, V3.dot]
  have ho : V3.dot (⟨0, 0, 1⟩ : V3) ⟨1, 0, 0⟩ = 0 := by norm_num [V3.dot]
  have h : (⟨1, 0, -3⟩ : V3) = 0 + (-3 : ℝ) • (⟨0, 0, 1⟩ : V3) + (1 : ℝ) • ⟨1, 0, 0⟩ := by
    ext <;> simp
  refine ⟨?_, C413_limit hv hu ho one_pos h (by norm_num)⟩
  obtain ⟨o, k, k1, -, k3⟩ := C413_excess hv hu ho one_pos one_pos (by norm_num) h
    ((outside_iff hv hu ho one_pos h).mpr (by norm_num))
  exact ⟨o, k, k1, k3⟩

end Welleng.Props
