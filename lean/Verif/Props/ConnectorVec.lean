import Verif.Props.ConnectorCurve

/-!
C40, C75: directions of an interpolated curve section.
-/

namespace Welleng.Props

open Real Spec Con

theorem cross_norm_sq (a b : V3) :
    V3.norm (V3.cross a b) ^ 2 = V3.dot a a * V3.dot b b - V3.dot a b ^ 2 := by
  rw [V3.norm_sq]; simp only [V3.cross, V3.dot]; ring

theorem inPlane_eq {v1 v2 : V3} (h1 : v1.IsUnit) :
    inPlane v1 v2 = (1 / V3.norm (V3.cross v1 v2)) • (v2 - V3.dot v1 v2 • v1) := by
  unfold inPlane
  have h : v1.x * v1.x + v1.y * v1.y + v1.z * v1.z = 1 := h1
  simp only
  generalize V3.norm (V3.cross v1 v2) = q
  ext <;> simp [V3.cross, V3.dot]
  · linear_combination (q⁻¹ * v2.x) * h
  · linear_combination (q⁻¹ * v2.y) * h
  · linear_combination (q⁻¹ * v2.z) * h

/-- C40: for unit tangents at an angle `dogleg` below a half turn (and not within the `1e-10`
tolerance of parallel or antiparallel) the interpolated directions are the tangents of the
circular arc that leaves along `vec1` and after `distCurve` runs along `vec2`. -/
theorem C40_directions_on_arc {v1 v2 : V3} {L d : ℝ} (h1 : v1.IsUnit) (h2 : v2.IsUnit)
    (hL : 0 < L) (hd0 : 0 < d) (hd1 : d < π) (hc : cos d = V3.dot v1 v2)
    (htol : 1e-10 ≤ V3.norm (V3.cross v1 v2)) :
    ∃ γ τ ν, CircularCurve γ τ ν (d / L) ∧ τ 0 = v1 ∧ τ L = v2 ∧
      ∀ s, curveVec v1 v2 L d s = τ s := by
  have hs : 0 < sin d := sin_pos_of_pos_of_lt_pi hd0 hd1
  have hκ : d / L ≠ 0 := (div_pos hd0 hL).ne'
  have hn : V3.norm (V3.cross v1 v2) = sin d := by
    have e := cross_norm_sq v1 v2
    rw [h1, h2, ← hc] at e
    have := sin_sq_add_cos_sq d
    have e2 : V3.norm (V3.cross v1 v2) ^ 2 = sin d ^ 2 := by linarith
    rwa [sq_eq_sq₀ (V3.norm_nonneg _) hs.le] at e2
  have hin : inPlane v1 v2 = turnNormal v1 v2 d := by
    rw [inPlane_eq h1, hn, ← hc]; rfl
  have hcc := arc_circular hκ h1 (turnNormal_unit h1 h2 hs.ne' hc) (turnNormal_ortho h1 hc)
  refine ⟨_, _, _, hcc, ?_, ?_, ?_⟩
  · ext <;> simp [arcTan]
  · have e : d / L * L = d := by field_simp
    ext <;> simp [arcTan, turnNormal, e] <;> field_simp <;> ring
  · intro s
    unfold curveVec
    simp only
    rw [if_neg (not_lt.mpr htol), hin]
    exact normalize_of_unit (hcc.unit_tan s)

/-- C40, in the words of the property: unit vectors, in the plane of the two tangents, from the
first to the second. -/
theorem C40_unit_in_plane {v1 v2 : V3} {L d : ℝ} (h1 : v1.IsUnit) (h2 : v2.IsUnit)
    (hL : 0 < L) (hd0 : 0 < d) (hd1 : d < π) (hc : cos d = V3.dot v1 v2)
    (htol : 1e-10 ≤ V3.norm (V3.cross v1 v2)) :
    (∀ s, (curveVec v1 v2 L d s).IsUnit) ∧
    (∀ s, V3.dot (curveVec v1 v2 L d s) (V3.cross v1 v2) = 0) ∧
    curveVec v1 v2 L d 0 = v1 ∧ curveVec v1 v2 L d L = v2 := by
  obtain ⟨γ, τ, ν, hcc, t0, tL, hall⟩ := C40_directions_on_arc h1 h2 hL hd0 hd1 hc htol
  refine ⟨fun s => by rw [hall]; exact hcc.unit_tan s, fun s => ?_, by rw [hall, t0],
    by rw [hall, tL]⟩
  have hs : sin d ≠ 0 := (sin_pos_of_pos_of_lt_pi hd0 hd1).ne'
  have e : d / L * L = d := by field_simp
  have hL2 := hcc.tan_eq L
  rw [tL, t0, e] at hL2
  have hν : ν 0 = (1 / sin d) • (v2 - cos d • v1) := by
    rw [hL2]; ext <;> simp <;> field_simp
  rw [hall, hcc.tan_eq s, t0, hν]
  simp only [V3.dot, V3.cross, V3.add_x, V3.add_y, V3.add_z, V3.smul_x, V3.smul_y, V3.smul_z,
    V3.sub_x, V3.sub_y, V3.sub_z]
  ring

example : curveVec ⟨0, 0, 1⟩ ⟨1, 0, 0⟩ 100 (π / 2) 100 = ⟨1, 0, 0⟩ := by
  refine (C40_unit_in_plane (v1 := ⟨0, 0, 1⟩) (v2 := ⟨1, 0, 0⟩) (by simp [V3.IsUnit, V3.dot])
    (by simp [V3.IsUnit, V3.dot]) (by norm_num) (by positivity) (by linarith [pi_pos])
    (by simp [V3.dot]) ?_).2.2.2
  simp [V3.cross, V3.norm, V3.dot]
  norm_num

/-- C75 is false for a turn of more than half a circle: the interpolation then turns the wrong
way round and does not end at `vec2`. -/
theorem C75_reflex_ends_elsewhere {v u : V3} {L d : ℝ} (hv : v.IsUnit) (hu : u.IsUnit)
    (ho : V3.dot v u = 0) (hL : 0 < L) (hd0 : π < d) (hd1 : d < 2 * π)
    (htol : 1e-10 ≤ |sin d|) :
    curveVec v (cos d • v + sin d • u) L d L = cos d • v - sin d • u ∧
    curveVec v (cos d • v + sin d • u) L d L ≠ cos d • v + sin d • u := by
  have hs : sin d < 0 := by
    have := sin_pos_of_pos_of_lt_pi (show 0 < d - π by linarith) (by linarith)
    rw [sin_sub_pi] at this
    linarith
  have hdot : V3.dot v (cos d • v + sin d • u) = cos d := by
    rw [V3.dot_add_right, V3.dot_smul_right, V3.dot_smul_right, hv, ho]; ring
  have hself : V3.dot (cos d • v + sin d • u) (cos d • v + sin d • u) = 1 := by
    simp only [V3.dot_add_left, V3.dot_add_right, V3.dot_smul_left, V3.dot_smul_right, ho,
      V3.dot_comm u v]
    rw [hv, hu]
    linear_combination sin_sq_add_cos_sq d
  have hself2 : V3.IsUnit (cos d • v - sin d • u) := by
    simp only [V3.IsUnit, V3.dot_sub_left, V3.dot_sub_right, V3.dot_smul_left,
      V3.dot_smul_right, ho, V3.dot_comm u v]
    rw [hv, hu]
    linear_combination sin_sq_add_cos_sq d
  have hn : V3.norm (V3.cross v (cos d • v + sin d • u)) = -sin d := by
    have e := cross_norm_sq v (cos d • v + sin d • u)
    rw [hv, hself, hdot] at e
    have := sin_sq_add_cos_sq d
    have e2 : V3.norm (V3.cross v (cos d • v + sin d • u)) ^ 2 = (-sin d) ^ 2 := by
      rw [e]; linear_combination (-1 : ℝ) * this
    rwa [sq_eq_sq₀ (V3.norm_nonneg _) (by linarith)] at e2
  have hin : inPlane v (cos d • v + sin d • u) = -u := by
    rw [inPlane_eq hv, hn, hdot]
    have := hs.ne
    ext <;> simp <;> field_simp
  have e1 : curveVec v (cos d • v + sin d • u) L d L = cos d • v - sin d • u := by
    unfold curveVec
    simp only
    rw [hn, if_neg (by rw [abs_of_neg hs] at htol; exact not_lt.mpr htol), hin,
      div_mul_cancel₀ _ hL.ne']
    rw [show cos d • v + sin d • -u = cos d • v - sin d • u by
      ext <;> simp <;> ring]
    exact normalize_of_unit hself2
  refine ⟨e1, ?_⟩
  rw [e1]
  intro hc
  have h3 := congrArg (fun z => V3.dot z u) hc
  simp only [V3.dot_sub_left, V3.dot_add_left, V3.dot_smul_left, ho] at h3
  rw [hu] at h3
  linarith

/-- C75 witness: a vertical start and the target `(1/2, 0, -1)` with radius 1 (behind and to the
side, outside the turning circle).  The solver turns by 270 degrees to run along `-north`; the
interpolated curve ends along `+north`. -/
theorem C75_witness : ∃ o, solveCurveHold 0 ⟨0, 0, 1⟩ ⟨1 / 2, 0, -1⟩ 1 = some o ∧
    o.vecTarget = ⟨-1, 0, 0⟩ ∧
    curveVec ⟨0, 0, 1⟩ o.vecTarget o.distCurve o.dogleg o.distCurve = ⟨1, 0, 0⟩ := by
  have hv : V3.IsUnit ⟨0, 0, 1⟩ := by simp [V3.IsUnit, V3.dot]
  have hu : V3.IsUnit ⟨1, 0, 0⟩ := by simp [V3.IsUnit, V3.dot]
  have ho : V3.dot ⟨0, 0, 1⟩ ⟨1, 0, 0⟩ = 0 := by simp [V3.dot]
  have h : (⟨1 / 2, 0, -1⟩ : V3) = 0 + (-1 : ℝ) • ⟨0, 0, 1⟩ + (1 / 2 : ℝ) • ⟨1, 0, 0⟩ := by
    ext <;> simp
  obtain ⟨h1, -⟩ := dist_components hv hu ho h
  have hT : √((-1 : ℝ) ^ 2 + (1 / 2) ^ 2 - 2 * 1 * (1 / 2)) = 1 / 2 := by
    rw [show (-1 : ℝ) ^ 2 + (1 / 2) ^ 2 - 2 * 1 * (1 / 2) = (1 / 2) ^ 2 by norm_num]
    exact sqrt_sq (by norm_num)
  have hat : atan2 (-1 - 1 / 2) (2 * 1 - 1 / 2) = -(π / 4) := by
    have h2 : atan2 ((3 / 2 * √2) * sin (-(π / 4))) ((3 / 2 * √2) * cos (-(π / 4)))
        = -(π / 4) := by
      rw [atan2_mul_sin_cos (by positivity)]
      exact (toIocMod_eq_self _).mpr ⟨by linarith [pi_pos], by linarith [pi_pos]⟩
    have s2 : √2 * √2 = (2 : ℝ) := mul_self_sqrt (by norm_num)
    rw [sin_neg, cos_neg, sin_pi_div_four, cos_pi_div_four] at h2
    rw [← h2]
    congr 1
    · linear_combination (3 / 4 : ℝ) * s2
    · linear_combination (-(3 / 4 : ℝ)) * s2
  have hmd : minDistToTarget 1 ⟨V3.norm ((⟨1 / 2, 0, -1⟩ : V3) - 0), -1, 1 / 2⟩
      = some (1 / 2, 2 * -(π / 4)) := by
    unfold minDistToTarget
    simp only [h1]
    rw [if_neg (by norm_num), hT, hat]
  have hd : checkDogleg (2 * -(π / 4)) = 3 * π / 2 := by
    unfold checkDogleg
    rw [if_pos (by linarith [pi_pos])]; ring
  have hcos : cos (3 * π / 2) = 0 := by
    rw [show 3 * π / 2 = π / 2 + π by ring, cos_add_pi, cos_pi_div_two, neg_zero]
  have hsin : sin (3 * π / 2) = -1 := by
    rw [show 3 * π / 2 = π / 2 + π by ring, sin_add_pi, sin_pi_div_two]
  have hhalf : 3 * π / 2 / 2 = π - π / 4 := by ring
  have htan : tan (3 * π / 2 / 2) = -1 := by
    rw [hhalf, tan_pi_sub, tan_pi_div_four]
  have hvec := getVecTarget_eq (R := 1) (d := 3 * π / 2) (T := 1 / 2) (pos1 := 0)
    (v := ⟨0, 0, 1⟩) (u := ⟨1, 0, 0⟩) (posT := ⟨1 / 2, 0, -1⟩) one_pos (by positivity)
    (by rw [hhalf, cos_pi_sub, cos_pi_div_four]; simp) hv hu ho (by rw [htan]; norm_num)
    (by rw [hsin, hcos]; ext <;> simp; norm_num)
  have hv2 : cos (3 * π / 2) • (⟨0, 0, 1⟩ : V3) + sin (3 * π / 2) • ⟨1, 0, 0⟩ = ⟨-1, 0, 0⟩ := by
    rw [hsin, hcos]; ext <;> simp
  refine ⟨⟨⟨1 / 2, 0, -1⟩ - (1 / 2 : ℝ) • ⟨-1, 0, 0⟩, ⟨-1, 0, 0⟩, 1 / 2, 3 * π / 2,
    1 * (3 * π / 2), |1 * (3 * π / 2)| + 1 / 2⟩, ?_, rfl, ?_⟩
  · unfold solveCurveHold
    rw [distBatch_eq hv hu ho (by norm_num) h]
    unfold curveHold
    rw [hmd]
    simp only [hd, getCurveHoldData, hvec, hv2]
  · have := (C75_reflex_ends_elsewhere (v := ⟨0, 0, 1⟩) (u := ⟨1, 0, 0⟩)
      (L := 1 * (3 * π / 2)) (d := 3 * π / 2) hv hu ho (by positivity)
      (by linarith [pi_pos]) (by linarith [pi_pos]) (by rw [hsin]; norm_num)).1
    rw [hv2] at this
    simp only
    rw [this, hsin, hcos]
    ext <;> simp

/-- C75, what holds: up to half a turn the property is C40. -/
theorem C75_up_to_half_turn_partial {v1 v2 : V3} {L d : ℝ} (h1 : v1.IsUnit) (h2 : v2.IsUnit)
    (hL : 0 < L) (hd0 : 0 < d) (hd1 : d < π) (hc : cos d = V3.dot v1 v2)
    (htol : 1e-10 ≤ V3.norm (V3.cross v1 v2)) : curveVec v1 v2 L d L = v2 :=
  (C40_unit_in_plane h1 h2 hL hd0 hd1 hc htol).2.2.2

end Welleng.Props
