import Verif.Props.ArcBuild

/-! C391: an arc drilled in two runs (`/repo/welleng/utils.py` 529-700). -/

namespace Welleng.Props

open Real Welleng Spec Tf

/-- A unit direction at right angles to `v` is the one of some toolface. -/
theorem exists_toolDir {v N : V3} (hv : v.IsUnit) (hN : N.IsUnit) (ho : V3.dot v N = 0) :
    ∃ t, N = toolDir (getAngles v true).1 (getAngles v true).2 t := by
  have hT := tangent_getAngles_nev hv
  set i := (getAngles v true).1
  set a := (getAngles v true).2
  have h0 : V3.dot N (tangent i a) = 0 := by rw [hT, V3.dot_comm]; exact ho
  have hsq : V3.dot N (highSide i a) ^ 2 + V3.dot N (rightSide a) ^ 2 = (1 : ℝ) ^ 2 := by
    have h1 := sin_sq_add_cos_sq i
    have h2 := sin_sq_add_cos_sq a
    simp only [V3.IsUnit, V3.dot] at hN
    simp only [V3.dot, tangent] at h0
    simp only [V3.dot, highSide, rightSide]
    have e : (N.x * (cos i * cos a) + N.y * (cos i * sin a) + N.z * (-sin i)) ^ 2
        + (N.x * -sin a + N.y * cos a + N.z * 0) ^ 2
        + (N.x * (sin i * cos a) + N.y * (sin i * sin a) + N.z * cos i) ^ 2
        = N.x * N.x + N.y * N.y + N.z * N.z := by
      linear_combination ((N.x * cos a + N.y * sin a) ^ 2 + N.z ^ 2) * h1
        + (N.x ^ 2 + N.y ^ 2) * h2
    rw [h0, hN] at e
    linarith
  refine ⟨atan2 (V3.dot N (rightSide a)) (V3.dot N (highSide i a)), ?_⟩
  have := toolDir_atan2 i a one_pos hsq rfl rfl
  rw [h0] at this
  calc N = _ := this
    _ = _ := by ext <;> simp

/-- The toolface towards a point off the axis, also from a vertical direction. -/
theorem getToolface_towards {v : V3} (hv : v.IsUnit) (p1 p2 : V3) {c ρ t : ℝ} (hρ : 0 < ρ)
    (hd : p2 - p1 = c • v + ρ • toolDir (getAngles v true).1 (getAngles v true).2 t) :
    getToolface p1 v p2 = pmod t (2 * π) := by
  rw [getToolface_unit hv]
  have hT := tangent_getAngles_nev hv
  set i' := (getAngles v true).1
  set a' := (getAngles v true).2
  rw [← hT] at hd
  have h1 := sin_sq_add_cos_sq i'
  have h2 := sin_sq_add_cos_sq a'
  have hR : V3.dot (p2 - p1) (rightSide a') = ρ * sin t := by
    rw [hd]
    simp only [V3.dot, toolDir, highSide, rightSide, tangent, V3.add_x, V3.add_y, V3.add_z,
      V3.smul_x, V3.smul_y, V3.smul_z]
    linear_combination ρ * sin t * h2
  have hH : V3.dot (p2 - p1) (highSide i' a') = ρ * cos t := by
    rw [hd]
    simp only [V3.dot, toolDir, highSide, rightSide, tangent, V3.add_x, V3.add_y, V3.add_z,
      V3.smul_x, V3.smul_y, V3.smul_z]
    linear_combination (ρ * cos t) * h1 + (ρ * cos t * cos i' ^ 2 + c * sin i' * cos i') * h2
  rw [hR, hH, ← pmod_atan2 hρ t]
  have := pmod_add_int_mul (atan2 (ρ * sin t) (ρ * cos t)) two_pi_pos 1
  rw [Int.cast_one, one_mul] at this
  exact this.symm

theorem toolDir_pmod (i a t : ℝ) : toolDir i a (pmod t (2 * π)) = toolDir i a t := by
  unfold toolDir
  rw [sin_pmod, cos_pmod]

/-- **C391** An arc can be drilled in two runs.  Stop after any dogleg `d1`, read the toolface
towards the end of the whole arc there, and drill the remaining dogleg `d2` with it: the second run
ends where the whole arc ends, in the same direction, and the lengths add up. -/
theorem C391_two_runs {v : V3} (hv : v.IsUnit) (pos : V3) (tf d1 : ℝ) {d2 r : ℝ} (hr : 0 < r)
    (h0 : 0 < d2) (h2 : d2 < 2 * π) :
    let whole := getArc (d1 + d2) r tf pos v false
    let first := getArc d1 r tf pos v false
    let second := getArc d2 r (getToolface first.pos first.vec whole.pos) first.pos first.vec false
    second.pos = whole.pos ∧ second.vec = whole.vec ∧
      first.deltaMd + second.deltaMd = whole.deltaMd := by
  intro whole first second
  have ho := toolDir_ortho (getAngles v true).1 (getAngles v true).2 tf
  rw [tangent_getAngles_nev hv] at ho
  have hN := toolDir_unit (getAngles v true).1 (getAngles v true).2 tf
  have hrn := hr.ne'
  have hk : (1 / r) ≠ 0 := by positivity
  have hw : whole = _ := getArc_eq hv (d1 + d2) tf pos hrn
  have hf : first = _ := getArc_eq hv d1 tf pos hrn
  generalize hNN : toolDir (getAngles v true).1 (getAngles v true).2 tf = N at *
  have hkd : ∀ d : ℝ, 1 / r * (d * r) = d := fun d => by field_simp
  have hkr : ∀ x : ℝ, x / (1 / r) = x * r := fun x => by field_simp
  have hv1 : first.vec = cos d1 • v + sin d1 • N := by rw [hf]; simp only [arcTan, hkd]
  have hp1 : first.pos = pos + ((sin d1 * r) • v + ((1 - cos d1) * r) • N) := by
    rw [hf]; simp only [arcPos, hkd, hkr]
  have hvw : whole.vec = cos (d1 + d2) • v + sin (d1 + d2) • N := by
    rw [hw]; simp only [arcTan, hkd]
  have hpw : whole.pos = pos + ((sin (d1 + d2) * r) • v + ((1 - cos (d1 + d2)) * r) • N) := by
    rw [hw]; simp only [arcPos, hkd, hkr]
  have hc := sin_sq_add_cos_sq d1
  simp only [V3.IsUnit, V3.dot] at hv hN ho
  have u1 : first.vec.IsUnit := by
    rw [hv1]
    simp only [V3.IsUnit, V3.dot, V3.add_x, V3.add_y, V3.add_z, V3.smul_x, V3.smul_y, V3.smul_z]
    linear_combination cos d1 ^ 2 * hv + sin d1 ^ 2 * hN + 2 * cos d1 * sin d1 * ho + hc
  have uN : V3.IsUnit ((-sin d1) • v + cos d1 • N) := by
    simp only [V3.IsUnit, V3.dot, V3.add_x, V3.add_y, V3.add_z, V3.smul_x, V3.smul_y, V3.smul_z]
    linear_combination sin d1 ^ 2 * hv + cos d1 ^ 2 * hN - 2 * cos d1 * sin d1 * ho + hc
  have oN : V3.dot first.vec ((-sin d1) • v + cos d1 • N) = 0 := by
    rw [hv1]
    simp only [V3.dot, V3.add_x, V3.add_y, V3.add_z, V3.smul_x, V3.smul_y, V3.smul_z]
    linear_combination (-(cos d1 * sin d1)) * hv + cos d1 * sin d1 * hN
      + (cos d1 ^ 2 - sin d1 ^ 2) * ho
  obtain ⟨t, ht⟩ := exists_toolDir u1 uN oN
  have hρ : 0 < r * (1 - cos d2) := by
    have : cos d2 < 1 := by
      refine lt_of_le_of_ne (cos_le_one _) (fun h => ?_)
      have := (cos_eq_one_iff_of_lt_of_lt (by linarith) h2).mp h
      linarith
    exact mul_pos hr (by linarith)
  have hd : whole.pos - first.pos = (r * sin d2) • first.vec + (r * (1 - cos d2)) •
      toolDir (getAngles first.vec true).1 (getAngles first.vec true).2 t := by
    rw [← ht, hv1, hp1, hpw, sin_add, cos_add]
    ext <;> simp <;> ring
  have htf := getToolface_towards u1 first.pos whole.pos hρ hd
  have hs : second = _ := getArc_eq u1 d2 (getToolface first.pos first.vec whole.pos) first.pos hrn
  rw [htf, toolDir_pmod, ← ht] at hs
  refine ⟨?_, ?_, ?_⟩
  · rw [hs]
    simp only [arcPos, hkd, hkr]
    rw [hv1, hp1, hpw, sin_add, cos_add]
    ext <;> simp <;> ring
  · rw [hs]
    simp only [arcTan, hkd]
    rw [hv1, hvw, sin_add, cos_add]
    ext <;> simp <;> ring
  · rw [hs, hf, hw]
    ring

/-- Non-vacuity: a quarter turn from vertical in two runs. -/
example : V3.IsUnit ⟨0, 0, 1⟩ ∧ (0 : ℝ) < 100 ∧ (0 : ℝ) < π / 4 ∧ π / 4 < 2 * π := by
  have := pi_pos
  refine ⟨by simp [V3.IsUnit, V3.dot], by norm_num, by linarith, by linarith⟩

end Welleng.Props
