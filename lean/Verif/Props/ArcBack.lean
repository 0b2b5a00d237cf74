import Verif.Props.ArcStages

/-! C392: an arc built back from its end (`/repo/welleng/utils.py` 529-700). -/

namespace Welleng.Props

open Real Welleng Spec Tf

/-- **C392** An arc can be built back from its end.  Read the toolface at the end, looking back,
towards the start, and build an arc of the same dogleg and radius with `target=True` from there: it
ends at the start, with the direction the arc had there, and has the same length. -/
theorem C392_back {v : V3} (hv : v.IsUnit) (pos : V3) (tf : ℝ) {d r : ℝ} (hr : 0 < r)
    (h0 : 0 < d) (h2 : d < 2 * π) :
    let arc := getArc d r tf pos v false
    let back := getArc d r (getToolface arc.pos (-arc.vec) pos) arc.pos arc.vec true
    back.pos = pos ∧ back.vec = v ∧ back.deltaMd = arc.deltaMd := by
  intro arc back
  have ho := toolDir_ortho (getAngles v true).1 (getAngles v true).2 tf
  rw [tangent_getAngles_nev hv] at ho
  have hN := toolDir_unit (getAngles v true).1 (getAngles v true).2 tf
  have hrn := hr.ne'
  have ha : arc = _ := getArc_eq hv d tf pos hrn
  generalize toolDir (getAngles v true).1 (getAngles v true).2 tf = N at *
  have hkd : ∀ d : ℝ, 1 / r * (d * r) = d := fun d => by field_simp
  have hkr : ∀ x : ℝ, x / (1 / r) = x * r := fun x => by field_simp
  have hv1 : arc.vec = cos d • v + sin d • N := by rw [ha]; simp only [arcTan, hkd]
  have hp1 : arc.pos = pos + ((sin d * r) • v + ((1 - cos d) * r) • N) := by
    rw [ha]; simp only [arcPos, hkd, hkr]
  have hc := sin_sq_add_cos_sq d
  simp only [V3.IsUnit, V3.dot] at hv hN ho
  have u1 : (-arc.vec).IsUnit := by
    rw [hv1]
    simp only [V3.IsUnit, V3.dot, V3.neg_x, V3.neg_y, V3.neg_z, V3.add_x, V3.add_y, V3.add_z,
      V3.smul_x, V3.smul_y, V3.smul_z]
    linear_combination cos d ^ 2 * hv + sin d ^ 2 * hN + 2 * cos d * sin d * ho + hc
  have uN : V3.IsUnit ((-sin d) • v + cos d • N) := by
    simp only [V3.IsUnit, V3.dot, V3.add_x, V3.add_y, V3.add_z, V3.smul_x, V3.smul_y, V3.smul_z]
    linear_combination sin d ^ 2 * hv + cos d ^ 2 * hN - 2 * cos d * sin d * ho + hc
  have oN : V3.dot (-arc.vec) ((-sin d) • v + cos d • N) = 0 := by
    rw [hv1]
    simp only [V3.dot, V3.neg_x, V3.neg_y, V3.neg_z, V3.add_x, V3.add_y, V3.add_z, V3.smul_x,
      V3.smul_y, V3.smul_z]
    linear_combination cos d * sin d * hv - cos d * sin d * hN
      - (cos d ^ 2 - sin d ^ 2) * ho
  obtain ⟨t, ht⟩ := exists_toolDir u1 uN oN
  have hρ : 0 < r * (1 - cos d) := by
    have : cos d < 1 := by
      refine lt_of_le_of_ne (cos_le_one _) (fun h => ?_)
      have := (cos_eq_one_iff_of_lt_of_lt (by linarith) h2).mp h
      linarith
    exact mul_pos hr (by linarith)
  have hd : pos - arc.pos = (r * sin d) • (-arc.vec) + (r * (1 - cos d)) •
      toolDir (getAngles (-arc.vec) true).1 (getAngles (-arc.vec) true).2 t := by
    rw [← ht, hv1, hp1]
    ext <;> simp
    · linear_combination r * N.x * hc
    · linear_combination r * N.y * hc
    · linear_combination r * N.z * hc
  have htf := getToolface_towards u1 arc.pos pos hρ hd
  have hb : getArc d r (getToolface arc.pos (-arc.vec) pos) arc.pos (-arc.vec) false = _ :=
    getArc_eq u1 d (getToolface arc.pos (-arc.vec) pos) arc.pos hrn
  have e1 : back.pos = (getArc d r (getToolface arc.pos (-arc.vec) pos) arc.pos (-arc.vec) false).pos := by
    simp [back, getArc]
  have e2 : back.vec = -(getArc d r (getToolface arc.pos (-arc.vec) pos) arc.pos (-arc.vec) false).vec := by
    simp [back, getArc]
  rw [hb, htf, toolDir_pmod, ← ht] at e1 e2
  refine ⟨?_, ?_, rfl⟩
  · rw [e1]
    simp only [arcPos, hkd, hkr]
    rw [hv1, hp1]
    ext <;> simp
    · linear_combination -(r * N.x) * hc
    · linear_combination -(r * N.y) * hc
    · linear_combination -(r * N.z) * hc
  · rw [e2]
    simp only [arcTan, hkd]
    rw [hv1]
    ext <;> simp
    · linear_combination v.x * hc
    · linear_combination v.y * hc
    · linear_combination v.z * hc

/-- Non-vacuity: a quarter turn from vertical. -/
example : V3.IsUnit ⟨0, 0, 1⟩ ∧ (0 : ℝ) < 100 ∧ (0 : ℝ) < π / 2 ∧ π / 2 < 2 * π := by
  have := pi_pos
  refine ⟨by simp [V3.IsUnit, V3.dot], by norm_num, by linarith, by linarith⟩

end Welleng.Props
