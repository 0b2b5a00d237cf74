import Verif.Model.Toolface
import Verif.Spec.Toolface
import Verif.Lemmas.Arc
import Verif.Lemmas.Interpolate
import Mathlib.Tactic.LinearCombination
import Mathlib.Tactic.FieldSimp

/-! Geometry of toolfaces. -/

namespace Welleng

open Real Spec Tf

theorem toolDir_unit (i a t : ℝ) : (toolDir i a t).IsUnit := by
  simp only [V3.IsUnit, V3.dot, toolDir, highSide, rightSide, V3.add_x, V3.add_y, V3.add_z,
    V3.smul_x, V3.smul_y, V3.smul_z]
  have h1 := sin_sq_add_cos_sq i
  have h2 := sin_sq_add_cos_sq a
  have h3 := sin_sq_add_cos_sq t
  linear_combination h3 + cos t ^ 2 * h1 + (cos t ^ 2 * cos i ^ 2 + sin t ^ 2) * h2

theorem toolDir_ortho (i a t : ℝ) : V3.dot (tangent i a) (toolDir i a t) = 0 := by
  simp only [V3.dot, toolDir, highSide, rightSide, tangent, V3.add_x, V3.add_y, V3.add_z,
    V3.smul_x, V3.smul_y, V3.smul_z]
  have h2 := sin_sq_add_cos_sq a
  linear_combination cos t * sin i * cos i * h2

/-- Components of a vector along tangent, high side and right. -/
theorem frame_expand (i a : ℝ) (p : V3) :
    p = V3.dot p (tangent i a) • tangent i a + V3.dot p (highSide i a) • highSide i a
      + V3.dot p (rightSide a) • rightSide a := by
  have h1 := sin_sq_add_cos_sq i
  have h2 := sin_sq_add_cos_sq a
  ext
  · simp only [V3.dot, highSide, rightSide, tangent, V3.add_x, V3.smul_x]
    linear_combination (-(p.x * cos a ^ 2 + p.y * sin a * cos a)) * h1 - p.x * h2
  · simp only [V3.dot, highSide, rightSide, tangent, V3.add_y, V3.smul_y]
    linear_combination (-(p.x * sin a * cos a + p.y * sin a ^ 2)) * h1 - p.y * h2
  · simp only [V3.dot, highSide, rightSide, tangent, V3.add_z, V3.smul_z]
    linear_combination (-p.z) * h1

theorem frame_norm (i a : ℝ) (p : V3) :
    V3.dot p p = V3.dot p (tangent i a) ^ 2 + V3.dot p (highSide i a) ^ 2
      + V3.dot p (rightSide a) ^ 2 := by
  have h1 := sin_sq_add_cos_sq i
  have h2 := sin_sq_add_cos_sq a
  simp only [V3.dot, highSide, rightSide, tangent]
  linear_combination (-((p.x * cos a + p.y * sin a) ^ 2 + p.z ^ 2)) * h1
    - (p.x ^ 2 + p.y ^ 2) * h2

/-- Direction of a vector seen in the frame of the hole. -/
theorem toolDir_atan2 (i a : ℝ) {p : V3} {r : ℝ} (hr : 0 < r)
    (h : V3.dot p (highSide i a) ^ 2 + V3.dot p (rightSide a) ^ 2 = r ^ 2) {t : ℝ}
    (hs : sin t = sin (atan2 (V3.dot p (rightSide a)) (V3.dot p (highSide i a))))
    (hc : cos t = cos (atan2 (V3.dot p (rightSide a)) (V3.dot p (highSide i a)))) :
    p = V3.dot p (tangent i a) • tangent i a + r • toolDir i a t := by
  have hne : V3.dot p (highSide i a) ≠ 0 ∨ V3.dot p (rightSide a) ≠ 0 := by
    by_contra hcon
    push Not at hcon
    rw [hcon.1, hcon.2] at h
    nlinarith
  rw [sin_atan2, h, sqrt_sq hr.le] at hs
  rw [cos_atan2 hne, h, sqrt_sq hr.le] at hc
  conv_lhs => rw [frame_expand i a p]
  unfold toolDir
  rw [hs, hc]
  generalize tangent i a = T
  generalize highSide i a = H
  generalize rightSide a = L
  generalize V3.dot p T = c1
  generalize V3.dot p H = c2
  generalize V3.dot p L = c3
  ext <;> simp <;> field_simp <;> ring

theorem t1_args (a b : Station) :
    t1 a b = atan2 (V3.dot (tangent b.inc b.azi) (rightSide a.azi))
      (V3.dot (tangent b.inc b.azi) (highSide a.inc a.azi)) := by
  unfold t1
  congr 1
  · simp only [V3.dot, tangent, rightSide, sin_sub]; ring
  · simp only [V3.dot, tangent, highSide, cos_sub]; ring

theorem t2_args (a b : Station) :
    ∃ k : ℤ, t2 a b = atan2 (V3.dot (-tangent a.inc a.azi) (rightSide b.azi))
      (V3.dot (-tangent a.inc a.azi) (highSide b.inc b.azi)) + k * (2 * π) := by
  have e : atan2 (sin a.inc * sin (b.azi - a.azi))
      (sin b.inc * cos a.inc - sin a.inc * cos b.inc * cos (b.azi - a.azi))
      = atan2 (V3.dot (-tangent a.inc a.azi) (rightSide b.azi))
      (V3.dot (-tangent a.inc a.azi) (highSide b.inc b.azi)) := by
    congr 1
    · simp only [V3.dot, tangent, rightSide, sin_sub, V3.neg_x, V3.neg_y, V3.neg_z]; ring
    · simp only [V3.dot, tangent, highSide, cos_sub, V3.neg_x, V3.neg_y, V3.neg_z]; ring
  unfold t2
  simp only
  rw [e]
  split_ifs
  · exact ⟨1, by push_cast; ring⟩
  · exact ⟨0, by simp⟩

/-- The lower tangent lies at the angle `t1` from the high side of the upper station. -/
theorem t1_dir {a b : Station} (h0 : 0 < dogleg2 a b) (hpi : dogleg2 a b < π) :
    tangent b.inc b.azi = cos (dogleg2 a b) • tangent a.inc a.azi
      + sin (dogleg2 a b) • toolDir a.inc a.azi (t1 a b) := by
  have hc : cos (dogleg2 a b) = V3.dot (tangent a.inc a.azi) (tangent b.inc b.azi) :=
    cos_getDogleg ..
  have hs := sin_pos_of_pos_of_lt_pi h0 hpi
  have hn := frame_norm a.inc a.azi (tangent b.inc b.azi)
  rw [tangent_unit b.inc b.azi, V3.dot_comm _ (tangent a.inc a.azi), ← hc] at hn
  have := toolDir_atan2 a.inc a.azi (p := tangent b.inc b.azi) hs (t := t1 a b)
    (by have := sin_sq_add_cos_sq (dogleg2 a b); linarith) (by rw [t1_args]) (by rw [t1_args])
  rw [V3.dot_comm _ (tangent a.inc a.azi), ← hc] at this
  exact this

/-- The upper tangent, seen from the lower station. -/
theorem t2_dir {a b : Station} (h0 : 0 < dogleg2 a b) (hpi : dogleg2 a b < π) :
    tangent a.inc a.azi = cos (dogleg2 a b) • tangent b.inc b.azi
      - sin (dogleg2 a b) • toolDir b.inc b.azi (t2 a b) := by
  have hc : cos (dogleg2 a b) = V3.dot (tangent a.inc a.azi) (tangent b.inc b.azi) :=
    cos_getDogleg ..
  have hs := sin_pos_of_pos_of_lt_pi h0 hpi
  have hn := frame_norm b.inc b.azi (-tangent a.inc a.azi)
  have hneg : ∀ x y : V3, V3.dot (-x) y = -V3.dot x y := by
    intro x y; simp only [V3.dot, V3.neg_x, V3.neg_y, V3.neg_z]; ring
  have hneg' : ∀ x y : V3, V3.dot x (-y) = -V3.dot x y := by
    intro x y; simp only [V3.dot, V3.neg_x, V3.neg_y, V3.neg_z]; ring
  have hu : V3.dot (-tangent a.inc a.azi) (-tangent a.inc a.azi) = 1 := by
    rw [hneg, hneg', neg_neg]; exact tangent_unit ..
  have hd : V3.dot (-tangent a.inc a.azi) (tangent b.inc b.azi) = -cos (dogleg2 a b) := by
    rw [hneg, hc]
  rw [hu, hd] at hn
  obtain ⟨k, hk⟩ := t2_args a b
  have := toolDir_atan2 b.inc b.azi (p := -tangent a.inc a.azi) hs (t := t2 a b)
    (by have := sin_sq_add_cos_sq (dogleg2 a b); linarith)
    (by rw [hk, sin_add_int_mul_two_pi]) (by rw [hk, cos_add_int_mul_two_pi])
  rw [hd] at this
  generalize cos (dogleg2 a b) = c at *
  generalize sin (dogleg2 a b) = s at *
  rw [← neg_neg (tangent a.inc a.azi), this]
  ext <;> simp <;> ring

/-- `R.from_euler('zyz', …)` takes the local axes to high side and tangent. -/
theorem eulerZyz_eq (t i a p q : ℝ) :
    eulerZyz t i a ⟨p, 0, q⟩ = p • toolDir i a t + q • tangent i a := by
  ext <;> simp [eulerZyz, rotz, roty, toolDir, tangent, highSide, rightSide] <;> ring

/-- The normal of a circular curve in closed form. -/
theorem Spec.CircularCurve.nor_eq {γ τ ν : ℝ → V3} {κ : ℝ} (h : CircularCurve γ τ ν κ) (L : ℝ) :
    τ 0 = cos (κ * L) • τ L - sin (κ * L) • ν L := by
  have := (h.shift L).tan_eq (-L)
  simp only [add_neg_cancel, add_zero, mul_neg, cos_neg, sin_neg] at this
  rw [this]
  ext <;> simp <;> ring

theorem tangent_getAngles_nev {v : V3} (h : v.IsUnit) :
    tangent (getAngles v true).1 (getAngles v true).2 = v := by
  rw [getAngles_nev_of_unit h, tangent_getAnglesXyz]
  simp only [V3.IsUnit, V3.dot] at *
  linarith

/-- Equal tangents with positive horizontal parts give the same frame. -/
theorem toolDir_congr {i a i' a' : ℝ} (h : tangent i a = tangent i' a') (hs : 0 < sin i)
    (hs' : 0 ≤ sin i') (t : ℝ) : toolDir i a t = toolDir i' a' t := by
  have hx := congrArg V3.x h
  have hy := congrArg V3.y h
  have hz := congrArg V3.z h
  simp only [tangent] at hx hy hz
  have e : sin i = sin i' := by
    have h1 := sin_sq_add_cos_sq i
    have h2 := sin_sq_add_cos_sq i'
    rw [hz] at h1
    have : sin i ^ 2 = sin i' ^ 2 := by linarith
    exact (sq_eq_sq₀ hs.le hs').mp this
  rw [← e] at hx hy
  have hc := mul_left_cancel₀ hs.ne' hx
  have hsn := mul_left_cancel₀ hs.ne' hy
  simp only [toolDir, highSide, rightSide, hc, hsn, hz, e]

theorem sin_getAngles_nonneg (v : V3) (b : Bool) : 0 ≤ sin (getAngles v b).1 := by
  unfold getAngles getAnglesXyz
  simp only
  rw [sin_atan2]
  positivity

theorem eulerZyz_angles {v : V3} (hv : v.IsUnit) (t p q : ℝ) :
    eulerZyz t (getAngles v true).1 (getAngles v true).2 ⟨p, 0, q⟩
      = p • toolDir (getAngles v true).1 (getAngles v true).2 t + q • v := by
  rw [eulerZyz_eq, tangent_getAngles_nev hv]

/-- A circular curve run backwards from `L`. -/
theorem Spec.CircularCurve.reverse {γ τ ν : ℝ → V3} {κ : ℝ} (h : CircularCurve γ τ ν κ) (L : ℝ) :
    CircularCurve (fun s => γ (L - s) - γ L) (fun s => -τ (L - s)) (fun s => ν (L - s)) κ := by
  have comp : ∀ {f : ℝ → V3} {f' : V3} {u : ℝ}, HasDeriv f f' (L - u) →
      HasDeriv (fun s => f (L - s)) (-f') u := by
    intro f f' u hf
    exact ⟨hf.1.comp_const_sub L u, hf.2.1.comp_const_sub L u, hf.2.2.comp_const_sub L u⟩
  have neg : ∀ {f : ℝ → V3} {f' : V3} {u : ℝ}, HasDeriv f f' u →
      HasDeriv (fun s => -f s) (-f') u := by
    intro f f' u hf
    exact ⟨hf.1.neg, hf.2.1.neg, hf.2.2.neg⟩
  refine ⟨fun s => ?_, fun s => ?_, fun s => ?_, fun s => ?_, fun s => h.unit_nor _, fun s => ?_⟩
  · have := comp (h.deriv_pos (L - s))
    exact ⟨this.1.sub_const _, this.2.1.sub_const _, this.2.2.sub_const _⟩
  · exact (neg (comp (h.deriv_tan (L - s)))).congr (neg_neg _)
  · exact (comp (h.deriv_nor (L - s))).congr (by ext <;> simp)
  · have := h.unit_tan (L - s)
    simp only [V3.IsUnit, V3.dot, V3.neg_x, V3.neg_y, V3.neg_z] at *
    linarith
  · have := h.ortho (L - s)
    simp only [V3.dot, V3.neg_x, V3.neg_y, V3.neg_z] at *
    linarith

end Welleng
