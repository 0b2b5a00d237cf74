import Verif.Spec.Tilt
import Verif.Model.Weights
import Verif.Lemmas.Vec
import Mathlib.Analysis.SpecialFunctions.Trigonometric.Deriv
import Mathlib.Tactic.LinearCombination
import Mathlib.Tactic.FieldSimp

/-!
C276 and C277: the misalignment sources together do not favour a direction.
-/

namespace Welleng.Props

open Err Real
open Welleng.Spec (tilt Across highSide rightSide tangent)

/-- The tilt of the hole that a source of the given size makes at a station. -/
noncomputable def tiltOf (f : Func) (c : Ctx) (mag : ℝ) (k : ℕ) : V3 :=
  tilt (c.s.inc k) (c.s.azi k) (eDIA f c (c.tortuosity.getD 0) mag k 1)
    (eDIA f c (c.tortuosity.getD 0) mag k 2)

/-- The variance of the tilt along `u` of a list of independent sources of the same size. -/
noncomputable def tiltVariance (fs : List Func) (c : Ctx) (mag : ℝ) (k : ℕ) (u : V3) : ℝ :=
  (fs.map fun f => V3.dot (tiltOf f c mag k) u ^ 2).sum

/-- `tilt` is the change of the tangent. -/
theorem tilt_is_derivative (inc azi dInc dAzi : ℝ) :
    Spec.HasDeriv (fun s => tangent (inc + s * dInc) (azi + s * dAzi))
      (tilt inc azi dInc dAzi) 0 := by
  have h1 : HasDerivAt (fun s : ℝ => inc + s * dInc) dInc 0 := by
    simpa using ((hasDerivAt_id (0 : ℝ)).mul_const dInc).const_add inc
  have h2 : HasDerivAt (fun s : ℝ => azi + s * dAzi) dAzi 0 := by
    simpa using ((hasDerivAt_id (0 : ℝ)).mul_const dAzi).const_add azi
  have e1 : inc + 0 * dInc = inc := by ring
  have e2 : azi + 0 * dAzi = azi := by ring
  have s1 := h1.sin
  have c1 := h1.cos
  have s2 := h2.sin
  have c2 := h2.cos
  rw [e1] at s1 c1
  rw [e2] at s2 c2
  refine ⟨?_, ?_, ?_⟩
  · have := s1.mul c2
    rw [e1, e2] at this
    refine this.congr_deriv ?_
    simp [tilt, highSide, rightSide]; ring
  · have := s1.mul s2
    rw [e1, e2] at this
    refine this.congr_deriv ?_
    simp [tilt, highSide, rightSide]; ring
  · refine c1.congr_deriv ?_
    simp [tilt, highSide, rightSide]; ring

/-- A direction across the hole in its components along the high side and to the right. -/
theorem across_components {inc azi : ℝ} {u : V3} (h : Across inc azi u) :
    V3.dot (highSide inc azi) u ^ 2 + V3.dot (rightSide azi) u ^ 2 = 1 := by
  obtain ⟨h1, h2⟩ := h
  have p1 := sin_sq_add_cos_sq inc
  have p2 := sin_sq_add_cos_sq azi
  simp only [V3.dot, tangent, highSide, rightSide] at *
  have h1' : (u.x * (sin inc * cos azi) + u.y * (sin inc * sin azi) + u.z * cos inc) ^ 2 = 0 := by
    rw [h1]; ring
  set A := u.x * cos azi + u.y * sin azi with hA
  set B := -u.x * sin azi + u.y * cos azi with hB
  have hAB : A ^ 2 + B ^ 2 = u.x ^ 2 + u.y ^ 2 := by
    rw [hA, hB]; linear_combination (u.x ^ 2 + u.y ^ 2) * p2
  have e1 : cos inc * cos azi * u.x + cos inc * sin azi * u.y + -sin inc * u.z
      = cos inc * A - sin inc * u.z := by rw [hA]; ring
  have e2 : -sin azi * u.x + cos azi * u.y + 0 * u.z = B := by rw [hB]; ring
  have e3 : u.x * (sin inc * cos azi) + u.y * (sin inc * sin azi) + u.z * cos inc
      = sin inc * A + cos inc * u.z := by rw [hA]; ring
  rw [e3] at h1'
  rw [e1, e2]
  linear_combination h2 + hAB - h1' + (A ^ 2 + u.z ^ 2) * p1

theorem dot_tilt (inc azi dInc dAzi : ℝ) (u : V3) : V3.dot (tilt inc azi dInc dAzi) u =
    dInc * V3.dot (highSide inc azi) u + sin inc * dAzi * V3.dot (rightSide azi) u := by
  simp [tilt, V3.dot]; ring

/-- C276. The four misalignment sources of a tool model, with the same magnitude, together tilt
the hole by that magnitude in every direction across it, at every station that is not vertical. -/
theorem C276_isotropic (c : Ctx) (mag : ℝ) (k : ℕ) (hs : sin (c.s.inc k) ≠ 0) (u : V3)
    (hu : Across (c.s.inc k) (c.s.azi k) u) :
    tiltVariance [.XYM1, .XYM2, .XYM3, .XYM4] c mag k u = mag ^ 2 := by
  have hc := across_components hu
  have p1 := sin_sq_add_cos_sq (c.s.inc k)
  have p2 := sin_sq_add_cos_sq (c.s.azi k)
  simp only [tiltVariance, tiltOf, dot_tilt, List.map_cons, List.map_nil, List.sum_cons,
    List.sum_nil, eDIA, dpde, Ctx.si, Ctx.ci, Ctx.ct, Ctx.st]
  simp only [Matrix.cons_val_one, Matrix.cons_val_zero, Matrix.cons_val]
  generalize V3.dot (highSide (c.s.inc k) (c.s.azi k)) u = a at *
  generalize V3.dot (rightSide (c.s.azi k)) u = b at *
  have a1 := sq_abs (cos (c.s.inc k))
  have a2 := sq_abs (sin (c.s.inc k))
  generalize |cos (c.s.inc k)| = m at *
  generalize |sin (c.s.inc k)| = n at *
  generalize sin (c.s.inc k) = S at *
  generalize cos (c.s.inc k) = C at *
  generalize sin (c.s.azi k) = s at *
  generalize cos (c.s.azi k) = t at *
  have e1 : S * (-(m * s) / S * mag) = -(m * s) * mag := by field_simp
  have e2 : S * (m * t / S * mag) = m * t * mag := by field_simp
  rw [e1, e2]
  linear_combination mag ^ 2 * (a ^ 2 * a2 + (a ^ 2 + b ^ 2) * (a1 + m ^ 2 * p2 - a1)
    + (a ^ 2 + b ^ 2) * a1 + (a ^ 2 + b ^ 2) * p1 + hc)

example : ∃ (c : Ctx) (u : V3), sin (c.s.inc 1) ≠ 0 ∧ Across (c.s.inc 1) (c.s.azi 1) u :=
  ⟨⟨⟨0, fun _ => 0, fun _ => π / 2, fun _ => 0, false⟩, fun _ => 0, fun _ => 0,
    fun _ => 0, 9.8, 1, 50000, 0, .true, none⟩, ⟨0, 1, 0⟩, by simp,
    by constructor <;> simp [V3.dot, tangent]⟩

/-- The part of a misalignment pair that shows in a deviated hole. -/
def PairIsotropic (f g : Func) (c : Ctx) (mag : ℝ) (k : ℕ) : Prop :=
  ∀ u, Across (c.s.inc k) (c.s.azi k) u →
    tiltVariance [f, g] c mag k u = (mag * coeff c k * cos (c.s.inc k)) ^ 2

/-- C277, for the long-course pair, and for the enhanced pair in holes that do not head south. -/
theorem C277_pairs_partial (c : Ctx) (mag : ℝ) (k : ℕ) (hk : k ≠ 0) (hs : sin (c.s.inc k) ≠ 0) :
    PairIsotropic .XYM3L .XYM4L c mag k ∧
    (c.vlim ≤ c.s.inc k → 0 ≤ cos (c.s.azi k) → PairIsotropic .XYM3E .XYM4E c mag k) := by
  have p2 := sin_sq_add_cos_sq (c.s.azi k)
  constructor
  · intro u hu
    have hc := across_components hu
    simp only [tiltVariance, tiltOf, dot_tilt, List.map_cons, List.map_nil, List.sum_cons,
      List.sum_nil, eDIA, dpde, Ctx.si, Ctx.ci, Ctx.ct, Ctx.st, if_neg hk]
    simp only [Matrix.cons_val_one, Matrix.cons_val_zero, Matrix.cons_val]
    generalize V3.dot (highSide (c.s.inc k) (c.s.azi k)) u = a at *
    generalize V3.dot (rightSide (c.s.azi k)) u = b at *
    have a1 := sq_abs (cos (c.s.inc k))
    generalize |cos (c.s.inc k)| = m at *
    generalize sin (c.s.inc k) = S at *
    generalize cos (c.s.inc k) = C at *
    generalize sin (c.s.azi k) = s at *
    generalize cos (c.s.azi k) = t at *
    generalize coeff c k = q at *
    have e1 : S * (-m * (s / S) * q * mag) = -m * s * q * mag := by field_simp
    have e2 : S * (m * t / S * q * mag) = m * t * q * mag := by field_simp
    rw [e1, e2]
    linear_combination mag ^ 2 * q ^ 2 * ((a ^ 2 + b ^ 2) * (m ^ 2 * p2 + a1) + C ^ 2 * hc)
  · intro hv ht u hu
    have hc := across_components hu
    simp only [tiltVariance, tiltOf, dot_tilt, List.map_cons, List.map_nil, List.sum_cons,
      List.sum_nil, eDIA, dpde, Ctx.si, Ctx.ci, Ctx.ct, Ctx.st, if_neg hk, if_neg (not_lt.2 hv)]
    simp only [Matrix.cons_val_one, Matrix.cons_val_zero, Matrix.cons_val]
    have hq : 0 ≤ coeff c k := by
      unfold coeff; rw [if_neg hk]; exact le_trans zero_le_one (le_max_left _ _)
    rw [abs_mul, abs_mul, abs_of_nonneg hq, abs_of_nonneg ht]
    generalize V3.dot (highSide (c.s.inc k) (c.s.azi k)) u = a at *
    generalize V3.dot (rightSide (c.s.azi k)) u = b at *
    have a1 := sq_abs (cos (c.s.inc k))
    generalize |cos (c.s.inc k)| = m at *
    generalize sin (c.s.inc k) = S at *
    generalize cos (c.s.inc k) = C at *
    generalize sin (c.s.azi k) = s at *
    generalize cos (c.s.azi k) = t at *
    generalize coeff c k = q at *
    have e1 : S * (-m * s / S * q * mag) = -m * s * q * mag := by field_simp
    have e2 : S * (C * t / S * q * mag) = C * t * q * mag := by field_simp
    rw [e1, e2]
    linear_combination mag ^ 2 * q ^ 2 * ((a ^ 2 + b ^ 2) * (C ^ 2 * p2)
      + (a * t - b * s) ^ 2 * a1 + C ^ 2 * hc)

/-- C277 fails: in a hole that heads south-east the enhanced pair favours a direction across the
hole; in one such direction, at 60 degrees, it shows nothing. -/
theorem C277_south_east (c : Ctx) (mag : ℝ) (hm : mag ≠ 0) (hI : c.s.inc 1 = π / 3)
    (hA : c.s.azi 1 = 3 * π / 4) (hv : c.vlim ≤ c.s.inc 1) :
    ¬ PairIsotropic .XYM3E .XYM4E c mag 1 ∧
    ∃ u, Across (c.s.inc 1) (c.s.azi 1) u ∧
      tiltVariance [.XYM3E, .XYM4E] c mag 1 u = 0 := by
  have ht : cos (3 * π / 4) = -(√2 / 2) := by
    rw [show 3 * π / 4 = π - π / 4 by ring, cos_pi_sub, cos_pi_div_four]
  have hsn : sin (3 * π / 4) = √2 / 2 := by
    rw [show 3 * π / 4 = π - π / 4 by ring, sin_pi_sub, sin_pi_div_four]
  have r2 : √2 ^ 2 = 2 := sq_sqrt (by norm_num)
  have r3 : √3 ^ 2 = 3 := sq_sqrt (by norm_num)
  have hq : 1 ≤ coeff c 1 := by
    unfold coeff; rw [if_neg one_ne_zero]; exact le_max_left _ _
  have hs0 : √3 / 2 ≠ 0 := by positivity
  have key : ∀ u, tiltVariance [.XYM3E, .XYM4E] c mag 1 u =
      (mag * coeff c 1) ^ 2 / 4 * (V3.dot (highSide (π / 3) (3 * π / 4)) u
        - V3.dot (rightSide (3 * π / 4)) u) ^ 2 := by
    intro u
    simp only [tiltVariance, tiltOf, dot_tilt, List.map_cons, List.map_nil, List.sum_cons,
      List.sum_nil, eDIA, dpde, Ctx.si, Ctx.ci, Ctx.ct, Ctx.st, if_neg one_ne_zero,
      if_neg (not_lt.2 hv)]
    simp only [Matrix.cons_val_one, Matrix.cons_val_zero, Matrix.cons_val]
    rw [hI, hA, abs_mul, abs_mul, abs_of_nonneg (by linarith : (0 : ℝ) ≤ coeff c 1), ht, hsn,
      cos_pi_div_three, sin_pi_div_three, abs_neg, abs_of_nonneg (by norm_num : (0 : ℝ) ≤ 1 / 2),
      abs_of_nonneg (by positivity : (0 : ℝ) ≤ √2 / 2)]
    generalize V3.dot (highSide (π / 3) (3 * π / 4)) u = a at *
    generalize V3.dot (rightSide (3 * π / 4)) u = b at *
    generalize coeff c 1 = q at *
    generalize √3 / 2 = S at *
    have e1 : S * (-(1 / 2) * (√2 / 2) / S * q * mag) = -(√2 / 4) * q * mag := by
      field_simp; ring
    have e2 : S * (1 / 2 * -(√2 / 2) / S * q * mag) = -(√2 / 4) * q * mag := by
      field_simp; ring
    rw [e1, e2]
    linear_combination (mag * q) ^ 2 / 8 * (a - b) ^ 2 * r2
  have hac : ∀ p q : ℝ, p ^ 2 + q ^ 2 = 1 →
      Across (π / 3) (3 * π / 4) (p • highSide (π / 3) (3 * π / 4) + q • rightSide (3 * π / 4)) ∧
      V3.dot (highSide (π / 3) (3 * π / 4))
        (p • highSide (π / 3) (3 * π / 4) + q • rightSide (3 * π / 4)) = p ∧
      V3.dot (rightSide (3 * π / 4))
        (p • highSide (π / 3) (3 * π / 4) + q • rightSide (3 * π / 4)) = q := by
    intro p q h
    simp only [Across, V3.dot, tangent, highSide, rightSide, ht, hsn, cos_pi_div_three,
      sin_pi_div_three]
    simp
    refine ⟨⟨?_, ?_⟩, ?_, ?_⟩
    · ring_nf; rw [r2]; ring
    · ring_nf; rw [r2, r3]; linear_combination h
    · ring_nf; rw [r2, r3]; ring
    · ring_nf; rw [r2]; ring
  have hroot : (√2 / 2) ^ 2 + (√2 / 2) ^ 2 = 1 := by linear_combination r2 / 2
  obtain ⟨h1, h2, h3⟩ := hac (√2 / 2) (√2 / 2) hroot
  refine ⟨?_, _, by rw [hI, hA]; exact h1, by rw [key, h2, h3]; ring⟩
  intro h
  have := h _ (by rw [hI, hA]; exact h1)
  rw [key, h2, h3, hI, cos_pi_div_three] at this
  have hpos : 0 < (mag * coeff c 1 * (1 / 2)) ^ 2 := by
    have : mag * coeff c 1 * (1 / 2) ≠ 0 := by
      refine mul_ne_zero (mul_ne_zero hm (by linarith)) (by norm_num)
    positivity
  nlinarith

example : ∃ c : Ctx, c.s.inc 1 = π / 3 ∧ c.s.azi 1 = 3 * π / 4 ∧ c.vlim ≤ c.s.inc 1 :=
  ⟨⟨⟨0, fun _ => 0, fun _ => π / 3, fun _ => 3 * π / 4, false⟩, fun _ => 0, fun _ => 0,
    fun _ => 0, 9.8, 1, 50000, 0, .true, none⟩, rfl, rfl, by positivity⟩

end Welleng.Props
