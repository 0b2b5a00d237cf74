import Verif.Props.Clearance

/-!
C381: separation factors and the unit of length.
-/

namespace Welleng.Props

open Clr Err Real

/-- The same two points, uncertainties, hole sizes and settings in a unit `1 / c` times as long. -/
noncomputable def inUnit (c : ℝ) (p : Pair) : Pair :=
  ⟨c • p.ref, c • p.off, c ^ 2 • p.refCov, c ^ 2 • p.offCov, c * p.Rr, c * p.Ro, p.k, c * p.sigmaPa, c * p.Sm⟩

theorem distanceCc_unit {c : ℝ} (hc : 0 < c) (p q : V) : distanceCc (c • p) (c • q) = c * distanceCc p q := by
  have h : ∑ i, ((c • q) i - (c • p) i) ^ 2 = c ^ 2 * ∑ i, (q i - p i) ^ 2 := by
    rw [Finset.mul_sum]
    exact Finset.sum_congr rfl fun i _ => by simp only [Pi.smul_apply, smul_eq_mul]; ring
  rw [distanceCc, h, sqrt_mul (sq_nonneg c), sqrt_sq hc.le, distanceCc]

theorem unitDelta_unit {c : ℝ} (hc : 0 < c) (p q : V) : unitDelta (c • p) (c • q) = unitDelta p q := by
  have h := distanceCc_unit hc p q
  simp only [distanceCc] at h
  unfold unitDelta
  simp only [h, mul_eq_zero, hc.ne', false_or]
  split_ifs
  · rfl
  · funext i
    rw [Pi.smul_apply, Pi.smul_apply, smul_eq_mul, smul_eq_mul, ← mul_sub, mul_div_mul_left _ _ hc.ne']

theorem pcr_unit {c : ℝ} (hc : 0 < c) (u : V) (C : M3) : pcr u (c ^ 2 • C) = c * pcr u C := by
  have h : quad u (c ^ 2 • C) = c ^ 2 * quad u C := by
    simp only [quad, Finset.mul_sum]
    refine Finset.sum_congr rfl fun i _ => Finset.sum_congr rfl fun j _ => ?_
    rw [Matrix.smul_apply, smul_eq_mul]; ring
  rw [pcr, h, sqrt_mul (sq_nonneg c), sqrt_sq hc.le, pcr]

theorem root_unit {c : ℝ} (hc : 0 < c) (a b : ℝ) : √((c * a) ^ 2 + (c * b) ^ 2) = c * √(a ^ 2 + b ^ 2) := by
  rw [mul_pow, mul_pow, ← mul_add, sqrt_mul (sq_nonneg c), sqrt_sq hc.le]

/-- **C381**, the part that holds: if the margins are converted with everything else, then in another unit of
length the separation factor is the same, and all lengths are the same lengths. -/
theorem C381_converted_partial {c : ℝ} (hc : 0 < c) (p : Pair) :
    (separation (inUnit c p)).sf = (separation p).sf ∧
    (separation (inUnit c p)).distance = c * (separation p).distance ∧
    (separation (inUnit c p)).eouBoundary = c * (separation p).eouBoundary ∧
    (separation (inUnit c p)).wellboreSeparation = c * (separation p).wellboreSeparation ∧
    (separation (inUnit c p)).eouSeparation = c * (separation p).eouSeparation ∧
    (separation (inUnit c p)).masd = c * (separation p).masd := by
  have hb : (separation (inUnit c p)).eouBoundary = c * (separation p).eouBoundary := by
    simp only [separation, inUnit, unitDelta_unit hc, pcr_unit hc, eou, root_unit hc]; ring
  have hw : (separation (inUnit c p)).wellboreSeparation = c * (separation p).wellboreSeparation := by
    simp only [separation, inUnit, distanceCc_unit hc]; ring
  refine ⟨?_, distanceCc_unit hc _ _, hb, hw, ?_, ?_⟩
  · have e : ∀ q, (separation q).sf = if (separation q).eouBoundary = 0 then none
        else some ((separation q).wellboreSeparation / (separation q).eouBoundary) := fun _ => rfl
    rw [e, e, hb, hw]
    simp only [mul_eq_zero, hc.ne', false_or, mul_div_mul_left _ _ hc.ne']
  · have e : ∀ q, (separation q).eouSeparation
        = (separation q).wellboreSeparation - (separation q).eouBoundary := fun _ => rfl
    rw [e, e, hb, hw]; ring
  · have e : ∀ q, (separation q).masd
        = (separation q).eouBoundary + (q.Rr + q.Ro) + q.Sm := fun _ => rfl
    rw [e, e, hb]; simp only [inUnit]; ring

/-- C381 is false with the margins left at their defaults, 0.5 and 0.3 of whatever unit: two points 30 m apart
have a smaller separation factor than the same points in feet. -/
theorem C381_default_margins : ∃ (p : Pair) (x y : ℝ), p.sigmaPa = 0.5 ∧ p.Sm = 0.3 ∧ p.k = 3.5 ∧
    (separation p).sf = some x ∧
    (separation { inUnit (1 / 0.3048) p with sigmaPa := p.sigmaPa, Sm := p.Sm }).sf = some y ∧ x < y := by
  have hd : distanceCc 0 ![30, 0, 0] = 30 := by
    simp [distanceCc, Fin.sum_univ_three, sqrt_sq]
  have hc : (0 : ℝ) < 1 / 0.3048 := by norm_num
  have hd' := distanceCc_unit hc 0 ![30, 0, 0]
  rw [hd] at hd'
  have hz : ∀ u : V, pcr u 0 = 0 := fun u => by simp [pcr, quad]
  have hb : eou 3.5 (√((0 : ℝ) ^ 2 + 0 ^ 2)) 0.5 = 1.75 := by
    have : √((0.5 : ℝ) ^ 2) = 0.5 := sqrt_sq (by norm_num)
    simp only [eou, zero_pow two_ne_zero, add_zero, sqrt_zero, zero_add, this]
    norm_num
  refine ⟨⟨0, ![30, 0, 0], 0, 0, 0, 0, 3.5, 0.5, 0.3⟩, (30 - (0 + 0) - 0.3) / 1.75,
    (1 / 0.3048 * 30 - (1 / 0.3048 * 0 + 1 / 0.3048 * 0) - 0.3) / 1.75, rfl, rfl, rfl, ?_, ?_, by norm_num⟩
  · simp only [separation, hd, hz, hb]
    rw [if_neg (by norm_num)]
  · simp only [separation, inUnit, hd', smul_zero, hz, hb] at hd' ⊢
    rw [if_neg (by norm_num), hd']

/-- Non-vacuity: the pair of the previous theorem has a separation factor, which is kept when everything is
converted to feet. -/
example : ∃ p x, (separation p).sf = some x ∧ (separation (inUnit (1 / 0.3048) p)).sf = some x := by
  obtain ⟨p, x, -, -, -, -, h, -⟩ := C381_default_margins
  exact ⟨p, x, h, by rw [(C381_converted_partial (by norm_num) p).1, h]⟩

end Welleng.Props
