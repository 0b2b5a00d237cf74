import Verif.Model.Clearance
import Verif.Lemmas.ErrorModel
import Verif.Spec.Covariance
import Mathlib.Analysis.SpecialFunctions.Pow.Real
import Mathlib.Algebra.BigOperators.Field
import Mathlib.Tactic.Linarith
import Mathlib.Tactic.FinCases
import Mathlib.Tactic.Positivity

/-! C30, C31, C66, C68: separation factors. -/

namespace Welleng.Props

open Real Welleng Spec Err Clr

/-! ### C30 -/

/-- With the default settings (any `k > 0` and `sigma_pa ≠ 0`) the boundary is positive. -/
theorem C30_boundary_positive (p : Pair) (hk : 0 < p.k) (hs : p.sigmaPa ≠ 0) :
    0 < (separation p).eouBoundary := by
  have : 0 < p.sigmaPa ^ 2 := by positivity
  exact mul_pos hk (sqrt_pos.2 (by positivity))

/-- **C30** With a positive boundary, the separation factor is at least 1 exactly when the
centre distance is at least the minimum allowable separation distance, and exactly when the
separation of the uncertainty ellipses is not negative. -/
theorem C30_sf_masd_eou (p : Pair) (hb : 0 < (separation p).eouBoundary) :
    ∃ sf, (separation p).sf = some sf ∧
      (1 ≤ sf ↔ (separation p).masd ≤ (separation p).distance) ∧
      (1 ≤ sf ↔ 0 ≤ (separation p).eouSeparation) := by
  simp only [separation] at hb ⊢
  rw [if_neg hb.ne']
  refine ⟨_, rfl, ?_, ?_⟩ <;> rw [le_div_iff₀ hb] <;> constructor <;> intro h <;> linarith

theorem sf_of_pos {p : Pair} (hb : 0 < (separation p).eouBoundary) :
    (separation p).sf
      = some ((separation p).wellboreSeparation / (separation p).eouBoundary) := by
  simp only [separation] at hb ⊢
  rw [if_neg hb.ne']

/-- **C30** A larger distance, smaller holes and a smaller margin do not lower the separation
factor if the boundary is the same. -/
theorem C30_monotone_geometry (p q : Pair) (hb : 0 < (separation p).eouBoundary)
    (he : (separation q).eouBoundary = (separation p).eouBoundary)
    (hd : (separation p).distance ≤ (separation q).distance)
    (hr : q.Rr ≤ p.Rr) (ho : q.Ro ≤ p.Ro) (hm : q.Sm ≤ p.Sm) :
    ∃ x y, (separation p).sf = some x ∧ (separation q).sf = some y ∧ x ≤ y := by
  refine ⟨_, _, sf_of_pos hb, sf_of_pos (he ▸ hb), ?_⟩
  rw [he]
  refine div_le_div_of_nonneg_right ?_ hb.le
  simp only [separation] at hd ⊢
  linarith

/-- **C30** While the bores with their margin do not overlap, less uncertainty does not lower
the separation factor. -/
theorem C30_monotone_sigma (p q : Pair) (hk : 0 < q.k) (hkp : q.k ≤ p.k)
    (hs : (separation q).sigmaS ≤ (separation p).sigmaS)
    (ha : |q.sigmaPa| ≤ |p.sigmaPa|) (hb : 0 < (separation q).eouBoundary)
    (hw : (separation q).wellboreSeparation = (separation p).wellboreSeparation)
    (h0 : 0 ≤ (separation p).wellboreSeparation) :
    ∃ x y, (separation p).sf = some x ∧ (separation q).sf = some y ∧ x ≤ y := by
  have hle : (separation q).eouBoundary ≤ (separation p).eouBoundary := by
    simp only [separation, eou] at hs ⊢
    refine mul_le_mul hkp (sqrt_le_sqrt ?_) (sqrt_nonneg _) (hk.le.trans hkp)
    exact add_le_add (pow_le_pow_left₀ (sqrt_nonneg _) hs 2) (sq_le_sq.2 ha)
  refine ⟨_, _, sf_of_pos (hb.trans_le hle), sf_of_pos hb, ?_⟩
  rw [hw]
  exact div_le_div_of_nonneg_left h0 hb hle

/-- A pair 10 m apart with covariance `c`, default settings. -/
noncomputable def exPair (c : ℝ) (r : ℝ) : Pair :=
  ⟨![0, 0, 0], ![10, 0, 0], Matrix.diagonal fun _ => c, 0, r, 0, 1, 3, 0⟩

theorem exPair_dist : √(∑ i : Fin 3, ((![10, 0, 0] : V) i - (![0, 0, 0] : V) i) ^ 2) = 10 := by
  rw [show (∑ i : Fin 3, ((![10, 0, 0] : V) i - (![0, 0, 0] : V) i) ^ 2) = 10 ^ 2 by
    simp [Fin.sum_univ_three]]
  exact sqrt_sq (by norm_num)

theorem exPair_sep {c : ℝ} (hc : 0 ≤ c) (r : ℝ) :
    (separation (exPair c r)).eouBoundary = √(c + 9) ∧
      (separation (exPair c r)).wellboreSeparation = 10 - r := by
  have h10 : (10 : ℝ) ≠ 0 := by norm_num
  have hu : unitDelta ![0, 0, 0] ![10, 0, 0] = ![1, 0, 0] := by
    simp only [unitDelta]
    rw [exPair_dist, if_neg h10]
    funext i; fin_cases i <;> simp
  have hq : ∀ u : V, quad u 0 = 0 := fun u => by simp [quad]
  constructor
  · simp only [separation, exPair, eou, hu, pcr, hq, sqrt_zero]
    have : quad ![1, 0, 0] (Matrix.diagonal fun _ => c) = c := by
      simp [quad, Fin.sum_univ_three, Matrix.diagonal]
    rw [this, sq_sqrt hc]
    rw [show c + 0 ^ 2 = c by ring, sq_sqrt hc]
    norm_num
  · simp only [separation, exPair, distanceCc]
    rw [exPair_dist]; ring

/-- Non-vacuity of the theorems above. -/
example : 0 < (separation (exPair 16 1)).eouBoundary ∧
    0 ≤ (separation (exPair 16 1)).wellboreSeparation := by
  obtain ⟨h1, h2⟩ := exPair_sep (c := 16) (by norm_num) 1
  rw [h1, h2]; norm_num

/-- **C30** The condition on overlap is needed: with overlapping bores more uncertainty raises
the separation factor. -/
theorem C30_overlap_sigma_raises_sf :
    ∃ x y, (separation (exPair 0 16)).sf = some x ∧ (separation (exPair 16 16)).sf = some y ∧
      (separation (exPair 0 16)).eouBoundary < (separation (exPair 16 16)).eouBoundary ∧
      x < y := by
  obtain ⟨h1, h2⟩ := exPair_sep (c := 0) le_rfl 16
  obtain ⟨h3, h4⟩ := exPair_sep (c := 16) (by norm_num) 16
  have e1 : √((0 : ℝ) + 9) = 3 := by
    rw [show (0 : ℝ) + 9 = 3 ^ 2 by norm_num]; exact sqrt_sq (by norm_num)
  have e2 : √((16 : ℝ) + 9) = 5 := by
    rw [show (16 : ℝ) + 9 = 5 ^ 2 by norm_num]; exact sqrt_sq (by norm_num)
  refine ⟨_, _, sf_of_pos (by rw [h1, e1]; norm_num), sf_of_pos (by rw [h3, e2]; norm_num), ?_⟩
  rw [h1, h2, h3, h4, e1, e2]
  norm_num

/-! ### C31 -/

theorem unitDelta_sq (p q : V) : ∑ i, unitDelta p q i ^ 2 = 0 ∨ ∑ i, unitDelta p q i ^ 2 = 1 := by
  unfold unitDelta
  split
  · left; simp
  · right
    rename_i h
    have h2 := sq_sqrt (Finset.sum_nonneg fun i (_ : i ∈ Finset.univ) => sq_nonneg (q i - p i))
    simp only [div_pow, ← Finset.sum_div]
    rw [h2]
    refine div_self fun h0 => h ?_
    rw [h0, sqrt_zero]

theorem unitDelta_swap (p q : V) : unitDelta q p = -unitDelta p q := by
  have : (∑ i, (p i - q i) ^ 2) = ∑ i, (q i - p i) ^ 2 :=
    Finset.sum_congr rfl fun i _ => by ring
  unfold unitDelta
  simp only [this]
  split
  · simp
  · funext i; simp only [Pi.neg_apply]; ring

theorem quad_neg (u : V) (c : M3) : quad (-u) c = quad u c := by
  simp [quad]

/-- **C31** For covariance matrices the quantity under the root is not negative, in every
direction, and the combined sigma is its root: the standard deviation of the difference of the
two positions along the line between them. -/
theorem C31_root_defined (p : Pair) (hr : IsCov p.refCov) (ho : IsCov p.offCov) :
    0 ≤ quad (unitDelta p.ref p.off) p.refCov ∧ 0 ≤ quad (unitDelta p.off p.ref) p.offCov ∧
    (separation p).sigmaS ^ 2
      = ∑ i, ∑ j, unitDelta p.ref p.off i * (p.refCov + p.offCov) i j * unitDelta p.ref p.off j := by
  refine ⟨hr.nonneg _, ho.nonneg _, ?_⟩
  have h1 : 0 ≤ quad (unitDelta p.ref p.off) p.refCov := hr.nonneg _
  have h2 : 0 ≤ quad (unitDelta p.ref p.off) p.offCov := ho.nonneg _
  simp only [separation, pcr]
  rw [unitDelta_swap p.ref p.off, quad_neg, sq_sqrt h1, sq_sqrt h2, sq_sqrt (add_nonneg h1 h2)]
  simp only [quad, Fin.sum_univ_three, Matrix.add_apply]
  ring

/-- The direction used is a unit vector unless the two points coincide. -/
theorem C31_direction (p q : V) (h : p ≠ q) : ∑ i, unitDelta p q i ^ 2 = 1 := by
  refine (unitDelta_sq p q).resolve_left fun h0 => h ?_
  by_contra hne
  have hd : √(∑ i, (q i - p i) ^ 2) ≠ 0 := fun hz => hne <| by
    have := (sqrt_eq_zero (Finset.sum_nonneg fun i _ => sq_nonneg (q i - p i))).1 hz
    rw [Finset.sum_eq_zero_iff_of_nonneg fun i _ => sq_nonneg _] at this
    funext i
    have := pow_eq_zero_iff (two_ne_zero) |>.1 (this i (Finset.mem_univ _))
    linarith
  rw [Finset.sum_eq_zero_iff_of_nonneg fun i _ => sq_nonneg _] at h0
  refine hne (funext fun i => ?_)
  have := pow_eq_zero_iff (two_ne_zero) |>.1 (h0 i (Finset.mem_univ _))
  simp only [unitDelta, if_neg hd] at this
  have := (div_eq_zero_iff.1 this).resolve_right hd
  linarith

/-- Reference and offset exchanged. -/
def swapPair (p : Pair) : Pair :=
  { p with
    ref := p.off
    off := p.ref
    refCov := p.offCov
    offCov := p.refCov
    Rr := p.Ro
    Ro := p.Rr }

/-- **C31** Exchanging the wells changes none of the results for a pair of points. -/
theorem C31_symmetric (p : Pair) : separation (swapPair p) = separation p := by
  have hd : distanceCc p.off p.ref = distanceCc p.ref p.off := by
    unfold distanceCc
    congr 1
    exact Finset.sum_congr rfl fun i _ => by ring
  have h1 := add_comm (pcr (unitDelta p.off p.ref) p.offCov ^ 2)
    (pcr (unitDelta p.ref p.off) p.refCov ^ 2)
  have h2 := add_comm p.Ro p.Rr
  simp only [separation, swapPair, hd, h1, h2]

/-- **C31** If no direction has a standard deviation above `a` for the reference and above `b`
for the offset well, the combined sigma is at most `√(a² + b²)`. -/
theorem C31_bounded (p : Pair) (hr : IsCov p.refCov) (ho : IsCov p.offCov) {a b : ℝ}
    (ha : ∀ v : V, ∑ i, ∑ j, v i * p.refCov i j * v j ≤ a ^ 2 * ∑ i, v i ^ 2)
    (hb : ∀ v : V, ∑ i, ∑ j, v i * p.offCov i j * v j ≤ b ^ 2 * ∑ i, v i ^ 2) :
    (separation p).sigmaS ≤ √(a ^ 2 + b ^ 2) := by
  have h1 : 0 ≤ quad (unitDelta p.ref p.off) p.refCov := hr.nonneg _
  have h2 : 0 ≤ quad (unitDelta p.off p.ref) p.offCov := ho.nonneg _
  simp only [separation, pcr]
  rw [sq_sqrt h1, sq_sqrt h2]
  refine sqrt_le_sqrt (add_le_add ((ha _).trans ?_) ((hb _).trans ?_))
  · rcases unitDelta_sq p.ref p.off with h | h <;> rw [h] <;> nlinarith [sq_nonneg a]
  · rcases unitDelta_sq p.off p.ref with h | h <;> rw [h] <;> nlinarith [sq_nonneg b]

/-- **C31** Covariances interpolated between two stations are covariances. -/
theorem C31_interpolated {a b : M3} (ha : IsCov a) (hb : IsCov b) {m : ℝ} (h0 : 0 ≤ m)
    (h1 : m ≤ 1) : IsCov (lerpCov m a b) := by
  refine ⟨fun i j => ?_, fun v => ?_⟩
  · simp [lerpCov, ha.symm i j, hb.symm i j]
  · have e : ∑ i, ∑ j, v i * lerpCov m a b i j * v j
        = (1 - m) * ∑ i, ∑ j, v i * a i j * v j + m * ∑ i, ∑ j, v i * b i j * v j := by
      simp only [lerpCov, Fin.sum_univ_three, Matrix.add_apply, Matrix.smul_apply,
        Matrix.sub_apply, smul_eq_mul]
      ring
    rw [e]
    have := mul_nonneg (sub_nonneg.2 h1) (ha.nonneg v)
    have := mul_nonneg h0 (hb.nonneg v)
    linarith

example : IsCov (lerpCov (1 / 2) (covFromVec ![1, 0, 0]) (covFromVec ![0, 2, 1])) :=
  C31_interpolated (isCov_covFromVec _) (isCov_covFromVec _) (by norm_num) (by norm_num)

/-! ### C68: the value minimised between stations -/

/-- **C68** What the search between stations minimises is the separation factor without the
surface margin: it exceeds the separation factor reported for the same pair of points by
`Sm / boundary`. -/
theorem C68_objective_is_sf_plus_margin_partial (p : Pair) (hr : IsCov p.refCov)
    (ho : IsCov p.offCov) (hd : 1e-10 ≤ (separation p).distance)
    (hb : 0 < (separation p).eouBoundary) :
    ∃ sf, (separation p).sf = some sf ∧
      sfObjective p = some (sf + p.Sm / (separation p).eouBoundary) := by
  refine ⟨_, sf_of_pos hb, ?_⟩
  have h1 : 0 ≤ quad (unitDelta p.ref p.off) p.refCov := hr.nonneg _
  have h2 : 0 ≤ quad (unitDelta p.ref p.off) p.offCov := ho.nonneg _
  simp only [separation, pcr] at hd hb ⊢
  simp only [sfObjective, if_neg (not_lt.2 hd), max_eq_right h1, max_eq_right h2]
  rw [unitDelta_swap p.ref p.off, quad_neg] at hb ⊢
  rw [← add_div]
  congr 2
  ring

/-- **C68** is false of the code: with the default settings the value minimised differs from
the reported separation factor. -/
theorem C68_objective_differs : ∃ p : Pair, IsCov p.refCov ∧ IsCov p.offCov ∧ p.Sm = 0.3 ∧
    p.k = 3.5 ∧ p.sigmaPa = 0.5 ∧ sfObjective p ≠ (separation p).sf := by
  let p : Pair := ⟨![0, 0, 0], ![10, 0, 0], 0, 0, 0.4572, 0.3048, 3.5, 0.5, 0.3⟩
  have hb : 0 < (separation p).eouBoundary :=
    C30_boundary_positive p (by norm_num [p]) (by norm_num [p])
  have hd : (separation p).distance = 10 := exPair_dist
  obtain ⟨sf, h1, h2⟩ := C68_objective_is_sf_plus_margin_partial p isCov_zero isCov_zero
    (by rw [hd]; norm_num) hb
  refine ⟨p, isCov_zero, isCov_zero, rfl, rfl, rfl, ?_⟩
  rw [h1, h2]
  simp only [ne_eq, Option.some.injEq, add_eq_left]
  exact (div_pos (by norm_num [p]) hb).ne'

/-! ### C66: mesh separation factor -/

/-- **C66** Before rounding: without a collision, and while the gap between the meshes is
smaller than the centre distance, the separation factor is at least 1 (more than 1 if there is a
gap); with a collision it is at least 0 and below 1. -/
theorem C66_mesh_sf_unrounded_partial (cc distance depth : ℝ) (hcc : 0 ≤ cc) (hd : 0 ≤ distance)
    (hp : 0 ≤ depth) :
    (distance < cc → ∃ x, meshSf false cc distance depth = some x ∧ 1 ≤ x ∧ (0 < distance → 1 < x)) ∧
    (∃ x, meshSf true cc distance depth = some x ∧ 0 ≤ x ∧ x < 1) := by
  constructor
  · intro h
    have h' : 0 < cc - distance := sub_pos.2 h
    refine ⟨cc / (cc - distance), by simp [meshSf, h'.ne'], ?_, fun h0 => ?_⟩
    · rw [le_div_iff₀ h']; linarith
    · rw [lt_div_iff₀ h']; linarith
  · simp only [meshSf, if_true]
    split
    · rename_i h
      have h1 : 0 < cc := lt_of_le_of_ne hcc (Ne.symm h.1)
      have h2 : 0 < depth := lt_of_le_of_ne hp (Ne.symm h.2)
      refine ⟨_, rfl, by positivity, ?_⟩
      rw [div_lt_one (by positivity)]; linarith
    · exact ⟨0, rfl, le_rfl, one_pos⟩

example : ∃ x, meshSf false 10 4 0 = some x ∧ 1 ≤ x ∧ ((0:ℝ) < 4 → 1 < x) :=
  (C66_mesh_sf_unrounded_partial 10 4 0 (by norm_num) (by norm_num) le_rfl).1 (by norm_num)

/-- **C66** is false of the reported value: a collision 3 m deep between wells 1000 m apart at
the centres is reported with separation factor 1. -/
theorem C66_collision_reported_as_one : meshSfReported true 1000 0 3 = some 1 := by
  have h : (1000 : ℝ) / (1000 + 3) * 10 ^ 2 = 99 + 703 / 1003 := by norm_num
  have hf : ⌊(99 : ℝ) + 703 / 1003⌋ = 99 := by
    rw [Int.floor_eq_iff]; norm_num
  simp only [meshSfReported, meshSf, if_true]
  rw [if_pos (by norm_num)]
  simp only [Option.map_some, Dms.pyRound, h, Dms.roundEven, Int.fract, hf]
  norm_num

end Welleng.Props
