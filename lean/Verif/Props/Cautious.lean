import Verif.Props.Clearance

/-!
C376: more cautious settings of a clearance calculation.
-/

namespace Welleng.Props

open Real Clr

/-- The same pair of stations with settings that are more cautious, or as cautious. -/
structure MoreCautious (p q : Pair) : Prop where
  ref : q.ref = p.ref
  off : q.off = p.off
  refCov : q.refCov = p.refCov
  offCov : q.offCov = p.offCov
  Rr : p.Rr ≤ q.Rr
  Ro : p.Ro ≤ q.Ro
  k : p.k ≤ q.k
  sigmaPa : |p.sigmaPa| ≤ |q.sigmaPa|
  Sm : p.Sm ≤ q.Sm

/-- **C376** Larger hole sizes, confidence factor, project-ahead uncertainty or surface margin never withdraw
an alarm: a separation factor below 1 stays below 1, the distance that must be kept does not become smaller,
and the separation of the ellipses does not become larger. -/
theorem C376_alarm {p q : Pair} (h : MoreCautious p q) (hk : 0 < p.k)
    (hb : 0 < (separation p).eouBoundary) :
    ∃ x y, (separation p).sf = some x ∧ (separation q).sf = some y ∧ (x < 1 → y < 1) ∧
      (separation p).masd ≤ (separation q).masd ∧
      (separation q).eouSeparation ≤ (separation p).eouSeparation := by
  have hs : (separation q).sigmaS = (separation p).sigmaS := by
    simp only [separation, h.ref, h.off, h.refCov, h.offCov]
  have hd : (separation q).distance = (separation p).distance := by
    simp only [separation, h.ref, h.off]
  have hle : (separation p).eouBoundary ≤ (separation q).eouBoundary := by
    simp only [separation, eou] at hs ⊢
    rw [hs]
    refine mul_le_mul h.k (sqrt_le_sqrt ?_) (sqrt_nonneg _) (hk.le.trans h.k)
    exact add_le_add le_rfl (sq_le_sq.2 h.sigmaPa)
  have h1 := h.Rr
  have h2 := h.Ro
  have h3 := h.Sm
  have hw : (separation q).wellboreSeparation ≤ (separation p).wellboreSeparation := by
    simp only [separation] at hd ⊢
    linarith
  refine ⟨_, _, sf_of_pos hb, sf_of_pos (hb.trans_le hle), fun hx => ?_, ?_, ?_⟩
  · rw [div_lt_one hb] at hx
    rw [div_lt_one (hb.trans_le hle)]
    linarith
  · simp only [separation] at hle ⊢
    linarith
  · simp only [separation] at hle hw ⊢
    linarith

/-- While the holes do not overlap, the separation factor itself does not become larger; when they do, it
can (`C30_overlap_sigma_raises_sf`). -/
theorem C376_factor {p q : Pair} (h : MoreCautious p q) (hk : 0 < p.k)
    (hb : 0 < (separation p).eouBoundary) (h0 : 0 ≤ (separation q).wellboreSeparation) :
    ∃ x y, (separation p).sf = some x ∧ (separation q).sf = some y ∧ y ≤ x := by
  obtain ⟨x, y, hx, hy, -, h1, h2⟩ := C376_alarm h hk hb
  refine ⟨x, y, hx, hy, ?_⟩
  have hs : (separation q).sigmaS = (separation p).sigmaS := by
    simp only [separation, h.ref, h.off, h.refCov, h.offCov]
  have hd : (separation q).distance = (separation p).distance := by
    simp only [separation, h.ref, h.off]
  have hle : (separation p).eouBoundary ≤ (separation q).eouBoundary := by
    simp only [separation, eou] at hs ⊢
    rw [hs]
    refine mul_le_mul h.k (sqrt_le_sqrt ?_) (sqrt_nonneg _) (hk.le.trans h.k)
    exact add_le_add le_rfl (sq_le_sq.2 h.sigmaPa)
  have hw : (separation q).wellboreSeparation ≤ (separation p).wellboreSeparation := by
    have h1 := h.Rr
    have h2 := h.Ro
    have h3 := h.Sm
    simp only [separation] at hd ⊢
    linarith
  rw [sf_of_pos hb] at hx
  rw [sf_of_pos (hb.trans_le hle)] at hy
  simp only [Option.some.injEq] at hx hy
  rw [← hx, ← hy]
  exact div_le_div₀ (h0.trans hw) hw hb hle

/-- Not vacuous: an alarm that stays when the confidence factor is raised. -/
example : MoreCautious (⟨0, fun _ => 1, 0, 0, 0, 0, 2, 1, 0⟩ : Pair) ⟨0, fun _ => 1, 0, 0, 0, 0, 3, 1, 1⟩ ∧
    0 < (separation ⟨0, fun _ => 1, 0, 0, 0, 0, 2, 1, 0⟩).eouBoundary :=
  ⟨⟨rfl, rfl, rfl, rfl, le_rfl, le_rfl, by norm_num, le_rfl, by norm_num⟩,
    C30_boundary_positive _ (by norm_num) (by norm_num)⟩

end Welleng.Props
