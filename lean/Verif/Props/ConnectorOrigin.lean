import Verif.Props.ConnectorCurve
import Verif.Props.TrueApproach
import Verif.Props.ConnectorSearch

/-! C323, C324: connections to a position, the origin of the coordinates and the length. -/

namespace Welleng.Props

open Real Welleng.Con Welleng.Spec

/-- The same connection seen from an origin at `-w`. -/
def moved (w : V3) (r : V3 × Used × CurveHold) : V3 × Used × CurveHold :=
  (r.1 + w, r.2.1, { r.2.2 with pos2 := r.2.2.pos2 + w })

theorem sub_moved (a b w : V3) : a + w - (b + w) = a - b := by abel

theorem modTarget_moved (z pos vec q w : V3) :
    modTarget z (pos + w) vec (q + w) = modTarget z pos vec q + w := by
  unfold modTarget
  rw [sub_moved]
  by_cases hc : q ≠ pos ∧ vec = normalize (q - pos)
  · rw [if_pos hc, if_pos ⟨by simpa using hc.1, hc.2⟩]
    abel
  · rw [if_neg hc, if_neg (fun hh => hc ⟨by simpa using hh.1, hh.2⟩)]

theorem getDistances_moved {pos vec q w : V3}
    (h : allClose pos q ↔ allClose (pos + w) (q + w)) :
    getDistances (pos + w) vec (q + w) = getDistances pos vec q := by
  unfold getDistances
  by_cases hc : allClose pos q
  · rw [if_pos hc, if_pos (h.mp hc)]
  · rw [if_neg hc, if_neg (fun hh => hc (h.mpr hh))]
    simp only [sub_moved]

theorem getVecTarget_moved (pos vec q w : V3) (t dc f : ℝ) :
    getVecTarget (pos + w) vec (q + w) t dc f = getVecTarget pos vec q t dc f := by
  unfold getVecTarget
  simp only [sub_moved]

theorem curveHold_moved (r : ℝ) (x : Dist) (pos vec q w : V3) :
    curveHold r x (pos + w) vec (q + w) =
      (curveHold r x pos vec q).map fun o => { o with pos2 := o.pos2 + w } := by
  unfold curveHold
  split
  · rfl
  · simp only [getVecTarget_moved, Option.map_some]
    congr 2
    abel

theorem curveOnly_moved (r : Ext) (x : Dist) (pos vec q w : V3) :
    curveOnly r x (pos + w) vec (q + w) =
      (curveOnly r x pos vec q).map fun o => { o with pos2 := o.pos2 + w } := by
  unfold curveOnly
  split
  · rfl
  · split
    · rfl
    · simp only [getVecTarget_moved, Option.map_some]

/-- C323, partial: as long as start and target count as the same point (`np.allclose`) for both
origins or for neither, moving the origin moves the connection and changes nothing else. -/
theorem C323_origin_partial (radius : Ext) (e : ℝ) (z pos1 vec1 posT w : V3)
    (h : allClose pos1 (modTarget z pos1 vec1 posT) ↔
      allClose (pos1 + w) (modTarget z pos1 vec1 posT + w)) :
    connectPos radius e z (pos1 + w) vec1 (posT + w) =
      (connectPos radius e z pos1 vec1 posT).map (moved w) := by
  unfold connectPos
  simp only [modTarget_moved, getDistances_moved h, curveHold_moved, curveOnly_moved]
  split
  · rfl
  · split
    · split_ifs
      · simp only [Option.map_map]; rfl
      · simp only [Option.map_map]; rfl
    · simp only [Option.map_map]; rfl

/-- Two points which count as the same although they are 40 m apart: at large coordinates. -/
theorem utm_close : allClose ⟨6000000, 500000, 2000⟩ ⟨6000040, 500000, 2000⟩ := by
  refine ⟨?_, ?_, ?_⟩ <;> (unfold isClose; norm_num)

/-- C324 is false: at a northing of 6000 km, a level well pointing east and a target 40 m north.
The connection has the length zero, keeps its direction, and is said to end at the target. -/
theorem C324_zero_length (R e : ℝ) (hR : 0 < R) (z : V3) :
    ∃ o, connectPos (.val R) e z ⟨6000000, 500000, 2000⟩ ⟨0, 1, 0⟩ ⟨6000040, 500000, 2000⟩ =
      some (⟨6000040, 500000, 2000⟩, .minCurve, o) ∧ o.md = 0 ∧ o.vecTarget = ⟨0, 1, 0⟩ ∧
      V3.norm ((⟨6000040, 500000, 2000⟩ : V3) - ⟨6000000, 500000, 2000⟩) = 40 := by
  have hm : modTarget z (⟨6000000, 500000, 2000⟩ : V3) ⟨0, 1, 0⟩ ⟨6000040, 500000, 2000⟩ =
      ⟨6000040, 500000, 2000⟩ := by
    refine modTarget_idle ?_
    rintro ⟨t, ht, h⟩
    have := congrArg V3.x h
    norm_num at this
  have hd : getDistances (⟨6000000, 500000, 2000⟩ : V3) ⟨0, 1, 0⟩ ⟨6000040, 500000, 2000⟩ = ⟨0, 0, 0⟩ := by
    unfold getDistances
    rw [if_pos utm_close]
  have h0 : checkDogleg 0 = 0 := by simp [checkDogleg]
  refine ⟨⟨⟨6000040, 500000, 2000⟩, ⟨0, 1, 0⟩, 0, 0, 0, 0⟩, ?_, rfl, rfl, ?_⟩
  · unfold connectPos
    simp only [hm, hd, getRadiusCritical, if_true]
    rw [if_neg (not_le.mpr hR)]
    simp [curveOnly, minCurveToTarget, Ext.min, h0, getCurveHoldData, getVecTarget]
  · unfold V3.norm V3.dot
    simp
    norm_num
    rw [show (1600 : ℝ) = 40 ^ 2 by norm_num, sqrt_sq (by norm_num)]

/-- C323 is false: with the origin at the start of the same well the connection has a length. -/
theorem C323_origin_matters : ∃ (w : V3) (o o' : CurveHold),
    connectPos (.val 10) 1e-5 0 0 ⟨0, 1, 0⟩ ⟨40, 0, 0⟩ = some (⟨40, 0, 0⟩, .minDist, o) ∧ 0 < o.md ∧
    connectPos (.val 10) 1e-5 0 (0 + w) ⟨0, 1, 0⟩ (⟨40, 0, 0⟩ + w) =
      some (⟨40, 0, 0⟩ + w, .minCurve, o') ∧ o'.md = 0 := by
  have hn : V3.norm ((⟨40, 0, 0⟩ : V3) - 0) ^ 2 = 1600 := by
    rw [V3.norm_sq]; simp [V3.dot]; norm_num
  obtain ⟨o, h1, -, h3, h4, h5, -⟩ := C74_design_radius_partial (pos1 := 0) (vec1 := ⟨0, 1, 0⟩)
    (u := ⟨1, 0, 0⟩) (posT := ⟨40, 0, 0⟩) (noise := 0) (a := 0) (b := 40) (R := 10) (e := 1e-5)
    (by simp [V3.IsUnit, V3.dot]) (by simp [V3.IsUnit, V3.dot]) (by simp [V3.dot])
    (by norm_num) (by norm_num) (by norm_num) (by ext <;> simp)
    (by rintro ⟨h, -, -⟩; unfold isClose at h; norm_num at h) (by norm_num) (by norm_num)
    (by rw [hn]; norm_num)
  obtain ⟨o', k1, k2, -, -⟩ := C324_zero_length 10 1e-5 (by norm_num) 0
  refine ⟨⟨6000000, 500000, 2000⟩, o, o', h1, by rw [h4]; linarith [h3.1], ?_, k2⟩
  have e1 : (0 : V3) + ⟨6000000, 500000, 2000⟩ = ⟨6000000, 500000, 2000⟩ := zero_add _
  have e2 : (⟨40, 0, 0⟩ : V3) + ⟨6000000, 500000, 2000⟩ = ⟨6000040, 500000, 2000⟩ := by
    ext <;> simp; norm_num
  rw [e1, e2]
  exact k1

/-- An arc gets no further than its length. -/
theorem arcTo_dist {R L : ℝ} {p v q u : V3} (h : ArcTo R L p v q u) (hL : 0 ≤ L) :
    V3.norm (q - p) ≤ L := by
  obtain ⟨γ, τ, ν, hc, rfl, -, rfl, -⟩ := h
  rcases hL.eq_or_lt with rfl | h2
  · rw [sub_self, V3.norm_zero]
  set D := γ L - γ 0 with hD
  have hder : ∀ x, HasDerivAt (fun u => V3.dot D (γ u)) (V3.dot D (τ x)) x :=
    fun x => hasDeriv_dot D (hc.deriv_pos x)
  obtain ⟨c, hc', he⟩ := exists_hasDerivAt_eq_slope (fun u => V3.dot D (γ u)) (fun u => V3.dot D (τ u))
    h2 (fun x _ => (hder x).continuousAt.continuousWithinAt) (fun x _ => hder x)
  have hle := V3.dot_le_norm D (τ c)
  rw [show V3.norm (τ c) = 1 by unfold V3.norm; rw [hc.unit_tan c, sqrt_one], mul_one] at hle
  rw [eq_div_iff (by linarith), ← V3.dot_sub_right, ← hD, ← V3.norm_sq, sub_zero] at he
  have hn := V3.norm_nonneg D
  by_contra hlt
  push Not at hlt
  nlinarith

/-- The length of a curve and a straight is no less than the distance. -/
theorem path_dist {R L T : ℝ} {p v q u r : V3} (h : ArcTo R L p v q u) (hL : 0 ≤ L)
    (hs : StraightTo T q u r) : V3.norm (r - p) ≤ L + T := by
  have h1 := arcTo_dist h hL
  have hu : V3.norm u = 1 := by
    obtain ⟨γ, τ, ν, hc, -, -, -, rfl⟩ := h
    unfold V3.norm; rw [hc.unit_tan L, sqrt_one]
  obtain ⟨hT, rfl⟩ := hs
  have e : q + T • u - p = (q - p) + T • u := by abel
  rw [e]
  refine (V3.norm_add_le _ _).trans ?_
  rw [V3.norm_smul, hu, abs_of_nonneg hT]
  linarith

/-- C324, partial: a connection at the design radius is at least as long as the distance. -/
theorem C324_design_radius_partial {pos1 vec1 u posT noise : V3} {a b R e : ℝ}
    (hv : vec1.IsUnit) (hu : u.IsUnit) (ho : V3.dot vec1 u = 0) (hR : 0 < R) (hb : 0 < b)
    (hb2 : b ≠ 2 * R) (h : posT = pos1 + a • vec1 + b • u) (hne : ¬ allClose pos1 posT)
    (he0 : 0 ≤ e) (he : e < 1) (hrc : R ≤ V3.norm (posT - pos1) ^ 2 / (2 * b) * (1 - e)) :
    ∃ o, connectPos (.val R) e noise pos1 vec1 posT = some (posT, .minDist, o) ∧
      V3.norm (posT - pos1) ≤ o.md := by
  obtain ⟨o, h1, h2, h3, h4, h5, -⟩ := C74_design_radius_partial (noise := noise) hv hu ho hR hb hb2 h
    hne he0 he hrc
  exact ⟨o, h1, by rw [h4]; exact path_dist h2 h5.le h3⟩

/-- C324, partial: so is one at the critical radius. -/
theorem C324_critical_radius_partial {pos1 vec1 u posT noise : V3} {a b e : ℝ} {radius : Ext}
    (hv : vec1.IsUnit) (hu : u.IsUnit) (ho : V3.dot vec1 u = 0) (hb : 0 < b) (ha : a ≠ 0)
    (h : posT = pos1 + a • vec1 + b • u) (hne : ¬ allClose pos1 posT) (he0 : 0 < e) (he : e < 1)
    (hrad : ∀ R, radius = .val R → V3.norm (posT - pos1) ^ 2 / (2 * b) ≤ R) :
    ∃ o, connectPos radius e noise pos1 vec1 posT = some (posT, .minCurve, o) ∧
      V3.norm (posT - pos1) ≤ o.md := by
  obtain ⟨o, h1, h2, h3, h4, h5⟩ := C74_critical_radius_partial (noise := noise) hv hu ho hb ha h hne
    he0 he hrad
  exact ⟨o, h1, by rw [h4]; exact arcTo_dist h2 h5.le⟩

/-! The partial theorems apply to the target `(4, 0, 3)` of a vertical well, radii 1 and 10, and
to a shift of the origin by 1 m. -/

example : ∃ o, connectPos (.val 1) 1e-5 0 0 ⟨0, 0, 1⟩ ⟨4, 0, 3⟩ = some (⟨4, 0, 3⟩, .minDist, o) ∧
    V3.norm ((⟨4, 0, 3⟩ : V3) - 0) ≤ o.md := by
  obtain ⟨h, hne, hn⟩ := witness_geometry
  exact C324_design_radius_partial (noise := 0) (R := 1) (e := 1e-5)
    (by simp [V3.IsUnit, V3.dot]) (by simp [V3.IsUnit, V3.dot]) (by simp [V3.dot])
    (by norm_num) (by norm_num) (by norm_num) h hne (by norm_num) (by norm_num)
    (by rw [hn]; norm_num)

example : ∃ o, connectPos (.val 10) 1e-5 0 0 ⟨0, 0, 1⟩ ⟨4, 0, 3⟩ = some (⟨4, 0, 3⟩, .minCurve, o) ∧
    V3.norm ((⟨4, 0, 3⟩ : V3) - 0) ≤ o.md := by
  obtain ⟨h, hne, hn⟩ := witness_geometry
  exact C324_critical_radius_partial (noise := 0) (radius := .val 10) (e := 1e-5)
    (by simp [V3.IsUnit, V3.dot]) (by simp [V3.IsUnit, V3.dot]) (by simp [V3.dot])
    (by norm_num) (by norm_num) h hne (by norm_num) (by norm_num)
    (by rintro R ⟨⟩; rw [hn]; norm_num)

example : connectPos (.val 1) 1e-5 0 (0 + ⟨1, 0, 0⟩) ⟨0, 0, 1⟩ (⟨4, 0, 3⟩ + ⟨1, 0, 0⟩) =
    (connectPos (.val 1) 1e-5 0 0 ⟨0, 0, 1⟩ ⟨4, 0, 3⟩).map (moved ⟨1, 0, 0⟩) := by
  have hna : ¬ StraightAhead 0 (⟨0, 0, 1⟩ : V3) ⟨4, 0, 3⟩ := by
    rintro ⟨t, ht, h⟩
    have := congrArg V3.x h
    simp at this
  refine C323_origin_partial _ _ _ _ _ _ _ ?_
  rw [modTarget_idle hna]
  constructor
  · rintro ⟨h, -, -⟩; unfold isClose at h; norm_num at h
  · rintro ⟨h, -, -⟩; unfold isClose at h; norm_num at h

end Welleng.Props
