import Verif.Props.ConnectorSearch
import Mathlib.Tactic.LinearCombination
import Mathlib.Tactic.FieldSimp

namespace Welleng.Props

open Real Welleng.Con Welleng.Spec

/-- `p` is a unit vector across `v`. -/
def AcrossUnit (v p : V3) : Prop := p.IsUnit ∧ V3.dot p v = 0

theorem normalize_unit' {a : V3} (h : V3.norm a ≠ 0) : (normalize a).IsUnit := by
  unfold V3.IsUnit normalize
  rw [V3.dot_smul_left, V3.dot_smul_right, ← V3.norm_sq]
  field_simp

theorem normalize_across {a v : V3} (h : V3.norm a ≠ 0) (ho : V3.dot a v = 0) :
    AcrossUnit v (normalize a) :=
  ⟨normalize_unit' h, by rw [normalize, V3.dot_smul_left, ho, mul_zero]⟩

theorem dot_cross_self (v a : V3) : V3.dot (V3.cross v a) v = 0 := by
  simp only [V3.dot, V3.cross]; ring

theorem norm_cross_sq (v a : V3) : V3.norm (V3.cross v a) ^ 2 =
    V3.dot v v * V3.dot a a - V3.dot v a ^ 2 := by
  rw [V3.norm_sq]; simp only [V3.dot, V3.cross]; ring

theorem acrossHat_across {v chord : V3} (hv : v.IsUnit) : AcrossUnit v (acrossHat v chord) := by
  unfold acrossHat
  simp only
  split_ifs with h1 h2
  · refine normalize_across (by linarith) ?_
    rw [V3.dot_sub_left, V3.dot_smul_left, show V3.dot v v = 1 from hv]; ring
  · refine normalize_across ?_ (dot_cross_self _ _)
    intro h0
    have h3 := norm_cross_sq v ⟨0, 1, 0⟩
    rw [h0, show V3.dot v v = 1 from hv] at h3
    have hv' : v.x * v.x + v.y * v.y + v.z * v.z = 1 := hv
    simp [V3.dot] at h2 h3
    have h4 : (0.9 : ℝ) ^ 2 < v.x ^ 2 := by
      rw [← sq_abs v.x]; exact pow_lt_pow_left₀ h2 (by norm_num) (by norm_num)
    nlinarith [mul_self_nonneg v.z]
  · refine normalize_across ?_ (dot_cross_self _ _)
    intro h0
    have h3 := norm_cross_sq v ⟨1, 0, 0⟩
    rw [h0, show V3.dot v v = 1 from hv] at h3
    simp [V3.dot] at h2 h3
    have h4 : v.x ^ 2 ≤ (0.9 : ℝ) ^ 2 := by
      rw [← sq_abs v.x]; exact pow_le_pow_left₀ (abs_nonneg _) h2 _
    norm_num at h4
    linarith

theorem acrossCross_across {v p : V3} (hv : v.IsUnit) (hp : AcrossUnit v p) :
    AcrossUnit v (acrossCross v p) := by
  unfold acrossCross
  simp only
  split_ifs with h
  · exact normalize_across (by linarith) (dot_cross_self _ _)
  · exact hp

theorem across_neg {v p : V3} (h : AcrossUnit v p) : AcrossUnit v (-p) := by
  obtain ⟨h1, h2⟩ := h
  refine ⟨?_, ?_⟩
  · simp only [V3.IsUnit, V3.dot, V3.neg_x, V3.neg_y, V3.neg_z] at *; linarith
  · simp only [V3.dot, V3.neg_x, V3.neg_y, V3.neg_z] at *; linarith

/-- All four directions tried are unit vectors across the start direction. -/
theorem perps_across {v chord p : V3} (hv : v.IsUnit) (hp : p ∈ perps v chord) : AcrossUnit v p := by
  have h1 := acrossHat_across (chord := chord) hv
  have h2 := acrossCross_across hv h1
  simp only [perps, List.mem_cons, List.not_mem_nil, or_false] at hp
  rcases hp with rfl | rfl | rfl | rfl
  · exact h1
  · exact across_neg h1
  · exact h2
  · exact across_neg h2

theorem candidate_dist {pos v p : V3} {r : ℝ} (hv : v.IsUnit) (hp : AcrossUnit v p) (hr : 0 < r)
    (hc : ¬ allClose pos (candidate pos v r p)) :
    getDistances pos v (candidate pos v r p) = ⟨√5 * r, r, 2 * r⟩ := by
  have e : candidate pos v r p - pos = r • v + (2 * r) • p := by unfold candidate; abel
  have hvp : V3.dot v p = 0 := by rw [V3.dot_comm]; exact hp.2
  have hn2 : V3.dot (r • v + (2 * r) • p) (r • v + (2 * r) • p) = 5 * r ^ 2 := by
    simp only [V3.dot_add_left, V3.dot_add_right, V3.dot_smul_left, V3.dot_smul_right, hvp, hp.2,
      show V3.dot v v = 1 from hv, show V3.dot p p = 1 from hp.1]
    ring
  have hn : V3.norm (r • v + (2 * r) • p) = √5 * r := by
    unfold V3.norm
    rw [hn2, sqrt_mul (by norm_num), sqrt_sq hr.le]
  have hd : V3.dot (r • v + (2 * r) • p) v = r := by
    simp only [V3.dot_add_left, V3.dot_smul_left, hp.2, show V3.dot v v = 1 from hv]
    ring
  have h5 : (1 : ℝ) ≤ √5 := by rw [one_le_sqrt]; norm_num
  unfold getDistances
  rw [if_neg hc]
  simp only [e, hn, hd]
  rw [if_neg (by nlinarith)]
  have : (√5 * r) ^ 2 - r ^ 2 = (2 * r) ^ 2 := by
    rw [mul_pow, sq_sqrt (by norm_num)]; ring
  rw [this, sqrt_sq (by linarith)]

/-- C322, partial: every candidate tried is outside the turning circle of the start with the
radius asked for, in the plane it is in, and the program's own measure of that agrees, for
tolerances up to a fifth and unless the candidate counts as being at the start. -/
theorem C322_outside_partial {pos v chord p : V3} {r e : ℝ} (hv : v.IsUnit)
    (hp : p ∈ perps v chord) (hr : 0 < r) (he : e ≤ 1 / 5)
    (hc : ¬ allClose pos (candidate pos v r p)) :
    OutsideTurn r pos p (candidate pos v r p) ∧
    ∃ rc, getRadiusCritical (getDistances pos v (candidate pos v r p)) e = some rc ∧ r ≤ rc := by
  have ha := perps_across hv hp
  refine ⟨?_, ?_⟩
  · have e1 : candidate pos v r p - (pos + r • p) = r • v + r • p := by
      unfold candidate; rw [two_mul, add_smul]; abel
    unfold OutsideTurn
    rw [e1]
    unfold V3.norm
    refine le_sqrt_of_sq_le ?_
    have hvp : V3.dot v p = 0 := by rw [V3.dot_comm]; exact ha.2
    simp only [V3.dot_add_left, V3.dot_add_right, V3.dot_smul_left, V3.dot_smul_right, hvp, ha.2,
      show V3.dot v v = 1 from hv, show V3.dot p p = 1 from ha.1]
    nlinarith [sq_nonneg r]
  · rw [candidate_dist hv ha hr hc]
    unfold getRadiusCritical
    have h1 : (√5 * r) ^ 2 / (2 * (2 * r)) * (1 - e) = 5 / 4 * r * (1 - e) := by
      rw [mul_pow, sq_sqrt (by norm_num)]; field_simp; ring
    have h2 : r ≤ 5 / 4 * r * (1 - e) := by nlinarith
    simp only [h1]
    rw [if_neg (by linarith), if_pos (by linarith)]
    exact ⟨_, rfl, h2⟩

/-- The measure used for the far end: the largest radius that reaches `q` from the reversed
target. -/
noncomputable def farRc (j : Job) (posT q : V3) : ℝ :=
  (getRadiusCritical (getDistances posT ((-1 : ℝ) • j.vecT) q) j.minError).getD 0

theorem pick_spec {j : Job} {pos1 posT : V3} {r1 r2 : ℝ} (he : j.minError < 1) :
    ∀ (l : List V3) (k : ℕ) (best : V3) (b : Option ℝ) (q : V3),
      (∀ p ∈ l, ¬ StraightAhead posT ((-1 : ℝ) • j.vecT) (candidate pos1 j.vec1 r1 p)) →
      (∀ c, b = some c → farRc j posT best = c) →
      pick j pos1 posT r1 r2 l k best b = .ok q →
      (q = best ∨ ∃ p ∈ l, q = candidate pos1 j.vec1 r1 p) ∧
      (r2 ≤ farRc j posT q ∨ (∀ p ∈ l, farRc j posT (candidate pos1 j.vec1 r1 p) ≤ farRc j posT q) ∧
        ∀ c, b = some c → c ≤ farRc j posT q)
  | [], k, best, b, q, _, hb, h => by
    injection h with h
    subst h
    exact ⟨.inl rfl, .inr ⟨by simp, fun c hc => (hb c hc).ge⟩⟩
  | p :: rest, k, best, b, q, hl, hb, h => by
    have hm : modTarget (j.noise k) posT ((-1 : ℝ) • j.vecT) (candidate pos1 j.vec1 r1 p) =
      candidate pos1 j.vec1 r1 p := modTarget_idle (hl p (by simp))
    obtain ⟨-, hn, hnd⟩ := getDistances_nonneg posT ((-1 : ℝ) • j.vecT) (candidate pos1 j.vec1 r1 p)
    obtain ⟨rc, h1, -, -⟩ := getRadiusCritical_ok hn hnd he
    have hf : farRc j posT (candidate pos1 j.vec1 r1 p) = rc := by unfold farRc; rw [h1]; rfl
    unfold pick at h
    simp only [hm, h1] at h
    have hl' : ∀ p ∈ rest, ¬ StraightAhead posT ((-1 : ℝ) • j.vecT) (candidate pos1 j.vec1 r1 p) :=
      fun p hp => hl p (by simp [hp])
    split_ifs at h with hr
    · injection h with h
      subst h
      exact ⟨.inr ⟨p, by simp, rfl⟩, .inl (by rw [hf]; exact hr)⟩
    · have take : ∀ c, pick j pos1 posT r1 r2 rest (k + 1) (candidate pos1 j.vec1 r1 p) (some rc) = .ok q →
          (∀ c', c = some c' → c' ≤ rc) →
          (q = best ∨ ∃ p' ∈ p :: rest, q = candidate pos1 j.vec1 r1 p') ∧
          (r2 ≤ farRc j posT q ∨
            (∀ p' ∈ p :: rest, farRc j posT (candidate pos1 j.vec1 r1 p') ≤ farRc j posT q) ∧
            ∀ c', c = some c' → c' ≤ farRc j posT q) := by
        intro c hh hcc
        obtain ⟨a1, a2⟩ := pick_spec he rest (k + 1) _ (some rc) q hl' (by
          intro c' hc'; injection hc' with hc'; rw [hf, hc']) hh
        refine ⟨?_, ?_⟩
        · rcases a1 with a1 | ⟨p', hp', a1⟩
          · exact .inr ⟨p, by simp, a1⟩
          · exact .inr ⟨p', by simp [hp'], a1⟩
        · rcases a2 with a2 | ⟨a2, a3⟩
          · exact .inl a2
          · have a4 := a3 rc rfl
            refine .inr ⟨?_, fun c' hc' => (hcc c' hc').trans a4⟩
            intro p' hp'
            rcases List.mem_cons.mp hp' with rfl | hp'
            · rw [hf]; exact a4
            · exact a2 p' hp'
      cases b with
      | none => exact take none h (by simp)
      | some c =>
        simp only at h
        split_ifs at h with hgt
        · exact take (some c) h (by intro c' hc'; injection hc' with hc'; linarith)
        · obtain ⟨a1, a2⟩ := pick_spec he rest (k + 1) best (some c) q hl' hb h
          refine ⟨?_, ?_⟩
          · rcases a1 with a1 | ⟨p', hp', a1⟩
            · exact .inl a1
            · exact .inr ⟨p', by simp [hp'], a1⟩
          · rcases a2 with a2 | ⟨a2, a3⟩
            · exact .inl a2
            · have a4 := a3 c rfl
              refine .inr ⟨?_, a3⟩
              intro p' hp'
              rcases List.mem_cons.mp hp' with rfl | hp'
              · rw [hf]; linarith
              · exact a2 p' hp'

/-- C322, partial: the point chosen is one of the four, and it is outside the turning circle of
the target unless none of them is; then it is one with the largest radius. -/
theorem C322_choice_partial {j : Job} {pos1 posT q : V3} {r1 r2 : ℝ} {k : ℕ} (he : j.minError < 1)
    (hl : ∀ p ∈ perps j.vec1 (posT - pos1),
      ¬ StraightAhead posT ((-1 : ℝ) • j.vecT) (candidate pos1 j.vec1 r1 p))
    (h : fallback j pos1 posT r1 r2 k = .ok q) :
    (∃ p ∈ perps j.vec1 (posT - pos1), q = candidate pos1 j.vec1 r1 p) ∧
    (r2 ≤ farRc j posT q ∨ ∀ p ∈ perps j.vec1 (posT - pos1),
      farRc j posT (candidate pos1 j.vec1 r1 p) ≤ farRc j posT q) := by
  unfold fallback at h
  obtain ⟨h1, h2⟩ := pick_spec he _ k _ none q hl (by simp) h
  refine ⟨?_, ?_⟩
  · rcases h1 with h1 | h1
    · exact ⟨_, by simp [perps], h1⟩
    · exact h1
  · rcases h2 with h2 | ⟨h2, -⟩
    · exact .inl h2
    · exact .inr h2

/-- A point whose critical radius is at least `r` is outside every turning circle of radius `r`. -/
theorem outside_of_critical {pos v q side : V3} {r e rc : ℝ} (hv : v.IsUnit)
    (hs : AcrossUnit v side) (hr : 0 < r) (he : 0 ≤ e)
    (h : getRadiusCritical (getDistances pos v q) e = some rc) (hle : r ≤ rc) :
    OutsideTurn r pos side q := by
  set w := q - pos with hw
  have hp1 : V3.dot w v ≤ V3.norm w := by
    have := V3.dot_le_norm w v
    rwa [show V3.norm v = 1 by unfold V3.norm; rw [show V3.dot v v = 1 from hv, sqrt_one],
      mul_one] at this
  have hb : V3.dot w v ^ 2 + V3.dot w side ^ 2 ≤ V3.norm w ^ 2 := by
    have h0 : 0 ≤ V3.dot (w - V3.dot w v • v - V3.dot w side • side)
        (w - V3.dot w v • v - V3.dot w side • side) := V3.dot_self_nonneg _
    have hvs : V3.dot v side = 0 := by rw [V3.dot_comm]; exact hs.2
    simp only [V3.dot_sub_left, V3.dot_sub_right, V3.dot_smul_left, V3.dot_smul_right, hvs, hs.2,
      show V3.dot v v = 1 from hv, show V3.dot side side = 1 from hs.1, V3.dot_comm v w,
      V3.dot_comm side w] at h0
    rw [V3.norm_sq]
    nlinarith
  have key : 2 * r * V3.dot w side ≤ V3.norm w ^ 2 := by
    by_cases hc : allClose pos q
    · rw [getDistances, if_pos hc, getRadiusCritical, if_pos rfl, Option.some.injEq] at h
      linarith
    · rw [getDistances, if_neg hc] at h
      simp only [← hw, not_lt.2 hp1, if_false, gt_iff_lt] at h
      unfold getRadiusCritical at h
      simp only at h
      split_ifs at h with hn hpos
      · injection h with h
        linarith
      · injection h with h
        set n := √(V3.norm w ^ 2 - V3.dot w v ^ 2) with hnn
        have hn0 : 0 < n := lt_of_le_of_ne (sqrt_nonneg _) (Ne.symm hn)
        have hsn : V3.dot w side ≤ n := le_sqrt_of_sq_le (by linarith)
        have h1 : V3.norm w ^ 2 / (2 * n) * (1 - e) ≤ V3.norm w ^ 2 / (2 * n) :=
          mul_le_of_le_one_right (by positivity) (by linarith)
        have h2 : r ≤ V3.norm w ^ 2 / (2 * n) := by linarith
        rw [le_div_iff₀ (by linarith)] at h2
        nlinarith
  unfold OutsideTurn
  rw [show q - (pos + r • side) = w - r • side by rw [hw]; abel]
  unfold V3.norm
  refine le_sqrt_of_sq_le ?_
  rw [V3.norm_sq] at key
  simp only [V3.dot_sub_left, V3.dot_sub_right, V3.dot_smul_left, V3.dot_smul_right,
    show V3.dot side side = 1 from hs.1, V3.dot_comm side w]
  nlinarith

/-- C322, partial: the search starts from one of the four candidates or from the middle of the two
ends, and then from the middle only if it is outside the turning circles at both ends, whichever way
the well turns there (up to the random offset that is added to a point straight ahead). -/
theorem C322_middle_partial {j : Job} {r1 r2 : ℝ} {s s' : St} (h1 : j.vec1.IsUnit)
    (hT : j.vecT.IsUnit) (hr1 : 0 < r1) (hr2 : 0 < r2) (he : 0 ≤ j.minError)
    (h : start j r1 r2 s = .ok s') :
    (∃ k, fallback j s'.pos1 s'.posT r1 r2 k = .ok s'.pos3) ∨
    ((∀ side, AcrossUnit j.vecT side → OutsideTurn r2 s'.posT side s'.pos3) ∧
      ∃ m, (∀ side, AcrossUnit j.vec1 side → OutsideTurn r1 s'.pos1 side m) ∧
        (s'.pos3 = m ∨ StraightAhead s'.posT ((-1 : ℝ) • j.vecT) m)) := by
  unfold start at h
  split at h
  · cases h
  · simp only at h
    split at h
    · rename_i rc1 rc2 g1 g2
      split_ifs at h with hc
      · injection h with h
        subst h
        refine .inr ⟨?_, _, fun side hs => outside_of_critical h1 hs hr1 he g1 hc.1, ?_⟩
        · intro side hs
          refine outside_of_critical ?_ ?_ hr2 he g2 hc.2
          · simp only [V3.IsUnit, V3.dot_smul_left, V3.dot_smul_right] at hT ⊢
            linarith
          · exact ⟨hs.1, by rw [V3.dot_smul_right, hs.2, mul_zero]⟩
        · exact or_iff_not_imp_right.2 modTarget_idle
      · split at h
        · cases h
        · rename_i q hq
          injection h with h
          subst h
          exact .inl ⟨_, hq⟩
    · cases h

example : ∃ s, start (jobOf ⟨0, 0, 1⟩ ⟨3 / 5, 0, 4 / 5⟩) 10 10 
    (begin 0 ⟨500, 200, 1000⟩) = .ok s :=
  start_ok _ _ _ _ (by simp [begin, Ext.pos]) (by simp only [jobOf]; norm_num)
    (by simp only [jobOf]; norm_num)

/-- C322 is false of the step that follows: from such a point the first curve and hold do not
connect it with the start.  The angle found is zero, so the path has no curve, but its hold
starts two radii to the side of the well. -/
theorem C322_first_curve_misses {pos v chord p : V3} {r e mt : ℝ} (hv : v.IsUnit)
    (hp : p ∈ perps v chord) (hr : 0 < r) (he0 : 0 ≤ e) (he : e ≤ 1 / 5) (hm : mt ≤ r)
    (hc : ¬ allClose pos (candidate pos v r p)) :
    ∃ l, leg e mt r pos v (candidate pos v r p) = .ok l ∧ l.radius = r ∧ l.dogleg = 0 ∧
      l.distCurve = 0 ∧ l.dir = v ∧ l.joint = pos + (2 * r) • p ∧ l.joint ≠ pos := by
  have ha := perps_across hv hp
  obtain ⟨-, rc, hrc, hle⟩ := C322_outside_partial hv hp hr he hc
  rw [candidate_dist hv ha hr hc] at hrc
  have hq : (√5 * r) ^ 2 - 2 * r * (2 * r) = r ^ 2 := by
    rw [mul_pow, sq_sqrt (by norm_num)]; ring
  have hmd : minDistToTarget r ⟨√5 * r, r, 2 * r⟩ = some (r, 0) := by
    unfold minDistToTarget
    simp only [hq]
    rw [if_neg (not_lt.mpr (sq_nonneg r)), sqrt_sq hr.le, sub_self, sub_self]
    have h0 : atan2 0 0 = 0 := Complex.arg_zero
    rw [h0, mul_zero]
  have hj : candidate pos v r p - max r mt • v = pos + (2 * r) • p := by
    rw [max_eq_left hm]; unfold candidate; abel
  refine ⟨⟨⟨√5 * r, r, 2 * r⟩, rc, r, r, 0, 0, v, max r mt, pos + (2 * r) • p⟩, ?_, rfl, rfl, rfl, rfl,
    rfl, ?_⟩
  · unfold leg
    simp only [candidate_dist hv ha hr hc, hrc, min_eq_left hle, hmd]
    have h0 : checkDogleg 0 = 0 := by simp [checkDogleg]
    simp only [h0, getCurveHoldData, mul_zero, getVecTarget, tangentTemp, if_true, hj]
  · intro h
    have h1 : (2 * r) • p = 0 := by simpa using h
    have h2 := congrArg V3.norm h1
    rw [V3.norm_smul, V3.norm_zero, abs_of_pos (by linarith)] at h2
    have h3 : V3.norm p = 1 := by unfold V3.norm; rw [show V3.dot p p = 1 from ha.1, sqrt_one]
    rw [h3] at h2
    linarith

/-- The hypotheses: a vertical well at the origin with a target to the side, radius 100 m. -/
theorem sample_perp : (⟨1, 0, 0⟩ : V3) ∈ perps ⟨0, 0, 1⟩ ⟨50, 0, 20⟩ ∧
    ¬ allClose 0 (candidate 0 ⟨0, 0, 1⟩ 100 ⟨1, 0, 0⟩) := by
  constructor
  · have : acrossHat ⟨0, 0, 1⟩ ⟨50, 0, 20⟩ = ⟨1, 0, 0⟩ := by
      have hd : (⟨50, 0, 20⟩ : V3) - V3.dot (⟨50, 0, 20⟩ : V3) ⟨0, 0, 1⟩ • (⟨0, 0, 1⟩ : V3) = ⟨50, 0, 0⟩ := by
        ext <;> simp [V3.dot]
      have hn : V3.norm (⟨50, 0, 0⟩ : V3) = 50 := by
        unfold V3.norm V3.dot
        rw [show (50 : ℝ) * 50 + 0 * 0 + 0 * 0 = 50 ^ 2 by norm_num, sqrt_sq (by norm_num)]
      unfold acrossHat
      simp only [hd]
      rw [if_pos (by rw [hn]; norm_num), normalize, hn]
      ext <;> simp
    rw [perps, this]
    simp
  · rintro ⟨-, -, h⟩
    unfold isClose candidate at h
    norm_num at h

example : ∃ l, leg 1e-5 0 100 0 ⟨0, 0, 1⟩ (candidate 0 ⟨0, 0, 1⟩ 100 ⟨1, 0, 0⟩) = .ok l ∧
    l.distCurve = 0 ∧ l.joint ≠ 0 := by
  obtain ⟨l, h1, -, -, h2, -, -, h3⟩ := C322_first_curve_misses (pos := 0) (v := ⟨0, 0, 1⟩)
    (e := 1e-5) (mt := 0) (r := 100) (by simp [V3.IsUnit, V3.dot]) sample_perp.1 (by norm_num)
    (by norm_num) (by norm_num) (by norm_num) sample_perp.2
  exact ⟨l, h1, h2, h3⟩

end Welleng.Props
