import Verif.Lemmas.ConnectorSolve

/-!
C165-C167: what a curve-hold-curve connection stores is one continuous path, the second curve
is put where it meets the target whenever it can, and the rescues never make the end worse.
-/

namespace Welleng.Props

open Real Spec Con

/-- What every state stored by `_happy_finish` satisfies. -/
structure Good (p : Plan) (g : Geo) (R T : ℝ) : Prop where
  unit3 : g.vec3.IsUnit
  leDesign : ∀ r, p.rDesign = .val r → R ≤ r
  turn : |angle p.vec1 g.vec3 - g.dogleg| ≤ 1e-9
  len : g.distCurve = R * g.dogleg
  rf : g.funcDogleg = getRf g.dogleg
  pos2 : g.pos2 = getPos p.pos1 p.vec1 g.vec3 g.distCurve g.funcDogleg
  turn2 : g.dogleg2 = angle g.vec3 p.vecT
  rf2 : g.funcDogleg2 = getRf g.dogleg2
  hold : StraightTo T g.pos2 g.vec3 g.pos3
  md2 : g.md2 = p.md1 + |g.distCurve|
  md3 : g.md3 = g.md2 + T
  mdT : g.mdT = g.md3 + |g.distCurve2|

theorem finalRadius_le {dist : Option Dist} {rc design : Ext} {e r : ℝ}
    (h : finalRadius dist rc design e = .ok r) : ∀ R, design = .val R → r ≤ R := by
  intro R hR
  subst hR
  have key : ∀ x : Ext, finiteRadius (Ext.min x (.val R)) = .ok r → r ≤ R := by
    intro x hx
    cases x with
    | inf => cases hx; exact le_rfl
    | val x => cases hx; exact min_le_right _ _
  cases dist with
  | none => exact key rc h
  | some x =>
    unfold finalRadius at h
    simp only at h
    split at h
    · cases h
    · exact key _ h

theorem placeSecond_nonneg (p : Plan) (pos2 v3 : V3) (dc2 f2 : ℝ) :
    0 ≤ (placeSecond p pos2 v3 dc2 f2).1 := by
  unfold placeSecond
  simp only
  split_ifs <;> exact le_max_left _ _

theorem happyFinish_good {p : Plan} {s : Solved} {g : Geo} (hv : p.vec1.IsUnit)
    (h : happyFinish p s = .ok g) : ∃ R T, Good p g R T := by
  unfold happyFinish at h
  split at h
  · cases h
  rename_i r1 hr1
  split at h
  · cases h
  rename_i dl v3 pos2 hf
  split at h
  · cases h
  rename_i r2 hr2
  simp only [getCurveHoldData] at h
  cases h
  unfold firstCurve at hf
  split at hf
  · cases hf
  · rename_i hbad
    simp only [Option.some.injEq, Prod.mk.injEq] at hf
    obtain ⟨hdl, hv3, hp2⟩ := hf
    have hu := getVecTarget_unit hv hbad
    rw [hv3] at hu
    refine ⟨r1, (placeSecond p pos2 v3 (r2 * angle v3 p.vecT) (getRf (angle v3 p.vecT))).1,
      ⟨hu, finalRadius_le hr1, ?_, rfl, rfl, ?_, rfl, rfl, ⟨placeSecond_nonneg _ _ _ _ _, rfl⟩,
        rfl, rfl, rfl⟩⟩
    · simp only
      rw [← hdl, hv3]
      split_ifs with hc
      · rw [sub_self, abs_zero]; norm_num
      · exact not_lt.mp hc
    · simp only
      rw [← hp2, hv3, ← hdl, hv3]

theorem Good.tangent {p : Plan} {g : Geo} {R T : ℝ} (h : Good p g R T) :
    V3.dot (g.pos3 - g.pos2) g.vec3 = T := by
  rw [h.hold.2, add_sub_cancel_left, V3.dot_smul_left, show V3.dot g.vec3 g.vec3 = 1 from h.unit3,
    mul_one]

/-- The backward-tangent rescue never does anything: `_happy_finish` never leaves a backward
hold. -/
theorem deltaRescue_idle {p : Plan} {g : Geo} {R T : ℝ} (h : Good p g R T) (he : 0 ≤ p.minError)
    (tries : List (Except Fail Solved)) : deltaRescue p tries g = .ok g := by
  unfold deltaRescue
  rw [if_pos]
  rw [h.tangent]
  have := h.hold.1
  linarith

theorem projectTangent_idle {p : Plan} {g : Geo} {R T : ℝ} (h : Good p g R T) :
    projectTangent g = g := by
  unfold projectTangent
  simp only [h.tangent, max_eq_right h.hold.1]
  rw [← h.md3, ← h.mdT]

theorem attempt_good {p : Plan} {t : Except Fail Solved} {g : Geo} (hv : p.vec1.IsUnit)
    (h : attempt p t = .ok g) : ∃ R T, Good p g R T := by
  cases t with
  | error e => cases h
  | ok s => exact happyFinish_good hv h

/-- The rescue loop keeps a stored state and ends with an error no larger than any it has seen. -/
theorem rescueLoop_spec {p : Plan} (hv : p.vec1.IsUnit) :
    ∀ (tries : List (Except Fail Solved)) (best g : Geo), (∃ R T, Good p best R T) →
    rescueLoop p tries best = .ok g →
      (∃ R T, Good p g R T) ∧ endpointError p g ≤ endpointError p best ∧
      (endpointError p g ≤ 1e-3 ∨
        ∀ t ∈ tries, ∀ g', attempt p t = .ok g' → endpointError p g ≤ endpointError p g') := by
  intro tries
  induction tries with
  | nil =>
    intro best g hb h
    cases h
    exact ⟨hb, le_rfl, Or.inr (by simp)⟩
  | cons t ts ih =>
    intro best g hb h
    unfold rescueLoop at h
    split at h
    · cases h
    · rename_i ht
      split_ifs at h with hc
      · cases h
        exact ⟨hb, le_rfl, Or.inl hc⟩
      · obtain ⟨h1, h2, h3⟩ := ih best g hb h
        refine ⟨h1, h2, h3.imp id fun h3 u hu g' hg' => ?_⟩
        rcases List.mem_cons.mp hu with rfl | hu
        · rw [ht] at hg'; cases hg'
        · exact h3 u hu g' hg'
    · rename_i g1 ht
      simp only at h
      have hg1 := attempt_good hv ht
      have hbest : (∃ R T, Good p (if endpointError p g1 < endpointError p best then g1 else best)
          R T) ∧
          endpointError p (if endpointError p g1 < endpointError p best then g1 else best)
            ≤ endpointError p best ∧
          endpointError p (if endpointError p g1 < endpointError p best then g1 else best)
            ≤ endpointError p g1 := by
        split_ifs with hlt
        · exact ⟨hg1, hlt.le, le_rfl⟩
        · exact ⟨hb, le_rfl, not_lt.mp hlt⟩
      generalize (if endpointError p g1 < endpointError p best then g1 else best) = b at h hbest
      split_ifs at h with hc
      · cases h
        exact ⟨hbest.1, hbest.2.1, Or.inl hc⟩
      · obtain ⟨h1, h2, h3⟩ := ih b g hbest.1 h
        refine ⟨h1, h2.trans hbest.2.1, h3.imp id fun h3 u hu g' hg' => ?_⟩
        rcases List.mem_cons.mp hu with rfl | hu
        · rw [ht] at hg'; cases hg'
          exact h2.trans hbest.2.2
        · exact h3 u hu g' hg'

theorem planarLoop_spec {p : Plan} {r1 : ℝ} {dist2 : Option Dist} (hv : p.vec1.IsUnit) :
    ∀ (k : ℕ) (g0 best g : Geo), (∃ R T, Good p best R T) →
    planarLoop p r1 dist2 k g0 best = .ok g →
      (∃ R T, Good p g R T) ∧ endpointError p g ≤ endpointError p best := by
  intro k
  induction k with
  | zero => intro g0 best g hb h; cases h; exact ⟨hb, le_rfl⟩
  | succ k ih =>
    intro g0 best g hb h
    unfold planarLoop at h
    split at h
    · cases h; exact ⟨hb, le_rfl⟩
    split_ifs at h with hc
    · cases h; exact ⟨hb, le_rfl⟩
    split at h
    · cases h
    · cases h; exact ⟨hb, le_rfl⟩
    · rename_i g1 ht
      simp only at h
      have hg1 := happyFinish_good hv ht
      have hbest : (∃ R T, Good p (if endpointError p g1 < endpointError p best then g1 else best)
          R T) ∧
          endpointError p (if endpointError p g1 < endpointError p best then g1 else best)
            ≤ endpointError p best := by
        split_ifs with hlt
        · exact ⟨hg1, hlt.le⟩
        · exact ⟨hb, le_rfl⟩
      generalize (if endpointError p g1 < endpointError p best then g1 else best) = b at h hbest
      split_ifs at h with hc
      · cases h; exact hbest
      · obtain ⟨h1, h2⟩ := ih g1 b g hbest.1 h
        exact ⟨h1, h2.trans hbest.2⟩

theorem enforcePlanarity_spec {p : Plan} {d1 d2 : Option Dist} {rc : Ext} {g0 g : Geo}
    (hv : p.vec1.IsUnit) (hg : ∃ R T, Good p g0 R T)
    (h : enforcePlanarity p d1 d2 rc g0 = .ok g) :
    (∃ R T, Good p g R T) ∧ endpointError p g ≤ endpointError p g0 := by
  unfold enforcePlanarity at h
  split_ifs at h with hc
  · cases h; exact ⟨hg, le_rfl⟩
  · split at h
    · split at h
      · cases h
      · cases h; exact ⟨hg, le_rfl⟩
      · exact planarLoop_spec hv _ _ _ _ hg h
    · split at h
      · cases h; exact ⟨hg, le_rfl⟩
      · exact planarLoop_spec hv _ _ _ _ hg h
    · split at h
      · cases h; exact ⟨hg, le_rfl⟩
      · exact planarLoop_spec hv _ _ _ _ hg h

theorem finish_spec {p : Plan} {r : Runs} {g : Geo} (hv : p.vec1.IsUnit) (he : 0 ≤ p.minError)
    (h : finish p r = .ok g) :
    ∃ g0, attempt p r.main = .ok g0 ∧ (∃ R T, Good p g R T) ∧
      endpointError p g ≤ endpointError p g0 ∧
      (endpointError p g ≤ 1e-3 ∨
        ∀ t ∈ r.retries, ∀ g', attempt p t = .ok g' → endpointError p g ≤ endpointError p g') := by
  unfold finish at h
  cases hm : attempt p r.main with
  | error e => rw [hm] at h; cases h
  | ok g0 =>
    obtain ⟨R, T, hg0⟩ := attempt_good hv hm
    refine ⟨g0, rfl, ?_⟩
    rw [hm] at h
    simp only [bind, Except.bind, deltaRescue_idle hg0 he, projectTangent_idle hg0] at h
    cases hr : endpointRescue p r.retries g0 with
    | error e => rw [hr] at h; cases h
    | ok g1 =>
      rw [hr] at h
      simp only at h
      have h1 : (∃ R T, Good p g1 R T) ∧ endpointError p g1 ≤ endpointError p g0 ∧
          (endpointError p g1 ≤ 1e-3 ∨ ∀ t ∈ r.retries, ∀ g', attempt p t = .ok g' →
            endpointError p g1 ≤ endpointError p g') := by
        unfold endpointRescue at hr
        split_ifs at hr with hc
        · cases hr; exact ⟨⟨R, T, hg0⟩, le_rfl, Or.inl hc⟩
        · exact rescueLoop_spec hv _ _ _ ⟨R, T, hg0⟩ hr
      obtain ⟨h2, h3⟩ := enforcePlanarity_spec hv h1.1 h
      refine ⟨h2, h3.trans h1.2.1, ?_⟩
      rcases h1.2.2 with h4 | h4
      · exact Or.inl (h3.trans h4)
      · exact Or.inr fun t ht g' hg' => h3.trans (h4 t ht g' hg')

/-- C165: whatever the solver and its retries come up with, the stored connection is one
continuous path: an arc no wider than the design radius from the start position along the start
direction, a straight of non-negative length along the direction the arc ends with, and an arc
that starts at the end of the straight and ends at the drawn end point along the target
direction; the depths are the lengths added up.  (A turn of exactly half a circle, and an arc
of length zero, are excluded from the two arc clauses; the dogleg of the first arc is exact up
to `1e-9`.) -/
theorem C165_continuous_path {p : Plan} {r : Runs} {g : Geo} (hv : p.vec1.IsUnit)
    (hvT : p.vecT.IsUnit) (he : 0 ≤ p.minError) (h : finish p r = .ok g) :
    ∃ R T : ℝ, (∀ r, p.rDesign = .val r → R ≤ r) ∧ g.vec3.IsUnit ∧
      |angle p.vec1 g.vec3 - g.dogleg| ≤ 1e-9 ∧ g.distCurve = R * g.dogleg ∧
      (0 < g.distCurve → 0 < g.dogleg → g.dogleg = angle p.vec1 g.vec3 → g.dogleg < π →
        ArcTo R g.distCurve p.pos1 p.vec1 g.pos2 g.vec3) ∧
      StraightTo T g.pos2 g.vec3 g.pos3 ∧
      (0 < g.distCurve2 → 0 < g.dogleg2 → g.dogleg2 < π →
        ArcTo (g.distCurve2 / g.dogleg2) g.distCurve2 g.pos3 g.vec3 (renderedEnd p g) p.vecT) ∧
      g.md2 = p.md1 + |g.distCurve| ∧ g.md3 = g.md2 + T ∧ g.mdT = g.md3 + |g.distCurve2| := by
  obtain ⟨-, -, ⟨R, T, hg⟩, -⟩ := finish_spec hv he h
  refine ⟨R, T, hg.leDesign, hg.unit3, hg.turn, hg.len, ?_, hg.hold, ?_, hg.md2, hg.md3, hg.mdT⟩
  · intro hdc hd0 hdeq hd1
    have hR : 0 < R := by
      rw [hg.len] at hdc
      exact (pos_iff_pos_of_mul_pos hdc).mpr hd0
    rw [hg.pos2, hg.len, hg.rf]
    exact arcTo_getPos _ hv hg.unit3 hd0 hd1 (by rw [hdeq, cos_angle hv hg.unit3]) hR
  · intro hdc hd0 hd1
    have hR : 0 < g.distCurve2 / g.dogleg2 := div_pos hdc hd0
    have hL : g.distCurve2 = g.distCurve2 / g.dogleg2 * g.dogleg2 := by field_simp
    have hend : renderedEnd p g = getPos g.pos3 g.vec3 p.vecT g.distCurve2 (getRf g.dogleg2) := by
      unfold renderedEnd getPos
      simp only
      rw [hg.tangent, max_eq_right hg.hold.1, ← hg.hold.2, hg.rf2]
    rw [hend]
    have := arcTo_getPos g.pos3 hg.unit3 hvT hd0 hd1
      (by rw [hg.turn2, cos_angle hg.unit3 hvT]) hR
    rwa [← hL] at this

/-- C167: for every sequence of retries, the end of the drawn path is never further from the
target than after the first solve; and unless it is within 1 mm it is no further than after any
retry. -/
theorem C167_never_worse {p : Plan} {r : Runs} {g : Geo} (hv : p.vec1.IsUnit)
    (he : 0 ≤ p.minError) (h : finish p r = .ok g) :
    ∃ g0, attempt p r.main = .ok g0 ∧ endpointError p g ≤ endpointError p g0 ∧
      (endpointError p g ≤ 1e-3 ∨
        ∀ t ∈ r.retries, ∀ g', attempt p t = .ok g' → endpointError p g ≤ endpointError p g') := by
  obtain ⟨g0, h1, -, h2, h3⟩ := finish_spec hv he h
  exact ⟨g0, h1, h2, h3⟩

/-- How the stored second curve was placed. -/
theorem happyFinish_place {p : Plan} {s : Solved} {g : Geo} (h : happyFinish p s = .ok g) :
    ∃ dc2, g.pos3 = g.pos2 + (placeSecond p g.pos2 g.vec3 dc2 (getRf (angle g.vec3 p.vecT))).1 •
        g.vec3 ∧
      g.distCurve2 = (placeSecond p g.pos2 g.vec3 dc2 (getRf (angle g.vec3 p.vecT))).2 := by
  unfold happyFinish at h
  split at h
  · cases h
  split at h
  · cases h
  split at h
  · cases h
  simp only [getCurveHoldData] at h
  cases h
  exact ⟨_, rfl, rfl⟩

/-- The end of the path for a target that is `T0` along the hold, `b0` along both directions
and `z` out of their plane. -/
theorem place_error {p : Plan} {s : Solved} {g : Geo} {T0 b0 : ℝ} {z : V3} (hv : p.vec1.IsUnit)
    (hvT : p.vecT.IsUnit) (h : happyFinish p s = .ok g) (hT : 0 ≤ T0) (hb : 0 ≤ b0)
    (hreach : p.posT = g.pos2 + T0 • g.vec3 + b0 • (g.vec3 + p.vecT) + z)
    (hz1 : V3.dot z g.vec3 = 0) (hz2 : V3.dot z p.vecT = 0)
    (hsin : 1e-6 < sin (angle g.vec3 p.vecT) ^ 2)
    (hlong : 1e-3 * (1 + cos (angle g.vec3 p.vecT)) ≤ T0 * sin (angle g.vec3 p.vecT)) :
    endpointError p g ≤ max (1e-3) (V3.norm z) := by
  obtain ⟨R, T, hg⟩ := happyFinish_good hv h
  obtain ⟨dc2, hp3, hdc⟩ := happyFinish_place h
  have hcos := cos_angle hg.unit3 hvT
  have hd0 := angle_nonneg g.vec3 p.vecT
  have hdpi := angle_le_pi g.vec3 p.vecT
  have hsq := sin_sq_add_cos_sq (angle g.vec3 p.vecT)
  have hs0 : 0 < sin (angle g.vec3 p.vecT) := by
    refine lt_of_le_of_ne (sin_nonneg_of_nonneg_of_le_pi hd0 hdpi) fun h0 => ?_
    rw [← h0] at hsin; norm_num at hsin
  have hlt : angle g.vec3 p.vecT < π := by
    refine lt_of_le_of_ne hdpi fun h0 => ?_
    rw [h0, sin_pi] at hs0; exact lt_irrefl _ hs0
  have hf := one_le_getRf hd0 hlt
  have htan := hg.tangent
  have hT' := hg.hold.1
  have hrf := hg.rf2
  rw [hg.turn2] at hrf
  set c := V3.dot g.vec3 p.vecT with hcdef
  rw [hcos] at hlong hsq
  set S := sin (angle g.vec3 p.vecT) with hSdef
  set f2 := getRf (angle g.vec3 p.vecT) with hf2
  have u1 : V3.dot g.vec3 g.vec3 = 1 := hg.unit3
  have u2 : V3.dot p.vecT p.vecT = 1 := hvT
  have u3 : V3.dot p.vecT g.vec3 = c := V3.dot_comm _ _
  -- the components
  have hdelta : p.posT - g.pos2 = (T0 + b0) • g.vec3 + b0 • p.vecT + z := by
    rw [hreach]; ext <;> simp <;> ring
  have hpc : V3.dot (p.posT - g.pos2) g.vec3 = T0 + b0 + b0 * c := by
    rw [hdelta]
    simp only [V3.dot_add_left, V3.dot_smul_left, u1, u3, hz1]; ring
  have hqc : V3.dot (p.posT - g.pos2) p.vecT = (T0 + b0) * c + b0 := by
    rw [hdelta]
    simp only [V3.dot_add_left, V3.dot_smul_left, u2, hz2, ← hcdef]; ring
  have hs2 : 1 - c * c = S ^ 2 := by linarith
  have hSS : S ^ 2 ≠ 0 := by positivity
  have ha : (T0 + b0 + b0 * c - c * ((T0 + b0) * c + b0)) / (1 - c * c) = T0 + b0 := by
    rw [hs2, div_eq_iff hSS, ← hs2]; ring
  have hb' : ((T0 + b0) * c + b0 - c * (T0 + b0 + b0 * c)) / (1 - c * c) = b0 := by
    rw [hs2, div_eq_iff hSS, ← hs2]; ring
  have hbt : getPos p.posT ((-1 : ℝ) • p.vecT) ((-1 : ℝ) • g.vec3) dc2 f2 - g.pos2
      = (T0 + b0 - dc2 * f2 / 2) • g.vec3 + (b0 - dc2 * f2 / 2) • p.vecT + z := by
    unfold getPos
    rw [hreach]; ext <;> simp <;> ring
  have htl : V3.dot (getPos p.posT ((-1 : ℝ) • p.vecT) ((-1 : ℝ) • g.vec3) dc2 f2 - g.pos2) g.vec3
      = T0 + (b0 - dc2 * f2 / 2) * (1 + c) := by
    rw [hbt]
    simp only [V3.dot_add_left, V3.dot_smul_left, u1, u3, hz1]; ring
  have hperp : getPos p.posT ((-1 : ℝ) • p.vecT) ((-1 : ℝ) • g.vec3) dc2 f2 - g.pos2 -
      (T0 + (b0 - dc2 * f2 / 2) * (1 + c)) • g.vec3
      = (b0 - dc2 * f2 / 2) • (p.vecT - c • g.vec3) + z := by
    rw [hbt]; ext <;> simp <;> ring
  have hpsq : V3.norm ((b0 - dc2 * f2 / 2) • (p.vecT - c • g.vec3) + z) ^ 2
      = ((b0 - dc2 * f2 / 2) * S) ^ 2 + V3.norm z ^ 2 := by
    rw [V3.norm_sq, V3.norm_sq]
    simp only [V3.dot_add_left, V3.dot_add_right, V3.dot_smul_left, V3.dot_smul_right,
      V3.dot_sub_left, V3.dot_sub_right, u1, u2, u3, hz1, hz2, V3.dot_comm p.vecT z,
      V3.dot_comm g.vec3 z, ← hcdef]
    rw [mul_pow, ← hs2]; ring
  have hend : renderedEnd p g = g.pos3 + (g.distCurve2 * f2 / 2) • (g.vec3 + p.vecT) := by
    unfold renderedEnd
    simp only
    rw [htan, max_eq_right hT', ← hg.hold.2, hrf]
  unfold endpointError
  rw [hend]
  unfold placeSecond at hp3 hdc
  simp only [htl, hperp, hpc, hqc, ← hcdef, ha, hb'] at hp3 hdc
  by_cases hcond : V3.norm ((b0 - dc2 * f2 / 2) • (p.vecT - c • g.vec3) + z) > 1e-3
  · have hall : V3.norm ((b0 - dc2 * f2 / 2) • (p.vecT - c • g.vec3) + z) > 1e-3 ∧
        (1 - c * c > 1e-6 ∧ |f2| > 1e-10) ∧ b0 ≥ 0 := by
      refine ⟨hcond, ⟨by rw [hs2]; exact hsin, ?_⟩, hb⟩
      rw [abs_of_pos (by linarith)]
      exact lt_of_lt_of_le (by norm_num) hf
    rw [if_pos hall] at hp3 hdc
    simp only [add_sub_cancel_right, max_eq_right hT] at hp3 hdc
    have hfne : f2 ≠ 0 := by linarith
    rw [max_eq_right (div_nonneg (by linarith) (by linarith))] at hdc
    have hhalf : g.distCurve2 * f2 / 2 = b0 := by rw [hdc]; field_simp
    rw [hp3, hhalf]
    have : p.posT - (g.pos2 + T0 • g.vec3 + b0 • (g.vec3 + p.vecT)) = z := by
      rw [hreach]; abel
    rw [this]
    exact le_max_right _ _
  · rw [if_neg (fun hh => hcond hh.1)] at hp3 hdc
    simp only at hp3 hdc
    have hle := not_lt.mp hcond
    have hn0 := V3.norm_nonneg ((b0 - dc2 * f2 / 2) • (p.vecT - c • g.vec3) + z)
    have habs : |(b0 - dc2 * f2 / 2) * S| ≤ 1e-3 := by
      apply abs_le_of_sq_le_sq _ (by norm_num)
      have : V3.norm ((b0 - dc2 * f2 / 2) • (p.vecT - c • g.vec3) + z) ^ 2 ≤ (1e-3) ^ 2 :=
        pow_le_pow_left₀ hn0 hle 2
      nlinarith [sq_nonneg (V3.norm z)]
    have htpos : 0 ≤ T0 + (b0 - dc2 * f2 / 2) * (1 + c) := by
      have hc1 : 0 ≤ 1 + c := by
        have := neg_one_le_cos (angle g.vec3 p.vecT); rw [hcos] at this; linarith
      have h1 := (abs_le.mp habs).1
      have h2 : 0 ≤ (T0 + (b0 - dc2 * f2 / 2) * (1 + c)) * S := by
        have h3 := mul_le_mul_of_nonneg_right h1 hc1
        nlinarith
      exact nonneg_of_mul_nonneg_left h2 hs0
    rw [max_eq_right htpos] at hp3
    rw [hp3, hdc]
    have : p.posT - (g.pos2 + (T0 + (b0 - dc2 * f2 / 2) * (1 + c)) • g.vec3 +
        (dc2 * f2 / 2) • (g.vec3 + p.vecT))
        = (b0 - dc2 * f2 / 2) • (p.vecT - c • g.vec3) + z := by
      rw [hreach]; ext <;> simp <;> ring
    rw [this]
    exact hle.trans (le_max_left _ _)

/-- C166: whenever, after the first curve it has settled on, the target can be reached along the
target direction by a straight and one more arc (turning by at least about 1 mrad, the straight
being longer than 1 mm times the cotangent of half the turn), the drawn path ends within 1 mm of
the target. -/
theorem C166_reached_when_possible {p : Plan} {s : Solved} {g : Geo} {T0 R d : ℝ} {q : V3}
    (hv : p.vec1.IsUnit) (h : happyFinish p s = .ok g)
    (hhold : StraightTo T0 g.pos2 g.vec3 q) (hR : 0 < R) (hd : 0 < d) (hd1 : d < π)
    (harc : ArcTo R (R * d) q g.vec3 p.posT p.vecT)
    (hsin : 1e-6 < sin d ^ 2) (hlong : 1e-3 * (1 + cos d) ≤ T0 * sin d) :
    endpointError p g ≤ 1e-3 := by
  obtain ⟨e1, e2, -, hvT⟩ := arcTo_end harc hR hd.le hd1
  have hb : 0 ≤ R * d * getRf d / 2 := by
    have := one_le_getRf hd.le hd1
    positivity
  have := place_error (z := 0) hv hvT h hhold.1 hb (by
    rw [e2, hhold.2]; unfold getPos; rw [add_zero]) (by simp [V3.dot]) (by simp [V3.dot])
    (by rw [e1]; exact hsin) (by rw [e1]; exact hlong)
  rwa [V3.norm_zero, max_eq_left (by norm_num)] at this

/-- C166: if the target is out of the plane of the two directions, no straight and curve after
the same first curve end closer to it by more than 1 mm, as long as the nearest point of the
plane can be reached. -/
theorem C166_nearest {p : Plan} {s : Solved} {g : Geo} {T0 b0 : ℝ} {z : V3} (hv : p.vec1.IsUnit)
    (hvT : p.vecT.IsUnit) (h : happyFinish p s = .ok g) (hT : 0 ≤ T0) (hb : 0 ≤ b0)
    (hreach : p.posT = g.pos2 + T0 • g.vec3 + b0 • (g.vec3 + p.vecT) + z)
    (hz1 : V3.dot z g.vec3 = 0) (hz2 : V3.dot z p.vecT = 0)
    (hsin : 1e-6 < sin (angle g.vec3 p.vecT) ^ 2)
    (hlong : 1e-3 * (1 + cos (angle g.vec3 p.vecT)) ≤ T0 * sin (angle g.vec3 p.vecT))
    (T' b' : ℝ) :
    endpointError p g ≤ max (1e-3)
      (V3.norm (p.posT - (g.pos2 + T' • g.vec3 + b' • (g.vec3 + p.vecT)))) := by
  refine (place_error hv hvT h hT hb hreach hz1 hz2 hsin hlong).trans (max_le_max le_rfl ?_)
  obtain ⟨R, T, hg⟩ := happyFinish_good hv h
  have e : p.posT - (g.pos2 + T' • g.vec3 + b' • (g.vec3 + p.vecT))
      = z + ((T0 + b0 - T' - b') • g.vec3 + (b0 - b') • p.vecT) := by
    rw [hreach]; ext <;> simp <;> ring
  rw [e]
  generalize hw : (T0 + b0 - T' - b') • g.vec3 + (b0 - b') • p.vecT = w
  have hzw : V3.dot z w = 0 := by
    rw [← hw, V3.dot_add_right, V3.dot_smul_right, V3.dot_smul_right, hz1, hz2]; ring
  unfold V3.norm
  apply sqrt_le_sqrt
  rw [V3.dot_add_left, V3.dot_add_right, V3.dot_add_right, V3.dot_comm w z, hzw]
  have := V3.dot_self_nonneg w
  linarith

end Welleng.Props
