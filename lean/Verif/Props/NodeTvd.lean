import Verif.Model.NodeTvd
import Verif.Lemmas.SubArc
import Verif.Props.ResampleTvd
import Mathlib.Analysis.Real.Pi.Bounds

/-!
C314: the stations that `interpolate_survey_tvd` inserts lie on the well, at their levels.
-/

namespace Welleng.Props

open Real Welleng Spec Tvd NodeTvd

/-- The vertical depth at the distance `y` below the node `a` on the interval from `a` to `b`. -/
noncomputable def depthAt (a b : Pt) (y : ℝ) : ℝ := (interpPosNev a.pos a.st b.st y).z

/-- `m` is the first depth of the interval from `a` to `b` at which the well is at the vertical depth
`x`. -/
structure FirstAt (a b : Pt) (x m : ℝ) : Prop where
  lo : a.md ≤ m
  hi : m ≤ b.md
  depth : depthAt a b (m - a.md) = x
  first : ∀ m', a.md ≤ m' → m' < m → depthAt a b (m' - a.md) ≠ x

/-- The node `n` is the point of the interval from `a` to `b` at its depth, with the direction of the
well there. -/
structure OnInterval (a b n : Pt) : Prop where
  lo : a.md ≤ n.md
  hi : n.md ≤ b.md
  vec : n.vec = tangent (interpAngles a.st b.st (n.md - a.md)).1
    (interpAngles a.st b.st (n.md - a.md)).2
  pos : n.pos = interpPosNev a.pos a.st b.st (n.md - a.md)

/-- Two neighbouring stations as nodes: positions by minimum curvature, a turn of less than half a
circle. -/
structure Joined (a b : Pt) : Prop where
  md : a.md < b.md
  turn : dogleg2 a.st b.st < π
  unit1 : a.vec.IsUnit
  unit2 : b.vec.IsUnit
  pos : b.pos = a.pos + minCurveStep (b.md - a.md) a.st.inc a.st.azi b.st.inc b.st.azi

theorem st_tangent {p : Pt} (h : p.vec.IsUnit) : tangent p.st.inc p.st.azi = p.vec :=
  tangent_getAngles_nev h

theorem OnInterval.unit {a b n : Pt} (h : OnInterval a b n) : n.vec.IsUnit := by
  rw [h.vec]; exact tangent_unit _ _

theorem OnInterval.st {a b n : Pt} (h : OnInterval a b n) : tangent n.st.inc n.st.azi
    = tangent (interpAngles a.st b.st (n.md - a.md)).1 (interpAngles a.st b.st (n.md - a.md)).2 := by
  rw [st_tangent h.unit, h.vec]

theorem interp_start_vec {a b : Pt} (h : Joined a b) :
    tangent (interpAngles a.st b.st 0).1 (interpAngles a.st b.st 0).2 = a.vec := by
  rw [← st_tangent h.unit1]
  by_cases hd : dogleg2 a.st b.st = 0
  · rw [interpAngles, if_pos hd]
  · have hdp : 0 < dogleg2 a.st b.st := lt_of_le_of_ne (getDogleg_nonneg ..) (Ne.symm hd)
    have hsin := (sin_pos_of_pos_of_lt_pi hdp h.turn).ne'
    rw [interp_tangent hd h.turn, zero_mul, sub_zero, sin_zero, div_self hsin, zero_div, one_smul,
      zero_smul, add_zero]

theorem interp_end_vec {a b : Pt} (h : Joined a b) :
    tangent (interpAngles a.st b.st (b.md - a.md)).1 (interpAngles a.st b.st (b.md - a.md)).2
      = b.vec := by
  rw [← st_tangent h.unit2]
  have hL : 0 < b.md - a.md := sub_pos.mpr h.md
  by_cases hd : dogleg2 a.st b.st = 0
  · rw [interpAngles, if_pos hd]
    exact tangent_eq_of_dogleg_zero hd
  · have hdp : 0 < dogleg2 a.st b.st := lt_of_le_of_ne (getDogleg_nonneg ..) (Ne.symm hd)
    have hsin := (sin_pos_of_pos_of_lt_pi hdp h.turn).ne'
    have e : (b.md - a.md) * (dogleg2 a.st b.st / (b.st.md - a.st.md)) = dogleg2 a.st b.st := by
      show (b.md - a.md) * (dogleg2 a.st b.st / (b.md - a.md)) = dogleg2 a.st b.st
      field_simp
    rw [interp_tangent hd h.turn, e, sub_self, sin_zero, zero_div, zero_smul, zero_add,
      div_self hsin, one_smul]

theorem Joined.start {a b : Pt} (h : Joined a b) : OnInterval a b a :=
  ⟨le_rfl, h.md.le, by rw [sub_self, interp_start_vec h], by rw [sub_self, interpPosNev_zero]⟩

theorem Joined.end_pos {a b : Pt} (h : Joined a b) :
    interpPosNev a.pos a.st b.st (b.md - a.md) = b.pos := by
  rw [h.pos]
  exact interp_end (s1 := a.st) (s2 := b.st) h.md h.turn a.pos

theorem Joined.finish {a b : Pt} (h : Joined a b) : OnInterval a b b :=
  ⟨h.md.le, le_rfl, (interp_end_vec h).symm, h.end_pos.symm⟩

theorem Joined.firstStart {a b : Pt} (h : Joined a b) : FirstAt a b a.pos.z a.md :=
  ⟨le_rfl, h.md.le, by rw [depthAt, sub_self, interpPosNev_zero], fun m' h1 h2 => by linarith⟩

/-- A level further along is first met further down. -/
theorem first_mono {a b : Pt} (h : Joined a b) {z x m1 m : ℝ} (h1 : FirstAt a b z m1)
    (h2 : FirstAt a b x m) (hb : z ∈ Set.uIcc a.pos.z x) : m1 ≤ m := by
  by_contra hlt
  push Not at hlt
  have hc := (depth_continuous (s1 := a.st) (s2 := b.st) h.md h.turn a.pos).mono
    (show Set.Icc 0 (m - a.md) ⊆ Set.Icc 0 (b.st.md - a.st.md) from
      Set.Icc_subset_Icc_right (show m - a.md ≤ b.md - a.md from sub_le_sub_right h2.hi _))
  have hv := intermediate_value_uIcc (a := 0) (b := m - a.md)
    (f := fun y => (interpPosNev a.pos a.st b.st y).z)
    (by rw [Set.uIcc_of_le (by linarith [h2.lo])]; exact hc)
  have e0 : (interpPosNev a.pos a.st b.st 0).z = a.pos.z := by rw [interpPosNev_zero]
  have e1 : (interpPosNev a.pos a.st b.st (m - a.md)).z = x := h2.depth
  simp only [e0, e1] at hv
  obtain ⟨y, hy, hz⟩ := hv hb
  rw [Set.uIcc_of_le (by linarith [h2.lo])] at hy
  exact h1.first (a.md + y) (by linarith [hy.1]) (by linarith [hy.2])
    (by rw [add_sub_cancel_left]; exact hz)

/-- One call of `get_node_tvd`: the node found is the first point of the interval at the vertical depth
asked for. -/
theorem getNodeTvd_first {a b n : Pt} (h : Joined a b) (hn : OnInterval a b n) (hnb : n.md < b.md)
    {tvd m : ℝ} (hf : FirstAt a b tvd m) (hnm : n.md ≤ m) (hne : tvd ≠ n.pos.z)
    (hop : dogleg2 a.st b.st ≠ 0 → tvd - a.pos.z ≠ oppositeDepth a.st b.st) :
    ∃ nd, getNodeTvd n b tvd a = .ok nd ∧ nd.md = m ∧ OnInterval a b nd ∧ nd.pos.z = tvd ∧
      nd.interp = true := by
  have hL : 0 < b.md - a.md := sub_pos.mpr h.md
  have hLs : a.st.md < b.st.md := h.md
  have hy0 : 0 ≤ n.md - a.md := sub_nonneg.mpr hn.lo
  have hmd : n.st.md = a.st.md + (n.md - a.md) := by show n.md = a.md + (n.md - a.md); ring
  -- the distance found is `m - n.md`
  have hdist : distanceFrom (interval [n.pos.z, (n.pos + minCurveStep (b.md - n.md) n.st.inc n.st.azi
      b.st.inc b.st.azi).z] tvd).2 a.st a.pos.z n.st b.st n.pos.z (n.pos + minCurveStep (b.md - n.md)
      n.st.inc n.st.azi b.st.inc b.st.azi).z tvd = .ok (m - n.md) := by
    have he := interval_coeff [n.pos.z, (n.pos + minCurveStep (b.md - n.md) n.st.inc n.st.azi
      b.st.inc b.st.azi).z] tvd
    generalize (interval [n.pos.z, (n.pos + minCurveStep (b.md - n.md) n.st.inc n.st.azi
      b.st.inc b.st.azi).z] tvd).2 = e at he
    unfold distanceFrom
    simp only [getVec_z]
    by_cases h0 : dogleg2 a.st b.st = 0
    · rw [if_pos h0]
      have ht := tangent_eq_of_dogleg_zero h0
      have hia : ∀ u, interpAngles a.st b.st u = (a.st.inc, a.st.azi) := by
        intro u; rw [interpAngles, if_pos h0]
      have hnt := hn.st
      rw [hia] at hnt
      have hz : ∀ u, (interpPosNev a.pos a.st b.st u).z = a.pos.z + u * cos a.st.inc := by
        intro u
        rw [interpPosNev, hia]
        simp only
        rw [minCurveStep_same rfl]
        rfl
      have hz1 : n.pos.z = a.pos.z + (n.md - a.md) * cos a.st.inc := by rw [hn.pos, hz]
      have hzt : tvd = a.pos.z + (m - a.md) * cos a.st.inc := by rw [← hf.depth, depthAt, hz]
      have hci : cos n.st.inc = cos a.st.inc := congrArg V3.z hnt
      have hz2 : (n.pos + minCurveStep (b.md - n.md) n.st.inc n.st.azi b.st.inc b.st.azi).z
          = n.pos.z + (b.md - n.md) * cos a.st.inc := by
        rw [minCurveStep_same (hnt.trans ht), V3.add_z, V3.smul_z]
        simp only [tangent, hci]
      rw [hz2]
      have hc : cos a.st.inc ≠ 0 := by
        intro hc
        rw [hc] at hz1 hzt
        exact hne (by rw [hzt, hz1]; ring)
      have hbn : b.md - n.md ≠ 0 := by linarith
      rw [if_neg (by rw [add_sub_cancel_left]; exact mul_ne_zero hbn hc)]
      congr 1
      rw [add_sub_cancel_left, hzt, hz1]
      show (a.pos.z + (m - a.md) * cos a.st.inc - (a.pos.z + (n.md - a.md) * cos a.st.inc))
        / ((b.md - n.md) * cos a.st.inc) * (b.md - n.md) = m - n.md
      field_simp
      ring
    · rw [if_neg h0]
      have hdp : 0 < dogleg2 a.st b.st := lt_of_le_of_ne (getDogleg_nonneg ..) (Ne.symm h0)
      have hsin := sin_pos_of_pos_of_lt_pi hdp h.turn
      have hs0 : 0 ≤ (m - a.md) / (b.md - a.md) * dogleg2 a.st b.st :=
        mul_nonneg (div_nonneg (by linarith [hf.lo]) hL.le) hdp.le
      have hs1 : (m - a.md) / (b.md - a.md) * dogleg2 a.st b.st ≤ dogleg2 a.st b.st := by
        have : (m - a.md) / (b.md - a.md) ≤ 1 := by rw [div_le_one hL]; linarith [hf.hi]
        nlinarith
      have hback : (m - a.md) / (b.md - a.md) * dogleg2 a.st b.st / dogleg2 a.st b.st
          * (b.st.md - a.st.md) = m - a.md := by
        show (m - a.md) / (b.md - a.md) * dogleg2 a.st b.st / dogleg2 a.st b.st
          * (b.md - a.md) = m - a.md
        field_simp
      have hroot := (depth_iff hLs h0 h.turn (dt := tvd - a.pos.z) he hs0 hs1).mp (by
        simp only [hback]
        have := hf.depth
        rw [depthAt, interpPosNev, V3.add_z] at this
        linarith)
      simp only at hroot
      obtain ⟨d, hd, d0, d1⟩ := solveAngle_complete hs0 (lt_of_le_of_lt hs1 h.turn) hroot
      rw [hd]
      simp only
      obtain ⟨-, deq⟩ := solveAngle_solves hd (by
        simp only [coeffs]
        intro hb
        apply hop h0
        unfold oppositeDepth
        have h3 : e * ((tvd - a.pos.z) * dogleg2 a.st b.st * sin (dogleg2 a.st b.st)
            / (b.st.md - a.st.md)) = e * (2 * (cos b.st.inc - cos a.st.inc
              * cos (dogleg2 a.st b.st))) := by
          linear_combination hb
        have h4 := mul_left_cancel₀ he h3
        have h1 : b.st.md - a.st.md ≠ 0 := hL.ne'
        have h2 := hsin.ne'
        field_simp at h4 ⊢
        linarith)
      have hdz := (depth_iff hLs h0 h.turn he d0 (d1.trans hs1)).mpr deq
      simp only at hdz
      have hx : d / dogleg2 a.st b.st * (b.st.md - a.st.md) = m - a.md := by
        by_contra hxe
        have hle : d / dogleg2 a.st b.st * (b.st.md - a.st.md) ≤ m - a.md := by
          rw [← hback]
          exact mul_le_mul_of_nonneg_right (div_le_div_of_nonneg_right d1 hdp.le) hL.le
        have h0' : 0 ≤ d / dogleg2 a.st b.st * (b.st.md - a.st.md) :=
          mul_nonneg (div_nonneg d0 hdp.le) hL.le
        refine hf.first (a.md + d / dogleg2 a.st b.st * (b.st.md - a.st.md)) (by linarith)
          (by linarith [lt_of_le_of_ne hle hxe]) ?_
        rw [depthAt, add_sub_cancel_left, interpPosNev, V3.add_z, hdz]
        ring
      rw [hx, if_pos (show m - a.md - (n.st.md - a.st.md) ≤ b.st.md - a.st.md from
        show m - a.md - (n.md - a.md) ≤ b.md - a.md by linarith [hf.hi])]
      congr 1
      show m - a.md - (n.md - a.md) = m - n.md
      ring
  obtain ⟨nd, hnd, n1, n2, n3, -⟩ := interpolateSurvey_some
    (sv := ⟨[n.st, b.st], [n.pos, n.pos + minCurveStep (b.md - n.md) n.st.inc n.st.azi b.st.inc
      b.st.azi], none⟩) (i := 0) (s1 := n.st) (s2 := b.st) (p1 := n.pos) 0 (m - n.md) rfl rfl rfl
  have hm : nd.md = m := by rw [n1]; show n.md + (m - n.md) = m; ring
  have hsum : n.md - a.md + (m - n.md) = m - a.md := by ring
  have hv : nd.vec = tangent (interpAngles a.st b.st (m - a.md)).1
      (interpAngles a.st b.st (m - a.md)).2 := by
    rw [n2, sub_tangent hLs h.turn hy0 (show n.md - a.md < b.md - a.md by linarith) hmd hn.st, hsum]
  have hp : nd.pos = interpPosNev a.pos a.st b.st (m - a.md) := by
    rw [n3]
    have := sub_pos' hLs h.turn hy0 (sub_nonneg.mpr hnm)
      (show n.md - a.md + (m - n.md) ≤ b.md - a.md by linarith [hf.hi])
      (show n.md - a.md < b.md - a.md by linarith) hmd hn.st a.pos
    rw [← hn.pos, hsum] at this
    exact this
  refine ⟨⟨nd.md, nd.vec, nd.pos, true⟩, ?_, hm, ⟨?_, ?_, ?_, ?_⟩, ?_, rfl⟩
  · unfold getNodeTvd
    simp only
    rw [hdist]
    simp only [hnd]
  · simp only [hm]; exact hf.lo
  · simp only [hm]; exact hf.hi
  · simp only [hm]; exact hv
  · simp only [hm]; exact hp
  · simp only [hp]; exact hf.depth

/-! ### The loop -/

/-- The first point of the interval at a vertical depth between those of its ends. -/
theorem firstAt_exists {a b : Pt} (h : Joined a b) {x : ℝ} (hx : x ∈ Set.uIcc a.pos.z b.pos.z) :
    ∃ m, FirstAt a b x m := by
  have hL : 0 < b.md - a.md := sub_pos.mpr h.md
  have hc : ContinuousOn (fun y => depthAt a b y) (Set.Icc 0 (b.md - a.md)) :=
    depth_continuous (s1 := a.st) (s2 := b.st) h.md h.turn a.pos
  have e0 : depthAt a b 0 = a.pos.z := by rw [depthAt, interpPosNev_zero]
  have e1 : depthAt a b (b.md - a.md) = b.pos.z := by rw [depthAt, h.end_pos]
  have hv := intermediate_value_uIcc (a := 0) (b := b.md - a.md) (f := fun y => depthAt a b y)
    (by rw [Set.uIcc_of_le hL.le]; exact hc)
  simp only [e0, e1] at hv
  obtain ⟨y0, hy0, hz0⟩ := hv hx
  rw [Set.uIcc_of_le hL.le] at hy0
  have hcl : IsClosed (Set.Icc 0 (b.md - a.md) ∩ (fun y => depthAt a b y) ⁻¹' {x}) :=
    hc.preimage_isClosed_of_isClosed isClosed_Icc isClosed_singleton
  have hcp : IsCompact (Set.Icc 0 (b.md - a.md) ∩ (fun y => depthAt a b y) ⁻¹' {x}) :=
    isCompact_Icc.of_isClosed_subset hcl Set.inter_subset_left
  obtain ⟨y, ⟨hy1, hy2⟩, hmin⟩ := hcp.exists_isLeast ⟨y0, hy0, hz0⟩
  refine ⟨a.md + y, by linarith [hy1.1], by linarith [hy1.2], by rw [add_sub_cancel_left]; exact hy2,
    fun m' h1 h2 h3 => ?_⟩
  have := hmin ⟨⟨by linarith, by linarith [hy1.2]⟩, h3⟩
  linarith

theorem FirstAt.unique {a b : Pt} {x m m' : ℝ} (h : FirstAt a b x m) (h' : FirstAt a b x m') :
    m = m' := by
  rcases lt_trichotomy m m' with hl | hl | hl
  · exact absurd h.depth (h'.first m h.lo hl)
  · exact hl
  · exact absurd h'.depth (h.first m' h'.lo hl)

theorem V3_abs_z_le (v : V3) : |v.z| ≤ V3.norm v := by
  unfold V3.norm V3.dot
  exact abs_le_sqrt (by nlinarith [mul_self_nonneg v.x, mul_self_nonneg v.y])

/-- The vertical depth changes by no more than the measured depth. -/
theorem depth_to_end {a b : Pt} (h : Joined a b) {x m : ℝ} (hf : FirstAt a b x m) :
    |x - b.pos.z| ≤ b.md - m := by
  have hLs : a.st.md < b.st.md := h.md
  rcases hf.hi.lt_or_eq with hm | hm
  · set n : Station := ⟨m, (interpAngles a.st b.st (m - a.md)).1,
      (interpAngles a.st b.st (m - a.md)).2⟩ with hn
    have := sub_pos' hLs h.turn (y := m - a.md) (x := b.md - m) (n := n) (by linarith [hf.lo])
      (by linarith) (show m - a.md + (b.md - m) ≤ b.md - a.md by linarith)
      (show m - a.md < b.md - a.md by linarith) (show m = a.md + (m - a.md) by ring) rfl a.pos
    rw [show m - a.md + (b.md - m) = b.md - a.md by ring, h.end_pos] at this
    have hz := congrArg V3.z this
    rw [interpPosNev, V3.add_z] at hz
    have hd : (interpPosNev a.pos a.st b.st (m - a.md)).z = x := hf.depth
    rw [hd] at hz
    rw [← hz, show ∀ u w : ℝ, u - (u + w) = -w by intros; ring, abs_neg]
    exact (V3_abs_z_le _).trans (step_norm_le (by linarith))
  · have := hf.depth
    rw [depthAt, hm, h.end_pos] at this
    rw [← this, hm]; simp

/-- A node with its flag set to `False`. -/
def orig (p : Pt) : Pt := { p with interp := false }

/-- What the simplified loop of `Verif.Model.ResampleTvd` keeps of a node. -/
def toNd (p : Pt) : Rt.Nd := ⟨p.md, p.pos.z, p.interp⟩

/-- A node inserted between the stations `a` and `b`. -/
structure Inserted (a b nd : Pt) : Prop where
  arc : OnInterval a b nd
  first : FirstAt a b nd.pos.z nd.md
  flag : nd.interp = true

theorem intervalN_mono {near : ℝ → ℝ → Prop} {step : ℝ} {o b : Pt} {k : ℕ} (fuel : ℕ) :
    ∀ (l : List Pt) (t : ℝ) (r : Except Err (List Pt × ℝ)), intervalN near step o b fuel l t = some r →
      intervalN near step o b (fuel + k) l t = some r := by
  induction fuel with
  | zero => intro l t r h; simp [intervalN] at h
  | succ fuel ih =>
    intro l t r h
    rw [show fuel + 1 + k = (fuel + k) + 1 by omega]
    cases l with
    | nil => simp [intervalN] at h
    | cons n1 rest =>
      rw [intervalN] at h ⊢
      split_ifs at h ⊢
      · exact h
      · cases hg : getNodeTvd n1 b t o with
        | error e => rw [hg] at h; exact h
        | ok nd => rw [hg] at h; exact ih _ _ _ h
      · cases hg : getNodeTvd n1 b (t + step) o with
        | error e => rw [hg] at h; exact h
        | ok nd => rw [hg] at h; exact ih _ _ _ h
      · exact h

theorem intervalN_sim {c : Rt.Cfg} {z0 : ℝ} {a b : Pt} (h : Joined a b)
    (hF : ∀ x ∈ Set.uIcc a.pos.z b.pos.z, OnLevel z0 c.step x → FirstAt a b x (c.mdAt b.md x))
    (hop : ∀ x ∈ Set.uIcc a.pos.z b.pos.z, x ≠ a.pos.z → OnLevel z0 c.step x →
      dogleg2 a.st b.st ≠ 0 → x - a.pos.z ≠ oppositeDepth a.st b.st)
    (hl : LevelsApart c z0 (a.md, a.pos.z) (b.md, b.pos.z)) (rest : List Pt) (fuel : ℕ) :
    ∀ (new : List Pt) (t : ℝ) (r : List Rt.Nd × ℝ),
      (∀ nd ∈ new, Inserted a b nd ∧ nd.pos.z ∈ Set.uIcc a.pos.z b.pos.z ∧
        OnLevel z0 c.step nd.pos.z) →
      OnLevel z0 c.step t →
      Rt.interval c (b.md, b.pos.z) fuel ((new ++ orig a :: rest).map toNd) t = some r →
      ∃ new', intervalN c.near c.step (orig a) b fuel (new ++ orig a :: rest) t
          = some (.ok (orig b :: (new' ++ orig a :: rest), r.2)) ∧
        r.1 = (orig b :: (new' ++ orig a :: rest)).map toNd ∧ ∀ nd ∈ new', Inserted a b nd := by
  obtain ⟨hna, hmb, hrb, hx⟩ := hl
  simp only at hna hmb hrb hx
  induction fuel with
  | zero => intro new t r _ _ h; simp [Rt.interval] at h
  | succ fuel ih =>
    intro new t r hnew ht hr
    -- the last node so far
    obtain ⟨n1, tl, hsplit, hon, hfi, hzr, hcase⟩ : ∃ n1 tl, new ++ orig a :: rest = n1 :: tl ∧
        OnInterval a b n1 ∧ FirstAt a b n1.pos.z n1.md ∧ n1.pos.z ∈ Set.uIcc a.pos.z b.pos.z ∧
        (n1.md = a.md ∨ ∃ new0, new = n1 :: new0 ∧ tl = new0 ++ orig a :: rest ∧
          OnLevel z0 c.step n1.pos.z) := by
      cases new with
      | nil =>
        exact ⟨orig a, rest, rfl, ⟨h.start.lo, h.start.hi, h.start.vec, h.start.pos⟩, h.firstStart,
          Set.left_mem_uIcc, .inl rfl⟩
      | cons n1 new0 =>
        obtain ⟨i1, i2, i3⟩ := hnew n1 (List.mem_cons_self ..)
        exact ⟨n1, new0 ++ orig a :: rest, rfl, i1.arc, i1.first, i2, .inr ⟨new0, rfl, rfl, i3⟩⟩
    have step : ∀ x, OnLevel z0 c.step x → ¬ c.near n1.md b.md →
        x ∈ Set.uIcc n1.pos.z b.pos.z → x ≠ n1.pos.z →
        ∃ nd, getNodeTvd n1 b x (orig a) = .ok nd ∧ Inserted a b nd ∧
          nd.pos.z ∈ Set.uIcc a.pos.z b.pos.z ∧ OnLevel z0 c.step nd.pos.z ∧
          toNd nd = ⟨c.mdAt b.md x, x, true⟩ := by
      intro x hlx hnn hxr hxne
      have hxm : x ∈ Set.uIcc a.pos.z b.pos.z := Set.uIcc_subset_uIcc hzr Set.right_mem_uIcc hxr
      have hbt : n1.pos.z ∈ Set.uIcc a.pos.z x := by
        rw [Set.mem_uIcc] at hzr hxr ⊢
        rcases hzr with ⟨p1, p2⟩ | ⟨p1, p2⟩ <;> rcases hxr with ⟨q1, q2⟩ | ⟨q1, q2⟩
        · exact .inl ⟨p1, q1⟩
        · exact absurd (le_antisymm q2 (p2.trans q1)) hxne
        · exact absurd (le_antisymm (q2.trans p1) q1) hxne
        · exact .inr ⟨q2, p2⟩
      have hxa : x ≠ a.pos.z := by
        intro hxa
        rw [hxa, Set.uIcc_self, Set.mem_singleton_iff] at hbt
        exact hxne (hxa.trans hbt.symm)
      have hfx := hF x hxm hlx
      obtain ⟨nd, g1, g2, g3, g4, g5⟩ := getNodeTvd_first h hon
        (lt_of_le_of_ne hon.hi fun he => hnn (he ▸ hrb)) hfx
        (first_mono h hfi hfx hbt) hxne (hop x hxm hxa hlx)
      refine ⟨nd, g1, ⟨g3, ?_, g5⟩, by rw [g4]; exact hxm, by rw [g4]; exact hlx, ?_⟩
      · rw [g4, g2]; exact hfx
      · rw [toNd, g2, g4, g5]
    have push : ∀ nd, Inserted a b nd → nd.pos.z ∈ Set.uIcc a.pos.z b.pos.z →
        OnLevel z0 c.step nd.pos.z → ∀ nd' ∈ nd :: new, Inserted a b nd' ∧
          nd'.pos.z ∈ Set.uIcc a.pos.z b.pos.z ∧ OnLevel z0 c.step nd'.pos.z := by
      intro nd i1 i2 i3 nd' hm
      rcases List.mem_cons.mp hm with rfl | hm
      · exact ⟨i1, i2, i3⟩
      · exact hnew nd' hm
    rw [hsplit, List.map_cons, Rt.interval] at hr
    rw [hsplit, intervalN]
    by_cases hn : c.near n1.md b.md
    · rw [if_pos (show c.near (toNd n1).md (b.md, b.pos.z).1 from hn), Option.some.injEq] at hr
      rw [if_pos hn]
      rcases hcase with hc | ⟨new0, rfl, rfl, hlv⟩
      · exact absurd (hc ▸ hn) hna
      · have hmd : n1.md = c.mdAt b.md n1.pos.z := hfi.unique (hF _ hzr hlv)
        have hzb : n1.pos.z = b.pos.z := by
          by_contra hne
          exact hx _ hlv hzr.1 hzr.2 hne (hmd ▸ hn)
        have hmb' : n1.md = b.md := by rw [hmd, hzb, hmb]
        have hv : n1.vec = b.vec := by rw [hon.vec, hmb', interp_end_vec h]
        have hp : n1.pos = b.pos := by rw [hon.pos, hmb', h.end_pos]
        have he : ({ n1 with interp := false } : Pt) = orig b := by
          unfold orig; rw [hmb', hv, hp]
        refine ⟨new0, ?_, ?_, fun nd hm => (hnew nd (List.mem_cons_of_mem _ hm)).1⟩
        · rw [he, ← hr]
        · rw [← hr, List.map_cons, ← he]; rfl
    · rw [if_neg (show ¬ c.near (toNd n1).md (b.md, b.pos.z).1 from hn)] at hr
      rw [if_neg hn]
      by_cases hup : n1.pos.z > t ∧ t ≥ b.pos.z
      · rw [if_pos (show (toNd n1).z > t ∧ t ≥ (b.md, b.pos.z).2 from hup)] at hr
        rw [if_pos hup]
        obtain ⟨nd, g1, g2, g3, g4, g5⟩ := step t ht hn
          (Set.mem_uIcc.mpr (.inr ⟨hup.2, hup.1.le⟩)) hup.1.ne
        simp only [g1]
        have := ih (nd :: new) (t - c.step) r (push nd g2 g3 g4) (onLevel_sub ht) (by
          rw [List.cons_append, List.map_cons, g5, hsplit, List.map_cons]; exact hr)
        rw [List.cons_append, hsplit] at this
        exact this
      · rw [if_neg (show ¬ ((toNd n1).z > t ∧ t ≥ (b.md, b.pos.z).2) from hup)] at hr
        rw [if_neg hup]
        by_cases hdn : n1.pos.z < t + c.step ∧ t + c.step ≤ b.pos.z
        · rw [if_pos (show (toNd n1).z < t + c.step ∧ t + c.step ≤ (b.md, b.pos.z).2 from hdn)] at hr
          rw [if_pos hdn]
          obtain ⟨nd, g1, g2, g3, g4, g5⟩ := step (t + c.step) (onLevel_add ht) hn
            (Set.mem_uIcc.mpr (.inl ⟨hdn.1.le, hdn.2⟩)) hdn.1.ne'
          simp only [g1]
          have := ih (nd :: new) (t + c.step) r (push nd g2 g3 g4) (onLevel_add ht) (by
            rw [List.cons_append, List.map_cons, g5, hsplit, List.map_cons]; exact hr)
          rw [List.cons_append, hsplit] at this
          exact this
        · rw [if_neg (show ¬ ((toNd n1).z < t + c.step ∧ t + c.step ≤ (b.md, b.pos.z).2) from hdn),
            Option.some.injEq] at hr
          rw [if_neg hdn]
          refine ⟨new, ?_, ?_, fun nd hm => (hnew nd hm).1⟩
          · rw [hsplit, ← hr]; rfl
          · rw [hsplit, ← hr]; rfl

/-- The levels between `a` and `b` are told apart from `b` by `np.isclose`: the stations are not within
its tolerance of each other, and no level but one at `b` itself is within it in vertical depth.  If `b` is
at a level, the well is not at that level before. -/
def ToldApart (z0 step : ℝ) (a b : Pt) : Prop :=
  ¬ Rt.isclose a.md b.md ∧ (OnLevel z0 step b.pos.z → FirstAt a b b.pos.z b.md) ∧ ∀ x, OnLevel z0 step x → x ∈ Set.uIcc a.pos.z b.pos.z → x ≠ b.pos.z →
    1e-8 + 1e-5 * |b.md| < |x - b.pos.z|

/-- No level passed between `a` and `b` is at the exceptional depth. -/
def NoOpposite (z0 step : ℝ) (a b : Pt) : Prop :=
  ∀ x ∈ Set.uIcc a.pos.z b.pos.z, x ≠ a.pos.z → OnLevel z0 step x →
    dogleg2 a.st b.st ≠ 0 → x - a.pos.z ≠ oppositeDepth a.st b.st

/-- One interval, with the nodes. -/
theorem intervalN_one {z0 step : ℝ} (hs : 0 < step) {a b : Pt} (h : Joined a b) {t : ℝ}
    (ht : OnLevel z0 step t) (h1 : t ≤ a.pos.z) (h2 : a.pos.z < t + step)
    (hup : b.pos.z < a.pos.z → t < a.pos.z ∧ ¬ OnLevel z0 step b.pos.z) (hap : ToldApart z0 step a b)
    (hop : NoOpposite z0 step a b) (rest : List Pt) :
    ∃ (ls : List Pt) (t' : ℝ) (K : ℕ), OnLevel z0 step t' ∧ t' ≤ b.pos.z ∧ b.pos.z < t' + step ∧
      LevelsBetween z0 step a.pos.z b.pos.z (ls.map fun nd => nd.pos.z) ∧
      (∀ nd ∈ ls, Inserted a b nd) ∧
      ∀ k, intervalN Rt.isclose step (orig a) b (K + k) (orig a :: rest) t
        = some (.ok (orig b :: (ls.reverse ++ orig a :: rest), t')) := by
  classical
  set c : Rt.Cfg := ⟨step, Rt.isclose, fun _ x =>
    if hx : x ∈ Set.uIcc a.pos.z b.pos.z ∧ OnLevel z0 step x then (firstAt_exists h hx.1).choose
    else b.md⟩ with hc
  have hF : ∀ x ∈ Set.uIcc a.pos.z b.pos.z, OnLevel z0 c.step x → FirstAt a b x (c.mdAt b.md x) := by
    intro x hx hlx
    have hx' : x ∈ Set.uIcc a.pos.z b.pos.z ∧ OnLevel z0 step x := ⟨hx, hlx⟩
    simp only [hc, dif_pos hx']
    exact (firstAt_exists h hx'.1).choose_spec
  have hfar : ∀ x m, FirstAt a b x m → 1e-8 + 1e-5 * |b.md| < |x - b.pos.z| →
      ¬ Rt.isclose m b.md := by
    intro x m hf hlt hcl
    have h3 := depth_to_end h hf
    have h4 : b.md - m ≤ |m - b.md| := by rw [abs_sub_comm]; exact le_abs_self _
    exact absurd (hlt.trans_le (h3.trans h4)) (not_lt.mpr hcl)
  have hrefl : Rt.isclose b.md b.md := by
    unfold Rt.isclose; rw [sub_self, abs_zero]; positivity
  have hend : c.mdAt b.md b.pos.z = b.md := by
    by_cases hlb : OnLevel z0 step b.pos.z
    · exact (hF _ Set.right_mem_uIcc hlb).unique (hap.2.1 hlb)
    · simp only [hc]
      rw [dif_neg fun h => hlb h.2]
  have hl : LevelsApart c z0 (a.md, a.pos.z) (b.md, b.pos.z) :=
    ⟨hap.1, hend, hrefl, fun x hx a1 a2 hne => hfar x _ (hF x ⟨a1, a2⟩ hx) (hap.2.2 x hx ⟨a1, a2⟩ hne)⟩
  obtain ⟨zs, t', K, e1, e2, e3, e4, e5⟩ := interval_one (c := c) hs (a := (a.md, a.pos.z))
    (b := (b.md, b.pos.z)) ht h1 h2 hup hl (rest.map toNd)
  obtain ⟨new, f1, f2, f3⟩ := intervalN_sim h hF hop hl rest (K + 0) [] t _ (by simp) ht (e5 0)
  refine ⟨new.reverse, t', K, e1, e2, e3, ?_, fun nd hm => f3 nd (List.mem_reverse.mp hm), fun k => ?_⟩
  · have hm : new.map toNd = (zs.map fun x => (⟨c.mdAt b.md x, x, true⟩ : Rt.Nd)).reverse := by
      simp only [List.map_cons, List.map_append] at f2
      have := (List.cons.inj f2).2
      exact (List.append_cancel_right this).symm
    have hz : (new.reverse.map fun nd => nd.pos.z) = zs := by
      have := congrArg (fun l => (l.map Rt.Nd.z).reverse) hm
      simp only [List.map_map, List.map_reverse, List.reverse_reverse] at this
      rw [List.map_reverse]
      simpa [Function.comp_def, toNd] using this
    rw [hz]; exact e4
  · rw [List.reverse_reverse]
    exact intervalN_mono K _ _ _ f1

/-- The result: the stations after `a`, each preceded by the levels passed since the one before.  The
inserted stations are the first points of the interval at their levels, with the direction of the well
there. -/
def ResampledPts (z0 step : ℝ) : Pt → List Pt → List Pt → Prop
  | _, [], out => out = []
  | a, b :: rest, out => ∃ ls tail : List Pt,
      LevelsBetween z0 step a.pos.z b.pos.z (ls.map fun nd => nd.pos.z) ∧
      (∀ nd ∈ ls, Inserted a b nd) ∧ out = ls ++ orig b :: tail ∧ ResampledPts z0 step b rest tail

theorem sweepN_all {z0 step : ℝ} (hs : 0 < step) (st : List Pt) :
    ∀ (a : Pt) (rest : List Pt) (t : ℝ), OnLevel z0 step t → t ≤ a.pos.z → a.pos.z < t + step →
      (a :: st).IsChain (fun p q => Joined p q ∧ ToldApart z0 step p q ∧ NoOpposite z0 step p q) →
      ((a :: st).IsChain (fun p q => p.pos.z ≤ q.pos.z) ∨
        ((∀ b ∈ st, ¬ OnLevel z0 step b.pos.z) ∧ (t < a.pos.z ∨ ∀ b ∈ st.head?, a.pos.z ≤ b.pos.z))) →
      ∃ (out : List Pt) (K : ℕ), ResampledPts z0 step a st out ∧
        ∀ k, sweepN Rt.isclose step (K + k) st (orig a :: rest) t
          = some (.ok (out.reverse ++ orig a :: rest)) := by
  induction st with
  | nil => intro a rest t _ _ _ _ _; exact ⟨[], 0, rfl, fun k => rfl⟩
  | cons b st ih =>
    intro a rest t ht h1 h2 hl hd
    rw [List.isChain_cons_cons] at hl
    obtain ⟨⟨hj, hap, hop⟩, hl⟩ := hl
    obtain ⟨ls, t', K1, e1, e2, e3, e4, e4', e5⟩ := intervalN_one hs hj ht h1 h2 (by
      intro hba
      rcases hd with hd | ⟨hd1, hd2⟩
      · have := (List.isChain_cons_cons.mp hd).1
        linarith
      · refine ⟨hd2.resolve_right fun h => ?_, hd1 b (List.mem_cons_self ..)⟩
        have := h b rfl
        linarith) hap hop rest
    obtain ⟨out, K2, f1, f2⟩ := ih b (ls.reverse ++ orig a :: rest) t' e1 e2 e3 hl (by
        rcases hd with hd | ⟨hd1, -⟩
        · exact .inl (List.isChain_cons_cons.mp hd).2
        · refine .inr ⟨fun x hx => hd1 x (List.mem_cons_of_mem _ hx), .inl ?_⟩
          rcases e2.lt_or_eq with h | h
          · exact h
          · exact absurd (h ▸ e1) (hd1 b (List.mem_cons_self ..)))
    refine ⟨ls ++ orig b :: out, K1 + K2, ⟨ls, out, e4, e4', rfl, f1⟩, fun k => ?_⟩
    simp only [sweepN]
    rw [show K1 + K2 + k = K1 + (K2 + k) by omega, e5 (K2 + k)]
    simp only
    rw [show K1 + (K2 + k) = K2 + (K1 + k) by omega, f2 (K1 + k)]
    simp

/-! ### C314: the levels lie on the well -/

/-- C314, proved part: the survey resampled at vertical depths consists of the first station and then, for
each interval, one station for each level strictly between the vertical depths of its ends, in order,
followed by the lower station.  Each inserted station is the first point of the interval at its level, and
has the direction of the well there.  Proved for surveys that never climb or, if the first interval does
not climb, have no later station at a level; without the exceptional depth, and with levels that
`np.isclose` tells apart from the stations. -/
theorem C314_levels_partial {step : ℝ} (hs : 0 < step) (a : Pt) (st : List Pt)
    (hl : (a :: st).IsChain fun p q =>
      Joined p q ∧ ToldApart a.pos.z step p q ∧ NoOpposite a.pos.z step p q)
    (hd : (a :: st).IsChain (fun p q => p.pos.z ≤ q.pos.z) ∨
      ((∀ b ∈ st, ¬ OnLevel a.pos.z step b.pos.z) ∧ ∀ b ∈ st.head?, a.pos.z ≤ b.pos.z)) :
    ∃ (out : List Pt) (K : ℕ), ResampledPts a.pos.z step a st out ∧
      ∀ fuel, K ≤ fuel → nodesN Rt.isclose step fuel none (a :: st) = some (.ok (orig a :: out)) := by
  obtain ⟨out, K, e1, e2⟩ := sweepN_all hs st a [] a.pos.z ⟨0, by simp⟩ le_rfl (by linarith) hl
    (hd.imp id fun h => ⟨h.1, .inr h.2⟩)
  refine ⟨out, K, e1, fun fuel hf => ?_⟩
  obtain ⟨k, rfl⟩ := Nat.exists_eq_add_of_le hf
  have e := e2 k
  unfold orig at e
  simp only [nodesN, Option.getD_none, e]
  simp [orig]

/-- A build from vertical to 30 degrees with a radius of 1000. -/
noncomputable def buildTop : Pt := ⟨0, tangent 0 0, 0, false⟩

/-- The end of the build. -/
noncomputable def buildEnd : Pt :=
  let b : Pt := ⟨1000 * (π / 6), tangent (π / 6) 0, 0, false⟩
  ⟨b.md, b.vec, buildTop.pos + minCurveStep (b.md - buildTop.md) buildTop.st.inc buildTop.st.azi
    b.st.inc b.st.azi, false⟩

theorem dogleg_of_vecs (p q : Pt) (i1 a1 i2 a2 : ℝ) (h1 : p.vec = tangent i1 a1)
    (h2 : q.vec = tangent i2 a2) : dogleg2 p.st q.st = getDogleg i1 a1 i2 a2 :=
  getDogleg_congr (by rw [st_tangent (by rw [h1]; exact tangent_unit _ _), h1])
    (by rw [st_tangent (by rw [h2]; exact tangent_unit _ _), h2])

theorem cos_inc_of_vec (p : Pt) (i a : ℝ) (h : p.vec = tangent i a) : cos p.st.inc = cos i := by
  have := st_tangent (p := p) (by rw [h]; exact tangent_unit _ _)
  rw [h] at this
  exact congrArg V3.z this

theorem build_dogleg : dogleg2 buildTop.st buildEnd.st = π / 6 := by
  rw [dogleg_of_vecs buildTop buildEnd 0 0 (π / 6) 0 rfl rfl, getDogleg_eq_arccos]
  simp only [V3.dot, tangent, cos_zero, sin_zero]
  rw [show (0 * 1 * (sin (π / 6) * 1) + 0 * 0 * (sin (π / 6) * 0) + 1 * cos (π / 6) : ℝ)
    = cos (π / 6) by ring]
  exact arccos_cos (by positivity) (by linarith [pi_pos])

theorem build_joined : Joined buildTop buildEnd := by
  refine ⟨?_, ?_, tangent_unit _ _, tangent_unit _ _, rfl⟩
  · show (0 : ℝ) < 1000 * (π / 6); positivity
  · rw [build_dogleg]; linarith [pi_pos]

theorem build_z : buildEnd.pos.z = 500 := by
  have h := build_joined
  have hd : dogleg2 buildTop.st buildEnd.st ≠ 0 := by rw [build_dogleg]; positivity
  have e := interp_step_z (x := buildEnd.st.md - buildTop.st.md) h.md hd h.turn (sub_pos.mpr h.md).le le_rfl
  have e2 := congrArg V3.z h.end_pos
  rw [interpPosNev, V3.add_z] at e2
  rw [← e2]
  have e' : (minCurveStep (buildEnd.md - buildTop.md) buildTop.st.inc buildTop.st.azi
    (interpAngles buildTop.st buildEnd.st (buildEnd.md - buildTop.md)).1
    (interpAngles buildTop.st buildEnd.st (buildEnd.md - buildTop.md)).2).z = _ := e
  rw [e', build_dogleg, cos_inc_of_vec buildTop 0 0 rfl, cos_inc_of_vec buildEnd (π / 6) 0 rfl]
  have hm : buildEnd.st.md - buildTop.st.md = 1000 * (π / 6) := sub_zero (1000 * (π / 6))
  have hp := pi_pos
  rw [hm, show 1000 * (π / 6) * (π / 6) / (1000 * (π / 6)) = π / 6 by field_simp, cos_zero,
    sin_pi_div_six]
  show (0 : ℝ) + _ = 500
  field_simp
  ring

/-- The build, with a level every 200: two levels are passed, 200 and 400. -/
example : ([buildTop, buildEnd].IsChain fun p q =>
      Joined p q ∧ ToldApart buildTop.pos.z 200 p q ∧ NoOpposite buildTop.pos.z 200 p q) ∧
    [buildTop, buildEnd].IsChain (fun p q => p.pos.z ≤ q.pos.z) := by
  have hz0 : buildTop.pos.z = 0 := rfl
  have hp := pi_gt_three
  have hp4 := pi_le_four
  have key : ∀ x, OnLevel 0 200 x → 1e-8 + 1e-5 * |buildEnd.md| < |x - 500| := by
    rintro x ⟨k, rfl⟩
    have hm : |buildEnd.md| = 1000 * (π / 6) := abs_of_nonneg (by show 0 ≤ 1000 * (π / 6); positivity)
    rw [hm]
    rcases le_or_gt k 2 with h | h
    · have : (k : ℝ) ≤ 2 := by exact_mod_cast h
      rw [abs_of_nonpos (by linarith)]
      norm_num
      linarith
    · have : (3 : ℝ) ≤ k := by exact_mod_cast h
      rw [abs_of_nonneg (by linarith)]
      norm_num
      linarith
  refine ⟨.cons_cons ⟨build_joined, ⟨?_, ?_, ?_⟩, ?_⟩ (.singleton _),
    .cons_cons (by rw [build_z, hz0]; norm_num) (.singleton _)⟩
  · show ¬ |(0 : ℝ) - 1000 * (π / 6)| ≤ 1e-8 + 1e-5 * |1000 * (π / 6)|
    rw [zero_sub, abs_neg, abs_of_nonneg (by positivity)]
    norm_num
    linarith
  · rw [hz0, build_z]
    intro h
    have := key 500 h
    rw [sub_self, abs_zero] at this
    have h0 := abs_nonneg buildEnd.md
    norm_num at this
    linarith
  · rw [hz0, build_z]
    exact fun x hx _ _ => key x hx
  · intro x _ hx _ _
    unfold oppositeDepth
    rw [cos_inc_of_vec buildTop 0 0 rfl, cos_inc_of_vec buildEnd (π / 6) 0 rfl, build_dogleg, cos_zero,
      one_mul, sub_self, zero_div, mul_zero]
    exact sub_ne_zero.mpr hx

theorem solveAngle_w : solveAngle (3 / 4) (-(√3 / 4)) (√3 / 4) = .ok 0 := by
  have hpi := pi_pos
  unfold solveAngle
  simp only
  rw [show (3 / 4 : ℝ) ^ 2 + (-(√3 / 4)) ^ 2 - (√3 / 4) ^ 2 = (3 / 4) ^ 2 by ring,
    sqrt_sq (by norm_num), sub_self, neg_add_cancel]
  have a0 : atan2 0 0 = 0 := by unfold atan2; exact Complex.arg_zero
  have a1 : atan2 (3 / 4 + 3 / 4) 0 = π / 2 := by
    have := atan2_mul_sin_cos (r := 3 / 2) (by norm_num) (π / 2)
    rw [sin_pi_div_two, cos_pi_div_two, mul_zero, mul_one,
      (toIocMod_eq_self _).mpr ⟨by linarith, by linarith⟩] at this
    rw [← this]; norm_num
  rw [a0, a1]
  have t0 : tidyUp (2 * 0) = 0 := by
    unfold tidyUp; rw [mul_zero, if_neg (by rw [abs_zero]; linarith)]
  have t1 : tidyUp (2 * (π / 2)) = π := by
    unfold tidyUp
    rw [show 2 * (π / 2) = π by ring, if_neg (by rw [abs_of_pos hpi]; simp)]
  rw [t0, t1, if_neg (by norm_num), if_pos (Or.inr le_rfl), if_neg (by linarith),
    if_neg (lt_irrefl _), min_eq_right hpi.le]

/-- C314 is false of the code: a well that turns over the top of its circle, with a level every 1.  The
station for the level 1 is at the first station, at the depth 0. -/
theorem C314_wrong_depth : ∃ a b : Pt, Joined a b ∧ a.md = 0 ∧ a.pos.z = 0 ∧ b.pos.z = 1 ∧
    ∀ fuel, 2 ≤ fuel → nodesN Rt.isclose 1 fuel none [a, b]
      = some (.ok [orig a, { a with interp := true }, orig b]) := by
  have hpi := pi_pos
  have h3pi := pi_gt_three
  have h3 : √3 * √3 = (3 : ℝ) := mul_self_sqrt (by norm_num)
  obtain ⟨b0, hb0⟩ : ∃ b0 : Pt, b0 = ⟨π / 3, tangent (π / 6) π, 0, false⟩ := ⟨_, rfl⟩
  obtain ⟨a, ha⟩ : ∃ a : Pt, a = ⟨0, tangent (π / 6) 0, 0, false⟩ := ⟨_, rfl⟩
  obtain ⟨b, hb⟩ : ∃ b : Pt, b = ⟨π / 3, tangent (π / 6) π,
    a.pos + minCurveStep (π / 3 - a.md) a.st.inc a.st.azi b0.st.inc b0.st.azi, false⟩ := ⟨_, rfl⟩
  have hbst : b.st = b0.st := by rw [hb, hb0]; rfl
  have va : a.vec = tangent (π / 6) 0 := by rw [ha]
  have vb : b.vec = tangent (π / 6) π := by rw [hb]
  have ma : a.md = 0 := by rw [ha]
  have mb : b.md = π / 3 := by rw [hb]
  have pa : a.pos = 0 := by rw [ha]
  have za : a.pos.z = 0 := by rw [pa]; rfl
  have ua : a.vec.IsUnit := by rw [va]; exact tangent_unit _ _
  have ub : b.vec.IsUnit := by rw [vb]; exact tangent_unit _ _
  have hdog : dogleg2 a.st b.st = π / 3 :=
    (dogleg_of_vecs a b (π / 6) 0 (π / 6) π va vb).trans dogleg_w
  have hstep : (minCurveStep (b.md - a.md) a.st.inc a.st.azi b.st.inc b.st.azi).z = 1 := by
    rw [minCurveStep_congr ((st_tangent ua).trans va) ((st_tangent ub).trans vb), ma, mb]
    exact step_w
  have hj : Joined a b := ⟨by rw [ma, mb]; positivity, by rw [hdog]; linarith, ua, ub, by
    rw [hbst, mb, hb]⟩
  have zb : b.pos.z = 1 := by rw [hj.pos, V3.add_z, za, hstep, zero_add]
  have hfar : ¬ Rt.isclose a.md b.md := by
    unfold Rt.isclose
    rw [ma, mb, zero_sub, abs_neg, abs_of_pos (by positivity)]
    norm_num
    linarith
  have hnode : getNodeTvd a b 1 (orig a) = .ok { a with interp := true } := by
    have hz2 : (a.pos + minCurveStep (b.md - a.md) a.st.inc a.st.azi b.st.inc b.st.azi).z = 1 := by
      rw [V3.add_z, za, hstep, zero_add]
    have hi : interval [(0 : ℝ), 1] 1 = (0, 1) := by
      norm_num [interval, searchsortedRight, bisectRight]
    have hk : coeffs 1 (cos (π / 6)) (cos (π / 6)) (π / 3) (1 - 0) (π / 3 - 0)
        = (3 / 4, -(√3 / 4), √3 / 4) := by
      simp only [coeffs, cos_pi_div_six, sin_pi_div_three, cos_pi_div_three, Prod.mk.injEq]
      refine ⟨by linarith, by ring, ?_⟩
      rw [sub_zero, sub_zero]
      field_simp
      ring
    have hd : distanceFrom 1 a.st 0 a.st b.st 0 1 1 = .ok 0 := by
      unfold distanceFrom
      simp only [getVec_z, hdog]
      have m1 : a.st.md = 0 := ma
      have m2 : b.st.md = π / 3 := mb
      rw [if_neg (by positivity), cos_inc_of_vec a _ _ va, cos_inc_of_vec b _ _ vb, m1, m2, hk]
      simp only [solveAngle_w]
      rw [zero_div, zero_mul, sub_zero, if_pos (by linarith), sub_zero]
    obtain ⟨nd, hnd, n1, n2, n3, -⟩ := interpolateSurvey_some
      (sv := ⟨[a.st, b.st], [a.pos, a.pos + minCurveStep (b.md - a.md) a.st.inc a.st.azi b.st.inc
        b.st.azi], none⟩) (i := 0) (s1 := a.st) (s2 := b.st) (p1 := a.pos) 0 0 rfl rfl rfl
    have hm : nd.md = a.md := by rw [n1]; exact add_zero _
    unfold getNodeTvd
    have ho : (orig a).st = a.st := rfl
    have hop : (orig a).pos = a.pos := rfl
    simp only [ho, hop]
    rw [hz2, za, hi, hd]
    simp only [hnd]
    rw [hm, n2, n3, interp_start_vec hj, interpPosNev_zero]
  refine ⟨a, b, hj, ma, za, zb, fun fuel hf => ?_⟩
  obtain ⟨k, rfl⟩ := Nat.exists_eq_add_of_le' hf
  have hoa : (⟨a.md, a.vec, a.pos, false⟩ : Pt) = a := by rw [ha]
  have hob : (⟨b.md, b.vec, b.pos, false⟩ : Pt) = b := by rw [hb]
  have hnode' : getNodeTvd a b 1 a = .ok { a with interp := true } := hnode
  simp only [nodesN, sweepN, Option.getD_none, orig, hoa, hob]
  rw [show k + 2 = (k + 1) + 1 by omega, intervalN, if_neg hfar, za, zb,
    if_neg (by norm_num), if_pos (by norm_num), zero_add, hnode']
  simp only
  rw [intervalN, if_neg hfar]
  simp only [za, zb]
  rw [if_neg (by norm_num), if_neg (by norm_num)]
  simp [sweepN, hob]

end Welleng.Props
