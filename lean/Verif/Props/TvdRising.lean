import Verif.Props.TvdCausal
import Verif.Props.ClosestPoint

/-! C403: a vertical depth of a well that is drilled on upwards (`/repo/welleng/survey.py`
1949-2066). -/

namespace Welleng.Props

open Real Welleng Tvd

/-- The U-shaped well drilled on upwards by 30 m in three steps. -/
noncomputable def uWellOn : List Station :=
  [⟨160 + 10 * π, π, 0⟩, ⟨170 + 10 * π, π, 0⟩, ⟨180 + 10 * π, π, 0⟩]

theorem straight_up (a b : ℝ) : minCurveStep (b - a) π 0 π 0 = ⟨0, 0, a - b⟩ := by
  rw [minCurveStep_same rfl]
  ext <;> simp [Spec.tangent]

theorem uWellOn_nev : ∃ sv xyz, surveyG (uWell ++ uWellOn) 0 0 .meters = .ok (sv, xyz) ∧
    sv.st = uWell ++ uWellOn ∧
    sv.nev = [⟨0, 0, 0⟩, ⟨0, 0, 100⟩, ⟨10, 0, 110⟩, ⟨20, 0, 100⟩, ⟨20, 0, 50⟩, ⟨20, 0, 40⟩,
      ⟨20, 0, 30⟩, ⟨20, 0, 20⟩] := by
  obtain ⟨xyz0, h0⟩ := uWell_nev
  obtain ⟨sv, xyz, h⟩ : ∃ sv xyz, surveyG (uWell ++ uWellOn) 0 0 .meters = .ok (sv, xyz) :=
    ⟨_, _, rfl⟩
  obtain ⟨a1, a2, a3, -⟩ := surveyG_st h
  refine ⟨sv, xyz, h, a1, ?_⟩
  obtain ⟨t, ht⟩ := (surveyG_drilled_on h0 h).2
  have hl : sv.nev.length = 8 := by
    rw [a3, List.length_map, a2, positions_length]; rfl
  rw [← ht] at hl
  obtain ⟨x, y, z, rfl⟩ : ∃ x y z, t = [x, y, z] := by
    match t, hl with
    | [x, y, z], _ => exact ⟨x, y, z, rfl⟩
  have s1 := nev_step h (j := 4) (a := ⟨150 + 10 * π, π, 0⟩) (b := ⟨160 + 10 * π, π, 0⟩)
    (p := ⟨20, 0, 50⟩) rfl rfl (by rw [← ht]; rfl)
  have s2 := nev_step h (j := 5) (a := ⟨160 + 10 * π, π, 0⟩) (b := ⟨170 + 10 * π, π, 0⟩)
    (p := x) rfl rfl (by rw [← ht]; rfl)
  have s3 := nev_step h (j := 6) (a := ⟨170 + 10 * π, π, 0⟩) (b := ⟨180 + 10 * π, π, 0⟩)
    (p := y) rfl rfl (by rw [← ht]; rfl)
  rw [← ht] at s1 s2 s3 ⊢
  simp only [straight_up] at s1 s2 s3
  have e1 : x = ⟨20, 0, 40⟩ := by
    have := Option.some.inj s1
    rw [show x = _ from this]
    ext <;> simp; norm_num
  have e2 : y = ⟨20, 0, 30⟩ := by
    have := Option.some.inj s2
    rw [show y = _ from this, e1]
    ext <;> simp; norm_num
  have e3 : z = ⟨20, 0, 20⟩ := by
    have := Option.some.inj s3
    rw [show z = _ from this, e2]
    ext <;> simp; norm_num
  rw [e1, e2, e3]
  rfl

theorem bisectRight_upper {l : List ℝ} {v : ℝ} {fuel lo hi : ℕ} (h : lo < hi)
    (hm : l.getD (lo + (hi - lo) / 2) 0 ≤ v) :
    bisectRight l v (fuel + 1) lo hi = bisectRight l v fuel (lo + (hi - lo) / 2 + 1) hi := by
  rw [bisectRight, if_pos h]
  exact if_pos hm

theorem interval_uTurn : interval [0, 100, 110, 100, 50, 40, 30, 20] 80 = (6, 1) := by
  have h : searchsortedRight [0, 100, 110, 100, 50, 40, 30, 20] 80 = 8 := by
    change bisectRight _ _ (7 + 1) 0 8 = 8
    rw [bisectRight_upper (by norm_num) (by change (50 : ℝ) ≤ 80; norm_num)]
    change bisectRight _ _ (6 + 1) 5 8 = 8
    rw [bisectRight_upper (by norm_num) (by change (30 : ℝ) ≤ 80; norm_num)]
    change bisectRight _ _ (5 + 1) 7 8 = 8
    rw [bisectRight_upper (by norm_num) (by change (20 : ℝ) ≤ 80; norm_num)]
    change bisectRight _ _ (4 + 1) 8 8 = 8
    rw [bisectRight, if_neg (by norm_num)]
  unfold interval
  rw [h]
  rfl

/-- What holds: C403 for wells whose stations get deeper and deeper. -/
theorem C403_same_node_partial {st more : List Station} {sx sn : V3} {u : LenUnit}
    {sv sv' : SurveyG} {xyz xyz' : List V3} (h : surveyG st sx sn u = .ok (sv, xyz))
    (h' : surveyG (st ++ more) sx sn u = .ok (sv', xyz'))
    (hdeep : (sv'.nev.map V3.z).Pairwise (· < ·)) (f : ℕ → V3) {tvd : ℝ} {top bottom : V3}
    (ht : sv.nev.head? = some top) (hb : sv.nev.getLast? = some bottom)
    (h0 : top.z ≤ tvd) (h1 : tvd < bottom.z) :
    interpolateTvd sv' f tvd = interpolateTvd sv f tvd :=
  C399_drilled_on h h' hdeep f ht hb h0 h1

/-- **C403** fails for a well that turns upwards: in a vertical hole of 100 m the vertical depth
80 m is found at the measured depth 80 m; after a U-turn and the way up it is found at
`120 + 10 π`, on the way up. -/
theorem C403_other_node : ∃ (st more : List Station) (sv sv' : SurveyG) (xyz xyz' : List V3),
    surveyG st 0 0 .meters = .ok (sv, xyz) ∧
    surveyG (st ++ more) 0 0 .meters = .ok (sv', xyz') ∧
    ∀ f : ℕ → V3, ∃ node node', interpolateTvd sv f 80 = .ok node ∧ node.md = 80 ∧
      interpolateTvd sv' f 80 = .ok node' ∧ node'.md = 120 + 10 * π := by
  have hpi := pi_pos
  obtain ⟨sv', xyz', h', hst, hnev⟩ := uWellOn_nev
  obtain ⟨sv, xyz, h, h1, h2⟩ := two_station_survey ⟨0, 0, 0⟩ ⟨100, 0, 0⟩
  have hs : minCurveStep (100 - 0) 0 0 0 0 = ⟨0, 0, 100⟩ := by
    rw [minCurveStep_same rfl]; ext <;> simp [Spec.tangent]
  simp only [hs] at h2
  refine ⟨[⟨0, 0, 0⟩, ⟨100, 0, 0⟩], uWell.drop 2 ++ uWellOn, sv, sv', xyz, xyz', h, h', ?_⟩
  intro f
  have d0 : ∀ a b i : ℝ, dogleg2 ⟨a, i, 0⟩ ⟨b, i, 0⟩ = 0 := by
    intro a b i
    rw [dogleg2_same_azi le_rfl (by linarith)]; ring
  have i1 : interval (sv.nev.map V3.z) 80 = (0, 1) := by
    rw [h2]
    norm_num [interval, searchsortedRight, bisectRight]
  have i2 : interval (sv'.nev.map V3.z) 80 = (6, 1) := by
    rw [hnev]
    exact interval_uTurn
  have c1 : distance 1 ⟨0, 0, 0⟩ ⟨100, 0, 0⟩ 0 100 80 = .ok 80 := by
    unfold distance
    rw [d0]
    norm_num
  have c2 : distance 1 ⟨170 + 10 * π, π, 0⟩ ⟨180 + 10 * π, π, 0⟩ 30 20 80 = .ok (-50) := by
    unfold distance
    rw [d0]
    norm_num
  obtain ⟨m, hm, hmd, -⟩ := interpolateSurvey_some (sv := sv) (i := 0) (s1 := ⟨0, 0, 0⟩)
    (s2 := ⟨100, 0, 0⟩) (p1 := 0) (f 0) 80 (by rw [h1]; rfl) (by rw [h1]; rfl) (by rw [h2]; rfl)
  obtain ⟨m', hm', hmd', -⟩ := interpolateSurvey_some (sv := sv') (i := 6)
    (s1 := ⟨170 + 10 * π, π, 0⟩) (s2 := ⟨180 + 10 * π, π, 0⟩) (p1 := ⟨20, 0, 30⟩) (f 6) (-50)
    (by rw [hst]; rfl) (by rw [hst]; rfl) (by rw [hnev]; rfl)
  refine ⟨{ m with interpolated := decide ((80 : ℝ) > 0) },
    { m' with interpolated := decide ((-50 : ℝ) > 0) }, ?_, ?_, ?_, ?_⟩
  · unfold interpolateTvd
    have g1 : sv.st[0]? = some ⟨0, 0, 0⟩ := by rw [h1]; rfl
    have g2 : sv.st[0 + 1]? = some ⟨100, 0, 0⟩ := by rw [h1]; rfl
    have g3 : sv.nev[0]? = some 0 := by rw [h2]; rfl
    have g4 : sv.nev[0 + 1]? = some ⟨0, 0, 100⟩ := by rw [h2]; rfl
    simp only [i1, g1, g2, g3, g4]
    rw [show distance 1 ⟨0, 0, 0⟩ ⟨100, 0, 0⟩ (0 : V3).z 100 80 = .ok 80 from c1]
    simp only [hm]
  · rw [show ({ m with interpolated := decide ((80 : ℝ) > 0) } : NodeOut).md = m.md from rfl, hmd]
    norm_num
  · unfold interpolateTvd
    have g1 : sv'.st[6]? = some ⟨170 + 10 * π, π, 0⟩ := by rw [hst]; rfl
    have g2 : sv'.st[6 + 1]? = some ⟨180 + 10 * π, π, 0⟩ := by rw [hst]; rfl
    have g3 : sv'.nev[6]? = some ⟨20, 0, 30⟩ := by rw [hnev]; rfl
    have g4 : sv'.nev[6 + 1]? = some ⟨20, 0, 20⟩ := by rw [hnev]; rfl
    simp only [i2, g1, g2, g3, g4, c2, hm']
  · rw [show ({ m' with interpolated := decide ((-50 : ℝ) > 0) } : NodeOut).md = m'.md from rfl,
      hmd']
    simp only
    ring

end Welleng.Props
