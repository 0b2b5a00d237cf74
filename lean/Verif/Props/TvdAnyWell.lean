import Verif.Props.InterpTvd
import Mathlib.Analysis.Real.Pi.Bounds
import Mathlib.Data.List.GetD

/-! C313: vertical depths on wells that do not only get deeper. -/

namespace Welleng.Props

open Real Welleng Spec Tvd

variable {st : List Station} {sx sn : V3} {u : LenUnit} {sv : SurveyG} {xyz : List V3}

/-- C313 (partial): on any well, however it rises and falls, every vertical depth from that of its
first station to above that of its last is found, between two neighbouring stations whose vertical
depths enclose it. -/
theorem C313_any_well_partial (h : surveyG st sx sn u = .ok (sv, xyz)) (f : ℕ → V3)
    (hsort : ∀ i a b, st[i]? = some a → st[i + 1]? = some b → a.md < b.md)
    (hpi : ∀ i a b, st[i]? = some a → st[i + 1]? = some b → dogleg2 a b < π)
    {first last : V3} (hf : sv.nev[0]? = some first) (hl : sv.nev.getLast? = some last)
    {tvd : ℝ} (h0 : first.z ≤ tvd) (h1 : tvd < last.z) :
    ∃ i s1 s2 p1 p2 node, st[i]? = some s1 ∧ st[i + 1]? = some s2 ∧ sv.nev[i]? = some p1 ∧
      sv.nev[i + 1]? = some p2 ∧ p1.z ≤ tvd ∧ tvd < p2.z ∧
      interpolateTvd sv f tvd = .ok node ∧ s1.md ≤ node.md ∧ node.md ≤ s2.md ∧
      node.vec = tangent (interpAngles s1 s2 (node.md - s1.md)).1
        (interpAngles s1 s2 (node.md - s1.md)).2 ∧
      node.pos = interpPosNev p1 s1 s2 (node.md - s1.md) := by
  obtain ⟨hst, hxyz, hnev, hlen⟩ := surveyG_st h
  have hnl : sv.nev.length = st.length := by rw [hnev, hxyz]; simp [positions_length]
  obtain ⟨i, z1, z2, hi, g1, g2, b1, b2⟩ := interval_bracket_any (tvds := sv.nev.map V3.z)
    (tvd := tvd) (lo := first.z) (hi := last.z) (by rw [List.getElem?_map, hf]; rfl)
    (by rw [List.getLast?_map, hl]; rfl) h0 h1
  rw [List.getElem?_map, Option.map_eq_some_iff] at g1 g2
  obtain ⟨p1, e3, rfl⟩ := g1
  obtain ⟨p2, e4, rfl⟩ := g2
  have hil : i + 1 < st.length := by
    have := (List.getElem?_eq_some_iff.mp e4).1; omega
  have e1 : st[i]? = some st[i] := List.getElem?_eq_getElem (by omega)
  have e2 : st[i + 1]? = some st[i + 1] := List.getElem?_eq_getElem hil
  obtain ⟨x, hx, x0, x1⟩ := distance_complete (hsort i _ _ e1 e2) (hpi i _ _ e1 e2)
    (nev_step_z h e1 e2 e3 e4) b1 b2.le (lt_of_le_of_lt b1 b2)
  obtain ⟨nd, hnd, n1, n2, n3, n4⟩ := interpolateSurvey_some (sv := sv) (f i) x
    (by rw [hst]; exact e1) (by rw [hst]; exact e2) e3
  refine ⟨i, _, _, p1, p2, { nd with interpolated := decide (x > 0) }, e1, e2, e3, e4, b1, b2,
    ?_, ?_, ?_, ?_, ?_⟩
  · unfold interpolateTvd
    simp only [hi]
    rw [hst, e1, e2, e3, e4]
    simp only [hx, hnd]
  · simp only [n1]; linarith
  · simp only [n1]; linarith
  · simp only [n1, n2, add_sub_cancel_left]
  · simp only [n1, n3, add_sub_cancel_left]

/-- On a descending list the search always lands on the last two entries. -/
theorem interval_descending {tvds : List ℝ} (tvd : ℝ)
    (hdesc : ∀ (i : ℕ) (a b : ℝ), tvds[i]? = some a → tvds[i + 1]? = some b → b < a) :
    (interval tvds tvd).1 = tvds.length - 2 := by
  obtain ⟨hle, hb, ha⟩ := searchsortedRight_spec tvds tvd
  unfold interval
  simp only
  by_cases hk : searchsortedRight tvds tvd = tvds.length
  · rw [if_pos hk]
  by_cases hk0 : searchsortedRight tvds tvd = 0
  · rw [if_neg hk, if_pos hk0]
  exfalso
  obtain ⟨a, g1⟩ : ∃ a, tvds[searchsortedRight tvds tvd - 1]? = some a :=
    ⟨_, List.getElem?_eq_getElem (by omega)⟩
  obtain ⟨b, g2⟩ : ∃ b, tvds[searchsortedRight tvds tvd - 1 + 1]? = some b :=
    ⟨_, List.getElem?_eq_getElem (by omega)⟩
  have h1 := hdesc _ _ _ g1 g2
  rw [show searchsortedRight tvds tvd - 1 + 1 = searchsortedRight tvds tvd by omega] at g2
  have h2 := hb _ (by omega) g1
  have h3 := ha _ g2
  linarith

/-- C313, what happens on a rising well: whatever vertical depth is asked for, only the piece between
the last two stations is ever looked at. -/
theorem C313_rising_last_piece (h : surveyG st sx sn u = .ok (sv, xyz)) (f : ℕ → V3)
    (hdesc : ∀ (i : ℕ) (p q : V3), sv.nev[i]? = some p → sv.nev[i + 1]? = some q → q.z < p.z)
    {tvd : ℝ} {node : NodeOut} (hn : interpolateTvd sv f tvd = .ok node) :
    ∃ s1 s2 p1 x, st[st.length - 2]? = some s1 ∧ st.getLast? = some s2 ∧
      sv.nev[st.length - 2]? = some p1 ∧ node.md = s1.md + x ∧
      node.pos = interpPosNev p1 s1 s2 x := by
  obtain ⟨i, e, s1, s2, p1, p2, x, hi, e1, e2, e3, e4, hx, hm, hp, -⟩ := interpolateTvd_inv hn
  obtain ⟨hst, hxyz, hnev, hlen⟩ := surveyG_st h
  have hnl : sv.nev.length = st.length := by rw [hnev, hxyz]; simp [positions_length]
  have hd := interval_descending (tvds := sv.nev.map V3.z) tvd (by
    intro i a b ha hb
    rw [List.getElem?_map, Option.map_eq_some_iff] at ha hb
    obtain ⟨p, hp, rfl⟩ := ha
    obtain ⟨q, hq, rfl⟩ := hb
    exact hdesc i p q hp hq)
  rw [hi, List.length_map, hnl] at hd
  simp only at hd
  have hil : i + 1 < st.length := by
    have := (List.getElem?_eq_some_iff.mp e4).1; omega
  rw [hst] at e1 e2
  refine ⟨s1, s2, p1, x, by rw [← hd]; exact e1, ?_, by rw [← hd]; exact e3, hm, hp⟩
  rw [List.getLast?_eq_getElem?, ← e2]
  congr 1
  omega

/-! ### A lateral that rises and then levels off -/

theorem dogleg_toe : dogleg2 ⟨0, 2 * π / 3, 0⟩ ⟨π / 6, π / 2, 0⟩ = π / 6 := by
  unfold dogleg2
  rw [getDogleg_eq_arccos]
  simp only [V3.dot, tangent, cos_zero, sin_zero, cos_pi_div_two, sin_pi_div_two]
  rw [show (2 * π / 3 : ℝ) = π - π / 3 by ring, sin_pi_sub, sin_pi_div_three]
  rw [show (√3 / 2 * 1 : ℝ) * (1 * 1) + √3 / 2 * 0 * (1 * 0) + cos (π - π / 3) * 0 = √3 / 2 by ring,
    ← cos_pi_div_six]
  have := pi_pos
  exact arccos_cos (by linarith) (by linarith)

theorem step_toe : (minCurveStep (π / 6 - 0) (2 * π / 3) 0 (π / 2) 0).z = -(tan (π / 12) / 2) := by
  have hd := dogleg_toe
  unfold dogleg2 at hd
  simp only at hd
  unfold minCurveStep
  rw [hd]
  have hpi := pi_pos
  simp only [minCurveStepRf, getRf]
  rw [if_neg (by positivity), cos_pi_div_two, show (2 * π / 3 : ℝ) = π - π / 3 by ring, cos_pi_sub,
    cos_pi_div_three, show π / 6 / 2 = π / 12 by ring]
  field_simp
  ring

/-- The three stations: rising at 120 degrees, level, and on along the level. -/
noncomputable def toeUp : List Station := [⟨0, 2 * π / 3, 0⟩, ⟨π / 6, π / 2, 0⟩, ⟨π / 6 + 1, π / 2, 0⟩]

/-- C313 is false: the lateral rises from vertical depth 0 to `-tan 15° / 2`, then runs level.  It
passes the vertical depth `-1/10` between its first two stations, but the search only looks at the
level piece, where it divides by zero. -/
theorem C313_passed_depth_not_found : ∃ sv xyz p1 p2,
    surveyG toeUp 0 0 .meters = .ok (sv, xyz) ∧ sv.nev[0]? = some p1 ∧ sv.nev[1]? = some p2 ∧
      p2.z < (-(1 / 10) : ℝ) ∧ (-(1 / 10) : ℝ) < p1.z ∧
      interpolateTvd sv (fun _ => 0) (-(1 / 10)) = .error .notFinite := by
  have hpi := pi_gt_three
  obtain ⟨sv, xyz, h⟩ : ∃ sv xyz, surveyG toeUp 0 0 .meters = .ok (sv, xyz) := ⟨_, _, rfl⟩
  obtain ⟨h1, h2, h3, -⟩ := surveyG_st h
  have e1 : ∃ p1, sv.nev[0]? = some p1 ∧ p1.z = 0 := by
    rw [h3, h2]; exact ⟨_, rfl, by simp [getNev]⟩
  obtain ⟨p1, e1, z1⟩ := e1
  obtain ⟨p2, e2⟩ : ∃ p2, sv.nev[1]? = some p2 := by rw [h3, h2]; exact ⟨_, rfl⟩
  obtain ⟨p3, e3⟩ : ∃ p3, sv.nev[2]? = some p3 := by rw [h3, h2]; exact ⟨_, rfl⟩
  have z2 := nev_step_z h (i := 0) (s1 := ⟨0, 2 * π / 3, 0⟩) (s2 := ⟨π / 6, π / 2, 0⟩) rfl rfl e1 e2
  simp only at z2
  rw [step_toe, z1, sub_zero] at z2
  have z3 := nev_step_z h (i := 1) (s1 := ⟨π / 6, π / 2, 0⟩) (s2 := ⟨π / 6 + 1, π / 2, 0⟩) rfl rfl
    e2 e3
  simp only at z3
  rw [minCurveStep_same rfl] at z3
  simp only [V3.smul_z, tangent, cos_pi_div_two, mul_zero] at z3
  have hz3 : p3.z = p2.z := by linarith
  have ht : π / 12 < tan (π / 12) := lt_tan (by positivity) (by linarith)
  have hp2 : p2.z < -(1 / 10) := by rw [z2]; linarith
  have hnev : sv.nev.map V3.z = [0, p2.z, p2.z] := by
    have hl : sv.nev.length = 3 := by rw [h3, h2]; simp [positions_length, toeUp]
    match hs : sv.nev, hl with
    | [a, b, c], _ =>
      rw [hs] at e1 e2 e3
      simp at e1 e2 e3
      subst e1 e2 e3
      simp [z1, hz3]
  have hi : interval (sv.nev.map V3.z) (-(1 / 10)) = (1, 1) := by
    rw [hnev]
    have h0 : p2.z ≤ -10⁻¹ := by norm_num at hp2 ⊢; linarith
    simp only [interval, searchsortedRight, bisectRight, List.length_cons, List.length_nil]
    simp [h0]
  refine ⟨sv, xyz, p1, p2, h, e1, e2, hp2, by rw [z1]; norm_num, ?_⟩
  unfold interpolateTvd
  simp only [hi, e2]
  rw [h1]
  rw [show (1 : ℕ) + 1 = 2 from rfl, e3]
  simp only [toeUp, List.getElem?_cons_zero, List.getElem?_cons_succ]
  have hdl : dogleg2 ⟨π / 6, π / 2, 0⟩ ⟨π / 6 + 1, π / 2, 0⟩ = 0 := by
    unfold dogleg2; rw [getDogleg_eq_arccos, tangent_unit, arccos_one]
  unfold distance
  simp only [hdl, if_true]
  rw [if_pos (by linarith)]

/-- Non-vacuity of the first theorem: a well that first rises, turns down and ends below its start
meets every hypothesis at the vertical depth 1. -/
example : ∃ sv xyz first last, surveyG [⟨0, 2 * π / 3, 0⟩, ⟨1, 2 * π / 3, 0⟩, ⟨2, π / 3, 0⟩,
      ⟨6, π / 3, 0⟩] 0 0 .meters = .ok (sv, xyz) ∧
    sv.nev[0]? = some first ∧ sv.nev.getLast? = some last ∧ first.z ≤ 1 ∧ 1 < last.z ∧
    (∃ p q, sv.nev[0]? = some p ∧ sv.nev[1]? = some q ∧ q.z < p.z) ∧
    dogleg2 ⟨1, 2 * π / 3, 0⟩ ⟨2, π / 3, 0⟩ < π := by
  have hpi := pi_pos
  obtain ⟨sv, xyz, h⟩ : ∃ sv xyz, surveyG [⟨0, 2 * π / 3, 0⟩, ⟨1, 2 * π / 3, 0⟩, ⟨2, π / 3, 0⟩,
      ⟨6, π / 3, 0⟩] 0 0 .meters = .ok (sv, xyz) := ⟨_, _, rfl⟩
  obtain ⟨h1, h2, h3, -⟩ := surveyG_st h
  obtain ⟨p1, e1, z1⟩ : ∃ p1, sv.nev[0]? = some p1 ∧ p1.z = 0 := by
    rw [h3, h2]; exact ⟨_, rfl, by simp [getNev]⟩
  obtain ⟨p2, e2⟩ : ∃ p2, sv.nev[1]? = some p2 := by rw [h3, h2]; exact ⟨_, rfl⟩
  obtain ⟨p3, e3⟩ : ∃ p3, sv.nev[2]? = some p3 := by rw [h3, h2]; exact ⟨_, rfl⟩
  obtain ⟨p4, e4⟩ : ∃ p4, sv.nev[3]? = some p4 := by rw [h3, h2]; exact ⟨_, rfl⟩
  have hc : cos (2 * π / 3) = -(1 / 2) := by
    rw [show (2 * π / 3 : ℝ) = π - π / 3 by ring, cos_pi_sub, cos_pi_div_three]
  have z2 := nev_step_z h (i := 0) (s1 := ⟨0, 2 * π / 3, 0⟩) (s2 := ⟨1, 2 * π / 3, 0⟩) rfl rfl e1 e2
  have z3 := nev_step_z h (i := 1) (s1 := ⟨1, 2 * π / 3, 0⟩) (s2 := ⟨2, π / 3, 0⟩) rfl rfl e2 e3
  have z4 := nev_step_z h (i := 2) (s1 := ⟨2, π / 3, 0⟩) (s2 := ⟨6, π / 3, 0⟩) rfl rfl e3 e4
  simp only at z2 z3 z4
  rw [minCurveStep_same rfl] at z2 z4
  simp only [minCurveStep, minCurveStepRf, V3.smul_z, tangent, hc, cos_pi_div_three] at z2 z3 z4
  have hl : sv.nev.getLast? = some p4 := by
    rw [List.getLast?_eq_getElem?]
    have : sv.nev.length = 4 := by rw [h3, h2]; simp [positions_length]
    rw [this]; exact e4
  refine ⟨sv, xyz, p1, p4, h, e1, hl, by rw [z1]; norm_num, ?_, ⟨p1, p2, e1, e2, ?_⟩, ?_⟩
  · have : p3.z - p2.z = 0 := by rw [z3]; ring
    linarith
  · linarith
  · unfold dogleg2
    rw [getDogleg_eq_arccos]
    refine lt_of_le_of_lt (arccos_le_pi_div_two.mpr ?_) (by linarith)
    simp only [V3.dot, tangent, hc, cos_pi_div_three, cos_zero, sin_zero]
    rw [show (2 * π / 3 : ℝ) = π - π / 3 by ring, sin_pi_sub, sin_pi_div_three]
    have : √3 * √3 = (3 : ℝ) := mul_self_sqrt (by norm_num)
    nlinarith

/-- Non-vacuity of the second theorem: a straight rising well, on which every depth is looked for
between its last two stations. -/
example : ∃ sv xyz node, surveyG [⟨0, π, 0⟩, ⟨100, π, 0⟩] 0 0 .meters = .ok (sv, xyz) ∧
    (∀ (i : ℕ) (p q : V3), sv.nev[i]? = some p → sv.nev[i + 1]? = some q → q.z < p.z) ∧
    interpolateTvd sv (fun _ => 0) (-40) = .ok node := by
  obtain ⟨sv, xyz, h, h1, h2⟩ := two_station_survey ⟨0, π, 0⟩ ⟨100, π, 0⟩
  have hst : (minCurveStep (100 - 0) π 0 π 0).z = -100 := by
    rw [minCurveStep_same rfl]; simp [tangent]
  simp only at h2
  generalize minCurveStep (100 - 0) π 0 π 0 = w at h2 hst
  have hdl : dogleg2 ⟨0, π, 0⟩ ⟨100, π, 0⟩ = 0 := by
    unfold dogleg2; rw [getDogleg_eq_arccos, tangent_unit, arccos_one]
  have hd : ∀ (i : ℕ) (p q : V3), sv.nev[i]? = some p → sv.nev[i + 1]? = some q → q.z < p.z := by
    intro i p q hp hq
    rw [h2] at hp hq
    match i with
    | 0 => simp at hp hq; subst hp; subst hq; rw [hst]; simp
    | i + 1 => simp at hq
  have hi := interval_descending (tvds := sv.nev.map V3.z) (-40) (by
    intro i a b ha hb
    rw [List.getElem?_map, Option.map_eq_some_iff] at ha hb
    obtain ⟨p, hp, rfl⟩ := ha
    obtain ⟨q, hq, rfl⟩ := hb
    exact hd i p q hp hq)
  rw [List.length_map, h2] at hi
  simp only [List.length_cons, List.length_nil, Nat.zero_add, Nat.reduceAdd, Nat.sub_self] at hi
  have e3 : sv.nev[0]? = some 0 := by rw [h2]; rfl
  have e4 : sv.nev[0 + 1]? = some w := by rw [h2]; rfl
  obtain ⟨nd, hnd, -⟩ := interpolateSurvey_some (sv := sv) 0
    (((-40 : ℝ) - 0) / (-100 - 0) * (100 - 0)) (i := 0)
    (s1 := ⟨0, π, 0⟩) (s2 := ⟨100, π, 0⟩) (by rw [h1]; rfl) (by rw [h1]; rfl) e3
  refine ⟨sv, xyz, { nd with interpolated := decide (((-40 : ℝ) - 0) / (-100 - 0) * (100 - 0) > 0) },
    h, hd, ?_⟩
  unfold interpolateTvd
  rw [← h2] at hi
  simp only [hi, e3, e4]
  rw [h1]
  simp only [List.getElem?_cons_zero, List.getElem?_cons_succ, distance, hdl, if_true, hst,
    show (0 : V3).z = 0 from rfl]
  rw [if_neg (by norm_num)]
  simp only [hnd]

end Welleng.Props
