import Verif.Props.ClosestPoint
import Verif.Props.Clearance
import Verif.Props.Refine

/-! C335: reference and offset well exchanged. -/

namespace Welleng.Props

open Real Welleng Spec Clr Err

/-- The same two points with reference and offset exchanged. -/
def exchanged (p : Pair) : Pair :=
  { p with ref := p.off, off := p.ref, refCov := p.offCov, offCov := p.refCov, Rr := p.Ro, Ro := p.Rr }

/-- C335, partial: for one pair of points every reported quantity is the same if reference and offset are
exchanged. -/
theorem C335_pair_partial (p : Pair) : separation (exchanged p) = separation p := by
  have hd : distanceCc p.off p.ref = distanceCc p.ref p.off := by
    unfold distanceCc
    congr 1
    exact Finset.sum_congr rfl fun i _ => by ring
  simp only [separation, exchanged, hd]
  rw [add_comm p.Ro p.Rr, add_comm (pcr (unitDelta p.off p.ref) p.offCov ^ 2)]

/-- A vertical well of 100 m. -/
noncomputable def plumb : List Station := [⟨0, 0, 0⟩, ⟨100, 0, 0⟩]

/-- A level well of 100 m to the north. -/
noncomputable def level : List Station := [⟨0, π / 2, 0⟩, ⟨100, π / 2, 0⟩]

theorem straight_interp {i m1 m2 : ℝ} (h0 : 0 ≤ i) (h1 : i ≤ π) (a : V3) (x : ℝ) :
    interpPosNev a ⟨m1, i, 0⟩ ⟨m2, i, 0⟩ x = a + x • tangent i 0 := by
  have e : dogleg2 ⟨m1, i, 0⟩ ⟨m2, i, 0⟩ = 0 := by
    rw [dogleg2_same_azi le_rfl (by linarith)]; ring
  unfold interpPosNev interpAngles
  rw [if_pos e, minCurveStep_same rfl]

theorem straight_dogleg {i m1 m2 : ℝ} (h0 : 0 ≤ i) (h1 : i ≤ π) :
    dogleg2 ⟨m1, i, 0⟩ ⟨m2, i, 0⟩ < π := by
  rw [dogleg2_same_azi le_rfl (by linarith), sub_self]
  exact pi_pos

/-- The points of a straight well of two stations. -/
theorem straight_on {i : ℝ} (h0 : 0 ≤ i) (h1 : i ≤ π) {sx sn : V3} {off : SurveyG} {xyz : List V3}
    (h : surveyG [⟨0, i, 0⟩, ⟨100, i, 0⟩] sx sn .meters = .ok (off, xyz)) (j : ℕ) (x : ℝ) (q : V3) :
    OnWell [⟨0, i, 0⟩, ⟨100, i, 0⟩] off.nev j x q ↔ j = 0 ∧ 0 ≤ x ∧ x ≤ 100 ∧ q = sn + x • tangent i 0 := by
  obtain ⟨hst, hxyz, hnev, -⟩ := surveyG_st h
  have e0 : off.nev[0]? = some sn := by
    rw [hnev, hxyz, positions_cons2]
    simp only [List.map_cons, List.getElem?_cons_zero, Option.some.injEq]
    ext <;> simp [getNev]
  constructor
  · rintro ⟨a, b, p, ha, hb, hp, x0, x1, rfl⟩
    match j, ha, hb, hp with
    | 0, ha, hb, hp =>
      simp only [List.getElem?_cons_zero, Option.some.injEq, List.getElem?_cons_succ] at ha hb
      subst ha hb
      rw [e0] at hp
      injection hp with hp
      subst hp
      exact ⟨rfl, x0, by simpa using x1, straight_interp h0 h1 _ _⟩
    | 1, ha, hb, hp => simp at hb
    | j + 2, ha, hb, hp => simp at ha
  · rintro ⟨rfl, x0, x1, rfl⟩
    exact ⟨_, _, _, rfl, rfl, e0, x0, by simpa using x1, (straight_interp h0 h1 _ _).symm⟩

/-- C335 is false of a whole run: for a vertical well and a level well that starts 5 m beside its middle,
no distance reported for the stations of the vertical well is below 50 m; with reference and offset
exchanged one of them is at most 6 m.  The optimiser is any that finds minima to within 1 m. -/
theorem C335_run_differs : ∃ (a b : SurveyG) (xa xb : List V3),
    surveyG plumb 0 0 .meters = .ok (a, xa) ∧
    surveyG level 0 ⟨5, 0, 50⟩ .meters = .ok (b, xb) ∧
    ∀ (opt : Minimiser) (f : ℕ → V3), FindsMinimum 1 opt →
      (∀ p ∈ a.nev, ∃ c, closestPoint opt b f p = some c ∧ 50 ≤ c.dist) ∧
      ∃ p ∈ b.nev, ∃ c, closestPoint opt a f p = some c ∧ c.dist ≤ 6 := by
  have hpi := pi_pos
  obtain ⟨⟨a, xa⟩, ha⟩ := surveyG_ok (st := plumb) 0 0 (u := .meters) (by simp) (by simp [plumb])
  obtain ⟨⟨b, xb⟩, hb⟩ := surveyG_ok (st := level) 0 ⟨5, 0, 50⟩ (u := .meters) (by simp) (by simp [level])
  have oa := straight_on le_rfl hpi.le (by exact ha)
  have ob := straight_on (i := π / 2) (by positivity) (by linarith) (by exact hb)
  have sa := surveyG_st ha
  have sb := surveyG_st hb
  have na : a.nev = [0, ⟨0, 0, 100⟩] := by
    have d : deltaXyz ⟨0, 0, 0⟩ ⟨100, 0, 0⟩ = ⟨0, 0, 100⟩ := by
      rw [deltaXyz_eq, minCurveStep_same rfl]
      ext <;> simp [swap, tangent]
    rw [sa.2.2.1, sa.2.1, plumb, positions_cons2, d]
    simp [positions, pairwise, cumsumFrom, getNev]
    ext <;> simp
  have nb : (⟨5, 0, 50⟩ : V3) ∈ b.nev := by
    rw [sb.2.2.1, sb.2.1, level, positions_cons2]
    refine List.mem_map.mpr ⟨_, List.mem_cons_self, ?_⟩
    ext <;> simp [getNev]
  refine ⟨a, b, xa, xb, ha, hb, fun opt f hopt => ⟨fun p hp => ?_, ⟨5, 0, 50⟩, nb, ?_⟩⟩
  · obtain ⟨c, h1, h2, -, h3, -⟩ := C157_closest_point hb (by simp [level])
      (by
        intro i s t hs ht
        match i, hs, ht with
        | 0, hs, ht =>
          simp only [level, List.getElem?_cons_zero, Option.some.injEq, List.getElem?_cons_succ] at hs ht
          subst hs ht
          exact straight_dogleg (by positivity) (by linarith)
        | 1, hs, ht => simp [level] at ht
        | i + 2, hs, ht => simp [level] at hs) hopt f p
    refine ⟨c, h1, ?_⟩
    obtain ⟨-, x0, x1, e⟩ := (ob _ _ _).mp h2
    rw [h3, e]
    refine le_sqrt_of_sq_le ?_
    rw [na] at hp
    have ez : ((⟨5, 0, 50⟩ : V3) + c.x • tangent (π / 2) 0 - p).z = 50 - p.z := by simp [tangent]
    have hz : (50 - p.z) * (50 - p.z) = 2500 := by
      rcases List.mem_cons.mp hp with rfl | hp
      · norm_num
      · rw [List.mem_singleton.mp hp]; norm_num
    set w := (⟨5, 0, 50⟩ : V3) + c.x • tangent (π / 2) 0 - p
    unfold V3.dot
    rw [ez, hz]
    nlinarith [mul_self_nonneg w.x, mul_self_nonneg w.y]
  · obtain ⟨c, h1, h2, h5, h3, -, h4⟩ := C157_closest_point ha (by simp [plumb])
      (by
        intro i s t hs ht
        match i, hs, ht with
        | 0, hs, ht =>
          simp only [plumb, List.getElem?_cons_zero, Option.some.injEq, List.getElem?_cons_succ] at hs ht
          subst hs ht
          exact straight_dogleg le_rfl hpi.le
        | 1, hs, ht => simp [plumb] at ht
        | i + 2, hs, ht => simp [plumb] at hs) hopt f ⟨5, 0, 50⟩
    refine ⟨c, h1, ?_⟩
    obtain ⟨hj, -⟩ := (oa _ _ _).mp h2
    have h := h4 0 50 ⟨0, 0, 50⟩ (by
      rw [hj] at h5
      rcases h5 with h5 | h5
      · exact .inl h5.symm
      · exact .inr h5.symm) ((oa _ _ _).mpr ⟨rfl, by norm_num, by norm_num, by ext <;> simp [tangent]⟩)
    have e : V3.norm ((⟨0, 0, 50⟩ : V3) - ⟨5, 0, 50⟩) = 5 := by
      unfold V3.norm V3.dot
      simp
    rw [e] at h
    linarith

/-! A pair of points to which the partial theorem applies: 10 m apart, with different uncertainties and
holes. -/

example : separation ⟨![10, 0, 0], ![0, 0, 0], 0, 1, 0.2, 0.3, 3.5, 0.5, 0.3⟩ =
    separation ⟨![0, 0, 0], ![10, 0, 0], 1, 0, 0.3, 0.2, 3.5, 0.5, 0.3⟩ :=
  C335_pair_partial ⟨![0, 0, 0], ![10, 0, 0], 1, 0, 0.3, 0.2, 3.5, 0.5, 0.3⟩

end Welleng.Props
