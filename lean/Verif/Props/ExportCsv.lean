import Verif.Model.ExportCsv
import Verif.Props.SectionData

/-!
C269: the listing of control points that `export_csv` writes ends where the survey ends.
-/

namespace Welleng.Props

open Real Welleng Welleng.Sec Welleng.Spec

theorem listed_eq (l : List TurnPoint) : listed l = rebuilt l := rfl

/-- C269, what holds: whatever tolerance the optimiser returns, the listing ends exactly where the
survey ends, if with it the stretches between control points are single arcs or lines. -/
theorem C269_single_arcs_partial {minimize : (ℝ → Option ℝ) → ℝ} {tolerance : ℝ} {dlsCont : Bool}
    {around : ℝ → ℝ} {u v : LenUnit} {sv : ℕ → Row} {n : ℕ} {l : List TurnPoint} {start : V3}
    {out out' : MinCurveOut} {x : ℝ}
    (hx : minimize (objective tolerance dlsCont around u sv n) = x)
    (h : exportCsv minimize tolerance dlsCont around u sv n = some l)
    (hmd : ∀ k < n, (sv k).st.md < (sv (k + 1)).st.md)
    (harc : ∀ a b, a < b → b ≤ n → (∀ k, a < k → k < b → Continues x x dlsCont around sv k) →
      OnArc (fun k => (sv k).st) a b)
    (hout : minCurve ((List.range (n + 1)).map fun k => (sv k).st) start v = .ok out)
    (hout' : minCurve (listed l) start v = .ok out') :
    ∃ p, out.poss.getLast? = some p ∧ out'.poss.getLast? = some p := by
  unfold exportCsv at h
  dsimp only at h
  rw [hx] at h
  rw [listed_eq] at hout'
  obtain ⟨hl, hp⟩ := C128_rebuild_partial h (fun k hk => (hmd k hk).le) harc hout hout'
  have hlast : (rebuilt l).getLast? = some (sv n).st := by
    unfold getSections at h
    split_ifs at h with hn
    simp only [Option.some.injEq] at h
    subst h
    rw [rebuilt_eq, starts, List.map_append]
    simp
  have hmono : ∀ j k, j < k → k ≤ n → (sv j).st.md < (sv k).st.md := by
    intro j k hjk
    induction k, hjk using Nat.le_induction with
    | base => intro hk; exact hmd j (by omega)
    | succ k hk' ih => intro hk; exact (ih (by omega)).trans (hmd k (by omega))
  have hne : (rebuilt l).length ≠ 0 := by
    intro h0
    rw [List.length_eq_zero_iff.mp h0] at hlast
    simp at hlast
  rw [List.getLast?_eq_getElem?] at hlast
  obtain ⟨k, hk, hs, p, hp1, hp2⟩ := hp _ _ hlast
  have hkn : k = n := by
    by_contra hc
    have := hmono k n (by omega) le_rfl
    rw [hs] at this
    exact lt_irrefl _ this
  subst hkn
  refine ⟨p, ?_, ?_⟩
  · have hlen : out.poss.length = k + 1 := by
      rw [minCurve_poss hout, positions_length]
      simp
    rw [List.getLast?_eq_getElem?, hlen]
    exact hp2
  · rw [List.getLast?_eq_getElem?, hl]
    exact hp1

theorem merged_continues_any (around : ℝ → ℝ) {x : ℝ} (hx : 0 ≤ x) :
    Continues x x false around mergedSurvey 1 := by
  have hp := pi_pos
  obtain ⟨e0, e1, e2⟩ := merged_stations
  refine ⟨?_, by simp⟩
  rw [show (1 : ℕ) - 1 = 0 from rfl, show (1 : ℕ) + 1 = 2 from rfl, e0, e1, e2,
    normal_planar (by positivity) (by linarith), normal_planar (by linarith) (by linarith)]
  simp [hx]

theorem merged_starts_any (around : ℝ → ℝ) {x : ℝ} (hx : 0 ≤ x) :
    starts (continuous x x false around mergedSurvey 2) 2 = [0, 2] := by
  have hlen : (continuous x x false around mergedSurvey 2).length + 1 = 2 :=
    continuous_length (by norm_num)
  have h := (continuous_false (rtol := x) (atol := x) (dlsCont := false) (around := around)
    (sv := mergedSurvey) (n := 2) (k := 1) (by norm_num) (by norm_num)).not.2
    (not_not.2 (merged_continues_any around hx))
  generalize continuous x x false around mergedSurvey 2 = c at hlen h
  match c, hlen with
  | [x], _ =>
    cases x with
    | false => simp at h
    | true => rfl

/-- C269 is false: for a survey of two arcs of different severity in one plane, of 100 and 200
metres, the listing ends more than 40 metres from the survey, whatever the tolerance asked for and
whatever tolerance the optimiser comes up with. -/
theorem C269_forty_metres (minimize : (ℝ → Option ℝ) → ℝ) (hmin : ∀ f, 0 ≤ minimize f)
    (tolerance : ℝ) (around : ℝ → ℝ) :
    ∃ l out out' p p', exportCsv minimize tolerance false around .meters mergedSurvey 2 = some l ∧
      minCurve ((List.range 3).map fun k => (mergedSurvey k).st) 0 .meters = .ok out ∧
      minCurve (listed l) 0 .meters = .ok out' ∧ out.poss.getLast? = some p ∧
      out'.poss.getLast? = some p' ∧ 40 < maxAbs (p' - p) := by
  have hp := pi_pos
  obtain ⟨e0, e1, e2⟩ := merged_stations
  unfold exportCsv
  dsimp only
  obtain ⟨x, hx⟩ : ∃ x, x = minimize (objective tolerance false around .meters mergedSurvey 2) :=
    ⟨_, rfl⟩
  have hx0 : 0 ≤ x := hx ▸ hmin _
  rw [← hx]
  have hl : rebuilt (sectionsOf .meters mergedSurvey 2
      (continuous x x false around mergedSurvey 2)) = [⟨0, 0, 0⟩, ⟨300, 2 * (π / 3), 0⟩] := by
    rw [rebuilt_eq, merged_starts_any around hx0]; simp [e0, e2]
  have hr : (List.range 3).map (fun k => (mergedSurvey k).st)
      = [⟨0, 0, 0⟩, ⟨100, π / 3, 0⟩, ⟨300, 2 * (π / 3), 0⟩] := by
    simp [List.range_succ, e0, e1, e2]
  obtain ⟨out, ho⟩ : ∃ out, minCurve ((List.range 3).map fun k => (mergedSurvey k).st) 0 .meters
      = .ok out := by rw [hr]; exact ⟨_, rfl⟩
  obtain ⟨out', ho'⟩ : ∃ out', minCurve (rebuilt (sectionsOf .meters mergedSurvey 2
      (continuous x x false around mergedSurvey 2))) 0 .meters = .ok out' := by
    rw [hl]; exact ⟨_, rfl⟩
  have hpos : out.poss.getLast? = some (0 + deltaXyz ⟨0, 0, 0⟩ ⟨100, π / 3, 0⟩
      + deltaXyz ⟨100, π / 3, 0⟩ ⟨300, 2 * (π / 3), 0⟩) := by
    rw [minCurve_poss ho, hr]
    simp only [positions, pairwise, cumsumFrom, List.getLast?_cons_cons, List.getLast?_singleton]
  have hpos' : out'.poss.getLast? = some (0 + deltaXyz ⟨0, 0, 0⟩ ⟨300, 2 * (π / 3), 0⟩) := by
    rw [minCurve_poss ho', hl]
    simp only [positions, pairwise, cumsumFrom, List.getLast?_cons_cons, List.getLast?_singleton]
  refine ⟨_, out, out', _, _, rfl, ho, ho', hpos, hpos', ?_⟩
  refine lt_of_lt_of_le ?_ ((le_max_right _ _).trans (le_max_right _ _))
  refine lt_of_lt_of_le ?_ (le_abs_self _)
  have d1 : dogleg2 ⟨0, 0, 0⟩ ⟨100, π / 3, 0⟩ = π / 3 := by
    rw [dogleg2_planar] <;> rw [abs_of_pos (by linarith)] <;> linarith
  have d2 : dogleg2 ⟨100, π / 3, 0⟩ ⟨300, 2 * (π / 3), 0⟩ = π / 3 := by
    rw [dogleg2_planar] <;> rw [abs_of_pos (by linarith)] <;> linarith
  have d3 : dogleg2 ⟨0, 0, 0⟩ ⟨300, 2 * (π / 3), 0⟩ = 2 * (π / 3) := by
    rw [dogleg2_planar] <;> rw [abs_of_pos (by linarith)] <;> linarith
  have c2 : cos (2 * (π / 3)) = -1 / 2 := by
    rw [cos_two_mul, cos_pi_div_three]; norm_num
  have h3 : 0 < √3 := by positivity
  have h3' : √3 * √3 = 3 := mul_self_sqrt (by norm_num)
  simp only [V3.sub_z, V3.add_z, V3.zero_z, zero_add]
  rw [step_z d1 (by positivity), step_z d2 (by positivity), step_z d3 (by positivity), c2,
    cos_zero, cos_pi_div_three, show π / 3 / 2 = π / 6 by ring,
    show 2 * (π / 3) / 2 = π / 3 by ring, tan_pi_six, tan_pi_div_three]
  have hval : (300 - 0) * (2 / (2 * (π / 3)) * √3) / 2 * (1 + -1 / 2) -
      ((100 - 0) * (2 / (π / 3) * (1 / √3)) / 2 * (1 + 1 / 2) +
        (300 - 100) * (2 / (π / 3) * (1 / √3)) / 2 * (1 / 2 + -1 / 2)) = 75 * √3 / π := by
    field_simp
    nlinarith
  rw [hval, lt_div_iff₀ hp]
  have hlt := pi_lt_d2
  have h17 : 1.7 < √3 := by
    rw [lt_sqrt (by norm_num)]
    norm_num
  nlinarith

/-- The survey is one: its depths increase and its doglegs are less than half a turn. -/
example : IsSurvey .meters mergedSurvey 2 := merged_isSurvey

end Welleng.Props
