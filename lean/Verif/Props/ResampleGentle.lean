import Verif.Props.Resample
import Verif.Props.ConnectorVec

/-!
C209: an interval gentler than the severity passed to `interpolate_survey`
(`/repo/welleng/survey.py` 2700-2773, `connector.py` 601-671, 2135-2164).
-/

namespace Welleng.Props

open Real Spec Con Rs

/-- **C209** An interval from depth `a`, direction `v` to depth `b`, direction `w` that is longer than a
curve of the severity passed: the rows follow that curve and then the straight in direction `w`, at
depths from `a` to `b` that are at most a step apart and include the end of the curve. -/
theorem C209_gentle_interval {c : Cfg} {a b step : ℝ} {v w : V3} (hv : v.IsUnit) (hw : w.IsUnit)
    (hstep : c.step = some step) (hs0 : 0 < step) (hr : 0 < c.radius)
    (h0 : 0 < angle v w) (h1 : angle v w < π) (htol : 1e-10 ≤ V3.norm (V3.cross v w))
    (hlen : c.radius * angle v w < b - a) :
    ∃ rows, sectionRows c a v b w = some rows ∧
      StepOrdered step (rows.map Prod.fst) ∧
      (rows.map Prod.fst).head? = some a ∧ (rows.map Prod.fst).getLast? = some b ∧
      a + c.radius * angle v w ∈ rows.map Prod.fst ∧
      ∃ γ τ ν, CircularCurve γ τ ν (1 / c.radius) ∧ τ 0 = v ∧ τ (c.radius * angle v w) = w ∧
        (∀ r ∈ rows, r.1 < a + c.radius * angle v w → r.2 = τ (r.1 - a)) ∧
        (∀ r ∈ rows, a + c.radius * angle v w ≤ r.1 → r.2 = w) := by
  set θ := angle v w with hθ
  have hL : 0 < c.radius * θ := mul_pos hr h0
  have hne : w ≠ (-1 : ℝ) • v := ne_opposite hv h1
  have hne' : w ≠ v := by
    rintro rfl
    rw [hθ, angle_self hv] at h0
    exact lt_irrefl _ h0
  have ht : targetVec c v w = w := by unfold targetVec; rw [if_neg hne]
  have hrc : radiusOfMd a b θ = .val ((b - a) / θ) := by
    unfold radiusOfMd
    rw [if_neg h0.ne', abs_of_pos (div_pos (by linarith) h0)]
  have hlt : c.radius < (b - a) / θ := by rw [lt_div_iff₀ h0]; exact hlen
  have hmin : minCurveMd a (some b) (.val c.radius) θ (c.nearPi θ)
      = some (⟨a, some (a + c.radius * θ), none, b⟩, c.radius * θ) := by
    unfold minCurveMd
    have hgt : Ext.gt (radiusOfMd a b θ) (.val c.radius) := by rw [hrc]; exact hlt
    simp only
    rw [if_pos (Or.inl hgt), hrc]
    simp only [Ext.min, min_eq_left hlt.le]
  have hrows : sectionRows c a v b w
      = some ((curveMds a (c.radius * θ) c.step false).map (curveRow a v w (c.radius * θ) θ) ++
        (holdMds (a + c.radius * θ) b c.step true).map fun m => (m, w)) := by
    unfold sectionRows
    rw [ht, if_neg (by linarith : ¬ b < a), if_neg hne']
    unfold minCurveRows
    simp only [← hθ, hmin]
  have hfst : (((curveMds a (c.radius * θ) c.step false).map (curveRow a v w (c.radius * θ) θ) ++
        (holdMds (a + c.radius * θ) b c.step true).map fun m => (m, w))).map Prod.fst
      = curveHoldMds a (c.radius * θ) (a + c.radius * θ) b (some step) := by
    rw [List.map_append, List.map_map, List.map_map, hstep]
    have e1 : (Prod.fst ∘ curveRow a v w (c.radius * θ) θ) = id := rfl
    have e2 : (Prod.fst ∘ fun m : ℝ => (m, w)) = id := rfl
    rw [e1, e2, List.map_id, List.map_id]
    rfl
  have hord := C76_curve_hold_partial (md1 := a) hs0 hL (show a + c.radius * θ < b by linarith)
  have hgrid := C39_hold_grid (md1 := a + c.radius * θ) hs0 (show a + c.radius * θ < b by linarith)
  obtain ⟨t, htl⟩ : ∃ t, holdMds (a + c.radius * θ) b (some step) true = (a + c.radius * θ) :: t := by
    have := hgrid.first
    cases hl : holdMds (a + c.radius * θ) b (some step) true with
    | nil => rw [hl] at this; simp at this
    | cons y t => rw [hl] at this; simp at this; exact ⟨t, by rw [this]⟩
  have hbefore : ∀ x ∈ curveMds a (c.radius * θ) (some step) false, x < a + c.radius * θ := by
    have hp : (curveHoldMds a (c.radius * θ) (a + c.radius * θ) b (some step)).Pairwise (· < ·) := by
      have : (curveHoldMds a (c.radius * θ) (a + c.radius * θ) b (some step)).IsChain
          fun x y : ℝ => x < y := hord.imp fun _ _ h => h.1
      exact List.isChain_iff_pairwise.mp this
    intro x hx
    unfold curveHoldMds at hp
    exact (List.pairwise_append.mp hp).2.2 x hx _ (by rw [htl]; simp)
  obtain ⟨γ, τ, ν, hcc, t0, tL, hall⟩ := C40_directions_on_arc hv hw hL h0 h1 (cos_angle hv hw) htol
  rw [show θ / (c.radius * θ) = 1 / c.radius by field_simp] at hcc
  refine ⟨_, hrows, by rw [hfst]; exact hord, ?_, ?_, ?_, γ, τ, ν, hcc, t0, tL, ?_, ?_⟩
  · rw [hfst]
    unfold curveHoldMds curveMds
    rw [if_neg hL.ne']
    simp [gridRel]
  · rw [hfst]
    unfold curveHoldMds
    rw [List.getLast?_append, hgrid.last]
    rfl
  · rw [hfst]
    unfold curveHoldMds
    rw [htl]; simp
  · intro r hr' hlt'
    rcases List.mem_append.mp hr' with h | h
    · obtain ⟨m, hm, rfl⟩ := List.mem_map.mp h
      simp only [curveRow]
      rw [if_neg hL.ne', hall]
    · obtain ⟨m, hm, rfl⟩ := List.mem_map.mp h
      rw [hstep] at hm
      have := (grid_range hgrid m hm).1
      simp only at hlt'
      linarith
  · intro r hr' hge
    rcases List.mem_append.mp hr' with h | h
    · obtain ⟨m, hm, rfl⟩ := List.mem_map.mp h
      rw [hstep] at hm
      have := hbefore m hm
      simp only [curveRow] at hge
      linarith
    · obtain ⟨m, hm, rfl⟩ := List.mem_map.mp h
      rfl

/-- C209 hypotheses: a quarter turn with radius 100 in 500 m. -/
example : (⟨0, 0, 1⟩ : V3).IsUnit ∧ (⟨1, 0, 0⟩ : V3).IsUnit ∧
    angle ⟨0, 0, 1⟩ ⟨1, 0, 0⟩ = π / 2 ∧ 1e-10 ≤ V3.norm (V3.cross ⟨0, 0, 1⟩ ⟨1, 0, 0⟩) ∧
    (100 : ℝ) * (π / 2) < 500 - 0 := by
  refine ⟨by norm_num [V3.IsUnit, V3.dot], by norm_num [V3.IsUnit, V3.dot], ?_, ?_, ?_⟩
  · unfold angle V3.dot; norm_num
  · norm_num [V3.norm, V3.cross, V3.dot]
  · linarith [pi_lt_four]

end Welleng.Props
