import Verif.Props.StraightHole

/-!
C418: drilling in a straight inclined hole.
-/

namespace Welleng.Props

open Real Td

/-- The loads at a station of a straight hole below which the weight `w` hangs, when the loads at
the bit are `s`. -/
noncomputable def straightFrom (s : Loads × ℝ) (i mu r w : ℝ) : Loads × ℝ :=
  (⟨s.1.pickup + w * (cos i + mu * sin i), s.1.slackoff + w * (cos i - mu * sin i),
    s.1.rotating + w * cos i⟩, s.2 + w * (mu * sin i * r))

theorem straightFrom_step (s : Loads × ℝ) {i mu r w : ℝ} (v : ℝ) (hs : 0 ≤ sin i) (hw : 0 ≤ w) :
    step (straightFrom s i mu r v) ⟨i, 0, 0, w, mu, r⟩ = straightFrom s i mu r (w + v) := by
  have hf : ∀ t, forceNormal t i 0 0 w = w * sin i := fun t => by
    unfold forceNormal
    rw [mul_zero, zero_mul, zero_add, zero_pow two_ne_zero, zero_add, sqrt_sq (mul_nonneg hw hs)]
  simp only [step, normalOf, forceTensionDelta, torsionDelta, hf, straightFrom, Prod.mk.injEq,
    Loads.mk.injEq]
  refine ⟨⟨?_, ?_, ?_⟩, ?_⟩ <;> ring

theorem straightFrom_states (s : Loads × ℝ) {i mu r : ℝ} (hs : 0 ≤ sin i) {ws : List ℝ}
    (hw : ∀ w ∈ ws, 0 ≤ w) :
    (ws.reverse.map fun w => (⟨i, 0, 0, w, mu, r⟩ : Elem)).foldl step s
      = straightFrom s i mu r ws.sum ∧
    (states s (ws.reverse.map fun w => (⟨i, 0, 0, w, mu, r⟩ : Elem))).reverse
      = ws.tails.map fun t => straightFrom s i mu r t.sum := by
  induction ws with
  | nil => simp [states, straightFrom]
  | cons w t ih =>
    obtain ⟨h1, h2⟩ := ih fun x hx => hw x (by simp [hx])
    have h3 := straightFrom_step s (r := r) (mu := mu) t.sum hs (hw w (by simp))
    rw [List.reverse_cons, List.map_append, List.map_singleton]
    refine ⟨?_, ?_⟩
    · rw [List.foldl_append, h1, List.foldl_cons, List.foldl_nil, h3, List.sum_cons]
    · rw [states_append, List.reverse_append, h1, h3, h2, List.tails_cons, List.map_cons,
        List.sum_cons]
      rfl

/-- **C418** Drilling in a straight hole of inclination `i`: at each station the rotating and sliding
tensions are `w cos i` and `w (cos i - μ sin i)` less the weight on bit, and the torque is the torque
on bit plus `w μ r sin i`, where `w` is the weight hanging below the station. -/
theorem C418_drilling {i mu r : ℝ} (z : ℝ) {ws : List ℝ} (hi : 0 ≤ i ∧ i ≤ π)
    (hw : ∀ w ∈ ws, 0 ≤ w) {wob tob : ℝ} (h1 : wob ≠ 0) (h2 : tob ≠ 0) (overpull : Option ℝ)
    (p : Profiles) :
    ∃ out, getForces (straightHole i z mu r ws) (some wob) (some tob) overpull p = .ok out ∧
      out.drilling = some ((ws.tails.map List.sum).map fun w => w * cos i - wob) ∧
      out.sliding = some ((ws.tails.map List.sum).map fun w => w * (cos i - mu * sin i) - wob) ∧
      out.torqueDrilling
        = some ((ws.tails.map List.sum).map fun w => tob + w * (mu * sin i * r)) := by
  have hs : 0 ≤ sin i := sin_nonneg_of_nonneg_of_le_pi hi.1 hi.2
  have hp : profile (⟨valueOf overpull, -wob, -wob⟩, tob) (rows (straightHole i z mu r ws))
      = ws.tails.map fun t => straightFrom (⟨valueOf overpull, -wob, -wob⟩, tob) i mu r t.sum := by
    rw [straightHole_rows, profile_append]
    exact (straightFrom_states _ hs hw).2
  have t1 := truthy_some h1
  have t2 := truthy_some h2
  by_cases h3 : truthy overpull
  all_goals
    simp only [getForces, store, t1, t2, h3, valueOf_some, and_self, not_true_eq_false, and_false,
      if_true, if_false, hp]
    refine ⟨_, rfl, ?_, ?_, ?_⟩
    · simp only [List.map_map]
      exact congrArg some (List.map_congr_left fun t _ => by
        simp only [Function.comp, straightFrom]; ring)
    · simp only [List.map_map]
      exact congrArg some (List.map_congr_left fun t _ => by
        simp only [Function.comp, straightFrom]; ring)
    · simp only [List.map_map]
      rfl

/-- **C418** The weight a sliding string can put on the bit: the surface end of the string is not in
compression exactly when the weight on bit is at most the string weight times `cos i - μ sin i`. -/
theorem C418_available_weight {i mu r : ℝ} (z : ℝ) {ws : List ℝ} (hi : 0 ≤ i ∧ i ≤ π)
    (hw : ∀ w ∈ ws, 0 ≤ w) {wob tob : ℝ} (h1 : wob ≠ 0) (h2 : tob ≠ 0) (overpull : Option ℝ)
    (p : Profiles) :
    ∃ out top rest, getForces (straightHole i z mu r ws) (some wob) (some tob) overpull p = .ok out ∧
      out.sliding = some (top :: rest) ∧
      (0 ≤ top ↔ wob ≤ ws.sum * (cos i - mu * sin i)) := by
  obtain ⟨out, h, -, h4, -⟩ := C418_drilling (mu := mu) (r := r) z hi hw h1 h2 overpull p
  cases ws with
  | nil => exact ⟨out, _, _, h, h4, by simp⟩
  | cons w t => exact ⟨out, _, _, h, h4, sub_nonneg⟩

/-- C418: two elements at 60 degrees, friction 0.3, with weight and torque on bit. -/
example (p : Profiles) : ∃ out top rest,
    getForces (straightHole (π / 3) 1 0.3 0.1 [50, 60]) (some 20) (some 5) none p = .ok out ∧
      out.sliding = some (top :: rest) ∧
      (0 ≤ top ↔ (20 : ℝ) ≤ [(50 : ℝ), 60].sum * (cos (π / 3) - 0.3 * sin (π / 3))) :=
  C418_available_weight 1 ⟨by positivity, by linarith [pi_pos]⟩ (by simp) (by norm_num)
    (by norm_num) none p

end Welleng.Props
