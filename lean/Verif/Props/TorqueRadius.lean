import Verif.Props.Friction

/-! C385: the diameter of the string scales the torque and nothing else. -/

namespace Welleng.Props

open Real Welleng Td

/-- An element with a contact radius `c` times as large. -/
def thicker (c : ℝ) (e : Elem) : Elem := { e with radius := c * e.radius }

/-- Profiles with the torques multiplied by `c`. -/
def torqueTimes (c : ℝ) (p : Profiles) : Profiles :=
  { p with torqueRotating := p.torqueRotating.map (·.map (c * ·)),
           torqueDrilling := p.torqueDrilling.map (·.map (c * ·)) }

theorem states_thicker (c : ℝ) (es : List Elem) (s : Loads × ℝ) :
    states (s.1, c * s.2) (es.map (thicker c)) = (states s es).map fun x => (x.1, c * x.2) := by
  induction es generalizing s with
  | nil => rfl
  | cons e t ih =>
    have h : step (s.1, c * s.2) (thicker c e) = ((step s e).1, c * (step s e).2) := by
      simp only [step, thicker, normalOf, forceTensionDelta, torsionDelta, mul_add]
      congr 2
      ring
    simp only [List.map_cons, states, h, ih]

theorem rows_thicker (c : ℝ) (a : Arrays) :
    rows { a with radius := a.radius.map (c * ·) } = (rows a).map (thicker c) := by
  unfold rows
  simp only [List.map_map, List.zip_map_right]
  rfl

/-- **C385** With all contact radii and the torque on bit multiplied by a number other than zero, all torques are
multiplied by it and all tensions are unchanged; calls that are refused are refused alike. -/
theorem C385_torque {c : ℝ} (hc : c ≠ 0) (a : Arrays) (wob tob overpull : Option ℝ) (p : Profiles) :
    getForces { a with radius := a.radius.map (c * ·) } wob (tob.map (c * ·)) overpull (torqueTimes c p)
      = (getForces a wob tob overpull p).map (torqueTimes c) := by
  have e : profile (⟨valueOf overpull, -valueOf wob, -valueOf wob⟩, valueOf (tob.map (c * ·)))
      (rows { a with radius := a.radius.map (c * ·) })
      = (profile (⟨valueOf overpull, -valueOf wob, -valueOf wob⟩, valueOf tob) (rows a)).map
        fun x => (x.1, c * x.2) := by
    unfold profile
    have := states_thicker c (rows a) (⟨valueOf overpull, -valueOf wob, -valueOf wob⟩, valueOf tob)
    simp only at this
    rw [rows_thicker, valueOf_times, this]
    simp only [List.map_drop, List.map_reverse]
  unfold getForces
  rw [e]
  generalize profile _ (rows a) = l
  have tt := truthy_times hc tob
  generalize tob.map (c * ·) = tob' at *
  unfold store
  by_cases w : truthy wob <;> by_cases t : truthy tob <;> by_cases o : truthy overpull <;>
    simp [w, t, o, tt, Except.map, torqueTimes, Function.comp_def]

/-- Non-vacuity: the sample string twice as thick needs twice the torque. -/
example : ∃ out, getForces { sample with radius := sample.radius.map (2 * ·) } none none none {} = .ok out ∧
    out.pickup = some [2, 1, 0] ∧ out.torqueRotating = some [4, 2, 0] := by
  have r : rows { sample with radius := sample.radius.map (2 * ·) }
      = [⟨π / 2, 0, 0, 1, 1, 2⟩, ⟨π / 2, 0, 0, 1, 1, 2⟩, ⟨0, 0, 0, 0, 1, 4⟩] := by
    norm_num [rows, sample]
  have e : ∀ t, forceNormal t (π / 2) 0 0 1 = 1 := fun t => by simp [forceNormal]
  simp only [getForces, store, not_truthy_none, valueOf_none, or_self, false_and, if_false, r]
  refine ⟨_, rfl, ?_, ?_⟩
  · simp [profile, states, step, normalOf, forceTensionDelta, e]
    norm_num
  · simp [profile, states, step, normalOf, forceTensionDelta, torsionDelta, e]
    norm_num

end Welleng.Props
