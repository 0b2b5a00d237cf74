import Verif.Props.Frictionless

/-!
C416: in a vertical hole friction has no effect.
-/

namespace Welleng.Props

open Real Td

theorem mem_rows_geometry {a : Arrays} {e : Elem} (h : e ∈ rows a) :
    e.incAvg ∈ a.incAvg ∧ e.incDelta ∈ a.incDelta := by
  unfold rows at h
  obtain ⟨r, hr, rfl⟩ := List.mem_map.1 h
  have h1 := (List.of_mem_zip hr).1
  have h2 := (List.of_mem_zip h1).1
  have h3 := (List.of_mem_zip h2).1
  have h4 := (List.of_mem_zip h3).1
  have h5 := List.of_mem_zip h4
  exact ⟨List.mem_of_mem_take (List.mem_reverse.1 h5.1),
    List.mem_of_mem_take (List.mem_reverse.1 h5.2)⟩

theorem mem_zipWith_tail {f : ℝ → ℝ → ℝ} (hf : f 0 0 = 0) : ∀ {l m : List ℝ}, (∀ x ∈ l, x = 0) →
    (∀ x ∈ m, x = 0) → ∀ y ∈ List.zipWith f l m, y = 0
  | [], _, _, _, y, hy => by simp at hy
  | _ :: _, [], _, _, y, hy => by simp at hy
  | a :: l, b :: m, hl, hm, y, hy => by
    rw [List.zipWith_cons_cons, List.mem_cons] at hy
    rcases hy with rfl | hy
    · rw [hl a (by simp), hm b (by simp), hf]
    · exact mem_zipWith_tail hf (fun x hx => hl x (by simp [hx])) (fun x hx => hm x (by simp [hx])) y hy

theorem vertical_arrays {inc : List ℝ} (h : ∀ x ∈ inc, x = 0) :
    (∀ x ∈ incAverage inc, x = 0) ∧ ∀ x ∈ deltas inc, x = 0 := by
  cases inc with
  | nil => simp [incAverage, deltas]
  | cons a t =>
    have ht : ∀ x ∈ t, x = 0 := fun x hx => h x (by simp [hx])
    simp only [incAverage, deltas, List.forall_mem_cons, true_and]
    exact ⟨mem_zipWith_tail (by norm_num) ht h, mem_zipWith_tail (by norm_num) ht h⟩

theorem step_vertical (s : Loads × ℝ) {e : Elem} (h : e.incAvg = 0) (h' : e.incDelta = 0) :
    step s e = (⟨s.1.pickup + e.weight, s.1.slackoff + e.weight, s.1.rotating + e.weight⟩, s.2) := by
  simp [step, forceTensionDelta, torsionDelta, normalOf, forceNormal, h, h']

/-- In a vertical hole the differences between the load cases, and the torque, are those at the bit. -/
theorem profile_vertical {a : Arrays} {inc : List ℝ} (h : ∀ x ∈ inc, x = 0)
    (h1 : a.incAvg = incAverage inc) (h2 : a.incDelta = deltas inc) (s : Loads × ℝ) :
    ∀ x ∈ profile s (rows a), x.1.pickup - x.1.rotating = s.1.pickup - s.1.rotating ∧
      x.1.slackoff - x.1.rotating = s.1.slackoff - s.1.rotating ∧ x.2 = s.2 := by
  refine profile_inv (P := fun x => x.1.pickup - x.1.rotating = s.1.pickup - s.1.rotating ∧
    x.1.slackoff - x.1.rotating = s.1.slackoff - s.1.rotating ∧ x.2 = s.2) ?_ ⟨rfl, rfl, rfl⟩
  intro y e he hy
  obtain ⟨k1, k2⟩ := mem_rows_geometry he
  rw [h1] at k1
  rw [h2] at k2
  obtain ⟨v1, v2⟩ := vertical_arrays h
  rw [step_vertical y (v1 _ k1) (v2 _ k2)]
  refine ⟨?_, ?_, hy.2.2⟩
  · simp only; linarith [hy.1]
  · simp only; linarith [hy.2.1]

/-- **C416** Off bottom in a vertical hole, whatever the friction factors and azimuths: the pick-up,
slack-off and rotating tensions are the same profile, and there is no torque anywhere. -/
theorem C416_off_bottom {a : Arrays} {inc : List ℝ} (h : ∀ x ∈ inc, x = 0)
    (h1 : a.incAvg = incAverage inc) (h2 : a.incDelta = deltas inc) (p : Profiles) :
    ∃ out l t, getForces a none none none p = .ok out ∧ out.pickup = some l ∧ out.slackoff = some l ∧
      out.rotating = some l ∧ out.torqueRotating = some t ∧ ∀ x ∈ t, x = 0 := by
  have hp := profile_vertical h h1 h2 (⟨0, -0, -0⟩, 0)
  simp only [getForces, store, not_truthy_none, valueOf_none, or_self, false_and, if_false]
  refine ⟨_, _, _, rfl, rfl, ?_, ?_, rfl, ?_⟩
  · refine congrArg some (List.map_congr_left fun x hx => ?_)
    have := hp x hx
    simp only at this
    linarith [this.1, this.2.1]
  · refine congrArg some (List.map_congr_left fun x hx => ?_)
    have := hp x hx
    simp only at this
    linarith [this.1]
  · intro t ht
    obtain ⟨x, hx, rfl⟩ := List.mem_map.1 ht
    exact (hp x hx).2.2

/-- **C416** Drilling in a vertical hole: sliding and rotating tensions agree, and the torque on bit
is the torque at every station. -/
theorem C416_drilling {a : Arrays} {inc : List ℝ} (h : ∀ x ∈ inc, x = 0)
    (h1 : a.incAvg = incAverage inc) (h2 : a.incDelta = deltas inc) (p : Profiles) {wob tob : ℝ}
    (hw : wob ≠ 0) (ht : tob ≠ 0) (overpull : Option ℝ) :
    ∃ out l t, getForces a (some wob) (some tob) overpull p = .ok out ∧ out.drilling = some l ∧
      out.sliding = some l ∧ out.torqueDrilling = some t ∧ ∀ x ∈ t, x = tob := by
  have hp := profile_vertical h h1 h2 (⟨valueOf overpull, -wob, -wob⟩, tob)
  have h1 := truthy_some hw
  have h2 := truthy_some ht
  by_cases h3 : truthy overpull
  all_goals
    simp only [getForces, store, h1, h2, h3, valueOf_some, and_self, not_true_eq_false, and_false, if_true,
      if_false]
    refine ⟨_, _, _, rfl, rfl, ?_, rfl, ?_⟩
    · refine congrArg some (List.map_congr_left fun x hx => ?_)
      have := (hp x hx).2.1
      simp only at this
      linarith
    · intro t ht
      obtain ⟨x, hx, rfl⟩ := List.mem_map.1 ht
      exact (hp x hx).2.2

/-- C416: three stations of a vertical hole with friction 0.3 and azimuths that jump about. -/
example (p : Profiles) : ∃ out l t,
    getForces ⟨incAverage [0, 0, 0], deltas [0, 0, 0], deltas [0, 2, 1], [0, 50, 60],
      [0.3, 0.3, 0.3], [0.1, 0.1, 0.1], 3⟩ none none none p = .ok out ∧ out.pickup = some l ∧
      out.slackoff = some l ∧ out.rotating = some l ∧ out.torqueRotating = some t ∧ ∀ x ∈ t, x = 0 :=
  C416_off_bottom (inc := [0, 0, 0]) (by simp) rfl rfl p

end Welleng.Props
