import Verif.Spec.Contact
import Verif.Props.TorqueDragMore
import Verif.Lemmas.Toolface

/-!
C135-C137: contact force (`/repo/welleng/torque_drag.py` 164-174, 309-344), characteristic diameter
(176-194) and the stations the string reaches (89).
-/

namespace Welleng.Props

open Td Spec Real

/-- The change of tangent used in the specification is the derivative of the tangent. -/
theorem tangent_change {inc azi : ℝ → ℝ} {i' a' s : ℝ} (hi : HasDerivAt inc i' s)
    (ha : HasDerivAt azi a' s) :
    HasDeriv (fun x => tangent (inc x) (azi x))
      (i' • highSide (inc s) (azi s) + (a' * sin (inc s)) • rightSide (azi s)) s := by
  refine ⟨?_, ?_, ?_⟩
  · refine (hi.sin.mul ha.cos).congr_deriv ?_
    simp [highSide, rightSide]; ring
  · refine (hi.sin.mul ha.sin).congr_deriv ?_
    simp [highSide, rightSide]; ring
  · refine hi.cos.congr_deriv ?_
    simp [highSide, rightSide]; ring

theorem acrossHole_dot (T W i a di da : ℝ) :
    V3.dot (acrossHole T W i a di da) (acrossHole T W i a di da)
      = (T * da * sin i) ^ 2 + (T * di - W * sin i) ^ 2 := by
  have h1 := sin_sq_add_cos_sq i
  have h2 := sin_sq_add_cos_sq a
  have e : acrossHole T W i a di da
      = (T * di - W * sin i) • highSide i a + (T * da * sin i) • rightSide a := by
    ext <;> simp [acrossHole, highSide, rightSide, tangent]
    · ring
    · ring
    · linear_combination (-W) * h1
  rw [e]
  simp only [V3.dot, V3.add_x, V3.add_y, V3.add_z, V3.smul_x, V3.smul_y, V3.smul_z, highSide,
    rightSide]
  linear_combination
    ((T * di - W * sin i) ^ 2 * cos i ^ 2 + (T * da * sin i) ^ 2) * h2
      + (T * di - W * sin i) ^ 2 * h1

theorem norm_acrossHole (T W i a di da : ℝ) :
    V3.norm (acrossHole T W i a di da) = √((T * da * sin i) ^ 2 + (T * di - W * sin i) ^ 2) := by
  unfold V3.norm; rw [acrossHole_dot]

/-- The inclination change of an element is taken from the upper to the lower station. -/
theorem deltas_get {l : List ℝ} {k : ℕ} {x y : ℝ} (hx : l[k]? = some x) (hy : l[k + 1]? = some y) :
    (deltas l)[k + 1]? = some (y - x) := by
  cases l with
  | nil => simp at hx
  | cons a t =>
    simp only [deltas, List.getElem?_cons_succ] at hy ⊢
    rw [List.getElem?_zipWith, hy, hx]

/-- C135 (partial): the normal force is the force across the hole if the interval neither builds nor
drops, if there is no tension, or if the string has no weight across the hole.  The formula is the
force across the hole with the change of inclination reversed. -/
theorem C135_contact_partial {incs : List ℝ} {k : ℕ} {x y d : ℝ} (hx : incs[k]? = some x)
    (hy : incs[k + 1]? = some y) (hd : (deltas incs)[k + 1]? = some d) (T W i a da : ℝ) :
    forceNormal T i d da W = V3.norm (acrossHole T W i a (x - y) da) ∧
    (T * (y - x) * (W * sin i) = 0 →
      forceNormal T i d da W = V3.norm (acrossHole T W i a (y - x) da)) := by
  rw [deltas_get hx hy, Option.some.injEq] at hd
  subst hd
  rw [norm_acrossHole, norm_acrossHole]
  unfold forceNormal
  refine ⟨by congr 1; ring, fun h => ?_⟩
  congr 1
  linear_combination 4 * h

/-- C135 is false: for a string in tension whose weight presses on the low side, the contact force
is too large wherever inclination increases with depth, and too small wherever it decreases. -/
theorem C135_wrong_side {incs : List ℝ} {k : ℕ} {x y d : ℝ} (hx : incs[k]? = some x)
    (hy : incs[k + 1]? = some y) (hd : (deltas incs)[k + 1]? = some d) {T W i : ℝ} (a da : ℝ)
    (hT : 0 < T) (hW : 0 < W) (hi : 0 < sin i) :
    (x < y → V3.norm (acrossHole T W i a (y - x) da) < forceNormal T i d da W) ∧
    (y < x → forceNormal T i d da W < V3.norm (acrossHole T W i a (y - x) da)) := by
  rw [deltas_get hx hy, Option.some.injEq] at hd
  subst hd
  rw [norm_acrossHole]
  unfold forceNormal
  have hw := mul_pos hW hi
  have e : (T * (y - x) + W * sin i) ^ 2 - (T * (y - x) - W * sin i) ^ 2
      = 4 * (T * (W * sin i)) * (y - x) := by ring
  have hp : 0 < 4 * (T * (W * sin i)) := by positivity
  refine ⟨fun h => sqrt_lt_sqrt (by positivity) ?_, fun h => sqrt_lt_sqrt (by positivity) ?_⟩
  · have := mul_pos hp (sub_pos.2 h)
    linarith
  · have := mul_pos hp (sub_pos.2 h)
    nlinarith

/-- An element of 1 kN held at 100 kN in a bend building from 40 to 46 degrees: the string lies on
the high side, and the contact force is overstated. -/
example : V3.norm (acrossHole 100000 1000 (π / 4) 0 (46 * π / 180 - 40 * π / 180) 0)
    < forceNormal 100000 (π / 4) (46 * π / 180 - 40 * π / 180) 0 1000 :=
  (C135_wrong_side (incs := [40 * π / 180, 46 * π / 180]) (k := 0) rfl rfl rfl 0 0 (by norm_num)
    (by norm_num) (sin_pos_of_pos_of_lt_pi (by positivity) (by linarith [pi_pos]))).1
    (by linarith [pi_pos])

/-- C136: contact is made at the tool joint if the section has one, and at the pipe body
otherwise; the diameter is never zero for a pipe with a body. -/
theorem C136_contact_diameter (s : TSec) :
    (∀ d, s.tooljointOd = some d → d ≠ 0 → characteristicOd s = d) ∧
    ((s.tooljointOd = none ∨ s.tooljointOd = some 0) → characteristicOd s = s.od) ∧
    (0 < s.od → (∀ d, s.tooljointOd = some d → 0 ≤ d) → 0 < characteristicOd s) := by
  unfold characteristicOd
  refine ⟨fun d h h0 => by simp [h, h0], ?_, fun h0 h1 => ?_⟩
  · rintro (h | h) <;> simp [h]
  · cases h : s.tooljointOd with
    | none => exact h0
    | some d =>
      simp only
      split_ifs with hd
      · exact lt_of_le_of_ne (h1 d h) (Ne.symm hd)
      · exact h0

example : characteristicOd ⟨1000, 290, 7.85, 0.127, some 0.168, 0.39⟩ = 0.168 :=
  (C136_contact_diameter _).1 _ rfl (by norm_num)

/-- C137: the elements that carry the string are those of the stations down to and including the
bottom of the string, and none below. -/
theorem C137_stations_reached {survey : List TStn} {bottom : ℝ} {i : ℕ}
    (hmd : (survey.map (·.md)).Pairwise (· < ·)) (h : index survey bottom = .ok i) :
    ((survey.take i).getLast?.map (·.md)) = some bottom ∧
    survey.take i = survey.filter (fun s => decide (s.md ≤ bottom)) := by
  unfold index at h
  split_ifs at h with hm
  · simp only [Except.ok.injEq] at h
    subst h
    induction survey with
    | nil => simp at hm
    | cons s t ih =>
      rw [List.map_cons, List.pairwise_cons] at hmd
      by_cases hs : s.md = bottom
      · have hnone : t.filter (fun s => decide (s.md ≤ bottom)) = [] := by
          rw [List.filter_eq_nil_iff]
          intro x hx
          have := hmd.1 x.md (List.mem_map_of_mem hx)
          simpa [← hs] using this
        simp only [List.map_cons, List.idxOf_cons, hs, beq_self_eq_true, cond_true, zero_add,
          List.take_succ_cons, List.take_zero, List.getLast?_singleton, Option.map_some,
          List.filter_cons, le_refl, decide_true, if_true, hnone, and_self]
      · have hmt : bottom ∈ t.map (·.md) := by
          rw [List.map_cons, List.mem_cons] at hm
          exact hm.resolve_left (Ne.symm hs)
        have hlt : s.md < bottom := hmd.1 bottom hmt
        obtain ⟨h1, h2⟩ := ih hmd.2 hmt
        have hb : (s.md == bottom) = false := by simpa using hs
        simp only [List.map_cons, List.idxOf_cons, hb, cond_false, List.take_succ_cons,
          List.filter_cons, hlt.le, decide_true, if_true, h2]
        refine ⟨?_, trivial⟩
        rw [h2] at h1
        cases hf : t.filter (fun s => decide (s.md ≤ bottom)) with
        | nil => rw [hf] at h1; simp at h1
        | cons x r => rw [hf] at h1; rw [List.getLast?_cons_cons]; exact h1

/-- C137: a string whose bottom is not at a station is refused. -/
theorem C137_bottom_not_a_station {survey : List TStn} {bottom : ℝ} :
    index survey bottom = .error .indexError ↔ ∀ s ∈ survey, s.md ≠ bottom := by
  unfold index
  split_ifs with hm
  · obtain ⟨s, h1, h2⟩ := List.mem_map.1 hm
    simp only [reduceCtorEq, false_iff]
    exact fun h => h s h1 h2
  · simp only [true_iff]
    exact fun s h1 h2 => hm (List.mem_map.2 ⟨s, h1, h2⟩)

example : index [⟨0, 0, 0⟩, ⟨100, 0, 0⟩, ⟨200, 0, 0⟩] 100 = .ok 2 := by
  simp [index, List.idxOf_cons]

end Welleng.Props
