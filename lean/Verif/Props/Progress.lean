import Verif.Props.Accuracy
import Verif.Lemmas.ConnectorSolve

/-!
C415: a well whose stations all point within an angle of a direction makes at least the cosine of
that angle times its length of progress in that direction.
-/

namespace Welleng.Props

open Real Welleng Spec

/-- The direction of a station as a row `[E, N, V]`, the order of the positions. -/
noncomputable def headingXyz (s : Station) : V3 :=
  ⟨(tangent s.inc s.azi).y, (tangent s.inc s.azi).x, (tangent s.inc s.azi).z⟩

theorem step_progress {a b : Station} {v : V3} {c : ℝ} (hc : 0 ≤ c) (hab : a.md ≤ b.md)
    (ha : c ≤ V3.dot (headingXyz a) v) (hb : c ≤ V3.dot (headingXyz b) v) :
    c * (b.md - a.md) ≤ V3.dot (deltaXyz a b) v := by
  have e : V3.dot (deltaXyz a b) v = (b.md - a.md) / 2 * getRf (dogleg2 a b) *
      (V3.dot (headingXyz a) v + V3.dot (headingXyz b) v) := by
    simp only [deltaXyz, minCurveStepRf, headingXyz, tangent, V3.dot]
    ring
  have hd : 0 ≤ b.md - a.md := by linarith
  rw [e]
  by_cases hpi : dogleg2 a b < π
  · have h0 : 0 ≤ dogleg2 a b := getDogleg_nonneg ..
    have hr := Con.one_le_getRf h0 hpi
    have h1 : 2 * c ≤ getRf (dogleg2 a b) *
        (V3.dot (headingXyz a) v + V3.dot (headingXyz b) v) := by
      nlinarith
    have := mul_le_mul_of_nonneg_left h1 (show 0 ≤ (b.md - a.md) / 2 by linarith)
    linarith
  · have hneg : V3.dot (headingXyz b) v = -V3.dot (headingXyz a) v := by
      have h1 : dogleg2 a b = π := le_antisymm (getDogleg_le_pi ..) (not_lt.mp hpi)
      unfold dogleg2 at h1
      rw [getDogleg_eq_arccos, arccos_eq_pi] at h1
      have ua := tangent_unit a.inc a.azi
      have ub := tangent_unit b.inc b.azi
      simp only [V3.IsUnit, V3.dot] at ua ub h1
      have hsum : ((tangent a.inc a.azi).x + (tangent b.inc b.azi).x) ^ 2
          + ((tangent a.inc a.azi).y + (tangent b.inc b.azi).y) ^ 2
          + ((tangent a.inc a.azi).z + (tangent b.inc b.azi).z) ^ 2 ≤ 0 := by nlinarith
      have qx := sq_nonneg ((tangent a.inc a.azi).x + (tangent b.inc b.azi).x)
      have qy := sq_nonneg ((tangent a.inc a.azi).y + (tangent b.inc b.azi).y)
      have qz := sq_nonneg ((tangent a.inc a.azi).z + (tangent b.inc b.azi).z)
      have hx : (tangent b.inc b.azi).x = -(tangent a.inc a.azi).x := by
        have : ((tangent a.inc a.azi).x + (tangent b.inc b.azi).x) ^ 2 = 0 :=
          le_antisymm (by linarith) (sq_nonneg _)
        linarith [pow_eq_zero_iff two_ne_zero |>.mp this]
      have hy : (tangent b.inc b.azi).y = -(tangent a.inc a.azi).y := by
        have : ((tangent a.inc a.azi).y + (tangent b.inc b.azi).y) ^ 2 = 0 :=
          le_antisymm (by linarith) (sq_nonneg _)
        linarith [pow_eq_zero_iff two_ne_zero |>.mp this]
      have hz : (tangent b.inc b.azi).z = -(tangent a.inc a.azi).z := by
        have : ((tangent a.inc a.azi).z + (tangent b.inc b.azi).z) ^ 2 = 0 :=
          le_antisymm (by linarith) (sq_nonneg _)
        linarith [pow_eq_zero_iff two_ne_zero |>.mp this]
      simp only [headingXyz, V3.dot, hx, hy, hz]
      ring
    have hc0 : c = 0 := by linarith
    rw [hneg, hc0]
    simp

/-- **C415** Stations in order of depth whose directions are all within the angle of cosine `c ≥ 0`
of the direction `v`: from any station to any deeper one the well advances along `v` by at least
`c` times the length drilled. -/
theorem C415_progress {rows : List Station} {start v : V3} {u : LenUnit} {out : MinCurveOut} {c : ℝ}
    (h : minCurve rows start u = .ok out) (hc : 0 ≤ c)
    (hdir : ∀ s ∈ rows, c ≤ V3.dot (headingXyz s) v)
    (hmd : rows.Pairwise fun a b => a.md ≤ b.md) :
    (rows.zip out.poss).Pairwise fun s t =>
      c * (t.1.md - s.1.md) ≤ V3.dot (t.2 - s.2) v := by
  rw [minCurve_poss h]
  clear h
  have htr : IsTrans (Station × V3) fun s t => c * (t.1.md - s.1.md) ≤ V3.dot (t.2 - s.2) v := by
    refine ⟨fun a b d k l => ?_⟩
    simp only [V3.dot, V3.sub_x, V3.sub_y, V3.sub_z] at k l ⊢
    linarith
  refine List.isChain_iff_pairwise.mp ?_
  have hch := hmd.isChain
  clear hmd
  induction rows generalizing start with
  | nil => simp [positions]
  | cons a t ih =>
    cases t with
    | nil => simp [positions, pairwise, cumsumFrom]
    | cons b t =>
      rw [List.isChain_cons_cons] at hch
      have ih' := ih (start := start + deltaXyz a b)
        (fun s hs => hdir s (List.mem_cons_of_mem _ hs)) hch.2
      rw [positions_cons2, List.zip_cons_cons]
      have hz : ∃ l, (b :: t).zip (positions (start + deltaXyz a b) (b :: t))
          = (b, start + deltaXyz a b) :: l := ⟨_, rfl⟩
      obtain ⟨l, hl⟩ := hz
      rw [hl] at ih' ⊢
      rw [List.isChain_cons_cons]
      refine ⟨?_, ih'⟩
      have := step_progress hc hch.1 (hdir a (by simp)) (hdir b (by simp))
      simpa using this

/-- **C415** For the vertical: if no inclination exceeds `θ`, at most a right angle, every deeper
station is at least `cos θ` times the length drilled below. -/
theorem C415_vertical {rows : List Station} {start : V3} {u : LenUnit} {out : MinCurveOut} {θ : ℝ}
    (h : minCurve rows start u = .ok out) (hθ : θ ≤ π / 2)
    (hinc : ∀ s ∈ rows, 0 ≤ s.inc ∧ s.inc ≤ θ) (hmd : rows.Pairwise fun a b => a.md ≤ b.md) :
    (rows.zip out.poss).Pairwise fun s t => cos θ * (t.1.md - s.1.md) ≤ t.2.z - s.2.z := by
  obtain ⟨s0, s1, rest, rfl⟩ := minCurve_ok_length h
  have h0 := hinc s0 (by simp)
  have hp := pi_pos
  refine (C415_progress (v := ⟨0, 0, 1⟩) (c := cos θ) h
    (cos_nonneg_of_neg_pi_div_two_le_of_le (by linarith) hθ) (fun s hs => ?_) hmd).imp ?_
  · obtain ⟨k1, k2⟩ := hinc s hs
    simp only [headingXyz, tangent, V3.dot, mul_zero, mul_one, zero_add]
    exact cos_le_cos_of_nonneg_of_le_pi k1 (by linarith) k2
  · intro s t k
    simpa [V3.dot] using k

/-- C415: three stations inclined at most 60 degrees; the well gains at least half its length in
depth. -/
example : ∃ out, minCurve [⟨0, 0, 0⟩, ⟨100, π / 3, 1⟩, ⟨250, π / 4, 3⟩] 0 .meters = .ok out ∧
    ([(⟨0, 0, 0⟩ : Station), ⟨100, π / 3, 1⟩, ⟨250, π / 4, 3⟩].zip out.poss).Pairwise fun s t =>
      1 / 2 * (t.1.md - s.1.md) ≤ t.2.z - s.2.z := by
  obtain ⟨out, h⟩ : ∃ out, minCurve [⟨0, 0, 0⟩, ⟨100, π / 3, 1⟩, ⟨250, π / 4, 3⟩] 0 .meters
      = .ok out := ⟨_, rfl⟩
  refine ⟨out, h, ?_⟩
  rw [← cos_pi_div_three]
  have hp := pi_pos
  refine C415_vertical h (by linarith) ?_ (by norm_num)
  intro s hs
  simp only [List.mem_cons, List.not_mem_nil, or_false] at hs
  rcases hs with rfl | rfl | rfl <;> constructor <;> simp only <;> linarith

end Welleng.Props
