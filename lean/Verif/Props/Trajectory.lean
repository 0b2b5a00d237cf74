import Verif.Lemmas.MinCurveList

/-!
Properties C05-C10: minimum curvature (`utils.get_dogleg`, `utils.get_rf`,
`utils.min_curve_step`, `utils.MinCurve`) and arc interpolation.
-/

namespace Welleng.Props

open Real Welleng Spec

/-! ## C05 -/

/-- C05: for any two stations the dogleg is in `[0, π]`, its cosine is the dot product of the
unit tangents, it vanishes exactly when the tangents coincide, it is symmetric, and it does not
change when both azimuths are rotated. -/
theorem C05_dogleg_is_angle_between_tangents (i1 a1 i2 a2 : ℝ) :
    0 ≤ getDogleg i1 a1 i2 a2 ∧ getDogleg i1 a1 i2 a2 ≤ π ∧
    cos (getDogleg i1 a1 i2 a2) = V3.dot (tangent i1 a1) (tangent i2 a2) ∧
    (getDogleg i1 a1 i2 a2 = 0 ↔ tangent i1 a1 = tangent i2 a2) ∧
    getDogleg i2 a2 i1 a1 = getDogleg i1 a1 i2 a2 ∧
    ∀ θ, getDogleg i1 (a1 + θ) i2 (a2 + θ) = getDogleg i1 a1 i2 a2 := by
  refine ⟨getDogleg_nonneg .., getDogleg_le_pi .., cos_getDogleg .., ?_, ?_, ?_⟩
  · constructor
    · intro h
      apply V3.eq_of_dot_eq_one (tangent_unit ..) (tangent_unit ..)
      rw [← cos_getDogleg, h, cos_zero]
    · intro h
      rw [getDogleg_eq_arccos, ← h, tangent_unit, arccos_one]
  · rw [getDogleg_eq_arccos, getDogleg_eq_arccos, V3.dot_comm]
  · intro θ
    unfold getDogleg
    rw [add_sub_add_right_eq_sub]

/-- Non-vacuity: a 90° turn from vertical to horizontal has dogleg `π/2`. -/
example : getDogleg 0 0 (π / 2) 0 = π / 2 := by
  rw [getDogleg_eq_arccos]; simp [V3.dot, tangent]

/-! ## C06 -/

/-- C06: any circular arc (curvature `κ ≥ 0`, length `L`, total turn below `π`) that leaves the
origin along the tangent of station 1 and arrives along the tangent of station 2 ends exactly
at the displacement returned by `min_curve_step`. -/
theorem C06_step_is_arc_end {γ τ ν : ℝ → V3} {κ L i1 a1 i2 a2 : ℝ}
    (h : CircularCurve γ τ ν κ) (h0 : γ 0 = 0) (hκ : 0 ≤ κ) (hL : 0 ≤ L) (hpi : κ * L < π)
    (ht1 : τ 0 = tangent i1 a1) (ht2 : τ L = tangent i2 a2) :
    minCurveStep L i1 a1 i2 a2 = γ L :=
  (arc_end h h0 hκ hL hpi ht1 ht2).symm

/-- C06: for every pair of stations with dogleg strictly between `0` and `π` and every positive
length such an arc exists (so `C06_step_is_arc_end` is not vacuous), and its curvature is
dogleg / length. -/
theorem C06_arc_exists {L i1 a1 i2 a2 : ℝ} (hL : 0 < L) (h0 : getDogleg i1 a1 i2 a2 ≠ 0)
    (hpi : getDogleg i1 a1 i2 a2 < π) :
    ∃ γ τ ν, CircularCurve γ τ ν (getDogleg i1 a1 i2 a2 / L) ∧ γ 0 = 0 ∧
      τ 0 = tangent i1 a1 ∧ τ L = tangent i2 a2 ∧ minCurveStep L i1 a1 i2 a2 = γ L := by
  have hd0 : 0 < getDogleg i1 a1 i2 a2 := lt_of_le_of_ne (getDogleg_nonneg ..) (Ne.symm h0)
  obtain ⟨γ, τ, ν, hc, g0, t0, tL, -⟩ := exists_arc (tangent_unit i1 a1) (tangent_unit i2 a2)
    hd0 hpi (cos_getDogleg ..) hL
  refine ⟨γ, τ, ν, hc, g0, t0, tL, C06_step_is_arc_end hc g0 (div_pos hd0 hL).le hL.le ?_ t0 tL⟩
  rwa [div_mul_cancel₀ _ hL.ne']

/-- C06: with equal tangents the displacement is the straight line of length `L`. -/
theorem C06_straight (L : ℝ) {i1 a1 i2 a2 : ℝ} (h : tangent i1 a1 = tangent i2 a2) :
    minCurveStep L i1 a1 i2 a2 = L • tangent i1 a1 := minCurveStep_same h

example : ∃ i1 a1 i2 a2 : ℝ, getDogleg i1 a1 i2 a2 ≠ 0 ∧ getDogleg i1 a1 i2 a2 < π :=
  ⟨0, 0, π / 2, 0, by
    rw [getDogleg_eq_arccos]; simp [V3.dot, tangent, pi_ne_zero], by
    rw [getDogleg_eq_arccos]; simp [V3.dot, tangent, pi_pos]⟩

/-! ## C07 -/

/-- C07: in any computed survey with non-decreasing measured depths, the distance between the
positions of stations `i ≤ j` is at most the difference of their measured depths. -/
theorem C07_displacement_le_md {s : List Station} {start : V3} {u : LenUnit} {out : MinCurveOut}
    (h : minCurve s start u = .ok out) (hs : s.Pairwise (fun a b => a.md ≤ b.md))
    {i j : ℕ} (hij : i ≤ j) {a b : Station} {p q : V3}
    (ha : s[i]? = some a) (hb : s[j]? = some b)
    (hp : out.poss[i]? = some p) (hq : out.poss[j]? = some q) :
    V3.norm (q - p) ≤ b.md - a.md := by
  rw [minCurve_poss h] at hp hq
  exact positions_dist start s hs i j hij ha hb hp hq

/-- Every station has a position. -/
theorem C07_every_station_has_position {s : List Station} {start : V3} {u : LenUnit}
    {out : MinCurveOut} (h : minCurve s start u = .ok out) : out.poss.length = s.length := by
  rw [minCurve_poss h, positions_length]

/-- The computation succeeds exactly for a known unit and at least two stations. -/
theorem C07_succeeds_iff (s : List Station) (start : V3) (u : LenUnit) :
    (∃ out, minCurve s start u = .ok out) ↔ u ≠ .other ∧ 2 ≤ s.length := by
  constructor
  · rintro ⟨out, h⟩
    obtain ⟨s0, s1, rest, rfl⟩ := minCurve_ok_length h
    refine ⟨?_, by simp⟩
    rintro rfl
    simp [minCurve] at h
  · rintro ⟨hu, hl⟩
    match s, hl with
    | s0 :: s1 :: rest, _ => cases u <;> simp_all [minCurve]

example : ∃ (s : List Station) (out : MinCurveOut), minCurve s 0 .meters = .ok out ∧
    s.Pairwise (fun a b => a.md ≤ b.md) ∧ s.length = 3 :=
  ⟨[⟨0, 0, 0⟩, ⟨30, 0.1, 1⟩, ⟨60, 0.2, 1⟩], _, rfl, by norm_num, rfl⟩

/-! ## C08 -/

/-- C08: putting the interpolated station at any distance `x` between two stations does not
change the total displacement between them. -/
theorem C08_split_step {s1 s2 : Station} (hL : s1.md < s2.md) (hpi : dogleg2 s1 s2 < π) {x : ℝ}
    (hx0 : 0 ≤ x) (hx1 : x ≤ s2.md - s1.md) :
    deltaXyz s1 (interpStation s1 s2 x) + deltaXyz (interpStation s1 s2 x) s2
      = deltaXyz s1 s2 := by
  have h := interp_split hL hpi hx0 hx1
  rw [deltaXyz_eq, deltaXyz_eq, deltaXyz_eq, ← h, swap_add]
  simp only [interpStation, add_sub_cancel_left]
  congr 3
  ring

/-- C08: inserting the interpolated station in a survey leaves the computed position of every
other station unchanged: the new position list is the old one with one point added directly
after the station above. -/
theorem C08_insert_station {pre post : List Station} {s1 s2 : Station} (hL : s1.md < s2.md)
    (hpi : dogleg2 s1 s2 < π) {x : ℝ} (hx0 : 0 ≤ x) (hx1 : x ≤ s2.md - s1.md)
    {start : V3} {u : LenUnit} {out out' : MinCurveOut}
    (h : minCurve (pre ++ s1 :: s2 :: post) start u = .ok out)
    (h' : minCurve (pre ++ s1 :: interpStation s1 s2 x :: s2 :: post) start u = .ok out') :
    ∃ A B q, A.length = pre.length + 1 ∧ out.poss = A ++ B ∧ out'.poss = A ++ q :: B := by
  rw [minCurve_poss h, minCurve_poss h']
  exact positions_insert start pre post s1 s2 _ (C08_split_step hL hpi hx0 hx1)

/-- C08: the interpolated point is on the circular arc between the stations, in position and in
direction, at distance `x` from the first. -/
theorem C08_interpolated_point_on_arc {s1 s2 : Station} (hL : s1.md < s2.md)
    (h0 : dogleg2 s1 s2 ≠ 0) (hpi : dogleg2 s1 s2 < π) (pos1 : V3) :
    ∃ γ τ ν, CircularCurve γ τ ν (dogleg2 s1 s2 / (s2.md - s1.md)) ∧ γ 0 = 0 ∧
      τ 0 = tangent s1.inc s1.azi ∧ τ (s2.md - s1.md) = tangent s2.inc s2.azi ∧
      ∀ x, 0 ≤ x → x ≤ s2.md - s1.md →
        interpPosNev pos1 s1 s2 x = pos1 + γ x ∧
        tangent (interpStation s1 s2 x).inc (interpStation s1 s2 x).azi = τ x := by
  obtain ⟨γ, τ, ν, hc, g0, t0, tL, ts⟩ := interp_on_arc hL h0 hpi
  refine ⟨γ, τ, ν, hc, g0, t0, tL, fun x hx0 hx1 => ⟨?_, (ts x).symm⟩⟩
  have hd0 : 0 < dogleg2 s1 s2 := lt_of_le_of_ne (getDogleg_nonneg ..) (Ne.symm h0)
  have hLp : 0 < s2.md - s1.md := by linarith
  have hκ : 0 ≤ dogleg2 s1 s2 / (s2.md - s1.md) := (div_pos hd0 hLp).le
  have hkL : dogleg2 s1 s2 / (s2.md - s1.md) * (s2.md - s1.md) = dogleg2 s1 s2 := by field_simp
  unfold interpPosNev
  rw [arc_end hc g0 hκ hx0 (lt_of_le_of_lt
    ((mul_le_mul_of_nonneg_left hx1 hκ).trans hkL.le) hpi) t0 (ts x)]

example : (⟨0, 0, 0⟩ : Station).md < (⟨30, π / 2, 0⟩ : Station).md ∧
    dogleg2 ⟨0, 0, 0⟩ ⟨30, π / 2, 0⟩ ≠ 0 ∧ dogleg2 ⟨0, 0, 0⟩ ⟨30, π / 2, 0⟩ < π := by
  refine ⟨by norm_num, ?_, ?_⟩ <;> unfold dogleg2 <;> rw [getDogleg_eq_arccos] <;>
    simp [V3.dot, tangent, pi_ne_zero, pi_pos]

/-! ## C09 -/

/-- C09: appending stations never changes earlier positions. -/
theorem C09_causal {s t : List Station} {start : V3} {u : LenUnit} {out out' : MinCurveOut}
    (h : minCurve s start u = .ok out) (h' : minCurve (s ++ t) start u = .ok out') :
    out.poss <+: out'.poss := by
  rw [minCurve_poss h, minCurve_poss h']
  exact positions_append start s t

/-- C09: the first position is the start, and moving the start by `d` moves all positions
by `d`. -/
theorem C09_translation {s : List Station} {start d : V3} {u : LenUnit} {out out' : MinCurveOut}
    (h : minCurve s start u = .ok out) (h' : minCurve s (start + d) u = .ok out') :
    out.poss.head? = some start ∧ out'.poss = out.poss.map (· + d) := by
  rw [minCurve_poss h, minCurve_poss h']
  obtain ⟨s0, s1, rest, rfl⟩ := minCurve_ok_length h
  exact ⟨rfl, positions_translate start d _⟩

/-- C09: two surveys that agree down to a station agree on all positions down to it. -/
theorem C09_common_prefix {s t t' : List Station} {start : V3} {u : LenUnit}
    {out out' : MinCurveOut} (h : minCurve (s ++ t) start u = .ok out)
    (h' : minCurve (s ++ t') start u = .ok out') :
    out.poss.take s.length = out'.poss.take s.length := by
  rw [minCurve_poss h, minCurve_poss h']
  have e1 := positions_append start s t
  have e2 := positions_append start s t'
  rw [List.prefix_iff_eq_take, positions_length] at e1 e2
  rw [← e1, ← e2]

/-! ## C10 -/

/-- C10: adding `θ` to every azimuth (and turning the start about the vertical) leaves all
doglegs unchanged and turns every `[north, east, tvd]` position by `θ` about the vertical
(positions are stored as `[east, north, tvd]`, hence the swap of the first two components);
in particular every TVD is unchanged. -/
theorem C10_rotation (θ : ℝ) {s : List Station} {start start' : V3} {u : LenUnit}
    {out out' : MinCurveOut} (h : minCurve s start u = .ok out)
    (hst : (⟨start'.y, start'.x, start'.z⟩ : V3) = rotZ θ ⟨start.y, start.x, start.z⟩)
    (h' : minCurve (s.map fun t => ⟨t.md, t.inc, t.azi + θ⟩) start' u = .ok out') :
    out'.dogleg = out.dogleg ∧
    out'.poss.map (fun p => (⟨p.y, p.x, p.z⟩ : V3))
      = out.poss.map (fun p => rotZ θ ⟨p.y, p.x, p.z⟩) ∧
    out'.poss.map V3.z = out.poss.map V3.z := by
  have hd : out'.dogleg = out.dogleg := by
    obtain ⟨s0, s1, rest, rfl⟩ := minCurve_ok_length h
    rw [(minCurve_ok h).2]
    rw [List.map_cons, List.map_cons] at h'
    rw [(minCurve_ok h').2]
    congr 1
    have : ∀ l : List Station, pairwise dogleg2 (l.map fun t => ⟨t.md, t.inc, t.azi + θ⟩)
        = pairwise dogleg2 l := by
      intro l
      induction l with
      | nil => rfl
      | cons a t ih =>
        cases t with
        | nil => rfl
        | cons b t =>
          simp only [List.map_cons, pairwise] at ih ⊢
          rw [ih, dogleg2_rot]
    exact this (s0 :: s1 :: rest)
  have hs' : start' = swap (rotZ θ (swap start)) := by
    have : swap start' = rotZ θ (swap start) := hst
    rw [← this, swap_swap]
  have hp := positions_rot θ start s
  rw [← hs', ← minCurve_poss h, ← minCurve_poss h'] at hp
  refine ⟨hd, hp, ?_⟩
  have := congrArg (List.map V3.z) hp
  simpa [List.map_map, Function.comp_def, swap, rotZ] using this

example : (⟨(0 : V3).y, (0 : V3).x, (0 : V3).z⟩ : V3) = rotZ 1 ⟨(0 : V3).y, (0 : V3).x, (0 : V3).z⟩ := by
  ext <;> simp [rotZ]

end Welleng.Props
