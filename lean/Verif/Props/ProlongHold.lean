import Verif.Props.ShortestCurveHold

/-!
C412: points further along (or back along) the straight of a curve-and-hold solution are reached
by the same curve.
-/

namespace Welleng.Props

open Real Spec Con

/-- The direction of the straight of a curve-and-hold solution. -/
theorem curveHold_direction {pos1 vec1 u posT : V3} {a b R : ℝ} {o : CurveHold} (hv : vec1.IsUnit)
    (hu : u.IsUnit) (ho : V3.dot vec1 u = 0) (hR : 0 < R) (hb : 0 < b) (hb2 : b ≠ 2 * R)
    (h : posT = pos1 + a • vec1 + b • u) (hq : 0 ≤ a ^ 2 + b ^ 2 - 2 * R * b)
    (hs : curveHold R ⟨V3.norm (posT - pos1), a, b⟩ pos1 vec1 posT = some o) :
    o.vecTarget = cos o.dogleg • vec1 + sin o.dogleg • u ∧ o.distCurve = R * o.dogleg ∧
      o.pos2 = posT - o.tangent • o.vecTarget := by
  obtain ⟨o', k, ⟨γ, τ, ν, hc, h0, ht, k2, k2'⟩, k3, k4, k5, k6, k7⟩ :=
    curveHold_reaches hv hu ho hR hb hb2 h hq
  obtain rfl : o' = o := Option.some.inj (k.symm.trans hs)
  obtain ⟨i1, i2, i3, i4, i5, i6⟩ := curveHold_in_plane hv hu ho hR hb hb2 h hq hs
  have hd := circular_disp hR hc o'.distCurve
  have htan := hc.tan_eq o'.distCurve
  have hD : o'.distCurve / R = o'.dogleg := by rw [k6]; field_simp
  rw [h0, ht, k2, hD] at hd
  rw [ht, k2', show 1 / R * o'.distCurve = o'.distCurve / R by ring, hD] at htan
  have e1 : posT - pos1 = a • vec1 + b • u := by rw [h]; abel
  have e2 : posT - pos1 = (o'.pos2 - pos1) + o'.tangent • o'.vecTarget := by
    have := k3.2
    nth_rewrite 1 [this]
    abel
  have hpos : a • vec1 + b • u = (R * sin o'.dogleg + o'.tangent * cos o'.dogleg) • vec1
      + (R * (1 - cos o'.dogleg) + o'.tangent * sin o'.dogleg) • ν 0 := by
    rw [← e1, e2, hd, htan]
    ext <;> simp <;> ring
  rw [← i5, ← i6] at hpos
  have hu' : u = ν 0 := by
    have h2 : b • u = b • ν 0 := by simpa using hpos
    have h3 := congrArg (fun z => (1 / b) • z) h2
    ext
    · have := congrArg V3.x h3; simpa [hb.ne'] using this
    · have := congrArg V3.y h3; simpa [hb.ne'] using this
    · have := congrArg V3.z h3; simpa [hb.ne'] using this
  refine ⟨by rw [htan, hu'], k6, ?_⟩
  rw [eq_sub_iff_add_eq]
  exact k3.2.symm

/-- C412: if the solution turns by at most half a turn, the point `s` further along its straight
(or back along it, not beyond its start) has the solution with the same curve and the straight
longer by `s`, unless that point is exactly one diameter to the side. -/
theorem C412_along_the_straight {pos1 vec1 u posT : V3} {a b R s : ℝ} {o : CurveHold}
    (hv : vec1.IsUnit) (hu : u.IsUnit) (ho : V3.dot vec1 u = 0) (hR : 0 < R) (hb : 0 < b)
    (hbR : b ≠ 2 * R) (h : posT = pos1 + a • vec1 + b • u)
    (hout : R ≤ V3.norm (posT - (pos1 + R • u))) (hsol : solveCurveHold pos1 vec1 posT R = some o)
    (hpi : o.dogleg ≤ π) (hs : 0 ≤ o.tangent + s)
    (hdiam : V3.dot u (posT + s • o.vecTarget - pos1) ≠ 2 * R) :
    solveCurveHold pos1 vec1 (posT + s • o.vecTarget) R
      = some { o with tangent := o.tangent + s, md := o.md + s } := by
  have hq := (outside_iff hv hu ho hR h).mp hout
  have k := hsol
  rw [solveCurveHold, distBatch_eq hv hu ho hb.le h] at k
  obtain ⟨i1, i2, i3, i4, i5, i6⟩ := curveHold_in_plane hv hu ho hR hb hbR h hq k
  obtain ⟨j1, j2, j3⟩ := curveHold_direction hv hu ho hR hb hbR h hq k
  set a' := a + s * cos o.dogleg with ha'
  set b' := b + s * sin o.dogleg with hb'
  have h' : posT + s • o.vecTarget = pos1 + a' • vec1 + b' • u := by
    rw [h, j1, ha', hb']; ext <;> simp <;> ring
  have I5 : a' = R * sin o.dogleg + (o.tangent + s) * cos o.dogleg := by
    rw [ha']; linear_combination i5
  have I6 : b' = R * (1 - cos o.dogleg) + (o.tangent + s) * sin o.dogleg := by
    rw [hb']; linear_combination i6
  have hb0 : 0 < b' := by
    have c1 : cos o.dogleg < 1 := by
      have := cos_lt_cos_of_nonneg_of_le_pi le_rfl hpi i1
      rwa [cos_zero] at this
    have s1 : 0 ≤ sin o.dogleg := sin_nonneg_of_nonneg_of_le_pi i1.le hpi
    rw [I6]
    have := mul_pos hR (sub_pos.mpr c1)
    have := mul_nonneg hs s1
    linarith
  have hne : b' ≠ 2 * R := by
    intro hc
    apply hdiam
    rw [h', show pos1 + a' • vec1 + b' • u - pos1 = a' • vec1 + b' • u by abel]
    simp only [V3.dot_add_right, V3.dot_smul_right, V3.dot_comm u vec1, ho]
    rw [hu, ← hc]; ring
  have hq' : 0 ≤ a' ^ 2 + b' ^ 2 - 2 * R * b' := by
    rw [← straight_sq I5 I6]; positivity
  obtain ⟨O, K, -⟩ := curveHold_reaches hv hu ho hR hb0 hne h' hq'
  obtain ⟨l1, l2, l3, l4, l5, l6⟩ := curveHold_in_plane hv hu ho hR hb0 hne h' hq' K
  obtain ⟨m1, m2, m3⟩ := curveHold_direction hv hu ho hR hb0 hne h' hq' K
  obtain ⟨x, y⟩ := toward_unique hb0 l1 l2 i1 i2 l3 hs l5 l6 I5 I6
  rw [solveCurveHold, distBatch_eq hv hu ho hb0.le h', K]
  have hvec : O.vecTarget = o.vecTarget := by rw [m1, j1, y]
  rw [hvec, x] at m3
  obtain ⟨O1, O2, O3, O4, O5, O6⟩ := O
  obtain ⟨p1, p2, p3, p4, p5, p6⟩ := o
  simp only at *
  subst x y
  simp only [Option.some.injEq, CurveHold.mk.injEq, true_and]
  refine ⟨?_, hvec, by rw [m2, j2], by rw [l4, i4]; ring⟩
  rw [m3, j3]; ext <;> simp <;> ring

/-- C412: a quarter turn of radius 1 and a straight of 2; the straight 1 longer. -/
example : ∃ o, solveCurveHold 0 ⟨0, 0, 1⟩ ⟨3, 0, 1⟩ 1 = some o ∧ o.dogleg = π / 2 ∧
    o.tangent = 2 ∧ solveCurveHold 0 ⟨0, 0, 1⟩ ((⟨3, 0, 1⟩ : V3) + (1 : ℝ) • o.vecTarget) 1
      = some { o with tangent := o.tangent + 1, md := o.md + 1 } := by
  have hv : (⟨0, 0, 1⟩ : V3).IsUnit := by norm_num [V3.IsUnit, V3.dot]
  have hu : (⟨1, 0, 0⟩ : V3).IsUnit := by norm_num [V3.IsUnit, V3.dot]
  have ho : V3.dot (⟨0, 0, 1⟩ : V3) ⟨1, 0, 0⟩ = 0 := by norm_num [V3.dot]
  have h : (⟨3, 0, 1⟩ : V3) = 0 + (1 : ℝ) • (⟨0, 0, 1⟩ : V3) + (3 : ℝ) • ⟨1, 0, 0⟩ := by
    ext <;> simp
  have hq : (0 : ℝ) ≤ 1 ^ 2 + 3 ^ 2 - 2 * 1 * 3 := by norm_num
  obtain ⟨o, k, -⟩ := curveHold_reaches hv hu ho one_pos (by norm_num) (by norm_num) h hq
  have hsol : solveCurveHold 0 ⟨0, 0, 1⟩ ⟨3, 0, 1⟩ 1 = some o := by
    rw [solveCurveHold, distBatch_eq hv hu ho (by norm_num) h, k]
  obtain ⟨i1, i2, i3, -, i5, i6⟩ :=
    curveHold_in_plane hv hu ho one_pos (by norm_num) (by norm_num) h hq k
  obtain ⟨x, y⟩ := toward_unique (d := o.dogleg) (D := π / 2) (t := o.tangent) (T := 2) (R := 1)
    (a := 1) (b := 3) (by norm_num) i1 i2 (by positivity) (by linarith [pi_pos]) i3
    (by norm_num) i5 i6 (by norm_num) (by norm_num)
  have hj := (curveHold_direction hv hu ho one_pos (by norm_num) (by norm_num) h hq k).1
  refine ⟨o, hsol, y, x, C412_along_the_straight hv hu ho one_pos (by norm_num) (by norm_num) h
    ((outside_iff hv hu ho one_pos h).mpr hq) hsol (by rw [y]; linarith [pi_pos])
    (by rw [x]; norm_num) ?_⟩
  rw [hj, y]
  norm_num [V3.dot]

end Welleng.Props
