import Verif.Props.ArcBack

/-! C394: a curve-hold-curve path from its other end (`/repo/welleng/utils.py` 529-700, 887-937). -/

namespace Welleng.Props

open Real Welleng Spec Tf

theorem arc_unit {v : V3} (hv : v.IsUnit) (pos : V3) (tf d : ℝ) {r : ℝ} (hr : 0 < r) :
    (getArc d r tf pos v false).vec.IsUnit := by
  have ho := toolDir_ortho (getAngles v true).1 (getAngles v true).2 tf
  rw [tangent_getAngles_nev hv] at ho
  have hk : (1 / r) ≠ 0 := by positivity
  rw [getArc_eq hv d tf pos hr.ne']
  exact (arc_circular hk hv (toolDir_unit _ _ tf) ho).unit_tan (d * r)

theorem arc_back {v : V3} (hv : v.IsUnit) (pos : V3) (tf : ℝ) {d r : ℝ} (hr : 0 < r)
    (h0 : 0 < d) (h2 : d < 2 * π) {p w : V3} (hp : (getArc d r tf pos v false).pos = p)
    (hw : (getArc d r tf pos v false).vec = w) :
    (getArc d r (getToolface p (-w) pos) p (-w) false).pos = pos ∧
    (getArc d r (getToolface p (-w) pos) p (-w) false).vec = -v := by
  obtain ⟨h1, h3, -⟩ := C392_back hv pos tf hr h0 h2
  rw [hp, hw] at h1 h3
  refine ⟨?_, ?_⟩
  · refine Eq.trans ?_ h1; simp [getArc]
  · refine Eq.trans ?_ (congrArg _ h3); simp [getArc]

/-- **C394** A curve-hold-curve path can be followed from its other end: from the end position in
the opposite direction, with the toolfaces read towards the start of each curve, the same doglegs and
the same straight in reverse order pass the same points in opposite directions and end at the start.
The lengths of the curves are exchanged. -/
theorem C394_other_end {vec0 : V3} (hv : vec0.IsUnit) (pos0 : V3) (tf1 tf2 distance : ℝ)
    {dl1 dl2 r : ℝ} (hr : 0 < r) (h1 : 0 < dl1) (h1' : dl1 < 2 * π) (h2 : 0 < dl2)
    (h2' : dl2 < 2 * π) :
    let p := makeClcPath tf1 dl1 distance tf2 dl2 pos0 vec0 r
    let q := makeClcPath (getToolface p.pos3 (-p.vec3) p.pos2) dl2 distance
      (getToolface p.pos1 (-p.vec1) pos0) dl1 p.pos3 (-p.vec3) r
    q.pos1 = p.pos2 ∧ q.vec1 = -p.vec2 ∧ q.pos2 = p.pos1 ∧ q.vec2 = -p.vec1 ∧ q.pos3 = pos0 ∧
      q.vec3 = -vec0 ∧ q.dist1 = p.dist2 ∧ q.dist2 = p.dist1 := by
  intro p q
  have u1 : p.vec1.IsUnit := arc_unit hv pos0 tf1 dl1 hr
  obtain ⟨a1, a2⟩ := arc_back u1 p.pos2 tf2 hr h2 h2' (p := p.pos3) (w := p.vec3) rfl rfl
  obtain ⟨b1, b2⟩ := arc_back hv pos0 tf1 hr h1 h1' (p := p.pos1) (w := p.vec1) rfl rfl
  have e1 : q.pos1 = p.pos2 := a1
  have e2 : q.vec1 = -p.vec1 := a2
  have e3 : q.pos2 = p.pos1 := by
    have : q.pos2 = q.pos1 + distance • q.vec1 := rfl
    rw [this, e1, e2]
    have : p.pos2 = p.pos1 + distance • p.vec1 := rfl
    rw [this]
    ext <;> simp
  have e4 : q.pos3 = (getArc dl1 r (getToolface p.pos1 (-p.vec1) pos0) q.pos2 q.vec1 false).pos ∧
      q.vec3 = (getArc dl1 r (getToolface p.pos1 (-p.vec1) pos0) q.pos2 q.vec1 false).vec :=
    ⟨rfl, rfl⟩
  obtain ⟨e5, e6⟩ := e4
  rw [e3, e2] at e5 e6
  exact ⟨e1, e2, e3, e2, e5.trans b1, e6.trans b2, rfl, rfl⟩

/-- Non-vacuity: a path from vertical with two curves. -/
example : V3.IsUnit ⟨0, 0, 1⟩ ∧ (0 : ℝ) < 400 ∧ (0 : ℝ) < π / 3 ∧ π / 3 < 2 * π := by
  have := pi_pos
  refine ⟨by simp [V3.IsUnit, V3.dot], by norm_num, by linarith, by linarith⟩

end Welleng.Props
