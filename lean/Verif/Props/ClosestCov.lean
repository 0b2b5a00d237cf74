import Verif.Props.ClosestPoint
import Verif.Props.InterpolateCov
import Verif.Props.Clearance

/-!
Property C196: the covariance of the offset well at the closest point
(`/repo/welleng/clearance.py` 612-660, 723-744).
-/

namespace Welleng.Props

open Real Welleng Spec Clr

theorem closestPoint_searched {opt : Minimiser} {off : SurveyG} {f : ℕ → V3} {p : V3} {c : Closest}
    (h : closestPoint opt off f p = some c) : ∃ j, searchInterval opt off f p j = some c := by
  unfold closestPoint at h
  simp only at h
  generalize h1 : (if 0 < nearest off p then searchInterval opt off f p (nearest off p - 1) else none)
    = r1 at h
  generalize h2 : (if nearest off p < off.nev.length - 1 then searchInterval opt off f p (nearest off p)
    else none) = r2 at h
  have e1 : ∀ x, r1 = some x → ∃ j, searchInterval opt off f p j = some x := by
    intro x hx
    rw [hx] at h1
    split_ifs at h1
    exact ⟨_, h1⟩
  have e2 : ∀ x, r2 = some x → ∃ j, searchInterval opt off f p j = some x := by
    intro x hx
    rw [hx] at h2
    split_ifs at h2
    exact ⟨_, h2⟩
  cases r1 with
  | none =>
    cases r2 with
    | none => simp at h
    | some b => exact e2 c (by simpa using h)
  | some a =>
    cases r2 with
    | none => exact e1 c (by simpa using h)
    | some b =>
      simp only at h
      split_ifs at h
      · exact e1 c h
      · exact e2 c h

/-- C196: if the offset well has a covariance for each station, the point reported as closest has one.
Each of its entries is the value at the point's depth of the straight line through the entries of the two
stations around the point, and it is a covariance matrix if those of the two stations are. -/
theorem C196_covariance_at_closest {off : SurveyG} (hsort : off.st.Pairwise fun a b => a.md < b.md)
    {opt : Minimiser} (hopt : ∀ g b, 0 ≤ b → 0 ≤ opt g b ∧ opt g b ≤ b) (f : ℕ → V3) (p : V3)
    {cs : List M3} (hcov : off.cov = some cs) (hcs : cs.length = off.st.length) {c : Closest}
    (h : closestPoint opt off f p = some c) :
    ∃ a b c1 c2 m, off.st[c.interval]? = some a ∧ off.st[c.interval + 1]? = some b ∧
      cs[c.interval]? = some c1 ∧ cs[c.interval + 1]? = some c2 ∧ 0 ≤ c.x ∧ c.x ≤ b.md - a.md ∧
      c.cov = some m ∧
      (∀ i j, (m i j - c1 i j) * (b.md - a.md) = (c2 i j - c1 i j) * c.x) ∧
      (IsCov c1 → IsCov c2 → IsCov m) := by
  obtain ⟨j, hj⟩ := closestPoint_searched h
  unfold searchInterval at hj
  cases ha : off.st[j]? with
  | none => rw [ha] at hj; simp at hj
  | some a =>
  cases hb : off.st[j + 1]? with
  | none => rw [ha, hb] at hj; simp at hj
  | some b =>
  cases hp : off.nev[j]? with
  | none => rw [ha, hb, hp] at hj; simp at hj
  | some p1 =>
  rw [ha, hb, hp] at hj
  simp only at hj
  obtain ⟨i1, g1⟩ := List.getElem?_eq_some_iff.mp ha
  obtain ⟨i2, g2⟩ := List.getElem?_eq_some_iff.mp hb
  have hlt : a.md < b.md := by
    rw [← g1, ← g2]
    exact List.pairwise_iff_getElem.mp hsort _ _ _ _ (by omega)
  have k1 : cs[j]? = some cs[j] := List.getElem?_eq_getElem (by omega)
  have k2 : cs[j + 1]? = some cs[j + 1] := List.getElem?_eq_getElem (by omega)
  rw [hcov] at hj
  simp only at hj
  rw [k1, k2] at hj
  simp only at hj
  cases hi : interpolateSurvey off (f j) (opt (objective p p1 a b) (b.md - a.md)) j with
  | none => rw [hi] at hj; simp at hj
  | some node =>
    rw [hi] at hj
    simp only [Option.some.injEq] at hj
    subst hj
    obtain ⟨o1, o2⟩ := hopt (objective p p1 a b) (b.md - a.md) (by linarith)
    refine ⟨a, b, cs[j], cs[j + 1], _, ha, hb, k1, k2, o1, o2, rfl, ?_, ?_⟩
    · intro i k
      have : b.md - a.md ≠ 0 := by linarith
      simp only [lerpCov, Matrix.add_apply, Matrix.smul_apply, Matrix.sub_apply, smul_eq_mul, sub_zero]
      field_simp
      ring
    · intro hc1 hc2
      refine C31_interpolated hc1 hc2 ?_ ?_
      · rw [sub_zero]; exact div_nonneg o1 (by linarith)
      · rw [sub_zero]; exact (div_le_one (by linarith)).mpr o2

/-- An optimiser that returns the middle meets the hypothesis. -/
example : ∀ (g : ℝ → ℝ) (b : ℝ), 0 ≤ b → 0 ≤ b / 2 ∧ b / 2 ≤ b := fun _ b hb =>
  ⟨by linarith, by linarith⟩

end Welleng.Props
