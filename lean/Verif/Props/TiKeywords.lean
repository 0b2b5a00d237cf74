import Verif.Props.TiData
import Mathlib.Analysis.Real.Pi.Bounds

/-!
C340: keyword arguments of the tortuosity indices.
-/

namespace Welleng.Props

open Real Sec Ti

theorem index_kappa (excess : ℕ → ℕ → ℝ) (f : ℝ → ℝ) (c : ℝ) (md : ℕ → ℝ) (n : ℕ) (l : List Bool) :
    Ti.index excess (fun x => c * f x) md n l = (Ti.index excess f md n l).map (·.map (c * ·)) := by
  unfold Ti.index
  simp only
  split
  · rfl
  · split_ifs
    · simp only [Option.map_some, List.map_cons, mul_zero, List.map_zipWith]
      congr 3
      funext j x
      ring
    · rfl

/-- C340, partial: the keyword under which the code looks up the scale is `kapa`: both indices are
proportional to it. -/
theorem C340_kapa_partial (rtol k : ℝ) (t z : Option ℝ) (kw : List (String × ℝ)) (sv : ℕ → Row) (n : ℕ)
    (noisy : ℝ → (ℕ → Row) × ℕ) :
    tiMethod rtol t (("kapa", k) :: kw) sv n
      = (tiMethod rtol t (("kapa", 1) :: kw) sv n).map (·.map (k * ·)) ∧
    mtiMethod rtol t z (("kapa", k) :: kw) sv n noisy
      = (mtiMethod rtol t z (("kapa", 1) :: kw) sv n noisy).map (·.map (k * ·)) := by
  have e : ∀ x d, kwGet (("kapa", x) :: kw) "kapa" d = x := fun x d => by simp [kwGet, List.lookup]
  have c : ∀ x y d, kwGet (("kapa", x) :: kw) "coeff" d = kwGet (("kapa", y) :: kw) "coeff" d := by
    intro x y d; simp [kwGet, List.lookup]
  constructor
  · unfold tiMethod tiOf tortuosityIndex
    rw [e, e, c k 1, ← index_kappa]
    congr 1
    funext x
    ring
  · unfold mtiMethod
    simp only
    generalize (match z with
      | none => (sv, n)
      | some x => if x = 0 then (sv, n) else noisy x) = s
    unfold mtiOf modifiedTortuosityIndex
    rw [e, e, c k 1, ← index_kappa]
    congr 1
    funext x
    ring

/-- C340 is false: a scale passed as `kappa` changes neither index, for any survey. -/
theorem C340_kappa_ignored (rtol k : ℝ) (t z : Option ℝ) (kw : List (String × ℝ)) (sv : ℕ → Row) (n : ℕ)
    (noisy : ℝ → (ℕ → Row) × ℕ) :
    tiMethod rtol t (("kappa", k) :: kw) sv n = tiMethod rtol t kw sv n ∧
    mtiMethod rtol t z (("kappa", k) :: kw) sv n noisy = mtiMethod rtol t z kw sv n noisy := by
  constructor <;> simp [tiMethod, mtiMethod, kwGet, List.lookup]

/-- A quarter circle from the vertical to the north, 100 m in radius. -/
noncomputable def quarter (k : ℕ) : Row :=
  if k = 0 then ⟨⟨0, 0, 0⟩, 0, 0, 0⟩ else ⟨⟨50 * π, π / 2, 0⟩, ⟨100, 0, 100⟩, 54 / π, 0⟩

theorem quarter_index (c : ℝ) (hc : 0 < c) (kappa rtol : ℝ) (t : Option ℝ) :
    tiOf c kappa rtol t quarter 1 = some [0, 1 / 2 * (kappa / (50 * π / c)) * (π / (2 * √2) - 1)] := by
  have hpi := pi_pos
  have h2 : (0 : ℝ) < √2 := by positivity
  have hno : sectionNo (fun k => (quarter k).st.md) [0] 1 = 1 := by
    simp [sectionNo, searchsortedLeft, quarter, hpi]
  have hd : V3.norm ((⟨100, 0, 100⟩ : V3) - 0) = 100 * √2 := by
    unfold V3.norm V3.dot
    simp only [V3.sub_x, V3.sub_y, V3.sub_z, V3.zero_x, V3.zero_y, V3.zero_z]
    rw [show ((100 : ℝ) - 0) * (100 - 0) + (0 - 0) * (0 - 0) + (100 - 0) * (100 - 0) = 100 ^ 2 * 2 by norm_num,
      sqrt_mul (by norm_num), sqrt_sq (by norm_num)]
  have he : excessTi c (fun k => (quarter k).st.md) (fun k => (quarter k).pos) 0 1 = π / (2 * √2) - 1 := by
    simp only [excessTi, quarter, one_ne_zero, if_true, if_false]
    rw [hd]
    field_simp
    ring
  unfold tiOf tortuosityIndex Ti.index
  have hs : Ti.starts (tiContinuous rtol t quarter 1) = [0] := by simp [tiContinuous, Ti.starts, breaks]
  rw [hs]
  simp only [List.range'_one, List.map_cons, List.map_nil, hno, sectionStart, accumulate, List.length_singleton]
  simp [sectionTurn, he, hno]
  simp [quarter]
  norm_num

/-- C340 is false: the index of a quarter circle with `kappa=2` is not twice the one with `kappa=1`. -/
theorem C340_not_scaled : ∃ l, tiMethod 0.01 none [("kappa", 2)] quarter 1 = some l ∧
    tiMethod 0.01 none [("kappa", 1)] quarter 1 = some l ∧ l ≠ l.map (2 * ·) := by
  have hpi := pi_gt_three
  have e := quarter_index 0.3048 (by norm_num) 1e7 0.01 none
  have h2 : √2 ^ 2 = (2 : ℝ) := Real.sq_sqrt (by norm_num)
  have h3 : (0 : ℝ) < √2 := by positivity
  have h4 : √2 < 1.45 := by nlinarith
  have hpos : 0 < 1 / 2 * (1e7 / (50 * π / 0.3048)) * (π / (2 * √2) - 1) := by
    have : 1 < π / (2 * √2) := by rw [lt_div_iff₀ (by positivity)]; linarith
    have : 0 < π / (2 * √2) - 1 := by linarith
    positivity
  refine ⟨[0, 1 / 2 * (1e7 / (50 * π / 0.3048)) * (π / (2 * √2) - 1)], ?_, ?_, ?_⟩
  · rw [(C340_kappa_ignored 0.01 2 none none [] quarter 1 fun _ => (quarter, 1)).1]
    exact e
  · rw [(C340_kappa_ignored 0.01 1 none none [] quarter 1 fun _ => (quarter, 1)).1]
    exact e
  · intro h
    simp only [List.map_cons, List.map_nil, List.cons.injEq, and_true] at h
    linarith [h.2]

end Welleng.Props
