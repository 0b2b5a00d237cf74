import Verif.Model.Survey
import Verif.Lemmas.MinCurveList
import Mathlib.Data.List.Chain

namespace Welleng.Sv

open Real Spec

theorem degrees_radians (x : ℝ) : degrees (radians x) = x := by
  unfold degrees radians; field_simp

theorem radians_degrees (x : ℝ) : radians (degrees x) = x := by
  unfold degrees radians; field_simp

theorem degrees_add (x y : ℝ) : degrees (x + y) = degrees x + degrees y := by
  unfold degrees; ring

theorem degrees_sub (x y : ℝ) : degrees (x - y) = degrees x - degrees y := by
  unfold degrees; ring

theorem radians_add (x y : ℝ) : radians (x + y) = radians x + radians y := by
  unfold radians; ring

theorem radians_sub (x y : ℝ) : radians (x - y) = radians x - radians y := by
  unfold radians; ring

/-! ### Cumulative sums -/

theorem cumsumR_length (acc : ℝ) (l : List ℝ) : (cumsumR acc l).length = l.length := by
  induction l generalizing acc with
  | nil => rfl
  | cons a t ih => simp [cumsumR, ih]

theorem cumsumR_getElem? (acc : ℝ) (l : List ℝ) (k : ℕ) (hk : k < l.length) :
    (cumsumR acc l)[k]? = some (acc + (l.take (k + 1)).sum) := by
  induction l generalizing acc k with
  | nil => simp at hk
  | cons a t ih =>
    cases k with
    | zero => simp [cumsumR]
    | succ k =>
      simp only [cumsumR, List.getElem?_cons_succ]
      rw [ih _ _ (by simpa using hk)]
      simp [add_assoc]

/-- Telescoping: if the entries are the differences of `g` along the list, the partial sums
are the total differences. -/
theorem pairwise_sum {β : Type*} (f : β → β → ℝ) (g : β → ℝ) (a : β) (l : List β)
    (h : List.IsChain (fun x y => f x y = g y - g x) (a :: l)) (k : ℕ) (b : β)
    (hb : (a :: l)[k]? = some b) :
    ((pairwise f (a :: l)).take k).sum = g b - g a := by
  induction l generalizing a k with
  | nil =>
    cases k with
    | zero => simp only [List.getElem?_cons_zero, Option.some.injEq] at hb; subst hb; simp
    | succ k => simp at hb
  | cons c t ih =>
    cases k with
    | zero => simp only [List.getElem?_cons_zero, Option.some.injEq] at hb; subst hb; simp
    | succ k =>
      rw [List.isChain_cons_cons] at h
      simp only [List.getElem?_cons_succ] at hb
      have := ih c h.2 k hb
      simp only [pairwise, List.take_succ_cons, List.sum_cons, this, h.1]
      ring

theorem getRf_nonneg {d : ℝ} (h0 : 0 ≤ d) (h1 : d ≤ π) : 0 ≤ getRf d := by
  unfold getRf
  split_ifs with h
  · exact zero_le_one
  · have hs : 0 ≤ sin (d / 2) := sin_nonneg_of_nonneg_of_le_pi (by linarith) (by linarith)
    have hc : 0 ≤ cos (d / 2) := cos_nonneg_of_mem_Icc ⟨by linarith [pi_pos], by linarith⟩
    rw [tan_eq_sin_div_cos]
    positivity

theorem getRf_pos {d : ℝ} (h0 : 0 ≤ d) (h1 : d < π) : 0 < getRf d := by
  unfold getRf
  split_ifs with h
  · exact zero_lt_one
  · have hd : 0 < d := lt_of_le_of_ne h0 (Ne.symm h)
    have := tan_pos_of_pos_of_lt_pi_div_two (x := d / 2) (by linarith) (by linarith)
    positivity

end Welleng.Sv
