import Verif.Model.Angles
import Verif.Spec.Covariance
import Mathlib.Tactic.Linarith
import Mathlib.Tactic.Positivity

/-!
C369: covariances taken apart and put together again.
-/

namespace Welleng.Props

open Real Spec

/-- **C369** (partial) A covariance is put together again from the elements that `errors_from_cov` lists, and
the list is got back from the covariance made of it. -/
theorem C369_errors_partial :
    (∀ c : M3, (∀ i j, c i j = c j i) →
      let e := errorsFromCov c
      makeLongCov e.1 e.2.1 e.2.2.1 e.2.2.2.1 e.2.2.2.2.1 e.2.2.2.2.2 = c) ∧
    ∀ aa ab ac bb bc cc : ℝ, errorsFromCov (makeLongCov aa ab ac bb bc cc) = (aa, ab, ac, bb, bc, cc) ∧
      ∀ i j, makeLongCov aa ab ac bb bc cc i j = makeLongCov aa ab ac bb bc cc j i := by
  refine ⟨fun c hc => ?_, fun aa ab ac bb bc cc => ⟨rfl, fun i j => ?_⟩⟩
  · have h1 := hc 0 1
    have h2 := hc 0 2
    have h3 := hc 1 2
    ext i j
    fin_cases i <;> fin_cases j <;> simp [makeLongCov, errorsFromCov, h1, h2, h3]
  · fin_cases i <;> fin_cases j <;> rfl

/-- **C369** (partial) `get_sigmas(long=True)` lists the same six numbers in another order. -/
theorem C369_long_partial (c : M3) (hc : ∀ i j, c i j = c j i) :
    let s := getSigmasLong c
    makeLongCov s.1 s.2.2.2.1 s.2.2.2.2.1 s.2.1 s.2.2.2.2.2 s.2.2.1 = c :=
  C369_errors_partial.1 c hc

/-- C369 is false of `get_sigmas(long=True)`: given to `make_long_cov` as they come, its values give back the
covariance only if the three variances satisfy these equations. -/
theorem C369_order (c : M3) (hc : ∀ i j, c i j = c j i) :
    (let s := getSigmasLong c
     makeLongCov s.1 s.2.1 s.2.2.1 s.2.2.2.1 s.2.2.2.2.1 s.2.2.2.2.2 = c) ↔
      c 0 1 = c 1 1 ∧ c 0 2 = c 2 2 ∧ c 1 2 = c 2 2 := by
  have h1 := hc 0 1
  have h2 := hc 0 2
  have h3 := hc 1 2
  constructor
  · intro h
    have a1 := congrFun (congrFun h 0) 1
    have a2 := congrFun (congrFun h 0) 2
    have a3 := congrFun (congrFun h 1) 2
    simp [makeLongCov, getSigmasLong] at a1 a2 a3
    refine ⟨a1.symm, a2.symm, ?_⟩
    linarith
  · rintro ⟨a1, a2, a3⟩
    ext i j
    fin_cases i <;> fin_cases j <;> simp [makeLongCov, getSigmasLong] <;> linarith

/-- Three independent errors come back as a matrix that is no covariance. -/
theorem C369_not_covariance {a b c : ℝ} (ha : 0 < a) (hb : 0 < b) :
    let s := getSigmasLong (makeCov a b c false)
    ¬ IsCov (makeLongCov s.1 s.2.1 s.2.2.1 s.2.2.2.1 s.2.2.2.2.1 s.2.2.2.2.2) := by
  intro s h
  have hm : makeLongCov s.1 s.2.1 s.2.2.1 s.2.2.2.1 s.2.2.2.2.1 s.2.2.2.2.2
      = !![a * a, b * b, c * c; b * b, 0, 0; c * c, 0, 0] := by
    ext i j
    fin_cases i <;> fin_cases j <;> simp [s, makeLongCov, getSigmasLong, makeCov]
  rw [hm] at h
  have := h.nonneg ![b * b, -(a * a), 0]
  simp [Fin.sum_univ_three] at this
  have hp : 0 < a * a * (b * b) * (b * b) := by positivity
  nlinarith

/-- **C369** `make_cov` of three standard deviations is a covariance with just these deviations, independent or
fully correlated. -/
theorem C369_make_cov {a b c : ℝ} (ha : 0 ≤ a) (hb : 0 ≤ b) (hc : 0 ≤ c) (long : Bool) :
    IsCov (makeCov a b c long) ∧ getSigmas (makeCov a b c long) = (a, b, c) ∧
    (long = false → ∀ i j, i ≠ j → makeCov a b c long i j = 0) ∧
    (long = true → ∀ v : Fin 3 → ℝ,
      ∑ i, ∑ j, v i * makeCov a b c long i j * v j = (v 0 * a + v 1 * b + v 2 * c) ^ 2) := by
  have key : ∀ v : Fin 3 → ℝ, ∑ i, ∑ j, v i * makeCov a b c true i j * v j = (v 0 * a + v 1 * b + v 2 * c) ^ 2 := by
    intro v
    simp [makeCov, Fin.sum_univ_three]
    ring
  refine ⟨⟨?_, ?_⟩, ?_, ?_, ?_⟩
  · intro i j
    cases long <;> fin_cases i <;> fin_cases j <;> simp [makeCov]
  · intro v
    cases long with
    | true => rw [key]; positivity
    | false =>
      have : ∑ i, ∑ j, v i * makeCov a b c false i j * v j = (v 0 * a) ^ 2 + (v 1 * b) ^ 2 + (v 2 * c) ^ 2 := by
        simp [makeCov, Fin.sum_univ_three]
        ring
      rw [this]; positivity
  · cases long <;> simp [getSigmas, makeCov, sqrt_mul_self ha, sqrt_mul_self hb, sqrt_mul_self hc]
  · rintro rfl i j hij
    fin_cases i <;> fin_cases j <;> simp [makeCov] at hij ⊢
  · rintro rfl
    exact key

/-- Not vacuous: a symmetric matrix whose elements are all different. -/
example : ∀ i j, (makeLongCov 4 1 2 9 3 16) i j = (makeLongCov 4 1 2 9 3 16) j i :=
  (C369_errors_partial.2 4 1 2 9 3 16).2

end Welleng.Props
