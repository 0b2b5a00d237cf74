import Verif.Props.MeshRings
import Mathlib.Analysis.Convex.Hull

/-! C383: rings for a higher confidence or a larger margin contain the smaller ones. -/

namespace Welleng.Props

open Real Welleng Mesh

/-- The cross-section that the ellipse method draws at a station: everything between its vertices. -/
noncomputable def crossSection (h l θ inc azi : ℝ) (nev : Fin 3 → ℝ) (n : ℕ) : Set (Fin 3 → ℝ) :=
  convexHull ℝ {v | ∃ i < n, v = placed inc azi nev (ellipseVertex h l θ n i)}

theorem lam_mod {n : ℕ} (hn : 0 < n) (j : ℕ) :
    cos (lam n (j % n)) = cos (lam n j) ∧ sin (lam n (j % n)) = sin (lam n j) := by
  have hn' : (n : ℝ) ≠ 0 := by positivity
  have e : lam n j = lam n (j % n) + ((j / n : ℕ) : ℝ) * (2 * π) := by
    have h : ((j % n : ℕ) : ℝ) + n * ((j / n : ℕ) : ℝ) = j := by exact_mod_cast Nat.mod_add_div j n
    unfold lam
    rw [← h]
    field_simp
  rw [e, cos_add_nat_mul_two_pi, sin_add_nat_mul_two_pi]
  exact ⟨rfl, rfl⟩

theorem vertex_mem {n : ℕ} (hn : 0 < n) (h l θ inc azi : ℝ) (nev : Fin 3 → ℝ) (j : ℕ) :
    placed inc azi nev (ellipseVertex h l θ n j) ∈ crossSection h l θ inc azi nev n := by
  refine subset_convexHull ℝ _ ⟨j % n, Nat.mod_lt _ hn, ?_⟩
  simp only [ellipseVertex, (lam_mod hn j).1, (lam_mod hn j).2]

theorem lam_mirror {m : ℕ} (hm : 0 < m) (j : ℕ) :
    cos (lam (2 * m) (j * (2 * m - 1))) = cos (lam (2 * m) j) ∧
    sin (lam (2 * m) (j * (2 * m - 1))) = -sin (lam (2 * m) j) := by
  have hm' : (m : ℝ) ≠ 0 := by positivity
  have e : lam (2 * m) (j * (2 * m - 1)) = (j : ℝ) * (2 * π) - lam (2 * m) j := by
    unfold lam
    rw [Nat.cast_mul, Nat.cast_sub (by omega)]
    push_cast
    field_simp
  rw [e, cos_nat_mul_two_pi_sub, sin_nat_mul_two_pi_sub]
  exact ⟨rfl, rfl⟩

theorem lam_opposite {m : ℕ} (hm : 0 < m) (j : ℕ) :
    cos (lam (2 * m) (j + m)) = -cos (lam (2 * m) j) ∧
    sin (lam (2 * m) (j + m)) = -sin (lam (2 * m) j) := by
  have hm' : (m : ℝ) ≠ 0 := by positivity
  have e : lam (2 * m) (j + m) = lam (2 * m) j + π := by
    unfold lam
    push_cast
    field_simp
  rw [e, cos_add_pi, sin_add_pi]
  exact ⟨rfl, rfl⟩

/-- **C383** (partial) Rings with an even number of vertices: those for a lower confidence, a
smaller hole or smaller margins lie inside those for the higher. -/
theorem C383_nested_partial {m : ℕ} (hm : 0 < m) (s1 s2 θ inc azi : ℝ) (nev : Fin 3 → ℝ)
    (sigma sigma' radius radius' Sm Sm' pa pa' : ℝ) (h1 : 0 ≤ s1) (h2 : 0 ≤ s2)
    (hs : 0 ≤ sigma ∧ sigma ≤ sigma') (hr : 0 ≤ radius ∧ radius ≤ radius')
    (hS : 0 ≤ Sm ∧ Sm ≤ Sm') (hp : 0 ≤ pa ∧ pa ≤ pa') :
    crossSection (semiAxis s1 sigma radius Sm pa) (semiAxis s2 sigma radius Sm pa) θ inc azi nev
        (2 * m) ⊆
      crossSection (semiAxis s1 sigma' radius' Sm' pa') (semiAxis s2 sigma' radius' Sm' pa') θ inc azi
        nev (2 * m) := by
  have hax : ∀ s, 0 ≤ s → ∃ a, -1 ≤ a ∧ a ≤ 1 ∧
      semiAxis s sigma radius Sm pa = a * semiAxis s sigma' radius' Sm' pa' := by
    intro s h0
    have hm1 := mul_le_mul_of_nonneg_left hs.2 h0
    have hm0 := mul_nonneg h0 hs.1
    have hle : semiAxis s sigma radius Sm pa ≤ semiAxis s sigma' radius' Sm' pa' := by
      unfold semiAxis; linarith [hr.2, hS.2, hp.2]
    have hpos : 0 ≤ semiAxis s sigma radius Sm pa := by
      unfold semiAxis; linarith [hr.1, hS.1, hp.1]
    rcases hpos.trans hle |>.eq_or_lt with hz | hz
    · exact ⟨0, by norm_num, by norm_num, by rw [← hz] at hle; rw [zero_mul]; exact le_antisymm hle hpos⟩
    · exact ⟨_ / _, le_trans (by norm_num) (div_nonneg hpos hz.le), (div_le_one hz).2 hle,
        (div_mul_cancel₀ _ hz.ne').symm⟩
  obtain ⟨a, ha0, ha1, hA⟩ := hax s1 h1
  obtain ⟨b, hb0, hb1, hB⟩ := hax s2 h2
  rw [hA, hB]
  generalize semiAxis s1 sigma' radius' Sm' pa' = h
  generalize semiAxis s2 sigma' radius' Sm' pa' = l
  refine convexHull_min ?_ (convex_convexHull ℝ _)
  rintro v ⟨j, -, rfl⟩
  have hn : 0 < 2 * m := by omega
  have hc : Convex ℝ (crossSection h l θ inc azi nev (2 * m)) := convex_convexHull ℝ _
  have p1 := vertex_mem hn h l θ inc azi nev j
  have p2 := vertex_mem hn h l θ inc azi nev (j * (2 * m - 1))
  have p3 := vertex_mem hn h l θ inc azi nev (j * (2 * m - 1) + m)
  have p4 := vertex_mem hn h l θ inc azi nev (j + m)
  have q1 := hc p1 p2 (a := (1 + b) / 2) (b := (1 - b) / 2) (by linarith) (by linarith) (by ring)
  have q2 := hc p3 p4 (a := (1 + b) / 2) (b := (1 - b) / 2) (by linarith) (by linarith) (by ring)
  have q := hc q1 q2 (a := (1 + a) / 2) (b := (1 - a) / 2) (by linarith) (by linarith) (by ring)
  convert q using 1
  simp only [ellipseVertex, (lam_opposite hm _).1, (lam_opposite hm _).2, (lam_mirror hm j).1,
    (lam_mirror hm j).2]
  generalize cos (lam (2 * m) j) = x
  generalize sin (lam (2 * m) j) = y
  funext i
  simp only [placed, hlaToNevVec, Matrix.vecMul, dotProduct, Fin.sum_univ_three, Pi.add_apply,
    Pi.smul_apply, smul_eq_mul, Matrix.cons_val_zero, Matrix.cons_val_one, Matrix.cons_val_two,
    Matrix.head_cons, Matrix.tail_cons, Matrix.cons_val]
  ring

/-- Non-vacuity: a twelve-sided ring at two and at three standard deviations. -/
example : crossSection (semiAxis 2 2 (1/10) (3/10) (1/2)) (semiAxis 1 2 (1/10) (3/10) (1/2)) 1 1 1 0
      (2 * 6) ⊆
    crossSection (semiAxis 2 3 (1/10) (3/10) (1/2)) (semiAxis 1 3 (1/10) (3/10) (1/2)) 1 1 1 0
      (2 * 6) :=
  C383_nested_partial (by norm_num) _ _ _ _ _ _ _ _ _ _ _ _ _ _ (by norm_num) (by norm_num)
    (by norm_num) (by norm_num) (by norm_num) (by norm_num)

/-- **C383** (negation) With an odd number of vertices they need not: a triangle of radius one at
confidence zero is not inside the one at confidence one if only one standard deviation is zero. -/
theorem C383_odd :
    ¬ crossSection (semiAxis 1 0 1 0 0) (semiAxis 0 0 1 0 0) 0 0 0 0 3 ⊆
      crossSection (semiAxis 1 1 1 0 0) (semiAxis 0 1 1 0 0) 0 0 0 0 3 := by
  intro hsub
  have hmem := hsub (vertex_mem (by norm_num) _ _ 0 0 0 0 1)
  -- in the larger triangle, `x + 2 √3 y ≤ 2` holds everywhere
  have hcl : crossSection (semiAxis 1 1 1 0 0) (semiAxis 0 1 1 0 0) 0 0 0 0 3 ⊆
      {v : Fin 3 → ℝ | v 0 + √3 * 2 * v 1 ≤ 2} := by
    refine convexHull_min ?_ ?_
    · rintro v ⟨i, hi, rfl⟩
      have e0 : lam 3 0 = 0 := by simp [lam]
      have e1 : lam 3 1 = π - π / 3 := by simp [lam]; ring
      have e2 : lam 3 2 = π / 3 + π := by simp [lam]; ring
      have h3 : √3 * √3 = 3 := mul_self_sqrt (by norm_num)
      interval_cases i <;>
        simp [placed, hlaToNevVec, getTransform, Matrix.vecMul, dotProduct, Fin.sum_univ_three,
          ellipseVertex, semiAxis, e0, e1, e2, sin_add_pi, cos_add_pi] <;> nlinarith
    · intro x hx y hy a b ha hb hab
      simp only [Set.mem_setOf_eq, Pi.add_apply, Pi.smul_apply, smul_eq_mul] at *
      nlinarith [mul_le_mul_of_nonneg_left hx ha, mul_le_mul_of_nonneg_left hy hb]
  have h := hcl hmem
  have e1 : lam 3 1 = π - π / 3 := by simp [lam]; ring
  have h3 : √3 * √3 = 3 := mul_self_sqrt (by norm_num)
  simp [placed, hlaToNevVec, getTransform, Matrix.vecMul, dotProduct, Fin.sum_univ_three,
    ellipseVertex, semiAxis, e1] at h
  nlinarith

end Welleng.Props
