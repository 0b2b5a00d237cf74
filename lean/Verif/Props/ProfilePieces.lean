import Verif.Props.DensityProfile

/-! C401: a density profile computed in pieces (`/repo/welleng/fluid.py` 214-266). -/

namespace Welleng.Props

open Welleng Welleng.Fluid

theorem solveAll_append (solve : ℝ → ℝ → Except Fluid.Err ℝ) (B : List (ℝ × ℝ)) :
    ∀ A : List (ℝ × ℝ), solveAll solve (A ++ B) =
      match solveAll solve A with
      | .error e => .error e
      | .ok rs => match solveAll solve B with
        | .error e => .error e
        | .ok rs' => .ok (rs ++ rs')
  | [] => by
    simp only [List.nil_append, solveAll]
    cases solveAll solve B <;> rfl
  | p :: A => by
    have ih := solveAll_append solve B A
    simp only [List.cons_append, solveAll, ih]
    cases solve p.1 p.2 with
    | error e => rfl
    | ok r =>
      cases solveAll solve A with
      | error e => rfl
      | ok rs => cases solveAll solve B <;> rfl

theorem solveAll_nil_iff {solve : ℝ → ℝ → Except Fluid.Err ℝ} {ps : List (ℝ × ℝ)} {rs : List ℝ}
    (h : solveAll solve ps = .ok rs) : rs.length = ps.length :=
  (solveAll_ok h).length_eq.symm

/-- The profile, for gradients that have been computed. -/
theorem densityProfile_ok_iff {solve : ℝ → ℝ → Except Fluid.Err ℝ} {big tref : ℝ} {depth gs : List ℝ}
    {temp : TempArg} (hg : gradients big tref depth temp = .ok gs) (rs : List ℝ) :
    densityProfile solve big tref depth temp = .ok rs ↔
      solveAll solve (depth.zip gs) = .ok rs ∧ rs ≠ [] := by
  unfold densityProfile
  rw [hg]
  dsimp only
  cases solveAll solve (depth.zip gs) with
  | error e => simp
  | ok l => cases l <;> simp; rintro rfl; simp

theorem densityProfile_split {solve : ℝ → ℝ → Except Fluid.Err ℝ} {big tref : ℝ}
    {d1 d2 g1 g2 : List ℝ} {t t1 t2 : TempArg} (hd1 : d1 ≠ []) (hd2 : d2 ≠ [])
    (l1 : g1.length = d1.length) (l2 : g2.length = d2.length)
    (h1 : gradients big tref d1 t1 = .ok g1) (h2 : gradients big tref d2 t2 = .ok g2)
    (h : gradients big tref (d1 ++ d2) t = .ok (g1 ++ g2)) (rs : List ℝ) :
    densityProfile solve big tref (d1 ++ d2) t = .ok rs ↔
      ∃ r1 r2, rs = r1 ++ r2 ∧ densityProfile solve big tref d1 t1 = .ok r1 ∧
        densityProfile solve big tref d2 t2 = .ok r2 := by
  rw [densityProfile_ok_iff h]
  simp only [densityProfile_ok_iff h1, densityProfile_ok_iff h2]
  rw [List.zip_append l1.symm, solveAll_append]
  have ne : ∀ {d g : List ℝ} {r : List ℝ}, d ≠ [] → g.length = d.length →
      solveAll solve (d.zip g) = .ok r → r ≠ [] := by
    intro d g r hd hl hr h0
    have := solveAll_nil_iff hr
    subst h0
    rw [List.length_zip, hl, min_self, List.length_nil] at this
    exact hd (List.length_eq_zero_iff.1 this.symm)
  constructor
  · rintro ⟨e, -⟩
    cases e1 : solveAll solve (d1.zip g1) with
    | error x => simp [e1] at e
    | ok r1 =>
      cases e2 : solveAll solve (d2.zip g2) with
      | error x => simp [e1, e2] at e
      | ok r2 =>
        simp only [e1, e2, Except.ok.injEq] at e
        exact ⟨r1, r2, e.symm, ⟨rfl, ne hd1 l1 e1⟩, rfl, ne hd2 l2 e2⟩
  · rintro ⟨r1, r2, rfl, ⟨e1, n1⟩, e2, -⟩
    rw [e1, e2]
    exact ⟨rfl, by simp [n1]⟩

/-- **C401** A profile at one temperature can be computed in pieces: for two non-empty lists of
depths the profile of both together exists exactly when both profiles do, and is one followed by
the other. -/
theorem C401_number (solve : ℝ → ℝ → Except Fluid.Err ℝ) (big tref t : ℝ) {d1 d2 : List ℝ}
    (hd1 : d1 ≠ []) (hd2 : d2 ≠ []) (rs : List ℝ) :
    densityProfile solve big tref (d1 ++ d2) (.number t) = .ok rs ↔
      ∃ r1 r2, rs = r1 ++ r2 ∧ densityProfile solve big tref d1 (.number t) = .ok r1 ∧
        densityProfile solve big tref d2 (.number t) = .ok r2 :=
  densityProfile_split hd1 hd2 (by simp) (by simp) rfl rfl (by simp [gradients]) rs

/-- **C401** The same for an array with a temperature for every depth. -/
theorem C401_array (solve : ℝ → ℝ → Except Fluid.Err ℝ) (big tref : ℝ) {d1 d2 t1 t2 : List ℝ}
    (hd1 : d1 ≠ []) (hd2 : d2 ≠ []) (l1 : t1.length = d1.length) (l2 : t2.length = d2.length)
    (rs : List ℝ) :
    densityProfile solve big tref (d1 ++ d2) (.array (t1 ++ t2)) = .ok rs ↔
      ∃ r1 r2, rs = r1 ++ r2 ∧ densityProfile solve big tref d1 (.array t1) = .ok r1 ∧
        densityProfile solve big tref d2 (.array t2) = .ok r2 :=
  densityProfile_split hd1 hd2 (g1 := List.zipWith (gradientOf big tref) t1 d1)
    (g2 := List.zipWith (gradientOf big tref) t2 d2) (by simp [l1]) (by simp [l2])
    (by simp [gradients, l1]) (by simp [gradients, l2])
    (by simp [gradients, l1, l2, List.zipWith_append l1]) rs

/-- Non-vacuity: two profiles of one depth each and the profile of both. -/
example : densityProfile (fun d g => .ok (d + g)) 9 10 ([5] ++ [2]) (.number 20) =
    .ok [5 + (20 - 10) / 5, 2 + (20 - 10) / 2] :=
  (C401_number _ 9 10 20 (by simp) (by simp) _).2 ⟨[_], [_], rfl,
    by simp [densityProfile, gradients, gradientOf, solveAll],
    by simp [densityProfile, gradients, gradientOf, solveAll]⟩

end Welleng.Props
