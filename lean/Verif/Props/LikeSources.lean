import Verif.Props.SourceOrder
import Verif.Props.ErrorModel

/-!
C362: two sources of the same kind.
-/

namespace Welleng.Props

open Welleng Err

theorem callFunc_unit {f : Func} {c : Ctx} {m : ℝ} {p : Prop'} {t : Term} :
    callFunc f c m p = .ok (some t) ↔ ∃ u, callFunc f c 1 p = .ok (some u) ∧ t = u.scale m := by
  have h := callFunc_smul f c m 1 p
  rw [mul_one] at h
  rw [h]
  cases callFunc f c 1 p with
  | error e => simp [Except.map]
  | ok o => cases o <;> simp [Except.map, eq_comm]

theorem step_like (T : Totals) (u : Term) {a b m : ℝ} (hm : m ^ 2 = a ^ 2 + b ^ 2) :
    (T.step (u.scale a)).step (u.scale b) = T.step (u.scale m) := by
  have h : ∀ x : ℕ → M3, x + (u.scale a).cov + (u.scale b).cov = x + (u.scale m).cov := by
    intro x
    funext k
    show x k + a ^ 2 • u.cov k + b ^ 2 • u.cov k = x k + m ^ 2 • u.cov k
    rw [hm, add_smul, add_assoc]
  have hp : ∀ x, (u.scale x).prop = u.prop := fun _ => rfl
  simp only [Totals.step, hp]
  cases u.prop <;> simp only [h]

/-- **C362** Two sources of a tool model with the same weighting function and propagation, anywhere in the
model, are worth one with the root of the sum of the squares of their magnitudes: the totals, and whether
there are any, are the same. -/
theorem C362_root_sum_square {c : Ctx} {f : Func} {p : Prop'} {a b m : ℝ} {codes rest : List Entry}
    (hc : codes.Perm (⟨f, a, p⟩ :: ⟨f, b, p⟩ :: rest)) (hm : m ^ 2 = a ^ 2 + b ^ 2) {T : Totals} :
    toolError c codes = .ok T ↔ toolError c (⟨f, m, p⟩ :: rest) = .ok T := by
  rw [C353_order hc]
  constructor
  · intro h
    obtain ⟨vs, hvs, rfl⟩ := toolError_ok h
    cases hvs with
    | cons h1 h2 =>
      cases h2 with
      | cons h2 h3 =>
        obtain ⟨u, hu, rfl⟩ := callFunc_unit.mp h1
        obtain ⟨u', hu', rfl⟩ := callFunc_unit.mp h2
        simp only at hu hu'
        obtain rfl : u = u' := by
          rw [hu] at hu'
          simpa using hu'
        rw [callAll_of_forall₂ (List.Forall₂.cons (callFunc_unit.mpr ⟨u, hu, rfl⟩) h3)]
        simp only [List.foldl_cons, step_like _ u hm]
  · intro h
    obtain ⟨vs, hvs, rfl⟩ := toolError_ok h
    cases hvs with
    | cons h1 h3 =>
      obtain ⟨u, hu, rfl⟩ := callFunc_unit.mp h1
      have ha : callFunc f c a p = .ok (some (u.scale a)) := callFunc_unit.mpr ⟨u, hu, rfl⟩
      have hb : callFunc f c b p = .ok (some (u.scale b)) := callFunc_unit.mpr ⟨u, hu, rfl⟩
      rw [callAll_of_forall₂ (codes := ⟨f, a, p⟩ :: ⟨f, b, p⟩ :: rest) (.cons ha (.cons hb h3))]
      simp only [List.foldl_cons, step_like _ u hm]

/-- Non-vacuity: two depth reference sources of 0.3 and 0.4 m around an azimuth source. -/
example : ∃ T, toolError exCtx [⟨.DREF, 0.3, .random⟩, ⟨.AZ, 0.006, .global⟩, ⟨.DREF, 0.4, .random⟩] = .ok T ∧
    toolError exCtx [⟨.DREF, 0.5, .random⟩, ⟨.AZ, 0.006, .global⟩] = .ok T := by
  obtain ⟨T, h⟩ : ∃ T, toolError exCtx [⟨.DREF, 0.5, .random⟩, ⟨.AZ, 0.006, .global⟩] = .ok T := by
    simp [toolError, callAll, callFunc, singRows, Func.usesTortuosity, exCtx, forcedProp,
      generateError, propagate, totals, totalsLoop]
  exact ⟨T, (C362_root_sum_square (a := 0.3) (b := 0.4) ((List.Perm.swap _ _ _).cons _) (by norm_num)).mpr h, h⟩

end Welleng.Props
