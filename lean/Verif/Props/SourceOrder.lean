import Verif.Props.MoreErrors
import Mathlib.Data.List.Perm.Basic
import Mathlib.Data.List.Forall2

/-!
C353: the order of the sources of a tool model.
-/

namespace Welleng.Props

open Welleng Err

theorem step_comm (t : Totals) (v w : Term) : (t.step v).step w = (t.step w).step v := by
  simp only [Totals.step]
  cases v.prop <;> cases w.prop <;> simp only [Totals.mk.injEq, add_right_comm, and_self]

/-- **C353** The sources of a tool model in another order give the same totals, over all sources and for
each propagation mode, at every station. -/
theorem C353_order {c : Ctx} {codes codes' : List Entry} (hp : codes.Perm codes') {T : Totals} :
    toolError c codes = .ok T ↔ toolError c codes' = .ok T := by
  have one : ∀ {a b : List Entry}, a.Perm b → toolError c a = .ok T → toolError c b = .ok T := by
    intro a b hab h
    obtain ⟨vs, hvs, rfl⟩ := toolError_ok h
    obtain ⟨ws, hws, hperm⟩ := (List.perm_comp_forall₂ hab.symm hvs)
    rw [callAll_of_forall₂ hws]
    congr 1
    have : RightCommutative Totals.step := ⟨step_comm⟩
    exact hperm.foldl_eq _
  exact ⟨one hp, one hp.symm⟩

/-- Non-vacuity: a model of two sources, either of them first. -/
example : ∃ T, toolError exCtx [⟨.DREF, 0.35, .random⟩, ⟨.AZ, 0.006, .global⟩] = .ok T ∧
    toolError exCtx [⟨.AZ, 0.006, .global⟩, ⟨.DREF, 0.35, .random⟩] = .ok T := by
  obtain ⟨T, h⟩ : ∃ T, toolError exCtx [⟨.DREF, 0.35, .random⟩, ⟨.AZ, 0.006, .global⟩] = .ok T := by
    simp [toolError, callAll, callFunc, singRows, Func.usesTortuosity, exCtx, forcedProp,
      generateError, propagate, totals, totalsLoop]
  exact ⟨T, h, (C353_order (List.Perm.swap _ _ _)).mp h⟩

end Welleng.Props
