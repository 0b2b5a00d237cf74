import Verif.Lemmas.ErrorScale
import Verif.Props.ErrorModel
import Verif.Props.Clearance
import Mathlib.Data.List.Forall2

/-! C316: further error sources, or larger ones, do not lower the uncertainty of a well and do not raise a
separation factor. -/

namespace Welleng.Props

open Real Welleng.Spec Err Clr

/-- The same kind of error with a magnitude that is no larger. -/
def Milder (e e' : Entry) : Prop := e.f = e'.f ∧ e.prop = e'.prop ∧ |e.mag| ≤ |e'.mag|

/-- `b` is at least as uncertain as `a` in every direction. -/
def NoLessUncertain (a b : M3) : Prop :=
  ∀ v : Fin 3 → ℝ, ∑ i, ∑ j, v i * a i j * v j ≤ ∑ i, ∑ j, v i * b i j * v j

theorem noLess_refl (a : M3) : NoLessUncertain a a := fun _ => le_rfl

theorem noLess_add {a a' b b' : M3} (h : NoLessUncertain a a') (h' : NoLessUncertain b b') :
    NoLessUncertain (a + b) (a' + b') := by
  intro v
  have e : ∀ x y : M3, ∑ i, ∑ j, v i * (x + y) i j * v j
      = ∑ i, ∑ j, v i * x i j * v j + ∑ i, ∑ j, v i * y i j * v j := by
    intro x y
    simp only [Fin.sum_univ_three, Matrix.add_apply]; ring
  rw [e, e]
  exact add_le_add (h v) (h' v)

theorem noLess_zero {a : M3} (h : IsCov a) : NoLessUncertain 0 a := by
  intro v
  simpa using h.nonneg v

theorem noLess_scale {a : M3} (h : IsCov a) {x : ℝ} (hx : |x| ≤ 1) :
    NoLessUncertain (x ^ 2 • a) a := by
  intro v
  have e : ∑ i, ∑ j, v i * (x ^ 2 • a) i j * v j = x ^ 2 * ∑ i, ∑ j, v i * a i j * v j := by
    simp only [Fin.sum_univ_three, Matrix.smul_apply, smul_eq_mul]; ring
  rw [e]
  exact mul_le_of_le_one_left (h.nonneg v) (by rw [← sq_abs]; exact pow_le_one₀ (abs_nonneg x) hx)

/-- One milder source. -/
theorem callFunc_milder {c : Ctx} {e e' : Entry} (h : Milder e e') {t' : Term}
    (ht' : callFunc e'.f c e'.mag e'.prop = .ok (some t')) :
    ∃ t, callFunc e.f c e.mag e.prop = .ok (some t) ∧ t.prop = t'.prop ∧
      ∀ k, NoLessUncertain (t.cov k) (t'.cov k) := by
  obtain ⟨a, ha, hm⟩ : ∃ a : ℝ, |a| ≤ 1 ∧ e.mag = a * e'.mag := by
    by_cases h0 : e'.mag = 0
    · refine ⟨0, by simp, ?_⟩
      have := h.2.2
      rw [h0, abs_zero] at this
      rw [zero_mul]; exact abs_nonpos_iff.mp this
    · refine ⟨e.mag / e'.mag, ?_, by field_simp⟩
      rw [abs_div]
      exact div_le_one_of_le₀ h.2.2 (abs_nonneg _)
  refine ⟨t'.scale a, ?_, rfl, fun k => ?_⟩
  · rw [h.1, h.2.1, hm, callFunc_smul, ht']; rfl
  · exact noLess_scale ((callFunc_some ht').2.2 k) ha

/-- The totals of a model with milder and fewer sources. -/
theorem terms_milder {c : Ctx} {codes codes' : List Entry} (h : List.SublistForall₂ Milder codes codes') :
    ∀ {vs' : List Term},
      List.Forall₂ (fun e t => callFunc e.f c e.mag e.prop = .ok (some t)) codes' vs' →
      ∃ vs, List.Forall₂ (fun e t => callFunc e.f c e.mag e.prop = .ok (some t)) codes vs ∧
        ∀ (b : Term → Bool), (∀ t t', t.prop = t'.prop → b t = b t') → ∀ k,
          NoLessUncertain ((vs.filter b).map fun v => v.cov k).sum
            ((vs'.filter b).map fun v => v.cov k).sum := by
  induction h with
  | nil =>
    intro vs' h
    refine ⟨[], .nil, fun b _ k => noLess_zero ?_⟩
    exact isCov_list_sum _ (fun v hv => forall₂_right h (P := fun t => ∀ k, IsCov (t.cov k))
      (fun e t ht => (callFunc_some ht).2.2) v (List.mem_of_mem_filter hv)) k
  | cons hm _ ih =>
    intro vs' h
    cases h with
    | cons ht h =>
      obtain ⟨t, ht1, hp, hc⟩ := callFunc_milder hm ht
      obtain ⟨vs, hv, hs⟩ := ih h
      refine ⟨t :: vs, .cons ht1 hv, fun b hb k => ?_⟩
      rw [List.filter_cons, List.filter_cons, hb _ _ hp]
      split
      · simp only [List.map_cons, List.sum_cons]
        exact noLess_add (hc k) (hs b hb k)
      · exact hs b hb k
  | cons_right _ ih =>
    intro vs' h
    cases h with
    | cons ht h =>
      obtain ⟨vs, hv, hs⟩ := ih h
      refine ⟨vs, hv, fun b hb k => ?_⟩
      rw [List.filter_cons]
      split
      · simp only [List.map_cons, List.sum_cons]
        have := noLess_add (noLess_zero ((callFunc_some ht).2.2 k)) (hs b hb k)
        rwa [zero_add] at this
      · exact hs b hb k

theorem callAll_of_forall₂ {c : Ctx} {codes : List Entry} {vs : List Term}
    (h : List.Forall₂ (fun e t => callFunc e.f c e.mag e.prop = .ok (some t)) codes vs) :
    toolError c codes = .ok (vs.foldl Totals.step ⟨0, 0, 0, 0, 0⟩) := by
  have : callAll c codes = .ok (vs.map some) := by
    induction h with
    | nil => rfl
    | cons h _ ih => simp [callAll, h, ih]
  rw [toolError, this]
  exact totalsLoop_map_some vs _

/-- **C316** Leave out sources of a tool model, or make some smaller: the calculation still succeeds, and
at no station and in no direction is the uncertainty larger, neither in total nor for the sources of one
kind of propagation. -/
theorem C316_fewer_sources {c : Ctx} {codes codes' : List Entry}
    (h : List.SublistForall₂ Milder codes codes') {T' : Totals} (hT' : toolError c codes' = .ok T') :
    ∃ T, toolError c codes = .ok T ∧ ∀ k,
      NoLessUncertain (T.total k) (T'.total k) ∧ NoLessUncertain (T.random k) (T'.random k) ∧
      NoLessUncertain (T.systematic k) (T'.systematic k) ∧
      NoLessUncertain (T.global k) (T'.global k) ∧
      NoLessUncertain (T.withinPad k) (T'.withinPad k) := by
  obtain ⟨vs', hvs', rfl⟩ := toolError_ok hT'
  obtain ⟨vs, hv, hs⟩ := terms_milder h hvs'
  refine ⟨_, callAll_of_forall₂ hv, fun k => ?_⟩
  obtain ⟨a1, a2, a3, a4, a5⟩ := foldl_step vs ⟨0, 0, 0, 0, 0⟩ k
  obtain ⟨b1, b2, b3, b4, b5⟩ := foldl_step vs' ⟨0, 0, 0, 0, 0⟩ k
  rw [a1, a2, a3, a4, a5, b1, b2, b3, b4, b5]
  have ht := hs (fun _ => true) (fun _ _ _ => rfl) k
  simp only [List.filter_true] at ht
  refine ⟨noLess_add (noLess_refl _) ht, ?_, ?_, ?_, ?_⟩ <;>
    exact noLess_add (noLess_refl _) (hs _ (fun t t' hp => by simp [hp]) k)

/-- `p` with the covariances of the two wells replaced. -/
def _root_.Welleng.Clr.Pair.withCovs (p : Pair) (a b : M3) : Pair := { p with refCov := a, offCov := b }

/-- **C316** More uncertainty of either well does not raise the separation factor while the bores with
their margin do not overlap. -/
theorem C316_separation (p : Pair) (hk : 0 < p.k) (hpa : p.sigmaPa ≠ 0) {a b : M3}
    (ha : NoLessUncertain p.refCov a) (hb : NoLessUncertain p.offCov b)
    (h0 : 0 ≤ (separation p).wellboreSeparation) :
    ∃ x y, (separation (p.withCovs a b)).sf = some x ∧ (separation p).sf = some y ∧ x ≤ y := by
  refine C30_monotone_sigma (p.withCovs a b) p hk le_rfl ?_ le_rfl
    (C30_boundary_positive p hk hpa) rfl h0
  simp only [separation, Pair.withCovs, pcr]
  refine sqrt_le_sqrt (add_le_add ?_ ?_)
  · exact pow_le_pow_left₀ (sqrt_nonneg _) (sqrt_le_sqrt (ha _)) 2
  · exact pow_le_pow_left₀ (sqrt_nonneg _) (sqrt_le_sqrt (hb _)) 2

/-- **C316** for a pair of wells with a tool model each: leave out sources of either model, or make some
smaller, and the separation factor does not fall. -/
theorem C316_tool_models {c d : Ctx} {codes codes' odes odes' : List Entry}
    (h : List.SublistForall₂ Milder codes codes') (g : List.SublistForall₂ Milder odes odes')
    {T' O' : Totals} (hT' : toolError c codes' = .ok T') (hO' : toolError d odes' = .ok O')
    (p : Pair) (hk : 0 < p.k) (hpa : p.sigmaPa ≠ 0) (h0 : 0 ≤ (separation p).wellboreSeparation)
    (i j : ℕ) :
    ∃ T O, toolError c codes = .ok T ∧ toolError d odes = .ok O ∧
      ∃ x y, (separation (p.withCovs (T'.total i) (O'.total j))).sf = some x ∧
        (separation (p.withCovs (T.total i) (O.total j))).sf = some y ∧ x ≤ y := by
  obtain ⟨T, hT, h1⟩ := C316_fewer_sources h hT'
  obtain ⟨O, hO, h2⟩ := C316_fewer_sources g hO'
  exact ⟨T, O, hT, hO, C316_separation (p.withCovs (T.total i) (O.total j)) hk hpa (h1 i).1 (h2 j).1 h0⟩

/-- Non-vacuity: one source of two left out and the other one halved. -/
example : List.SublistForall₂ Milder [⟨.AZ, 0.003, .global⟩]
    [⟨.DREF, 0.35, .random⟩, ⟨.AZ, 0.006, .global⟩] ∧
    (∃ T, toolError exCtx [⟨.DREF, 0.35, .random⟩, ⟨.AZ, 0.006, .global⟩] = .ok T) ∧
    0 ≤ (separation (exPair 16 1)).wellboreSeparation := by
  refine ⟨.cons_right (.cons ⟨rfl, rfl, ?_⟩ .nil), ?_, ?_⟩
  · show |(0.003 : ℝ)| ≤ |(0.006 : ℝ)|
    rw [abs_of_pos (by norm_num), abs_of_pos (by norm_num)]; norm_num
  · simp [toolError, callAll, callFunc, singRows, Func.usesTortuosity, exCtx, forcedProp,
      generateError, propagate, totals, totalsLoop]
  · rw [(exPair_sep (c := 16) (by norm_num) 1).2]; norm_num

end Welleng.Props
