import Verif.Props.Handover

/-!
C345: the uncertainty of a station and of the one above it.
-/

namespace Welleng.Props

open Real Finset Welleng.Spec Err Clr

/-- A source that leaves the depths alone. -/
def AngleSource (f : Func) (c : Ctx) : Prop := ∀ mag k, eDIA f c 0 mag k 0 = 0

theorem eDIA_anyTortuosity {f : Func} (hf : byCourseLength f = false) (c : Ctx) (τ mag : ℝ) :
    eDIA f c τ mag = eDIA f c 0 mag := by
  funext j; exact eDIA_station hf rfl rfl rfl rfl rfl rfl rfl rfl 0 _ mag

section
variable {c : Ctx} (hc : Inclined c) (hm : ∀ k, k + 1 < c.s.n → c.s.md k ≤ c.s.md (k + 1))
include hc hm

/-- **C345** (random sources that change the angles): the covariance a source adds never decreases from a
station to the next one. -/
theorem C345_source_partial {f : Func} (hf : byCourseLength f = false) (hz : AngleSource f c) {mag : ℝ}
    {p : Prop'} (hp : forcedProp f p = .random) {k : ℕ} (hk : k + 1 < c.s.n)
    (hr : c.s.rev4 = true ∨ k ≠ 1) {t : Term} (ht : callFunc f c mag p = .ok (some t)) :
    NoLessUncertain (t.cov k) (t.cov (k + 1)) := by
  rw [callFunc_inclined hf hc, hp, eDIA_anyTortuosity hf] at ht
  simp only [generateError, propagate, Option.map_some, Except.ok.injEq, Option.some.injEq] at ht
  subst ht
  intro v
  change ∑ a, ∑ b, v a * randomCov (eNEV c.s (eDIA f c 0 mag)) (eNEVStar c.s (eDIA f c 0 mag)) k a b * v b
    ≤ ∑ a, ∑ b, v a * randomCov (eNEV c.s (eDIA f c 0 mag)) (eNEVStar c.s (eDIA f c 0 mag)) (k + 1) a b * v b
  rw [quad_randomCov, quad_randomCov, Finset.sum_range_succ]
  have h2 := sq_nonneg (along v (eNEVStar c.s (eDIA f c 0 mag) (k + 1)))
  suffices along v (eNEVStar c.s (eDIA f c 0 mag) k) ^ 2 ≤ along v (eNEV c.s (eDIA f c 0 mag) k) ^ 2 by
    linarith
  rcases Nat.eq_zero_or_pos k with rfl | hk0
  · simp [eNEV, eNEVStar]
  · have hr' : c.s.rev4 = true ∨ 2 ≤ k := hr.imp_right fun h => by omega
    rw [eNEV_angleShift c.s hk0 hr' (hz mag k), eNEVStar_angleShift c.s hk0 hr' (hz mag k), if_pos hk,
      along_smul, along_smul, mul_pow, mul_pow]
    refine mul_le_mul_of_nonneg_right ?_ (sq_nonneg _)
    have h0 := hm (k - 1) (by omega)
    rw [show k - 1 + 1 = k by omega] at h0
    have h1 := hm k hk
    exact pow_le_pow_left₀ (by linarith) (by linarith) 2

/-- **C345** (tool model): if its random sources change the angles only, the random part of the covariance
never decreases from a station to the next one. -/
theorem C345_tool_partial {codes : List Entry}
    (hf : ∀ e ∈ codes, forcedProp e.f e.prop = .random → byCourseLength e.f = false ∧ AngleSource e.f c)
    {T : Totals} (hT : toolError c codes = .ok T) {k : ℕ} (hk : k + 1 < c.s.n)
    (hr : c.s.rev4 = true ∨ k ≠ 1) : NoLessUncertain (T.random k) (T.random (k + 1)) := by
  obtain ⟨vs, hvs, rfl⟩ := toolError_ok hT
  rw [(foldl_step vs ⟨0, 0, 0, 0, 0⟩ k).2.1, (foldl_step vs ⟨0, 0, 0, 0, 0⟩ (k + 1)).2.1]
  refine noLess_add (noLess_refl _) ?_
  clear hT
  induction hvs with
  | nil => exact noLess_refl _
  | @cons e t l l' h1 _ ih =>
    have ih := ih fun x hx => hf x (List.mem_cons_of_mem _ hx)
    rw [List.filter_cons]
    by_cases hq : t.prop = .random
    · simp only [hq, decide_true, if_true, List.map_cons, List.sum_cons]
      have hp : forcedProp e.f e.prop = .random := (callFunc_some h1).1.symm.trans hq
      obtain ⟨a, b⟩ := hf e List.mem_cons_self hp
      exact noLess_add (C345_source_partial hc hm a b hp hk hr h1) ih
    · simp only [hq, decide_false, Bool.false_eq_true, if_false]
      exact ih

/-- **C345** (straight wells): the covariance of a source that is not random and changes the angles never
decreases either. -/
theorem C345_straight_partial (hs : ∀ k, c.s.inc k = c.s.inc 0 ∧ c.s.azi k = c.s.azi 0 ∧ c.aziMag k = c.aziMag 0)
    {f : Func} (hf : byCourseLength f = false) (hz : AngleSource f c) {mag : ℝ}
    {p : Prop'} (hp : forcedProp f p ≠ .random) {k : ℕ} (hk : k + 1 < c.s.n)
    (hr : c.s.rev4 = true) {t : Term} (ht : callFunc f c mag p = .ok (some t)) :
    NoLessUncertain (t.cov k) (t.cov (k + 1)) := by
  rw [callFunc_inclined hf hc, eDIA_anyTortuosity hf] at ht
  have e : ∀ j, eDIA f c 0 mag j 1 = eDIA f c 0 mag 0 1 ∧ eDIA f c 0 mag j 2 = eDIA f c 0 mag 0 2 := fun j =>
    eDIA_direction hf (hs j).1 (hs j).2.1 (hs j).2.2 rfl rfl rfl 0 0 mag
  have g : ∀ j x y, angleShift c.s j x y = angleShift c.s 0 x y := fun j x y => by
    simp only [angleShift, (hs j).1, (hs j).2.1]
  obtain ⟨G, hG⟩ : ∃ G, G = angleShift c.s 0 (eDIA f c 0 mag 0 1) (eDIA f c 0 mag 0 2) := ⟨_, rfl⟩
  have a1 : ∀ j, 1 ≤ j → j + 1 < c.s.n → eNEV c.s (eDIA f c 0 mag) j
      = ((c.s.md (j + 1) - c.s.md (j - 1)) / 2) • G := fun j hj hj' => by
    rw [eNEV_angleShift c.s hj (.inl hr) (hz mag j), if_pos hj', g, (e j).1, (e j).2, hG]
    congr 1; ring
  have a2 : ∀ j, 1 ≤ j → eNEVStar c.s (eDIA f c 0 mag) j = ((c.s.md j - c.s.md (j - 1)) / 2) • G :=
    fun j hj => by
      rw [eNEVStar_angleShift c.s hj (.inl hr) (hz mag j), g, (e j).1, (e j).2, hG]
  have sum : ∀ i, i + 1 < c.s.n → ∑ j ∈ range (i + 1), eNEV c.s (eDIA f c 0 mag) j
      = ((c.s.md (i + 1) + c.s.md i - c.s.md 1 - c.s.md 0) / 2) • G := by
    intro i
    induction i with
    | zero =>
      intro _
      rw [zero_add, Finset.sum_range_one,
        show c.s.md 1 + c.s.md 0 - c.s.md 1 - c.s.md 0 = 0 by ring]
      simp [eNEV]
    | succ i ih =>
      intro hi
      rw [Finset.sum_range_succ, ih (by omega), a1 (i + 1) (by omega) hi, ← add_smul]
      congr 1
      simp only [Nat.add_sub_cancel]
      ring
  have sig : ∀ i, i + 1 < c.s.n → sigmaSystematic (eNEV c.s (eDIA f c 0 mag)) (eNEVStar c.s (eDIA f c 0 mag)) (i + 1)
      = (c.s.md (i + 1) - (c.s.md 0 + c.s.md 1) / 2) • G := fun i hi => by
    rw [sigmaSystematic, if_neg (by omega), sum i hi, a2 (i + 1) (by omega), ← add_smul]
    congr 1
    simp only [Nat.add_sub_cancel]
    ring
  have cov : t.cov = fun k => covFromVec
      (sigmaSystematic (eNEV c.s (eDIA f c 0 mag)) (eNEVStar c.s (eDIA f c 0 mag)) k) := by
    generalize forcedProp f p = q at *
    cases q <;> simp [generateError, propagate] at ht hp <;> rw [← ht]
  intro v
  rw [cov]
  simp only [quad_covFromVec]
  rcases k with _ | i
  · have : sigmaSystematic (eNEV c.s (eDIA f c 0 mag)) (eNEVStar c.s (eDIA f c 0 mag)) 0 = 0 := by
      simp [sigmaSystematic, eNEV, eNEVStar]
    rw [this]
    have h0 : along v 0 = 0 := by simp [along]
    rw [h0, zero_pow two_ne_zero]
    exact sq_nonneg _
  · rw [sig i (by omega), sig (i + 1) hk, along_smul, along_smul, mul_pow, mul_pow]
    refine mul_le_mul_of_nonneg_right ?_ (sq_nonneg _)
    have h1 := hm (i + 1) hk
    have h0 : ∀ j, j + 1 < c.s.n → c.s.md 0 ≤ c.s.md (j + 1) ∧ c.s.md 1 ≤ c.s.md (j + 1) := by
      intro j
      induction j with
      | zero => intro hj; exact ⟨hm 0 hj, le_rfl⟩
      | succ j ih =>
        intro hj
        have := hm (j + 1) hj
        exact ⟨(ih (by omega)).1.trans this, (ih (by omega)).2.trans this⟩
    have h2 := h0 i (by omega)
    exact pow_le_pow_left₀ (by linarith) (by linarith) 2

end

/-- Non-vacuity: a level well with stations at 0, 30 and 60 m and an azimuth error. -/
example : ∃ c : Ctx, Inclined c ∧ (∀ k, k + 1 < c.s.n → c.s.md k ≤ c.s.md (k + 1)) ∧ c.s.rev4 = true ∧
    AngleSource .AZ c ∧ byCourseLength .AZ = false ∧ 1 + 1 < c.s.n ∧
    (∀ k, c.s.inc k = c.s.inc 0 ∧ c.s.azi k = c.s.azi 0 ∧ c.aziMag k = c.aziMag 0) ∧
    ∃ t, callFunc .AZ c 1 .systematic = .ok (some t) :=
  ⟨northCtx 3 fun k => 30 * k, level_inclined _ _, fun k _ => by simp [northCtx], rfl,
    fun mag k => by simp [eDIA, dpde], rfl, by simp [northCtx], fun k => ⟨rfl, rfl, rfl⟩,
    by rw [level_az]; exact ⟨_, rfl⟩⟩

/-- A level well that turns from north to east between 30 and 60 m. -/
noncomputable def turningCtx : Ctx :=
  { northCtx 3 fun k => 30 * k with
    s := { n := 3, md := fun k => 30 * k, inc := fun _ => π / 2, azi := fun k => if k = 2 then π / 2 else 0,
           rev4 := true } }

/-- **C345** is false of the code: after a turn from north to east an error of the depths counts less for the
northing. -/
theorem C345_smaller :
    ∃ t, callFunc .DREF turningCtx 1 .random = .ok (some t) ∧ t.cov 1 0 0 = 1 ∧ t.cov 2 0 0 = 1 / 2 := by
  have : Inclined turningCtx := fun k _ => by simp only [turningCtx, northCtx]; positivity
  refine ⟨_, by rw [callFunc_inclined rfl this]; rfl, ?_, ?_⟩
  · simp only [one_ne_zero, if_false, Finset.sum_range_succ, Finset.sum_range_zero, Matrix.add_apply,
      covFromVec, Matrix.of_apply]
    norm_num [eNEV, eNEVStar, drdp, turningCtx, eDIA, dpde, northCtx]
    simp [Matrix.cons_val]
    try norm_num
  · simp only [two_ne_zero, if_false, Finset.sum_range_succ, Finset.sum_range_zero, Matrix.add_apply,
      covFromVec, Matrix.of_apply]
    norm_num [eNEV, eNEVStar, drdp, turningCtx, eDIA, dpde, northCtx]
    simp [Matrix.cons_val]
    try norm_num

end Welleng.Props
