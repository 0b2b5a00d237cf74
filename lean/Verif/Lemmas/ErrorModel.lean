import Verif.Model.Weights
import Verif.Spec.Covariance
import Mathlib.Tactic.Linarith
import Mathlib.Tactic.FinCases
import Mathlib.Tactic.Positivity

/-! Lemmas on the error model. -/

namespace Welleng.Err

open Real Finset Spec

theorem isCov_zero : IsCov (0 : M3) := ⟨by simp, by simp⟩

theorem IsCov.add' {a b : M3} (ha : IsCov a) (hb : IsCov b) : IsCov (a + b) := by
  refine ⟨fun i j => ?_, fun v => ?_⟩
  · simp [ha.symm i j, hb.symm i j]
  · have h1 := ha.nonneg v
    have h2 := hb.nonneg v
    have : ∑ i, ∑ j, v i * (a + b) i j * v j
        = ∑ i, ∑ j, v i * a i j * v j + ∑ i, ∑ j, v i * b i j * v j := by
      simp only [Fin.sum_univ_three, Matrix.add_apply]; ring
    rw [this]; exact add_nonneg h1 h2

theorem isCov_covFromVec (v : V) : IsCov (covFromVec v) := by
  refine ⟨fun i j => by simp [covFromVec, mul_comm], fun w => ?_⟩
  have : ∑ i, ∑ j, w i * covFromVec v i j * w j = (∑ i, w i * v i) ^ 2 := by
    simp only [Fin.sum_univ_three, covFromVec, Matrix.of_apply]; ring
  rw [this]; positivity

theorem isCov_sum (f : ℕ → M3) (hf : ∀ j, IsCov (f j)) (k : ℕ) :
    IsCov (∑ j ∈ range k, f j) := by
  induction k with
  | zero => simpa using isCov_zero
  | succ k ih => rw [sum_range_succ]; exact IsCov.add' ih (hf k)

theorem isCov_hla {m : M3} (h : IsCov m) (inc azi : ℝ) : IsCov (nevToHlaCov inc azi m) := by
  refine ⟨fun i j => ?_, fun w => ?_⟩
  · simp only [nevToHlaCov, Matrix.mul_apply, Matrix.transpose_apply, Fin.sum_univ_three]
    rw [h.symm 1 0, h.symm 2 0, h.symm 2 1]; ring
  · have := h.nonneg fun k => ∑ i, w i * getTransform inc azi i k
    have e : ∑ i, ∑ j, w i * nevToHlaCov inc azi m i j * w j
        = ∑ i, ∑ j, (∑ l, w l * getTransform inc azi l i) * m i j *
            (∑ l, w l * getTransform inc azi l j) := by
      simp only [nevToHlaCov, Matrix.mul_apply, Matrix.transpose_apply, Fin.sum_univ_three]
      ring
    rw [e]; exact this

theorem propagate_some {p : Prop'} {e es : ℕ → V} {c : ℕ → M3} (h : propagate p e es = some c) :
    p ≠ .other ∧ ∀ k, IsCov (c k) := by
  cases p <;> simp only [propagate, Option.some.injEq, reduceCtorEq] at h <;> subst h <;>
    refine ⟨by simp, fun k => ?_⟩
  · refine IsCov.add' (isCov_covFromVec _) ?_
    split
    · exact isCov_zero
    · exact isCov_sum _ (fun j => isCov_covFromVec _) k
  all_goals exact isCov_covFromVec _

theorem generateError_some {s : Sv} {e : ℕ → V} {p : Prop'} {nev} {t : Term}
    (h : generateError s e p nev = some t) :
    t.prop = p ∧ p ≠ .other ∧ ∀ k, IsCov (t.cov k) := by
  simp only [generateError, Option.map_eq_some_iff] at h
  obtain ⟨c, hc, rfl⟩ := h
  obtain ⟨h1, h2⟩ := propagate_some hc
  exact ⟨rfl, h1, h2⟩

theorem callFunc_some {f : Func} {c : Ctx} {mag : ℝ} {p : Prop'} {t : Term}
    (h : callFunc f c mag p = .ok (some t)) :
    t.prop = forcedProp f p ∧ t.prop ≠ .other ∧ ∀ k, IsCov (t.cov k) := by
  have key : ∀ e nev, generateError c.s e (forcedProp f p) nev = some t →
      t.prop = forcedProp f p ∧ t.prop ≠ .other ∧ ∀ k, IsCov (t.cov k) := by
    intro e nev h
    obtain ⟨h1, h2, h3⟩ := generateError_some h
    exact ⟨h1, h1 ▸ h2, h3⟩
  simp only [callFunc] at h
  repeat' split at h
  all_goals first
    | (simp only [reduceCtorEq] at h)
    | exact key _ _ (by simpa using h)

theorem totalsLoop_ok {l : List (Option Term)} {t T : Totals} (h : totalsLoop l t = .ok T) :
    ∃ vs : List Term, l = vs.map some ∧ T = vs.foldl Totals.step t := by
  induction l generalizing t with
  | nil => exact ⟨[], rfl, by simpa [totalsLoop] using h.symm⟩
  | cons a l ih =>
    cases a with
    | none => simp [totalsLoop] at h
    | some v =>
      obtain ⟨vs, rfl, hT⟩ := ih (by simpa [totalsLoop] using h)
      exact ⟨v :: vs, rfl, hT⟩

theorem totalsLoop_map_some (vs : List Term) (t : Totals) :
    totalsLoop (vs.map some) t = .ok (vs.foldl Totals.step t) := by
  induction vs generalizing t with
  | nil => rfl
  | cons v vs ih => simp [totalsLoop, ih]

theorem foldl_step (vs : List Term) (t : Totals) (k : ℕ) :
    (vs.foldl Totals.step t).total k = t.total k + (vs.map fun v => v.cov k).sum ∧
    (vs.foldl Totals.step t).random k
      = t.random k + ((vs.filter fun v => v.prop = .random).map fun v => v.cov k).sum ∧
    (vs.foldl Totals.step t).systematic k
      = t.systematic k + ((vs.filter fun v => v.prop = .systematic).map fun v => v.cov k).sum ∧
    (vs.foldl Totals.step t).global k
      = t.global k + ((vs.filter fun v => v.prop = .global).map fun v => v.cov k).sum ∧
    (vs.foldl Totals.step t).withinPad k
      = t.withinPad k + ((vs.filter fun v => v.prop = .withinPad).map fun v => v.cov k).sum := by
  induction vs generalizing t with
  | nil => simp
  | cons v vs ih =>
    obtain ⟨h1, h2, h3, h4, h5⟩ := ih (t.step v)
    simp only [List.foldl_cons, h1, h2, h3, h4, h5, List.map_cons, List.sum_cons]
    cases hp : v.prop <;> simp [Totals.step, hp, add_assoc]

theorem isCov_list_sum (vs : List Term) (h : ∀ v ∈ vs, ∀ k, IsCov (v.cov k)) (k : ℕ) :
    IsCov (vs.map fun v => v.cov k).sum := by
  induction vs with
  | nil => simpa using isCov_zero
  | cons v vs ih =>
    simp only [List.map_cons, List.sum_cons]
    exact IsCov.add' (h v (by simp) k) (ih fun w hw => h w (by simp [hw]))

theorem callAll_ok {c : Ctx} {codes : List Entry} {ts : List (Option Term)}
    (h : callAll c codes = .ok ts) :
    List.Forall₂ (fun e t => callFunc e.f c e.mag e.prop = .ok t) codes ts := by
  induction codes generalizing ts with
  | nil => simp only [callAll, Except.ok.injEq] at h; subst h; exact .nil
  | cons e es ih =>
    simp only [callAll] at h
    split at h
    · simp at h
    · rename_i t ht
      split at h
      · simp at h
      · rename_i ts' hts
        simp only [Except.ok.injEq] at h; subst h
        exact .cons ht (ih hts)

theorem toolError_ok {c : Ctx} {codes : List Entry} {T : Totals}
    (h : toolError c codes = .ok T) :
    ∃ vs : List Term,
      List.Forall₂ (fun e t => callFunc e.f c e.mag e.prop = .ok (some t)) codes vs ∧
      T = vs.foldl Totals.step ⟨0, 0, 0, 0, 0⟩ := by
  simp only [toolError] at h
  split at h
  · simp at h
  · rename_i ts hts
    obtain ⟨vs, rfl, rfl⟩ := totalsLoop_ok h
    refine ⟨vs, ?_, rfl⟩
    have := callAll_ok hts
    rwa [List.forall₂_map_right_iff] at this

theorem forall₂_right {R : Entry → Term → Prop} {P : Term → Prop} {l : List Entry}
    {vs : List Term} (h : List.Forall₂ R l vs) (hP : ∀ e t, R e t → P t) : ∀ v ∈ vs, P v := by
  induction h with
  | nil => simp
  | cons h _ ih =>
    intro v hv
    rcases List.mem_cons.1 hv with rfl | hv
    · exact hP _ _ h
    · exact ih v hv

theorem covFromVec_smul (a : ℝ) (v : V) : covFromVec (a • v) = a ^ 2 • covFromVec v := by
  ext i j; simp [covFromVec]; ring

theorem sigma_smul (a : ℝ) (e es : ℕ → V) (k : ℕ) :
    sigmaSystematic (a • e) (a • es) k = a • sigmaSystematic e es k := by
  simp only [sigmaSystematic, Pi.smul_apply, smul_add]
  split <;> simp [smul_sum]

theorem propagate_smul (a : ℝ) (p : Prop') (e es : ℕ → V) :
    propagate p (a • e) (a • es) = (propagate p e es).map fun c k => a ^ 2 • c k := by
  cases p <;> simp only [propagate, Option.map_some, Option.map_none, sigma_smul, covFromVec_smul,
    Pi.smul_apply]
  congr 1
  funext k
  rw [smul_add]
  split <;> simp [smul_sum]

theorem eNEV_smul (s : Sv) (a : ℝ) (e : ℕ → V) : eNEV s (a • e) = a • eNEV s e := by
  funext k i
  simp only [eNEV, Pi.smul_apply]
  split
  · simp
  · fin_cases i <;> simp <;> ring

theorem eNEVStar_smul (s : Sv) (a : ℝ) (e : ℕ → V) :
    eNEVStar s (a • e) = a • eNEVStar s e := by
  funext k i
  simp only [eNEVStar, Pi.smul_apply]
  split
  · simp
  · fin_cases i <;> simp <;> ring

/-- The source with every error vector multiplied by `a`. -/
noncomputable def Term.scale (a : ℝ) (t : Term) : Term where
  prop := t.prop
  eDIA := a • t.eDIA
  eNEV := a • t.eNEV
  eStar := a • t.eStar
  cov := fun k => a ^ 2 • t.cov k

theorem generateError_smul (s : Sv) (a : ℝ) (e : ℕ → V) (p : Prop')
    (nev : Option ((ℕ → V) × (ℕ → V))) :
    generateError s (a • e) p (nev.map fun x => (a • x.1, a • x.2))
      = (generateError s e p nev).map (Term.scale a) := by
  cases nev <;>
    simp [generateError, eNEV_smul, eNEVStar_smul, propagate_smul, Function.comp_def, Term.scale]

theorem eDIA_smul (f : Func) (c : Ctx) (tort a mag : ℝ) :
    eDIA f c tort (a * mag) = a • eDIA f c tort mag := by
  funext k i; simp [eDIA]; ring

end Welleng.Err
