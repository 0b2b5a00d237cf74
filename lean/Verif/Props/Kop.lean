import Verif.Model.Clearance
import Verif.Lemmas.ErrorModel
import Mathlib.Analysis.SpecialFunctions.Trigonometric.Bounds
import Mathlib.Algebra.BigOperators.Intervals
import Mathlib.Tactic.Linarith
import Mathlib.Tactic.FinCases
import Mathlib.Tactic.Positivity

/-! C32, C67: the reference well below a kick-off point. -/

namespace Welleng.Props

open Real Welleng Spec Err Clr Finset

theorem covFromVec_zero : covFromVec (0 : V) = 0 := by
  ext i j; simp [covFromVec]

/-- **C32** With an error model, the covariance at the kick-off station is zero. -/
theorem C32_zero_at_kop (r : RefSurvey) (ts : List Term) (he : r.err = some ts) {ki : ℕ}
    (hki : ki ≠ 0) : ∃ c, refCov r ki = some c ∧ c 0 = 0 := by
  refine ⟨covBelowKop r.n ki ts, by simp [refCov, hki, he], ?_⟩
  unfold covBelowKop
  have : ∀ t : Term, belowKop r.n ki t 0 = 0 := fun t => by
    unfold belowKop
    cases t.prop <;> simp only [add_zero, sub_self, if_true, ite_self, covFromVec_zero]
  simp [this]

/-- `t` is what the error model produced from some error vectors. -/
def Generated (s : Sv) (t : Term) : Prop :=
  ∃ e p nev, generateError s e p nev = some t

theorem Generated.isCov {s : Sv} {t : Term} (h : Generated s t) (k : ℕ) : IsCov (t.cov k) := by
  obtain ⟨e, p, nev, h⟩ := h
  exact (generateError_some h).2.2 k

theorem Generated.random {s : Sv} {t : Term} (h : Generated s t) (hp : t.prop = .random) (k : ℕ) :
    t.cov k = covFromVec (t.eStar k) + ∑ j ∈ range k, covFromVec (t.eNEV j) := by
  obtain ⟨e, p, nev, h⟩ := h
  simp only [generateError, Option.map_eq_some_iff] at h
  obtain ⟨c, hc, rfl⟩ := h
  simp only at hp
  subst hp
  simp only [propagate, Option.some.injEq] at hc
  subst hc
  rcases Nat.eq_zero_or_pos k with rfl | h
  · simp
  · simp [h.ne']

/-- At the kick-off station the error of the last station (`e_NEV_star`) is a fraction, between
0 and 1, of the error of an intermediate station (`e_NEV`). -/
def Proportional (t : Term) (ki : ℕ) : Prop :=
  ∃ l : ℝ, 0 ≤ l ∧ l ≤ 1 ∧ t.eStar ki = l • t.eNEV ki

theorem isCov_sub_smul (v : V) {l : ℝ} (h0 : 0 ≤ l) (h1 : l ≤ 1) :
    IsCov (covFromVec v - covFromVec (l • v)) := by
  have e : covFromVec v - covFromVec (l • v) = (1 - l ^ 2) • covFromVec v := by
    rw [covFromVec_smul, sub_smul, one_smul]
  rw [e]
  refine ⟨fun i j => by simp [covFromVec, mul_comm], fun w => ?_⟩
  have : ∑ i, ∑ j, w i * ((1 - l ^ 2) • covFromVec v) i j * w j
      = (1 - l ^ 2) * ∑ i, ∑ j, w i * covFromVec v i j * w j := by
    simp only [Fin.sum_univ_three, Matrix.smul_apply, smul_eq_mul]; ring
  rw [this]
  exact mul_nonneg (by nlinarith) ((isCov_covFromVec v).nonneg w)

theorem isCov_belowKop {s : Sv} {t : Term} (ht : Generated s t) {n ki : ℕ}
    (hr : t.prop = .random → ¬ DepthOnly n t.eDIA → Proportional t ki) (k : ℕ) :
    IsCov (belowKop n ki t k) := by
  unfold belowKop
  cases hp : t.prop with
  | other => exact isCov_zero
  | systematic | global | withinPad => exact isCov_covFromVec _
  | random =>
    simp only
    split
    · split
      · exact isCov_zero
      · exact ht.isCov _
    · rename_i hd
      rcases Nat.eq_zero_or_pos k with rfl | hk
      · simpa using isCov_zero
      · obtain ⟨l, h0, h1, hl⟩ := hr hp hd
        rw [ht.random hp, ht.random hp, hl]
        have hs : ∑ j ∈ range (ki + k), covFromVec (t.eNEV j)
            = ∑ j ∈ range ki, covFromVec (t.eNEV j)
              + (covFromVec (t.eNEV ki) + ∑ j ∈ range (k - 1), covFromVec (t.eNEV (ki + (j + 1)))) := by
          obtain ⟨m, rfl⟩ : ∃ m, k = m + 1 := ⟨k - 1, by omega⟩
          rw [sum_range_add, sum_range_succ' _ m]
          simp only [add_zero, Nat.add_sub_cancel]
          rw [add_comm (covFromVec (t.eNEV ki))]
        have e : covFromVec (t.eStar (ki + k)) + ∑ j ∈ range (ki + k), covFromVec (t.eNEV j)
            - (covFromVec (l • t.eNEV ki) + ∑ j ∈ range ki, covFromVec (t.eNEV j))
            = covFromVec (t.eStar (ki + k)) + ((covFromVec (t.eNEV ki) - covFromVec (l • t.eNEV ki))
              + ∑ j ∈ range (k - 1), covFromVec (t.eNEV (ki + (j + 1)))) := by
          rw [hs]; abel
        rw [e]
        exact IsCov.add' (isCov_covFromVec _) (IsCov.add' (isCov_sub_smul _ h0 h1)
          (isCov_sum (fun j => covFromVec (t.eNEV (ki + (j + 1)))) (fun j => isCov_covFromVec _) _))

/-- **C32** (partial) Below the kick-off point the covariance is symmetric and non-negative
definite if every random source that is not a pure depth source has proportional errors at the
kick-off station (see `C32_regular_source`).  Correlated sources and depth sources need no
condition. -/
theorem C32_cov_below_kop_partial (s : Sv) (r : RefSurvey) (ts : List Term) (he : r.err = some ts)
    (hg : ∀ t ∈ ts, Generated s t) {ki : ℕ} (hki : ki ≠ 0)
    (hr : ∀ t ∈ ts, t.prop = .random → ¬ DepthOnly r.n t.eDIA → Proportional t ki) :
    ∃ c, refCov r ki = some c ∧ ∀ k, IsCov (c k) := by
  refine ⟨covBelowKop r.n ki ts, by simp [refCov, hki, he], fun k => ?_⟩
  clear he
  unfold covBelowKop
  induction ts with
  | nil => simpa using isCov_zero
  | cons t ts ih =>
    rw [List.map_cons, List.sum_cons]
    exact IsCov.add' (isCov_belowKop (hg t (by simp)) (hr t (by simp)) k)
      (ih (fun x hx => hg x (by simp [hx])) (fun x hx => hr x (by simp [hx])))

/-- **C32** A random source without a depth error at the kick-off station and without a formula
of its own for vertical stations meets the condition, for rev4 models at every station and for
the others from the second station below the top. -/
theorem C32_regular_source {s : Sv} {e : ℕ → V} {t : Term}
    (h : generateError s e .random none = some t) {ki : ℕ} (h1 : 1 ≤ ki) (hn : ki + 1 < s.n)
    (hmd : ∀ k, s.md k ≤ s.md (k + 1)) (hrev : s.rev4 = true ∨ ki ≠ 1) (he : e ki 0 = 0) :
    Proportional t ki := by
  simp only [generateError, Option.map_eq_some_iff] at h
  obtain ⟨c, -, rfl⟩ := h
  obtain ⟨i, rfl⟩ : ∃ i, ki = i + 1 := ⟨ki - 1, by omega⟩
  have hrev' : (!s.rev4 && (i + 1 == 1)) = false := by
    rcases hrev with h | h
    · simp [h]
    · have : ¬ (i = 0) := by omega
      simp [this]
  have ha : 0 ≤ s.md (i + 1) - s.md i := sub_nonneg.2 (hmd i)
  have hb : 0 ≤ s.md (i + 1 + 1) - s.md (i + 1) := sub_nonneg.2 (hmd (i + 1))
  set a := s.md (i + 1) - s.md i with hA
  set b := s.md (i + 1 + 1) - s.md (i + 1) with hB
  let T : V := ![cos (s.inc (i + 1)) * cos (s.azi (i + 1)) * e (i + 1) 1
      - sin (s.inc (i + 1)) * sin (s.azi (i + 1)) * e (i + 1) 2,
    cos (s.inc (i + 1)) * sin (s.azi (i + 1)) * e (i + 1) 1
      + sin (s.inc (i + 1)) * cos (s.azi (i + 1)) * e (i + 1) 2,
    -(sin (s.inc (i + 1)) * e (i + 1) 1)]
  have hS : eNEVStar s e (i + 1) = (0.5 * a) • T := by
    unfold eNEVStar drdp
    simp only [Nat.add_eq_zero_iff, one_ne_zero, and_false, if_false, Nat.le_add_left, if_true, hrev',
      Bool.false_eq_true, Nat.add_sub_cancel, he, ← hA]
    funext j; fin_cases j <;> simp [T] <;> ring
  have hE : eNEV s e (i + 1) = (0.5 * (a + b)) • T := by
    unfold eNEV drdp
    simp only [Nat.add_eq_zero_iff, one_ne_zero, and_false, if_false, Nat.le_add_left, if_true, hrev',
      Bool.false_eq_true, Nat.add_sub_cancel, he, hn, ← hA, ← hB]
    funext j; fin_cases j <;> simp [T] <;> ring
  show ∃ l : ℝ, 0 ≤ l ∧ l ≤ 1 ∧ eNEVStar s e (i + 1) = l • eNEV s e (i + 1)
  rcases (add_nonneg ha hb).eq_or_lt with h0 | h0
  · have : a = 0 := by linarith
    exact ⟨0, le_rfl, zero_le_one, by rw [hS, this]; simp⟩
  · refine ⟨a / (a + b), by positivity, (div_le_one h0).2 (by linarith), ?_⟩
    rw [hS, hE, smul_smul]
    congr 1
    field_simp

/-- A survey of four stations 1 m apart with direction `inc = π/4`, `azi = 0` at station 1, and
`inc = 0`, `azi = π/2` elsewhere. -/
noncomputable def kopSv (rev4 : Bool) : Sv where
  n := 4
  md := fun k => k
  inc := fun k => if k = 1 then π / 4 else 0
  azi := fun k => if k = 1 then 0 else π / 2
  rev4 := rev4

/-- An inclination error of 1 at every station. -/
def incErr : ℕ → V := fun _ => ![0, 1, 0]

/-- The random source with that error. -/
noncomputable def incTerm (rev4 : Bool) : Term :=
  ⟨.random, incErr, eNEV (kopSv rev4) incErr, eNEVStar (kopSv rev4) incErr,
    fun k => covFromVec (eNEVStar (kopSv rev4) incErr k)
      + if k = 0 then 0 else ∑ j ∈ range k, covFromVec (eNEV (kopSv rev4) incErr j)⟩

theorem incTerm_generated (rev4 : Bool) :
    generateError (kopSv rev4) incErr .random none = some (incTerm rev4) := rfl

/-- Non-vacuity of the two theorems above. -/
example : ∃ c, refCov ⟨4, some [incTerm true], none⟩ 1 = some c ∧ ∀ k, IsCov (c k) :=
  C32_cov_below_kop_partial (kopSv true) _ [incTerm true] rfl
    (by simpa using ⟨_, _, _, incTerm_generated true⟩) one_ne_zero
    (by
      simp only [List.mem_singleton, forall_eq]
      exact fun _ _ => C32_regular_source (incTerm_generated true) le_rfl (by simp [kopSv])
        (by simp [kopSv]) (.inl rfl) (by simp [incErr]))

/-- **C32** is false of the code: with a model other than rev4, a random inclination error and
the kick-off point at the second station, the covariance one station below has a direction of
negative variance (its root, the uncertainty, is not defined). -/
theorem C32_negative_variance :
    ∃ (s : Sv) (t : Term) (v : V), s.rev4 = false ∧ Generated s t ∧
      ∃ c, refCov ⟨s.n, some [t], none⟩ 1 = some c ∧ ∑ i, ∑ j, v i * c 1 i j * v j < 0 := by
  refine ⟨kopSv false, incTerm false, ![2, 0, 3], rfl, ⟨_, _, _, incTerm_generated false⟩,
    covBelowKop 4 1 [incTerm false], rfl, ?_⟩
  have hd : ¬ DepthOnly 4 (incTerm false).eDIA := fun h => by
    have := (h.1 0 (by norm_num)).1
    simp only [incTerm, incErr, Matrix.cons_val_one, Matrix.cons_val_zero, abs_one] at this
    norm_num at this
  have hb : belowKop 4 1 (incTerm false) 1 = (incTerm false).cov 2 - (incTerm false).cov 1 := by
    unfold belowKop
    simp only [show (incTerm false).prop = .random from rfl, if_neg hd]
  have hs1 : eNEVStar (kopSv false) incErr 1 = (√2 / 4) • ![2, 0, -1] := by
    unfold eNEVStar drdp
    funext j; fin_cases j <;> simp [kopSv, incErr] <;> ring
  have hs2 : eNEVStar (kopSv false) incErr 2 = ![0, 1 / 2, 0] := by
    unfold eNEVStar drdp
    funext j; fin_cases j <;> simp [kopSv, incErr] <;> norm_num
  have he1 : eNEV (kopSv false) incErr 1 = (√2 / 4) • ![3, 0, -2] := by
    unfold eNEV drdp
    funext j; fin_cases j <;> simp [kopSv, incErr] <;> ring
  have he0 : eNEV (kopSv false) incErr 0 = 0 := by simp [eNEV]
  have hc : covBelowKop 4 1 [incTerm false] 1 = (incTerm false).cov 2 - (incTerm false).cov 1 := by
    simp only [covBelowKop, List.map_cons, List.map_nil, List.sum_cons, List.sum_nil, add_zero, hb]
  rw [hc]
  simp only [incTerm, OfNat.ofNat_ne_zero, one_ne_zero, if_false]
  simp only [sum_range_succ, sum_range_zero, hs1, hs2, he1, he0, covFromVec_smul, covFromVec_zero]
  have h2 : (√2 / 4) ^ 2 = 1 / 8 := by rw [div_pow, sq_sqrt (by norm_num)]; norm_num
  rw [h2]
  simp [Fin.sum_univ_three, covFromVec]
  norm_num

/-- **C32** is false of the code for a survey whose covariances were given directly: the
covariance at the kick-off station is the survey's own. -/
theorem C32_given_cov_not_restarted (n ki : ℕ) (cov : ℕ → M3) :
    ∃ c, refCov ⟨n, none, some cov⟩ ki = some c ∧ c 0 = cov ki := by
  by_cases h : ki = 0
  · exact ⟨cov, by simp [refCov, h], by rw [h]⟩
  · exact ⟨fun k => cov (ki + k), by simp [refCov, h], rfl⟩

/-- `get_ref_sigma` measures change from the kick-off station, with the sign reversed above. -/
theorem C32_ref_sigma (sigma : ℕ → ℝ) (ki k : ℕ) :
    getRefSigma sigma ki k = if k < ki then sigma ki - sigma k else sigma k - sigma ki := by
  unfold getRefSigma
  split
  · rename_i h; exact sum_Ico_sub _ h.le
  · rename_i h; exact sum_Ico_sub _ (not_lt.1 h)

/-! ### C67 -/

/-- **C67** (partial) With a grid header the stations of the reference below the kick-off point
have the azimuths of the original survey. -/
theorem C67_grid_tail_partial (h : Sv.Header) (hg : h.aziRef = .grid) (azi : ℝ) :
    refAzis h (Sv.processAziRef h false azi) = Sv.processAziRef h false azi := by
  simp [refAzis, Sv.processAziRef, hg]

/-- **C67** is false of the code otherwise: the grid azimuth of every station below the kick-off
point is off by the grid convergence (true reference) or by the declination less the convergence
(magnetic reference). -/
theorem C67_tail_azimuth_shifted (h : Sv.Header) (a : Sv.Azis) :
    (h.aziRef = .true_ → (refAzis h a).gridRad = a.gridRad - h.convergence) ∧
    (h.aziRef = .magnetic → (refAzis h a).gridRad = a.gridRad + (h.declination - h.convergence)) := by
  constructor <;> intro hr <;> simp only [refAzis, Sv.processAziRef, hr] <;> simp <;> ring

theorem C67_tail_differs : ∃ (h : Sv.Header) (azi : ℝ), h.aziRef = .true_ ∧
    (refAzis h (Sv.processAziRef h false azi)).gridRad ≠ (Sv.processAziRef h false azi).gridRad := by
  refine ⟨{ aziRef := .true_, convergence := 1, declination := 0 }, 0, rfl, ?_⟩
  rw [(C67_tail_azimuth_shifted _ _).1 rfl]
  simp

end Welleng.Props
