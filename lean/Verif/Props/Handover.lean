import Verif.Props.RefinedTool

/-!
C344: a survey continued in a second survey that starts with the covariance of the first one
(`start_cov_nev`).
-/

namespace Welleng.Props

open Real Finset Spec Err Clr

/-- `c₁` holds the stations of `c` down to station `m`, `c₂` those from station `m` on. -/
structure CutAt (m : ℕ) (c c₁ c₂ : Ctx) : Prop where
  inside : 1 ≤ m ∧ m + 1 < c.s.n
  count : c₁.s.n = m + 1 ∧ c₂.s.n + m = c.s.n
  above : ∀ k ≤ m, c₁.s.md k = c.s.md k ∧ c₁.s.inc k = c.s.inc k ∧ c₁.s.azi k = c.s.azi k ∧
    c₁.tvd k = c.tvd k ∧ c₁.aziMag k = c.aziMag k
  below : ∀ k, c₂.s.md k = c.s.md (m + k) ∧ c₂.s.inc k = c.s.inc (m + k) ∧
    c₂.s.azi k = c.s.azi (m + k) ∧ c₂.tvd k = c.tvd (m + k) ∧ c₂.aziMag k = c.aziMag (m + k)
  same₁ : c₁.s.rev4 = c.s.rev4 ∧ c₁.G = c.G ∧ c₁.dip = c.dip ∧ c₁.bTotal = c.bTotal ∧ c₁.vlim = c.vlim
  same₂ : c₂.s.rev4 = c.s.rev4 ∧ c₂.G = c.G ∧ c₂.dip = c.dip ∧ c₂.bTotal = c.bTotal ∧ c₂.vlim = c.vlim

/-- No station is close to the vertical. -/
def Inclined (c : Ctx) : Prop := ∀ k < c.s.n, c.vlim ≤ c.s.inc k

/-- Without stations close to the vertical a source has no special rows. -/
theorem callFunc_inclined {f : Func} (hf : byCourseLength f = false) {c : Ctx} (hc : Inclined c) (mag : ℝ)
    (p : Prop') :
    callFunc f c mag p
      = .ok (generateError c.s (eDIA f c (c.tortuosity.getD 0) mag) (forcedProp f p) none) := by
  have hX : ¬(f = .XCLA ∨ f = .XCLH) := by rintro (rfl | rfl) <;> simp [byCourseLength] at hf
  have hu : f.usesTortuosity = false := by cases f <;> simp [byCourseLength] at hf <;> rfl
  have hn : ¬∃ k < c.s.n, c.s.inc k < c.vlim := by
    rintro ⟨k, h1, h2⟩
    exact absurd h2 (not_lt.mpr (hc k h1))
  simp only [callFunc, hu, Bool.false_and, Bool.false_eq_true, if_false, if_neg hX, if_neg hn]
  cases singRows f c (c.tortuosity.getD 0) mag <;> rfl

/-- The covariance a source adds at station `k` of the survey `c`. -/
def Adds (f : Func) (c : Ctx) (mag : ℝ) (p : Prop') (k : ℕ) (M : M3) : Prop :=
  ∃ t, callFunc f c mag p = .ok (some t) ∧ t.cov k = M

section
variable {m : ℕ} {c c₁ c₂ : Ctx} (h : CutAt m c c₁ c₂)
include h

theorem cut_inclined (hc : Inclined c) : Inclined c₁ ∧ Inclined c₂ := by
  constructor
  · intro k hk
    have hk' : k ≤ m := by have := h.count.1; omega
    rw [h.same₁.2.2.2.2, (h.above k hk').2.1]
    exact hc k (by have := h.inside; omega)
  · intro k hk
    rw [h.same₂.2.2.2.2, (h.below k).2.1]
    exact hc _ (by have := h.count.2; omega)

theorem cut_eDIA₁ {f : Func} (hf : byCourseLength f = false) (τ τ' mag : ℝ) {k : ℕ} (hk : k ≤ m) :
    eDIA f c₁ τ' mag k = eDIA f c τ mag k := by
  obtain ⟨a1, a2, a3, a4, a5⟩ := h.above k hk
  obtain ⟨-, b2, b3, b4, -⟩ := h.same₁
  exact eDIA_station hf a1 a2 a3 a4 a5 b2 b3 b4 τ τ' mag

theorem cut_eDIA₂ {f : Func} (hf : byCourseLength f = false) (τ τ' mag : ℝ) (k : ℕ) :
    eDIA f c₂ τ' mag k = eDIA f c τ mag (m + k) := by
  obtain ⟨a1, a2, a3, a4, a5⟩ := h.below k
  obtain ⟨-, b2, b3, b4, -⟩ := h.same₂
  exact eDIA_station hf a1 a2 a3 a4 a5 b2 b3 b4 τ τ' mag

theorem cut_e₁ {e e' : ℕ → V} {k : ℕ} (hk : k < m) (he : e' k = e k) : eNEV c₁.s e' k = eNEV c.s e k := by
  have n1 : k + 1 < c.s.n := by have := h.inside; omega
  have n2 : k + 1 < c₁.s.n := by have := h.count.1; omega
  obtain ⟨hm0, hi0, ha0, -⟩ := h.above (k - 1) (by omega)
  obtain ⟨hm1, hi1, ha1, -⟩ := h.above k hk.le
  obtain ⟨hm2, hi2, ha2, -⟩ := h.above (k + 1) hk
  have : drdp c₁.s k = drdp c.s k := by
    rcases Nat.eq_zero_or_pos k with rfl | hk0
    · simp only [drdp, h.same₁.1, n1, n2, hm1, hi1, ha1, hm2, hi2, ha2, if_true,
        show ¬(1 ≤ 0) by norm_num, if_false]
    · have hkk : k - 1 + 1 = k := by omega
      simp only [drdp, hkk, h.same₁.1, n1, n2, hm0, hi0, ha0, hm1, hi1, ha1, hm2, hi2, ha2]
  simp only [eNEV, this, he]

theorem cut_es₁ {e e' : ℕ → V} {k : ℕ} (hk : k ≤ m) (he : e' k = e k) :
    eNEVStar c₁.s e' k = eNEVStar c.s e k := by
  rcases Nat.eq_zero_or_pos k with rfl | hk0
  · simp [eNEVStar]
  obtain ⟨hm0, hi0, ha0, -⟩ := h.above (k - 1) (by omega)
  obtain ⟨hm1, hi1, ha1, -⟩ := h.above k hk
  have hkk : k - 1 + 1 = k := by omega
  funext j
  simp only [eNEVStar, if_neg (show k ≠ 0 by omega)]
  fin_cases j <;> simp [drdp, hkk, h.same₁.1, hm0, hi0, ha0, hm1, hi1, ha1, he]

theorem cut_drdp₂ (hr : c.s.rev4 = true) {k : ℕ} (hk : 1 ≤ k) : drdp c₂.s k = drdp c.s (m + k) := by
  obtain ⟨hm0, hi0, ha0, -⟩ := h.below (k - 1)
  obtain ⟨hm1, hi1, ha1, -⟩ := h.below k
  obtain ⟨hm2, hi2, ha2, -⟩ := h.below (k + 1)
  have hkk : k - 1 + 1 = k := by omega
  have e1 : m + (k - 1) = m + k - 1 := by omega
  have e2 : m + k - 1 + 1 = m + k := by omega
  have e3 : (m + k + 1 < c.s.n) = (k + 1 < c₂.s.n) := by
    apply propext; have := h.count.2; omega
  have e4 : 1 ≤ m + k := by omega
  rw [e1] at hm0 hi0 ha0
  rw [← add_assoc] at hm2 hi2 ha2
  simp only [drdp, hkk, e2, e3, e4, hk, h.same₂.1, hr, hm0, hi0, ha0, hm1, hi1, ha1, hm2, hi2, ha2,
    Bool.not_true, Bool.false_and, Bool.false_eq_true, if_false, if_true]

theorem cut_e₂ (hr : c.s.rev4 = true) {e e' : ℕ → V} {k : ℕ} (hk : 1 ≤ k) (he : e' k = e (m + k)) :
    eNEV c₂.s e' k = eNEV c.s e (m + k) ∧ eNEVStar c₂.s e' k = eNEVStar c.s e (m + k) := by
  simp only [eNEV, eNEVStar, cut_drdp₂ h hr hk, he, if_neg (show k ≠ 0 by omega),
    if_neg (show m + k ≠ 0 by omega), and_self]

theorem cut_random {e e₁ e₂ s s₁ s₂ : ℕ → V} (h1 : ∀ j < m, e₁ j = e j) (h1s : s₁ m = s m)
    (h2 : ∀ j, 1 ≤ j → e₂ j = e (m + j) ∧ s₂ j = s (m + j)) (h0 : e₂ 0 = 0) {k : ℕ} (hk : 1 ≤ k) :
    randomCov e s (m + k) + covFromVec (s m)
      = randomCov e₁ s₁ m + randomCov e₂ s₂ k + covFromVec (e m) := by
  have hm := h.inside.1
  have up : ∑ j ∈ range m, covFromVec (e₁ j) = ∑ j ∈ range m, covFromVec (e j) :=
    Finset.sum_congr rfl fun j hj => by rw [h1 j (Finset.mem_range.mp hj)]
  have low : ∀ i, ∑ j ∈ range (m + (i + 1)), covFromVec (e j)
      = ∑ j ∈ range m, covFromVec (e j) + covFromVec (e m) + ∑ j ∈ range (i + 1), covFromVec (e₂ j) := by
    intro i
    induction i with
    | zero =>
      have z : covFromVec (e₂ 0) = 0 := by
        rw [h0]; ext a b; simp [covFromVec]
      rw [← add_assoc, Nat.add_zero, Finset.sum_range_succ, zero_add, Finset.sum_range_one, z, add_zero]
    | succ i ih =>
      rw [show m + (i + 1 + 1) = m + (i + 1) + 1 by rfl, Finset.sum_range_succ, ih,
        Finset.sum_range_succ (fun j => covFromVec (e₂ j)) (i + 1), (h2 (i + 1) (by omega)).1, add_assoc]
  obtain ⟨i, rfl⟩ : ∃ i, k = i + 1 := ⟨k - 1, by omega⟩
  simp only [randomCov, if_neg (show m ≠ 0 by omega), if_neg (show i + 1 ≠ 0 by omega),
    if_neg (show m + (i + 1) ≠ 0 by omega), low, up, h1s, (h2 (i + 1) hk).2]
  abel

/-- **C344** (what holds of random sources, rev4 models).  At every station below the cut the survey in one
piece and the two surveys differ by what the station of the cut contributes: in one piece its measurement
also counts for the interval below it, in the second survey it has no error. -/
theorem C344_random_partial (hr : c.s.rev4 = true) (hc : Inclined c) {f : Func}
    (hf : byCourseLength f = false) {mag : ℝ} {p : Prop'} (hp : forcedProp f p = .random) {k : ℕ}
    (hk : 1 ≤ k) :
    ∃ M M₁ M₂, Adds f c mag p (m + k) M ∧ Adds f c₁ mag p m M₁ ∧ Adds f c₂ mag p k M₂ ∧
      M + covFromVec (eNEVStar c.s (eDIA f c 0 mag) m)
        = M₁ + M₂ + covFromVec (eNEV c.s (eDIA f c 0 mag) m) := by
  obtain ⟨i1, i2⟩ := cut_inclined h hc
  have hm := h.inside.1
  have z : eDIA f c (c.tortuosity.getD 0) mag = eDIA f c 0 mag := by
    funext j; exact eDIA_station hf rfl rfl rfl rfl rfl rfl rfl rfl 0 _ mag
  refine ⟨_, _, _, ⟨_, by rw [callFunc_inclined hf hc, hp]; rfl, rfl⟩,
    ⟨_, by rw [callFunc_inclined hf i1, hp]; rfl, rfl⟩,
    ⟨_, by rw [callFunc_inclined hf i2, hp]; rfl, rfl⟩, ?_⟩
  have := cut_random h
    (e := eNEV c.s (eDIA f c 0 mag)) (s := eNEVStar c.s (eDIA f c 0 mag))
    (e₁ := eNEV c₁.s (eDIA f c₁ (c₁.tortuosity.getD 0) mag))
    (s₁ := eNEVStar c₁.s (eDIA f c₁ (c₁.tortuosity.getD 0) mag))
    (e₂ := eNEV c₂.s (eDIA f c₂ (c₂.tortuosity.getD 0) mag))
    (s₂ := eNEVStar c₂.s (eDIA f c₂ (c₂.tortuosity.getD 0) mag))
    (fun j hj => cut_e₁ h hj (cut_eDIA₁ h hf _ _ _ hj.le)) (cut_es₁ h le_rfl (cut_eDIA₁ h hf _ _ _ le_rfl))
    (fun j hj => cut_e₂ h hr hj (cut_eDIA₂ h hf _ _ _ _)) (by simp [eNEV]) hk
  rw [← z] at this ⊢
  exact this

/-- **C344** (random sources that change the angles): the covariance handed on is too small.  In no
direction is the uncertainty of the two surveys larger than that of the survey in one piece. -/
theorem C344_optimistic_partial (hr : c.s.rev4 = true) (hc : Inclined c) {f : Func}
    (hf : byCourseLength f = false) {mag : ℝ} (hz : ∀ k, eDIA f c 0 mag k 0 = 0) {p : Prop'}
    (hp : forcedProp f p = .random) (h0 : c.s.md (m - 1) ≤ c.s.md m) (h1 : c.s.md m ≤ c.s.md (m + 1)) {k : ℕ}
    (hk : 1 ≤ k) :
    ∃ M M₁ M₂, Adds f c mag p (m + k) M ∧ Adds f c₁ mag p m M₁ ∧ Adds f c₂ mag p k M₂ ∧
      NoLessUncertain (M₁ + M₂) M := by
  obtain ⟨M, M₁, M₂, a, b, d, e⟩ := C344_random_partial h hr hc hf hp (mag := mag) hk
  refine ⟨M, M₁, M₂, a, b, d, fun v => ?_⟩
  have hm := h.inside
  rw [eNEV_angleShift c.s hm.1 (.inl hr) (hz m), eNEVStar_angleShift c.s hm.1 (.inl hr) (hz m),
    if_pos hm.2] at e
  have q : ∀ X Y : M3, ∑ a, ∑ b, v a * (X + Y) a b * v b
      = ∑ a, ∑ b, v a * X a b * v b + ∑ a, ∑ b, v a * Y a b * v b := by
    intro x y
    simp only [Fin.sum_univ_three, Matrix.add_apply]; ring
  have e' := congrArg (fun X : M3 => ∑ a, ∑ b, v a * X a b * v b) e
  simp only [q _ (covFromVec _), quad_covFromVec, along_smul] at e'
  generalize along v (angleShift c.s m (eDIA f c 0 mag m 1) (eDIA f c 0 mag m 2)) = g at e'
  have : ((c.s.md m - c.s.md (m - 1)) / 2 * g) ^ 2
      ≤ (((c.s.md m - c.s.md (m - 1)) / 2 + (c.s.md (m + 1) - c.s.md m) / 2) * g) ^ 2 := by
    rw [mul_pow, mul_pow]
    refine mul_le_mul_of_nonneg_right ?_ (sq_nonneg g)
    exact pow_le_pow_left₀ (by linarith) (by linarith) 2
  linarith

/-- **C344** (what holds of systematic sources, rev4 models): the error vector at a station below the cut is
the sum of those of the two surveys and of the part of the station of the cut that belongs to the interval
below it. -/
theorem C344_systematic_partial (hr : c.s.rev4 = true) (hc : Inclined c) {f : Func}
    (hf : byCourseLength f = false) {mag : ℝ} {p : Prop'} (hp : forcedProp f p = .systematic) {k : ℕ}
    (hk : 1 ≤ k) :
    ∃ x₁ x₂ : V, Adds f c₁ mag p m (covFromVec x₁) ∧ Adds f c₂ mag p k (covFromVec x₂) ∧
      Adds f c mag p (m + k) (covFromVec (x₁ + x₂
        + (eNEV c.s (eDIA f c 0 mag) m - eNEVStar c.s (eDIA f c 0 mag) m))) := by
  obtain ⟨i1, i2⟩ := cut_inclined h hc
  have hm := h.inside.1
  have z : eDIA f c (c.tortuosity.getD 0) mag = eDIA f c 0 mag := by
    funext j; exact eDIA_station hf rfl rfl rfl rfl rfl rfl rfl rfl 0 _ mag
  refine ⟨_, _, ⟨_, by rw [callFunc_inclined hf i1, hp]; rfl, rfl⟩,
    ⟨_, by rw [callFunc_inclined hf i2, hp]; rfl, rfl⟩,
    ⟨_, by rw [callFunc_inclined hf hc, hp]; rfl, ?_⟩⟩
  refine congrArg covFromVec ?_
  rw [z]
  have e1 : ∀ j < m, eNEV c₁.s (eDIA f c₁ (c₁.tortuosity.getD 0) mag) j = eNEV c.s (eDIA f c 0 mag) j :=
    fun j hj => cut_e₁ h hj (cut_eDIA₁ h hf _ _ _ hj.le)
  have s1 : eNEVStar c₁.s (eDIA f c₁ (c₁.tortuosity.getD 0) mag) m = eNEVStar c.s (eDIA f c 0 mag) m :=
    cut_es₁ h le_rfl (cut_eDIA₁ h hf _ _ _ le_rfl)
  have e2 := fun (j : ℕ) (hj : 1 ≤ j) => cut_e₂ h hr hj (cut_eDIA₂ h hf 0 (c₂.tortuosity.getD 0) mag j)
  have e0 : eNEV c₂.s (eDIA f c₂ (c₂.tortuosity.getD 0) mag) 0 = 0 := by simp [eNEV]
  have low : ∀ i, ∑ j ∈ range (m + (i + 1)), eNEV c.s (eDIA f c 0 mag) j
      = ∑ j ∈ range m, eNEV c.s (eDIA f c 0 mag) j + eNEV c.s (eDIA f c 0 mag) m
        + ∑ j ∈ range (i + 1), eNEV c₂.s (eDIA f c₂ (c₂.tortuosity.getD 0) mag) j := by
    intro i
    induction i with
    | zero =>
      rw [← add_assoc, Nat.add_zero, Finset.sum_range_succ, zero_add, Finset.sum_range_one, e0, add_zero]
    | succ i ih =>
      rw [show m + (i + 1 + 1) = m + (i + 1) + 1 by rfl, Finset.sum_range_succ, ih,
        Finset.sum_range_succ (fun j => eNEV c₂.s (eDIA f c₂ (c₂.tortuosity.getD 0) mag) j) (i + 1),
        (e2 (i + 1) (by omega)).1, add_assoc]
  obtain ⟨i, rfl⟩ : ∃ i, k = i + 1 := ⟨k - 1, by omega⟩
  simp only [sigmaSystematic, if_neg (show m ≠ 0 by omega), if_neg (show i + 1 ≠ 0 by omega),
    if_neg (show m + (i + 1) ≠ 0 by omega), low, s1, (e2 (i + 1) hk).2,
    Finset.sum_congr rfl fun j hj => e1 j (Finset.mem_range.mp hj)]
  abel

end

theorem level_cut : CutAt 1 (northCtx 3 fun k => 30 * k) (northCtx 2 fun k => 30 * k)
    (northCtx 2 fun k => 30 + 30 * k) where
  inside := by simp [northCtx]
  count := by simp [northCtx]
  above k _ := by simp [northCtx]
  below k := by simp [northCtx]; ring
  same₁ := by simp [northCtx]
  same₂ := by simp [northCtx]

theorem level_inclined (n : ℕ) (md : ℕ → ℝ) : Inclined (northCtx n md) := fun k _ => by
  simp only [northCtx]; positivity

/-- Non-vacuity: a level well with stations at 0, 30 and 60 m, cut at 30 m. -/
example : ∃ m c c₁ c₂, CutAt m c c₁ c₂ ∧ Inclined c ∧ c.s.rev4 = true ∧
    (∀ k, eDIA .AZ c 0 1 k 0 = 0) ∧ forcedProp .AZ .random = .random ∧
    c.s.md (m - 1) < c.s.md m ∧ c.s.md m < c.s.md (m + 1) :=
  ⟨1, _, _, _, level_cut, level_inclined _ _, rfl, fun k => by simp [eDIA, dpde], rfl,
    by norm_num [northCtx], by norm_num [northCtx]⟩

/-- **C344** is false of the code.  In a level well with stations at 0, 30 and 60 m a random azimuth error
gives the last station a variance of 1125 in one piece and of 450 when the survey is continued at 30 m with
the covariance reached there. -/
theorem C344_too_small :
    ∃ M M₁ M₂, Adds .AZ (northCtx 3 fun k => 30 * k) 1 .random 2 M ∧
      Adds .AZ (northCtx 2 fun k => 30 * k) 1 .random 1 M₁ ∧
      Adds .AZ (northCtx 2 fun k => 30 + 30 * k) 1 .random 1 M₂ ∧
      M 1 1 = 1125 ∧ (M₁ + M₂) 1 1 = 450 := by
  refine ⟨_, _, _, ⟨_, by rw [level_az]; rfl, rfl⟩, ⟨_, by rw [level_az]; rfl, rfl⟩,
    ⟨_, by rw [level_az]; rfl, rfl⟩, ?_, ?_⟩
  · have g1 := (level_e 3 (fun k => 30 * k) 1 1 le_rfl).1
    have g2 := (level_e 3 (fun k => 30 * k) 1 2 (by norm_num)).2
    simp only [two_ne_zero, if_false, Finset.sum_range_succ, Finset.sum_range_zero, Matrix.add_apply,
      covFromVec, Matrix.of_apply, g1, g2]
    norm_num [eNEV]
  · have g1 := (level_e 2 (fun k => 30 * k) 1 1 le_rfl).2
    have g2 := (level_e 2 (fun k => 30 + 30 * k) 1 1 le_rfl).2
    simp only [one_ne_zero, if_false, Finset.sum_range_succ, Finset.sum_range_zero, Matrix.add_apply,
      covFromVec, Matrix.of_apply, g1, g2]
    norm_num [eNEV]

/-- The same for a systematic azimuth error: 2025 in one piece, 450 in two. -/
theorem C344_too_small_systematic :
    ∃ M M₁ M₂, Adds .AZ (northCtx 3 fun k => 30 * k) 1 .systematic 2 M ∧
      Adds .AZ (northCtx 2 fun k => 30 * k) 1 .systematic 1 M₁ ∧
      Adds .AZ (northCtx 2 fun k => 30 + 30 * k) 1 .systematic 1 M₂ ∧
      M 1 1 = 2025 ∧ (M₁ + M₂) 1 1 = 450 := by
  refine ⟨_, _, _, ⟨_, by rw [level_az]; rfl, rfl⟩, ⟨_, by rw [level_az]; rfl, rfl⟩,
    ⟨_, by rw [level_az]; rfl, rfl⟩, ?_, ?_⟩
  · have g1 := (level_e 3 (fun k => 30 * k) 1 1 le_rfl).1
    have g2 := (level_e 3 (fun k => 30 * k) 1 2 (by norm_num)).2
    simp only [sigmaSystematic, two_ne_zero, if_false, Finset.sum_range_succ, Finset.sum_range_zero,
      Pi.add_apply, covFromVec, Matrix.of_apply, g1, g2]
    norm_num [eNEV]
  · have g1 := (level_e 2 (fun k => 30 * k) 1 1 le_rfl).2
    have g2 := (level_e 2 (fun k => 30 + 30 * k) 1 1 le_rfl).2
    simp only [sigmaSystematic, one_ne_zero, if_false, Finset.sum_range_succ, Finset.sum_range_zero,
      Pi.add_apply, Matrix.add_apply, covFromVec, Matrix.of_apply, g1, g2]
    norm_num [eNEV]

end Welleng.Props
