import Verif.Props.Weights

/-!
C62: turning the whole well about the vertical turns the uncertainty of sources that
do not refer to the Earth's magnetic field.
-/

namespace Welleng.Props

open Real Finset Spec Err

/-- Rotation about the vertical by `θ`, north towards east. -/
noncomputable def rotM (θ : ℝ) : M3 := !![cos θ, -sin θ, 0; sin θ, cos θ, 0; 0, 0, 1]

/-- The same well turned by `θ` about the vertical: all azimuths increase by `θ`. -/
def turn (θ : ℝ) (c : Ctx) : Ctx := { c with
  s := { c.s with azi := fun k => c.s.azi k + θ }
  aziMag := fun k => c.aziMag k + θ
  aziGrid := fun k => c.aziGrid k + θ }

/-- A turned error vector. -/
noncomputable def rotV (θ : ℝ) (v : V) : V :=
  ![cos θ * v 0 - sin θ * v 1, sin θ * v 0 + cos θ * v 1, v 2]

theorem rotV_add (θ : ℝ) (u v : V) : rotV θ (u + v) = rotV θ u + rotV θ v := by
  funext i; fin_cases i <;> simp [rotV] <;> ring

theorem rotV_smul (θ a : ℝ) (u : V) : rotV θ (a • u) = a • rotV θ u := by
  funext i; fin_cases i <;> simp [rotV] <;> ring

theorem rotV_zero (θ : ℝ) : rotV θ 0 = 0 := by
  funext i; fin_cases i <;> simp [rotV]

theorem rotV_sum (θ : ℝ) (e : ℕ → V) (k : ℕ) :
    rotV θ (∑ j ∈ range k, e j) = ∑ j ∈ range k, rotV θ (e j) := by
  induction k with
  | zero => simp [rotV_zero]
  | succ k ih => rw [sum_range_succ, sum_range_succ, rotV_add, ih]

theorem cov_rotV (θ : ℝ) (v : V) :
    covFromVec (rotV θ v) = rotM θ * covFromVec v * (rotM θ).transpose := by
  ext i j
  simp only [Matrix.mul_apply, Fin.sum_univ_three, covFromVec, Matrix.of_apply,
    Matrix.transpose_apply]
  fin_cases i <;> fin_cases j <;> simp [rotV, rotM] <;> ring

theorem sigma_rotV (θ : ℝ) (e es : ℕ → V) (k : ℕ) :
    sigmaSystematic (fun j => rotV θ (e j)) (fun j => rotV θ (es j)) k
      = rotV θ (sigmaSystematic e es k) := by
  simp only [sigmaSystematic, rotV_add]
  split
  · rfl
  · rw [rotV_sum]

theorem eNEV_turn (θ : ℝ) (c : Ctx) (hr : c.s.rev4 = true) (e : ℕ → V) (k : ℕ) :
    eNEV (turn θ c).s e k = rotV θ (eNEV c.s e k) := by
  simp only [eNEV]
  by_cases h0 : k = 0
  · simp [h0, rotV_zero]
  · obtain ⟨m, rfl⟩ : ∃ m, k = m + 1 := ⟨k - 1, by omega⟩
    have hr' : (turn θ c).s.rev4 = true := hr
    by_cases hn : m + 1 + 1 < c.s.n
    · have hn' : m + 1 + 1 < (turn θ c).s.n := hn
      funext i
      fin_cases i <;> simp [drdp, hr, hr', hn, hn', rotV] <;>
        simp [turn, sin_add, cos_add] <;> ring
    · have hn' : ¬ m + 1 + 1 < (turn θ c).s.n := hn
      funext i
      fin_cases i <;> simp [drdp, hr, hr', hn, hn', rotV] <;>
        simp [turn, sin_add, cos_add] <;> ring

theorem eNEVStar_turn (θ : ℝ) (c : Ctx) (hr : c.s.rev4 = true) (e : ℕ → V) (k : ℕ) :
    eNEVStar (turn θ c).s e k = rotV θ (eNEVStar c.s e k) := by
  simp only [eNEVStar]
  by_cases h0 : k = 0
  · simp [h0, rotV_zero]
  · obtain ⟨m, rfl⟩ : ∃ m, k = m + 1 := ⟨k - 1, by omega⟩
    have hr' : (turn θ c).s.rev4 = true := hr
    funext i
    fin_cases i <;> simp [drdp, hr, hr', rotV] <;> simp [turn, sin_add, cos_add] <;> ring

/-- Sources that neither refer to the magnetic field nor come in a north/east pair. -/
def nonMagnetic : Func → Bool
  | .DREF | .DSF | .DST | .AZ | .CNI | .SAG | .SAGE | .XYM1 | .XYM2 | .XCLA | .XCLH => true
  | _ => false

theorem propagate_turn {p : Prop'} {θ : ℝ} {e es e' es' : ℕ → V} {m m' : ℕ → M3}
    (h : propagate p e es = some m) (h' : propagate p e' es' = some m')
    (he : ∀ k, e' k = rotV θ (e k)) (hes : ∀ k, es' k = rotV θ (es k)) (k : ℕ) :
    m' k = rotM θ * m k * (rotM θ).transpose := by
  obtain rfl : e' = fun k => rotV θ (e k) := funext he
  obtain rfl : es' = fun k => rotV θ (es k) := funext hes
  cases p <;> simp only [propagate, Option.some.injEq, reduceCtorEq] at h h' <;> subst h <;>
    subst h'
  · simp only [cov_rotV]
    split
    · simp
    · rw [← Finset.sum_mul, ← Finset.mul_sum, mul_add, add_mul]
  all_goals (show covFromVec _ = _ * covFromVec _ * _; rw [sigma_rotV, cov_rotV])

theorem pmod_congr_turn (a b θ : ℝ) : (a + θ) - (b + θ) = a - b := by ring

/-- **C62**, single sources: for a rev4 model, turning the well by any angle turns
the covariance of depth, sag, azimuth-reference, axial-misalignment and
course-length sources by the same angle, at every station.  Missing: other models,
for which it fails (`C62_sag_not_equivariant`). -/
theorem C62_turn_single_partial (θ : ℝ) {c : Ctx} (hr : c.s.rev4 = true) {f : Func}
    (hf : nonMagnetic f = true) {mag : ℝ} {p : Prop'} {t t' : Term}
    (ht : callFunc f c mag p = .ok (some t)) (ht' : callFunc f (turn θ c) mag p = .ok (some t'))
    (k : ℕ) : t'.cov k = rotM θ * t.cov k * (rotM θ).transpose := by
  obtain ⟨e, es, hp, hx, hy⟩ := callFunc_form ht
  obtain ⟨e', es', hp', hx', hy'⟩ := callFunc_form ht'
  by_cases hX : f = .XCLA ∨ f = .XCLH
  · obtain ⟨rfl, rfl⟩ := hx hX
    obtain ⟨rfl, rfl⟩ := hx' hX
    have : ∀ k, eDIA f (turn θ c) ((turn θ c).tortuosity.getD 0) mag k
        = rotV θ (eDIA f c (c.tortuosity.getD 0) mag k) := by
      intro k
      funext i
      rcases hX with rfl | rfl
      · by_cases h0 : k = 0
        · simp [eDIA, dpde, h0, rotV]; fin_cases i <;> simp
        · have hd : xclaDelta (turn θ c) k = xclaDelta c k := by
            simp only [xclaDelta, turn, pmod_congr_turn]
          fin_cases i <;> simp [rotV, eDIA, dpde, h0, hd] <;> simp [turn, Ctx.dmd, Ctx.st, Ctx.ct, sin_add, cos_add] <;> ring
      · by_cases h0 : k = 0
        · simp [eDIA, dpde, h0, rotV]; fin_cases i <;> simp
        · fin_cases i <;> simp [rotV, eDIA, dpde, h0] <;> simp [turn, Ctx.dmd, Ctx.st, Ctx.ct, Ctx.si, Ctx.ci, sin_add,
            cos_add] <;> ring
    exact propagate_turn hp hp' this this k
  · have hs : ∀ c tort mag, singRows f c tort mag = none := by
      intro c tort mag
      cases f <;> simp [nonMagnetic] at hf <;> rfl
    have hd : eDIA f (turn θ c) ((turn θ c).tortuosity.getD 0) mag
        = eDIA f c (c.tortuosity.getD 0) mag := by
      funext k i
      cases f <;> simp [nonMagnetic] at hf hX <;> simp [eDIA, dpde, turn, Ctx.si]
    rcases hy hX with ⟨a, b, h, _⟩ | ⟨_, rfl, rfl⟩
    · rw [hs] at h; simp at h
    rcases hy' hX with ⟨a, b, h, _⟩ | ⟨_, rfl, rfl⟩
    · rw [hs] at h; simp at h
    rw [hd] at hp'
    exact propagate_turn hp hp' (eNEV_turn θ c hr _) (eNEVStar_turn θ c hr _) k

theorem rotV_comb (θ a b : ℝ) (u v : V) :
    rotV θ (a • u + b • v) = a • rotV θ u + b • rotV θ v := by
  rw [rotV_add, rotV_smul, rotV_smul]

theorem cov_pair (θ : ℝ) (u v : V) :
    covFromVec (cos θ • u - sin θ • v) + covFromVec (sin θ • u + cos θ • v)
      = covFromVec u + covFromVec v := by
  ext i j
  simp only [Matrix.add_apply, covFromVec, Matrix.of_apply, Pi.sub_apply, Pi.add_apply,
    Pi.smul_apply, smul_eq_mul]
  have := sin_sq_add_cos_sq θ
  linear_combination (u i * u j + v i * v j) * this

theorem propagate_pair {p : Prop'} {θ : ℝ} {e es g gs e' es' g' gs' : ℕ → V}
    {m n m' n' : ℕ → M3}
    (h : propagate p e es = some m) (h1 : propagate p g gs = some n)
    (h' : propagate p e' es' = some m') (h1' : propagate p g' gs' = some n')
    (he : ∀ k, e' k = rotV θ (cos θ • e k - sin θ • g k))
    (hes : ∀ k, es' k = rotV θ (cos θ • es k - sin θ • gs k))
    (hg : ∀ k, g' k = rotV θ (sin θ • e k + cos θ • g k))
    (hgs : ∀ k, gs' k = rotV θ (sin θ • es k + cos θ • gs k)) (k : ℕ) :
    m' k + n' k = rotM θ * (m k + n k) * (rotM θ).transpose := by
  have hc : ∀ u v : V, covFromVec (rotV θ (cos θ • u - sin θ • v))
      + covFromVec (rotV θ (sin θ • u + cos θ • v))
      = rotM θ * (covFromVec u + covFromVec v) * (rotM θ).transpose := by
    intro u v
    rw [cov_rotV, cov_rotV, ← cov_pair θ u v, mul_add, add_mul]
  have sys : covFromVec (sigmaSystematic e' es' k) + covFromVec (sigmaSystematic g' gs' k)
      = rotM θ * (covFromVec (sigmaSystematic e es k) + covFromVec (sigmaSystematic g gs k))
        * (rotM θ).transpose := by
    have s1 : sigmaSystematic e' es' k
        = rotV θ (cos θ • sigmaSystematic e es k - sin θ • sigmaSystematic g gs k) := by
      have a1 : e' = fun j => rotV θ (cos θ • e j - sin θ • g j) := funext he
      have a2 : es' = fun j => rotV θ (cos θ • es j - sin θ • gs j) := funext hes
      rw [a1, a2, sigma_rotV]
      congr 1
      simp only [sigmaSystematic]
      split
      · simp only [smul_add]; abel
      · simp only [smul_add, Finset.sum_sub_distrib, Finset.smul_sum]; abel
    have s2 : sigmaSystematic g' gs' k
        = rotV θ (sin θ • sigmaSystematic e es k + cos θ • sigmaSystematic g gs k) := by
      have a1 : g' = fun j => rotV θ (sin θ • e j + cos θ • g j) := funext hg
      have a2 : gs' = fun j => rotV θ (sin θ • es j + cos θ • gs j) := funext hgs
      rw [a1, a2, sigma_rotV]
      congr 1
      simp only [sigmaSystematic]
      split
      · simp only [smul_add]; abel
      · simp only [smul_add, Finset.sum_add_distrib, Finset.smul_sum]; abel
    rw [s1, s2, hc]
  cases p <;> simp only [propagate, Option.some.injEq, reduceCtorEq] at h h' h1 h1' <;> subst h <;>
    subst h' <;> subst h1 <;> subst h1'
  · have hsum : ∑ j ∈ range k, covFromVec (e' j) + ∑ j ∈ range k, covFromVec (g' j)
        = rotM θ * (∑ j ∈ range k, covFromVec (e j) + ∑ j ∈ range k, covFromVec (g j))
          * (rotM θ).transpose := by
      rw [← Finset.sum_add_distrib, ← Finset.sum_add_distrib, Finset.mul_sum, Finset.sum_mul]
      refine Finset.sum_congr rfl fun j _ => ?_
      rw [he, hg, hc]
    have hst := hc (es k) (gs k)
    rw [← hes, ← hgs] at hst
    by_cases h0 : k = 0
    · simpa [h0] using h0 ▸ hst
    · simp only [h0, if_false]
      have : ∀ a b c d : M3, (a + b) + (c + d) = (a + c) + (b + d) := fun a b c d => by abel
      rw [this, hsum, hst, this (covFromVec (es k)), ← add_mul, ← mul_add]
  all_goals exact sys

/-- **C62**, the misalignment pair: for a rev4 model, turning the well turns the
combined covariance of `XYM3` and `XYM4`, including near-vertical stations. -/
theorem C62_turn_pair_partial (θ : ℝ) {c : Ctx} (hr : c.s.rev4 = true) {mag : ℝ} {p : Prop'}
    {t u t' u' : Term}
    (ht : callFunc .XYM3 c mag p = .ok (some t)) (hu : callFunc .XYM4 c mag p = .ok (some u))
    (ht' : callFunc .XYM3 (turn θ c) mag p = .ok (some t'))
    (hu' : callFunc .XYM4 (turn θ c) mag p = .ok (some u')) (k : ℕ) :
    t'.cov k + u'.cov k = rotM θ * (t.cov k + u.cov k) * (rotM θ).transpose := by
  obtain ⟨e, es, h1, -, y1⟩ := callFunc_form ht
  obtain ⟨g, gs, h2, -, y2⟩ := callFunc_form hu
  obtain ⟨e', es', h3, -, y3⟩ := callFunc_form ht'
  obtain ⟨g', gs', h4, -, y4⟩ := callFunc_form hu'
  have htt : (turn θ c).tortuosity = c.tortuosity := rfl
  rw [htt] at y3 y4
  set τ := c.tortuosity.getD 0
  have d3 : eDIA .XYM3 (turn θ c) τ mag
      = fun k => cos θ • eDIA .XYM3 c τ mag k - sin θ • eDIA .XYM4 c τ mag k := by
    funext k i
    fin_cases i <;> simp [eDIA, dpde, turn, Ctx.ci, Ctx.si, Ctx.st, Ctx.ct, sin_add, cos_add] <;> ring
  have d4 : eDIA .XYM4 (turn θ c) τ mag
      = fun k => sin θ • eDIA .XYM3 c τ mag k + cos θ • eDIA .XYM4 c τ mag k := by
    funext k i
    fin_cases i <;> simp [eDIA, dpde, turn, Ctx.ci, Ctx.si, Ctx.st, Ctx.ct, sin_add, cos_add] <;> ring
  have lin : ∀ (a b : ℝ) (x y : ℕ → V) k,
      eNEV c.s (fun k => a • x k + b • y k) k = a • eNEV c.s x k + b • eNEV c.s y k := by
    intro a b x y k
    simp only [eNEV]
    split
    · simp
    · funext i; fin_cases i <;> simp <;> ring
  have lins : ∀ (a b : ℝ) (x y : ℕ → V) k,
      eNEVStar c.s (fun k => a • x k + b • y k) k = a • eNEVStar c.s x k + b • eNEVStar c.s y k := by
    intro a b x y k
    simp only [eNEVStar]
    split
    · simp
    · funext i; fin_cases i <;> simp <;> ring
  have sub : ∀ (a b : ℝ) (u v : V), a • u - b • v = a • u + (-b) • v := by
    intro a b u v; rw [neg_smul, sub_eq_add_neg]
  have n3 : ∀ k, eNEV (turn θ c).s (eDIA .XYM3 (turn θ c) τ mag) k
      = rotV θ (cos θ • eNEV c.s (eDIA .XYM3 c τ mag) k - sin θ • eNEV c.s (eDIA .XYM4 c τ mag) k) := by
    intro k; rw [eNEV_turn θ c hr, d3]; simp only [sub]; rw [lin]
  have n4 : ∀ k, eNEV (turn θ c).s (eDIA .XYM4 (turn θ c) τ mag) k
      = rotV θ (sin θ • eNEV c.s (eDIA .XYM3 c τ mag) k + cos θ • eNEV c.s (eDIA .XYM4 c τ mag) k) := by
    intro k; rw [eNEV_turn θ c hr, d4, lin]
  have s3 : ∀ k, eNEVStar (turn θ c).s (eDIA .XYM3 (turn θ c) τ mag) k
      = rotV θ (cos θ • eNEVStar c.s (eDIA .XYM3 c τ mag) k
          - sin θ • eNEVStar c.s (eDIA .XYM4 c τ mag) k) := by
    intro k; rw [eNEVStar_turn θ c hr, d3]; simp only [sub]; rw [lins]
  have s4 : ∀ k, eNEVStar (turn θ c).s (eDIA .XYM4 (turn θ c) τ mag) k
      = rotV θ (sin θ • eNEVStar c.s (eDIA .XYM3 c τ mag) k
          + cos θ • eNEVStar c.s (eDIA .XYM4 c τ mag) k) := by
    intro k; rw [eNEVStar_turn θ c hr, d4, lins]
  have hin : ∀ (r : ℕ → V) k, Err.inner (turn θ c) r k = Err.inner c r k := fun _ _ => rfl
  have hlt : ∀ k, ((turn θ c).s.inc k < (turn θ c).vlim) = (c.s.inc k < c.vlim) := fun _ => rfl
  have hsc := sin_sq_add_cos_sq θ
  have q3 : ∀ (w : ℕ → ℝ) k, Err.inner c (fun k => ![w k, 0, 0]) k
      = rotV θ (cos θ • Err.inner c (fun k => ![w k, 0, 0]) k
          - sin θ • Err.inner c (fun k => ![0, w k, 0]) k) := by
    intro w k
    simp only [Err.inner]
    split
    · simp [rotV_zero]
    · funext i
      fin_cases i <;> simp [rotV]
      · linear_combination -(w k) * hsc
      · ring
  have q4 : ∀ (w : ℕ → ℝ) k, Err.inner c (fun k => ![0, w k, 0]) k
      = rotV θ (sin θ • Err.inner c (fun k => ![w k, 0, 0]) k
          + cos θ • Err.inner c (fun k => ![0, w k, 0]) k) := by
    intro w k
    simp only [Err.inner]
    split
    · simp [rotV_zero]
    · funext i
      fin_cases i <;> simp [rotV]
      · ring
      · linear_combination -(w k) * hsc
  have g1 : ∀ k, (turn θ c).dmd k = c.dmd k := fun _ => rfl
  have g2 : ∀ k, (turn θ c).dmd2 k = c.dmd2 k := fun _ => rfl
  by_cases hs : ∃ k < c.s.n, c.s.inc k < c.vlim
  · have hs' : ∃ k < (turn θ c).s.n, (turn θ c).s.inc k < (turn θ c).vlim := hs
    simp only [singRows, hs, hs', Option.some.injEq, Except.ok.injEq, Prod.mk.injEq, reduceCtorEq,
      not_true, or_self, false_and, or_false, true_and, not_false_eq_true, forall_const] at y1 y2 y3 y4
    obtain ⟨a, b, ⟨rfl, rfl⟩, rfl, rfl⟩ := y1
    obtain ⟨a, b, ⟨rfl, rfl⟩, rfl, rfl⟩ := y2
    obtain ⟨a, b, ⟨rfl, rfl⟩, rfl, rfl⟩ := y3
    obtain ⟨a, b, ⟨rfl, rfl⟩, rfl, rfl⟩ := y4
    refine propagate_pair h1 h2 h3 h4 (fun k => ?_) (fun k => ?_) (fun k => ?_) (fun k => ?_) k
    all_goals
      simp only [replaceSing, hlt, hin, g1, g2]
      by_cases hk : c.s.inc k < c.vlim
      all_goals simp only [hk, if_true, if_false]
    · exact q3 (fun k => 0.5 * c.dmd2 k * mag) k
    · exact n3 k
    · exact q3 (fun k => 0.5 * c.dmd k * mag) k
    · exact s3 k
    · exact q4 (fun k => 0.5 * c.dmd2 k * mag) k
    · exact n4 k
    · exact q4 (fun k => 0.5 * c.dmd k * mag) k
    · exact s4 k
  · have hs' : ¬∃ k < (turn θ c).s.n, (turn θ c).s.inc k < (turn θ c).vlim := hs
    simp only [hs, hs', false_and, and_false, exists_false, false_or, not_false_eq_true, or_true,
      true_and, reduceCtorEq, or_self, forall_const] at y1 y2 y3 y4
    obtain ⟨rfl, rfl⟩ := y1
    obtain ⟨rfl, rfl⟩ := y2
    obtain ⟨rfl, rfl⟩ := y3
    obtain ⟨rfl, rfl⟩ := y4
    exact propagate_pair h1 h2 h3 h4 n3 s3 n4 s4 k

/-- Two stations 40 m apart at 45° inclination and azimuth `a`. -/
noncomputable def inclCtx (rev4 : Bool) (a : ℝ) : Ctx where
  s := { n := 2, md := fun k => 40 * k, inc := fun _ => π / 4, azi := fun _ => a, rev4 := rev4 }
  tvd := fun _ => 0
  aziMag := fun _ => a
  aziGrid := fun _ => a
  G := 1
  dip := 0
  bTotal := 1
  vlim := 0
  ref := .grid
  tortuosity := none

theorem incl_noSing (rev4 : Bool) (a : ℝ) :
    ¬∃ k < (inclCtx rev4 a).s.n, (inclCtx rev4 a).s.inc k < (inclCtx rev4 a).vlim := by
  simp [inclCtx]
  intro _ _
  positivity

/-- **C62** fails for models other than rev4: the sag of a well heading north gives
twice the along-hole standard deviation of the same well heading east. -/
theorem C62_sag_not_equivariant :
    ∃ t t', callFunc .SAG (inclCtx false 0) 1 .systematic = .ok (some t) ∧
      callFunc .SAG (turn (π / 2) (inclCtx false 0)) 1 .systematic = .ok (some t') ∧
      t.cov 1 0 0 = 4 * (rotM (-(π / 2)) * t'.cov 1 * (rotM (-(π / 2))).transpose) 0 0 ∧
      0 < t.cov 1 0 0 := by
  have h : ∀ c : Ctx, callFunc .SAG c 1 .systematic
      = .ok (generateError c.s (eDIA .SAG c (c.tortuosity.getD 0) 1) .systematic none) := by
    intro c; simp [callFunc, singRows, Func.usesTortuosity, forcedProp]
  rw [h, h]
  simp only [generateError, propagate, Option.map_some]
  refine ⟨_, _, rfl, rfl, ?_, ?_⟩
  · simp only [Matrix.mul_apply, Fin.sum_univ_three, Matrix.transpose_apply]
    simp [covFromVec, sigmaSystematic, eNEV, eNEVStar, drdp, eDIA, dpde, turn, inclCtx, rotM, Ctx.si]
    ring
  · have : (0:ℝ) < √2 := by positivity
    simp [covFromVec, sigmaSystematic, eNEV, eNEVStar, drdp, eDIA, dpde, inclCtx, Ctx.si]
    norm_num

/-- **C62** fails for the pair `XYM3E`, `XYM4E` even with rev4: `XYM3E` takes the
absolute value of `cos I · cos A`, so turning the well by 180° changes the combined
north variance. -/
theorem C62_xym34e_not_equivariant :
    ∃ t u t' u', callFunc .XYM3E (inclCtx true (π / 4)) 1 .random = .ok (some t) ∧
      callFunc .XYM4E (inclCtx true (π / 4)) 1 .random = .ok (some u) ∧
      callFunc .XYM3E (turn π (inclCtx true (π / 4))) 1 .random = .ok (some t') ∧
      callFunc .XYM4E (turn π (inclCtx true (π / 4))) 1 .random = .ok (some u') ∧
      (rotM π * (t.cov 1 + u.cov 1) * (rotM π).transpose) 0 0 = 100 * (3 / 2) ∧
      (t'.cov 1 + u'.cov 1) 0 0 = 100 * (3 / 2 - √2) := by
  have ns := incl_noSing true (π / 4)
  have ns' : ¬∃ k < (turn π (inclCtx true (π / 4))).s.n,
      (turn π (inclCtx true (π / 4))).s.inc k < (turn π (inclCtx true (π / 4))).vlim := ns
  have h3 : ∀ c : Ctx, (¬∃ k < c.s.n, c.s.inc k < c.vlim) → callFunc .XYM3E c 1 .random
      = .ok (generateError c.s (eDIA .XYM3E c (c.tortuosity.getD 0) 1) .random none) := by
    intro c h; simp only [callFunc, singRows, Func.usesTortuosity, forcedProp, h]; simp
  have h4 : ∀ c : Ctx, (¬∃ k < c.s.n, c.s.inc k < c.vlim) → callFunc .XYM4E c 1 .random
      = .ok (generateError c.s (eDIA .XYM4E c (c.tortuosity.getD 0) 1) .random none) := by
    intro c h; simp only [callFunc, singRows, Func.usesTortuosity, forcedProp, h]; simp
  rw [h3 _ ns, h4 _ ns, h3 _ ns', h4 _ ns']
  simp only [generateError, propagate, Option.map_some]
  refine ⟨_, _, _, _, rfl, rfl, rfl, rfl, ?_, ?_⟩
  all_goals
    have h2 : √(2:ℝ) ^ 2 = 2 := Real.sq_sqrt (by norm_num)
    have hpos : (0:ℝ) < √2 := by positivity
    have hco : ∀ a, coeff (inclCtx true a) 1 = 1 := by
      intro a
      have : √((10:ℝ) / 40) ≤ 1 := Real.sqrt_le_one.2 (by norm_num)
      simpa [coeff, inclCtx, Ctx.dmd] using this
    have hco' : coeff (turn π (inclCtx true (π / 4))) 1 = 1 := hco (π / 4)
    have hvl : ¬ (π / 4 < 0) := by have := pi_pos; linarith
  · simp only [Matrix.mul_apply, Fin.sum_univ_three, Matrix.transpose_apply]
    simp only [covFromVec, eNEVStar, eNEV, drdp, eDIA, dpde, hco]
    simp [inclCtx, rotM, Ctx.si, Ctx.ci, Ctx.st, Ctx.ct, hvl]
    rw [abs_of_pos (by positivity : (0:ℝ) < √2 / 2)]
    field_simp
    ring_nf
    have h6 : √(2:ℝ) ^ 6 = 8 := by
      calc √(2:ℝ) ^ 6 = (√2 ^ 2) ^ 3 := by ring
        _ = 8 := by rw [h2]; norm_num
    have h8 : √(2:ℝ) ^ 8 = 16 := by
      calc √(2:ℝ) ^ 8 = (√2 ^ 2) ^ 4 := by ring
        _ = 16 := by rw [h2]; norm_num
    rw [h6, h8]; norm_num
  · simp only [Matrix.add_apply, covFromVec, eNEVStar, eNEV, drdp, eDIA, dpde, hco']
    simp [turn, inclCtx, Ctx.si, Ctx.ci, Ctx.st, Ctx.ct, hvl, cos_add, sin_add]
    rw [abs_of_pos (by positivity : (0:ℝ) < √2 / 2)]
    field_simp
    ring_nf
    have h6 : √(2:ℝ) ^ 6 = 8 := by
      calc √(2:ℝ) ^ 6 = (√2 ^ 2) ^ 3 := by ring
        _ = 8 := by rw [h2]; norm_num
    have h8 : √(2:ℝ) ^ 8 = 16 := by
      calc √(2:ℝ) ^ 8 = (√2 ^ 2) ^ 4 := by ring
        _ = 16 := by rw [h2]; norm_num
    have h7 : √(2:ℝ) ^ 7 = 8 * √2 := by rw [pow_succ, h6]
    rw [h6, h7, h8]; ring

/-- The hypotheses of `C62_turn_single_partial` are met. -/
example : ∃ t t', callFunc .SAG (inclCtx true 0) 1 .random = .ok (some t) ∧
    callFunc .SAG (turn 1 (inclCtx true 0)) 1 .random = .ok (some t') ∧
    (inclCtx true 0).s.rev4 = true ∧ nonMagnetic .SAG = true := by
  simp [callFunc, singRows, Func.usesTortuosity, forcedProp, generateError, propagate,
    nonMagnetic, inclCtx]

end Welleng.Props
