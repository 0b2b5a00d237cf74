import Verif.Props.Rotation

/-!
C62 for the pair of misalignment sources `XYM3L` and `XYM4L`.
-/

namespace Welleng.Props

open Real Finset Spec Err

theorem eNEV_at {s : Sv} {e e' : ℕ → V} {k : ℕ} (h : k ≠ 0 → e k = e' k) :
    eNEV s e k = eNEV s e' k := by
  unfold eNEV
  split_ifs with h0
  · rfl
  · rw [h h0]

theorem eNEVStar_at {s : Sv} {e e' : ℕ → V} {k : ℕ} (h : k ≠ 0 → e k = e' k) :
    eNEVStar s e k = eNEVStar s e' k := by
  unfold eNEVStar
  split_ifs with h0
  · rfl
  · rw [h h0]

theorem eNEV_lin (s : Sv) (a b : ℝ) (x y : ℕ → V) (k : ℕ) :
    eNEV s (fun k => a • x k + b • y k) k = a • eNEV s x k + b • eNEV s y k := by
  simp only [eNEV]
  split
  · simp
  · funext i; fin_cases i <;> simp <;> ring

theorem eNEVStar_lin (s : Sv) (a b : ℝ) (x y : ℕ → V) (k : ℕ) :
    eNEVStar s (fun k => a • x k + b • y k) k = a • eNEVStar s x k + b • eNEVStar s y k := by
  simp only [eNEVStar]
  split
  · simp
  · funext i; fin_cases i <;> simp <;> ring

theorem single_turn (θ x : ℝ) :
    (Pi.single 0 x : V) = rotV θ (cos θ • Pi.single 0 x - sin θ • Pi.single 1 x) ∧
    (Pi.single 1 x : V) = rotV θ (sin θ • Pi.single 0 x + cos θ • Pi.single 1 x) := by
  have hsc := sin_sq_add_cos_sq θ
  constructor
  · funext i
    fin_cases i <;> simp [rotV]
    · linear_combination -x * hsc
    · ring
  · funext i
    fin_cases i <;> simp [rotV]
    · ring
    · linear_combination -x * hsc

/-- The rows of `singL` without its check of the number of stations. -/
theorem singL_rows {c : Ctx} {mag co : ℝ} {i : Fin 3} {a b : ℕ → V}
    (h : singL c mag i co = .ok (a, b)) :
    ∃ x y : ℕ → ℝ, (∀ k, a k = Pi.single i (x k)) ∧ (∀ k, b k = Pi.single i (y k)) ∧
      (∀ k, x k = if k = 0 then 0
        else if k = 1 then co * (c.s.md 2 + c.s.md 1 - 2 * c.s.md 0) / 2 * mag
        else if k + 1 = c.s.n then coeff c k * c.dmd k / 2 * mag
        else coeff c k * c.dmd2 k / 2 * mag) ∧
      ∀ k, y k = if k = 0 then 0 else if k = 1 then (c.s.md 1 - c.s.md 0) * mag
        else c.dmd k / 2 * mag := by
  unfold singL at h
  split_ifs at h
  simp only [Except.ok.injEq, Prod.mk.injEq] at h
  obtain ⟨rfl, rfl⟩ := h
  refine ⟨_, _, fun k => ?_, fun k => ?_, fun k => rfl, fun k => rfl⟩
  · unfold setRow1
    by_cases h0 : k = 0
    · subst h0; simp
    by_cases h1 : k = 1
    · subst h1
      simp only [if_true, one_ne_zero, if_false]
      split_ifs <;> (funext j; by_cases hj : j = i <;> simp [Function.update, Pi.single, hj])
    · simp only [h0, h1, if_false]
      split_ifs <;> rfl
  · unfold setRow1
    by_cases h0 : k = 0
    · subst h0; simp
    by_cases h1 : k = 1
    · subst h1
      simp only [if_true, one_ne_zero, if_false]
      funext j; by_cases hj : j = i <;> simp [Function.update, Pi.single, hj]
    · simp only [h0, h1, if_false]

/-- **C62**, the lateral misalignment pair: for a rev4 model, with random propagation, turning the
well turns the combined covariance of `XYM3L` and `XYM4L`, provided the second station is not
vertical or the first two intervals have the same coefficient (for instance both at least 10 m). -/
theorem C62_turn_lateral_partial (θ : ℝ) {c : Ctx} (hr : c.s.rev4 = true) {mag : ℝ}
    {t u t' u' : Term} (h1 : c.vlim ≤ c.s.inc 1 ∨ coeff c 1 = coeff c 2)
    (ht : callFunc .XYM3L c mag .random = .ok (some t))
    (hu : callFunc .XYM4L c mag .random = .ok (some u))
    (ht' : callFunc .XYM3L (turn θ c) mag .random = .ok (some t'))
    (hu' : callFunc .XYM4L (turn θ c) mag .random = .ok (some u')) (k : ℕ) :
    t'.cov k + u'.cov k = rotM θ * (t.cov k + u.cov k) * (rotM θ).transpose := by
  obtain ⟨e, es, p1, -, y1⟩ := callFunc_form ht
  obtain ⟨g, gs, p2, -, y2⟩ := callFunc_form hu
  obtain ⟨e', es', p3, -, y3⟩ := callFunc_form ht'
  obtain ⟨g', gs', p4, -, y4⟩ := callFunc_form hu'
  have htt : (turn θ c).tortuosity = c.tortuosity := rfl
  rw [htt] at y3 y4
  set τ := c.tortuosity.getD 0
  have hco : ∀ k, coeff (turn θ c) k = coeff c k := fun _ => rfl
  have d3 : ∀ k, k ≠ 0 → eDIA .XYM3L (turn θ c) τ mag k
      = cos θ • eDIA .XYM3L c τ mag k + (-sin θ) • eDIA .XYM4L c τ mag k := by
    intro k hk
    funext i
    fin_cases i <;> simp [eDIA, dpde, hk, hco] <;>
      simp [turn, Ctx.ci, Ctx.si, Ctx.st, Ctx.ct, sin_add, cos_add] <;> ring
  have d4 : ∀ k, k ≠ 0 → eDIA .XYM4L (turn θ c) τ mag k
      = sin θ • eDIA .XYM3L c τ mag k + cos θ • eDIA .XYM4L c τ mag k := by
    intro k hk
    funext i
    fin_cases i <;> simp [eDIA, dpde, hk, hco] <;>
      simp [turn, Ctx.ci, Ctx.si, Ctx.st, Ctx.ct, sin_add, cos_add] <;> ring
  have n3 : ∀ k, eNEV (turn θ c).s (eDIA .XYM3L (turn θ c) τ mag) k
      = rotV θ (cos θ • eNEV c.s (eDIA .XYM3L c τ mag) k
        - sin θ • eNEV c.s (eDIA .XYM4L c τ mag) k) := by
    intro k
    rw [eNEV_turn θ c hr, eNEV_at (e' := fun k => cos θ • eDIA .XYM3L c τ mag k
      + (-sin θ) • eDIA .XYM4L c τ mag k) (d3 k), eNEV_lin, neg_smul, ← sub_eq_add_neg]
  have n4 : ∀ k, eNEV (turn θ c).s (eDIA .XYM4L (turn θ c) τ mag) k
      = rotV θ (sin θ • eNEV c.s (eDIA .XYM3L c τ mag) k
        + cos θ • eNEV c.s (eDIA .XYM4L c τ mag) k) := by
    intro k
    rw [eNEV_turn θ c hr, eNEV_at (e' := fun k => sin θ • eDIA .XYM3L c τ mag k
      + cos θ • eDIA .XYM4L c τ mag k) (d4 k), eNEV_lin]
  have s3 : ∀ k, eNEVStar (turn θ c).s (eDIA .XYM3L (turn θ c) τ mag) k
      = rotV θ (cos θ • eNEVStar c.s (eDIA .XYM3L c τ mag) k
        - sin θ • eNEVStar c.s (eDIA .XYM4L c τ mag) k) := by
    intro k
    rw [eNEVStar_turn θ c hr, eNEVStar_at (e' := fun k => cos θ • eDIA .XYM3L c τ mag k
      + (-sin θ) • eDIA .XYM4L c τ mag k) (d3 k), eNEVStar_lin, neg_smul, ← sub_eq_add_neg]
  have s4 : ∀ k, eNEVStar (turn θ c).s (eDIA .XYM4L (turn θ c) τ mag) k
      = rotV θ (sin θ • eNEVStar c.s (eDIA .XYM3L c τ mag) k
        + cos θ • eNEVStar c.s (eDIA .XYM4L c τ mag) k) := by
    intro k
    rw [eNEVStar_turn θ c hr, eNEVStar_at (e' := fun k => sin θ • eDIA .XYM3L c τ mag k
      + cos θ • eDIA .XYM4L c τ mag k) (d4 k), eNEVStar_lin]
  have hlt : ∀ k, ((turn θ c).s.inc k < (turn θ c).vlim) = (c.s.inc k < c.vlim) := fun _ => rfl
  by_cases hs : ∃ k < c.s.n, c.s.inc k < c.vlim
  · have hs' : ∃ k < (turn θ c).s.n, (turn θ c).s.inc k < (turn θ c).vlim := hs
    simp only [singRows, hs, hs', Option.some.injEq, reduceCtorEq,
      not_true, or_self, false_and, or_false, true_and, not_false_eq_true, forall_const]
      at y1 y2 y3 y4
    obtain ⟨a1, b1, q1, rfl, rfl⟩ := y1
    obtain ⟨a2, b2, q2, rfl, rfl⟩ := y2
    obtain ⟨a3, b3, q3, rfl, rfl⟩ := y3
    obtain ⟨a4, b4, q4, rfl, rfl⟩ := y4
    obtain ⟨x1, z1, ha1, hb1, hx1, hz1⟩ := singL_rows q1
    obtain ⟨x2, z2, ha2, hb2, hx2, hz2⟩ := singL_rows q2
    obtain ⟨x3, z3, ha3, hb3, hx3, hz3⟩ := singL_rows q3
    obtain ⟨x4, z4, ha4, hb4, hx4, hz4⟩ := singL_rows q4
    have e3 : x3 = x1 := funext fun k => by rw [hx3, hx1]; rfl
    have e4 : x4 = x2 := funext fun k => by rw [hx4, hx2]; rfl
    have f3 : z3 = z1 := funext fun k => by rw [hz3, hz1]; rfl
    have f4 : z4 = z1 := funext fun k => by rw [hz4, hz1]; rfl
    have f2 : z2 = z1 := funext fun k => by rw [hz2, hz1]
    have e2 : ∀ k, c.s.inc k < c.vlim → x2 k = x1 k := by
      intro k hk
      rw [hx2, hx1]
      by_cases hk1 : k = 1
      · subst hk1
        rcases h1 with h | h
        · exact absurd hk (not_lt.2 h)
        · rw [h]
      · simp only [hk1, if_false]
    subst e3 e4 f3 f4 f2
    refine propagate_pair p1 p2 p3 p4 (fun k => ?_) (fun k => ?_) (fun k => ?_) (fun k => ?_) k
    all_goals
      simp only [replaceSing, hlt]
      by_cases hk : c.s.inc k < c.vlim
      all_goals simp only [hk, if_true, if_false]
    · rw [ha3, ha1, ha2, e2 k hk]; exact (single_turn θ _).1
    · exact n3 k
    · rw [hb3, hb1, hb2]; exact (single_turn θ _).1
    · exact s3 k
    · rw [ha4, ha1, ha2, e2 k hk]; exact (single_turn θ _).2
    · exact n4 k
    · rw [hb4, hb1, hb2]; exact (single_turn θ _).2
    · exact s4 k
  · have hs' : ¬∃ k < (turn θ c).s.n, (turn θ c).s.inc k < (turn θ c).vlim := hs
    simp only [hs, hs', false_and, and_false, exists_false, false_or, not_false_eq_true, or_true,
      true_and, reduceCtorEq, or_self, forall_const] at y1 y2 y3 y4
    obtain ⟨rfl, rfl⟩ := y1
    obtain ⟨rfl, rfl⟩ := y2
    obtain ⟨rfl, rfl⟩ := y3
    obtain ⟨rfl, rfl⟩ := y4
    exact propagate_pair p1 p2 p3 p4 n3 s3 n4 s4 k

/-- A vertical well with stations at 0, 10 and 12.5 m. -/
noncomputable def unevenCtx : Ctx where
  s := { n := 3, md := fun k => if k = 0 then 0 else if k = 1 then 10 else 12.5,
         inc := fun _ => 0, azi := fun _ => 0, rev4 := true }
  tvd := fun _ => 0
  aziMag := fun _ => 0
  aziGrid := fun _ => 0
  G := 1
  dip := 0
  bTotal := 1
  vlim := 1
  ref := .grid
  tortuosity := none

theorem uneven_coeff : coeff unevenCtx 1 = 1 ∧ coeff unevenCtx 2 = 2 := by
  have h4 : √(4 : ℝ) = 2 := by
    rw [show (4 : ℝ) = 2 ^ 2 by norm_num]; exact Real.sqrt_sq (by norm_num)
  constructor
  · simp [coeff, Ctx.dmd, unevenCtx]
  · have : (10 : ℝ) / unevenCtx.dmd 2 = 4 := by norm_num [Ctx.dmd, unevenCtx]
    rw [coeff, if_neg (by norm_num), this, h4]
    norm_num

/-- The north and east variances of the pair at the third station, whatever the azimuths. -/
theorem uneven_cov (θ : ℝ) : ∃ t u, callFunc .XYM3L (turn θ unevenCtx) 1 .random = .ok (some t) ∧
    callFunc .XYM4L (turn θ unevenCtx) 1 .random = .ok (some u) ∧
    (t.cov 2 + u.cov 2) 0 0 = 22.5 ^ 2 + 1.25 ^ 2 ∧
    (t.cov 2 + u.cov 2) 1 1 = 11.25 ^ 2 + 1.25 ^ 2 := by
  have hs : ∃ k < (turn θ unevenCtx).s.n, (turn θ unevenCtx).s.inc k < (turn θ unevenCtx).vlim :=
    ⟨0, by simp [turn, unevenCtx], by simp [turn, unevenCtx]⟩
  have c1 : coeff (turn θ unevenCtx) 1 = 1 := uneven_coeff.1
  have c2 : coeff (turn θ unevenCtx) 2 = 2 := uneven_coeff.2
  have hn : ¬(turn θ unevenCtx).s.n < 3 := by simp [turn, unevenCtx]
  simp only [callFunc, singRows, singL, hn, hs, Func.usesTortuosity, forcedProp, generateError,
    propagate, c1, c2, if_true, if_false, reduceCtorEq, or_self, false_and, Bool.false_and,
    Bool.false_eq_true, Option.map_some, Except.ok.injEq, Option.some.injEq]
  refine ⟨_, _, rfl, rfl, ?_, ?_⟩
  all_goals
    simp [sum_range_succ, covFromVec, replaceSing, setRow1, turn, unevenCtx, Ctx.dmd, Ctx.dmd2,
      Function.update]
    norm_num

/-- **C62** fails for the lateral misalignment pair at a vertical second station when the first
two intervals have different coefficients. -/
theorem C62_lateral_not_equivariant : ∃ (c : Ctx) (θ : ℝ) (t u t' u' : Term), c.s.rev4 = true ∧
    callFunc .XYM3L c 1 .random = .ok (some t) ∧ callFunc .XYM4L c 1 .random = .ok (some u) ∧
    callFunc .XYM3L (turn θ c) 1 .random = .ok (some t') ∧
    callFunc .XYM4L (turn θ c) 1 .random = .ok (some u') ∧
    t'.cov 2 + u'.cov 2 ≠ rotM θ * (t.cov 2 + u.cov 2) * (rotM θ).transpose := by
  obtain ⟨t, u, ht, hu, -, h1⟩ := uneven_cov 0
  obtain ⟨t', u', ht', hu', h0, -⟩ := uneven_cov (π / 2)
  have h : turn 0 unevenCtx = unevenCtx := by simp [turn, unevenCtx]
  rw [h] at ht hu
  refine ⟨unevenCtx, π / 2, t, u, t', u', rfl, ht, hu, ht', hu', fun he => ?_⟩
  have := congrFun (congrFun he 0) 0
  rw [h0] at this
  have hr : (rotM (π / 2) * (t.cov 2 + u.cov 2) * (rotM (π / 2)).transpose) 0 0
      = (t.cov 2 + u.cov 2) 1 1 := by
    generalize t.cov 2 + u.cov 2 = M
    rw [Matrix.mul_apply, Fin.sum_univ_three]
    simp only [Matrix.mul_apply, Fin.sum_univ_three, rotM, Matrix.transpose_apply]
    simp
  rw [hr, h1] at this
  norm_num at this

/-- The hypotheses of `C62_turn_lateral_partial` are met by a well with a vertical station. -/
noncomputable def evenCtx : Ctx := { unevenCtx with
  s := { n := 3, md := fun k => 30 * k, inc := fun k => 0.1 * k, azi := fun _ => 1, rev4 := true }
  vlim := 0.15 }

example (θ : ℝ) : evenCtx.s.rev4 = true ∧ coeff evenCtx 1 = coeff evenCtx 2 ∧
    evenCtx.s.inc 1 < evenCtx.vlim ∧ ∃ t u t' u',
    callFunc .XYM3L evenCtx 1 .random = .ok (some t) ∧
    callFunc .XYM4L evenCtx 1 .random = .ok (some u) ∧
    callFunc .XYM3L (turn θ evenCtx) 1 .random = .ok (some t') ∧
    callFunc .XYM4L (turn θ evenCtx) 1 .random = .ok (some u') := by
  have hs : ∃ k < evenCtx.s.n, evenCtx.s.inc k < evenCtx.vlim :=
    ⟨0, by simp [evenCtx], by norm_num [evenCtx]⟩
  have hs' : ∃ k < (turn θ evenCtx).s.n, (turn θ evenCtx).s.inc k < (turn θ evenCtx).vlim := hs
  have hn : ¬evenCtx.s.n < 3 := by simp [evenCtx]
  have hn' : ¬(turn θ evenCtx).s.n < 3 := hn
  refine ⟨rfl, ?_, by norm_num [evenCtx], ?_⟩
  · simp only [coeff, Ctx.dmd, evenCtx]; norm_num
  simp only [callFunc, singRows, singL, hn, hn', hs, hs', Func.usesTortuosity, forcedProp,
    generateError, propagate, if_true, if_false, reduceCtorEq, or_self, false_and, Bool.false_and,
    Bool.false_eq_true, Option.map_some, Except.ok.injEq, Option.some.injEq]
  exact ⟨_, _, _, _, rfl, rfl, rfl, rfl⟩

end Welleng.Props
