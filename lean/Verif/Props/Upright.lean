import Verif.Model.Weights
import Verif.Lemmas.ErrorModel
import Mathlib.Topology.Instances.Matrix
import Mathlib.Analysis.SpecialFunctions.Trigonometric.Basic
import Mathlib.Tactic.FinCases

/-!
C210, C211: stations treated as vertical (`/repo/welleng/errors/tool_errors.py` 541-717, 917-992,
1371-1606, 1730-1918).

Some error sources replace their error vectors at stations whose inclination is below the vertical
limit of the header, where the formula divides by the sine of the inclination.  What these vectors
should be is the limit of the formula.
-/

namespace Welleng.Props

open Real Err Filter Topology Finset

/-- Every station of the survey is either vertical or counts as not vertical. -/
def UprightOrInclined (c : Ctx) : Prop :=
  0 < c.vlim ∧ ∀ j < c.s.n, c.s.inc j = 0 ∨ c.vlim ≤ c.s.inc j

/-- The survey with every vertical station inclined by `t` in its recorded azimuth, and nothing treated
as vertical. -/
noncomputable def inclined (c : Ctx) (t : ℝ) : Ctx :=
  { c with
    s := { c.s with inc := fun j => if c.s.inc j = 0 then t else c.s.inc j }
    vlim := 0 }

/-- Inclining the vertical stations less and less, the covariance of the source at station `m` tends to
the covariance the program reports for the vertical stations. -/
def VerticalLimit (f : Func) (c : Ctx) (mag : ℝ) (p : Prop') (m : ℕ) : Prop :=
  ∃ (T : ℝ → Term) (T0 : Term),
    (∀ t, 0 < t → callFunc f (inclined c t) mag p = .ok (some (T t))) ∧
    callFunc f c mag p = .ok (some T0) ∧
    Tendsto (fun t => (T t).cov m) (𝓝[>] 0) (𝓝 (T0.cov m))

/-! ### Rows -/

/-- Displacement by errors of inclination and azimuth over the length `H`. -/
noncomputable def turnRow (H i a x y : ℝ) : V :=
  ![H * (cos i * cos a * x - sin i * sin a * y), H * (cos i * sin a * x + sin i * cos a * y),
    -(H * (sin i * x))]

theorem eNEV_turnRow (s : Sv) (e : ℕ → V) {k : ℕ} (hk : k ≠ 0) (hn : k + 1 < s.n)
    (hr : s.rev4 = true ∨ k ≠ 1) (h0 : e k 0 = 0) :
    eNEV s e k = turnRow (0.5 * (s.md (k + 1) - s.md (k - 1))) (s.inc k) (s.azi k) (e k 1) (e k 2) := by
  have h1 : 1 ≤ k := Nat.one_le_iff_ne_zero.mpr hk
  have hb : (!s.rev4 && k == 1) = false := by
    rcases hr with h | h <;> simp [h]
  have hkk : k - 1 + 1 = k := Nat.sub_add_cancel h1
  unfold eNEV turnRow
  rw [if_neg hk]
  funext i
  fin_cases i <;> simp [drdp, h0, h1, hn, hb, hkk] <;> ring

theorem eNEVStar_turnRow (s : Sv) (e : ℕ → V) {k : ℕ} (hk : k ≠ 0)
    (hr : s.rev4 = true ∨ k ≠ 1) (h0 : e k 0 = 0) :
    eNEVStar s e k = turnRow (0.5 * (s.md k - s.md (k - 1))) (s.inc k) (s.azi k) (e k 1) (e k 2) := by
  have h1 : 1 ≤ k := Nat.one_le_iff_ne_zero.mpr hk
  have hb : (!s.rev4 && k == 1) = false := by
    rcases hr with h | h <;> simp [h]
  have hkk : k - 1 + 1 = k := Nat.sub_add_cancel h1
  unfold eNEVStar turnRow
  rw [if_neg hk]
  funext i
  fin_cases i <;> simp [drdp, h0, h1, hb, hkk] <;> ring

/-- Without a depth error, the displacement by a station's errors only depends on that station. -/
theorem eNEV_own (s s' : Sv) (e e' : ℕ → V) {k : ℕ} (hn : s'.n = s.n) (hm : s'.md = s.md)
    (hr : s'.rev4 = s.rev4) (hi : s'.inc k = s.inc k) (ha : s'.azi = s.azi) (he : e' k = e k)
    (h0 : e k 0 = 0) :
    eNEV s' e' k = eNEV s e k ∧ eNEVStar s' e' k = eNEVStar s e k := by
  constructor
  · unfold eNEV
    split_ifs with hk
    · rfl
    · have h1 : 1 ≤ k := Nat.one_le_iff_ne_zero.mpr hk
      have hkk : k - 1 + 1 = k := Nat.sub_add_cancel h1
      funext i
      fin_cases i <;> simp [drdp, h0, he, hn, hm, hr, hi, ha, h1, hkk]
  · unfold eNEVStar
    split_ifs with hk
    · rfl
    · have h1 : 1 ≤ k := Nat.one_le_iff_ne_zero.mpr hk
      have hkk : k - 1 + 1 = k := Nat.sub_add_cancel h1
      funext i
      fin_cases i <;> simp [drdp, h0, he, hm, hr, hi, ha, h1, hkk]

/-! ### Covariances -/

theorem covFromVec_tendsto {F : ℝ → V} {v : V} (h : Tendsto F (𝓝[>] 0) (𝓝 v)) :
    Tendsto (fun t => covFromVec (F t)) (𝓝[>] 0) (𝓝 (covFromVec v)) := by
  rw [tendsto_pi_nhds] at h
  refine tendsto_pi_nhds.mpr fun i => tendsto_pi_nhds.mpr fun j => ?_
  unfold covFromVec
  exact (h i).mul (h j)

theorem propagate_tendsto {p : Prop'} {e es : ℝ → ℕ → V} {e0 es0 : ℕ → V} {m : ℕ}
    (he : ∀ j, j < m ∨ j = 0 → Tendsto (fun t => e t j) (𝓝[>] 0) (𝓝 (e0 j)))
    (hes : Tendsto (fun t => es t m) (𝓝[>] 0) (𝓝 (es0 m))) (hp : p ≠ .other) :
    ∃ (C : ℝ → ℕ → M3) (C0 : ℕ → M3), (∀ t, propagate p (e t) (es t) = some (C t)) ∧
      propagate p e0 es0 = some C0 ∧ Tendsto (fun t => C t m) (𝓝[>] 0) (𝓝 (C0 m)) := by
  have hsig : Tendsto (fun t => sigmaSystematic (e t) (es t) m) (𝓝[>] 0)
      (𝓝 (sigmaSystematic e0 es0 m)) := by
    unfold sigmaSystematic
    by_cases hm : m = 0
    · simp only [if_pos hm]
      exact hes.add (he 0 (Or.inr rfl))
    · simp only [if_neg hm]
      exact hes.add (tendsto_finset_sum _ fun j hj => he j (Or.inl (mem_range.mp hj)))
  cases p with
  | other => exact absurd rfl hp
  | random =>
    refine ⟨_, _, fun t => rfl, rfl, ?_⟩
    by_cases hm : m = 0
    · simp only [if_pos hm, add_zero]
      exact covFromVec_tendsto hes
    · simp only [if_neg hm]
      exact (covFromVec_tendsto hes).add (tendsto_finset_sum _ fun j hj =>
        covFromVec_tendsto (he j (Or.inl (mem_range.mp hj))))
  | systematic => exact ⟨_, _, fun t => rfl, rfl, covFromVec_tendsto hsig⟩
  | global => exact ⟨_, _, fun t => rfl, rfl, covFromVec_tendsto hsig⟩
  | withinPad => exact ⟨_, _, fun t => rfl, rfl, covFromVec_tendsto hsig⟩

/-! ### From rows to the call -/

/-- The sources without a depth error that replace rows at vertical stations. -/
def replacing : Func → Bool
  | .ABIXY_TI2 | .ABXY_TI2 | .CNA | .XYM3 | .XYM4 | .XYM3E | .XYM4E | .XYM3L | .XYM4L => true
  | _ => false

theorem replacing_depth {f : Func} (hf : replacing f = true) (c : Ctx) (tort mag : ℝ) (k : ℕ) :
    eDIA f c tort mag k 0 = 0 := by
  cases f <;> simp [replacing] at hf <;> simp [eDIA, dpde] <;> split_ifs <;> simp

theorem replacing_inclined {f : Func} (hf : replacing f = true) (c : Ctx) (tort mag t : ℝ) {k : ℕ}
    (hk : k ≠ 0) (hi : c.s.inc k ≠ 0) (hv : 0 < c.vlim) (hl : c.vlim ≤ c.s.inc k) :
    eDIA f (inclined c t) tort mag k = eDIA f c tort mag k := by
  have h0 : ¬ c.s.inc k < 0 := not_lt.mpr (hv.le.trans hl)
  have h1 : ¬ c.s.inc k < c.vlim := not_lt.mpr hl
  have hci : (inclined c t).s.inc k = c.s.inc k := by simp [inclined, hi]
  funext i
  unfold eDIA
  congr 1
  cases f <;> simp [replacing] at hf <;>
    simp [dpde, dpde, inclined, hi, hk, h0, h1, Ctx.ci, Ctx.si, Ctx.st, Ctx.ct, Ctx.cm, Ctx.sm, Ctx.funky, coeff, Ctx.dmd]

theorem call_inclined {f : Func} (hf : replacing f = true) {c : Ctx} (hc : UprightOrInclined c)
    {mag : ℝ} {p : Prop'} {t : ℝ} (ht : 0 < t) :
    callFunc f (inclined c t) mag p
      = .ok (generateError (inclined c t).s (eDIA f (inclined c t) (c.tortuosity.getD 0) mag)
          (forcedProp f p) none) := by
  have hs : ¬ ∃ k < (inclined c t).s.n, (inclined c t).s.inc k < (inclined c t).vlim := by
    rintro ⟨k, hk, h⟩
    simp only [inclined] at h hk
    split_ifs at h with hi
    · linarith
    · rcases hc.2 k hk with h' | h'
      · exact hi h'
      · linarith [hc.1]
  have hu : f.usesTortuosity = false := by cases f <;> simp [replacing] at hf <;> rfl
  have hx : ¬ (f = .XCLA ∨ f = .XCLH) := by cases f <;> simp [replacing] at hf <;> simp
  unfold callFunc
  simp only [hu, Bool.false_and, if_neg hx, if_neg hs, Bool.false_eq_true, if_false]
  have : ∃ r, singRows f (inclined c t) ((inclined c t).tortuosity.getD 0) mag = some r := by
    cases f <;> simp [replacing] at hf <;> exact ⟨_, rfl⟩
  obtain ⟨r, hr⟩ := this
  rw [hr]
  rfl

theorem call_vertical {f : Func} (hf : replacing f = true) {c : Ctx} {mag : ℝ} {p : Prop'}
    (hp : p ≠ .other) {a b : ℕ → V}
    (hr : singRows f c (c.tortuosity.getD 0) mag = some (.ok (a, b))) :
    ∃ A B, callFunc f c mag p
      = .ok (generateError c.s (eDIA f c (c.tortuosity.getD 0) mag) (forcedProp f p) (some (A, B))) ∧
      (∀ j < c.s.n, A j = replaceSing c (eNEV c.s (eDIA f c (c.tortuosity.getD 0) mag)) a j ∧
        B j = replaceSing c (eNEVStar c.s (eDIA f c (c.tortuosity.getD 0) mag)) b j) := by
  have hu : f.usesTortuosity = false := by cases f <;> simp [replacing] at hf <;> rfl
  have hx : ¬ (f = .XCLA ∨ f = .XCLH) := by cases f <;> simp [replacing] at hf <;> simp
  have hq : ¬ (f = .XYM4E ∧ forcedProp f p = .other) := by
    rintro ⟨rfl, h⟩; exact hp h
  by_cases hs : ∃ k < c.s.n, c.s.inc k < c.vlim
  · refine ⟨_, _, ?_, fun j _ => ⟨rfl, rfl⟩⟩
    unfold callFunc
    simp only [hu, Bool.false_and, if_neg hx, if_pos hs, Bool.false_eq_true, if_false, hr, if_neg hq]
  · refine ⟨eNEV c.s (eDIA f c (c.tortuosity.getD 0) mag),
      eNEVStar c.s (eDIA f c (c.tortuosity.getD 0) mag), ?_, fun j hj => ?_⟩
    · unfold callFunc
      simp only [hu, Bool.false_and, if_neg hx, if_neg hs, Bool.false_eq_true, if_false, hr]
      rfl
    · have : ¬ c.s.inc j < c.vlim := fun h => hs ⟨j, hj, h⟩
      unfold replaceSing
      rw [if_neg this, if_neg this]
      exact ⟨rfl, rfl⟩

/-- The rows of inclined stations do not change. -/
theorem own_rows {f : Func} (hf : replacing f = true) {c : Ctx} (hc : UprightOrInclined c) (mag : ℝ) :
    ∀ j, j ≠ 0 → j < c.s.n → c.s.inc j ≠ 0 → ∀ t,
      eNEV (inclined c t).s (eDIA f (inclined c t) (c.tortuosity.getD 0) mag) j
          = eNEV c.s (eDIA f c (c.tortuosity.getD 0) mag) j ∧
        eNEVStar (inclined c t).s (eDIA f (inclined c t) (c.tortuosity.getD 0) mag) j
          = eNEVStar c.s (eDIA f c (c.tortuosity.getD 0) mag) j := by
  intro j hj hjn hi t
  have hl := (hc.2 j hjn).resolve_left hi
  exact eNEV_own c.s (inclined c t).s _ _ rfl rfl rfl (by simp [inclined, hi]) rfl
    (replacing_inclined hf c _ mag t hj hi hc.1 hl) (replacing_depth hf c _ mag j)

/-- If the replacement rows of the vertical stations are the limits, so are the covariances. -/
theorem verticalLimit_of_rows {f : Func} (hf : replacing f = true) {c : Ctx}
    (hc : UprightOrInclined c) {mag : ℝ} {p : Prop'} (hp : p ≠ .other) {a b : ℕ → V}
    (hr : singRows f c (c.tortuosity.getD 0) mag = some (.ok (a, b)))
    (h00 : a 0 = 0 ∧ b 0 = 0) (m : ℕ) (hm : m < c.s.n) (hlast : m + 1 < c.s.n ∨ c.s.inc m ≠ 0)
    (ha : ∀ j, j ≠ 0 → j + 1 < c.s.n → c.s.inc j = 0 →
      Tendsto (fun t => eNEV (inclined c t).s (eDIA f (inclined c t) (c.tortuosity.getD 0) mag) j)
        (𝓝[>] 0) (𝓝 (a j)))
    (hb : ∀ j, j ≠ 0 → j + 1 < c.s.n → c.s.inc j = 0 →
      Tendsto (fun t => eNEVStar (inclined c t).s (eDIA f (inclined c t) (c.tortuosity.getD 0) mag) j)
        (𝓝[>] 0) (𝓝 (b j))) :
    VerticalLimit f c mag p m := by
  obtain ⟨A, B, hcall, hAB⟩ := call_vertical hf hp hr
  have hfp : forcedProp f p ≠ .other := by
    cases f <;> simp [forcedProp, hp]
  have own := own_rows hf hc mag
  have rowA : ∀ j, j + 1 < c.s.n ∨ (j < c.s.n ∧ c.s.inc j ≠ 0) →
      Tendsto (fun t => eNEV (inclined c t).s (eDIA f (inclined c t) (c.tortuosity.getD 0) mag) j)
        (𝓝[>] 0) (𝓝 (A j)) ∧
      Tendsto (fun t => eNEVStar (inclined c t).s (eDIA f (inclined c t) (c.tortuosity.getD 0) mag) j)
        (𝓝[>] 0) (𝓝 (B j)) := by
    intro j hj
    have hjn : j < c.s.n := by rcases hj with h | h; exacts [by omega, h.1]
    rw [(hAB j hjn).1, (hAB j hjn).2]
    by_cases hj0 : j = 0
    · subst hj0
      have e1 : ∀ s e, eNEV s e 0 = 0 := fun s e => by simp [eNEV]
      have e2 : ∀ s e, eNEVStar s e 0 = 0 := fun s e => by simp [eNEVStar]
      simp only [replaceSing, e1, e2, h00.1, h00.2, ite_self]
      exact ⟨tendsto_const_nhds, tendsto_const_nhds⟩
    by_cases hi : c.s.inc j = 0
    · have hs : c.s.inc j < c.vlim := by rw [hi]; exact hc.1
      have hj1 : j + 1 < c.s.n := by rcases hj with h | h; exacts [h, absurd hi h.2]
      simp only [replaceSing, if_pos hs]
      exact ⟨ha j hj0 hj1 hi, hb j hj0 hj1 hi⟩
    · have hl := (hc.2 j hjn).resolve_left hi
      simp only [replaceSing, if_neg (not_lt.mpr hl), fun t => (own j hj0 hjn hi t).1,
        fun t => (own j hj0 hjn hi t).2]
      exact ⟨tendsto_const_nhds, tendsto_const_nhds⟩
  obtain ⟨C, C0, h1, h2, h3⟩ := propagate_tendsto (p := forcedProp f p) (m := m)
    (e := fun t => eNEV (inclined c t).s (eDIA f (inclined c t) (c.tortuosity.getD 0) mag))
    (es := fun t => eNEVStar (inclined c t).s (eDIA f (inclined c t) (c.tortuosity.getD 0) mag))
    (e0 := A) (es0 := B)
    (fun j hj => by
      rcases hj with h | h
      · exact (rowA j (Or.inl (by omega))).1
      · subst h
        rcases Nat.eq_zero_or_pos m with h0 | h0
        · subst h0
          exact (rowA 0 (hlast.imp id fun h => ⟨hm, h⟩)).1
        · exact (rowA 0 (Or.inl (by omega))).1)
    (rowA m (hlast.imp id fun h => ⟨hm, h⟩)).2 hfp
  refine ⟨fun t => ⟨forcedProp f p, eDIA f (inclined c t) (c.tortuosity.getD 0) mag,
    eNEV (inclined c t).s (eDIA f (inclined c t) (c.tortuosity.getD 0) mag),
    eNEVStar (inclined c t).s (eDIA f (inclined c t) (c.tortuosity.getD 0) mag), C t⟩,
    ⟨forcedProp f p, eDIA f c (c.tortuosity.getD 0) mag, A, B, C0⟩, ?_, ?_, h3⟩
  · intro t ht
    rw [call_inclined hf hc ht]
    simp only [generateError, h1, Option.map_some]
  · rw [hcall]
    simp only [generateError, h2, Option.map_some]

/-! ### The limits -/

theorem turnRow_tendsto (H a : ℝ) {x y : ℝ → ℝ} {X Y : ℝ} (hx : Tendsto x (𝓝[>] 0) (𝓝 X))
    (hy : Tendsto (fun t => sin t * y t) (𝓝[>] 0) (𝓝 Y)) :
    Tendsto (fun t => turnRow H t a (x t) (y t)) (𝓝[>] 0)
      (𝓝 ![H * (cos a * X - sin a * Y), H * (sin a * X + cos a * Y), 0]) := by
  have hc : Tendsto cos (𝓝[>] 0) (𝓝 1) := by
    rw [← cos_zero]; exact continuous_cos.continuousAt.mono_left nhdsWithin_le_nhds
  have hs : Tendsto sin (𝓝[>] 0) (𝓝 0) := by
    rw [← sin_zero]; nth_rewrite 1 [sin_zero]
    exact continuous_sin.continuousAt.mono_left nhdsWithin_le_nhds
  refine tendsto_pi_nhds.mpr fun i => ?_
  fin_cases i
  · have := ((hc.mul_const (cos a)).mul hx).sub (hy.mul_const (sin a)) |>.const_mul H
    simp only [one_mul] at this
    refine (this.congr fun t => ?_).trans (le_of_eq ?_)
    · simp only [turnRow, Fin.zero_eta, Matrix.cons_val_zero]; ring
    · simp [mul_comm]
  · have := ((hc.mul_const (sin a)).mul hx).add (hy.mul_const (cos a)) |>.const_mul H
    simp only [one_mul] at this
    refine (this.congr fun t => ?_).trans (le_of_eq ?_)
    · simp only [turnRow, Fin.mk_one, Matrix.cons_val_one, Matrix.cons_val_zero]; ring
    · simp [mul_comm]
  · have := ((hs.mul hx).const_mul H).neg
    simpa [turnRow] using this

theorem rows_tendsto {f : Func} (hf : replacing f = true) {c : Ctx} {tort mag X Y : ℝ} {j : ℕ}
    (hj : j ≠ 0) (hi : c.s.inc j = 0) (hr : c.s.rev4 = true ∨ j ≠ 1)
    (hx : Tendsto (fun t => eDIA f (inclined c t) tort mag j 1) (𝓝[>] 0) (𝓝 X))
    (hy : Tendsto (fun t => sin t * eDIA f (inclined c t) tort mag j 2) (𝓝[>] 0) (𝓝 Y)) :
    (j + 1 < c.s.n →
      Tendsto (fun t => eNEV (inclined c t).s (eDIA f (inclined c t) tort mag) j) (𝓝[>] 0)
        (𝓝 ![0.5 * c.dmd2 j * (c.ct j * X - c.st j * Y),
          0.5 * c.dmd2 j * (c.st j * X + c.ct j * Y), 0])) ∧
    Tendsto (fun t => eNEVStar (inclined c t).s (eDIA f (inclined c t) tort mag) j) (𝓝[>] 0)
      (𝓝 ![0.5 * c.dmd j * (c.ct j * X - c.st j * Y),
        0.5 * c.dmd j * (c.st j * X + c.ct j * Y), 0]) := by
  have hinc : ∀ t, (inclined c t).s.inc j = t := fun t => by simp [inclined, hi]
  constructor
  · intro hn
    refine (turnRow_tendsto (0.5 * c.dmd2 j) (c.s.azi j) hx hy).congr fun t => ?_
    rw [eNEV_turnRow (inclined c t).s _ hj hn hr (replacing_depth hf _ _ mag j), hinc]
    rfl
  · refine (turnRow_tendsto (0.5 * c.dmd j) (c.s.azi j) hx hy).congr fun t => ?_
    rw [eNEVStar_turnRow (inclined c t).s _ hj hr (replacing_depth hf _ _ mag j), hinc]
    rfl

theorem cos_tendsto : Tendsto cos (𝓝[>] 0) (𝓝 1) := by
  rw [← cos_zero]; exact continuous_cos.continuousAt.mono_left nhdsWithin_le_nhds

theorem sin_tendsto : Tendsto sin (𝓝[>] 0) (𝓝 0) := by
  have : Tendsto sin (𝓝[>] 0) (𝓝 (sin 0)) :=
    continuous_sin.continuousAt.mono_left nhdsWithin_le_nhds
  rwa [sin_zero] at this

theorem sin_ne_eventually : ∀ᶠ t in 𝓝[>] (0 : ℝ), sin t ≠ 0 := by
  filter_upwards [Ioo_mem_nhdsGT pi_pos] with t ht
  exact (sin_pos_of_pos_of_lt_pi ht.1 ht.2).ne'

/-- A product with the sine, which cancels. -/
theorem sin_mul_tendsto {y G : ℝ → ℝ} {Y : ℝ} (hG : Tendsto G (𝓝[>] 0) (𝓝 Y))
    (h : ∀ t, sin t ≠ 0 → sin t * y t = G t) : Tendsto (fun t => sin t * y t) (𝓝[>] 0) (𝓝 Y) :=
  hG.congr' (by filter_upwards [sin_ne_eventually] with t ht; exact (h t ht).symm)

theorem xym3_limits {c : Ctx} {tort mag : ℝ} {j : ℕ} (hi : c.s.inc j = 0) :
    Tendsto (fun t => eDIA .XYM3 (inclined c t) tort mag j 1) (𝓝[>] 0) (𝓝 (c.ct j * mag)) ∧
    Tendsto (fun t => sin t * eDIA .XYM3 (inclined c t) tort mag j 2) (𝓝[>] 0)
      (𝓝 (-c.st j * mag)) := by
  constructor
  · have := (cos_tendsto.abs.mul_const (c.ct j)).mul_const mag
    simp only [abs_one, one_mul] at this
    refine this.congr fun t => ?_
    simp [eDIA, dpde, inclined, Ctx.ci, Ctx.ct, hi]
  · have := (cos_tendsto.abs.mul_const (-c.st j)).mul_const mag
    simp only [abs_one, one_mul] at this
    refine sin_mul_tendsto this fun t ht => ?_
    simp [eDIA, dpde, inclined, Ctx.ci, Ctx.si, Ctx.st, hi]
    field_simp

theorem xym4_limits {c : Ctx} {tort mag : ℝ} {j : ℕ} (hi : c.s.inc j = 0) :
    Tendsto (fun t => eDIA .XYM4 (inclined c t) tort mag j 1) (𝓝[>] 0) (𝓝 (c.st j * mag)) ∧
    Tendsto (fun t => sin t * eDIA .XYM4 (inclined c t) tort mag j 2) (𝓝[>] 0)
      (𝓝 (c.ct j * mag)) := by
  constructor
  · have := (cos_tendsto.abs.mul_const (c.st j)).mul_const mag
    simp only [abs_one, one_mul] at this
    refine this.congr fun t => ?_
    simp [eDIA, dpde, inclined, Ctx.ci, Ctx.st, hi]
  · have := (cos_tendsto.abs.mul_const (c.ct j)).mul_const mag
    simp only [abs_one, one_mul] at this
    refine sin_mul_tendsto this fun t ht => ?_
    simp [eDIA, dpde, inclined, Ctx.ci, Ctx.si, Ctx.ct, hi]
    field_simp

theorem cna_limits {c : Ctx} {tort mag : ℝ} {j : ℕ} (hi : c.s.inc j = 0) :
    Tendsto (fun t => eDIA .CNA (inclined c t) tort mag j 1) (𝓝[>] 0) (𝓝 0) ∧
    Tendsto (fun t => sin t * eDIA .CNA (inclined c t) tort mag j 2) (𝓝[>] 0) (𝓝 mag) := by
  constructor
  · refine tendsto_const_nhds.congr fun t => ?_
    simp [eDIA, dpde]
  · refine sin_mul_tendsto tendsto_const_nhds fun t ht => ?_
    simp [eDIA, dpde, inclined, Ctx.si, hi, ht]

theorem tan_pi_half_sub (t : ℝ) : tan (π / 2 - t) = cos t / sin t := by
  rw [tan_eq_sin_div_cos, sin_pi_div_two_sub, cos_pi_div_two_sub]

theorem abxy_limits {c : Ctx} {tort mag : ℝ} {j : ℕ} (hi : c.s.inc j = 0) :
    Tendsto (fun t => eDIA .ABXY_TI2 (inclined c t) tort mag j 1) (𝓝[>] 0) (𝓝 0) ∧
    Tendsto (fun t => sin t * eDIA .ABXY_TI2 (inclined c t) tort mag j 2) (𝓝[>] 0)
      (𝓝 (mag / c.G)) := by
  constructor
  · refine tendsto_const_nhds.congr fun t => ?_
    simp [eDIA, dpde]
  · have := (cos_tendsto.sub (sin_tendsto.mul_const (tan c.dip * c.cm j))).mul_const (mag / c.G)
    simp only [zero_mul, sub_zero, one_mul] at this
    refine sin_mul_tendsto this fun t ht => ?_
    have h := tan_pi_half_sub t
    rw [sub_eq_neg_add] at h
    simp [eDIA, dpde, inclined, Ctx.cm, hi, h]
    field_simp

theorem abixy_limits {c : Ctx} {tort mag : ℝ} {j : ℕ} (hi : c.s.inc j = 0) :
    Tendsto (fun t => eDIA .ABIXY_TI2 (inclined c t) tort mag j 1) (𝓝[>] 0) (𝓝 0) ∧
    Tendsto (fun t => sin t * eDIA .ABIXY_TI2 (inclined c t) tort mag j 2) (𝓝[>] 0)
      (𝓝 (mag / c.G)) := by
  constructor
  · refine tendsto_const_nhds.congr fun t => ?_
    simp [eDIA, dpde]
  · have h1 := (cos_tendsto.sub (sin_tendsto.mul_const (tan c.dip * c.cm j))).mul_const (mag / c.G)
    have h2 := (tendsto_const_nhds (x := (1 : ℝ))).sub
      ((sin_tendsto.pow 2).mul_const (c.sm j ^ 2))
    have h3 := h1.div h2 (by norm_num)
    norm_num at h3
    refine sin_mul_tendsto h3 fun t ht => ?_
    have h := tan_pi_half_sub t
    simp [eDIA, dpde, inclined, Ctx.cm, Ctx.sm, Ctx.funky, hi, h]
    field_simp

/-! ### C210 -/

/-- Tactic-free form of an inner row. -/
theorem inner_inner {c : Ctx} {row : ℕ → V} {j : ℕ} (h0 : j ≠ 0) (hn : j + 1 < c.s.n) :
    inner c row j = row j := by
  unfold inner; rw [if_neg]; rintro (h | h) <;> omega

theorem inner_zero {c : Ctx} {row : ℕ → V} : inner c row 0 = 0 := by simp [inner]

theorem setRow1_ne {arr : ℕ → V} {i : Fin 3} {x : ℝ} {k : ℕ} (h : k ≠ 1) :
    setRow1 arr i x k = arr k := by simp [setRow1, h]

/-- Rows of the accelerometer bias at inner vertical stations. -/
theorem singABXY_rows {c : Ctx} {mag : ℝ} {patch : Bool} (hn : 3 ≤ c.s.n) :
    ∃ a b, singABXY c mag patch = .ok (a, b) ∧ a 0 = 0 ∧ b 0 = 0 ∧
      ∀ j, j ≠ 0 → j + 1 < c.s.n → (patch = false ∨ j ≠ 1) →
        a j = ![0.5 * c.dmd2 j * -c.st j * mag / c.G, 0.5 * c.dmd2 j * c.ct j * mag / c.G, 0] ∧
        b j = ![0.5 * c.dmd j * -c.st j * mag / c.G, 0.5 * c.dmd j * c.ct j * mag / c.G, 0] := by
  unfold singABXY
  cases patch with
  | false =>
    refine ⟨_, _, rfl, inner_zero, inner_zero, fun j h0 h1 _ => ?_⟩
    exact ⟨inner_inner h0 h1, inner_inner h0 h1⟩
  | true =>
    rw [if_pos rfl, if_neg (by omega)]
    refine ⟨_, _, rfl, ?_, ?_, fun j h0 h1 h2 => ?_⟩
    · rw [setRow1_ne (by norm_num), inner_zero]
    · rw [setRow1_ne (by norm_num), inner_zero]
    · have hj : j ≠ 1 := by rcases h2 with h | h; exacts [absurd h (by simp), h]
      rw [setRow1_ne hj, setRow1_ne hj]
      exact ⟨inner_inner h0 h1, inner_inner h0 h1⟩

theorem vec3_eq {a b c a' b' c' : ℝ} (h1 : a = a') (h2 : b = b') (h3 : c = c') :
    ![a, b, c] = ![a', b', c'] := by rw [h1, h2, h3]

/-- The same from the limits of the errors in inclination and azimuth. -/
theorem verticalLimit_of_limits {f : Func} (hf : replacing f = true) {c : Ctx}
    (hc : UprightOrInclined c) {mag : ℝ} {p : Prop'} (hp : p ≠ .other) {a b : ℕ → V}
    (hr : singRows f c (c.tortuosity.getD 0) mag = some (.ok (a, b)))
    (h00 : a 0 = 0 ∧ b 0 = 0) {m : ℕ} (hm : m < c.s.n) (hlast : m + 1 < c.s.n ∨ c.s.inc m ≠ 0)
    (hrow : ∀ j, c.s.inc j = 0 → c.s.rev4 = true ∨ j ≠ 1) (X Y : ℕ → ℝ)
    (hX : ∀ j, j ≠ 0 → c.s.inc j = 0 →
      Tendsto (fun t => eDIA f (inclined c t) (c.tortuosity.getD 0) mag j 1) (𝓝[>] 0) (𝓝 (X j)))
    (hY : ∀ j, j ≠ 0 → c.s.inc j = 0 →
      Tendsto (fun t => sin t * eDIA f (inclined c t) (c.tortuosity.getD 0) mag j 2) (𝓝[>] 0)
        (𝓝 (Y j)))
    (ha : ∀ j, j ≠ 0 → j + 1 < c.s.n → c.s.inc j = 0 →
      a j = ![0.5 * c.dmd2 j * (c.ct j * X j - c.st j * Y j),
        0.5 * c.dmd2 j * (c.st j * X j + c.ct j * Y j), 0] ∧
      b j = ![0.5 * c.dmd j * (c.ct j * X j - c.st j * Y j),
        0.5 * c.dmd j * (c.st j * X j + c.ct j * Y j), 0]) :
    VerticalLimit f c mag p m := by
  refine verticalLimit_of_rows hf hc hp hr h00 m hm hlast ?_ ?_ <;> intro j hj hjn hi
  · rw [(ha j hj hjn hi).1]
    exact (rows_tendsto hf hj hi (hrow j hi) (hX j hj hi) (hY j hj hi)).1 hjn
  · rw [(ha j hj hjn hi).2]
    exact (rows_tendsto hf hj hi (hrow j hi) (hX j hj hi) (hY j hj hi)).2

/-- **C210** For the misalignment sources XYM3 and XYM4, the accelerometer bias sources and the
azimuth source of a gyro with a true azimuth: inclining the vertical stations of a survey less and less,
the covariance at each station, other than a vertical last one, tends to the one reported for the
vertical stations.  (With a model before rev4, whose first interval counts twice, and for ABIXY_TI2,
the first station below the surface must not be vertical.) -/
theorem C210_vertical_limit {f : Func} {c : Ctx} (hc : UprightOrInclined c) (hn : 3 ≤ c.s.n)
    (hf : f = .XYM3 ∨ f = .XYM4 ∨ f = .ABXY_TI2 ∨ (f = .ABIXY_TI2 ∧ c.s.inc 1 ≠ 0) ∨
      (f = .CNA ∧ c.ref = .true))
    (hr : c.s.rev4 = true ∨ c.s.inc 1 ≠ 0) {mag : ℝ} {p : Prop'} (hp : p ≠ .other)
    {m : ℕ} (hm : m < c.s.n) (hlast : m + 1 < c.s.n ∨ c.s.inc m ≠ 0) :
    VerticalLimit f c mag p m := by
  have hrow : ∀ j, c.s.inc j = 0 → c.s.rev4 = true ∨ j ≠ 1 := fun j hi =>
    hr.imp id fun h hj => h (hj ▸ hi)
  rcases hf with rfl | rfl | rfl | ⟨rfl, h1⟩ | ⟨rfl, href⟩
  · refine verticalLimit_of_limits rfl hc hp rfl ⟨inner_zero, inner_zero⟩ hm hlast hrow
      (fun j => c.ct j * mag) (fun j => -c.st j * mag) (fun j _ hi => (xym3_limits hi).1)
      (fun j _ hi => (xym3_limits hi).2) fun j hj hjn hi => ?_
    have := sin_sq_add_cos_sq (c.s.azi j)
    rw [inner_inner hj hjn, inner_inner hj hjn]
    simp only [Ctx.ct, Ctx.st]
    refine ⟨vec3_eq ?_ ?_ rfl, vec3_eq ?_ ?_ rfl⟩
    · linear_combination (-0.5 * c.dmd2 j * mag) * this
    · ring
    · linear_combination (-0.5 * c.dmd j * mag) * this
    · ring
  · refine verticalLimit_of_limits rfl hc hp rfl ⟨inner_zero, inner_zero⟩ hm hlast hrow
      (fun j => c.st j * mag) (fun j => c.ct j * mag) (fun j _ hi => (xym4_limits hi).1)
      (fun j _ hi => (xym4_limits hi).2) fun j hj hjn hi => ?_
    have := sin_sq_add_cos_sq (c.s.azi j)
    rw [inner_inner hj hjn, inner_inner hj hjn]
    simp only [Ctx.ct, Ctx.st]
    refine ⟨vec3_eq ?_ ?_ rfl, vec3_eq ?_ ?_ rfl⟩
    · ring
    · linear_combination (-0.5 * c.dmd2 j * mag) * this
    · ring
    · linear_combination (-0.5 * c.dmd j * mag) * this
  · obtain ⟨a, b, h1, h2, h3, h4⟩ := singABXY_rows (mag := mag) (patch := !c.s.rev4) hn
    refine verticalLimit_of_limits (f := .ABXY_TI2) rfl hc hp (congrArg some h1) ⟨h2, h3⟩ hm hlast hrow
      (fun _ => 0) (fun _ => mag / c.G) (fun j _ hi => (abxy_limits hi).1)
      (fun j _ hi => (abxy_limits hi).2) fun j hj hjn hi => ?_
    obtain ⟨e1, e2⟩ := h4 j hj hjn ((hrow j hi).imp (fun h => by simp [h]) id)
    rw [e1, e2]
    refine ⟨vec3_eq ?_ ?_ rfl, vec3_eq ?_ ?_ rfl⟩ <;> ring
  · obtain ⟨a, b, h1', h2, h3, h4⟩ := singABXY_rows (mag := mag) (patch := true) hn
    refine verticalLimit_of_limits (f := .ABIXY_TI2) rfl hc hp (congrArg some h1')
      ⟨h2, h3⟩ hm hlast hrow
      (fun _ => 0) (fun _ => mag / c.G) (fun j _ hi => (abixy_limits hi).1)
      (fun j _ hi => (abixy_limits hi).2) fun j hj hjn hi => ?_
    obtain ⟨e1, e2⟩ := h4 j hj hjn (Or.inr fun h => h1 (h ▸ hi))
    rw [e1, e2]
    refine ⟨vec3_eq ?_ ?_ rfl, vec3_eq ?_ ?_ rfl⟩ <;> ring
  · have hs : singRows .CNA c (c.tortuosity.getD 0) mag = some (.ok
        (inner c fun k => ![0.5 * c.dmd2 k * -sin (c.s.azi k) * mag,
          0.5 * c.dmd2 k * cos (c.s.azi k) * mag, 0],
         inner c fun k => ![0.5 * c.dmd k * -sin (c.s.azi k) * mag,
          0.5 * c.dmd k * cos (c.s.azi k) * mag, 0])) := by
      simp [singRows, cnaAzi, href]
    refine verticalLimit_of_limits rfl hc hp hs ⟨inner_zero, inner_zero⟩ hm hlast hrow
      (fun _ => 0) (fun _ => mag) (fun j _ hi => (cna_limits hi).1)
      (fun j _ hi => (cna_limits hi).2) fun j hj hjn hi => ?_
    rw [inner_inner hj hjn, inner_inner hj hjn]
    simp only [Ctx.ct, Ctx.st]
    refine ⟨vec3_eq ?_ ?_ rfl, vec3_eq ?_ ?_ rfl⟩ <;> ring

/-- C210 hypotheses: four stations, `spacing` apart, with the same azimuth `azi` east of true north
and with the inclinations `inc`. -/
noncomputable def uprightCtx (inc : ℕ → ℝ) (spacing azi : ℝ) : Ctx where
  s := ⟨4, fun j => spacing * j, inc, fun _ => azi, true⟩
  tvd := fun j => spacing * j
  aziMag := fun _ => azi
  aziGrid := fun _ => 0
  G := 9.8
  dip := 1
  bTotal := 50000
  vlim := 0.01
  ref := .grid
  tortuosity := none

/-- Vertical down to the last station. -/
noncomputable def kick : ℕ → ℝ := fun j => if j = 3 then 1 else 0

theorem kick_ok (d azi : ℝ) : UprightOrInclined (uprightCtx kick d azi) := by
  refine ⟨by norm_num [uprightCtx], fun j _ => ?_⟩
  simp only [uprightCtx, kick]
  split_ifs
  · right; norm_num
  · left; rfl

/-- C210 hypotheses: stations 100 apart with azimuth 90 degrees, the first three vertical. -/
example : VerticalLimit .XYM3 (uprightCtx kick 100 (π / 2)) 1 .systematic 2 :=
  C210_vertical_limit (kick_ok _ _) (by norm_num [uprightCtx]) (Or.inl rfl) (Or.inl rfl)
    (by simp) (by norm_num [uprightCtx]) (Or.inl (by norm_num [uprightCtx]))

/-! ### A vertical first station in the sources that patch its row -/

theorem eNEVStar_turnRow_first (s : Sv) (e : ℕ → V) (h0 : e 1 0 = 0) (h1 : e 1 1 = 0) :
    eNEVStar s e 1 = turnRow (0.5 * (s.md 1 - s.md 0)) (s.inc 1) (s.azi 1) 0 (e 1 2) := by
  unfold eNEVStar turnRow
  rw [if_neg one_ne_zero]
  funext i
  fin_cases i <;> simp [drdp, h0, h1] <;> ring

/-- The patched row of the accelerometer bias at a first station recorded due north or south. -/
theorem singABXY_first {c : Ctx} {mag : ℝ} (hn : 3 ≤ c.s.n) (hs : sin (c.s.azi 1) = 0) {a b : ℕ → V}
    (h : singABXY c mag true = .ok (a, b)) :
    b 1 = ![0, (c.s.md 1 - c.s.md 0) * (cos (c.s.azi 1) * (mag / c.G)), 0] := by
  unfold singABXY at h
  rw [if_pos rfl, if_neg (by omega), Except.ok.injEq, Prod.mk.injEq] at h
  obtain ⟨-, rfl⟩ := h
  have h1 : ¬ (1 + 1 = c.s.n) := by omega
  funext i
  fin_cases i <;> simp [setRow1, inner, h1, Ctx.st, hs]
  ring

theorem propagate_first {p : Prop'} (hp : p ≠ .other) (e es : ℕ → V) (h0 : e 0 = 0) :
    ∃ C, propagate p e es = some C ∧ C 1 = covFromVec (es 1) := by
  have hz : covFromVec (0 : V) = 0 := by
    funext i j; simp [covFromVec]
  cases p with
  | other => exact absurd rfl hp
  | random => exact ⟨_, rfl, by simp [h0, hz]⟩
  | systematic => exact ⟨_, rfl, by simp [sigmaSystematic, h0]⟩
  | global => exact ⟨_, rfl, by simp [sigmaSystematic, h0]⟩
  | withinPad => exact ⟨_, rfl, by simp [sigmaSystematic, h0]⟩

/-- **C210** Why the first station is excluded: for ABIXY_TI2, and for ABXY_TI2 of a model before rev4,
when the first station below the surface is vertical and recorded due north or south, the reported
covariance there is four times the limit of those of inclined first stations. -/
theorem C210_first_doubled {f : Func} {c : Ctx} (hc : UprightOrInclined c) (hn : 3 ≤ c.s.n)
    (hf : f = .ABIXY_TI2 ∨ (f = .ABXY_TI2 ∧ c.s.rev4 = false)) (hi : c.s.inc 1 = 0)
    (hs : sin (c.s.azi 1) = 0) {mag : ℝ} {p : Prop'} (hp : p ≠ .other) :
    ∃ (T : ℝ → Term) (T0 : Term) (C : M3),
      (∀ t, 0 < t → callFunc f (inclined c t) mag p = .ok (some (T t))) ∧
      callFunc f c mag p = .ok (some T0) ∧
      Tendsto (fun t => (T t).cov 1) (𝓝[>] 0) (𝓝 C) ∧ T0.cov 1 = (4 : ℝ) • C ∧
      C 1 1 = ((c.s.md 1 - c.s.md 0) / 2 * (mag / c.G)) ^ 2 := by
  obtain ⟨a, b, h1, h2, h3, -⟩ := singABXY_rows (mag := mag) (patch := true) (c := c) hn
  have hfr : replacing f = true := by rcases hf with rfl | ⟨rfl, -⟩ <;> rfl
  have hrows : singRows f c (c.tortuosity.getD 0) mag = some (.ok (a, b)) := by
    rcases hf with rfl | ⟨rfl, hr⟩
    · simp only [singRows, h1]
    · simp only [singRows, hr, Bool.not_false, h1]
  have hfp : forcedProp f p = p := by rcases hf with rfl | ⟨rfl, -⟩ <;> rfl
  have hinc0 : ∀ t, eDIA f (inclined c t) (c.tortuosity.getD 0) mag 1 1 = 0 := by
    intro t
    rcases hf with rfl | ⟨rfl, -⟩ <;> simp [eDIA, dpde]
  have lim : Tendsto (fun t => sin t * eDIA f (inclined c t) (c.tortuosity.getD 0) mag 1 2) (𝓝[>] 0)
      (𝓝 (mag / c.G)) := by
    rcases hf with rfl | ⟨rfl, -⟩
    exacts [(abixy_limits hi).2, (abxy_limits hi).2]
  have hct : cos (c.s.azi 1) ^ 2 = 1 := by
    have := sin_sq_add_cos_sq (c.s.azi 1)
    rw [hs] at this; linarith
  obtain ⟨A, B, hcall, hAB⟩ := call_vertical hfr hp hrows
  have hlt : c.s.inc 1 < c.vlim := by rw [hi]; exact hc.1
  have hA0 : A 0 = 0 := by
    rw [(hAB 0 (by omega)).1]; unfold replaceSing; split_ifs
    · exact h2
    · simp [eNEV]
  have hB1 : B 1 = b 1 := by
    rw [(hAB 1 (by omega)).2]; unfold replaceSing; rw [if_pos hlt]
  obtain ⟨C0, e1, e2⟩ := propagate_first hp A B hA0
  have hT := fun t => propagate_first hp
    (eNEV (inclined c t).s (eDIA f (inclined c t) (c.tortuosity.getD 0) mag))
    (eNEVStar (inclined c t).s (eDIA f (inclined c t) (c.tortuosity.getD 0) mag)) (by simp [eNEV])
  choose C e3 e4 using hT
  have row := turnRow_tendsto (x := fun _ => 0) (0.5 * (c.s.md 1 - c.s.md 0)) (c.s.azi 1)
    tendsto_const_nhds lim
  have row' : Tendsto (fun t => eNEVStar (inclined c t).s
      (eDIA f (inclined c t) (c.tortuosity.getD 0) mag) 1) (𝓝[>] 0)
      (𝓝 ![0, 0.5 * (c.s.md 1 - c.s.md 0) * (cos (c.s.azi 1) * (mag / c.G)), 0]) := by
    simp only [hs, mul_zero, zero_mul, zero_add, sub_zero] at row
    refine row.congr fun t => ?_
    rw [eNEVStar_turnRow_first _ _ (replacing_depth hfr _ _ mag 1) (hinc0 t)]
    simp [inclined, hi]
  refine ⟨fun t => ⟨p, eDIA f (inclined c t) (c.tortuosity.getD 0) mag,
      eNEV (inclined c t).s (eDIA f (inclined c t) (c.tortuosity.getD 0) mag),
      eNEVStar (inclined c t).s (eDIA f (inclined c t) (c.tortuosity.getD 0) mag), C t⟩,
    ⟨p, eDIA f c (c.tortuosity.getD 0) mag, A, B, C0⟩, _, ?_, ?_,
    (covFromVec_tendsto row').congr fun t => (e4 t).symm, ?_, ?_⟩
  · intro t ht
    rw [call_inclined hfr hc ht, hfp]
    simp only [generateError, e3, Option.map_some]
  · rw [hcall, hfp]
    simp only [generateError, e1, Option.map_some]
  · show C0 1 = _
    rw [e2, hB1, singABXY_first hn hs h1]
    funext i j
    fin_cases i <;> fin_cases j <;> simp [covFromVec]
    ring
  · simp only [covFromVec, Matrix.of_apply, Matrix.cons_val_one, Matrix.cons_val_zero]
    linear_combination ((c.s.md 1 - c.s.md 0) / 2 * (mag / c.G)) ^ 2 * hct

/-- C210_first_doubled hypotheses: the stations of the example above, recorded due north; the limit is
not zero. -/
example : ∃ (T0 : Term) (C : M3), callFunc .ABIXY_TI2 (uprightCtx kick 100 0) 1 .systematic
      = .ok (some T0) ∧ T0.cov 1 = (4 : ℝ) • C ∧ C 1 1 ≠ 0 := by
  obtain ⟨-, T0, C, -, h2, -, h4, h5⟩ := C210_first_doubled (p := .systematic) (mag := 1)
    (kick_ok 100 0) (by norm_num [uprightCtx]) (Or.inl rfl) (by norm_num [uprightCtx, kick])
    (by simp [uprightCtx]) (by simp)
  refine ⟨T0, C, h2, h4, ?_⟩
  rw [h5]
  norm_num [uprightCtx]

/-! ### C211 -/

/-- If the covariance of a random source tends to the reported one at the first vertical station below
the surface, the replacement there is the limit, up to sign. -/
theorem verticalLimit_only_if {f : Func} (hf : replacing f = true) {c : Ctx}
    (hc : UprightOrInclined c) {mag : ℝ} {a b : ℕ → V}
    (hr : singRows f c (c.tortuosity.getD 0) mag = some (.ok (a, b))) (ha0 : a 0 = 0)
    {m : ℕ} (hm0 : m ≠ 0) (hm : m < c.s.n) (hi : c.s.inc m = 0)
    (habove : ∀ j < m, j ≠ 0 → c.s.inc j ≠ 0) (hrow : c.s.rev4 = true ∨ m ≠ 1) {X Y : ℝ}
    (hX : Tendsto (fun t => eDIA f (inclined c t) (c.tortuosity.getD 0) mag m 1) (𝓝[>] 0) (𝓝 X))
    (hY : Tendsto (fun t => sin t * eDIA f (inclined c t) (c.tortuosity.getD 0) mag m 2) (𝓝[>] 0)
      (𝓝 Y))
    (h : VerticalLimit f c mag .random m) :
    covFromVec (b m) = covFromVec ![0.5 * c.dmd m * (c.ct m * X - c.st m * Y),
        0.5 * c.dmd m * (c.st m * X + c.ct m * Y), 0] := by
  obtain ⟨T, T0, h1, h2, h3⟩ := h
  obtain ⟨A, B, hcall, hAB⟩ := call_vertical (p := .random) hf (by simp) hr
  have hfp : forcedProp f .random = .random := by
    cases f <;> simp [replacing] at hf <;> rfl
  have own := own_rows hf hc mag
  -- the sum above is the same
  have hsum : ∀ t, ∑ j ∈ range m, covFromVec (eNEV (inclined c t).s
      (eDIA f (inclined c t) (c.tortuosity.getD 0) mag) j) = ∑ j ∈ range m, covFromVec (A j) := by
    intro t
    refine sum_congr rfl fun j hj => ?_
    have hjm := mem_range.mp hj
    rw [(hAB j (hjm.trans hm)).1]
    by_cases hj0 : j = 0
    · subst hj0
      simp [replaceSing, eNEV, ha0]
    · have hij := habove j hjm hj0
      rw [(own j hj0 (hjm.trans hm) hij t).1, replaceSing,
        if_neg (not_lt.mpr ((hc.2 j (hjm.trans hm)).resolve_left hij))]
  have hT : ∀ t, 0 < t → (T t).cov m = covFromVec (eNEVStar (inclined c t).s
      (eDIA f (inclined c t) (c.tortuosity.getD 0) mag) m) + ∑ j ∈ range m, covFromVec (A j) := by
    intro t ht
    have e := h1 t ht
    rw [call_inclined hf hc ht, hfp] at e
    simp only [generateError, propagate, Option.map_some, Except.ok.injEq, Option.some.injEq] at e
    rw [← e]
    simp only [if_neg hm0, hsum t]
  have hT0 : T0.cov m = covFromVec (b m) + ∑ j ∈ range m, covFromVec (A j) := by
    rw [hcall, hfp] at h2
    simp only [generateError, propagate, Option.map_some, Except.ok.injEq, Option.some.injEq] at h2
    rw [← h2]
    simp only [if_neg hm0, (hAB m hm).2, replaceSing]
    rw [if_pos (by rw [hi]; exact hc.1)]
  have l1 : Tendsto (fun t => covFromVec (eNEVStar (inclined c t).s
      (eDIA f (inclined c t) (c.tortuosity.getD 0) mag) m)) (𝓝[>] 0) (𝓝 (covFromVec (b m))) := by
    have := h3.sub_const (∑ j ∈ range m, covFromVec (A j))
    rw [hT0, add_sub_cancel_right] at this
    refine this.congr' ?_
    filter_upwards [self_mem_nhdsWithin] with t ht
    rw [hT t ht, add_sub_cancel_right]
  have l2 := covFromVec_tendsto (rows_tendsto hf hm0 hi hrow hX hY).2
  exact tendsto_nhds_unique l1 l2

theorem coeff_inclined (c : Ctx) (t : ℝ) (j : ℕ) : coeff (inclined c t) j = coeff c j := rfl

theorem xym3e_limits {c : Ctx} (hv : 0 < c.vlim) {tort mag : ℝ} {j : ℕ} (hj : j ≠ 0)
    (hi : c.s.inc j = 0) :
    Tendsto (fun t => eDIA .XYM3E (inclined c t) tort mag j 1) (𝓝[>] 0)
      (𝓝 (|c.ct j * coeff c j| * mag)) ∧
    Tendsto (fun t => sin t * eDIA .XYM3E (inclined c t) tort mag j 2) (𝓝[>] 0)
      (𝓝 (-c.st j * coeff c j * mag)) := by
  constructor
  · have := ((cos_tendsto.mul_const (c.ct j * coeff c j)).abs).mul_const mag
    simp only [one_mul] at this
    refine this.congr fun t => ?_
    simp [eDIA, dpde, inclined, Ctx.ci, Ctx.ct, hi, hj, mul_assoc, coeff, Ctx.dmd]
  · have := ((cos_tendsto.abs.mul_const (-c.st j)).mul_const (coeff c j)).mul_const mag
    simp only [abs_one, one_mul] at this
    have hG : Tendsto (fun t => sin t * eDIA .XYM3E (inclined c t) tort mag j 2) (𝓝[>] 0)
        (𝓝 (-c.st j * coeff c j * mag)) := by
      refine this.congr' ?_
      filter_upwards [sin_ne_eventually, self_mem_nhdsWithin] with t ht h0
      have h0 : ¬ t < 0 := not_lt.mpr (le_of_lt h0)
      simp [eDIA, dpde, inclined, Ctx.ci, Ctx.si, Ctx.st, hi, hj, h0, coeff, Ctx.dmd]
      field_simp
    exact hG

theorem xym4e_limits {c : Ctx} {tort mag : ℝ} {j : ℕ} (hj : j ≠ 0) (hi : c.s.inc j = 0) :
    Tendsto (fun t => eDIA .XYM4E (inclined c t) tort mag j 1) (𝓝[>] 0)
      (𝓝 (c.st j * coeff c j * mag)) ∧
    Tendsto (fun t => sin t * eDIA .XYM4E (inclined c t) tort mag j 2) (𝓝[>] 0)
      (𝓝 (c.ct j * coeff c j * mag)) := by
  constructor
  · have := ((cos_tendsto.mul_const (c.st j)).mul_const (coeff c j)).mul_const mag
    simp only [one_mul] at this
    refine this.congr fun t => ?_
    simp [eDIA, dpde, inclined, Ctx.ci, Ctx.st, hi, hj, coeff, Ctx.dmd]
  · have := ((cos_tendsto.mul_const (c.ct j)).mul_const (coeff c j)).mul_const mag
    simp only [one_mul] at this
    refine sin_mul_tendsto this fun t ht => ?_
    simp [eDIA, dpde, inclined, Ctx.ci, Ctx.si, Ctx.ct, hi, hj, coeff, Ctx.dmd]
    field_simp

theorem xym3l_limits {c : Ctx} {tort mag : ℝ} {j : ℕ} (hj : j ≠ 0) (hi : c.s.inc j = 0) :
    Tendsto (fun t => eDIA .XYM3L (inclined c t) tort mag j 1) (𝓝[>] 0)
      (𝓝 (c.ct j * coeff c j * mag)) ∧
    Tendsto (fun t => sin t * eDIA .XYM3L (inclined c t) tort mag j 2) (𝓝[>] 0)
      (𝓝 (-c.st j * coeff c j * mag)) := by
  constructor
  · have := ((cos_tendsto.abs.mul_const (c.ct j)).mul_const (coeff c j)).mul_const mag
    simp only [abs_one, one_mul] at this
    refine this.congr fun t => ?_
    simp [eDIA, dpde, inclined, Ctx.ci, Ctx.ct, hi, hj, coeff, Ctx.dmd]
  · have := ((cos_tendsto.abs.mul_const (-c.st j)).mul_const (coeff c j)).mul_const mag
    simp only [abs_one, one_mul] at this
    refine sin_mul_tendsto this fun t ht => ?_
    simp [eDIA, dpde, inclined, Ctx.ci, Ctx.si, Ctx.st, hi, hj, coeff, Ctx.dmd]
    field_simp

theorem xym4l_limits {c : Ctx} {tort mag : ℝ} {j : ℕ} (hj : j ≠ 0) (hi : c.s.inc j = 0) :
    Tendsto (fun t => eDIA .XYM4L (inclined c t) tort mag j 1) (𝓝[>] 0)
      (𝓝 (c.st j * coeff c j * mag)) ∧
    Tendsto (fun t => sin t * eDIA .XYM4L (inclined c t) tort mag j 2) (𝓝[>] 0)
      (𝓝 (c.ct j * coeff c j * mag)) := by
  constructor
  · have := ((cos_tendsto.abs.mul_const (c.st j)).mul_const (coeff c j)).mul_const mag
    simp only [abs_one, one_mul] at this
    refine this.congr fun t => ?_
    simp [eDIA, dpde, inclined, Ctx.ci, Ctx.st, hi, hj, coeff, Ctx.dmd]
  · have := ((cos_tendsto.abs.mul_const (c.ct j)).mul_const (coeff c j)).mul_const mag
    simp only [abs_one, one_mul] at this
    refine sin_mul_tendsto this fun t ht => ?_
    simp [eDIA, dpde, inclined, Ctx.ci, Ctx.si, Ctx.ct, hi, hj, coeff, Ctx.dmd]
    field_simp

theorem coeff_of_far {c : Ctx} {j : ℕ} (h : 10 ≤ c.dmd j) : coeff c j = 1 := by
  unfold coeff
  split_ifs
  · rfl
  · refine max_eq_left ?_
    rw [sqrt_le_one]
    rw [div_le_one (by linarith)]
    exact h

/-- **C211** (partial) The misalignment sources XYM3L and XYM4L, if the stations are at least 10 m apart
and the first one below the surface is not vertical. -/
theorem C211_spaced_partial {f : Func} {c : Ctx} (hc : UprightOrInclined c) (hn : 3 ≤ c.s.n)
    (hf : f = .XYM3L ∨ f = .XYM4L) (h1 : c.s.inc 1 ≠ 0)
    (hfar : ∀ j < c.s.n, j ≠ 0 → 10 ≤ c.s.md j - c.s.md (j - 1)) {mag : ℝ} {p : Prop'}
    (hp : p ≠ .other) {m : ℕ} (hm : m < c.s.n) (hlast : m + 1 < c.s.n ∨ c.s.inc m ≠ 0) :
    VerticalLimit f c mag p m := by
  have hrow : ∀ j, c.s.inc j = 0 → c.s.rev4 = true ∨ j ≠ 1 := fun j hi =>
    Or.inr fun hj => h1 (hj ▸ hi)
  have sing : ∀ (i : Fin 3) (co : ℝ), ∃ a b, singL c mag i co = .ok (a, b) ∧ a 0 = 0 ∧ b 0 = 0 ∧
      ∀ j, j ≠ 0 → j ≠ 1 → j + 1 < c.s.n →
        a j = Pi.single i (coeff c j * c.dmd2 j / 2 * mag) ∧ b j = Pi.single i (c.dmd j / 2 * mag) := by
    intro i co
    unfold singL
    rw [if_neg (by omega)]
    refine ⟨_, _, rfl, by simp [setRow1], by simp [setRow1], fun j h0 h1 h2 => ?_⟩
    simp only [setRow1_ne h1]
    rw [if_neg h0, if_neg h0, if_neg (by omega)]
    exact ⟨rfl, rfl⟩
  rcases hf with rfl | rfl
  · obtain ⟨a, b, e1, e2, e3, e4⟩ := sing 0 (coeff c 2)
    refine verticalLimit_of_limits (f := .XYM3L) rfl hc hp (congrArg some e1) ⟨e2, e3⟩ hm hlast hrow
      (fun j => c.ct j * coeff c j * mag) (fun j => -c.st j * coeff c j * mag)
      (fun j hj hi => (xym3l_limits hj hi).1) (fun j hj hi => (xym3l_limits hj hi).2)
      fun j hj hjn hi => ?_
    obtain ⟨r1, r2⟩ := e4 j hj (fun h => h1 (h ▸ hi)) hjn
    have := sin_sq_add_cos_sq (c.s.azi j)
    have hco := coeff_of_far (c := c) (j := j) (hfar j (by omega) hj)
    rw [r1, r2, hco]
    simp only [Ctx.ct, Ctx.st]
    refine ⟨?_, ?_⟩ <;> funext i <;> fin_cases i <;>
      simp only [Fin.zero_eta, Fin.mk_one, Fin.reduceFinMk, Matrix.cons_val, Pi.single_eq_same,
        ne_eq, one_ne_zero, not_false_eq_true, Pi.single_eq_of_ne, Fin.reduceEq]
    · linear_combination (-0.5 * c.dmd2 j * mag) * this
    · ring
    · linear_combination (-0.5 * c.dmd j * mag) * this
    · ring
  · obtain ⟨a, b, e1, e2, e3, e4⟩ := sing 1 (coeff c 1)
    refine verticalLimit_of_limits (f := .XYM4L) rfl hc hp (congrArg some e1) ⟨e2, e3⟩ hm hlast hrow
      (fun j => c.st j * coeff c j * mag) (fun j => c.ct j * coeff c j * mag)
      (fun j hj hi => (xym4l_limits hj hi).1) (fun j hj hi => (xym4l_limits hj hi).2)
      fun j hj hjn hi => ?_
    obtain ⟨r1, r2⟩ := e4 j hj (fun h => h1 (h ▸ hi)) hjn
    have := sin_sq_add_cos_sq (c.s.azi j)
    have hco := coeff_of_far (c := c) (j := j) (hfar j (by omega) hj)
    rw [r1, r2, hco]
    simp only [Ctx.ct, Ctx.st]
    refine ⟨?_, ?_⟩ <;> funext i <;> fin_cases i <;>
      simp only [Fin.zero_eta, Fin.mk_one, Fin.reduceFinMk, Matrix.cons_val, Pi.single_eq_same,
        ne_eq, zero_ne_one, not_false_eq_true, Pi.single_eq_of_ne, Fin.reduceEq]
    · ring
    · linear_combination (-0.5 * c.dmd2 j * mag) * this
    · ring
    · linear_combination (-0.5 * c.dmd j * mag) * this

/-- Inclined above and below a vertical station. -/
noncomputable def dip2 : ℕ → ℝ := fun j => if j = 2 then 0 else 1

theorem dip2_ok (d azi : ℝ) : UprightOrInclined (uprightCtx dip2 d azi) := by
  refine ⟨by norm_num [uprightCtx], fun j _ => ?_⟩
  simp only [uprightCtx, dip2]
  split_ifs
  · left; rfl
  · right; norm_num

example : VerticalLimit .XYM3L (uprightCtx dip2 100 1) 1 .random 2 :=
  C211_spaced_partial (dip2_ok _ _) (by norm_num [uprightCtx]) (Or.inl rfl)
    (by norm_num [uprightCtx, dip2])
    (fun j _ hj => by
      obtain ⟨k, rfl⟩ := Nat.exists_eq_succ_of_ne_zero hj
      simp only [uprightCtx, Nat.succ_eq_add_one, Nat.add_sub_cancel]
      push_cast; linarith)
    (by simp) (by norm_num [uprightCtx]) (Or.inl (by norm_num [uprightCtx]))

/-- **C211** is false of the code for XYM3L: with stations 1 m apart the error reported at a vertical
station misses the factor by which the error at a short spacing is enlarged. -/
theorem C211_xym3l_short : ¬ VerticalLimit .XYM3L (uprightCtx dip2 1 0) 1 .random 2 := by
  intro h
  have hi : (uprightCtx dip2 1 0).s.inc 2 = 0 := by simp [uprightCtx, dip2]
  have := verticalLimit_only_if (f := .XYM3L) rfl (dip2_ok 1 0) (a := _) (b := _)
    (by simp only [singRows, singL]; rw [if_neg (by norm_num [uprightCtx])]) (by simp [setRow1])
    (by norm_num) (by norm_num [uprightCtx]) hi
    (fun j hj h0 => by interval_cases j <;> simp [uprightCtx, dip2] at h0 ⊢) (Or.inr (by norm_num))
    (xym3l_limits (by norm_num) hi).1 (xym3l_limits (by norm_num) hi).2 h
  have := congrFun (congrFun this 0) 0
  have hc : coeff (uprightCtx dip2 1 0) 2 = √10 := by
    simp only [coeff, Ctx.dmd, uprightCtx]
    norm_num
  simp only [covFromVec, hc] at this
  norm_num [setRow1, Ctx.dmd, Ctx.ct, Ctx.st, uprightCtx] at this
  nlinarith [sq_sqrt (show (0 : ℝ) ≤ 10 by norm_num)]

/-- **C211** is false of the code for XYM3L in a rev4 model: the first station below the surface counts
double. -/
theorem C211_xym3l_first : ¬ VerticalLimit .XYM3L (uprightCtx kick 100 0) 1 .random 1 := by
  intro h
  have hi : (uprightCtx kick 100 0).s.inc 1 = 0 := by simp [uprightCtx, kick]
  have := verticalLimit_only_if (f := .XYM3L) rfl (kick_ok 100 0) (a := _) (b := _)
    (by simp only [singRows, singL]; rw [if_neg (by norm_num [uprightCtx])]) (by simp [setRow1])
    (by norm_num) (by norm_num [uprightCtx]) hi (fun j hj h0 => by omega) (Or.inl rfl)
    (xym3l_limits (by norm_num) hi).1 (xym3l_limits (by norm_num) hi).2 h
  have := congrFun (congrFun this 0) 0
  have hc : coeff (uprightCtx kick 100 0) 1 = 1 :=
    coeff_of_far (by norm_num [Ctx.dmd, uprightCtx])
  simp only [covFromVec, hc] at this
  norm_num [setRow1, Ctx.dmd, Ctx.ct, Ctx.st, uprightCtx] at this

/-- The replacement for XYM3E and XYM4E at such a station is zero. -/
theorem xym3e_star_zero :
    eNEVStar (uprightCtx kick 100 (π / 2)).s
      (eDIA .XYM3E (uprightCtx kick 100 (π / 2)) 0 1) 1 0 = 0 := by
  rw [eNEVStar_turnRow _ _ (by norm_num) (Or.inl rfl) (replacing_depth rfl _ _ _ _)]
  simp [turnRow, uprightCtx, kick]

/-- **C211** is false of the code for XYM3E: nothing is reported at a vertical station recorded with
azimuth 90 degrees. -/
theorem C211_xym3e_east : ¬ VerticalLimit .XYM3E (uprightCtx kick 100 (π / 2)) 1 .random 1 := by
  intro h
  have hi : (uprightCtx kick 100 (π / 2)).s.inc 1 = 0 := by simp [uprightCtx, kick]
  have := verticalLimit_only_if (f := .XYM3E) rfl (kick_ok 100 (π / 2)) (a := _) (b := _)
    rfl (by simp [onlyComp, eNEV])
    (by norm_num) (by norm_num [uprightCtx]) hi (fun j hj h0 => by omega) (Or.inl rfl)
    (xym3e_limits (kick_ok 100 (π / 2)).1 (by norm_num) hi).1
    (xym3e_limits (kick_ok 100 (π / 2)).1 (by norm_num) hi).2 h
  have := congrFun (congrFun this 0) 0
  have hc : coeff (uprightCtx kick 100 (π / 2)) 1 = 1 :=
    coeff_of_far (by norm_num [Ctx.dmd, uprightCtx])
  have hz := xym3e_star_zero
  simp only [covFromVec, hc, onlyComp, show (uprightCtx kick 100 (π / 2)).tortuosity.getD 0 = 0 from rfl,
    hz] at this
  norm_num [Ctx.dmd, Ctx.ct, Ctx.st, uprightCtx] at this

/-- **C211** is false of the code for XYM4E: the same. -/
theorem C211_xym4e_east : ¬ VerticalLimit .XYM4E (uprightCtx kick 100 (π / 2)) 1 .random 1 := by
  intro h
  have hi : (uprightCtx kick 100 (π / 2)).s.inc 1 = 0 := by simp [uprightCtx, kick]
  have := verticalLimit_only_if (f := .XYM4E) rfl (kick_ok 100 (π / 2)) (a := _) (b := _)
    rfl (by simp [onlyComp, eNEV])
    (by norm_num) (by norm_num [uprightCtx]) hi (fun j hj h0 => by omega) (Or.inl rfl)
    (xym4e_limits (by norm_num) hi).1 (xym4e_limits (by norm_num) hi).2 h
  have := congrFun (congrFun this 1) 1
  have hc : coeff (uprightCtx kick 100 (π / 2)) 1 = 1 :=
    coeff_of_far (by norm_num [Ctx.dmd, uprightCtx])
  have hz := xym3e_star_zero
  simp only [covFromVec, hc, onlyComp, show (uprightCtx kick 100 (π / 2)).tortuosity.getD 0 = 0 from rfl,
    hz] at this
  norm_num [Ctx.dmd, Ctx.ct, Ctx.st, uprightCtx] at this

/-- **C211** is false of the code for a gyro azimuth source if the header's azimuth reference is grid: the
error is reported along the grid azimuth. -/
theorem C211_cna_grid : ¬ VerticalLimit .CNA (uprightCtx kick 100 (π / 2)) 1 .random 1 := by
  intro h
  have hi : (uprightCtx kick 100 (π / 2)).s.inc 1 = 0 := by simp [uprightCtx, kick]
  have := verticalLimit_only_if (f := .CNA) rfl (kick_ok 100 (π / 2)) (a := _) (b := _)
    rfl inner_zero
    (by norm_num) (by norm_num [uprightCtx]) hi (fun j hj h0 => by omega) (Or.inl rfl)
    (cna_limits hi).1 (cna_limits hi).2 h
  have := congrFun (congrFun this 0) 0
  simp only [covFromVec] at this
  rw [inner_inner (by norm_num) (by norm_num [uprightCtx])] at this
  norm_num [Ctx.dmd, Ctx.ct, Ctx.st, uprightCtx] at this

end Welleng.Props
