import Verif.Props.ErrorModel

/-!
Properties of the weighting functions: C60 (units), C61 (stations below do not
matter).
-/

namespace Welleng.Props

open Real Finset Spec Err

/-! ### C60 -/

/-- The physical quantity a source's magnitude is measured in, as the catalogues
state it: an acceleration, a magnetic flux density, an angle times a flux density, or
anything else (lengths, angles, ratios). -/
inductive Quantity | acceleration | field | other
  deriving DecidableEq

/-- Quantity of each source (`unit` entries of `tool_codes/*.yaml`: `m/s2`; `nT` and
`rad.nT`; all others). -/
def quantity : Func → Quantity
  | .ABIZ | .ABIXY_TI1 | .ABXY_TI1 | .ABIXY_TI2 | .ABXY_TI2 | .ABZ => .acceleration
  | .MBXY_TI1 | .MBIXY_TI1 | .MBXY_TI2 | .MBIXY_TI2 | .MBZ | .MFI | .DBH | .DBHR | .AMIL => .field
  | _ => .other

/-- Factor by which a magnitude changes when accelerations are expressed in a unit
`a` times smaller and flux densities in a unit `b` times smaller. -/
def unitFactor (a b : ℝ) : Quantity → ℝ
  | .acceleration => a
  | .field => b
  | .other => 1

/-- The same survey with gravity and magnetic field expressed in the other units. -/
def changeUnits (a b : ℝ) (c : Ctx) : Ctx := { c with
  G := a * c.G
  bTotal := b * c.bTotal }

theorem eDIA_changeUnits {a b : ℝ} (ha : a ≠ 0) (hb : b ≠ 0) {f : Func} (hf : f ≠ .ABIZ) (c : Ctx)
    (tort mag : ℝ) :
    eDIA f (changeUnits a b c) tort (unitFactor a b (quantity f) * mag) = eDIA f c tort mag := by
  have k1 : ∀ x y m : ℝ, x / (a * y) * (a * m) = x / y * m := fun x y m => by
    rw [div_mul_eq_mul_div, div_mul_eq_mul_div, mul_left_comm, mul_div_mul_left _ _ ha]
  have k2 : ∀ x y m : ℝ, x / (b * y) * (b * m) = x / y * m := fun x y m => by
    rw [div_mul_eq_mul_div, div_mul_eq_mul_div, mul_left_comm, mul_div_mul_left _ _ hb]
  funext k i
  cases f <;> first | contradiction | skip
  all_goals
    simp only [eDIA, quantity, unitFactor, one_mul]
  all_goals first
    | rfl
    | (fin_cases i <;>
        simp [dpde, changeUnits, Ctx.si, Ctx.ci, Ctx.sm, Ctx.cm, Ctx.mix, Ctx.funky, mul_assoc,
          k1, k2, inv_mul_cancel_left₀ hb, -mul_eq_mul_right_iff, -mul_eq_mul_left_iff])

theorem singABXY_changeUnits {a b : ℝ} (ha : a ≠ 0) (c : Ctx) (mag : ℝ) (patch : Bool) :
    singABXY (changeUnits a b c) (a * mag) patch = singABXY c mag patch := by
  have k1 : ∀ x y m : ℝ, x * (a * m) / (a * y) = x * m / y := fun x y m => by
    rw [mul_left_comm, mul_div_mul_left _ _ ha]
  have k2 : ∀ x y z m : ℝ, x * (a * m) * z / (a * y) = x * m * z / y := fun x y z m => by
    rw [mul_assoc x (a * m), mul_assoc a, k1, mul_assoc]
  have k3 : ∀ x y z m : ℝ, x * (a * m) * (z / (a * y)) = x * m * (z / y) := fun x y z m => by
    rw [mul_div_assoc', k2, mul_div_assoc']
  have hi : ∀ r, inner (changeUnits a b c) r = inner c r := fun r => rfl
  simp only [singABXY, hi, changeUnits, k1, k2, k3]
  rfl

theorem singRows_changeUnits {a b : ℝ} (ha : a ≠ 0) (hb : b ≠ 0) {f : Func} (c : Ctx)
    (tort mag : ℝ) :
    singRows f (changeUnits a b c) tort (unitFactor a b (quantity f) * mag)
      = singRows f c tort mag := by
  cases f <;> first
    | rfl
    | (simp only [singRows, quantity, unitFactor, one_mul]; rfl)
    | (simp only [singRows, quantity, unitFactor, singABXY_changeUnits ha]; done)
    | (simp only [singRows, quantity, unitFactor, singABXY_changeUnits ha]; rfl)
    | skip
  all_goals
    have := eDIA_changeUnits ha hb (f := .XYM3E) (by simp) c tort mag
    simp only [quantity, unitFactor, one_mul] at this
    simp only [singRows, quantity, unitFactor, one_mul, this]
    rfl

/-- **C60** (all sources but `ABIZ`): expressing gravity, magnetic field and the
source's magnitude in other units of acceleration and flux density does not change
anything the source contributes. -/
theorem C60_unit_independent_partial {a b : ℝ} (ha : a ≠ 0) (hb : b ≠ 0) {f : Func}
    (hf : f ≠ .ABIZ) (c : Ctx) (mag : ℝ) (p : Prop') :
    callFunc f (changeUnits a b c) (unitFactor a b (quantity f) * mag) p = callFunc f c mag p := by
  simp only [callFunc, show (changeUnits a b c).tortuosity = c.tortuosity from rfl,
    eDIA_changeUnits ha hb hf, singRows_changeUnits ha hb]
  rfl

/-- Two-station survey for the `ABIZ` witness: 45° inclined, magnetic azimuth 45°,
zero dip, unit gravity. -/
noncomputable def abizCtx : Ctx where
  s := { n := 2, md := fun k => 30 * k, inc := fun _ => π / 4, azi := fun _ => π / 2,
         rev4 := false }
  tvd := fun _ => 0
  aziMag := fun _ => π / 4
  aziGrid := fun _ => 0
  G := 1
  dip := 0
  bTotal := 1
  vlim := 0
  ref := .grid
  tortuosity := none

theorem abiz_cov (G mag : ℝ) (hG : 1e-6 < (3 / 4) / G) :
    ∃ t, callFunc .ABIZ { abizCtx with G := G } mag .systematic = .ok (some t) ∧
      t.cov 1 0 0 = (15 * √2 / 2 * ((√2 / 16 * 2) / (3 / 4 / G) * mag)) ^ 2 := by
  have h : callFunc .ABIZ { abizCtx with G := G } mag .systematic
      = .ok (generateError abizCtx.s (eDIA .ABIZ { abizCtx with G := G } 0 mag) .systematic none) := by
    simp [callFunc, singRows, Func.usesTortuosity, abizCtx, forcedProp]
  rw [h]
  simp only [generateError, propagate, Option.map_some]
  refine ⟨_, rfl, ?_⟩
  have hf : (1 : ℝ) - (√2 / 2) ^ 2 * (√2 / 2) ^ 2 = 3 / 4 := by
    have : √(2:ℝ) ^ 2 = 2 := Real.sq_sqrt (by norm_num)
    rw [div_pow, this]; norm_num
  have e1 : eDIA .ABIZ { abizCtx with G := G } 0 mag 1 2
      = ((√2 / 16 * 2) / (3 / 4 / G)) * mag := by
    have h2 : √(2:ℝ) ^ 2 = 2 := Real.sq_sqrt (by norm_num)
    simp only [eDIA, dpde, Ctx.funky, abizCtx, sin_pi_div_four, cos_pi_div_four, hf, Ctx.si, Ctx.ci,
      Ctx.sm, Ctx.mix, Real.tan_zero]
    rw [if_pos hG]
    simp only [Matrix.cons_val]
    have : √2 / 2 * (√2 / 2) * (√2 / 2) * (0 * (√2 / 2) + √2 / 2 * (√2 / 2))
        = √2 / 16 * (2:ℝ) := by
      have : √2 / 2 * (√2 / 2) * (√2 / 2) * (0 * (√2 / 2) + √2 / 2 * (√2 / 2))
        = (√(2:ℝ)^2)*(√(2:ℝ)^2) * √2 / 32 := by ring
      rw [this, h2]; ring
    rw [this]
  have e0 : eDIA .ABIZ { abizCtx with G := G } 0 mag 1 0 = 0 := by simp [eDIA, dpde]
  have hstar : eNEVStar abizCtx.s (eDIA .ABIZ { abizCtx with G := G } 0 mag) 1 0
      = -(15 * √2 / 2 * ((√2 / 16 * 2) / (3 / 4 / G) * mag)) := by
    simp only [eNEVStar, one_ne_zero, if_false, e0, e1, Matrix.cons_val_zero]
    simp [drdp, abizCtx, -mul_eq_mul_right_iff, -mul_eq_mul_left_iff]
    ring
  have hsig : sigmaSystematic (eNEV abizCtx.s (eDIA .ABIZ { abizCtx with G := G } 0 mag))
      (eNEVStar abizCtx.s (eDIA .ABIZ { abizCtx with G := G } 0 mag)) 1 0
      = -(15 * √2 / 2 * ((√2 / 16 * 2) / (3 / 4 / G) * mag)) := by
    simp only [sigmaSystematic, one_ne_zero, if_false, Finset.sum_range_one, Pi.add_apply, hstar]
    simp [eNEV]
  simp only [covFromVec, Matrix.of_apply, hsig]
  ring

/-- **C60** is false for `ABIZ` (axial accelerometer bias with axial-interference
correction), which divides by `(1 - sin²I sin²A) / G` instead of
`G (1 - sin²I sin²A)`: doubling the number that expresses both gravity and the bias
changes the variance by a factor of 16 instead of leaving it alone. -/
theorem C60_abiz_depends_on_unit :
    ∃ t t', callFunc .ABIZ abizCtx 1 .systematic = .ok (some t) ∧
      callFunc .ABIZ (changeUnits 2 1 abizCtx) (unitFactor 2 1 (quantity .ABIZ) * 1) .systematic
        = .ok (some t') ∧
      0 < t.cov 1 0 0 ∧ t'.cov 1 0 0 = 16 * t.cov 1 0 0 := by
  obtain ⟨t, ht, hc⟩ := abiz_cov 1 1 (by norm_num)
  obtain ⟨t', ht', hc'⟩ := abiz_cov 2 2 (by norm_num)
  refine ⟨t, t', ht, ?_, ?_, ?_⟩
  · have : changeUnits 2 1 abizCtx = { abizCtx with G := 2 } := by
      simp [changeUnits, abizCtx]
    rw [this]; simpa [unitFactor, quantity] using ht'
  · rw [hc]; positivity
  · rw [hc, hc']; ring

/-! ### C61 -/

/-- Two surveys that agree on everything down to station `k`; below they may differ,
and either may end. -/
structure AgreeTo (k : ℕ) (c c' : Ctx) : Prop where
  md : ∀ j ≤ k, c.s.md j = c'.s.md j
  inc : ∀ j ≤ k, c.s.inc j = c'.s.inc j
  azi : ∀ j ≤ k, c.s.azi j = c'.s.azi j
  tvd : ∀ j ≤ k, c.tvd j = c'.tvd j
  aziMag : ∀ j ≤ k, c.aziMag j = c'.aziMag j
  aziGrid : ∀ j ≤ k, c.aziGrid j = c'.aziGrid j
  rev4 : c.s.rev4 = c'.s.rev4
  header : c.G = c'.G ∧ c.dip = c'.dip ∧ c.bTotal = c'.bTotal ∧ c.vlim = c'.vlim ∧
    c.ref = c'.ref ∧ c.tortuosity = c'.tortuosity
  lt : k < c.s.n
  lt' : k < c'.s.n

theorem propagate_congr {p : Prop'} {e es e' es' : ℕ → V} {k : ℕ} {m m' : ℕ → M3}
    (h : propagate p e es = some m) (h' : propagate p e' es' = some m')
    (hs : es k = es' k) (he : ∀ j < k, e j = e' j) (h0 : e 0 = e' 0) : m k = m' k := by
  have hsum : ∀ g : V → M3, ∑ j ∈ range k, g (e j) = ∑ j ∈ range k, g (e' j) := fun g =>
    Finset.sum_congr rfl fun j hj => by rw [he j (Finset.mem_range.1 hj)]
  have hsum' : ∑ j ∈ range k, e j = ∑ j ∈ range k, e' j :=
    Finset.sum_congr rfl fun j hj => by rw [he j (Finset.mem_range.1 hj)]
  cases p <;> simp only [propagate, Option.some.injEq, reduceCtorEq] at h h' <;> subst h <;>
    subst h'
  · simp only [hs, hsum covFromVec]
  all_goals simp only [sigmaSystematic, hs, h0, hsum']

theorem drdp_congr {k : ℕ} {c c' : Ctx} (h : AgreeTo k c c') {j : ℕ} (hj : j < k) :
    drdp c.s j = drdp c'.s j := by
  have e1 := h.md; have e2 := h.inc; have e3 := h.azi
  have n1 : j + 1 < c.s.n := by have := h.lt; omega
  have n2 : j + 1 < c'.s.n := by have := h.lt'; omega
  simp only [drdp, n1, n2, if_true, h.rev4, e1 j (by omega), e1 (j + 1) (by omega),
    e1 (j - 1) (by omega), e2 j (by omega), e2 (j + 1) (by omega), e2 (j - 1) (by omega),
    e3 j (by omega), e3 (j + 1) (by omega), e3 (j - 1) (by omega)]
  by_cases h1 : 1 ≤ j
  · have hj1 : j - 1 + 1 = j := by omega
    simp only [hj1, e1 j (by omega), e2 j (by omega), e3 j (by omega)]
  · simp only [h1, if_false]

theorem eNEV_congr {k : ℕ} {c c' : Ctx} (h : AgreeTo k c c') {e e' : ℕ → V} {j : ℕ} (hj : j < k)
    (he : 1 ≤ j → e j = e' j) : eNEV c.s e j = eNEV c'.s e' j := by
  simp only [eNEV]
  split
  · rfl
  · rw [drdp_congr h hj, he (by omega)]

theorem eNEVStar_congr {k : ℕ} {c c' : Ctx} (h : AgreeTo k c c') {e e' : ℕ → V} {j : ℕ}
    (hj : j ≤ k) (he : 1 ≤ j → e j = e' j) : eNEVStar c.s e j = eNEVStar c'.s e' j := by
  simp only [eNEVStar]
  split
  · rfl
  · rename_i h0
    have e1 := h.md; have e2 := h.inc; have e3 := h.azi
    have hj1 : j - 1 + 1 = j := by omega
    rw [he (by omega)]
    simp only [drdp, h.rev4, hj1, Matrix.cons_val, e1 j hj, e1 (j - 1) (by omega), e2 j hj,
      e2 (j - 1) (by omega), e3 j hj, e3 (j - 1) (by omega)]

theorem coeff_congr {k : ℕ} {c c' : Ctx} (h : AgreeTo k c c') {j : ℕ} (hj : j ≤ k) :
    coeff c j = coeff c' j := by
  simp only [coeff, Ctx.dmd, h.md j hj, h.md (j - 1) (by omega)]

theorem eDIA_congr {k : ℕ} {c c' : Ctx} (h : AgreeTo k c c') (f : Func) (tort mag : ℝ) {j : ℕ}
    (hj : j ≤ k) (h1 : 1 ≤ j) : eDIA f c tort mag j = eDIA f c' tort mag j := by
  have hG := h.header
  have c1 := h.md j hj
  have c1' := h.md (j - 1) (by omega)
  have c2 := h.inc j hj
  have c2' := h.inc (j - 1) (by omega)
  have c3 := h.azi j hj
  have c3' := h.azi (j - 1) (by omega)
  have c4 := h.tvd j hj
  have c5 := h.aziMag j hj
  have c6 := coeff_congr h hj
  obtain ⟨g1, g2, g3, g4, g5, g6⟩ := hG
  have h0 : j ≠ 0 := by omega
  funext i
  simp only [eDIA]
  congr 1
  cases f <;> simp only [dpde, Ctx.si, Ctx.ci, Ctx.sm, Ctx.cm, Ctx.st, Ctx.ct, Ctx.mix, Ctx.funky,
    Ctx.dmd, xclaDelta, c1, c1', c2, c2', c3, c3', c4, c5, c6, g1, g2, g3, g4, h0, if_false]
  all_goals congr!

/-- Sources whose replacement rows at near-vertical stations leave out the last
station. -/
def dropsLast : Func → Bool
  | .ABIXY_TI2 | .ABXY_TI2 | .CNA | .XYM3 | .XYM4 => true
  | _ => false

theorem singRows_congr {k : ℕ} {c c' : Ctx} (h : AgreeTo k c c') {f : Func} {tort mag : ℝ}
    {a b a' b' : ℕ → V} (hr : singRows f c tort mag = some (.ok (a, b)))
    (hr' : singRows f c' tort mag = some (.ok (a', b'))) :
    (∀ j < k, a j = a' j) ∧ a 0 = 0 ∧ a' 0 = 0 ∧
    ((dropsLast f = true → k + 1 < c.s.n ∧ k + 1 < c'.s.n) → b k = b' k) := by
  have n1 := h.lt
  have n2 := h.lt'
  obtain ⟨g1, g2, g3, g4, g5, g6⟩ := h.header
  have d1 : ∀ j ≤ k, c.dmd j = c'.dmd j := fun j hj => by
    simp only [Ctx.dmd, h.md j hj, h.md (j - 1) (by omega)]
  have d2 : ∀ j < k, c.dmd2 j = c'.dmd2 j := fun j hj => by
    simp only [Ctx.dmd2, h.md (j + 1) (by omega), h.md (j - 1) (by omega)]
  have t1 : ∀ j ≤ k, c.st j = c'.st j := fun j hj => by simp only [Ctx.st, h.azi j hj]
  have t2 : ∀ j ≤ k, c.ct j = c'.ct j := fun j hj => by simp only [Ctx.ct, h.azi j hj]
  have hin : ∀ (r r' : ℕ → V), (∀ j < k, r j = r' j) → ∀ j < k, inner c r j = inner c' r' j := by
    intro r r' hrr j hj
    have m1 : j + 1 ≠ c.s.n := by omega
    have m2 : j + 1 ≠ c'.s.n := by omega
    simp only [Err.inner, m1, m2, or_false, hrr j hj]
  have hin' : ∀ (r r' : ℕ → V), (k + 1 < c.s.n ∧ k + 1 < c'.s.n) → (r k = r' k) →
      inner c r k = inner c' r' k := by
    intro r r' hk hrr
    have m1 : k + 1 ≠ c.s.n := by omega
    have m2 : k + 1 ≠ c'.s.n := by omega
    simp only [Err.inner, m1, m2, or_false, hrr]
  have hin0 : ∀ (c : Ctx) (r : ℕ → V), inner c r 0 = 0 := fun c r => by simp [Err.inner]
  have hset : ∀ (r r' : ℕ → V) (i : Fin 3) (x x' : ℝ) (j : ℕ), r j = r' j → (j = 1 → x = x') →
      setRow1 r i x j = setRow1 r' i x' j := by
    intro r r' i x x' j hrr hx
    simp only [setRow1]
    split
    · rename_i h1; rw [hrr, hx h1]
    · exact hrr
  have hset0 : ∀ (r : ℕ → V) (i : Fin 3) (x : ℝ), setRow1 r i x 0 = r 0 := fun r i x => by
    simp [setRow1]
  have hAB : ∀ patch, singABXY c mag patch = .ok (a, b) → singABXY c' mag patch = .ok (a', b') →
      (∀ j < k, a j = a' j) ∧ a 0 = 0 ∧ a' 0 = 0 ∧
      ((k + 1 < c.s.n ∧ k + 1 < c'.s.n) → b k = b' k) := by
    intro patch e e'
    simp only [singABXY] at e e'
    cases patch
    · simp only [Bool.false_eq_true, if_false, Except.ok.injEq, Prod.mk.injEq] at e e'
      obtain ⟨rfl, rfl⟩ := e
      obtain ⟨rfl, rfl⟩ := e'
      refine ⟨hin _ _ fun j hj => ?_, hin0 _ _, hin0 _ _, fun hk => hin' _ _ hk ?_⟩
      · simp only [d2 j hj, t1 j hj.le, t2 j hj.le, g1]
      · simp only [d1 k le_rfl, t1 k le_rfl, t2 k le_rfl, g1]
    · simp only [if_true] at e e'
      split at e
      · simp at e
      split at e'
      · simp at e'
      simp only [Except.ok.injEq, Prod.mk.injEq] at e e'
      obtain ⟨rfl, rfl⟩ := e
      obtain ⟨rfl, rfl⟩ := e'
      refine ⟨fun j hj => hset _ _ _ _ _ _ (hin _ _ (fun j hj => ?_) j hj) fun h1 => ?_,
        by rw [hset0, hin0], by rw [hset0, hin0], fun hk => hset _ _ _ _ _ _ (hin' _ _ hk ?_)
        fun h1 => ?_⟩
      · simp only [d2 j hj, t1 j hj.le, t2 j hj.le, g1]
      · simp only [h.md 2 (by omega), h.md 1 (by omega), h.md 0 (by omega), h.azi 1 (by omega), g1]
      · simp only [d1 k le_rfl, t1 k le_rfl, t2 k le_rfl, g1]
      · simp only [h.md 1 (by omega), h.md 0 (by omega), h.azi 1 (by omega), g1]
  have hL : ∀ i co co', (1 < k → co = co') → singL c mag i co = .ok (a, b) →
      singL c' mag i co' = .ok (a', b') →
      (∀ j < k, a j = a' j) ∧ a 0 = 0 ∧ a' 0 = 0 ∧ b k = b' k := by
    intro i co co' hco e e'
    simp only [singL] at e e'
    split at e
    · simp at e
    split at e'
    · simp at e'
    simp only [Except.ok.injEq, Prod.mk.injEq] at e e'
    obtain ⟨rfl, rfl⟩ := e
    obtain ⟨rfl, rfl⟩ := e'
    refine ⟨fun j hj => hset _ _ _ _ _ _ ?_ fun h1 => ?_, by simp [hset0], by simp [hset0],
      hset _ _ _ _ _ _ ?_ fun h1 => ?_⟩
    · have m1 : j + 1 ≠ c.s.n := by omega
      have m2 : j + 1 ≠ c'.s.n := by omega
      simp only [m1, m2, if_false, coeff_congr h hj.le, d2 j hj]
    · rw [hco (by omega), h.md 2 (by omega), h.md 1 (by omega), h.md 0 (by omega)]
    · simp only [d1 k le_rfl]
    · rw [h.md 1 (by omega), h.md 0 (by omega)]
  have he : ∀ j ≤ k, 1 ≤ j → eDIA .XYM3E c tort mag j = eDIA .XYM3E c' tort mag j :=
    fun j hj h1 => eDIA_congr h _ _ _ hj h1
  cases f <;> simp only [singRows, reduceCtorEq, Option.some.injEq] at hr hr'
  case ABIXY_TI2 => simpa [dropsLast] using hAB _ hr hr'
  case ABXY_TI2 =>
    rw [h.rev4] at hr
    simpa [dropsLast] using hAB _ hr hr'
  case CNA =>
    simp only [cnaAzi] at hr hr'
    rw [g5] at hr
    have hz : ∀ (z z' : ℕ → ℝ), (∀ j ≤ k, z j = z' j) →
        (inner c fun k => ![0.5 * c.dmd2 k * -sin (z k) * mag, 0.5 * c.dmd2 k * cos (z k) * mag, 0],
         inner c fun k => ![0.5 * c.dmd k * -sin (z k) * mag, 0.5 * c.dmd k * cos (z k) * mag, 0])
          = (a, b) →
        (inner c' fun k =>
           ![0.5 * c'.dmd2 k * -sin (z' k) * mag, 0.5 * c'.dmd2 k * cos (z' k) * mag, 0],
         inner c' fun k =>
           ![0.5 * c'.dmd k * -sin (z' k) * mag, 0.5 * c'.dmd k * cos (z' k) * mag, 0])
          = (a', b') →
        (∀ j < k, a j = a' j) ∧ a 0 = 0 ∧ a' 0 = 0 ∧
          ((k + 1 < c.s.n ∧ k + 1 < c'.s.n) → b k = b' k) := by
      intro z z' hzz e e'
      simp only [Prod.mk.injEq] at e e'
      obtain ⟨rfl, rfl⟩ := e
      obtain ⟨rfl, rfl⟩ := e'
      refine ⟨hin _ _ fun j hj => ?_, hin0 _ _, hin0 _ _, fun hk => hin' _ _ hk ?_⟩
      · simp only [d2 j hj, hzz j hj.le]
      · simp only [d1 k le_rfl, hzz k le_rfl]
    cases href : c'.ref <;> simp only [href, Except.ok.injEq, reduceCtorEq] at hr hr'
    · simpa [dropsLast] using hz _ _ h.aziGrid hr hr'
    · simpa [dropsLast] using hz _ _ h.azi hr hr'
  case XYM3 | XYM4 =>
    simp only [Except.ok.injEq, Prod.mk.injEq] at hr hr'
    obtain ⟨rfl, rfl⟩ := hr
    obtain ⟨rfl, rfl⟩ := hr'
    refine ⟨hin _ _ fun j hj => ?_, hin0 _ _, hin0 _ _, fun hk => hin' _ _ (hk rfl) ?_⟩
    · simp only [d2 j hj]
    · simp only [d1 k le_rfl]
  case XYM3E | XYM4E =>
    simp only [Except.ok.injEq, Prod.mk.injEq] at hr hr'
    obtain ⟨rfl, rfl⟩ := hr
    obtain ⟨rfl, rfl⟩ := hr'
    refine ⟨fun j hj => ?_, by simp [onlyComp, eNEV], by simp [onlyComp, eNEV], fun _ => ?_⟩
    · simp only [onlyComp]; rw [eNEV_congr h hj (he j hj.le)]
    · simp only [onlyComp]; rw [eNEVStar_congr h le_rfl (he k le_rfl)]
  case XYM3L =>
    have := hL 0 _ _ (fun h1 => coeff_congr h (by omega)) hr hr'
    exact ⟨this.1, this.2.1, this.2.2.1, fun _ => this.2.2.2⟩
  case XYM4L =>
    have := hL 1 _ _ (fun h1 => coeff_congr h (by omega)) hr hr'
    exact ⟨this.1, this.2.1, this.2.2.1, fun _ => this.2.2.2⟩

/-- What a successful call computes: error vectors that agree with the plain ones
except at near-vertical stations of a source with replacement rows. -/
theorem callFunc_form {f : Func} {c : Ctx} {mag : ℝ} {p : Prop'} {t : Term}
    (ht : callFunc f c mag p = .ok (some t)) :
    ∃ e es, propagate (forcedProp f p) e es = some t.cov ∧
      ((f = .XCLA ∨ f = .XCLH) → e = eDIA f c (c.tortuosity.getD 0) mag ∧ es = e) ∧
      (¬(f = .XCLA ∨ f = .XCLH) →
        (∃ a b, singRows f c (c.tortuosity.getD 0) mag = some (.ok (a, b)) ∧
          (∃ k < c.s.n, c.s.inc k < c.vlim) ∧
          e = replaceSing c (eNEV c.s (eDIA f c (c.tortuosity.getD 0) mag)) a ∧
          es = replaceSing c (eNEVStar c.s (eDIA f c (c.tortuosity.getD 0) mag)) b) ∨
        (singRows f c (c.tortuosity.getD 0) mag = none ∨ ¬∃ k < c.s.n, c.s.inc k < c.vlim) ∧
          e = eNEV c.s (eDIA f c (c.tortuosity.getD 0) mag) ∧
          es = eNEVStar c.s (eDIA f c (c.tortuosity.getD 0) mag)) := by
  simp only [callFunc] at ht
  split at ht
  · simp at ht
  split at ht
  · rename_i hx
    simp only [Except.ok.injEq, generateError, Option.map_eq_some_iff] at ht
    obtain ⟨m, hm, rfl⟩ := ht
    exact ⟨_, _, hm, fun _ => ⟨rfl, rfl⟩, fun h => absurd hx h⟩
  · rename_i hx
    split at ht
    · rename_i hn
      simp only [Except.ok.injEq, generateError, Option.map_eq_some_iff] at ht
      obtain ⟨m, hm, rfl⟩ := ht
      exact ⟨_, _, hm, fun h => absurd h hx, fun _ => Or.inr ⟨Or.inl hn, rfl, rfl⟩⟩
    · rename_i r hr
      split at ht
      · rename_i hs
        split at ht
        · simp at ht
        · split at ht
          · simp at ht
          · rename_i a b
            simp only [Except.ok.injEq, generateError, Option.map_eq_some_iff] at ht
            obtain ⟨m, hm, rfl⟩ := ht
            exact ⟨_, _, hm, fun h => absurd h hx, fun _ => Or.inl ⟨a, b, hr, hs, rfl, rfl⟩⟩
      · rename_i hs
        simp only [Except.ok.injEq, generateError, Option.map_eq_some_iff] at ht
        obtain ⟨m, hm, rfl⟩ := ht
        exact ⟨_, _, hm, fun h => absurd h hx, fun _ => Or.inr ⟨Or.inr hs, rfl, rfl⟩⟩

/-- **C61** The covariance of a source at a station does not change when stations are
added below it, or those below it change: it only depends on the stations down to
that one.  Holds for every source and propagation unless the station is both
near-vertical and the last one, for the five sources of `dropsLast`
(see `C61_last_vertical_station_wrong`). -/
theorem C61_causal_partial {k : ℕ} {c c' : Ctx} (h : AgreeTo k c c') {f : Func} {mag : ℝ}
    {p : Prop'} {t t' : Term}
    (hv : dropsLast f = true → c.vlim ≤ c.s.inc k ∨ (k + 1 < c.s.n ∧ k + 1 < c'.s.n))
    (ht : callFunc f c mag p = .ok (some t)) (ht' : callFunc f c' mag p = .ok (some t')) :
    t.cov k = t'.cov k := by
  obtain ⟨e, es, hp, hx, hy⟩ := callFunc_form ht
  obtain ⟨e', es', hp', hx', hy'⟩ := callFunc_form ht'
  have htort : c.tortuosity = c'.tortuosity := h.header.2.2.2.2.2
  have hvl : c.vlim = c'.vlim := h.header.2.2.2.1
  rw [← htort] at hx' hy'
  set tort := c.tortuosity.getD 0
  have hd : ∀ j ≤ k, 1 ≤ j → eDIA f c tort mag j = eDIA f c' tort mag j :=
    fun j hj h1 => eDIA_congr h _ _ _ hj h1
  have hN : ∀ j < k, eNEV c.s (eDIA f c tort mag) j = eNEV c'.s (eDIA f c' tort mag) j :=
    fun j hj => eNEV_congr h hj (hd j hj.le)
  have hS : eNEVStar c.s (eDIA f c tort mag) k = eNEVStar c'.s (eDIA f c' tort mag) k :=
    eNEVStar_congr h le_rfl (hd k le_rfl)
  have hN0 : ∀ (s : Sv) e, eNEV s e 0 = 0 := fun s e => by simp [eNEV]
  by_cases hX : f = .XCLA ∨ f = .XCLH
  · obtain ⟨rfl, rfl⟩ := hx hX
    obtain ⟨rfl, rfl⟩ := hx' hX
    have h0 : ∀ c : Ctx, eDIA f c tort mag 0 = 0 := fun c => by
      funext i
      rcases hX with rfl | rfl <;> simp [eDIA, dpde]
    have hall : ∀ j ≤ k, eDIA f c tort mag j = eDIA f c' tort mag j := fun j hj => by
      by_cases hj0 : j = 0
      · rw [hj0, h0, h0]
      · exact hd j hj (by omega)
    exact propagate_congr hp hp' (hall k le_rfl) (fun j hj => hall j hj.le) (by rw [h0, h0])
  · have hi : ∀ j ≤ k, (c.s.inc j < c.vlim ↔ c'.s.inc j < c'.vlim) := fun j hj => by
      rw [h.inc j hj, hvl]
    rcases hy hX with ⟨a, b, hr, _, rfl, rfl⟩ | ⟨hn, rfl, rfl⟩ <;>
      rcases hy' hX with ⟨a', b', hr', _, rfl, rfl⟩ | ⟨hn', rfl, rfl⟩
    · obtain ⟨ha, ha0, ha0', hb⟩ := singRows_congr h hr hr'
      refine propagate_congr hp hp' ?_ (fun j hj => ?_) ?_
      · simp only [replaceSing, hi k le_rfl]
        split
        · rename_i hlt
          refine hb fun hdl => ?_
          rcases hv hdl with hv | hv
          · exact absurd ((hi k le_rfl).2 hlt) (not_lt.2 hv)
          · exact hv
        · exact hS
      · simp only [replaceSing, hi j hj.le, ha j hj, hN j hj]
      · simp only [replaceSing, hN0, ha0, ha0', ite_self]
    · have hno : ∀ j ≤ k, ¬ c.s.inc j < c.vlim := by
        rcases hn' with hn' | hn'
        · exfalso; cases f <;> simp [singRows] at hr hn'
        · intro j hj hlt
          exact hn' ⟨j, by have := h.lt'; omega, (hi j hj).1 hlt⟩
      refine propagate_congr hp hp' ?_ (fun j hj => ?_) ?_
      · simp only [replaceSing, if_neg (hno k le_rfl), hS]
      · simp only [replaceSing, if_neg (hno j hj.le), hN j hj]
      · simp only [replaceSing, if_neg (hno 0 (by omega)), hN0]
    · have hno : ∀ j ≤ k, ¬ c'.s.inc j < c'.vlim := by
        rcases hn with hn | hn
        · exfalso; cases f <;> simp [singRows] at hr' hn
        · intro j hj hlt
          exact hn ⟨j, by have := h.lt; omega, (hi j hj).2 hlt⟩
      refine propagate_congr hp hp' ?_ (fun j hj => ?_) ?_
      · simp only [replaceSing, if_neg (hno k le_rfl), hS]
      · simp only [replaceSing, if_neg (hno j hj.le), hN j hj]
      · simp only [replaceSing, if_neg (hno 0 (by omega)), hN0]
    · exact propagate_congr hp hp' hS hN (by rw [hN0, hN0])

/-- A vertical survey with `n` stations 30 m apart. -/
noncomputable def vertCtx (n : ℕ) : Ctx :=
  { exCtx with s := { exSv with n := n } }

theorem vert_agree (n m k : ℕ) (h : k < n) (h' : k < m) : AgreeTo k (vertCtx n) (vertCtx m) :=
  ⟨fun _ _ => rfl, fun _ _ => rfl, fun _ _ => rfl, fun _ _ => rfl, fun _ _ => rfl, fun _ _ => rfl,
    rfl, ⟨rfl, rfl, rfl, rfl, rfl, rfl⟩, h, h'⟩

theorem vert_xym3 (n : ℕ) (hn : 0 < n) : ∃ t, callFunc .XYM3 (vertCtx n) 1 .systematic = .ok (some t) ∧
    ∀ k, t.cov k = covFromVec (sigmaSystematic
      (Err.inner (vertCtx n) fun k => ![0.5 * (vertCtx n).dmd2 k, 0, 0])
      (Err.inner (vertCtx n) fun k => ![0.5 * (vertCtx n).dmd k, 0, 0]) k) := by
  have hs : ∃ k < (vertCtx n).s.n, (vertCtx n).s.inc k < (vertCtx n).vlim :=
    ⟨0, hn, by norm_num [vertCtx, exCtx, exSv]⟩
  have hrep : ∀ a b, replaceSing (vertCtx n) a b = b := fun a b => by
    funext k
    have : (vertCtx n).s.inc k < (vertCtx n).vlim := by norm_num [vertCtx, exCtx, exSv]
    simp [replaceSing, this]
  simp only [callFunc, singRows, hs, hrep, forcedProp, Func.usesTortuosity, if_true, mul_one]
  simp [generateError, propagate]

/-- **C61** fails at a near-vertical last station for the misalignment source `XYM3`:
the north standard deviation (per unit magnitude) at the third station of a vertical
survey is 30 m when the survey ends there and 45 m when one more station follows. -/
theorem C61_last_vertical_station_wrong :
    ∃ t t', callFunc .XYM3 (vertCtx 3) 1 .systematic = .ok (some t) ∧
      callFunc .XYM3 (vertCtx 4) 1 .systematic = .ok (some t') ∧
      AgreeTo 2 (vertCtx 3) (vertCtx 4) ∧
      t.cov 2 0 0 = 30 ^ 2 ∧ t'.cov 2 0 0 = 45 ^ 2 := by
  obtain ⟨t, ht, hc⟩ := vert_xym3 3 (by norm_num)
  obtain ⟨t', ht', hc'⟩ := vert_xym3 4 (by norm_num)
  refine ⟨t, t', ht, ht', vert_agree _ _ _ (by norm_num) (by norm_num), ?_, ?_⟩
  · rw [hc]
    simp [covFromVec, sigmaSystematic, Err.inner, Finset.sum_range_succ, vertCtx, exCtx, exSv,
      Ctx.dmd2, Ctx.dmd]
    norm_num
  · rw [hc']
    simp [covFromVec, sigmaSystematic, Err.inner, Finset.sum_range_succ, vertCtx, exCtx, exSv,
      Ctx.dmd2, Ctx.dmd]
    norm_num

end Welleng.Props
