import Verif.Props.RefinedTool

/-!
C375: a station that is recorded twice.
-/

namespace Welleng.Props

open Real Finset Spec Err

/-- The station of which station `k` is a copy if station `i` is recorded twice. -/
def copyOf (i k : ℕ) : ℕ := if k ≤ i then k else k - 1

/-- The survey in which station `i` is recorded twice. -/
def repeatAt (i : ℕ) (c : Ctx) : Ctx := { c with
  s := { c.s with
    n := c.s.n + 1
    md := fun k => c.s.md (copyOf i k)
    inc := fun k => c.s.inc (copyOf i k)
    azi := fun k => c.s.azi (copyOf i k) }
  tvd := fun k => c.tvd (copyOf i k)
  aziMag := fun k => c.aziMag (copyOf i k)
  aziGrid := fun k => c.aziGrid (copyOf i k) }

/-- The sources with weights that grow as the distance to the station above shrinks. -/
def overLength : Func → Bool
  | .XYM3E | .XYM4E | .XYM3L | .XYM4L => true
  | _ => false

theorem copyOf_le {i k : ℕ} (h : k ≤ i) : copyOf i k = k := if_pos h

theorem copyOf_succ {i k : ℕ} (h : i ≤ k) : copyOf i (k + 1) = k := by
  rw [copyOf, if_neg (by omega)]; rfl

/-- What the error vectors of the second survey have to do with those of the first. -/
structure RowsRep (i : ℕ) (x x' : (ℕ → V) × (ℕ → V)) : Prop where
  above : ∀ k < i, x'.1 k = x.1 k
  aboveStar : ∀ k ≤ i, x'.2 k = x.2 k
  below : ∀ k, i < k → x'.1 (k + 1) = x.1 k ∧ x'.2 (k + 1) = x.2 k
  both : x'.1 i + x'.1 (i + 1) = x.1 i
  copy : x'.1 i + x'.2 (i + 1) = x.2 i

theorem sigma_rep {i : ℕ} (hi : 1 ≤ i) {x x' : (ℕ → V) × (ℕ → V)} (h : RowsRep i x x') (k : ℕ) :
    sigmaSystematic x'.1 x'.2 k = sigmaSystematic x.1 x.2 (copyOf i k) := by
  have hs : ∀ k ≤ i, ∑ j ∈ range k, x'.1 j = ∑ j ∈ range k, x.1 j := fun k hk =>
    sum_above (i := i) h.above hk
  rcases Nat.lt_or_ge i k with hk | hk
  · obtain ⟨m, rfl⟩ := Nat.exists_eq_add_of_le (show i + 1 ≤ k by omega)
    rw [show i + 1 + m = i + m + 1 by omega, copyOf_succ (by omega)]
    simp only [sigmaSystematic, if_neg (show i + m + 1 ≠ 0 by omega), if_neg (show i + m ≠ 0 by omega)]
    cases m with
    | zero =>
      simp only [Nat.add_zero]
      rw [Finset.sum_range_succ, hs i le_rfl, ← h.copy]
      abel
    | succ m =>
      have hb : ∀ m, ∑ j ∈ range (i + (m + 1) + 1), x'.1 j = ∑ j ∈ range (i + (m + 1)), x.1 j := by
        intro m
        induction m with
        | zero =>
          rw [show i + (0 + 1) + 1 = i + 1 + 1 by omega, Finset.sum_range_succ, Finset.sum_range_succ,
            hs i le_rfl, show i + (0 + 1) = i + 1 by omega, Finset.sum_range_succ, ← h.both]
          abel
        | succ m ih =>
          rw [Finset.sum_range_succ, show i + (m + 1 + 1) = i + (m + 1) + 1 by omega, ih,
            (h.below (i + (m + 1)) (by omega)).1, Finset.sum_range_succ]
      rw [hb m, (h.below (i + (m + 1)) (by omega)).2]
  · rw [copyOf_le hk]
    simp only [sigmaSystematic, h.aboveStar k hk, hs k hk]
    split_ifs with h0
    · rw [h.above 0 (by omega)]
    · rfl

section
variable {i : ℕ} (c : Ctx) (hi : 1 ≤ i) (hn : i + 1 < c.s.n)
include hi hn

theorem drdp_rep_below {k : ℕ} (hk : i < k) : drdp (repeatAt i c).s (k + 1) = drdp c.s k := by
  have o1 : copyOf i (k + 1) = k := copyOf_succ hk.le
  have o2 : copyOf i (k + 1 + 1) = k + 1 := copyOf_succ (by omega)
  have o3 : copyOf i k = k - 1 := if_neg (by omega)
  have hkk : k - 1 + 1 = k := by omega
  have e1 : (k + 1 + 1 < c.s.n + 1) = (k + 1 < c.s.n) := by simp
  have e3 : (1 ≤ k + 1) = (1 ≤ k) := by apply propext; omega
  have e4 : (k + 1 == 1) = (k == 1) := by
    rw [Bool.eq_iff_iff]; simp; omega
  funext j
  simp only [drdp, repeatAt, o1, o2, o3, hkk, Nat.add_sub_cancel, e1, e3, e4]

theorem drdp_rep_above {k : ℕ} (hk : k < i) : drdp (repeatAt i c).s k = drdp c.s k := by
  have o1 : copyOf i k = k := copyOf_le hk.le
  have o2 : copyOf i (k + 1) = k + 1 := copyOf_le hk
  have o3 : copyOf i (k - 1) = k - 1 := copyOf_le (by omega)
  have o4 : copyOf i (k - 1 + 1) = k - 1 + 1 := copyOf_le (by omega)
  have e1 : k + 1 < c.s.n + 1 := by omega
  have e2 : k + 1 < c.s.n := by omega
  funext j
  simp only [drdp, repeatAt, o1, o2, o3, o4, e1, e2]

/-- Sources without replacement rows. -/
theorem plain_rep {e e' : ℕ → V} (he : ∀ k, e' k = e (copyOf i k)) :
    RowsRep i (eNEV c.s e, eNEVStar c.s e) (eNEV (repeatAt i c).s e', eNEVStar (repeatAt i c).s e') := by
  have oi : copyOf i i = i := copyOf_le le_rfl
  have o1 : copyOf i (i + 1) = i := copyOf_succ le_rfl
  have o2 : copyOf i (i + 1 + 1) = i + 1 := copyOf_succ (by omega)
  have o3 : copyOf i (i - 1) = i - 1 := copyOf_le (by omega)
  have hii : i - 1 + 1 = i := by omega
  have z0 : i ≠ 0 := by omega
  have n1 : i + 1 < c.s.n + 1 := by omega
  have n2 : i + 1 + 1 < c.s.n + 1 := by omega
  have s1 : i + 1 - 1 = i := by omega
  refine ⟨fun k hk => ?_, fun k hk => ?_, fun k hk => ⟨?_, ?_⟩, ?_, ?_⟩
  · simp only [eNEV, drdp_rep_above c hi hn hk, he, copyOf_le hk.le]
  · rcases Nat.lt_or_ge k i with h1 | h1
    · simp only [eNEVStar, drdp_rep_above c hi hn h1, he, copyOf_le hk]
    · obtain rfl : k = i := by omega
      funext j
      simp only [eNEVStar, if_neg z0, he, oi]
      fin_cases j <;> simp [drdp, repeatAt, hii, hi, oi, o3]
  · simp only [eNEV, drdp_rep_below c hi hn hk, he, copyOf_succ hk.le, if_neg (show k ≠ 0 by omega),
      if_neg (show k + 1 ≠ 0 by omega)]
  · simp only [eNEVStar, drdp_rep_below c hi hn hk, he, copyOf_succ hk.le, if_neg (show k ≠ 0 by omega),
      if_neg (show k + 1 ≠ 0 by omega)]
  · funext j
    simp only [Pi.add_apply, eNEV, if_neg z0, if_neg (show i + 1 ≠ 0 by omega), he, oi, o1]
    by_cases h3 : (!c.s.rev4 && i == 1) = true <;> fin_cases j <;>
      simp [drdp, repeatAt, hii, hi, hn, oi, o1, o2, o3, n1, n2, s1, h3, z0] <;> ring
  · funext j
    simp only [Pi.add_apply, eNEV, eNEVStar, if_neg z0, if_neg (show i + 1 ≠ 0 by omega), he, oi, o1]
    by_cases h3 : (!c.s.rev4 && i == 1) = true <;> fin_cases j <;>
      simp [drdp, repeatAt, hii, hi, hn, oi, o1, o2, o3, n1, n2, s1, h3, z0] <;> ring

omit hi hn in
/-- Replacing the rows of stations below the vertical limit. -/
theorem replaced_rep {x x' y y' : (ℕ → V) × (ℕ → V)} (hx : RowsRep i x x') (hy : RowsRep i y y') :
    RowsRep i (replaceSing c x.1 y.1, replaceSing c x.2 y.2)
      (replaceSing (repeatAt i c) x'.1 y'.1, replaceSing (repeatAt i c) x'.2 y'.2) := by
  refine ⟨fun k hk => ?_, fun k hk => ?_, fun k hk => ⟨?_, ?_⟩, ?_, ?_⟩
  · simp only [replaceSing, repeatAt, copyOf_le hk.le, hx.above k hk, hy.above k hk]
  · simp only [replaceSing, repeatAt, copyOf_le hk, hx.aboveStar k hk, hy.aboveStar k hk]
  · simp only [replaceSing, repeatAt, copyOf_succ hk.le, (hx.below k hk).1, (hy.below k hk).1]
  · simp only [replaceSing, repeatAt, copyOf_succ hk.le, (hx.below k hk).2, (hy.below k hk).2]
  · simp only [replaceSing, repeatAt, copyOf_le le_rfl, copyOf_succ le_rfl]
    split_ifs
    · exact hy.both
    · exact hx.both
  · simp only [replaceSing, repeatAt, copyOf_le le_rfl, copyOf_succ le_rfl]
    split_ifs
    · exact hy.copy
    · exact hx.copy

/-- Rows between the first and the last station that are proportional to the lengths around them. -/
theorem inner_rep (u : ℕ → V) :
    RowsRep i (Err.inner c fun k => (0.5 * c.dmd2 k) • u k, Err.inner c fun k => (0.5 * c.dmd k) • u k)
      (Err.inner (repeatAt i c) fun k => (0.5 * (repeatAt i c).dmd2 k) • u (copyOf i k),
        Err.inner (repeatAt i c) fun k => (0.5 * (repeatAt i c).dmd k) • u (copyOf i k)) := by
  have hN : (repeatAt i c).s.n = c.s.n + 1 := rfl
  have oi : copyOf i i = i := copyOf_le le_rfl
  have o1 : copyOf i (i + 1) = i := copyOf_succ le_rfl
  have o2 : copyOf i (i + 1 + 1) = i + 1 := copyOf_succ (by omega)
  have o3 : copyOf i (i - 1) = i - 1 := copyOf_le (by omega)
  have lt : ∀ k, k ≤ i → ¬(k + 1 = c.s.n + 1) ∧ ¬(k + 1 = c.s.n) := fun k hk => by omega
  have gt : ∀ k, i < k → (k + 1 = 0 ∨ k + 1 + 1 = c.s.n + 1) = (k = 0 ∨ k + 1 = c.s.n) := fun k hk => by
    apply propext; omega
  have ob : ∀ k, i < k → copyOf i (k + 1 + 1) = k + 1 ∧ copyOf i (k + 1) = k ∧ copyOf i k = k - 1 := fun k hk =>
    ⟨copyOf_succ (by omega), copyOf_succ hk.le, if_neg (by omega)⟩
  have oa : ∀ k, k < i → copyOf i (k + 1) = k + 1 ∧ copyOf i k = k ∧ copyOf i (k - 1) = k - 1 := fun k hk =>
    ⟨copyOf_le hk, copyOf_le hk.le, copyOf_le (by omega)⟩
  refine ⟨fun k hk => ?_, fun k hk => ?_, fun k hk => ⟨?_, ?_⟩, ?_, ?_⟩
  · simp only [Err.inner, hN, lt k hk.le, Ctx.dmd2, repeatAt, oa k hk]
  · simp only [Err.inner, hN, lt k hk, Ctx.dmd, repeatAt, copyOf_le hk, copyOf_le (show k - 1 ≤ i by omega)]
  · simp only [Err.inner, hN, gt k hk, Ctx.dmd2, repeatAt, Nat.add_sub_cancel, ob k hk]
  · simp only [Err.inner, hN, gt k hk, Ctx.dmd, repeatAt, Nat.add_sub_cancel, ob k hk]
  · have z : ¬(i + 1 = 0 ∨ i + 1 + 1 = c.s.n + 1) := by omega
    have z' : ¬(i = 0 ∨ i + 1 = c.s.n + 1) := by omega
    have z'' : ¬(i = 0 ∨ i + 1 = c.s.n) := by omega
    simp only [Err.inner, hN, if_neg z, if_neg z', if_neg z'', Ctx.dmd2, repeatAt, Nat.add_sub_cancel, oi,
      o1, o2, o3, ← add_smul]
    congr 1
    ring
  · have z : ¬(i + 1 = 0 ∨ i + 1 + 1 = c.s.n + 1) := by omega
    have z' : ¬(i = 0 ∨ i + 1 = c.s.n + 1) := by omega
    have z'' : ¬(i = 0 ∨ i + 1 = c.s.n) := by omega
    simp only [Err.inner, hN, if_neg z, if_neg z', if_neg z'', Ctx.dmd2, Ctx.dmd, repeatAt,
      Nat.add_sub_cancel, oi, o1, o2, o3, ← add_smul]
    congr 1
    ring

/-- The rows of the first station below the tie-on are replaced consistently. -/
theorem set_rep {x x' : (ℕ → V) × (ℕ → V)} (h : RowsRep i x x') {j : Fin 3} {y y' z z' : ℝ}
    (h1 : 1 < i → y' = y ∧ z' = z) (h2 : i = 1 → z' = z ∧ y' + x'.1 2 j = y ∧ y' + x'.2 2 j = z) :
    RowsRep i (setRow1 x.1 j y, setRow1 x.2 j z) (setRow1 x'.1 j y', setRow1 x'.2 j z') := by
  have n1 : i + 1 ≠ 1 := by omega
  refine ⟨fun k hk => ?_, fun k hk => ?_, fun k hk => ⟨?_, ?_⟩, ?_, ?_⟩
  · simp only [setRow1]
    by_cases hk1 : k = 1
    · subst hk1; simp only [if_true, h.above 1 hk, (h1 hk).1]
    · simp only [if_neg hk1, h.above k hk]
  · simp only [setRow1]
    by_cases hk1 : k = 1
    · subst hk1
      have : z' = z := by
        rcases Nat.lt_or_ge 1 i with h3 | h3
        · exact (h1 h3).2
        · exact (h2 (by omega)).1
      simp only [if_true, h.aboveStar 1 hk, this]
    · simp only [if_neg hk1, h.aboveStar k hk]
  · simp only [setRow1, if_neg (show k + 1 ≠ 1 by omega), if_neg (show k ≠ 1 by omega), (h.below k hk).1]
  · simp only [setRow1, if_neg (show k + 1 ≠ 1 by omega), if_neg (show k ≠ 1 by omega), (h.below k hk).2]
  · simp only [setRow1, if_neg n1]
    by_cases hk1 : i = 1
    · subst hk1
      simp only [if_true]
      funext a
      by_cases ha : a = j
      · subst ha; simpa using (h2 rfl).2.1
      · have := congrFun h.both a
        simpa [ha] using this
    · simp only [if_neg hk1, h.both]
  · simp only [setRow1, if_neg n1]
    by_cases hk1 : i = 1
    · subst hk1
      simp only [if_true]
      funext a
      by_cases ha : a = j
      · subst ha; simpa using (h2 rfl).2.2
      · have := congrFun h.copy a
        simpa [ha] using this
    · simp only [if_neg hk1, h.copy]

theorem singABXY_rep (mag : ℝ) (b : Bool) :
    ∃ x x', singABXY c mag b = .ok x ∧ singABXY (repeatAt i c) mag b = .ok x' ∧ RowsRep i x x' := by
  have n1 : ¬c.s.n < 3 := by omega
  have n2 : ¬(repeatAt i c).s.n < 3 := by simp only [repeatAt]; omega
  have hrows := inner_rep c hi hn fun k => ![-c.st k * mag / c.G, c.ct k * mag / c.G, 0]
  have hv : ∀ a x y z : ℝ, a • ![x * mag / z, y * mag / z, 0] = ![a * x * mag / z, a * y * mag / z, 0] := by
    intro a x y z
    funext j; fin_cases j <;> simp <;> ring
  simp only [hv] at hrows
  cases b
  · exact ⟨_, _, rfl, rfl, hrows⟩
  · refine ⟨_, _, by simp only [singABXY, if_true, if_neg n1]; rfl,
      by simp only [singABXY, if_true, if_neg n2]; rfl, set_rep c hi hn hrows (fun h1 => ?_) fun h1 => ?_⟩
    · simp only [repeatAt, copyOf_le (show 2 ≤ i from h1), copyOf_le h1.le, copyOf_le (show 0 ≤ i by omega), and_self]
    · subst h1
      have a0 : copyOf 1 0 = 0 := rfl
      have a1 : copyOf 1 1 = 1 := rfl
      have a2 : copyOf 1 2 = 1 := rfl
      have a3 : copyOf 1 3 = 2 := rfl
      have z : ¬(2 + 1 = c.s.n + 1) := by omega
      refine ⟨by simp only [repeatAt, a0, a1], ?_, ?_⟩
      · simp [Err.inner, repeatAt, a0, a1, a2, a3, z, Ctx.dmd2, Ctx.ct]
        ring
      · simp [Err.inner, repeatAt, a0, a1, a2, z, Ctx.dmd, Ctx.ct]
        ring

theorem singRows_rep {f : Func} (hf : byCourseLength f = false) (τ mag : ℝ) :
    (singRows f c τ mag = none ∧ singRows f (repeatAt i c) τ mag = none) ∨
    (∃ x, singRows f c τ mag = some (.error x) ∧ singRows f (repeatAt i c) τ mag = some (.error x)) ∨
    ∃ x x', singRows f c τ mag = some (.ok x) ∧ singRows f (repeatAt i c) τ mag = some (.ok x') ∧
      RowsRep i x x' := by
  have hR : (repeatAt i c).ref = c.ref := rfl
  cases f <;> simp [byCourseLength] at hf <;> try exact .inl ⟨rfl, rfl⟩
  case ABIXY_TI2 =>
    obtain ⟨x, x', h1, h2, h3⟩ := singABXY_rep c hi hn mag true
    exact .inr (.inr ⟨x, x', by simp only [singRows, h1], by simp only [singRows, h2], h3⟩)
  case ABXY_TI2 =>
    obtain ⟨x, x', h1, h2, h3⟩ := singABXY_rep c hi hn mag (!c.s.rev4)
    exact .inr (.inr ⟨x, x', by simp only [singRows, h1],
      by simp only [singRows, show (repeatAt i c).s.rev4 = c.s.rev4 from rfl, h2], h3⟩)
  case CNA =>
    right
    have hv : ∀ a x y : ℝ, a • ![x * mag, y * mag, 0] = ![a * x * mag, a * y * mag, 0] := by
      intro a x y
      funext j; fin_cases j <;> simp <;> ring
    cases href : c.ref with
    | magnetic =>
      exact .inl ⟨_, by simp only [singRows, cnaAzi, href]; rfl,
        by simp only [singRows, cnaAzi, hR, href]⟩
    | grid =>
      have hrows := inner_rep c hi hn fun k => ![-sin (c.aziGrid k) * mag, cos (c.aziGrid k) * mag, 0]
      simp only [hv] at hrows
      exact .inr ⟨_, _, by simp only [singRows, cnaAzi, href],
        by simp only [singRows, cnaAzi, hR, href]; rfl, hrows⟩
    | true =>
      have hrows := inner_rep c hi hn fun k => ![-sin (c.s.azi k) * mag, cos (c.s.azi k) * mag, 0]
      simp only [hv] at hrows
      exact .inr ⟨_, _, by simp only [singRows, cnaAzi, href],
        by simp only [singRows, cnaAzi, hR, href]; rfl, hrows⟩
  case XYM3 =>
    have hrows := inner_rep c hi hn fun _ => ![mag, 0, 0]
    simp only [Matrix.smul_cons, smul_eq_mul, mul_zero, Matrix.smul_empty] at hrows
    exact .inr (.inr ⟨_, _, rfl, rfl, hrows⟩)
  case XYM4 =>
    have hrows := inner_rep c hi hn fun _ => ![0, mag, 0]
    simp only [Matrix.smul_cons, smul_eq_mul, mul_zero, Matrix.smul_empty] at hrows
    exact .inr (.inr ⟨_, _, rfl, rfl, hrows⟩)

/-- The errors of course length are zero at the copy. -/
theorem course_rep {f : Func} (hf : f = .XCLA ∨ f = .XCLH) (τ mag : ℝ) :
    RowsRep i (eDIA f c τ mag, eDIA f c τ mag)
      (eDIA f (repeatAt i c) τ mag, eDIA f (repeatAt i c) τ mag) := by
  have o1 : copyOf i (i + 1) = i := copyOf_succ le_rfl
  have up : ∀ k ≤ i, eDIA f (repeatAt i c) τ mag k = eDIA f c τ mag k := by
    intro k hk
    have a1 := copyOf_le hk
    have a2 : copyOf i (k - 1) = k - 1 := copyOf_le (by omega)
    funext j
    rcases hf with rfl | rfl <;>
      simp only [eDIA, dpde, xclaDelta, Ctx.dmd, Ctx.st, Ctx.ct, Ctx.si, Ctx.ci, repeatAt, a1, a2]
  have dn : ∀ k, i < k → eDIA f (repeatAt i c) τ mag (k + 1) = eDIA f c τ mag k := by
    intro k hk
    have a1 : copyOf i (k + 1) = k := copyOf_succ hk.le
    have a2 : copyOf i k = k - 1 := if_neg (by omega)
    funext j
    rcases hf with rfl | rfl <;>
      simp only [eDIA, dpde, xclaDelta, Ctx.dmd, Ctx.st, Ctx.ct, Ctx.si, Ctx.ci, repeatAt,
        Nat.add_sub_cancel, a1, a2, if_neg (show k + 1 ≠ 0 by omega), if_neg (show k ≠ 0 by omega)]
  have mid : eDIA f (repeatAt i c) τ mag (i + 1) = 0 := by
    have hd : (repeatAt i c).dmd (i + 1) = 0 := by
      simp only [Ctx.dmd, repeatAt, Nat.add_sub_cancel, o1, copyOf_le le_rfl, sub_self]
    funext j
    rcases hf with rfl | rfl <;> fin_cases j <;> simp [eDIA, dpde, hd]
  refine ⟨fun k hk => up k hk.le, up, fun k hk => ⟨dn k hk, dn k hk⟩, ?_, ?_⟩
  · simp only [mid, add_zero]; exact up i le_rfl
  · simp only [mid, add_zero]; exact up i le_rfl

omit hi in
theorem upright_rep : (∃ k < (repeatAt i c).s.n, (repeatAt i c).s.inc k < (repeatAt i c).vlim) ↔
    ∃ k < c.s.n, c.s.inc k < c.vlim := by
  constructor
  · rintro ⟨k, hk, h⟩
    refine ⟨copyOf i k, ?_, h⟩
    simp only [repeatAt] at hk
    unfold copyOf
    split_ifs <;> omega
  · rintro ⟨k, hk, h⟩
    rcases Nat.lt_or_ge i k with h1 | h1
    · exact ⟨k + 1, by simp only [repeatAt]; omega, by simpa only [repeatAt, copyOf_succ h1.le] using h⟩
    · exact ⟨k, by simp only [repeatAt]; omega, by simpa only [repeatAt, copyOf_le h1] using h⟩

/-- **C375** (one source): if a station other than the first and the last is recorded twice, then a source
that is not random contributes at both copies what it contributed at the station, and at every other station
what it contributed before. -/
theorem C375_source {f : Func} (hf : overLength f = false) {mag : ℝ} {p : Prop'} {t : Term}
    (ht : callFunc f c mag p = .ok (some t)) :
    ∃ t', callFunc f (repeatAt i c) mag p = .ok (some t') ∧ t'.prop = t.prop ∧
      (t.prop ≠ .random → ∀ k, t'.cov k = t.cov (copyOf i k)) := by
  have hτ : (repeatAt i c).tortuosity = c.tortuosity := rfl
  have hE : f ≠ .XYM4E := by rintro rfl; simp [overLength] at hf
  simp only [callFunc, hE, false_and, if_false, hτ, upright_rep c hn] at ht ⊢
  generalize c.tortuosity.getD 0 = τ at *
  generalize forcedProp f p = q at *
  have key : ∀ x x' : (ℕ → V) × (ℕ → V), RowsRep i x x' →
      generateError c.s (eDIA f c τ mag) q (some x) = some t →
      ∃ t', generateError (repeatAt i c).s (eDIA f (repeatAt i c) τ mag) q (some x') = some t' ∧
        t'.prop = t.prop ∧ (t.prop ≠ .random → ∀ k, t'.cov k = t.cov (copyOf i k)) := by
    intro x x' hx hg
    have hs := sigma_rep hi hx
    cases q <;> simp [generateError, propagate] at hg ⊢ <;> subst hg <;> simp [hs]
  by_cases h1 : (f.usesTortuosity && c.tortuosity.isNone) = true
  · rw [if_pos h1] at ht; cases ht
  rw [if_neg h1] at ht ⊢
  by_cases h2 : f = .XCLA ∨ f = .XCLH
  · rw [if_pos h2] at ht ⊢
    simp only [Except.ok.injEq] at ht ⊢
    exact key _ _ (course_rep c hi hn h2 τ mag) ht
  · rw [if_neg h2] at ht ⊢
    have hb : byCourseLength f = false := by
      cases f <;> simp [byCourseLength, overLength] at hf h2 ⊢
    have hp := plain_rep c hi hn (e := eDIA f c τ mag) (e' := eDIA f (repeatAt i c) τ mag) fun k =>
      eDIA_station (c := c) (c' := repeatAt i c) (k := copyOf i k) (k' := k) hb rfl rfl rfl rfl rfl rfl rfl rfl _ _ _
    rcases singRows_rep c hi hn hb τ mag with ⟨h3, h4⟩ | ⟨x, h3, h4⟩ | ⟨x, x', h3, h4, h5⟩
    · rw [h3] at ht
      rw [h4]
      simp only [Except.ok.injEq] at ht ⊢
      exact key _ _ hp ht
    · rw [h3] at ht
      rw [h4]
      simp only at ht ⊢
      split_ifs at ht ⊢ with hc
      simp only [Except.ok.injEq] at ht ⊢
      exact key _ _ hp ht
    · rw [h3] at ht
      rw [h4]
      simp only at ht ⊢
      split_ifs at ht ⊢ with hc
      · simp only [Except.ok.injEq] at ht ⊢
        exact key _ _ (replaced_rep c hp h5) ht
      · simp only [Except.ok.injEq] at ht ⊢
        exact key _ _ hp ht

/-- **C375**, the part that holds: if a station other than the first and the last is recorded twice, the
systematic, global and within-pad parts of the covariance are the same, at the copies and at every other
station. -/
theorem C375_tool_partial {codes : List Entry} (hf : ∀ e ∈ codes, overLength e.f = false) {T : Totals}
    (hT : toolError c codes = .ok T) :
    ∃ T', toolError (repeatAt i c) codes = .ok T' ∧ ∀ k,
      T'.systematic k = T.systematic (copyOf i k) ∧ T'.global k = T.global (copyOf i k) ∧
      T'.withinPad k = T.withinPad (copyOf i k) := by
  obtain ⟨vs, hvs, rfl⟩ := toolError_ok hT
  obtain ⟨vs', hvs', hw⟩ := forall₂_terms (i := i) (c' := repeatAt i c)
    (R := fun _ t t' => t.prop ≠ .random → ∀ k, t'.cov k = t.cov (copyOf i k)) (codes := codes)
    (fun e he t ht => C375_source c hi hn (hf e he) ht) hvs
  refine ⟨_, callAll_of_forall₂ hvs', fun k => ?_⟩
  obtain ⟨-, -, a3, a4, a5⟩ := foldl_step vs ⟨0, 0, 0, 0, 0⟩ (copyOf i k)
  obtain ⟨-, -, b3, b4, b5⟩ := foldl_step vs' ⟨0, 0, 0, 0, 0⟩ k
  rw [a3, a4, a5, b3, b4, b5]
  have key : ∀ q : Prop', q ≠ .random →
      ((vs'.filter fun v => v.prop = q).map fun v => v.cov k)
        = (vs.filter fun v => v.prop = q).map fun v => v.cov (copyOf i k) := by
    intro q hq
    clear hvs hvs' hT a3 a4 a5 b3 b4 b5
    induction hw with
    | nil => rfl
    | @cons t t' l l' h1 _ ih =>
      obtain ⟨hp, e, -, -, hr⟩ := h1
      rw [List.filter_cons, List.filter_cons, hp]
      by_cases hqt : t.prop = q
      · simp only [hqt, decide_true, if_true, List.map_cons, ih, hr (hqt ▸ hq) k]
      · simp only [hqt, decide_false, Bool.false_eq_true, if_false, ih]
  simp [key .systematic (by decide), key .global (by decide), key .withinPad (by decide)]
end

theorem repeat_level (i n : ℕ) (md : ℕ → ℝ) :
    repeatAt i (northCtx n md) = northCtx (n + 1) fun k => md (copyOf i k) := rfl

/-- C375 is false of random sources: recording a station twice makes the well below it look more certain. -/
theorem C375_random :
    ∃ t t', callFunc .AZ (northCtx 3 fun k => 30 * k) 1 .random = .ok (some t) ∧
      callFunc .AZ (repeatAt 1 (northCtx 3 fun k => 30 * k)) 1 .random = .ok (some t') ∧
      t'.cov 3 1 1 < t.cov (copyOf 1 3) 1 1 := by
  rw [repeat_level, level_az, level_az]
  simp only [generateError, propagate, Option.map_some]
  refine ⟨_, _, rfl, rfl, ?_⟩
  have h1 := (level_e 4 (fun k => 30 * (copyOf 1 k : ℝ)) 1 1 le_rfl).1
  have h2 := (level_e 4 (fun k => 30 * (copyOf 1 k : ℝ)) 1 2 (by norm_num)).1
  have h3 := (level_e 4 (fun k => 30 * (copyOf 1 k : ℝ)) 1 3 (by norm_num)).2
  have g1 := (level_e 3 (fun k => 30 * k) 1 1 le_rfl).1
  have g2 := (level_e 3 (fun k => 30 * k) 1 2 (by norm_num)).2
  simp only [show copyOf 1 3 = 2 from rfl, two_ne_zero, three_ne_zero, if_false, Finset.sum_range_succ,
    Finset.sum_range_zero, Matrix.add_apply, covFromVec, Matrix.of_apply, h1, h2, h3, g1, g2]
  norm_num [eNEV, copyOf]

/-- C375 is false of the first station, which has no error: its copy has one. -/
theorem C375_first :
    ∃ t t', callFunc .AZ (northCtx 2 fun k => 30 * k) 1 .systematic = .ok (some t) ∧
      callFunc .AZ (repeatAt 0 (northCtx 2 fun k => 30 * k)) 1 .systematic = .ok (some t') ∧
      t.cov (copyOf 0 2) 1 1 = 15 ^ 2 ∧ t'.cov 2 1 1 = 30 ^ 2 := by
  rw [repeat_level, level_az, level_az]
  simp only [generateError, propagate, Option.map_some]
  refine ⟨_, _, rfl, rfl, ?_, ?_⟩
  · simp only [show copyOf 0 2 = 1 from rfl, covFromVec, sigmaSystematic, Finset.sum_range_one, Matrix.of_apply,
      if_neg one_ne_zero, Pi.add_apply, (level_e 2 (fun k => 30 * k) 1 1 le_rfl).2]
    norm_num [eNEV]
  · have h1 := (level_e 3 (fun k => 30 * (copyOf 0 k : ℝ)) 1 1 le_rfl).1
    have h2 := (level_e 3 (fun k => 30 * (copyOf 0 k : ℝ)) 1 2 (by norm_num)).2
    simp only [covFromVec, sigmaSystematic, Matrix.of_apply, Pi.add_apply, two_ne_zero, if_false,
      Finset.sum_range_succ, Finset.sum_range_zero, h1, h2]
    norm_num [eNEV, copyOf]

/-- Not vacuous: the middle one of three stations. -/
example : ∃ T, toolError (northCtx 3 fun k => 30 * k) [⟨.AZ, 1, .systematic⟩] = .ok T := by
  simp only [toolError, callAll, level_az, generateError, propagate, Option.map_some]
  exact ⟨_, rfl⟩

end Welleng.Props
