import Verif.Props.Weights

/-!
C341 and C342: further stations on a straight part of a survey.
-/

namespace Welleng.Props

open Real Finset Spec Err

/-- `c'` is the survey `c` with one further station between stations `i` and `i + 1`.  The interval is
straight, so the further station has the direction of its two neighbours; its depths are arbitrary. -/
structure StationAdded (i : ℕ) (c c' : Ctx) : Prop where
  inside : i + 1 < c.s.n
  count : c'.s.n = c.s.n + 1
  straight : c.s.inc (i + 1) = c.s.inc i ∧ c.s.azi (i + 1) = c.s.azi i ∧
    c.aziMag (i + 1) = c.aziMag i
  added : c'.s.inc (i + 1) = c.s.inc i ∧ c'.s.azi (i + 1) = c.s.azi i ∧
    c'.aziMag (i + 1) = c.aziMag i
  above : ∀ k ≤ i, c'.s.md k = c.s.md k ∧ c'.s.inc k = c.s.inc k ∧ c'.s.azi k = c.s.azi k ∧
    c'.tvd k = c.tvd k ∧ c'.aziMag k = c.aziMag k ∧ c'.aziGrid k = c.aziGrid k
  below : ∀ k, i < k → c'.s.md (k + 1) = c.s.md k ∧ c'.s.inc (k + 1) = c.s.inc k ∧
    c'.s.azi (k + 1) = c.s.azi k ∧ c'.tvd (k + 1) = c.tvd k ∧ c'.aziMag (k + 1) = c.aziMag k ∧
    c'.aziGrid (k + 1) = c.aziGrid k
  same : c'.s.rev4 = c.s.rev4 ∧ c'.G = c.G ∧ c'.dip = c.dip ∧ c'.bTotal = c.bTotal ∧
    c'.vlim = c.vlim ∧ c'.ref = c.ref ∧ c'.tortuosity = c.tortuosity

/-- The sources whose weights contain the distance to the station above. -/
def byCourseLength : Func → Bool
  | .XCLA | .XCLH | .XYM3E | .XYM4E | .XYM3L | .XYM4L => true
  | _ => false

/-- The number of a station of the first survey in the second one. -/
def movedTo (i k : ℕ) : ℕ := if k ≤ i then k else k + 1

/-- The weights of a station depend on the station only. -/
theorem eDIA_station {c c' : Ctx} {k k' : ℕ} {f : Func} (hf : byCourseLength f = false)
    (hm : c'.s.md k' = c.s.md k) (hi : c'.s.inc k' = c.s.inc k) (ha : c'.s.azi k' = c.s.azi k)
    (ht : c'.tvd k' = c.tvd k) (hz : c'.aziMag k' = c.aziMag k) (hG : c'.G = c.G)
    (hd : c'.dip = c.dip) (hb : c'.bTotal = c.bTotal) (τ τ' mag : ℝ) :
    eDIA f c' τ' mag k' = eDIA f c τ mag k := by
  funext j
  cases f <;> simp [byCourseLength] at hf <;>
    simp [eDIA, dpde, Ctx.si, Ctx.ci, Ctx.sm, Ctx.cm, Ctx.st, Ctx.ct, Ctx.mix, Ctx.funky, hm, hi, ha, ht,
      hz, hG, hd, hb]

/-- The weights of the angles depend on the direction only. -/
theorem eDIA_direction {c c' : Ctx} {k k' : ℕ} {f : Func} (hf : byCourseLength f = false)
    (hi : c'.s.inc k' = c.s.inc k) (ha : c'.s.azi k' = c.s.azi k)
    (hz : c'.aziMag k' = c.aziMag k) (hG : c'.G = c.G)
    (hd : c'.dip = c.dip) (hb : c'.bTotal = c.bTotal) (τ τ' mag : ℝ) :
    eDIA f c' τ' mag k' 1 = eDIA f c τ mag k 1 ∧ eDIA f c' τ' mag k' 2 = eDIA f c τ mag k 2 := by
  cases f <;> simp [byCourseLength] at hf <;>
    simp [eDIA, dpde, Ctx.si, Ctx.ci, Ctx.sm, Ctx.cm, Ctx.st, Ctx.ct, Ctx.mix, Ctx.funky, hi, ha,
      hz, hG, hd, hb]

section
variable {i : ℕ} {c c' : Ctx} (h : StationAdded i c c') (hi0 : 1 ≤ i)
include h

theorem drdp_above {k : ℕ} (hk : k < i) : drdp c'.s k = drdp c.s k := by
  obtain ⟨hm, hi, ha, -⟩ := h.above k (by omega)
  obtain ⟨hm1, hi1, ha1, -⟩ := h.above (k + 1) (by omega)
  obtain ⟨hm0, hi0, ha0, -⟩ := h.above (k - 1) (by omega)
  have e1 : k + 1 < c'.s.n := by have := h.inside; have := h.count; omega
  have e2 : k + 1 < c.s.n := by have := h.inside; omega
  have hkk : 1 ≤ k → k - 1 + 1 = k := fun _ => by omega
  funext j
  by_cases h1 : 1 ≤ k
  · simp only [drdp, hkk h1, hm, hi, ha, hm1, hi1, ha1, hm0, hi0, ha0, e1, e2, h.same.1]
  · simp only [drdp, h1, hm, hi, ha, hm1, hi1, ha1, e1, e2, h.same.1, if_false]

theorem eNEV_above {k : ℕ} (hk : k < i) {e e' : ℕ → V} (he : e' k = e k) :
    eNEV c'.s e' k = eNEV c.s e k := by
  simp only [eNEV, drdp_above h hk, he]

theorem eNEVStar_above {k : ℕ} (hk : k ≤ i) {e e' : ℕ → V} (he : e' k = e k) :
    eNEVStar c'.s e' k = eNEVStar c.s e k := by
  obtain ⟨hm, hi, ha, -⟩ := h.above k hk
  obtain ⟨hm0, hi0, ha0, -⟩ := h.above (k - 1) (by omega)
  by_cases h1 : k = 0
  · simp [eNEVStar, h1]
  · have hkk : k - 1 + 1 = k := by omega
    have h2 : 1 ≤ k := by omega
    funext j
    simp only [eNEVStar, if_neg h1, he]
    fin_cases j <;> simp [drdp, hkk, h2, hm, hi, ha, hm0, hi0, ha0, h.same.1]

theorem drdp_below {k : ℕ} (hk : i + 1 < k) : drdp c'.s (k + 1) = drdp c.s k := by
  obtain ⟨hm, hi, ha, -⟩ := h.below k (by omega)
  obtain ⟨hm1, hi1, ha1, -⟩ := h.below (k + 1) (by omega)
  obtain ⟨hm0, hi0, ha0, -⟩ := h.below (k - 1) (by omega)
  have hkk : k - 1 + 1 = k := by omega
  have hk' : k + 1 - 1 = k := by omega
  rw [hkk] at hm0 hi0 ha0
  have e1 : (k + 1 + 1 < c'.s.n) = (k + 1 < c.s.n) := by rw [h.count]; simp
  have e3 : (1 ≤ k + 1) = (1 ≤ k) := by apply propext; omega
  have e4 : (k + 1 == 1) = (k == 1) := by
    rw [Bool.eq_iff_iff]; simp; omega
  funext j
  simp only [drdp, hk', hkk, hm, hi, ha, hm1, hi1, ha1, hm0, hi0, ha0, e1, e3, e4, h.same.1]

theorem eNEV_below {k : ℕ} (hk : i + 1 < k) {e e' : ℕ → V} (he : e' (k + 1) = e k) :
    eNEV c'.s e' (k + 1) = eNEV c.s e k := by
  simp only [eNEV, drdp_below h hk, he, if_neg (show k ≠ 0 by omega), if_neg (show k + 1 ≠ 0 by omega)]

theorem eNEVStar_below {k : ℕ} (hk : i + 1 < k) {e e' : ℕ → V} (he : e' (k + 1) = e k) :
    eNEVStar c'.s e' (k + 1) = eNEVStar c.s e k := by
  simp only [eNEVStar, drdp_below h hk, he, if_neg (show k ≠ 0 by omega),
    if_neg (show k + 1 ≠ 0 by omega)]

include hi0 in
/-- The contributions around the further station. -/
theorem eNEV_middle {e e' : ℕ → V} (h0 : e' i = e i) (h2 : e' (i + 2) = e (i + 1))
    (h1 : e' (i + 1) 1 = e i 1 ∧ e' (i + 1) 2 = e i 2) (hs : e (i + 1) 1 = e i 1 ∧ e (i + 1) 2 = e i 2) :
    eNEV c'.s e' i + eNEV c'.s e' (i + 1) + eNEV c'.s e' (i + 2) = eNEV c.s e i + eNEV c.s e (i + 1) ∧
    eNEV c'.s e' i + eNEV c'.s e' (i + 1) + eNEVStar c'.s e' (i + 2)
      = eNEV c.s e i + eNEVStar c.s e (i + 1) := by
  obtain ⟨hmA, hiA, haA, -⟩ := h.above (i - 1) (by omega)
  obtain ⟨hmB, hiB, haB, -⟩ := h.above i le_rfl
  obtain ⟨hmC, hiC, haC, -⟩ := h.below (i + 1) (by omega)
  obtain ⟨hmD, hiD, haD, -⟩ := h.below (i + 1 + 1) (by omega)
  obtain ⟨hsi, hsa, -⟩ := h.straight
  obtain ⟨hai, haa, -⟩ := h.added
  have hii : i - 1 + 1 = i := by omega
  have n1 : i + 1 < c.s.n := h.inside
  have n2 : i + 1 < c'.s.n := by have := h.count; omega
  have n3 : i + 1 + 1 < c'.s.n := by have := h.count; omega
  have n4 : (i + 2 + 1 < c'.s.n) = (i + 1 + 1 < c.s.n) := by rw [h.count]; apply propext; omega
  have z0 : i ≠ 0 := by omega
  have z1 : i + 1 ≠ 1 := by omega
  have z2 : i + 2 ≠ 1 := by omega
  have s1 : i + 1 - 1 = i := by omega
  have s2 : i + 2 - 1 = i + 1 := by omega
  constructor <;>
    (funext j
     simp only [Pi.add_apply, eNEV, eNEVStar, if_neg z0, if_neg (show i + 1 ≠ 0 by omega),
       if_neg (show i + 2 ≠ 0 by omega)]
     by_cases n5 : i + 1 + 1 < c.s.n <;> by_cases h3 : (!c.s.rev4 && i == 1) = true <;>
       fin_cases j <;>
       simp [drdp, hii, s1, s2, n1, n2, n3, n4, n5, hi0, z0, z1, z2, hmA, hiA, haA, hmB, hiB, haB,
         hmC, hiC, haC, hmD, hiD, haD, hsi, hsa, hai, haa, h0, h1, h2, hs, h.same.1, h3] <;> ring)
end

theorem sum_above {i : ℕ} {e e' : ℕ → V} (h1 : ∀ j < i, e' j = e j) {k : ℕ} (hk : k ≤ i) :
    ∑ j ∈ range k, e' j = ∑ j ∈ range k, e j :=
  Finset.sum_congr rfl fun j hj => h1 j (by have := Finset.mem_range.mp hj; omega)

theorem sum_below {i : ℕ} {e e' : ℕ → V} (h1 : ∀ j < i, e' j = e j)
    (h2 : ∀ j, i + 1 < j → e' (j + 1) = e j) (h3 : e' i + e' (i + 1) + e' (i + 2) = e i + e (i + 1)) :
    ∀ k, ∑ j ∈ range (i + 2 + k + 1), e' j = ∑ j ∈ range (i + 2 + k), e j
  | 0 => by
    have := sum_above h1 (le_refl i)
    rw [show i + 2 + 0 + 1 = i + 3 by rfl, Finset.sum_range_succ, Finset.sum_range_succ,
      Finset.sum_range_succ, this, show i + 2 + 0 = i + 1 + 1 by rfl, Finset.sum_range_succ,
      Finset.sum_range_succ]
    linear_combination h3
  | k + 1 => by
    rw [show i + 2 + (k + 1) + 1 = (i + 2 + k + 1) + 1 by omega, Finset.sum_range_succ,
      sum_below h1 h2 h3 k, h2 (i + 2 + k) (by omega), show i + 2 + (k + 1) = i + 2 + k + 1 by omega,
      Finset.sum_range_succ]

/-- Sums of error vectors when the contributions around the further station add up to the same. -/
theorem sigma_added {i : ℕ} (hi0 : 1 ≤ i) {e e' es es' : ℕ → V} (h1 : ∀ j < i, e' j = e j)
    (h1s : ∀ j ≤ i, es' j = es j) (h2 : ∀ j, i + 1 < j → e' (j + 1) = e j)
    (h2s : ∀ j, i + 1 < j → es' (j + 1) = es j)
    (h3 : e' i + e' (i + 1) + e' (i + 2) = e i + e (i + 1))
    (h4 : e' i + e' (i + 1) + es' (i + 2) = e i + es (i + 1)) (k : ℕ) :
    sigmaSystematic e' es' (movedTo i k) = sigmaSystematic e es k := by
  unfold movedTo
  split_ifs with hk
  · simp only [sigmaSystematic, h1s k hk, sum_above h1 hk]
    split_ifs with h0
    · rw [h1 0 (by omega)]
    · rfl
  · simp only [sigmaSystematic, if_neg (show k + 1 ≠ 0 by omega), if_neg (show k ≠ 0 by omega)]
    rcases Nat.lt_or_ge (i + 1) k with hlt | hge
    · obtain ⟨m, rfl⟩ := Nat.exists_eq_add_of_le (show i + 2 ≤ k by omega)
      rw [sum_below h1 h2 h3 m, h2s _ hlt]
    · obtain rfl : k = i + 1 := by omega
      rw [Finset.sum_range_succ, Finset.sum_range_succ, Finset.sum_range_succ, sum_above h1 le_rfl]
      linear_combination h4

section
variable {i : ℕ} {c c' : Ctx} (h : StationAdded i c c') (hi0 : 1 ≤ i)
include h

theorem eDIA_above {f : Func} (hf : byCourseLength f = false) (τ mag : ℝ) {k : ℕ} (hk : k ≤ i) :
    eDIA f c' τ mag k = eDIA f c τ mag k := by
  obtain ⟨hm, hi, ha, ht, hz, -⟩ := h.above k hk
  obtain ⟨-, hG, hd, hb, -⟩ := h.same
  exact eDIA_station hf hm hi ha ht hz hG hd hb _ _ _

theorem eDIA_below {f : Func} (hf : byCourseLength f = false) (τ mag : ℝ) {k : ℕ} (hk : i < k) :
    eDIA f c' τ mag (k + 1) = eDIA f c τ mag k := by
  obtain ⟨hm, hi, ha, ht, hz, -⟩ := h.below k hk
  obtain ⟨-, hG, hd, hb, -⟩ := h.same
  exact eDIA_station hf hm hi ha ht hz hG hd hb _ _ _

theorem dmd_above {k : ℕ} (hk : k ≤ i) : c'.dmd k = c.dmd k := by
  simp only [Ctx.dmd, (h.above k hk).1, (h.above (k - 1) (by omega)).1]

theorem dmd2_above {k : ℕ} (hk : k < i) : c'.dmd2 k = c.dmd2 k := by
  simp only [Ctx.dmd2, (h.above (k + 1) hk).1, (h.above (k - 1) (by omega)).1]

theorem dmd_below {k : ℕ} (hk : i + 1 < k) : c'.dmd (k + 1) = c.dmd k := by
  have := (h.below (k - 1) (by omega)).1
  rw [show k - 1 + 1 = k by omega] at this
  simp only [Ctx.dmd, (h.below k (by omega)).1, Nat.add_sub_cancel, this]

theorem dmd2_below {k : ℕ} (hk : i + 1 < k) : c'.dmd2 (k + 1) = c.dmd2 k := by
  have := (h.below (k - 1) (by omega)).1
  rw [show k - 1 + 1 = k by omega] at this
  simp only [Ctx.dmd2, (h.below (k + 1) (by omega)).1, Nat.add_sub_cancel, this]

theorem inner_above {k : ℕ} (hk : k ≤ i) {r r' : ℕ → V} (hr : r' k = r k) :
    Err.inner c' r' k = Err.inner c r k := by
  have := h.inside
  have := h.count
  simp only [Err.inner, hr, show ¬(k + 1 = c'.s.n) by omega, show ¬(k + 1 = c.s.n) by omega]

theorem inner_below {k : ℕ} (hk : i + 1 < k) {r r' : ℕ → V} (hr : r' (k + 1) = r k) :
    Err.inner c' r' (k + 1) = Err.inner c r k := by
  have := h.count
  simp only [Err.inner, hr, show (k + 1 = 0 ∨ k + 1 + 1 = c'.s.n) = (k = 0 ∨ k + 1 = c.s.n) by
    apply propext; omega]

/-- What the replacement rows of the second survey have to do with those of the first. -/
def RowsMoved (i : ℕ) (x x' : (ℕ → V) × (ℕ → V)) : Prop :=
  (∀ k < i, x'.1 k = x.1 k ∧ x'.2 k = x.2 k) ∧
  ∀ k, i + 1 < k → x'.1 (k + 1) = x.1 k ∧ x'.2 (k + 1) = x.2 k

theorem rows_inner {r r' q q' : ℕ → V}
    (h1 : ∀ k < i, r' k = r k ∧ q' k = q k) (h2 : ∀ k, i + 1 < k → r' (k + 1) = r k ∧ q' (k + 1) = q k) :
    RowsMoved i (Err.inner c r, Err.inner c q) (Err.inner c' r', Err.inner c' q') :=
  ⟨fun k hk => ⟨inner_above h hk.le (h1 k hk).1, inner_above h hk.le (h1 k hk).2⟩,
    fun k hk => ⟨inner_below h hk (h2 k hk).1, inner_below h hk (h2 k hk).2⟩⟩

theorem rows_set {x x' : (ℕ → V) × (ℕ → V)} (hx : RowsMoved i x x') {j : Fin 3} {y y' z z' : ℝ}
    (h1 : 1 < i → y' = y ∧ z' = z) :
    RowsMoved i (setRow1 x.1 j y, setRow1 x.2 j z) (setRow1 x'.1 j y', setRow1 x'.2 j z') := by
  refine ⟨fun k hk => ?_, fun k hk => ?_⟩
  · simp only [setRow1]
    by_cases hk1 : k = 1
    · subst hk1
      simp only [if_true, (hx.1 1 hk).1, (hx.1 1 hk).2, (h1 hk).1, (h1 hk).2, and_self]
    · simp only [if_neg hk1, (hx.1 k hk).1, (hx.1 k hk).2, and_self]
  · simp only [setRow1, if_neg (show k + 1 ≠ 1 by omega), if_neg (show k ≠ 1 by omega), (hx.2 k hk).1,
      (hx.2 k hk).2, and_self]

theorem singABXY_added {mag : ℝ} {b : Bool} (hi0 : 1 ≤ i) :
    (∃ x, singABXY c mag b = .error x ∧ singABXY c' mag b = .error x) ∨
    ∃ x x', singABXY c mag b = .ok x ∧ singABXY c' mag b = .ok x' ∧ RowsMoved i x x' := by
  right
  obtain ⟨-, hG, -⟩ := h.same
  have n1 : ¬c.s.n < 3 := by have := h.inside; omega
  have n2 : ¬c'.s.n < 3 := by have := h.inside; have := h.count; omega
  have up : ∀ k < i, c'.st k = c.st k ∧ c'.ct k = c.ct k := fun k hk => by
    simp only [Ctx.st, Ctx.ct, (h.above k hk.le).2.2.1, and_self]
  have dn : ∀ k, i + 1 < k → c'.st (k + 1) = c.st k ∧ c'.ct (k + 1) = c.ct k := fun k hk => by
    simp only [Ctx.st, Ctx.ct, (h.below k (by omega)).2.2.1, and_self]
  have hrows := rows_inner h
    (r := fun k => ![0.5 * c.dmd2 k * -c.st k * mag / c.G, 0.5 * c.dmd2 k * c.ct k * mag / c.G, 0])
    (r' := fun k => ![0.5 * c'.dmd2 k * -c'.st k * mag / c'.G, 0.5 * c'.dmd2 k * c'.ct k * mag / c'.G, 0])
    (q := fun k => ![0.5 * c.dmd k * -c.st k * mag / c.G, 0.5 * c.dmd k * c.ct k * mag / c.G, 0])
    (q' := fun k => ![0.5 * c'.dmd k * -c'.st k * mag / c'.G, 0.5 * c'.dmd k * c'.ct k * mag / c'.G, 0])
    (fun k hk => by
      simp only [dmd2_above h hk, dmd_above h hk.le, (up k hk).1, (up k hk).2, hG, and_self])
    (fun k hk => by
      simp only [dmd2_below h hk, dmd_below h hk, (dn k hk).1, (dn k hk).2, hG, and_self])
  cases b
  · exact ⟨_, _, rfl, rfl, hrows⟩
  · refine ⟨_, _, by simp only [singABXY, if_true, if_neg n1]; rfl,
      by simp only [singABXY, if_true, if_neg n2]; rfl, rows_set h hrows fun h1 => ?_⟩
    simp only [(h.above 2 h1).1, (h.above 1 h1.le).1, (h.above 0 (by omega)).1,
      (h.above 1 h1.le).2.2.1, hG, and_self]

theorem singRows_added {f : Func} (hf : byCourseLength f = false) (τ mag : ℝ) (hi0 : 1 ≤ i) :
    (singRows f c τ mag = none ∧ singRows f c' τ mag = none) ∨
    (∃ x, singRows f c τ mag = some (.error x) ∧ singRows f c' τ mag = some (.error x)) ∨
    ∃ x x', singRows f c τ mag = some (.ok x) ∧ singRows f c' τ mag = some (.ok x') ∧
      RowsMoved i x x' := by
  obtain ⟨hr4, -, -, -, -, hr, -⟩ := h.same
  cases f <;> simp [byCourseLength] at hf <;> try exact .inl ⟨rfl, rfl⟩
  case ABIXY_TI2 =>
    right
    rcases singABXY_added h (mag := mag) (b := true) hi0 with ⟨x, h1, h2⟩ | ⟨x, x', h1, h2, h3⟩
    · exact .inl ⟨x, by simp only [singRows, h1], by simp only [singRows, h2]⟩
    · exact .inr ⟨x, x', by simp only [singRows, h1], by simp only [singRows, h2], h3⟩
  case ABXY_TI2 =>
    right
    rcases singABXY_added h (mag := mag) (b := !c.s.rev4) hi0 with ⟨x, h1, h2⟩ | ⟨x, x', h1, h2, h3⟩
    · exact .inl ⟨x, by simp only [singRows, h1], by simp only [singRows, hr4, h2]⟩
    · exact .inr ⟨x, x', by simp only [singRows, h1], by simp only [singRows, hr4, h2], h3⟩
  case CNA =>
    right
    cases href : c.ref with
    | magnetic =>
      exact .inl ⟨_, by simp only [singRows, cnaAzi, href]; rfl,
        by simp only [singRows, cnaAzi, hr, href]⟩
    | grid =>
      refine .inr ⟨_, _, by simp only [singRows, cnaAzi, href]; rfl,
        by simp only [singRows, cnaAzi, hr, href]; rfl, rows_inner h (fun k hk => ?_) fun k hk => ?_⟩
      · simp only [dmd2_above h hk, dmd_above h hk.le, (h.above k hk.le).2.2.2.2.2, and_self]
      · simp only [dmd2_below h hk, dmd_below h hk, (h.below k (by omega)).2.2.2.2.2, and_self]
    | true =>
      refine .inr ⟨_, _, by simp only [singRows, cnaAzi, href]; rfl,
        by simp only [singRows, cnaAzi, hr, href]; rfl, rows_inner h (fun k hk => ?_) fun k hk => ?_⟩
      · simp only [dmd2_above h hk, dmd_above h hk.le, (h.above k hk.le).2.2.1, and_self]
      · simp only [dmd2_below h hk, dmd_below h hk, (h.below k (by omega)).2.2.1, and_self]
  case XYM3 | XYM4 =>
    refine .inr (.inr ⟨_, _, rfl, rfl, rows_inner h (fun k hk => ?_) fun k hk => ?_⟩)
    · simp only [dmd2_above h hk, dmd_above h hk.le, and_self]
    · simp only [dmd2_below h hk, dmd_below h hk, and_self]

/-- A station below the vertical limit in one survey is one in the other. -/
theorem upright_added : (∃ k < c'.s.n, c'.s.inc k < c'.vlim) ↔ ∃ k < c.s.n, c.s.inc k < c.vlim := by
  obtain ⟨-, -, -, -, hv, -⟩ := h.same
  have hn := h.count
  have hin := h.inside
  rw [hv]
  constructor
  · rintro ⟨k, hk, hlt⟩
    rcases Nat.lt_trichotomy k (i + 1) with h1 | rfl | h1
    · exact ⟨k, by omega, by rwa [(h.above k (by omega)).2.1] at hlt⟩
    · exact ⟨i, by omega, by rwa [h.added.1] at hlt⟩
    · obtain ⟨m, rfl⟩ : ∃ m, k = m + 1 := ⟨k - 1, by omega⟩
      exact ⟨m, by omega, by rwa [(h.below m (by omega)).2.1] at hlt⟩
  · rintro ⟨k, hk, hlt⟩
    by_cases h1 : k ≤ i
    · exact ⟨k, by omega, by rwa [(h.above k h1).2.1]⟩
    · exact ⟨k + 1, by omega, by rwa [(h.below k (by omega)).2.1]⟩

/-- Replacing the rows of stations below the vertical limit. -/
theorem sigma_replaced (hi0 : 1 ≤ i) (hv : c.vlim ≤ c.s.inc i) {f : Func}
    (hf : byCourseLength f = false) (τ mag : ℝ) {x x' : (ℕ → V) × (ℕ → V)} (hx : RowsMoved i x x')
    (k : ℕ) :
    sigmaSystematic (replaceSing c' (eNEV c'.s (eDIA f c' τ mag)) x'.1)
        (replaceSing c' (eNEVStar c'.s (eDIA f c' τ mag)) x'.2) (movedTo i k)
      = sigmaSystematic (replaceSing c (eNEV c.s (eDIA f c τ mag)) x.1)
        (replaceSing c (eNEVStar c.s (eDIA f c τ mag)) x.2) k := by
  obtain ⟨-, hG, hd, hb, hl, -⟩ := h.same
  have hmid := eNEV_middle h hi0 (e := eDIA f c τ mag) (e' := eDIA f c' τ mag)
    (eDIA_above h hf τ mag le_rfl) (eDIA_below h hf τ mag (by omega))
    (eDIA_direction hf h.added.1 h.added.2.1 h.added.2.2 hG hd hb _ _ _)
    (eDIA_direction hf h.straight.1 h.straight.2.1 h.straight.2.2 rfl rfl rfl _ _ _)
  have v0 : ¬c'.s.inc i < c'.vlim := by rw [hl, (h.above i le_rfl).2.1]; exact not_lt.mpr hv
  have v1 : ¬c'.s.inc (i + 1) < c'.vlim := by rw [hl, h.added.1]; exact not_lt.mpr hv
  have v2 : ¬c'.s.inc (i + 2) < c'.vlim := by
    rw [hl, (h.below (i + 1) (by omega)).2.1, h.straight.1]; exact not_lt.mpr hv
  have w0 : ¬c.s.inc i < c.vlim := not_lt.mpr hv
  have w1 : ¬c.s.inc (i + 1) < c.vlim := by rw [h.straight.1]; exact not_lt.mpr hv
  refine sigma_added hi0 (fun j hj => ?_) (fun j hj => ?_) (fun j hj => ?_) (fun j hj => ?_) ?_ ?_ k
  · simp only [replaceSing, hl, (h.above j hj.le).2.1, (hx.1 j hj).1,
      eNEV_above h hj (eDIA_above h hf τ mag hj.le)]
  · rcases Nat.lt_or_ge j i with h1 | h1
    · simp only [replaceSing, hl, (h.above j hj).2.1, (hx.1 j h1).2,
        eNEVStar_above h hj (eDIA_above h hf τ mag hj)]
    · obtain rfl : j = i := by omega
      simp only [replaceSing, if_neg v0, if_neg w0, eNEVStar_above h hj (eDIA_above h hf τ mag hj)]
  · simp only [replaceSing, hl, (h.below j (by omega)).2.1, (hx.2 j hj).1,
      eNEV_below h hj (eDIA_below h hf τ mag (by omega))]
  · simp only [replaceSing, hl, (h.below j (by omega)).2.1, (hx.2 j hj).2,
      eNEVStar_below h hj (eDIA_below h hf τ mag (by omega))]
  · simp only [replaceSing, if_neg v0, if_neg v1, if_neg v2, if_neg w0, if_neg w1, hmid.1]
  · simp only [replaceSing, if_neg v0, if_neg v1, if_neg v2, if_neg w0, if_neg w1, hmid.2]

theorem sigma_plain (hi0 : 1 ≤ i) {f : Func} (hf : byCourseLength f = false) (τ mag : ℝ) (k : ℕ) :
    sigmaSystematic (eNEV c'.s (eDIA f c' τ mag)) (eNEVStar c'.s (eDIA f c' τ mag)) (movedTo i k)
      = sigmaSystematic (eNEV c.s (eDIA f c τ mag)) (eNEVStar c.s (eDIA f c τ mag)) k := by
  obtain ⟨-, hG, hd, hb, hl, -⟩ := h.same
  have hmid := eNEV_middle h hi0 (e := eDIA f c τ mag) (e' := eDIA f c' τ mag)
    (eDIA_above h hf τ mag le_rfl) (eDIA_below h hf τ mag (by omega))
    (eDIA_direction hf h.added.1 h.added.2.1 h.added.2.2 hG hd hb _ _ _)
    (eDIA_direction hf h.straight.1 h.straight.2.1 h.straight.2.2 rfl rfl rfl _ _ _)
  exact sigma_added hi0 (fun j hj => eNEV_above h hj (eDIA_above h hf τ mag hj.le))
    (fun j hj => eNEVStar_above h hj (eDIA_above h hf τ mag hj))
    (fun j hj => eNEV_below h hj (eDIA_below h hf τ mag (by omega)))
    (fun j hj => eNEVStar_below h hj (eDIA_below h hf τ mag (by omega))) hmid.1 hmid.2 k

/-- **C341** (one source): a further station on a straight interval below the first one leaves the
covariance that a systematic, global or within-pad source contributes at every other station as it
is. -/
theorem C341_source (hi0 : 1 ≤ i) (hv : c.vlim ≤ c.s.inc i) {f : Func}
    (hf : byCourseLength f = false) {mag : ℝ} {p : Prop'} (hp : forcedProp f p ≠ .random) {t : Term}
    (ht : callFunc f c mag p = .ok (some t)) :
    ∃ t', callFunc f c' mag p = .ok (some t') ∧ ∀ k, t'.cov (movedTo i k) = t.cov k := by
  have hX : ¬(f = .XCLA ∨ f = .XCLH) := by rintro (rfl | rfl) <;> simp [byCourseLength] at hf
  have hE : f ≠ .XYM4E := by rintro rfl; simp [byCourseLength] at hf
  have hu : f.usesTortuosity = false := by cases f <;> simp [byCourseLength] at hf <;> rfl
  have hτ : c'.tortuosity = c.tortuosity := h.same.2.2.2.2.2.2
  simp only [callFunc, hu, Bool.false_and, Bool.false_eq_true, if_false, if_neg hX, hE, false_and, hτ,
    upright_added h] at ht ⊢
  generalize c.tortuosity.getD 0 = τ at *
  generalize forcedProp f p = q at *
  have key : ∀ x x' : (ℕ → V) × (ℕ → V), (∀ k, sigmaSystematic x'.1 x'.2 (movedTo i k)
      = sigmaSystematic x.1 x.2 k) → generateError c.s (eDIA f c τ mag) q (some x) = some t →
      ∃ t', generateError c'.s (eDIA f c' τ mag) q (some x') = some t' ∧
        ∀ k, t'.cov (movedTo i k) = t.cov k := by
    intro x x' hs hg
    cases q <;> simp [generateError, propagate] at hp hg ⊢ <;> subst hg <;> simp [hs]
  rcases singRows_added h hf τ mag hi0 with ⟨h1, h2⟩ | ⟨x, h1, h2⟩ | ⟨x, x', h1, h2, h3⟩
  · rw [h1] at ht
    rw [h2]
    simp only [Except.ok.injEq] at ht ⊢
    exact key _ _ (sigma_plain h hi0 hf τ mag) ht
  · rw [h1] at ht
    rw [h2]
    simp only at ht ⊢
    split_ifs at ht ⊢ with hc
    simp only [Except.ok.injEq] at ht ⊢
    exact key _ _ (sigma_plain h hi0 hf τ mag) ht
  · rw [h1] at ht
    rw [h2]
    simp only at ht ⊢
    split_ifs at ht ⊢ with hc
    · simp only [Except.ok.injEq] at ht ⊢
      exact key _ _ (sigma_replaced h hi0 hv hf τ mag h3) ht
    · simp only [Except.ok.injEq] at ht ⊢
      exact key _ _ (sigma_plain h hi0 hf τ mag) ht
end

end Welleng.Props
