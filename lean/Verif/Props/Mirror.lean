import Verif.Props.Weights
import Mathlib.Analysis.Real.Pi.Bounds

/-!
C329: the uncertainty of a well that is mirrored in a vertical plane through north.
-/

namespace Welleng.Props

open Real Finset Spec Err

/-- Reflection in the vertical plane through north: east becomes west. -/
def mirM : M3 := !![1, 0, 0; 0, -1, 0; 0, 0, 1]

/-- The mirrored well: every azimuth changes its sign. -/
def mirror (c : Ctx) : Ctx := { c with
  s := { c.s with azi := fun k => -c.s.azi k }
  aziMag := fun k => -c.aziMag k
  aziGrid := fun k => -c.aziGrid k }

/-- A mirrored error vector. -/
def mirV (v : V) : V := ![v 0, -v 1, v 2]

/-- The errors in depth, inclination and azimuth that belong to a mirrored error vector. -/
def flipDIA (e : V) : V := ![e 0, e 1, -e 2]

theorem mirV_add (u v : V) : mirV (u + v) = mirV u + mirV v := by
  funext i; fin_cases i <;> simp [mirV]; ring

theorem mirV_sum (e : ℕ → V) (k : ℕ) :
    mirV (∑ j ∈ range k, e j) = ∑ j ∈ range k, mirV (e j) := by
  induction k with
  | zero => funext i; fin_cases i <;> simp [mirV]
  | succ k ih => rw [sum_range_succ, sum_range_succ, mirV_add, ih]

theorem cov_mirV {σ : ℝ} (hσ : σ * σ = 1) (v : V) :
    covFromVec (σ • mirV v) = mirM * covFromVec v * mirM := by
  ext i j
  simp only [Matrix.mul_apply, Fin.sum_univ_three, covFromVec, Matrix.of_apply]
  fin_cases i <;> fin_cases j <;> simp [mirV, mirM] <;>
    first | linear_combination (v 0 * v 0) * hσ | linear_combination (v 0 * v 1) * hσ
          | linear_combination (v 0 * v 2) * hσ | linear_combination (v 1 * v 1) * hσ
          | linear_combination (v 1 * v 2) * hσ | linear_combination (v 2 * v 2) * hσ
          | linear_combination -(v 0 * v 1) * hσ | linear_combination -(v 1 * v 2) * hσ

theorem eNEV_mirror {σ : ℝ} (c : Ctx) {e e' : ℕ → V} {k : ℕ} (h : e' k = σ • flipDIA (e k)) :
    eNEV (mirror c).s e' k = σ • mirV (eNEV c.s e k) := by
  simp only [eNEV]
  by_cases h0 : k = 0
  · funext i; fin_cases i <;> simp [h0, mirV]
  · have h00 : e' k 0 = σ * e k 0 := by rw [h]; simp [flipDIA]
    have h01 : e' k 1 = σ * e k 1 := by rw [h]; simp [flipDIA]
    have h02 : e' k 2 = -(σ * e k 2) := by rw [h]; simp [flipDIA]
    obtain ⟨m, rfl⟩ : ∃ m, k = m + 1 := ⟨k - 1, by omega⟩
    have hr : (mirror c).s.rev4 = c.s.rev4 := rfl
    simp only [h00, h01, h02, if_neg h0]
    by_cases hn : m + 1 + 1 < c.s.n
    · have hn' : m + 1 + 1 < (mirror c).s.n := hn
      funext i
      fin_cases i <;> simp [drdp, hr, hn, hn', mirV] <;> simp [mirror] <;> (try split_ifs) <;> ring
    · have hn' : ¬ m + 1 + 1 < (mirror c).s.n := hn
      funext i
      fin_cases i <;> simp [drdp, hr, hn, hn', mirV] <;> simp [mirror] <;> (try split_ifs) <;> ring

theorem eNEVStar_mirror {σ : ℝ} (c : Ctx) {e e' : ℕ → V} {k : ℕ} (h : e' k = σ • flipDIA (e k)) :
    eNEVStar (mirror c).s e' k = σ • mirV (eNEVStar c.s e k) := by
  simp only [eNEVStar]
  by_cases h0 : k = 0
  · funext i; fin_cases i <;> simp [h0, mirV]
  · have h00 : e' k 0 = σ * e k 0 := by rw [h]; simp [flipDIA]
    have h01 : e' k 1 = σ * e k 1 := by rw [h]; simp [flipDIA]
    have h02 : e' k 2 = -(σ * e k 2) := by rw [h]; simp [flipDIA]
    obtain ⟨m, rfl⟩ : ∃ m, k = m + 1 := ⟨k - 1, by omega⟩
    have hr : (mirror c).s.rev4 = c.s.rev4 := rfl
    simp only [h00, h01, h02, if_neg h0]
    funext i
    fin_cases i <;> simp [drdp, hr, mirV] <;> simp [mirror] <;> (try split_ifs) <;> ring

/-- Minus one for the sources whose error vector is also reversed. -/
def side : Func → ℝ
  | .ABIXY_TI2 | .ABXY_TI2 | .ASXY_TI3 | .ASIXY_TI3 | .CNA | .MBXY_TI2 | .MBIXY_TI2 | .MSXY_TI3
  | .MSIXY_TI3 | .AZ | .DBH | .DBHR | .XYM2 | .XYM4 | .XYM4E | .XCLA | .XYM4L => -1
  | _ => 1

theorem side_sq (f : Func) : side f * side f = 1 := by cases f <;> simp [side]

theorem funky_mirror (c : Ctx) (k : ℕ) : (mirror c).funky k = c.funky k := by
  simp [Ctx.funky, mirror]
theorem sm_mirror (c : Ctx) (k : ℕ) : (mirror c).sm k = -c.sm k := by simp [Ctx.sm, mirror]
theorem cm_mirror (c : Ctx) (k : ℕ) : (mirror c).cm k = c.cm k := by simp [Ctx.cm, mirror]
theorem st_mirror (c : Ctx) (k : ℕ) : (mirror c).st k = -c.st k := by simp [Ctx.st, mirror]
theorem ct_mirror (c : Ctx) (k : ℕ) : (mirror c).ct k = c.ct k := by simp [Ctx.ct, mirror]
theorem si_mirror (c : Ctx) (k : ℕ) : (mirror c).si k = c.si k := rfl
theorem ci_mirror (c : Ctx) (k : ℕ) : (mirror c).ci k = c.ci k := rfl
theorem mix_mirror (c : Ctx) (k : ℕ) : (mirror c).mix k = c.mix k := by simp [Ctx.mix, mirror]
theorem dmd_mirror (c : Ctx) (k : ℕ) : (mirror c).dmd k = c.dmd k := rfl
theorem dmd2_mirror (c : Ctx) (k : ℕ) : (mirror c).dmd2 k = c.dmd2 k := rfl
theorem coeff_mirror (c : Ctx) (k : ℕ) : coeff (mirror c) k = coeff c k := rfl

theorem eDIA_mirror {f : Func} (h3 : f ≠ .XYM3E) (hA : f ≠ .XCLA) (hH : f ≠ .XCLH) (c : Ctx)
    (τ mag : ℝ) (k : ℕ) :
    eDIA f (mirror c) τ mag k = side f • flipDIA (eDIA f c τ mag k) := by
  have g1 : (mirror c).G = c.G := rfl
  have g2 : (mirror c).dip = c.dip := rfl
  have g3 : (mirror c).bTotal = c.bTotal := rfl
  have g4 : (mirror c).s.md = c.s.md := rfl
  have g5 : (mirror c).s.inc = c.s.inc := rfl
  have g6 : (mirror c).tvd = c.tvd := rfl
  cases f <;> first | exact absurd rfl h3 | exact absurd rfl hA | exact absurd rfl hH | skip
  all_goals
    funext i
    fin_cases i <;>
      simp [eDIA, dpde, side, flipDIA, funky_mirror, sm_mirror, cm_mirror, st_mirror, ct_mirror,
        si_mirror, ci_mirror, mix_mirror, coeff_mirror, g1, g2, g3, g4, g5, g6] <;>
      (try split_ifs) <;> (try simp) <;> (try ring)

theorem eDIA_mirror_extended (c : Ctx) (τ mag : ℝ) {k : ℕ} (h : c.vlim ≤ c.s.inc k) :
    eDIA .XYM3E (mirror c) τ mag k = side .XYM3E • flipDIA (eDIA .XYM3E c τ mag k) := by
  have g5 : (mirror c).s.inc = c.s.inc := rfl
  have g6 : (mirror c).vlim = c.vlim := rfl
  funext i
  fin_cases i <;>
    simp [eDIA, dpde, side, flipDIA, st_mirror, ct_mirror, si_mirror, ci_mirror, coeff_mirror, g5, g6,
      not_lt.2 h] <;> (try split_ifs) <;> (try simp) <;> (try ring)

theorem xclaDelta_mirror (c : Ctx) (k : ℕ) : xclaDelta (mirror c) k = xclaDelta c k := by
  have g5 : (mirror c).s.inc = c.s.inc := rfl
  have g6 : (mirror c).vlim = c.vlim := rfl
  simp only [xclaDelta, g5, g6]
  split
  · rfl
  · have key : ∀ w : ℝ, |sin (|pmod (w + π) (2 * π) - π|)| = |sin w| := by
      intro w
      have h1 : sin (pmod (w + π) (2 * π) - π) = sin w := by
        unfold pmod
        rw [show w + π - 2 * π * ↑⌊(w + π) / (2 * π)⌋ - π
          = w - ((⌊(w + π) / (2 * π)⌋ : ℤ) : ℝ) * (2 * π) by ring, sin_sub_int_mul_two_pi]
      rcases abs_choice (pmod (w + π) (2 * π) - π) with h | h
      · rw [h, h1]
      · rw [h, sin_neg, abs_neg, h1]
    rw [abs_mul, abs_mul, key, key]
    have : (mirror c).s.azi k - (mirror c).s.azi (k - 1) = -(c.s.azi k - c.s.azi (k - 1)) := by
      simp only [mirror]; ring
    rw [this, sin_neg, abs_neg]

theorem eDIA_mirror_course {f : Func} (hf : f = .XCLA ∨ f = .XCLH) (c : Ctx) (τ mag : ℝ) (k : ℕ) :
    eDIA f (mirror c) τ mag k = side f • mirV (eDIA f c τ mag k) := by
  have g5 : (mirror c).s.inc = c.s.inc := rfl
  funext i
  rcases hf with rfl | rfl
  · by_cases h0 : k = 0
    · fin_cases i <;> simp [eDIA, dpde, h0, mirV, side]
    · fin_cases i <;> simp [mirV, eDIA, dpde, side, h0, xclaDelta_mirror, st_mirror, ct_mirror,
        dmd_mirror]
  · by_cases h0 : k = 0
    · fin_cases i <;> simp [eDIA, dpde, h0, mirV, side]
    · fin_cases i <;> simp [mirV, eDIA, dpde, side, h0, st_mirror, ct_mirror, si_mirror, ci_mirror,
        dmd_mirror, g5]

/-- Stations that count as vertical are exactly vertical. -/
def TrulyVertical (c : Ctx) : Prop := ∀ k < c.s.n, c.s.inc k < c.vlim → sin (c.s.inc k) = 0

/-- The two sources with extended misalignment. -/
def extended : Func → Bool
  | .XYM3E | .XYM4E => true
  | _ => false

theorem eNEV_extended (c : Ctx) (τ mag : ℝ) {k : ℕ} (h : c.s.inc k < c.vlim → sin (c.s.inc k) = 0) :
    eNEV (mirror c).s (eDIA .XYM3E (mirror c) τ mag) k
      = mirV (eNEV c.s (eDIA .XYM3E c τ mag) k) := by
  by_cases hv : c.vlim ≤ c.s.inc k
  · have := eNEV_mirror c (eDIA_mirror_extended c τ mag hv)
    simpa [side] using this
  · have hs := h (not_le.1 hv)
    have h0 : eDIA .XYM3E (mirror c) τ mag k 0 = eDIA .XYM3E c τ mag k 0 := by
      simp [eDIA, dpde]
      left; split_ifs <;> simp
    have h1 : eDIA .XYM3E (mirror c) τ mag k 1 = eDIA .XYM3E c τ mag k 1 := by
      simp [eDIA, dpde, ci_mirror, ct_mirror, coeff_mirror]
      left; split_ifs <;> simp
    have h2 : eNEV (mirror c).s (eDIA .XYM3E (mirror c) τ mag) k
        = eNEV (mirror c).s (fun _ => (1 : ℝ) • flipDIA (eDIA .XYM3E c τ mag k)) k := by
      simp only [eNEV]
      split
      · rfl
      · have hs' : sin ((mirror c).s.inc k) = 0 := hs
        funext i
        fin_cases i <;> simp [drdp, hs', h0, h1, flipDIA]
    rw [h2, eNEV_mirror c (σ := 1) (e := eDIA .XYM3E c τ mag) rfl, one_smul]

theorem eNEVStar_extended (c : Ctx) (τ mag : ℝ) {k : ℕ}
    (h : c.s.inc k < c.vlim → sin (c.s.inc k) = 0) :
    eNEVStar (mirror c).s (eDIA .XYM3E (mirror c) τ mag) k
      = mirV (eNEVStar c.s (eDIA .XYM3E c τ mag) k) := by
  by_cases hv : c.vlim ≤ c.s.inc k
  · have := eNEVStar_mirror c (eDIA_mirror_extended c τ mag hv)
    simpa [side] using this
  · have hs := h (not_le.1 hv)
    have h0 : eDIA .XYM3E (mirror c) τ mag k 0 = eDIA .XYM3E c τ mag k 0 := by
      simp [eDIA, dpde]
      left; split_ifs <;> simp
    have h1 : eDIA .XYM3E (mirror c) τ mag k 1 = eDIA .XYM3E c τ mag k 1 := by
      simp [eDIA, dpde, ci_mirror, ct_mirror, coeff_mirror]
      left; split_ifs <;> simp
    have h2 : eNEVStar (mirror c).s (eDIA .XYM3E (mirror c) τ mag) k
        = eNEVStar (mirror c).s (fun _ => (1 : ℝ) • flipDIA (eDIA .XYM3E c τ mag k)) k := by
      simp only [eNEVStar]
      split
      · rfl
      · have hs' : sin ((mirror c).s.inc k) = 0 := hs
        funext i
        fin_cases i <;> simp [drdp, hs', h0, h1, flipDIA]
    rw [h2, eNEVStar_mirror c (σ := 1) (e := eDIA .XYM3E c τ mag) rfl, one_smul]

/-- The error vectors of every source but course length are mirrored. -/
theorem vectors_mirror {f : Func} (hX : ¬(f = .XCLA ∨ f = .XCLH)) (c : Ctx)
    (hv : extended f = true → TrulyVertical c) (τ mag : ℝ) {k : ℕ} (hk : k < c.s.n) :
    eNEV (mirror c).s (eDIA f (mirror c) τ mag) k = side f • mirV (eNEV c.s (eDIA f c τ mag) k) ∧
    eNEVStar (mirror c).s (eDIA f (mirror c) τ mag) k
      = side f • mirV (eNEVStar c.s (eDIA f c τ mag) k) := by
  by_cases h3 : f = .XYM3E
  · subst h3
    rw [eNEV_extended c τ mag (hv rfl k hk), eNEVStar_extended c τ mag (hv rfl k hk)]
    simp [side]
  · have := eDIA_mirror h3 (fun h => hX (.inl h)) (fun h => hX (.inr h)) c τ mag k
    exact ⟨eNEV_mirror c this, eNEVStar_mirror c this⟩

/-- Replacement rows of the mirrored well. -/
def MirSing (σ : ℝ) (n : ℕ) (r r' : Except Exc ((ℕ → V) × (ℕ → V))) : Prop :=
  (∃ x, r = .error x ∧ r' = .error x) ∨
  ∃ a b a' b', r = .ok (a, b) ∧ r' = .ok (a', b') ∧
    ∀ k < n, a' k = σ • mirV (a k) ∧ b' k = σ • mirV (b k)

theorem inner_mirror {σ : ℝ} (c : Ctx) {row row' : ℕ → V} (h : ∀ k, row' k = σ • mirV (row k)) (k : ℕ) :
    inner (mirror c) row' k = σ • mirV (inner c row k) := by
  have : (mirror c).s.n = c.s.n := rfl
  simp only [Err.inner, this]
  split
  · funext i; fin_cases i <;> simp [mirV]
  · exact h k

theorem setRow1_mirror {σ : ℝ} {arr arr' : ℕ → V} {i : Fin 3} {x y : ℝ}
    (h : ∀ k, arr' k = σ • mirV (arr k)) (hx : y = σ * (if i = 1 then -x else x)) (k : ℕ) :
    setRow1 arr' i y k = σ • mirV (setRow1 arr i x k) := by
  simp only [setRow1]
  split
  · rw [h]
    funext j
    subst hx
    fin_cases i <;> fin_cases j <;> simp [mirV]
  · exact h k

theorem singABXY_mirror (c : Ctx) (mag : ℝ) (patch : Bool) :
    MirSing (-1) c.s.n (singABXY c mag patch) (singABXY (mirror c) mag patch) := by
  have g1 : (mirror c).G = c.G := rfl
  have g2 : (mirror c).s.md = c.s.md := rfl
  have g3 : (mirror c).s.n = c.s.n := rfl
  have ha : ∀ k, inner (mirror c) (fun k => ![0.5 * (mirror c).dmd2 k * -(mirror c).st k * mag / (mirror c).G,
      0.5 * (mirror c).dmd2 k * (mirror c).ct k * mag / (mirror c).G, 0]) k
      = (-1 : ℝ) • mirV (inner c (fun k => ![0.5 * c.dmd2 k * -c.st k * mag / c.G,
      0.5 * c.dmd2 k * c.ct k * mag / c.G, 0]) k) := by
    refine inner_mirror c fun k => ?_
    funext i
    fin_cases i <;> simp [mirV, st_mirror, ct_mirror, dmd2_mirror, g1]
    ring
  have hb : ∀ k, inner (mirror c) (fun k => ![0.5 * (mirror c).dmd k * -(mirror c).st k * mag / (mirror c).G,
      0.5 * (mirror c).dmd k * (mirror c).ct k * mag / (mirror c).G, 0]) k
      = (-1 : ℝ) • mirV (inner c (fun k => ![0.5 * c.dmd k * -c.st k * mag / c.G,
      0.5 * c.dmd k * c.ct k * mag / c.G, 0]) k) := by
    refine inner_mirror c fun k => ?_
    funext i
    fin_cases i <;> simp [mirV, st_mirror, ct_mirror, dmd_mirror, g1]
    ring
  have hc : cos ((mirror c).s.azi 1) = cos (c.s.azi 1) := by simp [mirror]
  unfold singABXY
  simp only [g3]
  cases patch
  · exact .inr ⟨_, _, _, _, rfl, rfl, fun k _ => ⟨ha k, hb k⟩⟩
  · simp only [if_true]
    split
    · exact .inl ⟨_, rfl, rfl⟩
    · refine .inr ⟨_, _, _, _, rfl, rfl, fun k _ => ⟨?_, ?_⟩⟩
      · exact setRow1_mirror ha (by rw [hc, g1, g2]; simp) k
      · exact setRow1_mirror hb (by rw [hc, g1, g2]; simp) k

theorem singL_mirror (c : Ctx) (mag : ℝ) {i : Fin 3} {σ : ℝ} (co : ℝ)
    (hi : i = 0 ∧ σ = 1 ∨ i = 1 ∧ σ = -1) :
    MirSing σ c.s.n (singL c mag i co) (singL (mirror c) mag i co) := by
  have g3 : (mirror c).s.n = c.s.n := rfl
  have hid : ∀ v : V, (∃ x, v = Pi.single i x) → v = σ • mirV v := by
    rintro v ⟨x, rfl⟩
    funext j
    rcases hi with ⟨rfl, rfl⟩ | ⟨rfl, rfl⟩ <;> fin_cases j <;> simp [mirV]
  have he : singL (mirror c) mag i co = singL c mag i co := rfl
  rw [he]
  unfold singL
  split
  · exact .inl ⟨_, rfl, rfl⟩
  · have hset : ∀ (arr : ℕ → V) (y : ℝ) (k : ℕ), (∃ x, arr k = Pi.single i x) →
        ∃ x, setRow1 arr i y k = Pi.single i x := by
      rintro arr y k ⟨x, hx⟩
      simp only [setRow1]
      split
      · exact ⟨y, by rw [hx]; exact Function.update_idem ..⟩
      · exact ⟨x, hx⟩
    refine .inr ⟨_, _, _, _, rfl, rfl, fun k _ => ⟨hid _ (hset _ _ _ ?_), hid _ (hset _ _ _ ?_)⟩⟩
    · split_ifs
      · exact ⟨0, (Pi.single_zero i).symm⟩
      · exact ⟨_, rfl⟩
      · exact ⟨_, rfl⟩
    · split_ifs
      · exact ⟨0, (Pi.single_zero i).symm⟩
      · exact ⟨_, rfl⟩

theorem onlyComp_mirror {i : Fin 3} {σ : ℝ} {arr arr' : ℕ → V} {k : ℕ}
    (hi : i = 0 ∧ σ = 1 ∨ i = 1 ∧ σ = -1) (h : arr' k = mirV (arr k)) :
    onlyComp i arr' 0 k = σ • mirV (onlyComp i arr 0 k) := by
  simp only [onlyComp, h]
  funext j
  rcases hi with ⟨rfl, rfl⟩ | ⟨rfl, rfl⟩ <;> fin_cases j <;> simp [mirV]

theorem singRows_mirror {f : Func} (c : Ctx) (hv : extended f = true → TrulyVertical c) (τ mag : ℝ) :
    (singRows f c τ mag = none ∧ singRows f (mirror c) τ mag = none) ∨
    ∃ r r', singRows f c τ mag = some r ∧ singRows f (mirror c) τ mag = some r' ∧
      MirSing (side f) c.s.n r r' := by
  have g4 : (mirror c).s.rev4 = c.s.rev4 := rfl
  cases f <;> first | exact .inl ⟨rfl, rfl⟩ | (refine .inr ⟨_, _, rfl, rfl, ?_⟩)
  · exact singABXY_mirror c mag _
  · rw [g4]; exact singABXY_mirror c mag _
  · have hr : (mirror c).ref = c.ref := rfl
    simp only [cnaAzi, hr]
    cases c.ref
    · refine .inr ⟨_, _, _, _, rfl, rfl, fun k _ => ⟨?_, ?_⟩⟩ <;>
        refine inner_mirror c (fun k => ?_) k <;> funext i <;>
        fin_cases i <;> simp [mirV, side, mirror, Ctx.dmd, Ctx.dmd2]
    · refine .inr ⟨_, _, _, _, rfl, rfl, fun k _ => ⟨?_, ?_⟩⟩ <;>
        refine inner_mirror c (fun k => ?_) k <;> funext i <;>
        fin_cases i <;> simp [mirV, side, mirror, Ctx.dmd, Ctx.dmd2]
    · exact .inl ⟨_, rfl, rfl⟩
  · refine .inr ⟨_, _, _, _, rfl, rfl, fun k _ => ⟨?_, ?_⟩⟩ <;>
      refine inner_mirror c (fun k => ?_) k <;> funext i <;>
      fin_cases i <;> simp [mirV, side, dmd_mirror, dmd2_mirror]
  · refine .inr ⟨_, _, _, _, rfl, rfl, fun k hk => ⟨?_, ?_⟩⟩
    · exact onlyComp_mirror (.inl ⟨rfl, rfl⟩) (eNEV_extended c τ mag (hv rfl k hk))
    · exact onlyComp_mirror (.inl ⟨rfl, rfl⟩) (eNEVStar_extended c τ mag (hv rfl k hk))
  · refine .inr ⟨_, _, _, _, rfl, rfl, fun k _ => ⟨?_, ?_⟩⟩ <;>
      refine inner_mirror c (fun k => ?_) k <;> funext i <;>
      fin_cases i <;> simp [mirV, side, dmd_mirror, dmd2_mirror]
  · refine .inr ⟨_, _, _, _, rfl, rfl, fun k hk => ⟨?_, ?_⟩⟩
    · exact onlyComp_mirror (.inr ⟨rfl, rfl⟩) (eNEV_extended c τ mag (hv rfl k hk))
    · exact onlyComp_mirror (.inr ⟨rfl, rfl⟩) (eNEVStar_extended c τ mag (hv rfl k hk))
  · exact singL_mirror c mag _ (.inl ⟨rfl, rfl⟩)
  · exact singL_mirror c mag _ (.inr ⟨rfl, rfl⟩)

theorem propagate_mirror {p : Prop'} {σ : ℝ} (hσ : σ * σ = 1) {n : ℕ} {e es e' es' : ℕ → V}
    (h : ∀ k < n, e' k = σ • mirV (e k) ∧ es' k = σ • mirV (es k)) :
    (propagate p e es = none ∧ propagate p e' es' = none) ∨
    ∃ m m', propagate p e es = some m ∧ propagate p e' es' = some m' ∧
      ∀ k < n, m' k = mirM * m k * mirM := by
  have sys : ∀ k < n, covFromVec (sigmaSystematic e' es' k)
      = mirM * covFromVec (sigmaSystematic e es k) * mirM := by
    intro k hk
    rw [← cov_mirV hσ]
    congr 1
    simp only [sigmaSystematic, mirV_add, smul_add]
    rw [(h k hk).2]
    congr 1
    split
    · exact (h 0 (by omega)).1
    · rw [mirV_sum, Finset.smul_sum]
      refine Finset.sum_congr rfl fun j hj => (h j ?_).1
      have := Finset.mem_range.1 hj
      omega
  cases p
  · refine .inr ⟨_, _, rfl, rfl, fun k hk => ?_⟩
    rw [(h k hk).2, cov_mirV hσ]
    split
    · simp
    · rw [mul_add, add_mul, Finset.mul_sum, Finset.sum_mul]
      congr 1
      refine Finset.sum_congr rfl fun j hj => ?_
      have := Finset.mem_range.1 hj
      rw [(h j (by omega)).1, cov_mirV hσ]
  · exact .inr ⟨_, _, rfl, rfl, sys⟩
  · exact .inr ⟨_, _, rfl, rfl, sys⟩
  · exact .inr ⟨_, _, rfl, rfl, sys⟩
  · exact .inl ⟨rfl, rfl⟩

/-- Two results of a source: the same exception, nothing, or mirrored covariances. -/
def MirRes (n : ℕ) (x x' : Except Exc (Option Term)) : Prop :=
  (∃ y, x = .error y ∧ x' = .error y) ∨ (x = .ok none ∧ x' = .ok none) ∨
  ∃ t t', x = .ok (some t) ∧ x' = .ok (some t') ∧ t'.prop = t.prop ∧
    ∀ k < n, t'.cov k = mirM * t.cov k * mirM

theorem generate_mirror {σ : ℝ} (hσ : σ * σ = 1) {n : ℕ} {s s' : Sv} {d d' : ℕ → V} {p : Prop'}
    {e es e' es' : ℕ → V} (h : ∀ k < n, e' k = σ • mirV (e k) ∧ es' k = σ • mirV (es k)) :
    MirRes n (.ok (generateError s d p (some (e, es)))) (.ok (generateError s' d' p (some (e', es')))) := by
  simp only [generateError]
  rcases propagate_mirror (p := p) hσ h with ⟨h1, h2⟩ | ⟨m, m', h1, h2, h3⟩
  · rw [h1, h2]
    exact .inr (.inl ⟨rfl, rfl⟩)
  · rw [h1, h2]
    exact .inr (.inr ⟨_, _, rfl, rfl, rfl, h3⟩)

theorem callFunc_mirror {f : Func} (c : Ctx) (hv : extended f = true → TrulyVertical c) (mag : ℝ)
    (p : Prop') : MirRes c.s.n (callFunc f c mag p) (callFunc f (mirror c) mag p) := by
  have g1 : (mirror c).tortuosity = c.tortuosity := rfl
  have g2 : (mirror c).s.n = c.s.n := rfl
  have g3 : (mirror c).s.inc = c.s.inc := rfl
  have g4 : (mirror c).vlim = c.vlim := rfl
  have hn : ∀ (s : Sv) (d : ℕ → V) (p : Prop'),
      generateError s d p none = generateError s d p (some (eNEV s d, eNEVStar s d)) := fun _ _ _ => rfl
  unfold callFunc
  simp only [g1]
  split
  · exact .inl ⟨_, rfl, rfl⟩
  · split
    · rename_i hX
      exact generate_mirror (side_sq f) fun k _ =>
        ⟨eDIA_mirror_course hX c _ mag k, eDIA_mirror_course hX c _ mag k⟩
    · rename_i hX
      have hvec := fun k (hk : k < c.s.n) => vectors_mirror hX c hv (c.tortuosity.getD 0) mag hk
      rcases singRows_mirror c hv (c.tortuosity.getD 0) mag with ⟨h1, h2⟩ | ⟨r, r', h1, h2, h3⟩
      · rw [h1, h2]
        simp only [hn]
        exact generate_mirror (side_sq f) hvec
      · rw [h1, h2]
        simp only [g2, g3, g4]
        split
        · split
          · exact .inl ⟨_, rfl, rfl⟩
          · rcases h3 with ⟨x, rfl, rfl⟩ | ⟨a, b, a', b', rfl, rfl, h3⟩
            · exact .inl ⟨_, rfl, rfl⟩
            · refine generate_mirror (side_sq f) fun k hk => ?_
              simp only [replaceSing, g3, g4]
              split
              · exact h3 k hk
              · exact hvec k hk
        · simp only [hn]
          exact generate_mirror (side_sq f) hvec

/-- All five totals are mirrored at the first `n` stations. -/
def MirTotals (n : ℕ) (T T' : Totals) : Prop := ∀ k < n,
  T'.total k = mirM * T.total k * mirM ∧ T'.random k = mirM * T.random k * mirM ∧
  T'.systematic k = mirM * T.systematic k * mirM ∧ T'.global k = mirM * T.global k * mirM ∧
  T'.withinPad k = mirM * T.withinPad k * mirM

theorem step_mirror {n : ℕ} {T T' : Totals} {t t' : Term} (h : MirTotals n T T')
    (hp : t'.prop = t.prop) (hc : ∀ k < n, t'.cov k = mirM * t.cov k * mirM) :
    MirTotals n (T.step t) (T'.step t') := by
  intro k hk
  obtain ⟨h1, h2, h3, h4, h5⟩ := h k hk
  have hk' := hc k hk
  simp only [Totals.step, hp]
  cases t.prop <;> simp only [Pi.add_apply, h1, h2, h3, h4, h5, hk', mul_add, add_mul] <;> simp

/-- Two runs of a tool model: the same exception, or mirrored totals. -/
def MirRun (n : ℕ) (x x' : Except Exc Totals) : Prop :=
  (∃ y, x = .error y ∧ x' = .error y) ∨
  ∃ T T', x = .ok T ∧ x' = .ok T' ∧ MirTotals n T T'

theorem loop_mirror (c : Ctx) : ∀ codes : List Entry,
    (∀ e ∈ codes, extended e.f = true → TrulyVertical c) →
    (∃ y, callAll c codes = .error y ∧ callAll (mirror c) codes = .error y) ∨
    ∃ ts ts', callAll c codes = .ok ts ∧ callAll (mirror c) codes = .ok ts' ∧
      ∀ T T', MirTotals c.s.n T T' → MirRun c.s.n (totalsLoop ts T) (totalsLoop ts' T') := by
  intro codes
  induction codes with
  | nil =>
    intro _
    exact .inr ⟨[], [], rfl, rfl, fun T T' h => .inr ⟨T, T', rfl, rfl, h⟩⟩
  | cons e es ih =>
    intro hv
    have h1 := callFunc_mirror c (hv e List.mem_cons_self) e.mag e.prop
    have h2 := ih fun x hx => hv x (List.mem_cons_of_mem _ hx)
    simp only [callAll]
    rcases h1 with ⟨y, a, b⟩ | ⟨a, b⟩ | ⟨t, t', a, b, hp, hc⟩
    · rw [a, b]
      exact .inl ⟨y, rfl, rfl⟩
    · rw [a, b]
      rcases h2 with ⟨y, a', b'⟩ | ⟨ts, ts', a', b', h⟩
      · rw [a', b']
        exact .inl ⟨y, rfl, rfl⟩
      · rw [a', b']
        refine .inr ⟨_, _, rfl, rfl, fun T T' hT => ?_⟩
        simp only [totalsLoop]
        exact .inl ⟨_, rfl, rfl⟩
    · rw [a, b]
      rcases h2 with ⟨y, a', b'⟩ | ⟨ts, ts', a', b', h⟩
      · rw [a', b']
        exact .inl ⟨y, rfl, rfl⟩
      · rw [a', b']
        refine .inr ⟨_, _, rfl, rfl, fun T T' hT => ?_⟩
        simp only [totalsLoop]
        exact h _ _ (step_mirror hT hp hc)

/-- **C329**: every tool model gives a well that is mirrored in the vertical plane through north the
mirrored covariances, in total and for each kind of propagation, or fails with the same exception; for
the two sources with extended misalignment if the stations that count as vertical are vertical. -/
theorem C329_mirrored (c : Ctx) (codes : List Entry)
    (hv : ∀ e ∈ codes, extended e.f = true → TrulyVertical c) :
    (∃ y, toolError c codes = .error y ∧ toolError (mirror c) codes = .error y) ∨
    ∃ T T', toolError c codes = .ok T ∧ toolError (mirror c) codes = .ok T' ∧ ∀ k < c.s.n,
      T'.total k = mirM * T.total k * mirM ∧ T'.random k = mirM * T.random k * mirM ∧
      T'.systematic k = mirM * T.systematic k * mirM ∧ T'.global k = mirM * T.global k * mirM ∧
      T'.withinPad k = mirM * T.withinPad k * mirM := by
  simp only [toolError, totals]
  rcases loop_mirror c codes hv with ⟨y, a, b⟩ | ⟨ts, ts', a, b, h⟩
  · rw [a, b]
    exact .inl ⟨y, rfl, rfl⟩
  · rw [a, b]
    exact h _ _ fun k _ => by simp

/-- A mirrored covariance: the variances are kept, and the covariances with east change sign. -/
theorem C329_entries (m : M3) : mirM * m * mirM =
    !![m 0 0, -m 0 1, m 0 2; -m 1 0, m 1 1, -m 1 2; m 2 0, -m 2 1, m 2 2] := by
  ext i j
  fin_cases i <;> fin_cases j <;>
    simp [mirM, Matrix.mul_apply, Fin.sum_univ_three, Matrix.vecMul, dotProduct]

/-- A nearly vertical station heading north-east, below the default limit of `1e-4`. -/
noncomputable def nearlyVertical : Ctx where
  s := { n := 2, md := fun k => 20 * k, inc := fun _ => 20000⁻¹, azi := fun _ => π / 4, rev4 := true }
  tvd := fun _ => 0
  aziMag := fun _ => π / 4
  aziGrid := fun _ => π / 4
  G := 1
  dip := 0
  bTotal := 1
  vlim := 1 / 10000
  ref := .grid
  tortuosity := none

/-- The hypotheses are met: a model of four sources on a well with a near-vertical station. -/
example : (∀ e ∈ ([⟨.XYM3, 1, .systematic⟩, ⟨.XYM4, 1, .systematic⟩, ⟨.MSZ, 1, .systematic⟩,
    ⟨.DREF, 1, .random⟩] : List Entry), extended e.f = true → TrulyVertical nearlyVertical) ∧
    ∃ T, toolError nearlyVertical [⟨.XYM3, 1, .systematic⟩, ⟨.XYM4, 1, .systematic⟩,
      ⟨.MSZ, 1, .systematic⟩, ⟨.DREF, 1, .random⟩] = .ok T := by
  refine ⟨by simp [extended], ?_⟩
  have hk : ∃ k < nearlyVertical.s.n, nearlyVertical.s.inc k < nearlyVertical.vlim :=
    ⟨0, by simp [nearlyVertical], by simp only [nearlyVertical]; norm_num⟩
  simp [toolError, totals, totalsLoop, callAll, callFunc, singRows, Func.usesTortuosity, forcedProp, hk,
    generateError, propagate]

/-- The exception is real: at a station that counts as vertical but is not, the north variance of an
extended misalignment changes if the well is mirrored. -/
theorem C329_extended_misalignment : ∃ t t',
    callFunc .XYM3E nearlyVertical 1 .random = .ok (some t) ∧
    callFunc .XYM3E (mirror nearlyVertical) 1 .random = .ok (some t') ∧
    t'.cov 1 0 0 ≠ (mirM * t.cov 1 * mirM) 0 0 := by
  have hk : ∃ k < nearlyVertical.s.n, nearlyVertical.s.inc k < nearlyVertical.vlim :=
    ⟨0, by simp [nearlyVertical], by simp only [nearlyVertical]; norm_num⟩
  have hk' : ∃ k < (mirror nearlyVertical).s.n,
    (mirror nearlyVertical).s.inc k < (mirror nearlyVertical).vlim := hk
  have hc : coeff nearlyVertical 1 = 1 := by
    have : √(10 / 20 : ℝ) ≤ 1 := by
      rw [Real.sqrt_le_left (by norm_num)]; norm_num
    have e : nearlyVertical.dmd 1 = 20 := by simp [Ctx.dmd, nearlyVertical]
    simp only [coeff, one_ne_zero, if_false, e]
    exact max_eq_left this
  have hc' : coeff (mirror nearlyVertical) 1 = 1 := hc
  have h : ∀ c : Ctx, (∃ k < c.s.n, c.s.inc k < c.vlim) → c.s.inc 1 < c.vlim →
      ∃ t, callFunc .XYM3E c 1 .random = .ok (some t) ∧
        t.cov 1 0 0 = eNEVStar c.s (eDIA .XYM3E c (c.tortuosity.getD 0) 1) 1 0 ^ 2 := by
    intro c h h1
    refine ⟨_, by simp [callFunc, singRows, Func.usesTortuosity, forcedProp, h, generateError,
      propagate]; rfl, ?_⟩
    simp [covFromVec, replaceSing, h1, onlyComp, eNEV]
    ring
  have hs : (0 : ℝ) < sin 20000⁻¹ := Real.sin_pos_of_pos_of_lt_pi (by norm_num)
    (by linarith [Real.pi_gt_three])
  have hcs : (0 : ℝ) < cos 20000⁻¹ := Real.cos_pos_of_mem_Ioo
    ⟨by linarith [Real.pi_gt_three], by linarith [Real.pi_gt_three]⟩
  have s3 : √2 * √2 = (2 : ℝ) := by norm_num
  have s4 : (0 : ℝ) < √2 := by positivity
  have ev : eNEVStar nearlyVertical.s
      (eDIA .XYM3E nearlyVertical (nearlyVertical.tortuosity.getD 0) 1) 1 0
      = 5 * cos 20000⁻¹ ^ 2 - 5 * √2 * sin 20000⁻¹ := by
    have e0 : eDIA .XYM3E nearlyVertical (nearlyVertical.tortuosity.getD 0) 1 1 =
        ![0, cos 20000⁻¹ * (√2 / 2), 1] := by
      funext i
      fin_cases i <;> simp [eDIA, dpde, hc, hc'] <;>
        simp [nearlyVertical, mirror, Ctx.ci, Ctx.ct, abs_of_pos hcs]
      · left; positivity
      · intro hh; norm_num at hh
    simp only [eNEVStar, one_ne_zero, if_false, e0]
    simp [drdp, nearlyVertical]
    linear_combination (5 / 2 * cos 20000⁻¹ ^ 2) * s3
  have ev' : eNEVStar (mirror nearlyVertical).s (eDIA .XYM3E (mirror nearlyVertical)
      ((mirror nearlyVertical).tortuosity.getD 0) 1) 1 0
      = 5 * cos 20000⁻¹ ^ 2 + 5 * √2 * sin 20000⁻¹ := by
    have e0 : eDIA .XYM3E (mirror nearlyVertical) ((mirror nearlyVertical).tortuosity.getD 0) 1 1 =
        ![0, cos 20000⁻¹ * (√2 / 2), 1] := by
      funext i
      fin_cases i <;> simp [eDIA, dpde, hc, hc'] <;>
        simp [nearlyVertical, mirror, Ctx.ci, Ctx.ct, abs_of_pos hcs]
      · left; positivity
      · intro hh; norm_num at hh
    simp only [eNEVStar, one_ne_zero, if_false, e0]
    simp [drdp, nearlyVertical, mirror]
    linear_combination (5 / 2 * cos 20000⁻¹ ^ 2) * s3
  have hl : nearlyVertical.s.inc 1 < nearlyVertical.vlim := by simp only [nearlyVertical]; norm_num
  obtain ⟨t, ht, et⟩ := h _ hk hl
  obtain ⟨t', ht', et'⟩ := h _ hk' hl
  refine ⟨t, t', ht, ht', ?_⟩
  rw [C329_entries, et', ev']
  simp only [Matrix.of_apply, Matrix.cons_val', Matrix.cons_val_zero]
  rw [et, ev]
  intro e
  have := mul_pos (mul_pos hs (pow_pos hcs 2)) s4
  nlinarith

end Welleng.Props
