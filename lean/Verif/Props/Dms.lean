import Verif.Model.Dms
import Mathlib.Data.Rat.Floor
import Mathlib.Tactic.NormNum

/-!
Properties C15 and C55: degrees / minutes / seconds conversion
(`/repo/welleng/utils.py` 703-830).
-/

namespace Welleng.Props

open Welleng.Dms

variable {α : Type*} [Field α] [LinearOrder α] [IsStrictOrderedRing α] [FloorRing α]

/-- The minutes counted from the whole degree. -/
private theorem minutes_split (a : α) :
    ((divFloor (a * 3600) 60 : ℤ) : α)
      = 60 * (⌊a⌋ : ℤ) + ((divFloor (a * 3600) 60 % 60 : ℤ) : α) := by
  have e : ⌊a⌋ = divFloor (a * 3600) 60 / 60 := by
    have h : a = (a * 3600 / 60) / (60 : ℕ) := by push_cast; field_simp; norm_num
    unfold divFloor
    conv_lhs => rw [h]
    rw [Int.floor_div_natCast]
    rfl
  rw [e]
  have := Int.mul_ediv_add_emod (divFloor (a * 3600) 60) 60
  exact_mod_cast this.symm

theorem abs_pyInt (d : α) : |((pyInt d : ℤ) : α)| = (⌊|d|⌋ : ℤ) := by
  unfold pyInt
  split_ifs with h
  · rw [abs_of_nonneg h, abs_of_nonneg]
    exact_mod_cast Int.floor_nonneg.2 h
  · push Not at h
    rw [abs_of_neg h, Int.floor_neg, abs_of_nonpos]
    · push_cast; rfl
    · have : ⌈d⌉ ≤ 0 := Int.ceil_le.2 (by simpa using h.le)
      exact_mod_cast this

/-- The value of the row, before the sign is put back. -/
private theorem magnitude (d s : α) :
    |((pyInt d : ℤ) : α)| + ((divFloor (|d| * 3600) 60 % 60 : ℤ) : α) / 60 + s / 3600
      = |d| + (s - (|d| * 3600 - 60 * (divFloor (|d| * 3600) 60 : ℤ))) / 3600 := by
  rw [abs_pyInt]
  have := minutes_split |d|
  rw [this]
  field_simp
  ring

/-- The seconds of an unrounded row are in `[0, 60)`. -/
private theorem sec_range (q : α) :
    0 ≤ q - 60 * (divFloor q 60 : ℤ) ∧ q - 60 * (divFloor q 60 : ℤ) < 60 := by
  have h1 := Int.floor_le (q / 60)
  have h2 := Int.lt_floor_add_one (q / 60)
  unfold divFloor
  rw [le_div_iff₀ (by norm_num)] at h1
  rw [div_lt_iff₀ (by norm_num)] at h2
  constructor <;> linarith

private theorem pyInt_neg_iff (d : α) : pyInt d < 0 ↔ d ≤ -1 := by
  unfold pyInt
  split_ifs with h
  · constructor
    · intro h'; exact absurd (Int.floor_nonneg.2 h) (by omega)
    · intro h'; linarith
  · have : ⌈d⌉ < 0 ↔ ⌈d⌉ ≤ -1 := by omega
    rw [this, Int.ceil_le]; push_cast; rfl

/-- C15: decimal → DMS → decimal returns the value for every angle outside the open interval
`(-1, 0)`. -/
theorem C15_round_trip_partial (d : α) (h : d ≤ -1 ∨ 0 ≤ d) :
    dms2decimal (decimal2dms d) = d := by
  simp only [dms2decimal, decimal2dms, optRound]
  rw [magnitude]
  rw [sub_self, zero_div, add_zero, copysign]
  rcases h with h | h
  · rw [if_pos ((pyInt_neg_iff d).2 h), abs_abs, abs_of_nonpos (by linarith)]; ring
  · rw [if_neg (fun h' => by have := (pyInt_neg_iff d).1 h'; linarith), abs_abs,
      abs_of_nonneg h]

example : dms2decimal (decimal2dms (-12.5125 : ℚ)) = -12.5125 :=
  C15_round_trip_partial _ (Or.inl (by norm_num))

/-- C15 is false of the code: every angle strictly between `-1` and `0` degrees comes back
with its sign lost. -/
theorem C15_sign_lost_below_one_degree (d : α) (h1 : -1 < d) (h2 : d < 0) :
    dms2decimal (decimal2dms d) = -d ∧ dms2decimal (decimal2dms d) ≠ d := by
  have key : dms2decimal (decimal2dms d) = -d := by
    simp only [dms2decimal, decimal2dms, optRound]
    rw [magnitude, sub_self, zero_div, add_zero, copysign,
      if_neg (fun h' => by have := (pyInt_neg_iff d).1 h'; linarith), abs_abs, abs_of_neg h2]
  refine ⟨key, ?_⟩
  rw [key]; intro h; linarith

/-- A longitude half a degree west of Greenwich. -/
example : dms2decimal (decimal2dms (-0.5 : ℚ)) = 0.5 := by
  have := (C15_sign_lost_below_one_degree (-0.5 : ℚ) (by norm_num) (by norm_num)).1
  rw [this]; norm_num

/-- C15: the row has whole minutes and seconds in `[0, 60)`, and the degrees are the angle
truncated towards zero. -/
theorem C15_row_is_normalised (d : α) :
    0 ≤ (decimal2dms d).min ∧ (decimal2dms d).min < 60 ∧
    0 ≤ (decimal2dms d).sec ∧ (decimal2dms d).sec < 60 ∧
    |((decimal2dms d).deg : α)| ≤ |d| ∧ |d| < |((decimal2dms d).deg : α)| + 1 := by
  refine ⟨Int.emod_nonneg _ (by norm_num), Int.emod_lt_of_pos _ (by norm_num),
    (sec_range _).1, (sec_range _).2, ?_, ?_⟩
  · simp only [decimal2dms]; rw [abs_pyInt]; exact Int.floor_le _
  · simp only [decimal2dms]; rw [abs_pyInt]; exact Int.lt_floor_add_one _

/-- C15, the other direction: every normalised row survives DMS → decimal → DMS. -/
theorem C15_row_round_trip (r : Row α) (hm : 0 ≤ r.min) (hm' : r.min < 60)
    (hs : 0 ≤ r.sec) (hs' : r.sec < 60) :
    decimal2dms (dms2decimal r) = r := by
  obtain ⟨D, M, S⟩ := r
  simp only at hm hm' hs hs'
  have hMr : (0 : α) ≤ M := by exact_mod_cast hm
  have hMr' : (M : α) ≤ 59 := by
    have : M ≤ 59 := by omega
    exact_mod_cast this
  set m : α := |(D : α)| + (M : α) / 60 + S / 3600 with hmdef
  have hf0 : 0 ≤ (M : α) / 60 + S / 3600 := by positivity
  have hf1 : (M : α) / 60 + S / 3600 < 1 := by
    have : (M : α) / 60 + S / 3600 = (60 * M + S) / 3600 := by field_simp; ring
    rw [this, div_lt_one (by norm_num)]; linarith
  have hm0 : 0 ≤ m := by have := abs_nonneg (D : α); linarith
  have hdec : dms2decimal (⟨D, M, S⟩ : Row α) = if D < 0 then -m else m := by
    simp only [dms2decimal, optRound, copysign, ← hmdef, abs_of_nonneg hm0]
  have habs : |dms2decimal (⟨D, M, S⟩ : Row α)| = m := by
    rw [hdec]; split_ifs
    · rw [abs_neg, abs_of_nonneg hm0]
    · exact abs_of_nonneg hm0
  have hdiv : divFloor (m * 3600) 60 = 60 * |D| + M := by
    unfold divFloor
    rw [Int.floor_eq_iff]
    have : m * 3600 / 60 = 60 * |(D : α)| + M + S / 60 := by
      rw [hmdef]; field_simp; ring
    rw [this]; push_cast
    have h1 : 0 ≤ S / 60 := by positivity
    have h2 : S / 60 < 1 := by rw [div_lt_one (by norm_num)]; exact hs'
    constructor <;> linarith
  ext
  · show pyInt (dms2decimal (⟨D, M, S⟩ : Row α)) = D
    rw [hdec, pyInt]
    by_cases hD : D < 0
    · have hDr : (D : α) ≤ -1 := by
        have : D ≤ -1 := by omega
        exact_mod_cast this
      have hab : |(D : α)| = -D := abs_of_nonpos (by linarith)
      have hneg : -m < 0 := by rw [hmdef, hab]; linarith
      rw [if_pos hD, if_neg (not_le.2 hneg), Int.ceil_eq_iff]
      rw [hmdef, hab]
      constructor <;> linarith
    · have hDr : (0 : α) ≤ D := by
        have : 0 ≤ D := by omega
        exact_mod_cast this
      have hab : |(D : α)| = D := abs_of_nonneg hDr
      rw [if_neg hD, if_pos hm0, Int.floor_eq_iff, hmdef, hab]
      constructor <;> linarith
  · show divFloor (|dms2decimal (⟨D, M, S⟩ : Row α)| * 3600) 60 % 60 = M
    rw [habs, hdiv]; omega
  · show |dms2decimal (⟨D, M, S⟩ : Row α)| * 3600
      - 60 * (divFloor (|dms2decimal (⟨D, M, S⟩ : Row α)| * 3600) 60 : ℤ) = S
    rw [habs, hdiv, hmdef]; push_cast; field_simp; ring

example : decimal2dms (dms2decimal (⟨-52, 4, 43.1868⟩ : Row ℚ)) = ⟨-52, 4, 43.1868⟩ :=
  C15_row_round_trip _ (by norm_num) (by norm_num) (by norm_num) (by norm_num)

/-! ## C55: rounding the seconds -/

private theorem roundEven_close (x : α) : |((roundEven x : ℤ) : α) - x| ≤ 1 / 2 := by
  have h := Int.floor_add_fract x
  have h0 := Int.fract_nonneg x
  have h1 := Int.fract_lt_one x
  unfold roundEven
  rw [abs_le]
  split_ifs <;> push_cast <;> constructor <;> linarith

private theorem optRound_close (x : α) (k : ℕ) :
    |optRound x (some k) - x| ≤ 1 / 2 / 10 ^ k := by
  have hk : (0 : α) < 10 ^ k := by positivity
  have h := roundEven_close (x * 10 ^ k)
  show |((roundEven (x * 10 ^ k) : ℤ) : α) / 10 ^ k - x| ≤ _
  have e : ((roundEven (x * 10 ^ k) : ℤ) : α) / 10 ^ k - x
      = (((roundEven (x * 10 ^ k) : ℤ) : α) - x * 10 ^ k) / 10 ^ k := by field_simp
  rw [e, abs_div, abs_of_pos hk]
  exact div_le_div_of_nonneg_right h hk.le

/-- C55: rounding the seconds to `k` digits moves the angle by at most half a unit of the
last digit, one second being `1/3600` degree. -/
theorem C55_rounding_error_bound (d : α) (k : ℕ) (h : d ≤ -1 ∨ 0 ≤ d) :
    |dms2decimal (decimal2dms d (some k)) - d| ≤ 1 / 2 / 10 ^ k / 3600 := by
  set sec := |d| * 3600 - 60 * ((divFloor (|d| * 3600) 60 : ℤ) : α) with hsec
  have hc := optRound_close sec k
  set s := optRound sec (some k) with hs
  have e : dms2decimal (decimal2dms d (some k))
      = copysign (|d| + (s - sec) / 3600) (pyInt d) := by
    simp only [dms2decimal, decimal2dms]
    rw [← hsec, ← hs, magnitude, ← hsec]; rfl
  have hs0 : 0 ≤ s := by
    have h0 : 0 ≤ sec := (sec_range _).1
    show 0 ≤ ((roundEven (sec * 10 ^ k) : ℤ) : α) / 10 ^ k
    apply div_nonneg _ (by positivity)
    have hx : 0 ≤ sec * 10 ^ k := by positivity
    have hf := Int.floor_nonneg.2 hx
    have : 0 ≤ roundEven (sec * 10 ^ k) := by unfold roundEven; split_ifs <;> omega
    exact_mod_cast this
  have hpos : 0 ≤ |d| + (s - sec) / 3600 := by
    have := magnitude d s
    rw [← hsec] at this
    rw [← this]
    have h60 : (0 : α) ≤ ((divFloor (|d| * 3600) 60 % 60 : ℤ) : α) := by
      exact_mod_cast Int.emod_nonneg _ (by norm_num)
    positivity
  have hb : |(s - sec) / 3600| ≤ 1 / 2 / 10 ^ k / 3600 := by
    rw [abs_div, abs_of_pos (by norm_num : (0 : α) < 3600)]
    exact div_le_div_of_nonneg_right hc (by norm_num)
  rw [e, copysign, abs_of_nonneg hpos]
  rcases h with h | h
  · rw [if_pos ((pyInt_neg_iff d).2 h)]
    have : -(|d| + (s - sec) / 3600) - d = -((s - sec) / 3600) := by
      rw [abs_of_nonpos (by linarith : d ≤ 0)]; ring
    rw [this, abs_neg]; exact hb
  · rw [if_neg (fun h' => by have := (pyInt_neg_iff d).1 h'; linarith)]
    have : |d| + (s - sec) / 3600 - d = (s - sec) / 3600 := by
      rw [abs_of_nonneg h]; ring
    rw [this]; exact hb

example : |dms2decimal (decimal2dms (52.078663 : ℚ) (some 2)) - 52.078663| ≤ 1 / 2 / 10 ^ 2 / 3600 :=
  C55_rounding_error_bound _ 2 (Or.inr (by norm_num))

/-- C55 is false of the code in one respect: with rounding the seconds can be reported as 60,
which is not a normalised row. -/
theorem C55_rounded_seconds_can_reach_sixty :
    decimal2dms (1.99999999 : ℚ) (some 2) = ⟨1, 59, 60⟩ := by
  have h1 : |(1.99999999 : ℚ)| = 1.99999999 := abs_of_nonneg (by norm_num)
  have hd : divFloor ((1.99999999 : ℚ) * 3600) 60 = 119 := by
    unfold divFloor; rw [Int.floor_eq_iff]; norm_num
  have hf : ⌊((1.99999999 : ℚ) * 3600 - 60 * (119 : ℤ)) * 10 ^ 2⌋ = 5999 := by
    rw [Int.floor_eq_iff]; norm_num
  have hfl : ⌊(1.99999999 : ℚ)⌋ = 1 := by rw [Int.floor_eq_iff]; norm_num
  have hfr : Int.fract (((1.99999999 : ℚ) * 3600 - 60 * (119 : ℤ)) * 10 ^ 2) > 1 / 2 := by
    rw [Int.fract, hf]; norm_num
  ext
  · show pyInt (1.99999999 : ℚ) = 1
    rw [pyInt, if_pos (by norm_num), hfl]
  · show divFloor (|(1.99999999 : ℚ)| * 3600) 60 % 60 = 59
    rw [h1, hd]; norm_num
  · show optRound (|(1.99999999 : ℚ)| * 3600 - 60 * (divFloor (|(1.99999999 : ℚ)| * 3600) 60 : ℤ))
      (some 2) = 60
    rw [h1, hd]
    show ((roundEven _ : ℤ) : ℚ) / 10 ^ 2 = 60
    rw [roundEven, if_neg (not_lt.2 hfr.le), if_pos hfr, hf]; norm_num

end Welleng.Props
