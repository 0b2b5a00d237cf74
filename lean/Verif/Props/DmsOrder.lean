import Verif.Props.Dms

/-! C393: the conversion to degrees, minutes and seconds keeps the order
(`/repo/welleng/utils.py` 703-830). -/

namespace Welleng.Props

open Welleng.Dms

variable {α : Type*} [Field α] [LinearOrder α] [IsStrictOrderedRing α] [FloorRing α]

/-- Rounding keeps the order. -/
theorem roundEven_mono {x y : α} (h : x ≤ y) : roundEven x ≤ roundEven y := by
  have hf := Int.floor_mono h
  have hx := Int.floor_add_fract x
  have hy := Int.floor_add_fract y
  rcases hf.lt_or_eq with hlt | heq
  · have h1 : roundEven x ≤ ⌊x⌋ + 1 := by unfold roundEven; split_ifs <;> omega
    have h2 : ⌊y⌋ ≤ roundEven y := by unfold roundEven; split_ifs <;> omega
    omega
  · have hfr : Int.fract x ≤ Int.fract y := by
      rw [heq] at hx
      linarith
    unfold roundEven
    rw [heq]
    split_ifs <;> first | omega | (exfalso; linarith) | (exfalso; contradiction)

theorem optRound_mono {x y : α} (h : x ≤ y) (nd : Option ℕ) : optRound x nd ≤ optRound y nd := by
  cases nd with
  | none => exact h
  | some k =>
    have hk : (0 : α) < 10 ^ k := by positivity
    have := roundEven_mono (mul_le_mul_of_nonneg_right h hk.le)
    have h2 : ((roundEven (x * 10 ^ k) : ℤ) : α) ≤ (roundEven (y * 10 ^ k) : ℤ) := by exact_mod_cast this
    exact div_le_div_of_nonneg_right h2 hk.le

theorem roundEven_whole (n : ℤ) : roundEven (n : α) = n := by
  unfold roundEven
  rw [Int.fract_intCast, Int.floor_intCast, if_pos (by norm_num)]

theorem optRound_sixty (nd : Option ℕ) : optRound (60 : α) nd = 60 := by
  cases nd with
  | none => rfl
  | some k =>
    have hk : (10 : α) ^ k ≠ 0 := by positivity
    have e : (60 : α) * 10 ^ k = ((60 * 10 ^ k : ℤ) : α) := by push_cast; ring
    simp only [optRound, pyRound]
    rw [e, roundEven_whole]
    push_cast
    field_simp

theorem optRound_zero (nd : Option ℕ) : optRound (0 : α) nd = 0 := by
  cases nd with
  | none => rfl
  | some k =>
    have e : (0 : α) * 10 ^ k = ((0 : ℤ) : α) := by simp
    simp only [optRound, pyRound]
    rw [e, roundEven_whole]
    simp

/-- Whole minutes of a non-negative angle. -/
theorem minutes_of {a : α} (ha : 0 ≤ a) :
    divFloor (|a| * 3600) 60 = 60 * pyInt a + divFloor (|a| * 3600) 60 % 60 := by
  have e : pyInt a = divFloor (|a| * 3600) 60 / 60 := by
    have h : a = (a * 3600 / 60) / (60 : ℕ) := by push_cast; field_simp; norm_num
    unfold divFloor pyInt
    rw [if_pos ha, abs_of_nonneg ha]
    conv_lhs => rw [h]
    rw [Int.floor_div_natCast]
    rfl
  rw [e]
  exact (Int.mul_ediv_add_emod _ 60).symm

theorem dms2decimal_of_nonneg {r : Row α} (h : 0 ≤ r.deg) :
    dms2decimal r = |(|(r.deg : α)| + (r.min : α) / 60 + r.sec / 3600)| := by
  simp only [dms2decimal, copysign, optRound]
  rw [if_neg (by omega)]

/-- A row comes before another one: by degrees, then minutes, then seconds. -/
def RowLe (a b : Row α) : Prop :=
  a.deg < b.deg ∨ a.deg = b.deg ∧ (a.min < b.min ∨ a.min = b.min ∧ a.sec ≤ b.sec)

/-- **C393** The larger of two angles never gets the smaller degrees, minutes and seconds, whether
or not the seconds are rounded, and is never read back as the smaller one. -/
theorem C393_order {a b : α} (ha : 0 ≤ a) (hab : a ≤ b) (nd : Option ℕ) :
    RowLe (decimal2dms a nd) (decimal2dms b nd) ∧
    dms2decimal (decimal2dms a nd) ≤ dms2decimal (decimal2dms b nd) := by
  have hb := ha.trans hab
  have ma := minutes_of ha
  have mb := minutes_of hb
  have hM : divFloor (|a| * 3600) 60 ≤ divFloor (|b| * 3600) 60 := by
    unfold divFloor
    apply Int.floor_mono
    rw [abs_of_nonneg ha, abs_of_nonneg hb]
    linarith
  have ra := Int.emod_nonneg (divFloor (|a| * 3600) 60) (by norm_num : (60 : ℤ) ≠ 0)
  have ra' := Int.emod_lt_of_pos (divFloor (|a| * 3600) 60) (by norm_num : (0 : ℤ) < 60)
  have rb := Int.emod_nonneg (divFloor (|b| * 3600) 60) (by norm_num : (60 : ℤ) ≠ 0)
  have rb' := Int.emod_lt_of_pos (divFloor (|b| * 3600) 60) (by norm_num : (0 : ℤ) < 60)
  have da : 0 ≤ pyInt a := by unfold pyInt; rw [if_pos ha]; exact Int.floor_nonneg.2 ha
  have db : 0 ≤ pyInt b := by unfold pyInt; rw [if_pos hb]; exact Int.floor_nonneg.2 hb
  -- seconds
  have sec : ∀ q : α, 0 ≤ q - 60 * (divFloor q 60 : ℤ) ∧ q - 60 * (divFloor q 60 : ℤ) ≤ 60 := by
    intro q
    have h1 := Int.floor_le (q / 60)
    have h2 := Int.lt_floor_add_one (q / 60)
    unfold divFloor
    rw [le_div_iff₀ (by norm_num)] at h1
    rw [div_lt_iff₀ (by norm_num)] at h2
    constructor <;> linarith
  have sa := optRound_mono (sec (|a| * 3600)).2 nd
  have sa0 := optRound_mono (sec (|a| * 3600)).1 nd
  have sb := optRound_mono (sec (|b| * 3600)).1 nd
  rw [optRound_sixty] at sa
  rw [optRound_zero] at sa0 sb
  have hs : divFloor (|a| * 3600) 60 = divFloor (|b| * 3600) 60 →
      optRound (|a| * 3600 - 60 * (divFloor (|a| * 3600) 60 : ℤ)) nd ≤
        optRound (|b| * 3600 - 60 * (divFloor (|b| * 3600) 60 : ℤ)) nd := by
    intro e
    apply optRound_mono
    rw [e, abs_of_nonneg ha, abs_of_nonneg hb]
    linarith
  rw [dms2decimal_of_nonneg (r := decimal2dms a nd) da, dms2decimal_of_nonneg (r := decimal2dms b nd) db]
  simp only [RowLe, decimal2dms]
  generalize optRound (|a| * 3600 - 60 * (divFloor (|a| * 3600) 60 : ℤ)) nd = x at *
  generalize optRound (|b| * 3600 - 60 * (divFloor (|b| * 3600) 60 : ℤ)) nd = y at *
  generalize divFloor (|a| * 3600) 60 = M at *
  generalize divFloor (|b| * 3600) 60 = M' at *
  generalize pyInt a = D at *
  generalize pyInt b = D' at *
  generalize M % 60 = m at *
  generalize M' % 60 = m' at *
  have cD : (0 : α) ≤ D := by exact_mod_cast da
  have cD' : (0 : α) ≤ D' := by exact_mod_cast db
  have cm : (0 : α) ≤ m := by exact_mod_cast ra
  have cm' : (0 : α) ≤ m' := by exact_mod_cast rb
  constructor
  · by_cases e : M = M'
    · have e1 : D = D' := by omega
      have e2 : m = m' := by omega
      exact .inr ⟨e1, .inr ⟨e2, hs e⟩⟩
    · by_cases e1 : D = D'
      · exact .inr ⟨e1, .inl (by omega)⟩
      · exact .inl (by omega)
  · rw [abs_of_nonneg cD, abs_of_nonneg cD',
      abs_of_nonneg (by positivity), abs_of_nonneg (by positivity)]
    have key : (M : α) * 60 + x ≤ (M' : α) * 60 + y := by
      by_cases e : M = M'
      · have := hs e
        rw [e]
        linarith
      · have h1 : M + 1 ≤ M' := by omega
        have h2 : (M : α) + 1 ≤ M' := by exact_mod_cast h1
        linarith
    have c1 : (M : α) = 60 * D + m := by exact_mod_cast ma
    have c2 : (M' : α) = 60 * D' + m' := by exact_mod_cast mb
    rw [c1, c2] at key
    have : ∀ D m x : α, D + m / 60 + x / 3600 = ((60 * D + m) * 60 + x) / 3600 := by
      intro D m x; field_simp; ring
    rw [this, this]
    exact div_le_div_of_nonneg_right key (by norm_num)

/-- Non-vacuity, and the case in which rounded seconds reach sixty. -/
example : (0 : ℚ) ≤ 1.99999999 ∧ (1.99999999 : ℚ) ≤ 2.0000001 := by norm_num

end Welleng.Props
