import Verif.Lemmas.FormulaTable

/-! Values of the formulas in the shipped tool models, and agreement with the hand-written weight
functions; generated together with `Model/FormulaTable.lean`. -/

namespace Welleng.Ftext

open Interp Spec Err Welleng.Props Real

variable {c : Ctx} {scal : String → ℝ} {arrays : String → ℕ → ℝ}

/-- The names a formula can use. -/
abbrev envS (scal : String → ℝ) (arrays : String → ℕ → ℝ) : String → Option (ℕ → ℝ) :=
  envOf (jsonBindings scal) arrays

theorem val_num (env : String → Option (ℕ → ℝ)) (q : ℚ) (k : ℕ) : value env (.num q) k = q := rfl
theorem val_bin (env : String → Option (ℕ → ℝ)) (op : Op) (a b : Tree) (k : ℕ) :
    value env (.bin op a b) k = op.fn (value env a k) (value env b k) := rfl
theorem val_un (env : String → Option (ℕ → ℝ)) (op : UOp) (a : Tree) (k : ℕ) :
    value env (.un op a) k = -value env a k := rfl
theorem val_sin (env : String → Option (ℕ → ℝ)) (a : Tree) (k : ℕ) :
    value env (.call (.name "sin".toList) [a]) k = sin (value env a k) := rfl
theorem val_cos (env : String → Option (ℕ → ℝ)) (a : Tree) (k : ℕ) :
    value env (.call (.name "cos".toList) [a]) k = cos (value env a k) := rfl
theorem val_tan (env : String → Option (ℕ → ℝ)) (a : Tree) (k : ℕ) :
    value env (.call (.name "tan".toList) [a]) k = tan (value env a k) := rfl
theorem val_abs (env : String → Option (ℕ → ℝ)) (a : Tree) (k : ℕ) :
    value env (.call (.name "abs".toList) [a]) k = |value env a k| := rfl
theorem val_sqrt (env : String → Option (ℕ → ℝ)) (a : Tree) (k : ℕ) :
    value env (.call (.name "sqrt".toList) [a]) k = √(value env a k) := rfl
theorem val_pi (env : String → Option (ℕ → ℝ)) (k : ℕ) :
    value env (.name "pi".toList) k = π := rfl
theorem val_inc (h : Feeds c scal arrays) (k : ℕ) :
    value (envS scal arrays) (.name "Inc".toList) k = c.s.inc k := congrFun h.inc k
theorem val_azT (h : Feeds c scal arrays) (k : ℕ) :
    value (envS scal arrays) (.name "AzT".toList) k = c.s.azi k := congrFun h.azT k
theorem val_azM (h : Feeds c scal arrays) (k : ℕ) :
    value (envS scal arrays) (.name "AzM".toList) k = c.aziMag k := congrFun h.azM k
theorem val_md (h : Feeds c scal arrays) (k : ℕ) :
    value (envS scal arrays) (.name "MD".toList) k = c.s.md k := congrFun h.md k
theorem val_tvd (h : Feeds c scal arrays) (k : ℕ) :
    value (envS scal arrays) (.name "TVD".toList) k = c.tvd k := congrFun h.tvd k
theorem val_G (h : Feeds c scal arrays) (k : ℕ) :
    value (envS scal arrays) (.name "Gfield".toList) k = c.G := h.gravity
theorem val_dip (h : Feeds c scal arrays) (k : ℕ) :
    value (envS scal arrays) (.name "Dip".toList) k = c.dip := h.dip
theorem val_B (h : Feeds c scal arrays) (k : ℕ) :
    value (envS scal arrays) (.name "BField".toList) k = c.bTotal := h.field

theorem val_t0 (h : Feeds c scal arrays) (k : ℕ) :
    value (envS scal arrays) t0 k =
      ((tan ((π / 2) - (c.s.inc k))) - ((tan c.dip) * (cos (c.aziMag k)))) / c.G := by
  simp only [t0, val_num, val_bin, val_un, val_sin, val_cos, val_tan, val_abs, val_sqrt,
    val_pi, val_inc h, val_azT h, val_azM h, val_md h, val_tvd h, val_G h, val_dip h, val_B h, Op.fn,
    Rat.cast_zero, Rat.cast_one, Rat.cast_ofNat, Rat.cast_div]

theorem val_t1 (h : Feeds c scal arrays) (k : ℕ) :
    value (envS scal arrays) t1 k =
      ((((-(tan c.dip)) * (sin (c.s.inc k))) * (cos (c.s.inc k))) * (sin (c.aziMag k))) / 2 := by
  simp only [t1, val_num, val_bin, val_un, val_sin, val_cos, val_tan, val_abs, val_sqrt,
    val_pi, val_inc h, val_azT h, val_azM h, val_md h, val_tvd h, val_G h, val_dip h, val_B h, Op.fn,
    Rat.cast_zero, Rat.cast_one, Rat.cast_ofNat, Rat.cast_div]

theorem val_t2 (h : Feeds c scal arrays) (k : ℕ) :
    value (envS scal arrays) t2 k =
      ((((-(tan c.dip)) * (sin (c.s.inc k))) * (cos (c.s.inc k))) * (sin (c.aziMag k))) /
        (Real.sqrt 2) := by
  simp only [t2, val_num, val_bin, val_un, val_sin, val_cos, val_tan, val_abs, val_sqrt,
    val_pi, val_inc h, val_azT h, val_azM h, val_md h, val_tvd h, val_G h, val_dip h, val_B h, Op.fn,
    Rat.cast_zero, Rat.cast_one, Rat.cast_ofNat, Rat.cast_div]

theorem val_t3 (h : Feeds c scal arrays) (k : ℕ) :
    value (envS scal arrays) t3 k =
      ((abs (cos (c.s.inc k))) * (cos (c.s.azi k))) / (sin (c.s.inc k)) := by
  simp only [t3, val_num, val_bin, val_un, val_sin, val_cos, val_tan, val_abs, val_sqrt,
    val_pi, val_inc h, val_azT h, val_azM h, val_md h, val_tvd h, val_G h, val_dip h, val_B h, Op.fn,
    Rat.cast_zero, Rat.cast_one, Rat.cast_ofNat, Rat.cast_div]

theorem val_t4 (h : Feeds c scal arrays) (k : ℕ) :
    value (envS scal arrays) t4 k =
      (((((cos (c.s.inc k)) * (cos (c.aziMag k))) * (cos (c.aziMag k))) - (((cos (c.s.inc k)) *
        (sin (c.aziMag k))) * (sin (c.aziMag k)))) - (((tan c.dip) * (sin (c.s.inc k))) * (cos
        (c.aziMag k)))) / (2 * (1 - ((((sin (c.s.inc k)) * (sin (c.s.inc k))) * (sin (c.aziMag
        k))) * (sin (c.aziMag k))))) := by
  simp only [t4, val_num, val_bin, val_un, val_sin, val_cos, val_tan, val_abs, val_sqrt,
    val_pi, val_inc h, val_azT h, val_azM h, val_md h, val_tvd h, val_G h, val_dip h, val_B h, Op.fn,
    Rat.cast_zero, Rat.cast_one, Rat.cast_ofNat, Rat.cast_div]

theorem val_t5 (h : Feeds c scal arrays) (k : ℕ) :
    value (envS scal arrays) t5 k =
      (((((cos (c.s.inc k)) * (cos (c.aziMag k))) * (cos (c.aziMag k))) - (((cos (c.s.inc k)) *
        (sin (c.aziMag k))) * (sin (c.aziMag k)))) - (((tan c.dip) * (sin (c.s.inc k))) * (cos
        (c.aziMag k)))) / 2 := by
  simp only [t5, val_num, val_bin, val_un, val_sin, val_cos, val_tan, val_abs, val_sqrt,
    val_pi, val_inc h, val_azT h, val_azM h, val_md h, val_tvd h, val_G h, val_dip h, val_B h, Op.fn,
    Rat.cast_zero, Rat.cast_one, Rat.cast_ofNat, Rat.cast_div]

theorem val_t9 (h : Feeds c scal arrays) (k : ℕ) :
    value (envS scal arrays) t9 k =
      (((((sin (c.s.inc k)) * (cos (c.s.inc k))) * (sin (c.aziMag k))) * (((tan c.dip) * (cos
        (c.s.inc k))) + ((sin (c.s.inc k)) * (cos (c.aziMag k))))) / (1 - ((((sin (c.s.inc k)) *
        (sin (c.s.inc k))) * (sin (c.aziMag k))) * (sin (c.aziMag k))))) / c.G := by
  simp only [t9, val_num, val_bin, val_un, val_sin, val_cos, val_tan, val_abs, val_sqrt,
    val_pi, val_inc h, val_azT h, val_azM h, val_md h, val_tvd h, val_G h, val_dip h, val_B h, Op.fn,
    Rat.cast_zero, Rat.cast_one, Rat.cast_ofNat, Rat.cast_div]

theorem val_t10 (h : Feeds c scal arrays) (k : ℕ) :
    value (envS scal arrays) t10 k =
      (sin (c.s.inc k)) ^ ((1 / 4) : ℝ) := by
  simp only [t10, val_num, val_bin, val_un, val_sin, val_cos, val_tan, val_abs, val_sqrt,
    val_pi, val_inc h, val_azT h, val_azM h, val_md h, val_tvd h, val_G h, val_dip h, val_B h, Op.fn,
    Rat.cast_zero, Rat.cast_one, Rat.cast_ofNat, Rat.cast_div]

theorem val_t11 (h : Feeds c scal arrays) (k : ℕ) :
    value (envS scal arrays) t11 k =
      (((tan c.dip) * (cos (c.s.inc k))) * (sin (c.aziMag k))) / c.G := by
  simp only [t11, val_num, val_bin, val_un, val_sin, val_cos, val_tan, val_abs, val_sqrt,
    val_pi, val_inc h, val_azT h, val_azM h, val_md h, val_tvd h, val_G h, val_dip h, val_B h, Op.fn,
    Rat.cast_zero, Rat.cast_one, Rat.cast_ofNat, Rat.cast_div]

theorem val_t12 (h : Feeds c scal arrays) (k : ℕ) :
    value (envS scal arrays) t12 k =
      ((((tan c.dip) * (sin (c.s.inc k))) * (cos (c.aziMag k))) - (cos (c.s.inc k))) / (2 * (1 -
        ((((sin (c.s.inc k)) * (sin (c.s.inc k))) * (sin (c.aziMag k))) * (sin (c.aziMag k))))) := by
  simp only [t12, val_num, val_bin, val_un, val_sin, val_cos, val_tan, val_abs, val_sqrt,
    val_pi, val_inc h, val_azT h, val_azM h, val_md h, val_tvd h, val_G h, val_dip h, val_B h, Op.fn,
    Rat.cast_zero, Rat.cast_one, Rat.cast_ofNat, Rat.cast_div]

theorem val_t13 (h : Feeds c scal arrays) (k : ℕ) :
    value (envS scal arrays) t13 k =
      ((((tan c.dip) * (sin (c.s.inc k))) * (cos (c.aziMag k))) - (cos (c.s.inc k))) / 2 := by
  simp only [t13, val_num, val_bin, val_un, val_sin, val_cos, val_tan, val_abs, val_sqrt,
    val_pi, val_inc h, val_azT h, val_azM h, val_md h, val_tvd h, val_G h, val_dip h, val_B h, Op.fn,
    Rat.cast_zero, Rat.cast_one, Rat.cast_ofNat, Rat.cast_div]

theorem val_t14 (h : Feeds c scal arrays) (k : ℕ) :
    value (envS scal arrays) t14 k =
      (-((abs (cos (c.s.inc k))) * (sin (c.s.azi k)))) / (sin (c.s.inc k)) := by
  simp only [t14, val_num, val_bin, val_un, val_sin, val_cos, val_tan, val_abs, val_sqrt,
    val_pi, val_inc h, val_azT h, val_azM h, val_md h, val_tvd h, val_G h, val_dip h, val_B h, Op.fn,
    Rat.cast_zero, Rat.cast_one, Rat.cast_ofNat, Rat.cast_div]

theorem val_t15 (h : Feeds c scal arrays) (k : ℕ) :
    value (envS scal arrays) t15 k =
      ((-(((sin (c.s.inc k)) * (cos (c.aziMag k))) + ((tan c.dip) * (cos (c.s.inc k))))) * (sin
        (c.s.inc k))) * (sin (c.aziMag k)) := by
  simp only [t15, val_num, val_bin, val_un, val_sin, val_cos, val_tan, val_abs, val_sqrt,
    val_pi, val_inc h, val_azT h, val_azM h, val_md h, val_tvd h, val_G h, val_dip h, val_B h, Op.fn,
    Rat.cast_zero, Rat.cast_one, Rat.cast_ofNat, Rat.cast_div]

theorem val_t16 (h : Feeds c scal arrays) (k : ℕ) :
    value (envS scal arrays) t16 k =
      (-(((((sin (c.s.inc k)) * (cos (c.s.inc k))) * (cos (c.s.inc k))) * (sin (c.aziMag k))) *
        (((tan c.dip) * (cos (c.s.inc k))) + ((sin (c.s.inc k)) * (cos (c.aziMag k)))))) / (2 *
        (1 - ((((sin (c.s.inc k)) * (sin (c.s.inc k))) * (sin (c.aziMag k))) * (sin (c.aziMag
        k))))) := by
  simp only [t16, val_num, val_bin, val_un, val_sin, val_cos, val_tan, val_abs, val_sqrt,
    val_pi, val_inc h, val_azT h, val_azM h, val_md h, val_tvd h, val_G h, val_dip h, val_B h, Op.fn,
    Rat.cast_zero, Rat.cast_one, Rat.cast_ofNat, Rat.cast_div]

theorem val_t17 (h : Feeds c scal arrays) (k : ℕ) :
    value (envS scal arrays) t17 k =
      (-(((((sin (c.s.inc k)) * (cos (c.s.inc k))) * (cos (c.s.inc k))) * (sin (c.aziMag k))) *
        (((tan c.dip) * (cos (c.s.inc k))) + ((sin (c.s.inc k)) * (cos (c.aziMag k)))))) /
        ((Real.sqrt 2) * (1 - ((((sin (c.s.inc k)) * (sin (c.s.inc k))) * (sin (c.aziMag k))) *
        (sin (c.aziMag k))))) := by
  simp only [t17, val_num, val_bin, val_un, val_sin, val_cos, val_tan, val_abs, val_sqrt,
    val_pi, val_inc h, val_azT h, val_azM h, val_md h, val_tvd h, val_G h, val_dip h, val_B h, Op.fn,
    Rat.cast_zero, Rat.cast_one, Rat.cast_ofNat, Rat.cast_div]

theorem val_t19 (h : Feeds c scal arrays) (k : ℕ) :
    value (envS scal arrays) t19 k =
      -1 := by
  simp only [t19, val_num, val_bin, val_un, val_sin, val_cos, val_tan, val_abs, val_sqrt,
    val_pi, val_inc h, val_azT h, val_azM h, val_md h, val_tvd h, val_G h, val_dip h, val_B h, Op.fn,
    Rat.cast_zero, Rat.cast_one, Rat.cast_ofNat, Rat.cast_div]

theorem val_t20 (h : Feeds c scal arrays) (k : ℕ) :
    value (envS scal arrays) t20 k =
      ((-(cos (c.s.inc k))) * (sin (c.aziMag k))) / ((c.bTotal * (cos c.dip)) * (1 - ((((sin
        (c.s.inc k)) * (sin (c.s.inc k))) * (sin (c.aziMag k))) * (sin (c.aziMag k))))) := by
  simp only [t20, val_num, val_bin, val_un, val_sin, val_cos, val_tan, val_abs, val_sqrt,
    val_pi, val_inc h, val_azT h, val_azM h, val_md h, val_tvd h, val_G h, val_dip h, val_B h, Op.fn,
    Rat.cast_zero, Rat.cast_one, Rat.cast_ofNat, Rat.cast_div]

theorem val_t21 (h : Feeds c scal arrays) (k : ℕ) :
    value (envS scal arrays) t21 k =
      ((-(cos (c.s.inc k))) * (sin (c.aziMag k))) / (c.bTotal * (cos c.dip)) := by
  simp only [t21, val_num, val_bin, val_un, val_sin, val_cos, val_tan, val_abs, val_sqrt,
    val_pi, val_inc h, val_azT h, val_azM h, val_md h, val_tvd h, val_G h, val_dip h, val_B h, Op.fn,
    Rat.cast_zero, Rat.cast_one, Rat.cast_ofNat, Rat.cast_div]

theorem val_t22 (h : Feeds c scal arrays) (k : ℕ) :
    value (envS scal arrays) t22 k =
      (-(cos (c.s.inc k))) / c.G := by
  simp only [t22, val_num, val_bin, val_un, val_sin, val_cos, val_tan, val_abs, val_sqrt,
    val_pi, val_inc h, val_azT h, val_azM h, val_md h, val_tvd h, val_G h, val_dip h, val_B h, Op.fn,
    Rat.cast_zero, Rat.cast_one, Rat.cast_ofNat, Rat.cast_div]

theorem val_t23 (h : Feeds c scal arrays) (k : ℕ) :
    value (envS scal arrays) t23 k =
      (-(sin (c.s.inc k))) * (cos (c.s.inc k)) := by
  simp only [t23, val_num, val_bin, val_un, val_sin, val_cos, val_tan, val_abs, val_sqrt,
    val_pi, val_inc h, val_azT h, val_azM h, val_md h, val_tvd h, val_G h, val_dip h, val_B h, Op.fn,
    Rat.cast_zero, Rat.cast_one, Rat.cast_ofNat, Rat.cast_div]

theorem val_t24 (h : Feeds c scal arrays) (k : ℕ) :
    value (envS scal arrays) t24 k =
      (((-(sin (c.s.inc k))) * (sin (c.aziMag k))) * ((cos (c.s.inc k)) - (((tan c.dip) * (sin
        (c.s.inc k))) * (cos (c.aziMag k))))) / (1 - ((((sin (c.s.inc k)) * (sin (c.s.inc k))) *
        (sin (c.aziMag k))) * (sin (c.aziMag k)))) := by
  simp only [t24, val_num, val_bin, val_un, val_sin, val_cos, val_tan, val_abs, val_sqrt,
    val_pi, val_inc h, val_azT h, val_azM h, val_md h, val_tvd h, val_G h, val_dip h, val_B h, Op.fn,
    Rat.cast_zero, Rat.cast_one, Rat.cast_ofNat, Rat.cast_div]

theorem val_t26 (h : Feeds c scal arrays) (k : ℕ) :
    value (envS scal arrays) t26 k =
      ((-(sin (c.s.inc k))) * (sin (c.aziMag k))) / (c.bTotal * (cos c.dip)) := by
  simp only [t26, val_num, val_bin, val_un, val_sin, val_cos, val_tan, val_abs, val_sqrt,
    val_pi, val_inc h, val_azT h, val_azM h, val_md h, val_tvd h, val_G h, val_dip h, val_B h, Op.fn,
    Rat.cast_zero, Rat.cast_one, Rat.cast_ofNat, Rat.cast_div]

theorem val_t27 (h : Feeds c scal arrays) (k : ℕ) :
    value (envS scal arrays) t27 k =
      (-(sin (c.s.inc k))) / c.G := by
  simp only [t27, val_num, val_bin, val_un, val_sin, val_cos, val_tan, val_abs, val_sqrt,
    val_pi, val_inc h, val_azT h, val_azM h, val_md h, val_tvd h, val_G h, val_dip h, val_B h, Op.fn,
    Rat.cast_zero, Rat.cast_one, Rat.cast_ofNat, Rat.cast_div]

theorem val_t28 (h : Feeds c scal arrays) (k : ℕ) :
    value (envS scal arrays) t28 k =
      0 := by
  simp only [t28, val_num, val_bin, val_un, val_sin, val_cos, val_tan, val_abs, val_sqrt,
    val_pi, val_inc h, val_azT h, val_azM h, val_md h, val_tvd h, val_G h, val_dip h, val_B h, Op.fn,
    Rat.cast_zero, Rat.cast_one, Rat.cast_ofNat, Rat.cast_div]

theorem val_t29 (h : Feeds c scal arrays) (k : ℕ) :
    value (envS scal arrays) t29 k =
      1 := by
  simp only [t29, val_num, val_bin, val_un, val_sin, val_cos, val_tan, val_abs, val_sqrt,
    val_pi, val_inc h, val_azT h, val_azM h, val_md h, val_tvd h, val_G h, val_dip h, val_B h, Op.fn,
    Rat.cast_zero, Rat.cast_one, Rat.cast_ofNat, Rat.cast_div]

theorem val_t30 (h : Feeds c scal arrays) (k : ℕ) :
    value (envS scal arrays) t30 k =
      1 / (c.bTotal * (cos c.dip)) := by
  simp only [t30, val_num, val_bin, val_un, val_sin, val_cos, val_tan, val_abs, val_sqrt,
    val_pi, val_inc h, val_azT h, val_azM h, val_md h, val_tvd h, val_G h, val_dip h, val_B h, Op.fn,
    Rat.cast_zero, Rat.cast_one, Rat.cast_ofNat, Rat.cast_div]

theorem val_t31 (h : Feeds c scal arrays) (k : ℕ) :
    value (envS scal arrays) t31 k =
      1 / (sin (c.s.inc k)) := by
  simp only [t31, val_num, val_bin, val_un, val_sin, val_cos, val_tan, val_abs, val_sqrt,
    val_pi, val_inc h, val_azT h, val_azM h, val_md h, val_tvd h, val_G h, val_dip h, val_B h, Op.fn,
    Rat.cast_zero, Rat.cast_one, Rat.cast_ofNat, Rat.cast_div]

theorem val_t33 (h : Feeds c scal arrays) (k : ℕ) :
    value (envS scal arrays) t33 k =
      (abs (cos (c.s.inc k))) * (cos (c.s.azi k)) := by
  simp only [t33, val_num, val_bin, val_un, val_sin, val_cos, val_tan, val_abs, val_sqrt,
    val_pi, val_inc h, val_azT h, val_azM h, val_md h, val_tvd h, val_G h, val_dip h, val_B h, Op.fn,
    Rat.cast_zero, Rat.cast_one, Rat.cast_ofNat, Rat.cast_div]

theorem val_t34 (h : Feeds c scal arrays) (k : ℕ) :
    value (envS scal arrays) t34 k =
      (abs (cos (c.s.inc k))) * (sin (c.s.azi k)) := by
  simp only [t34, val_num, val_bin, val_un, val_sin, val_cos, val_tan, val_abs, val_sqrt,
    val_pi, val_inc h, val_azT h, val_azM h, val_md h, val_tvd h, val_G h, val_dip h, val_B h, Op.fn,
    Rat.cast_zero, Rat.cast_one, Rat.cast_ofNat, Rat.cast_div]

theorem val_t35 (h : Feeds c scal arrays) (k : ℕ) :
    value (envS scal arrays) t35 k =
      abs (sin (c.s.inc k)) := by
  simp only [t35, val_num, val_bin, val_un, val_sin, val_cos, val_tan, val_abs, val_sqrt,
    val_pi, val_inc h, val_azT h, val_azM h, val_md h, val_tvd h, val_G h, val_dip h, val_B h, Op.fn,
    Rat.cast_zero, Rat.cast_one, Rat.cast_ofNat, Rat.cast_div]

theorem val_t36 (h : Feeds c scal arrays) (k : ℕ) :
    value (envS scal arrays) t36 k =
      (cos (c.aziMag k)) / ((c.bTotal * (cos c.dip)) * (1 - ((((sin (c.s.inc k)) * (sin (c.s.inc
        k))) * (sin (c.aziMag k))) * (sin (c.aziMag k))))) := by
  simp only [t36, val_num, val_bin, val_un, val_sin, val_cos, val_tan, val_abs, val_sqrt,
    val_pi, val_inc h, val_azT h, val_azM h, val_md h, val_tvd h, val_G h, val_dip h, val_B h, Op.fn,
    Rat.cast_zero, Rat.cast_one, Rat.cast_ofNat, Rat.cast_div]

theorem val_t37 (h : Feeds c scal arrays) (k : ℕ) :
    value (envS scal arrays) t37 k =
      (cos (c.aziMag k)) / (c.bTotal * (cos c.dip)) := by
  simp only [t37, val_num, val_bin, val_un, val_sin, val_cos, val_tan, val_abs, val_sqrt,
    val_pi, val_inc h, val_azT h, val_azM h, val_md h, val_tvd h, val_G h, val_dip h, val_B h, Op.fn,
    Rat.cast_zero, Rat.cast_one, Rat.cast_ofNat, Rat.cast_div]

theorem val_t42 (h : Feeds c scal arrays) (k : ℕ) :
    value (envS scal arrays) t42 k =
      c.s.md k := by
  simp only [t42, val_num, val_bin, val_un, val_sin, val_cos, val_tan, val_abs, val_sqrt,
    val_pi, val_inc h, val_azT h, val_azM h, val_md h, val_tvd h, val_G h, val_dip h, val_B h, Op.fn,
    Rat.cast_zero, Rat.cast_one, Rat.cast_ofNat, Rat.cast_div]

theorem val_t43 (h : Feeds c scal arrays) (k : ℕ) :
    value (envS scal arrays) t43 k =
      (c.s.md k) * (c.tvd k) := by
  simp only [t43, val_num, val_bin, val_un, val_sin, val_cos, val_tan, val_abs, val_sqrt,
    val_pi, val_inc h, val_azT h, val_azM h, val_md h, val_tvd h, val_G h, val_dip h, val_B h, Op.fn,
    Rat.cast_zero, Rat.cast_one, Rat.cast_ofNat, Rat.cast_div]

theorem val_t47 (h : Feeds c scal arrays) (k : ℕ) :
    value (envS scal arrays) t47 k =
      ((sin (c.aziMag k)) * (((((tan c.dip) * (sin (c.s.inc k))) * (cos (c.s.inc k))) - (((cos
        (c.s.inc k)) * (cos (c.s.inc k))) * (cos (c.aziMag k)))) - (cos (c.aziMag k)))) / (2 * (1
        - ((((sin (c.s.inc k)) * (sin (c.s.inc k))) * (sin (c.aziMag k))) * (sin (c.aziMag k))))) := by
  simp only [t47, val_num, val_bin, val_un, val_sin, val_cos, val_tan, val_abs, val_sqrt,
    val_pi, val_inc h, val_azT h, val_azM h, val_md h, val_tvd h, val_G h, val_dip h, val_B h, Op.fn,
    Rat.cast_zero, Rat.cast_one, Rat.cast_ofNat, Rat.cast_div]

theorem val_t48 (h : Feeds c scal arrays) (k : ℕ) :
    value (envS scal arrays) t48 k =
      ((sin (c.aziMag k)) * (((((tan c.dip) * (sin (c.s.inc k))) * (cos (c.s.inc k))) - (((cos
        (c.s.inc k)) * (cos (c.s.inc k))) * (cos (c.aziMag k)))) - (cos (c.aziMag k)))) / 2 := by
  simp only [t48, val_num, val_bin, val_un, val_sin, val_cos, val_tan, val_abs, val_sqrt,
    val_pi, val_inc h, val_azT h, val_azM h, val_md h, val_tvd h, val_G h, val_dip h, val_B h, Op.fn,
    Rat.cast_zero, Rat.cast_one, Rat.cast_ofNat, Rat.cast_div]

theorem val_t51 (h : Feeds c scal arrays) (k : ℕ) :
    value (envS scal arrays) t51 k =
      sin (c.s.inc k) := by
  simp only [t51, val_num, val_bin, val_un, val_sin, val_cos, val_tan, val_abs, val_sqrt,
    val_pi, val_inc h, val_azT h, val_azM h, val_md h, val_tvd h, val_G h, val_dip h, val_B h, Op.fn,
    Rat.cast_zero, Rat.cast_one, Rat.cast_ofNat, Rat.cast_div]

theorem val_t52 (h : Feeds c scal arrays) (k : ℕ) :
    value (envS scal arrays) t52 k =
      (((((sin (c.s.inc k)) * (cos (c.s.inc k))) * (cos (c.s.inc k))) * (sin (c.aziMag k))) *
        (((tan c.dip) * (cos (c.s.inc k))) + ((sin (c.s.inc k)) * (cos (c.aziMag k))))) / (1 -
        ((((sin (c.s.inc k)) * (sin (c.s.inc k))) * (sin (c.aziMag k))) * (sin (c.aziMag k)))) := by
  simp only [t52, val_num, val_bin, val_un, val_sin, val_cos, val_tan, val_abs, val_sqrt,
    val_pi, val_inc h, val_azT h, val_azM h, val_md h, val_tvd h, val_G h, val_dip h, val_B h, Op.fn,
    Rat.cast_zero, Rat.cast_one, Rat.cast_ofNat, Rat.cast_div]

theorem val_t53 (h : Feeds c scal arrays) (k : ℕ) :
    value (envS scal arrays) t53 k =
      ((sin (c.s.inc k)) * (cos (c.s.inc k))) / 2 := by
  simp only [t53, val_num, val_bin, val_un, val_sin, val_cos, val_tan, val_abs, val_sqrt,
    val_pi, val_inc h, val_azT h, val_azM h, val_md h, val_tvd h, val_G h, val_dip h, val_B h, Op.fn,
    Rat.cast_zero, Rat.cast_one, Rat.cast_ofNat, Rat.cast_div]

theorem val_t54 (h : Feeds c scal arrays) (k : ℕ) :
    value (envS scal arrays) t54 k =
      ((sin (c.s.inc k)) * (cos (c.s.inc k))) / (Real.sqrt 2) := by
  simp only [t54, val_num, val_bin, val_un, val_sin, val_cos, val_tan, val_abs, val_sqrt,
    val_pi, val_inc h, val_azT h, val_azM h, val_md h, val_tvd h, val_G h, val_dip h, val_B h, Op.fn,
    Rat.cast_zero, Rat.cast_one, Rat.cast_ofNat, Rat.cast_div]

theorem val_t55 (h : Feeds c scal arrays) (k : ℕ) :
    value (envS scal arrays) t55 k =
      (sin (c.s.inc k)) * (sin (c.aziMag k)) := by
  simp only [t55, val_num, val_bin, val_un, val_sin, val_cos, val_tan, val_abs, val_sqrt,
    val_pi, val_inc h, val_azT h, val_azM h, val_md h, val_tvd h, val_G h, val_dip h, val_B h, Op.fn,
    Rat.cast_zero, Rat.cast_one, Rat.cast_ofNat, Rat.cast_div]

theorem val_t56 (h : Feeds c scal arrays) (k : ℕ) :
    value (envS scal arrays) t56 k =
      (((sin (c.s.inc k)) * (sin (c.aziMag k))) * (((tan c.dip) * (cos (c.s.inc k))) + ((sin
        (c.s.inc k)) * (cos (c.aziMag k))))) / ((Real.sqrt 2) * (1 - ((((sin (c.s.inc k)) * (sin
        (c.s.inc k))) * (sin (c.aziMag k))) * (sin (c.aziMag k))))) := by
  simp only [t56, val_num, val_bin, val_un, val_sin, val_cos, val_tan, val_abs, val_sqrt,
    val_pi, val_inc h, val_azT h, val_azM h, val_md h, val_tvd h, val_G h, val_dip h, val_B h, Op.fn,
    Rat.cast_zero, Rat.cast_one, Rat.cast_ofNat, Rat.cast_div]

theorem val_t57 (h : Feeds c scal arrays) (k : ℕ) :
    value (envS scal arrays) t57 k =
      (((sin (c.s.inc k)) * (sin (c.aziMag k))) * (((tan c.dip) * (cos (c.s.inc k))) + ((sin
        (c.s.inc k)) * (cos (c.aziMag k))))) / (Real.sqrt 2) := by
  simp only [t57, val_num, val_bin, val_un, val_sin, val_cos, val_tan, val_abs, val_sqrt,
    val_pi, val_inc h, val_azT h, val_azM h, val_md h, val_tvd h, val_G h, val_dip h, val_B h, Op.fn,
    Rat.cast_zero, Rat.cast_one, Rat.cast_ofNat, Rat.cast_div]

theorem val_t58 (h : Feeds c scal arrays) (k : ℕ) :
    value (envS scal arrays) t58 k =
      ((sin (c.s.inc k)) * (sin (c.aziMag k))) / (c.bTotal * (cos c.dip)) := by
  simp only [t58, val_num, val_bin, val_un, val_sin, val_cos, val_tan, val_abs, val_sqrt,
    val_pi, val_inc h, val_azT h, val_azM h, val_md h, val_tvd h, val_G h, val_dip h, val_B h, Op.fn,
    Rat.cast_zero, Rat.cast_one, Rat.cast_ofNat, Rat.cast_div]

theorem val_t61 (h : Feeds c scal arrays) (k : ℕ) :
    value (envS scal arrays) t61 k =
      (((tan c.dip) * (sin (c.s.inc k))) * (cos (c.s.inc k))) * (sin (c.aziMag k)) := by
  simp only [t61, val_num, val_bin, val_un, val_sin, val_cos, val_tan, val_abs, val_sqrt,
    val_pi, val_inc h, val_azT h, val_azM h, val_md h, val_tvd h, val_G h, val_dip h, val_B h, Op.fn,
    Rat.cast_zero, Rat.cast_one, Rat.cast_ofNat, Rat.cast_div]

theorem val_t62 (h : Feeds c scal arrays) (k : ℕ) :
    value (envS scal arrays) t62 k =
      (((tan c.dip) * (sin (c.s.inc k))) * (sin (c.aziMag k))) / c.G := by
  simp only [t62, val_num, val_bin, val_un, val_sin, val_cos, val_tan, val_abs, val_sqrt,
    val_pi, val_inc h, val_azT h, val_azM h, val_md h, val_tvd h, val_G h, val_dip h, val_B h, Op.fn,
    Rat.cast_zero, Rat.cast_one, Rat.cast_ofNat, Rat.cast_div]

theorem row_eq {a b d a' b' d' : ℝ} (h1 : a = a') (h2 : b = b') (h3 : d = d') :
    ![a, b, d] = ![a', b', d'] := by rw [h1, h2, h3]

theorem read_at (i : ℕ) (h : i < trees.length) :
    parse (rewrite trees[i].1.toList) = some trees[i].2 :=
  parse_of_reads (trees_read _ (List.getElem_mem h))

/-- The three formulas of the row are read, and have the values of the hand-written function. -/
def Agrees (f : Func) (c : Ctx) (scal : String → ℝ) (arrays : String → ℕ → ℝ) (r : Row) : Prop :=
  ∃ td ti ta, parse (rewrite r.depth.toList) = some td ∧ parse (rewrite r.inc.toList) = some ti ∧
    parse (rewrite r.azi.toList) = some ta ∧ ∀ tort k, dpde f c tort k =
      ![value (envS scal arrays) td k, value (envS scal arrays) ti k, value (envS scal arrays) ta k]

theorem agrees_ABXY_TI1 (h : Feeds c scal arrays) (hr : Regular c) :
    ∀ r ∈ shipped, r.wf = weightName .ABXY_TI1 → Agrees .ABXY_TI1 c scal arrays r := by
  intro r hm hw
  have e : r.depth = trees[28].1 ∧ r.inc = trees[22].1 ∧ r.azi = trees[11].1 :=
    (by decide +kernel : ∀ r ∈ shipped, r.wf = weightName .ABXY_TI1 →
      r.depth = trees[28].1 ∧ r.inc = trees[22].1 ∧ r.azi = trees[11].1) r hm hw
  rw [Agrees, e.1, e.2.1, e.2.2]
  refine ⟨t28, t22, t11, read_at 28 (by decide), read_at 22 (by decide),
    read_at 11 (by decide), fun tort k => ?_⟩
  rw [val_t28 h, val_t22 h, val_t11 h]
  refine row_eq ?_ ?_ ?_ <;>
    (try simp only [Ctx.funky, Ctx.si, Ctx.ci, Ctx.sm, Ctx.cm, Ctx.st, Ctx.ct, Ctx.mix, zero_mul, one_mul,
      if_neg (hr.sine k).ne', one_div, neg_add_eq_sub]) <;>
    first | done | rfl | (ring; done) | norm_num

theorem agrees_ABXY_TI2 (h : Feeds c scal arrays) (hr : Regular c) :
    ∀ r ∈ shipped, r.wf = weightName .ABXY_TI2 → Agrees .ABXY_TI2 c scal arrays r := by
  intro r hm hw
  have e : r.depth = trees[28].1 ∧ r.inc = trees[28].1 ∧ r.azi = trees[0].1 :=
    (by decide +kernel : ∀ r ∈ shipped, r.wf = weightName .ABXY_TI2 →
      r.depth = trees[28].1 ∧ r.inc = trees[28].1 ∧ r.azi = trees[0].1) r hm hw
  rw [Agrees, e.1, e.2.1, e.2.2]
  refine ⟨t28, t28, t0, read_at 28 (by decide), read_at 28 (by decide),
    read_at 0 (by decide), fun tort k => ?_⟩
  rw [val_t28 h, val_t0 h]
  refine row_eq ?_ ?_ ?_ <;>
    (try simp only [Ctx.funky, Ctx.si, Ctx.ci, Ctx.sm, Ctx.cm, Ctx.st, Ctx.ct, Ctx.mix, zero_mul, one_mul,
      if_neg (hr.sine k).ne', one_div, neg_add_eq_sub]) <;>
    first | done | rfl | (ring; done) | norm_num

theorem agrees_ABZ (h : Feeds c scal arrays) (hr : Regular c) :
    ∀ r ∈ shipped, r.wf = weightName .ABZ → Agrees .ABZ c scal arrays r := by
  intro r hm hw
  have e : r.depth = trees[28].1 ∧ r.inc = trees[27].1 ∧ r.azi = trees[62].1 :=
    (by decide +kernel : ∀ r ∈ shipped, r.wf = weightName .ABZ →
      r.depth = trees[28].1 ∧ r.inc = trees[27].1 ∧ r.azi = trees[62].1) r hm hw
  rw [Agrees, e.1, e.2.1, e.2.2]
  refine ⟨t28, t27, t62, read_at 28 (by decide), read_at 27 (by decide),
    read_at 62 (by decide), fun tort k => ?_⟩
  rw [val_t28 h, val_t27 h, val_t62 h]
  refine row_eq ?_ ?_ ?_ <;>
    (try simp only [Ctx.funky, Ctx.si, Ctx.ci, Ctx.sm, Ctx.cm, Ctx.st, Ctx.ct, Ctx.mix, zero_mul, one_mul,
      if_neg (hr.sine k).ne', one_div, neg_add_eq_sub]) <;>
    first | done | rfl | (ring; done) | norm_num

theorem agrees_AMID (h : Feeds c scal arrays) (hr : Regular c) :
    ∀ r ∈ shipped, r.wf = weightName .AMID → Agrees .AMID c scal arrays r := by
  intro r hm hw
  have e : r.depth = trees[28].1 ∧ r.inc = trees[28].1 ∧ r.azi = trees[55].1 :=
    (by decide +kernel : ∀ r ∈ shipped, r.wf = weightName .AMID →
      r.depth = trees[28].1 ∧ r.inc = trees[28].1 ∧ r.azi = trees[55].1) r hm hw
  rw [Agrees, e.1, e.2.1, e.2.2]
  refine ⟨t28, t28, t55, read_at 28 (by decide), read_at 28 (by decide),
    read_at 55 (by decide), fun tort k => ?_⟩
  rw [val_t28 h, val_t55 h]
  refine row_eq ?_ ?_ ?_ <;>
    (try simp only [Ctx.funky, Ctx.si, Ctx.ci, Ctx.sm, Ctx.cm, Ctx.st, Ctx.ct, Ctx.mix, zero_mul, one_mul,
      if_neg (hr.sine k).ne', one_div, neg_add_eq_sub]) <;>
    first | done | rfl | (ring; done) | norm_num

theorem agrees_ASIXY_TI1 (h : Feeds c scal arrays) (hr : Regular c) :
    ∀ r ∈ shipped, r.wf = weightName .ASIXY_TI1 → Agrees .ASIXY_TI1 c scal arrays r := by
  intro r hm hw
  have e : r.depth = trees[28].1 ∧ r.inc = trees[54].1 ∧ r.azi = trees[17].1 :=
    (by decide +kernel : ∀ r ∈ shipped, r.wf = weightName .ASIXY_TI1 →
      r.depth = trees[28].1 ∧ r.inc = trees[54].1 ∧ r.azi = trees[17].1) r hm hw
  rw [Agrees, e.1, e.2.1, e.2.2]
  refine ⟨t28, t54, t17, read_at 28 (by decide), read_at 54 (by decide),
    read_at 17 (by decide), fun tort k => ?_⟩
  rw [val_t28 h, val_t54 h, val_t17 h]
  refine row_eq ?_ ?_ ?_ <;>
    (try simp only [Ctx.funky, Ctx.si, Ctx.ci, Ctx.sm, Ctx.cm, Ctx.st, Ctx.ct, Ctx.mix, zero_mul, one_mul,
      if_neg (hr.sine k).ne', one_div, neg_add_eq_sub]) <;>
    first | done | rfl | (ring; done) | norm_num

theorem agrees_ASIXY_TI2 (h : Feeds c scal arrays) (hr : Regular c) :
    ∀ r ∈ shipped, r.wf = weightName .ASIXY_TI2 → Agrees .ASIXY_TI2 c scal arrays r := by
  intro r hm hw
  have e : r.depth = trees[28].1 ∧ r.inc = trees[53].1 ∧ r.azi = trees[16].1 :=
    (by decide +kernel : ∀ r ∈ shipped, r.wf = weightName .ASIXY_TI2 →
      r.depth = trees[28].1 ∧ r.inc = trees[53].1 ∧ r.azi = trees[16].1) r hm hw
  rw [Agrees, e.1, e.2.1, e.2.2]
  refine ⟨t28, t53, t16, read_at 28 (by decide), read_at 53 (by decide),
    read_at 16 (by decide), fun tort k => ?_⟩
  rw [val_t28 h, val_t53 h, val_t16 h]
  refine row_eq ?_ ?_ ?_ <;>
    (try simp only [Ctx.funky, Ctx.si, Ctx.ci, Ctx.sm, Ctx.cm, Ctx.st, Ctx.ct, Ctx.mix, zero_mul, one_mul,
      if_neg (hr.sine k).ne', one_div, neg_add_eq_sub]) <;>
    first | done | rfl | (ring; done) | norm_num

theorem agrees_ASIXY_TI3 (h : Feeds c scal arrays) (hr : Regular c) :
    ∀ r ∈ shipped, r.wf = weightName .ASIXY_TI3 → Agrees .ASIXY_TI3 c scal arrays r := by
  intro r hm hw
  have e : r.depth = trees[28].1 ∧ r.inc = trees[28].1 ∧ r.azi = trees[12].1 :=
    (by decide +kernel : ∀ r ∈ shipped, r.wf = weightName .ASIXY_TI3 →
      r.depth = trees[28].1 ∧ r.inc = trees[28].1 ∧ r.azi = trees[12].1) r hm hw
  rw [Agrees, e.1, e.2.1, e.2.2]
  refine ⟨t28, t28, t12, read_at 28 (by decide), read_at 28 (by decide),
    read_at 12 (by decide), fun tort k => ?_⟩
  rw [val_t28 h, val_t12 h]
  refine row_eq ?_ ?_ ?_ <;>
    (try simp only [Ctx.funky, Ctx.si, Ctx.ci, Ctx.sm, Ctx.cm, Ctx.st, Ctx.ct, Ctx.mix, zero_mul, one_mul,
      if_neg (hr.sine k).ne', one_div, neg_add_eq_sub]) <;>
    first | done | rfl | (ring; done) | norm_num

theorem agrees_ASIZ (h : Feeds c scal arrays) (hr : Regular c) :
    ∀ r ∈ shipped, r.wf = weightName .ASIZ → Agrees .ASIZ c scal arrays r := by
  intro r hm hw
  have e : r.depth = trees[28].1 ∧ r.inc = trees[23].1 ∧ r.azi = trees[52].1 :=
    (by decide +kernel : ∀ r ∈ shipped, r.wf = weightName .ASIZ →
      r.depth = trees[28].1 ∧ r.inc = trees[23].1 ∧ r.azi = trees[52].1) r hm hw
  rw [Agrees, e.1, e.2.1, e.2.2]
  refine ⟨t28, t23, t52, read_at 28 (by decide), read_at 23 (by decide),
    read_at 52 (by decide), fun tort k => ?_⟩
  rw [val_t28 h, val_t23 h, val_t52 h]
  refine row_eq ?_ ?_ ?_ <;>
    (try simp only [Ctx.funky, Ctx.si, Ctx.ci, Ctx.sm, Ctx.cm, Ctx.st, Ctx.ct, Ctx.mix, zero_mul, one_mul,
      if_neg (hr.sine k).ne', one_div, neg_add_eq_sub]) <;>
    first | done | rfl | (ring; done) | norm_num

theorem agrees_ASXY_TI1 (h : Feeds c scal arrays) (hr : Regular c) :
    ∀ r ∈ shipped, r.wf = weightName .ASXY_TI1 → Agrees .ASXY_TI1 c scal arrays r := by
  intro r hm hw
  have e : r.depth = trees[28].1 ∧ r.inc = trees[54].1 ∧ r.azi = trees[2].1 :=
    (by decide +kernel : ∀ r ∈ shipped, r.wf = weightName .ASXY_TI1 →
      r.depth = trees[28].1 ∧ r.inc = trees[54].1 ∧ r.azi = trees[2].1) r hm hw
  rw [Agrees, e.1, e.2.1, e.2.2]
  refine ⟨t28, t54, t2, read_at 28 (by decide), read_at 54 (by decide),
    read_at 2 (by decide), fun tort k => ?_⟩
  rw [val_t28 h, val_t54 h, val_t2 h]
  refine row_eq ?_ ?_ ?_ <;>
    (try simp only [Ctx.funky, Ctx.si, Ctx.ci, Ctx.sm, Ctx.cm, Ctx.st, Ctx.ct, Ctx.mix, zero_mul, one_mul,
      if_neg (hr.sine k).ne', one_div, neg_add_eq_sub]) <;>
    first | done | rfl | (ring; done) | norm_num

theorem agrees_ASXY_TI2 (h : Feeds c scal arrays) (hr : Regular c) :
    ∀ r ∈ shipped, r.wf = weightName .ASXY_TI2 → Agrees .ASXY_TI2 c scal arrays r := by
  intro r hm hw
  have e : r.depth = trees[28].1 ∧ r.inc = trees[53].1 ∧ r.azi = trees[1].1 :=
    (by decide +kernel : ∀ r ∈ shipped, r.wf = weightName .ASXY_TI2 →
      r.depth = trees[28].1 ∧ r.inc = trees[53].1 ∧ r.azi = trees[1].1) r hm hw
  rw [Agrees, e.1, e.2.1, e.2.2]
  refine ⟨t28, t53, t1, read_at 28 (by decide), read_at 53 (by decide),
    read_at 1 (by decide), fun tort k => ?_⟩
  rw [val_t28 h, val_t53 h, val_t1 h]
  refine row_eq ?_ ?_ ?_ <;>
    (try simp only [Ctx.funky, Ctx.si, Ctx.ci, Ctx.sm, Ctx.cm, Ctx.st, Ctx.ct, Ctx.mix, zero_mul, one_mul,
      if_neg (hr.sine k).ne', one_div, neg_add_eq_sub]) <;>
    first | done | rfl | (ring; done) | norm_num

theorem agrees_ASXY_TI3 (h : Feeds c scal arrays) (hr : Regular c) :
    ∀ r ∈ shipped, r.wf = weightName .ASXY_TI3 → Agrees .ASXY_TI3 c scal arrays r := by
  intro r hm hw
  have e : r.depth = trees[28].1 ∧ r.inc = trees[28].1 ∧ r.azi = trees[13].1 :=
    (by decide +kernel : ∀ r ∈ shipped, r.wf = weightName .ASXY_TI3 →
      r.depth = trees[28].1 ∧ r.inc = trees[28].1 ∧ r.azi = trees[13].1) r hm hw
  rw [Agrees, e.1, e.2.1, e.2.2]
  refine ⟨t28, t28, t13, read_at 28 (by decide), read_at 28 (by decide),
    read_at 13 (by decide), fun tort k => ?_⟩
  rw [val_t28 h, val_t13 h]
  refine row_eq ?_ ?_ ?_ <;>
    (try simp only [Ctx.funky, Ctx.si, Ctx.ci, Ctx.sm, Ctx.cm, Ctx.st, Ctx.ct, Ctx.mix, zero_mul, one_mul,
      if_neg (hr.sine k).ne', one_div, neg_add_eq_sub]) <;>
    first | done | rfl | (ring; done) | norm_num

theorem agrees_ASZ (h : Feeds c scal arrays) (hr : Regular c) :
    ∀ r ∈ shipped, r.wf = weightName .ASZ → Agrees .ASZ c scal arrays r := by
  intro r hm hw
  have e : r.depth = trees[28].1 ∧ r.inc = trees[23].1 ∧ r.azi = trees[61].1 :=
    (by decide +kernel : ∀ r ∈ shipped, r.wf = weightName .ASZ →
      r.depth = trees[28].1 ∧ r.inc = trees[23].1 ∧ r.azi = trees[61].1) r hm hw
  rw [Agrees, e.1, e.2.1, e.2.2]
  refine ⟨t28, t23, t61, read_at 28 (by decide), read_at 23 (by decide),
    read_at 61 (by decide), fun tort k => ?_⟩
  rw [val_t28 h, val_t23 h, val_t61 h]
  refine row_eq ?_ ?_ ?_ <;>
    (try simp only [Ctx.funky, Ctx.si, Ctx.ci, Ctx.sm, Ctx.cm, Ctx.st, Ctx.ct, Ctx.mix, zero_mul, one_mul,
      if_neg (hr.sine k).ne', one_div, neg_add_eq_sub]) <;>
    first | done | rfl | (ring; done) | norm_num

theorem agrees_AZ (h : Feeds c scal arrays) (hr : Regular c) :
    ∀ r ∈ shipped, r.wf = weightName .AZ → Agrees .AZ c scal arrays r := by
  intro r hm hw
  have e : r.depth = trees[28].1 ∧ r.inc = trees[28].1 ∧ r.azi = trees[29].1 :=
    (by decide +kernel : ∀ r ∈ shipped, r.wf = weightName .AZ →
      r.depth = trees[28].1 ∧ r.inc = trees[28].1 ∧ r.azi = trees[29].1) r hm hw
  rw [Agrees, e.1, e.2.1, e.2.2]
  refine ⟨t28, t28, t29, read_at 28 (by decide), read_at 28 (by decide),
    read_at 29 (by decide), fun tort k => ?_⟩
  rw [val_t28 h, val_t29 h]
  refine row_eq ?_ ?_ ?_ <;>
    (try simp only [Ctx.funky, Ctx.si, Ctx.ci, Ctx.sm, Ctx.cm, Ctx.st, Ctx.ct, Ctx.mix, zero_mul, one_mul,
      if_neg (hr.sine k).ne', one_div, neg_add_eq_sub]) <;>
    first | done | rfl | (ring; done) | norm_num

theorem agrees_CNA (h : Feeds c scal arrays) (hr : Regular c) :
    ∀ r ∈ shipped, r.wf = weightName .CNA → Agrees .CNA c scal arrays r := by
  intro r hm hw
  have e : r.depth = trees[28].1 ∧ r.inc = trees[28].1 ∧ r.azi = trees[31].1 :=
    (by decide +kernel : ∀ r ∈ shipped, r.wf = weightName .CNA →
      r.depth = trees[28].1 ∧ r.inc = trees[28].1 ∧ r.azi = trees[31].1) r hm hw
  rw [Agrees, e.1, e.2.1, e.2.2]
  refine ⟨t28, t28, t31, read_at 28 (by decide), read_at 28 (by decide),
    read_at 31 (by decide), fun tort k => ?_⟩
  rw [val_t28 h, val_t31 h]
  refine row_eq ?_ ?_ ?_ <;>
    (try simp only [Ctx.funky, Ctx.si, Ctx.ci, Ctx.sm, Ctx.cm, Ctx.st, Ctx.ct, Ctx.mix, zero_mul, one_mul,
      if_neg (hr.sine k).ne', one_div, neg_add_eq_sub]) <;>
    first | done | rfl | (ring; done) | norm_num

theorem agrees_CNI (h : Feeds c scal arrays) (hr : Regular c) :
    ∀ r ∈ shipped, r.wf = weightName .CNI → Agrees .CNI c scal arrays r := by
  intro r hm hw
  have e : r.depth = trees[28].1 ∧ r.inc = trees[29].1 ∧ r.azi = trees[28].1 :=
    (by decide +kernel : ∀ r ∈ shipped, r.wf = weightName .CNI →
      r.depth = trees[28].1 ∧ r.inc = trees[29].1 ∧ r.azi = trees[28].1) r hm hw
  rw [Agrees, e.1, e.2.1, e.2.2]
  refine ⟨t28, t29, t28, read_at 28 (by decide), read_at 29 (by decide),
    read_at 28 (by decide), fun tort k => ?_⟩
  rw [val_t28 h, val_t29 h]
  refine row_eq ?_ ?_ ?_ <;>
    (try simp only [Ctx.funky, Ctx.si, Ctx.ci, Ctx.sm, Ctx.cm, Ctx.st, Ctx.ct, Ctx.mix, zero_mul, one_mul,
      if_neg (hr.sine k).ne', one_div, neg_add_eq_sub]) <;>
    first | done | rfl | (ring; done) | norm_num

theorem agrees_DBH (h : Feeds c scal arrays) (hr : Regular c) :
    ∀ r ∈ shipped, r.wf = weightName .DBH → Agrees .DBH c scal arrays r := by
  intro r hm hw
  have e : r.depth = trees[28].1 ∧ r.inc = trees[28].1 ∧ r.azi = trees[30].1 :=
    (by decide +kernel : ∀ r ∈ shipped, r.wf = weightName .DBH →
      r.depth = trees[28].1 ∧ r.inc = trees[28].1 ∧ r.azi = trees[30].1) r hm hw
  rw [Agrees, e.1, e.2.1, e.2.2]
  refine ⟨t28, t28, t30, read_at 28 (by decide), read_at 28 (by decide),
    read_at 30 (by decide), fun tort k => ?_⟩
  rw [val_t28 h, val_t30 h]
  refine row_eq ?_ ?_ ?_ <;>
    (try simp only [Ctx.funky, Ctx.si, Ctx.ci, Ctx.sm, Ctx.cm, Ctx.st, Ctx.ct, Ctx.mix, zero_mul, one_mul,
      if_neg (hr.sine k).ne', one_div, neg_add_eq_sub]) <;>
    first | done | rfl | (ring; done) | norm_num

theorem agrees_DREF (h : Feeds c scal arrays) (hr : Regular c) :
    ∀ r ∈ shipped, r.wf = weightName .DREF → Agrees .DREF c scal arrays r := by
  intro r hm hw
  have e : r.depth = trees[29].1 ∧ r.inc = trees[28].1 ∧ r.azi = trees[28].1 :=
    (by decide +kernel : ∀ r ∈ shipped, r.wf = weightName .DREF →
      r.depth = trees[29].1 ∧ r.inc = trees[28].1 ∧ r.azi = trees[28].1) r hm hw
  rw [Agrees, e.1, e.2.1, e.2.2]
  refine ⟨t29, t28, t28, read_at 29 (by decide), read_at 28 (by decide),
    read_at 28 (by decide), fun tort k => ?_⟩
  rw [val_t29 h, val_t28 h]
  refine row_eq ?_ ?_ ?_ <;>
    (try simp only [Ctx.funky, Ctx.si, Ctx.ci, Ctx.sm, Ctx.cm, Ctx.st, Ctx.ct, Ctx.mix, zero_mul, one_mul,
      if_neg (hr.sine k).ne', one_div, neg_add_eq_sub]) <;>
    first | done | rfl | (ring; done) | norm_num

theorem agrees_DSF (h : Feeds c scal arrays) (hr : Regular c) :
    ∀ r ∈ shipped, r.wf = weightName .DSF → Agrees .DSF c scal arrays r := by
  intro r hm hw
  have e : r.depth = trees[42].1 ∧ r.inc = trees[28].1 ∧ r.azi = trees[28].1 :=
    (by decide +kernel : ∀ r ∈ shipped, r.wf = weightName .DSF →
      r.depth = trees[42].1 ∧ r.inc = trees[28].1 ∧ r.azi = trees[28].1) r hm hw
  rw [Agrees, e.1, e.2.1, e.2.2]
  refine ⟨t42, t28, t28, read_at 42 (by decide), read_at 28 (by decide),
    read_at 28 (by decide), fun tort k => ?_⟩
  rw [val_t42 h, val_t28 h]
  refine row_eq ?_ ?_ ?_ <;>
    (try simp only [Ctx.funky, Ctx.si, Ctx.ci, Ctx.sm, Ctx.cm, Ctx.st, Ctx.ct, Ctx.mix, zero_mul, one_mul,
      if_neg (hr.sine k).ne', one_div, neg_add_eq_sub]) <;>
    first | done | rfl | (ring; done) | norm_num

theorem agrees_DST (h : Feeds c scal arrays) (hr : Regular c) :
    ∀ r ∈ shipped, r.wf = weightName .DST → Agrees .DST c scal arrays r := by
  intro r hm hw
  have e : r.depth = trees[43].1 ∧ r.inc = trees[28].1 ∧ r.azi = trees[28].1 :=
    (by decide +kernel : ∀ r ∈ shipped, r.wf = weightName .DST →
      r.depth = trees[43].1 ∧ r.inc = trees[28].1 ∧ r.azi = trees[28].1) r hm hw
  rw [Agrees, e.1, e.2.1, e.2.2]
  refine ⟨t43, t28, t28, read_at 43 (by decide), read_at 28 (by decide),
    read_at 28 (by decide), fun tort k => ?_⟩
  rw [val_t43 h, val_t28 h]
  refine row_eq ?_ ?_ ?_ <;>
    (try simp only [Ctx.funky, Ctx.si, Ctx.ci, Ctx.sm, Ctx.cm, Ctx.st, Ctx.ct, Ctx.mix, zero_mul, one_mul,
      if_neg (hr.sine k).ne', one_div, neg_add_eq_sub]) <;>
    first | done | rfl | (ring; done) | norm_num

theorem agrees_MBIXY_TI1 (h : Feeds c scal arrays) (hr : Regular c) :
    ∀ r ∈ shipped, r.wf = weightName .MBIXY_TI1 → Agrees .MBIXY_TI1 c scal arrays r := by
  intro r hm hw
  have e : r.depth = trees[28].1 ∧ r.inc = trees[28].1 ∧ r.azi = trees[20].1 :=
    (by decide +kernel : ∀ r ∈ shipped, r.wf = weightName .MBIXY_TI1 →
      r.depth = trees[28].1 ∧ r.inc = trees[28].1 ∧ r.azi = trees[20].1) r hm hw
  rw [Agrees, e.1, e.2.1, e.2.2]
  refine ⟨t28, t28, t20, read_at 28 (by decide), read_at 28 (by decide),
    read_at 20 (by decide), fun tort k => ?_⟩
  rw [val_t28 h, val_t20 h]
  refine row_eq ?_ ?_ ?_ <;>
    (try simp only [Ctx.funky, Ctx.si, Ctx.ci, Ctx.sm, Ctx.cm, Ctx.st, Ctx.ct, Ctx.mix, zero_mul, one_mul,
      if_neg (hr.sine k).ne', one_div, neg_add_eq_sub]) <;>
    first | done | rfl | (ring; done) | norm_num

theorem agrees_MBIXY_TI2 (h : Feeds c scal arrays) (hr : Regular c) :
    ∀ r ∈ shipped, r.wf = weightName .MBIXY_TI2 → Agrees .MBIXY_TI2 c scal arrays r := by
  intro r hm hw
  have e : r.depth = trees[28].1 ∧ r.inc = trees[28].1 ∧ r.azi = trees[36].1 :=
    (by decide +kernel : ∀ r ∈ shipped, r.wf = weightName .MBIXY_TI2 →
      r.depth = trees[28].1 ∧ r.inc = trees[28].1 ∧ r.azi = trees[36].1) r hm hw
  rw [Agrees, e.1, e.2.1, e.2.2]
  refine ⟨t28, t28, t36, read_at 28 (by decide), read_at 28 (by decide),
    read_at 36 (by decide), fun tort k => ?_⟩
  rw [val_t28 h, val_t36 h]
  refine row_eq ?_ ?_ ?_ <;>
    (try simp only [Ctx.funky, Ctx.si, Ctx.ci, Ctx.sm, Ctx.cm, Ctx.st, Ctx.ct, Ctx.mix, zero_mul, one_mul,
      if_neg (hr.sine k).ne', one_div, neg_add_eq_sub]) <;>
    first | done | rfl | (ring; done) | norm_num

theorem agrees_MBXY_TI1 (h : Feeds c scal arrays) (hr : Regular c) :
    ∀ r ∈ shipped, r.wf = weightName .MBXY_TI1 → Agrees .MBXY_TI1 c scal arrays r := by
  intro r hm hw
  have e : r.depth = trees[28].1 ∧ r.inc = trees[28].1 ∧ r.azi = trees[21].1 :=
    (by decide +kernel : ∀ r ∈ shipped, r.wf = weightName .MBXY_TI1 →
      r.depth = trees[28].1 ∧ r.inc = trees[28].1 ∧ r.azi = trees[21].1) r hm hw
  rw [Agrees, e.1, e.2.1, e.2.2]
  refine ⟨t28, t28, t21, read_at 28 (by decide), read_at 28 (by decide),
    read_at 21 (by decide), fun tort k => ?_⟩
  rw [val_t28 h, val_t21 h]
  refine row_eq ?_ ?_ ?_ <;>
    (try simp only [Ctx.funky, Ctx.si, Ctx.ci, Ctx.sm, Ctx.cm, Ctx.st, Ctx.ct, Ctx.mix, zero_mul, one_mul,
      if_neg (hr.sine k).ne', one_div, neg_add_eq_sub]) <;>
    first | done | rfl | (ring; done) | norm_num

theorem agrees_MBXY_TI2 (h : Feeds c scal arrays) (hr : Regular c) :
    ∀ r ∈ shipped, r.wf = weightName .MBXY_TI2 → Agrees .MBXY_TI2 c scal arrays r := by
  intro r hm hw
  have e : r.depth = trees[28].1 ∧ r.inc = trees[28].1 ∧ r.azi = trees[37].1 :=
    (by decide +kernel : ∀ r ∈ shipped, r.wf = weightName .MBXY_TI2 →
      r.depth = trees[28].1 ∧ r.inc = trees[28].1 ∧ r.azi = trees[37].1) r hm hw
  rw [Agrees, e.1, e.2.1, e.2.2]
  refine ⟨t28, t28, t37, read_at 28 (by decide), read_at 28 (by decide),
    read_at 37 (by decide), fun tort k => ?_⟩
  rw [val_t28 h, val_t37 h]
  refine row_eq ?_ ?_ ?_ <;>
    (try simp only [Ctx.funky, Ctx.si, Ctx.ci, Ctx.sm, Ctx.cm, Ctx.st, Ctx.ct, Ctx.mix, zero_mul, one_mul,
      if_neg (hr.sine k).ne', one_div, neg_add_eq_sub]) <;>
    first | done | rfl | (ring; done) | norm_num

theorem agrees_MBZ (h : Feeds c scal arrays) (hr : Regular c) :
    ∀ r ∈ shipped, r.wf = weightName .MBZ → Agrees .MBZ c scal arrays r := by
  intro r hm hw
  have e : r.depth = trees[28].1 ∧ r.inc = trees[28].1 ∧ r.azi = trees[26].1 :=
    (by decide +kernel : ∀ r ∈ shipped, r.wf = weightName .MBZ →
      r.depth = trees[28].1 ∧ r.inc = trees[28].1 ∧ r.azi = trees[26].1) r hm hw
  rw [Agrees, e.1, e.2.1, e.2.2]
  refine ⟨t28, t28, t26, read_at 28 (by decide), read_at 28 (by decide),
    read_at 26 (by decide), fun tort k => ?_⟩
  rw [val_t28 h, val_t26 h]
  refine row_eq ?_ ?_ ?_ <;>
    (try simp only [Ctx.funky, Ctx.si, Ctx.ci, Ctx.sm, Ctx.cm, Ctx.st, Ctx.ct, Ctx.mix, zero_mul, one_mul,
      if_neg (hr.sine k).ne', one_div, neg_add_eq_sub]) <;>
    first | done | rfl | (ring; done) | norm_num

theorem agrees_MDI (h : Feeds c scal arrays) (hr : Regular c) :
    ∀ r ∈ shipped, r.wf = weightName .MDI → Agrees .MDI c scal arrays r := by
  intro r hm hw
  have e : r.depth = trees[28].1 ∧ r.inc = trees[28].1 ∧ r.azi = trees[24].1 :=
    (by decide +kernel : ∀ r ∈ shipped, r.wf = weightName .MDI →
      r.depth = trees[28].1 ∧ r.inc = trees[28].1 ∧ r.azi = trees[24].1) r hm hw
  rw [Agrees, e.1, e.2.1, e.2.2]
  refine ⟨t28, t28, t24, read_at 28 (by decide), read_at 28 (by decide),
    read_at 24 (by decide), fun tort k => ?_⟩
  rw [val_t28 h, val_t24 h]
  refine row_eq ?_ ?_ ?_ <;>
    (try simp only [Ctx.funky, Ctx.si, Ctx.ci, Ctx.sm, Ctx.cm, Ctx.st, Ctx.ct, Ctx.mix, zero_mul, one_mul,
      if_neg (hr.sine k).ne', one_div, neg_add_eq_sub]) <;>
    first | done | rfl | (ring; done) | norm_num

theorem agrees_MSIXY_TI1 (h : Feeds c scal arrays) (hr : Regular c) :
    ∀ r ∈ shipped, r.wf = weightName .MSIXY_TI1 → Agrees .MSIXY_TI1 c scal arrays r := by
  intro r hm hw
  have e : r.depth = trees[28].1 ∧ r.inc = trees[28].1 ∧ r.azi = trees[56].1 :=
    (by decide +kernel : ∀ r ∈ shipped, r.wf = weightName .MSIXY_TI1 →
      r.depth = trees[28].1 ∧ r.inc = trees[28].1 ∧ r.azi = trees[56].1) r hm hw
  rw [Agrees, e.1, e.2.1, e.2.2]
  refine ⟨t28, t28, t56, read_at 28 (by decide), read_at 28 (by decide),
    read_at 56 (by decide), fun tort k => ?_⟩
  rw [val_t28 h, val_t56 h]
  refine row_eq ?_ ?_ ?_ <;>
    (try simp only [Ctx.funky, Ctx.si, Ctx.ci, Ctx.sm, Ctx.cm, Ctx.st, Ctx.ct, Ctx.mix, zero_mul, one_mul,
      if_neg (hr.sine k).ne', one_div, neg_add_eq_sub]) <;>
    first | done | rfl | (ring; done) | norm_num

theorem agrees_MSIXY_TI2 (h : Feeds c scal arrays) (hr : Regular c) :
    ∀ r ∈ shipped, r.wf = weightName .MSIXY_TI2 → Agrees .MSIXY_TI2 c scal arrays r := by
  intro r hm hw
  have e : r.depth = trees[28].1 ∧ r.inc = trees[28].1 ∧ r.azi = trees[47].1 :=
    (by decide +kernel : ∀ r ∈ shipped, r.wf = weightName .MSIXY_TI2 →
      r.depth = trees[28].1 ∧ r.inc = trees[28].1 ∧ r.azi = trees[47].1) r hm hw
  rw [Agrees, e.1, e.2.1, e.2.2]
  refine ⟨t28, t28, t47, read_at 28 (by decide), read_at 28 (by decide),
    read_at 47 (by decide), fun tort k => ?_⟩
  rw [val_t28 h, val_t47 h]
  refine row_eq ?_ ?_ ?_ <;>
    (try simp only [Ctx.funky, Ctx.si, Ctx.ci, Ctx.sm, Ctx.cm, Ctx.st, Ctx.ct, Ctx.mix, zero_mul, one_mul,
      if_neg (hr.sine k).ne', one_div, neg_add_eq_sub]) <;>
    first | done | rfl | (ring; done) | norm_num

theorem agrees_MSIXY_TI3 (h : Feeds c scal arrays) (hr : Regular c) :
    ∀ r ∈ shipped, r.wf = weightName .MSIXY_TI3 → Agrees .MSIXY_TI3 c scal arrays r := by
  intro r hm hw
  have e : r.depth = trees[28].1 ∧ r.inc = trees[28].1 ∧ r.azi = trees[4].1 :=
    (by decide +kernel : ∀ r ∈ shipped, r.wf = weightName .MSIXY_TI3 →
      r.depth = trees[28].1 ∧ r.inc = trees[28].1 ∧ r.azi = trees[4].1) r hm hw
  rw [Agrees, e.1, e.2.1, e.2.2]
  refine ⟨t28, t28, t4, read_at 28 (by decide), read_at 28 (by decide),
    read_at 4 (by decide), fun tort k => ?_⟩
  rw [val_t28 h, val_t4 h]
  refine row_eq ?_ ?_ ?_ <;>
    (try simp only [Ctx.funky, Ctx.si, Ctx.ci, Ctx.sm, Ctx.cm, Ctx.st, Ctx.ct, Ctx.mix, zero_mul, one_mul,
      if_neg (hr.sine k).ne', one_div, neg_add_eq_sub]) <;>
    first | done | rfl | (ring; done) | norm_num

theorem agrees_MSXY_TI1 (h : Feeds c scal arrays) (hr : Regular c) :
    ∀ r ∈ shipped, r.wf = weightName .MSXY_TI1 → Agrees .MSXY_TI1 c scal arrays r := by
  intro r hm hw
  have e : r.depth = trees[28].1 ∧ r.inc = trees[28].1 ∧ r.azi = trees[57].1 :=
    (by decide +kernel : ∀ r ∈ shipped, r.wf = weightName .MSXY_TI1 →
      r.depth = trees[28].1 ∧ r.inc = trees[28].1 ∧ r.azi = trees[57].1) r hm hw
  rw [Agrees, e.1, e.2.1, e.2.2]
  refine ⟨t28, t28, t57, read_at 28 (by decide), read_at 28 (by decide),
    read_at 57 (by decide), fun tort k => ?_⟩
  rw [val_t28 h, val_t57 h]
  refine row_eq ?_ ?_ ?_ <;>
    (try simp only [Ctx.funky, Ctx.si, Ctx.ci, Ctx.sm, Ctx.cm, Ctx.st, Ctx.ct, Ctx.mix, zero_mul, one_mul,
      if_neg (hr.sine k).ne', one_div, neg_add_eq_sub]) <;>
    first | done | rfl | (ring; done) | norm_num

theorem agrees_MSXY_TI2 (h : Feeds c scal arrays) (hr : Regular c) :
    ∀ r ∈ shipped, r.wf = weightName .MSXY_TI2 → Agrees .MSXY_TI2 c scal arrays r := by
  intro r hm hw
  have e : r.depth = trees[28].1 ∧ r.inc = trees[28].1 ∧ r.azi = trees[48].1 :=
    (by decide +kernel : ∀ r ∈ shipped, r.wf = weightName .MSXY_TI2 →
      r.depth = trees[28].1 ∧ r.inc = trees[28].1 ∧ r.azi = trees[48].1) r hm hw
  rw [Agrees, e.1, e.2.1, e.2.2]
  refine ⟨t28, t28, t48, read_at 28 (by decide), read_at 28 (by decide),
    read_at 48 (by decide), fun tort k => ?_⟩
  rw [val_t28 h, val_t48 h]
  refine row_eq ?_ ?_ ?_ <;>
    (try simp only [Ctx.funky, Ctx.si, Ctx.ci, Ctx.sm, Ctx.cm, Ctx.st, Ctx.ct, Ctx.mix, zero_mul, one_mul,
      if_neg (hr.sine k).ne', one_div, neg_add_eq_sub]) <;>
    first | done | rfl | (ring; done) | norm_num

theorem agrees_MSXY_TI3 (h : Feeds c scal arrays) (hr : Regular c) :
    ∀ r ∈ shipped, r.wf = weightName .MSXY_TI3 → Agrees .MSXY_TI3 c scal arrays r := by
  intro r hm hw
  have e : r.depth = trees[28].1 ∧ r.inc = trees[28].1 ∧ r.azi = trees[5].1 :=
    (by decide +kernel : ∀ r ∈ shipped, r.wf = weightName .MSXY_TI3 →
      r.depth = trees[28].1 ∧ r.inc = trees[28].1 ∧ r.azi = trees[5].1) r hm hw
  rw [Agrees, e.1, e.2.1, e.2.2]
  refine ⟨t28, t28, t5, read_at 28 (by decide), read_at 28 (by decide),
    read_at 5 (by decide), fun tort k => ?_⟩
  rw [val_t28 h, val_t5 h]
  refine row_eq ?_ ?_ ?_ <;>
    (try simp only [Ctx.funky, Ctx.si, Ctx.ci, Ctx.sm, Ctx.cm, Ctx.st, Ctx.ct, Ctx.mix, zero_mul, one_mul,
      if_neg (hr.sine k).ne', one_div, neg_add_eq_sub]) <;>
    first | done | rfl | (ring; done) | norm_num

theorem agrees_MSZ (h : Feeds c scal arrays) (hr : Regular c) :
    ∀ r ∈ shipped, r.wf = weightName .MSZ → Agrees .MSZ c scal arrays r := by
  intro r hm hw
  have e : r.depth = trees[28].1 ∧ r.inc = trees[28].1 ∧ r.azi = trees[15].1 :=
    (by decide +kernel : ∀ r ∈ shipped, r.wf = weightName .MSZ →
      r.depth = trees[28].1 ∧ r.inc = trees[28].1 ∧ r.azi = trees[15].1) r hm hw
  rw [Agrees, e.1, e.2.1, e.2.2]
  refine ⟨t28, t28, t15, read_at 28 (by decide), read_at 28 (by decide),
    read_at 15 (by decide), fun tort k => ?_⟩
  rw [val_t28 h, val_t15 h]
  refine row_eq ?_ ?_ ?_ <;>
    (try simp only [Ctx.funky, Ctx.si, Ctx.ci, Ctx.sm, Ctx.cm, Ctx.st, Ctx.ct, Ctx.mix, zero_mul, one_mul,
      if_neg (hr.sine k).ne', one_div, neg_add_eq_sub]) <;>
    first | done | rfl | (ring; done) | norm_num

theorem agrees_SAG (h : Feeds c scal arrays) (hr : Regular c) :
    ∀ r ∈ shipped, r.wf = weightName .SAG → Agrees .SAG c scal arrays r := by
  intro r hm hw
  have e : r.depth = trees[28].1 ∧ r.inc = trees[51].1 ∧ r.azi = trees[28].1 :=
    (by decide +kernel : ∀ r ∈ shipped, r.wf = weightName .SAG →
      r.depth = trees[28].1 ∧ r.inc = trees[51].1 ∧ r.azi = trees[28].1) r hm hw
  rw [Agrees, e.1, e.2.1, e.2.2]
  refine ⟨t28, t51, t28, read_at 28 (by decide), read_at 51 (by decide),
    read_at 28 (by decide), fun tort k => ?_⟩
  rw [val_t28 h, val_t51 h]
  refine row_eq ?_ ?_ ?_ <;>
    (try simp only [Ctx.funky, Ctx.si, Ctx.ci, Ctx.sm, Ctx.cm, Ctx.st, Ctx.ct, Ctx.mix, zero_mul, one_mul,
      if_neg (hr.sine k).ne', one_div, neg_add_eq_sub]) <;>
    first | done | rfl | (ring; done) | norm_num

theorem agrees_SAGE (h : Feeds c scal arrays) (hr : Regular c) :
    ∀ r ∈ shipped, r.wf = weightName .SAGE → Agrees .SAGE c scal arrays r := by
  intro r hm hw
  have e : r.depth = trees[28].1 ∧ r.inc = trees[10].1 ∧ r.azi = trees[28].1 :=
    (by decide +kernel : ∀ r ∈ shipped, r.wf = weightName .SAGE →
      r.depth = trees[28].1 ∧ r.inc = trees[10].1 ∧ r.azi = trees[28].1) r hm hw
  rw [Agrees, e.1, e.2.1, e.2.2]
  refine ⟨t28, t10, t28, read_at 28 (by decide), read_at 10 (by decide),
    read_at 28 (by decide), fun tort k => ?_⟩
  rw [val_t28 h, val_t10 h]
  refine row_eq ?_ ?_ ?_ <;>
    (try simp only [Ctx.funky, Ctx.si, Ctx.ci, Ctx.sm, Ctx.cm, Ctx.st, Ctx.ct, Ctx.mix, zero_mul, one_mul,
      if_neg (hr.sine k).ne', one_div, neg_add_eq_sub]) <;>
    first | done | rfl | (ring; done) | norm_num

theorem agrees_XYM1 (h : Feeds c scal arrays) (hr : Regular c) :
    ∀ r ∈ shipped, r.wf = weightName .XYM1 → Agrees .XYM1 c scal arrays r := by
  intro r hm hw
  have e : r.depth = trees[28].1 ∧ r.inc = trees[35].1 ∧ r.azi = trees[28].1 :=
    (by decide +kernel : ∀ r ∈ shipped, r.wf = weightName .XYM1 →
      r.depth = trees[28].1 ∧ r.inc = trees[35].1 ∧ r.azi = trees[28].1) r hm hw
  rw [Agrees, e.1, e.2.1, e.2.2]
  refine ⟨t28, t35, t28, read_at 28 (by decide), read_at 35 (by decide),
    read_at 28 (by decide), fun tort k => ?_⟩
  rw [val_t28 h, val_t35 h]
  refine row_eq ?_ ?_ ?_ <;>
    (try simp only [Ctx.funky, Ctx.si, Ctx.ci, Ctx.sm, Ctx.cm, Ctx.st, Ctx.ct, Ctx.mix, zero_mul, one_mul,
      if_neg (hr.sine k).ne', one_div, neg_add_eq_sub]) <;>
    first | done | rfl | (ring; done) | norm_num

theorem agrees_XYM2 (h : Feeds c scal arrays) (hr : Regular c) :
    ∀ r ∈ shipped, r.wf = weightName .XYM2 → Agrees .XYM2 c scal arrays r := by
  intro r hm hw
  have e : r.depth = trees[28].1 ∧ r.inc = trees[28].1 ∧ r.azi = trees[19].1 :=
    (by decide +kernel : ∀ r ∈ shipped, r.wf = weightName .XYM2 →
      r.depth = trees[28].1 ∧ r.inc = trees[28].1 ∧ r.azi = trees[19].1) r hm hw
  rw [Agrees, e.1, e.2.1, e.2.2]
  refine ⟨t28, t28, t19, read_at 28 (by decide), read_at 28 (by decide),
    read_at 19 (by decide), fun tort k => ?_⟩
  rw [val_t28 h, val_t19 h]
  refine row_eq ?_ ?_ ?_ <;>
    (try simp only [Ctx.funky, Ctx.si, Ctx.ci, Ctx.sm, Ctx.cm, Ctx.st, Ctx.ct, Ctx.mix, zero_mul, one_mul,
      if_neg (hr.sine k).ne', one_div, neg_add_eq_sub]) <;>
    first | done | rfl | (ring; done) | norm_num

theorem agrees_XYM3 (h : Feeds c scal arrays) (hr : Regular c) :
    ∀ r ∈ shipped, r.wf = weightName .XYM3 → Agrees .XYM3 c scal arrays r := by
  intro r hm hw
  have e : r.depth = trees[28].1 ∧ r.inc = trees[33].1 ∧ r.azi = trees[14].1 :=
    (by decide +kernel : ∀ r ∈ shipped, r.wf = weightName .XYM3 →
      r.depth = trees[28].1 ∧ r.inc = trees[33].1 ∧ r.azi = trees[14].1) r hm hw
  rw [Agrees, e.1, e.2.1, e.2.2]
  refine ⟨t28, t33, t14, read_at 28 (by decide), read_at 33 (by decide),
    read_at 14 (by decide), fun tort k => ?_⟩
  rw [val_t28 h, val_t33 h, val_t14 h]
  refine row_eq ?_ ?_ ?_ <;>
    (try simp only [Ctx.funky, Ctx.si, Ctx.ci, Ctx.sm, Ctx.cm, Ctx.st, Ctx.ct, Ctx.mix, zero_mul, one_mul,
      if_neg (hr.sine k).ne', one_div, neg_add_eq_sub]) <;>
    first | done | rfl | (ring; done) | norm_num

theorem agrees_XYM4 (h : Feeds c scal arrays) (hr : Regular c) :
    ∀ r ∈ shipped, r.wf = weightName .XYM4 → Agrees .XYM4 c scal arrays r := by
  intro r hm hw
  have e : r.depth = trees[28].1 ∧ r.inc = trees[34].1 ∧ r.azi = trees[3].1 :=
    (by decide +kernel : ∀ r ∈ shipped, r.wf = weightName .XYM4 →
      r.depth = trees[28].1 ∧ r.inc = trees[34].1 ∧ r.azi = trees[3].1) r hm hw
  rw [Agrees, e.1, e.2.1, e.2.2]
  refine ⟨t28, t34, t3, read_at 28 (by decide), read_at 34 (by decide),
    read_at 3 (by decide), fun tort k => ?_⟩
  rw [val_t28 h, val_t34 h, val_t3 h]
  refine row_eq ?_ ?_ ?_ <;>
    (try simp only [Ctx.funky, Ctx.si, Ctx.ci, Ctx.sm, Ctx.cm, Ctx.st, Ctx.ct, Ctx.mix, zero_mul, one_mul,
      if_neg (hr.sine k).ne', one_div, neg_add_eq_sub]) <;>
    first | done | rfl | (ring; done) | norm_num

end Welleng.Ftext
