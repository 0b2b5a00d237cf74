import Verif.Lemmas.FormulaRead
import Verif.Lemmas.FormulaTrees

/-! Each formula of the shipped tool models is read as its tree; generated together with
`Lemmas/FormulaTrees.lean`.  One theorem for each formula keeps the memory needed small. -/

namespace Welleng.Ftext

set_option Elab.async false

theorem read_t0 :
    reads "((Tan((pi / 2) - Inc)) - Tan(Dip) * Cos(AzM)) / Gfield" t0 = true := by decide +kernel

theorem read_t1 :
    reads "(-Tan(Dip) * Sin(Inc) * Cos(Inc) * Sin(AzM)) / 2" t1 = true := by decide +kernel

theorem read_t2 :
    reads "(-Tan(Dip) * Sin(Inc) * Cos(Inc) * Sin(AzM)) / Sqr(2)" t2 = true := by decide +kernel

theorem read_t3 : reads "(Abs(Cos(Inc)) * Cos(AzT)) / Sin(Inc)" t3 = true := by decide +kernel

theorem read_t4 :
    reads "(Cos(Inc) * Cos(AzM) * Cos(AzM) - Cos(Inc) * Sin(AzM) * Sin(AzM) - Tan(Dip) * Sin(Inc) * Cos(AzM)) / (2 * (1 - Sin(Inc) * Sin(Inc) * Sin(AzM) * Sin(AzM)))" t4 = true := by decide +kernel

theorem read_t5 :
    reads "(Cos(Inc) * Cos(AzM) * Cos(AzM) - Cos(Inc) * Sin(AzM) * Sin(AzM) - Tan(Dip) * Sin(Inc) * Cos(AzM)) / 2" t5 = true := by decide +kernel

theorem read_t6 :
    reads "(Cos(Inc) * Cos(AzT)  / Sin(Inc)) * Max(1, sqrt(10/(MD-MDPrev)))" t6 = true := by decide +kernel

theorem read_t7 :
    reads "(Cos(Inc) * Cos(Inc) * Sin(AzM) * (Tan(Dip) * Cos(Inc) + Sin(Inc) * Cos(AzM))) / (GField * (1 - Sin(Inc) * Sin(Inc) * Sin(AzM) * Sin(AzM)))" t7 = true := by decide +kernel

theorem read_t8 :
    reads "(Cos(Inc) * Sin(AzT)  / Sin(Inc)) * Max(1, sqrt(10/(MD-MDPrev)))" t8 = true := by decide +kernel

theorem read_t9 :
    reads "(Sin(Inc) * Cos(Inc) * Sin(AzM) * (Tan(Dip) * Cos(Inc) + Sin(Inc) * Cos(AzM))) / (1 - Sin(Inc) * Sin(Inc) * Sin(AzM) * Sin(AzM)) / Gfield" t9 = true := by decide +kernel

theorem read_t10 : reads "(Sin(Inc))^0.25" t10 = true := by decide +kernel

theorem read_t11 : reads "(Tan(Dip) * Cos(Inc) * Sin(AzM)) / Gfield" t11 = true := by decide +kernel

theorem read_t12 :
    reads "(Tan(Dip) * Sin(Inc) * Cos(AzM) - Cos(Inc)) / (2 * (1 - Sin(Inc) * Sin(Inc) * Sin(AzM) * Sin(AzM)))" t12 = true := by decide +kernel

theorem read_t13 :
    reads "(Tan(Dip) * Sin(Inc) * Cos(AzM) - Cos(Inc)) / 2" t13 = true := by decide +kernel

theorem read_t14 : reads "-(Abs(Cos(Inc)) * Sin(AzT)) / Sin(Inc)" t14 = true := by decide +kernel

theorem read_t15 :
    reads "-(Sin(Inc) * Cos(AzM) + Tan(Dip) * Cos(Inc)) * Sin(Inc) * Sin(AzM)" t15 = true := by decide +kernel

theorem read_t16 :
    reads "-(Sin(Inc) * Cos(Inc) * Cos(Inc) * Sin(AzM) * (Tan(Dip) * Cos(Inc) + Sin(Inc) * Cos(AzM))) / (2 * (1 - Sin(Inc) * Sin(Inc) * Sin(AzM) * Sin(AzM)))" t16 = true := by decide +kernel

theorem read_t17 :
    reads "-(Sin(Inc) * Cos(Inc) * Cos(Inc) * Sin(AzM) * (Tan(Dip) * Cos(Inc) + Sin(Inc) * Cos(AzM))) / (Sqr(2) * (1 - Sin(Inc) * Sin(Inc) * Sin(AzM) * Sin(AzM)))" t17 = true := by decide +kernel

theorem read_t18 :
    reads "-(Tan(Dip) * Cos(AzM) - Tan(90 * RAD - Inc)) / (GField * (1 - Sin(Inc) * Sin(Inc) * Sin(AzM) * Sin(AzM)))" t18 = true := by decide +kernel

theorem read_t19 : reads "-1" t19 = true := by decide +kernel

theorem read_t20 :
    reads "-Cos(Inc) * Sin(AzM) / (BField * Cos(Dip) * (1 - Sin(Inc) * Sin(Inc) * Sin(AzM) * Sin(AzM)))" t20 = true := by decide +kernel

theorem read_t21 :
    reads "-Cos(Inc) * Sin(AzM) / (BField * Cos(Dip))" t21 = true := by decide +kernel

theorem read_t22 : reads "-Cos(Inc) / Gfield" t22 = true := by decide +kernel

theorem read_t23 : reads "-Sin(Inc) * Cos(Inc)" t23 = true := by decide +kernel

theorem read_t24 :
    reads "-Sin(Inc) * Sin(AzM) * (Cos(Inc) - Tan(Dip) * Sin(Inc) * Cos(AzM)) / (1 - Sin(Inc) * Sin(Inc) * Sin(AzM) * Sin(AzM))" t24 = true := by decide +kernel

theorem read_t25 :
    reads "-Sin(Inc) * Sin(AzM) * (Tan(Dip) * Cos(Inc) + Sin(Inc) * Cos(AzM)) / (1 - Sin(Inc) * Sin(Inc) * Sin(AzM) * Sin(AzM)) / Bfield" t25 = true := by decide +kernel

theorem read_t26 :
    reads "-Sin(Inc) * Sin(AzM) / (BField * Cos(Dip))" t26 = true := by decide +kernel

theorem read_t27 : reads "-Sin(Inc) / Gfield" t27 = true := by decide +kernel

theorem read_t28 : reads "0" t28 = true := by decide +kernel

theorem read_t29 : reads "1" t29 = true := by decide +kernel

theorem read_t30 : reads "1 / (BField * Cos(Dip))" t30 = true := by decide +kernel

theorem read_t31 : reads "1 / Sin(Inc)" t31 = true := by decide +kernel

theorem read_t32 : reads "1.3 * Sin(Inc) * Cos(Inc)" t32 = true := by decide +kernel

theorem read_t33 : reads "Abs(Cos(Inc)) * Cos(AzT)" t33 = true := by decide +kernel

theorem read_t34 : reads "Abs(Cos(Inc)) * Sin(AzT)" t34 = true := by decide +kernel

theorem read_t35 : reads "Abs(Sin(Inc))" t35 = true := by decide +kernel

theorem read_t36 :
    reads "Cos(AzM) / (BField * Cos(Dip) * (1 - Sin(Inc) * Sin(Inc) * Sin(AzM) * Sin(AzM)))" t36 = true := by decide +kernel

theorem read_t37 : reads "Cos(AzM) / (BField * Cos(Dip))" t37 = true := by decide +kernel

theorem read_t38 :
    reads "Cos(AzT) * Sin(Inc) / (EarthRate * Cos(Latitude))" t38 = true := by decide +kernel

theorem read_t39 : reads "Cos(AzT) / (EarthRate * Cos(Latitude))" t39 = true := by decide +kernel

theorem read_t40 :
    reads "Cos(Inc) * Cos(AzT)  * Max(1, sqrt(10/(MD-MDPrev)))" t40 = true := by decide +kernel

theorem read_t41 :
    reads "Cos(Inc) * Sin(AzT) * Max(1, sqrt(10/(MD-MDPrev)))" t41 = true := by decide +kernel

theorem read_t42 : reads "MD" t42 = true := by decide +kernel

theorem read_t43 : reads "MD * TVD" t43 = true := by decide +kernel

theorem read_t44 :
    reads "Max(Abs(Inc-IncPrev), XCLTortuosity* (MD-MDPrev))" t44 = true := by decide +kernel

theorem read_t45 :
    reads "Max(Sin(Abs(AzT-AzPrev)), XCLTortuosity * (MD-MDPrev) / Sin(Inc))" t45 = true := by decide +kernel

theorem read_t46 :
    reads "NoiseReductionFactor * (Sqr(1 - (Cos(AzT)) ^ 2 * (Sin(Inc)) ^ 2)) / (EarthRate * Cos(Latitude) * Cos(Inc))" t46 = true := by decide +kernel

theorem read_t47 :
    reads "Sin(AzM) * (Tan(Dip) * Sin(Inc) * Cos(Inc) - Cos(Inc) * Cos(Inc) * Cos(AzM) - Cos(AzM)) / (2 * (1 - Sin(Inc) * Sin(Inc) * Sin(AzM) * Sin(AzM)))" t47 = true := by decide +kernel

theorem read_t48 :
    reads "Sin(AzM) * (Tan(Dip) * Sin(Inc) * Cos(Inc) - Cos(Inc) * Cos(Inc) * Cos(AzM) - Cos(AzM)) / 2" t48 = true := by decide +kernel

theorem read_t49 :
    reads "Sin(AzT) * Tan(Inc) / (EarthRate * Cos(Latitude))" t49 = true := by decide +kernel

theorem read_t50 :
    reads "Sin(AzT) / (EarthRate * Cos(Latitude) * Cos(Inc))" t50 = true := by decide +kernel

theorem read_t51 : reads "Sin(Inc)" t51 = true := by decide +kernel

theorem read_t52 :
    reads "Sin(Inc) * Cos(Inc) * Cos(Inc) * Sin(AzM) * (Tan(Dip) * Cos(Inc) + Sin(Inc) * Cos(AzM)) / (1 - Sin(Inc) * Sin(Inc) * Sin(AzM) * Sin(AzM))" t52 = true := by decide +kernel

theorem read_t53 : reads "Sin(Inc) * Cos(Inc) / 2" t53 = true := by decide +kernel

theorem read_t54 : reads "Sin(Inc) * Cos(Inc) / Sqr(2)" t54 = true := by decide +kernel

theorem read_t55 : reads "Sin(Inc) * Sin(AzM)" t55 = true := by decide +kernel

theorem read_t56 :
    reads "Sin(Inc) * Sin(AzM) * (Tan(Dip) * Cos(Inc) + Sin(Inc) * Cos(AzM)) / (Sqr(2) * (1 - Sin(Inc) * Sin(Inc) * Sin(AzM) * Sin(AzM)))" t56 = true := by decide +kernel

theorem read_t57 :
    reads "Sin(Inc) * Sin(AzM) * (Tan(Dip) * Cos(Inc) + Sin(Inc) * Cos(AzM)) / Sqr(2)" t57 = true := by decide +kernel

theorem read_t58 : reads "Sin(Inc) * Sin(AzM) / (BField * Cos(Dip))" t58 = true := by decide +kernel

theorem read_t59 : reads "Sin(Inc) / Gfield" t59 = true := by decide +kernel

theorem read_t60 :
    reads "Sqr(XY_Gyro_Random_Walk ^ 2 + (MD - MDPrev) / (GXYRunningSpeed * Sin((Inc + IncPrev) / 2) ^ 2))" t60 = true := by decide +kernel

theorem read_t61 : reads "Tan(Dip) * Sin(Inc) * Cos(Inc) * Sin(AzM)" t61 = true := by decide +kernel

theorem read_t62 : reads "Tan(Dip) * Sin(Inc) * Sin(AzM) / Gfield" t62 = true := by decide +kernel

theorem read_t63 :
    reads "XY_Gyro_Drift + (MD - MDPrev) / (GXYRunningSpeed * Sin((Inc + IncPrev) / 2))" t63 = true := by decide +kernel

theorem read_t64 :
    reads "Z_Gyro_Drift + (MD - MDPrev) / (GZRunningSpeed * Cos((Inc + IncPrev) / 2))" t64 = true := by decide +kernel

theorem trees_read : ∀ p ∈ trees, reads p.1 p.2 = true := by
  simp only [trees, List.forall_mem_cons]
  exact ⟨read_t0, read_t1, read_t2, read_t3, read_t4, read_t5, read_t6, read_t7, read_t8, read_t9,
    read_t10, read_t11, read_t12, read_t13, read_t14, read_t15, read_t16, read_t17, read_t18,
    read_t19, read_t20, read_t21, read_t22, read_t23, read_t24, read_t25, read_t26, read_t27,
    read_t28, read_t29, read_t30, read_t31, read_t32, read_t33, read_t34, read_t35, read_t36,
    read_t37, read_t38, read_t39, read_t40, read_t41, read_t42, read_t43, read_t44, read_t45,
    read_t46, read_t47, read_t48, read_t49, read_t50, read_t51, read_t52, read_t53, read_t54,
    read_t55, read_t56, read_t57, read_t58, read_t59, read_t60, read_t61, read_t62, read_t63,
    read_t64,
    fun _ h => absurd h List.not_mem_nil⟩

end Welleng.Ftext
