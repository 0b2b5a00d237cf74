import Verif.Model.FormulaTable

/-! The trees of the formulas in the shipped tool models; generated together with
`Model/FormulaTable.lean`. -/

namespace Welleng.Ftext

/-- `((Tan((pi / 2) - Inc)) - Tan(Dip) * Cos(AzM)) / Gfield` -/
def t0 : Tree :=
  .bin .div (.bin .sub (.call (.name "tan".toList) [.bin .sub (.bin .div (.name "pi".toList)
    (.num 2)) (.name "Inc".toList)]) (.bin .mult (.call (.name "tan".toList) [.name
    "Dip".toList]) (.call (.name "cos".toList) [.name "AzM".toList]))) (.name "Gfield".toList)

/-- `(-Tan(Dip) * Sin(Inc) * Cos(Inc) * Sin(AzM)) / 2` -/
def t1 : Tree :=
  .bin .div (.bin .mult (.bin .mult (.bin .mult (.un .usub (.call (.name "tan".toList) [.name
    "Dip".toList])) (.call (.name "sin".toList) [.name "Inc".toList])) (.call (.name
    "cos".toList) [.name "Inc".toList])) (.call (.name "sin".toList) [.name "AzM".toList])) (.num
    2)

/-- `(-Tan(Dip) * Sin(Inc) * Cos(Inc) * Sin(AzM)) / Sqr(2)` -/
def t2 : Tree :=
  .bin .div (.bin .mult (.bin .mult (.bin .mult (.un .usub (.call (.name "tan".toList) [.name
    "Dip".toList])) (.call (.name "sin".toList) [.name "Inc".toList])) (.call (.name
    "cos".toList) [.name "Inc".toList])) (.call (.name "sin".toList) [.name "AzM".toList]))
    (.call (.name "sqrt".toList) [.num 2])

/-- `(Abs(Cos(Inc)) * Cos(AzT)) / Sin(Inc)` -/
def t3 : Tree :=
  .bin .div (.bin .mult (.call (.name "abs".toList) [.call (.name "cos".toList) [.name
    "Inc".toList]]) (.call (.name "cos".toList) [.name "AzT".toList])) (.call (.name
    "sin".toList) [.name "Inc".toList])

/-- `(Cos(Inc) * Cos(AzM) * Cos(AzM) - Cos(Inc) * Sin(AzM) * Sin(AzM) - Tan(Dip) * Sin(Inc) * Cos(AzM)) / (2 * (1 - Sin(Inc) * Sin(Inc) * Sin(AzM) * Sin(AzM)))` -/
def t4 : Tree :=
  .bin .div (.bin .sub (.bin .sub (.bin .mult (.bin .mult (.call (.name "cos".toList) [.name
    "Inc".toList]) (.call (.name "cos".toList) [.name "AzM".toList])) (.call (.name "cos".toList)
    [.name "AzM".toList])) (.bin .mult (.bin .mult (.call (.name "cos".toList) [.name
    "Inc".toList]) (.call (.name "sin".toList) [.name "AzM".toList])) (.call (.name "sin".toList)
    [.name "AzM".toList]))) (.bin .mult (.bin .mult (.call (.name "tan".toList) [.name
    "Dip".toList]) (.call (.name "sin".toList) [.name "Inc".toList])) (.call (.name "cos".toList)
    [.name "AzM".toList]))) (.bin .mult (.num 2) (.bin .sub (.num 1) (.bin .mult (.bin .mult
    (.bin .mult (.call (.name "sin".toList) [.name "Inc".toList]) (.call (.name "sin".toList)
    [.name "Inc".toList])) (.call (.name "sin".toList) [.name "AzM".toList])) (.call (.name
    "sin".toList) [.name "AzM".toList]))))

/-- `(Cos(Inc) * Cos(AzM) * Cos(AzM) - Cos(Inc) * Sin(AzM) * Sin(AzM) - Tan(Dip) * Sin(Inc) * Cos(AzM)) / 2` -/
def t5 : Tree :=
  .bin .div (.bin .sub (.bin .sub (.bin .mult (.bin .mult (.call (.name "cos".toList) [.name
    "Inc".toList]) (.call (.name "cos".toList) [.name "AzM".toList])) (.call (.name "cos".toList)
    [.name "AzM".toList])) (.bin .mult (.bin .mult (.call (.name "cos".toList) [.name
    "Inc".toList]) (.call (.name "sin".toList) [.name "AzM".toList])) (.call (.name "sin".toList)
    [.name "AzM".toList]))) (.bin .mult (.bin .mult (.call (.name "tan".toList) [.name
    "Dip".toList]) (.call (.name "sin".toList) [.name "Inc".toList])) (.call (.name "cos".toList)
    [.name "AzM".toList]))) (.num 2)

/-- `(Cos(Inc) * Cos(AzT)  / Sin(Inc)) * Max(1, sqrt(10/(MD-MDPrev)))` -/
def t6 : Tree :=
  .bin .mult (.bin .div (.bin .mult (.call (.name "cos".toList) [.name "Inc".toList]) (.call
    (.name "cos".toList) [.name "AzT".toList])) (.call (.name "sin".toList) [.name
    "Inc".toList])) (.call (.name "maximum".toList) [.num 1, .call (.name "sqrt".toList) [.bin
    .div (.num 10) (.bin .sub (.name "MD".toList) (.name "MDPrev".toList))]])

/-- `(Cos(Inc) * Cos(Inc) * Sin(AzM) * (Tan(Dip) * Cos(Inc) + Sin(Inc) * Cos(AzM))) / (GField * (1 - Sin(Inc) * Sin(Inc) * Sin(AzM) * Sin(AzM)))` -/
def t7 : Tree :=
  .bin .div (.bin .mult (.bin .mult (.bin .mult (.call (.name "cos".toList) [.name "Inc".toList])
    (.call (.name "cos".toList) [.name "Inc".toList])) (.call (.name "sin".toList) [.name
    "AzM".toList])) (.bin .add (.bin .mult (.call (.name "tan".toList) [.name "Dip".toList])
    (.call (.name "cos".toList) [.name "Inc".toList])) (.bin .mult (.call (.name "sin".toList)
    [.name "Inc".toList]) (.call (.name "cos".toList) [.name "AzM".toList])))) (.bin .mult (.name
    "GField".toList) (.bin .sub (.num 1) (.bin .mult (.bin .mult (.bin .mult (.call (.name
    "sin".toList) [.name "Inc".toList]) (.call (.name "sin".toList) [.name "Inc".toList])) (.call
    (.name "sin".toList) [.name "AzM".toList])) (.call (.name "sin".toList) [.name
    "AzM".toList]))))

/-- `(Cos(Inc) * Sin(AzT)  / Sin(Inc)) * Max(1, sqrt(10/(MD-MDPrev)))` -/
def t8 : Tree :=
  .bin .mult (.bin .div (.bin .mult (.call (.name "cos".toList) [.name "Inc".toList]) (.call
    (.name "sin".toList) [.name "AzT".toList])) (.call (.name "sin".toList) [.name
    "Inc".toList])) (.call (.name "maximum".toList) [.num 1, .call (.name "sqrt".toList) [.bin
    .div (.num 10) (.bin .sub (.name "MD".toList) (.name "MDPrev".toList))]])

/-- `(Sin(Inc) * Cos(Inc) * Sin(AzM) * (Tan(Dip) * Cos(Inc) + Sin(Inc) * Cos(AzM))) / (1 - Sin(Inc) * Sin(Inc) * Sin(AzM) * Sin(AzM)) / Gfield` -/
def t9 : Tree :=
  .bin .div (.bin .div (.bin .mult (.bin .mult (.bin .mult (.call (.name "sin".toList) [.name
    "Inc".toList]) (.call (.name "cos".toList) [.name "Inc".toList])) (.call (.name "sin".toList)
    [.name "AzM".toList])) (.bin .add (.bin .mult (.call (.name "tan".toList) [.name
    "Dip".toList]) (.call (.name "cos".toList) [.name "Inc".toList])) (.bin .mult (.call (.name
    "sin".toList) [.name "Inc".toList]) (.call (.name "cos".toList) [.name "AzM".toList]))))
    (.bin .sub (.num 1) (.bin .mult (.bin .mult (.bin .mult (.call (.name "sin".toList) [.name
    "Inc".toList]) (.call (.name "sin".toList) [.name "Inc".toList])) (.call (.name "sin".toList)
    [.name "AzM".toList])) (.call (.name "sin".toList) [.name "AzM".toList])))) (.name
    "Gfield".toList)

/-- `(Sin(Inc))^0.25` -/
def t10 : Tree :=
  .bin .pow (.call (.name "sin".toList) [.name "Inc".toList]) (.num (1 / 4))

/-- `(Tan(Dip) * Cos(Inc) * Sin(AzM)) / Gfield` -/
def t11 : Tree :=
  .bin .div (.bin .mult (.bin .mult (.call (.name "tan".toList) [.name "Dip".toList]) (.call
    (.name "cos".toList) [.name "Inc".toList])) (.call (.name "sin".toList) [.name
    "AzM".toList])) (.name "Gfield".toList)

/-- `(Tan(Dip) * Sin(Inc) * Cos(AzM) - Cos(Inc)) / (2 * (1 - Sin(Inc) * Sin(Inc) * Sin(AzM) * Sin(AzM)))` -/
def t12 : Tree :=
  .bin .div (.bin .sub (.bin .mult (.bin .mult (.call (.name "tan".toList) [.name "Dip".toList])
    (.call (.name "sin".toList) [.name "Inc".toList])) (.call (.name "cos".toList) [.name
    "AzM".toList])) (.call (.name "cos".toList) [.name "Inc".toList])) (.bin .mult (.num 2) (.bin
    .sub (.num 1) (.bin .mult (.bin .mult (.bin .mult (.call (.name "sin".toList) [.name
    "Inc".toList]) (.call (.name "sin".toList) [.name "Inc".toList])) (.call (.name "sin".toList)
    [.name "AzM".toList])) (.call (.name "sin".toList) [.name "AzM".toList]))))

/-- `(Tan(Dip) * Sin(Inc) * Cos(AzM) - Cos(Inc)) / 2` -/
def t13 : Tree :=
  .bin .div (.bin .sub (.bin .mult (.bin .mult (.call (.name "tan".toList) [.name "Dip".toList])
    (.call (.name "sin".toList) [.name "Inc".toList])) (.call (.name "cos".toList) [.name
    "AzM".toList])) (.call (.name "cos".toList) [.name "Inc".toList])) (.num 2)

/-- `-(Abs(Cos(Inc)) * Sin(AzT)) / Sin(Inc)` -/
def t14 : Tree :=
  .bin .div (.un .usub (.bin .mult (.call (.name "abs".toList) [.call (.name "cos".toList) [.name
    "Inc".toList]]) (.call (.name "sin".toList) [.name "AzT".toList]))) (.call (.name
    "sin".toList) [.name "Inc".toList])

/-- `-(Sin(Inc) * Cos(AzM) + Tan(Dip) * Cos(Inc)) * Sin(Inc) * Sin(AzM)` -/
def t15 : Tree :=
  .bin .mult (.bin .mult (.un .usub (.bin .add (.bin .mult (.call (.name "sin".toList) [.name
    "Inc".toList]) (.call (.name "cos".toList) [.name "AzM".toList])) (.bin .mult (.call (.name
    "tan".toList) [.name "Dip".toList]) (.call (.name "cos".toList) [.name "Inc".toList]))))
    (.call (.name "sin".toList) [.name "Inc".toList])) (.call (.name "sin".toList) [.name
    "AzM".toList])

/-- `-(Sin(Inc) * Cos(Inc) * Cos(Inc) * Sin(AzM) * (Tan(Dip) * Cos(Inc) + Sin(Inc) * Cos(AzM))) / (2 * (1 - Sin(Inc) * Sin(Inc) * Sin(AzM) * Sin(AzM)))` -/
def t16 : Tree :=
  .bin .div (.un .usub (.bin .mult (.bin .mult (.bin .mult (.bin .mult (.call (.name
    "sin".toList) [.name "Inc".toList]) (.call (.name "cos".toList) [.name "Inc".toList])) (.call
    (.name "cos".toList) [.name "Inc".toList])) (.call (.name "sin".toList) [.name
    "AzM".toList])) (.bin .add (.bin .mult (.call (.name "tan".toList) [.name "Dip".toList])
    (.call (.name "cos".toList) [.name "Inc".toList])) (.bin .mult (.call (.name "sin".toList)
    [.name "Inc".toList]) (.call (.name "cos".toList) [.name "AzM".toList]))))) (.bin .mult (.num
    2) (.bin .sub (.num 1) (.bin .mult (.bin .mult (.bin .mult (.call (.name "sin".toList) [.name
    "Inc".toList]) (.call (.name "sin".toList) [.name "Inc".toList])) (.call (.name "sin".toList)
    [.name "AzM".toList])) (.call (.name "sin".toList) [.name "AzM".toList]))))

/-- `-(Sin(Inc) * Cos(Inc) * Cos(Inc) * Sin(AzM) * (Tan(Dip) * Cos(Inc) + Sin(Inc) * Cos(AzM))) / (Sqr(2) * (1 - Sin(Inc) * Sin(Inc) * Sin(AzM) * Sin(AzM)))` -/
def t17 : Tree :=
  .bin .div (.un .usub (.bin .mult (.bin .mult (.bin .mult (.bin .mult (.call (.name
    "sin".toList) [.name "Inc".toList]) (.call (.name "cos".toList) [.name "Inc".toList])) (.call
    (.name "cos".toList) [.name "Inc".toList])) (.call (.name "sin".toList) [.name
    "AzM".toList])) (.bin .add (.bin .mult (.call (.name "tan".toList) [.name "Dip".toList])
    (.call (.name "cos".toList) [.name "Inc".toList])) (.bin .mult (.call (.name "sin".toList)
    [.name "Inc".toList]) (.call (.name "cos".toList) [.name "AzM".toList]))))) (.bin .mult
    (.call (.name "sqrt".toList) [.num 2]) (.bin .sub (.num 1) (.bin .mult (.bin .mult (.bin
    .mult (.call (.name "sin".toList) [.name "Inc".toList]) (.call (.name "sin".toList) [.name
    "Inc".toList])) (.call (.name "sin".toList) [.name "AzM".toList])) (.call (.name
    "sin".toList) [.name "AzM".toList]))))

/-- `-(Tan(Dip) * Cos(AzM) - Tan(90 * RAD - Inc)) / (GField * (1 - Sin(Inc) * Sin(Inc) * Sin(AzM) * Sin(AzM)))` -/
def t18 : Tree :=
  .bin .div (.un .usub (.bin .sub (.bin .mult (.call (.name "tan".toList) [.name "Dip".toList])
    (.call (.name "cos".toList) [.name "AzM".toList])) (.call (.name "tan".toList) [.bin .sub
    (.bin .mult (.num 90) (.name "RAD".toList)) (.name "Inc".toList)]))) (.bin .mult (.name
    "GField".toList) (.bin .sub (.num 1) (.bin .mult (.bin .mult (.bin .mult (.call (.name
    "sin".toList) [.name "Inc".toList]) (.call (.name "sin".toList) [.name "Inc".toList])) (.call
    (.name "sin".toList) [.name "AzM".toList])) (.call (.name "sin".toList) [.name
    "AzM".toList]))))

/-- `-1` -/
def t19 : Tree :=
  .un .usub (.num 1)

/-- `-Cos(Inc) * Sin(AzM) / (BField * Cos(Dip) * (1 - Sin(Inc) * Sin(Inc) * Sin(AzM) * Sin(AzM)))` -/
def t20 : Tree :=
  .bin .div (.bin .mult (.un .usub (.call (.name "cos".toList) [.name "Inc".toList])) (.call
    (.name "sin".toList) [.name "AzM".toList])) (.bin .mult (.bin .mult (.name "BField".toList)
    (.call (.name "cos".toList) [.name "Dip".toList])) (.bin .sub (.num 1) (.bin .mult (.bin
    .mult (.bin .mult (.call (.name "sin".toList) [.name "Inc".toList]) (.call (.name
    "sin".toList) [.name "Inc".toList])) (.call (.name "sin".toList) [.name "AzM".toList]))
    (.call (.name "sin".toList) [.name "AzM".toList]))))

/-- `-Cos(Inc) * Sin(AzM) / (BField * Cos(Dip))` -/
def t21 : Tree :=
  .bin .div (.bin .mult (.un .usub (.call (.name "cos".toList) [.name "Inc".toList])) (.call
    (.name "sin".toList) [.name "AzM".toList])) (.bin .mult (.name "BField".toList) (.call (.name
    "cos".toList) [.name "Dip".toList]))

/-- `-Cos(Inc) / Gfield` -/
def t22 : Tree :=
  .bin .div (.un .usub (.call (.name "cos".toList) [.name "Inc".toList])) (.name "Gfield".toList)

/-- `-Sin(Inc) * Cos(Inc)` -/
def t23 : Tree :=
  .bin .mult (.un .usub (.call (.name "sin".toList) [.name "Inc".toList])) (.call (.name
    "cos".toList) [.name "Inc".toList])

/-- `-Sin(Inc) * Sin(AzM) * (Cos(Inc) - Tan(Dip) * Sin(Inc) * Cos(AzM)) / (1 - Sin(Inc) * Sin(Inc) * Sin(AzM) * Sin(AzM))` -/
def t24 : Tree :=
  .bin .div (.bin .mult (.bin .mult (.un .usub (.call (.name "sin".toList) [.name "Inc".toList]))
    (.call (.name "sin".toList) [.name "AzM".toList])) (.bin .sub (.call (.name "cos".toList)
    [.name "Inc".toList]) (.bin .mult (.bin .mult (.call (.name "tan".toList) [.name
    "Dip".toList]) (.call (.name "sin".toList) [.name "Inc".toList])) (.call (.name "cos".toList)
    [.name "AzM".toList])))) (.bin .sub (.num 1) (.bin .mult (.bin .mult (.bin .mult (.call
    (.name "sin".toList) [.name "Inc".toList]) (.call (.name "sin".toList) [.name "Inc".toList]))
    (.call (.name "sin".toList) [.name "AzM".toList])) (.call (.name "sin".toList) [.name
    "AzM".toList])))

/-- `-Sin(Inc) * Sin(AzM) * (Tan(Dip) * Cos(Inc) + Sin(Inc) * Cos(AzM)) / (1 - Sin(Inc) * Sin(Inc) * Sin(AzM) * Sin(AzM)) / Bfield` -/
def t25 : Tree :=
  .bin .div (.bin .div (.bin .mult (.bin .mult (.un .usub (.call (.name "sin".toList) [.name
    "Inc".toList])) (.call (.name "sin".toList) [.name "AzM".toList])) (.bin .add (.bin .mult
    (.call (.name "tan".toList) [.name "Dip".toList]) (.call (.name "cos".toList) [.name
    "Inc".toList])) (.bin .mult (.call (.name "sin".toList) [.name "Inc".toList]) (.call (.name
    "cos".toList) [.name "AzM".toList])))) (.bin .sub (.num 1) (.bin .mult (.bin .mult (.bin
    .mult (.call (.name "sin".toList) [.name "Inc".toList]) (.call (.name "sin".toList) [.name
    "Inc".toList])) (.call (.name "sin".toList) [.name "AzM".toList])) (.call (.name
    "sin".toList) [.name "AzM".toList])))) (.name "Bfield".toList)

/-- `-Sin(Inc) * Sin(AzM) / (BField * Cos(Dip))` -/
def t26 : Tree :=
  .bin .div (.bin .mult (.un .usub (.call (.name "sin".toList) [.name "Inc".toList])) (.call
    (.name "sin".toList) [.name "AzM".toList])) (.bin .mult (.name "BField".toList) (.call (.name
    "cos".toList) [.name "Dip".toList]))

/-- `-Sin(Inc) / Gfield` -/
def t27 : Tree :=
  .bin .div (.un .usub (.call (.name "sin".toList) [.name "Inc".toList])) (.name "Gfield".toList)

/-- `0` -/
def t28 : Tree :=
  .num 0

/-- `1` -/
def t29 : Tree :=
  .num 1

/-- `1 / (BField * Cos(Dip))` -/
def t30 : Tree :=
  .bin .div (.num 1) (.bin .mult (.name "BField".toList) (.call (.name "cos".toList) [.name
    "Dip".toList]))

/-- `1 / Sin(Inc)` -/
def t31 : Tree :=
  .bin .div (.num 1) (.call (.name "sin".toList) [.name "Inc".toList])

/-- `1.3 * Sin(Inc) * Cos(Inc)` -/
def t32 : Tree :=
  .bin .mult (.bin .mult (.num (13 / 10)) (.call (.name "sin".toList) [.name "Inc".toList]))
    (.call (.name "cos".toList) [.name "Inc".toList])

/-- `Abs(Cos(Inc)) * Cos(AzT)` -/
def t33 : Tree :=
  .bin .mult (.call (.name "abs".toList) [.call (.name "cos".toList) [.name "Inc".toList]])
    (.call (.name "cos".toList) [.name "AzT".toList])

/-- `Abs(Cos(Inc)) * Sin(AzT)` -/
def t34 : Tree :=
  .bin .mult (.call (.name "abs".toList) [.call (.name "cos".toList) [.name "Inc".toList]])
    (.call (.name "sin".toList) [.name "AzT".toList])

/-- `Abs(Sin(Inc))` -/
def t35 : Tree :=
  .call (.name "abs".toList) [.call (.name "sin".toList) [.name "Inc".toList]]

/-- `Cos(AzM) / (BField * Cos(Dip) * (1 - Sin(Inc) * Sin(Inc) * Sin(AzM) * Sin(AzM)))` -/
def t36 : Tree :=
  .bin .div (.call (.name "cos".toList) [.name "AzM".toList]) (.bin .mult (.bin .mult (.name
    "BField".toList) (.call (.name "cos".toList) [.name "Dip".toList])) (.bin .sub (.num 1) (.bin
    .mult (.bin .mult (.bin .mult (.call (.name "sin".toList) [.name "Inc".toList]) (.call (.name
    "sin".toList) [.name "Inc".toList])) (.call (.name "sin".toList) [.name "AzM".toList]))
    (.call (.name "sin".toList) [.name "AzM".toList]))))

/-- `Cos(AzM) / (BField * Cos(Dip))` -/
def t37 : Tree :=
  .bin .div (.call (.name "cos".toList) [.name "AzM".toList]) (.bin .mult (.name "BField".toList)
    (.call (.name "cos".toList) [.name "Dip".toList]))

/-- `Cos(AzT) * Sin(Inc) / (EarthRate * Cos(Latitude))` -/
def t38 : Tree :=
  .bin .div (.bin .mult (.call (.name "cos".toList) [.name "AzT".toList]) (.call (.name
    "sin".toList) [.name "Inc".toList])) (.bin .mult (.name "EarthRate".toList) (.call (.name
    "cos".toList) [.name "Latitude".toList]))

/-- `Cos(AzT) / (EarthRate * Cos(Latitude))` -/
def t39 : Tree :=
  .bin .div (.call (.name "cos".toList) [.name "AzT".toList]) (.bin .mult (.name
    "EarthRate".toList) (.call (.name "cos".toList) [.name "Latitude".toList]))

/-- `Cos(Inc) * Cos(AzT)  * Max(1, sqrt(10/(MD-MDPrev)))` -/
def t40 : Tree :=
  .bin .mult (.bin .mult (.call (.name "cos".toList) [.name "Inc".toList]) (.call (.name
    "cos".toList) [.name "AzT".toList])) (.call (.name "maximum".toList) [.num 1, .call (.name
    "sqrt".toList) [.bin .div (.num 10) (.bin .sub (.name "MD".toList) (.name
    "MDPrev".toList))]])

/-- `Cos(Inc) * Sin(AzT) * Max(1, sqrt(10/(MD-MDPrev)))` -/
def t41 : Tree :=
  .bin .mult (.bin .mult (.call (.name "cos".toList) [.name "Inc".toList]) (.call (.name
    "sin".toList) [.name "AzT".toList])) (.call (.name "maximum".toList) [.num 1, .call (.name
    "sqrt".toList) [.bin .div (.num 10) (.bin .sub (.name "MD".toList) (.name
    "MDPrev".toList))]])

/-- `MD` -/
def t42 : Tree :=
  .name "MD".toList

/-- `MD * TVD` -/
def t43 : Tree :=
  .bin .mult (.name "MD".toList) (.name "TVD".toList)

/-- `Max(Abs(Inc-IncPrev), XCLTortuosity* (MD-MDPrev))` -/
def t44 : Tree :=
  .call (.name "maximum".toList) [.call (.name "abs".toList) [.bin .sub (.name "Inc".toList)
    (.name "IncPrev".toList)], .bin .mult (.name "XCLTortuosity".toList) (.bin .sub (.name
    "MD".toList) (.name "MDPrev".toList))]

/-- `Max(Sin(Abs(AzT-AzPrev)), XCLTortuosity * (MD-MDPrev) / Sin(Inc))` -/
def t45 : Tree :=
  .call (.name "maximum".toList) [.call (.name "sin".toList) [.call (.name "abs".toList) [.bin
    .sub (.name "AzT".toList) (.name "AzPrev".toList)]], .bin .div (.bin .mult (.name
    "XCLTortuosity".toList) (.bin .sub (.name "MD".toList) (.name "MDPrev".toList))) (.call
    (.name "sin".toList) [.name "Inc".toList])]

/-- `NoiseReductionFactor * (Sqr(1 - (Cos(AzT)) ^ 2 * (Sin(Inc)) ^ 2)) / (EarthRate * Cos(Latitude) * Cos(Inc))` -/
def t46 : Tree :=
  .bin .div (.bin .mult (.name "NoiseReductionFactor".toList) (.call (.name "sqrt".toList) [.bin
    .sub (.num 1) (.bin .mult (.bin .pow (.call (.name "cos".toList) [.name "AzT".toList]) (.num
    2)) (.bin .pow (.call (.name "sin".toList) [.name "Inc".toList]) (.num 2)))])) (.bin .mult
    (.bin .mult (.name "EarthRate".toList) (.call (.name "cos".toList) [.name
    "Latitude".toList])) (.call (.name "cos".toList) [.name "Inc".toList]))

/-- `Sin(AzM) * (Tan(Dip) * Sin(Inc) * Cos(Inc) - Cos(Inc) * Cos(Inc) * Cos(AzM) - Cos(AzM)) / (2 * (1 - Sin(Inc) * Sin(Inc) * Sin(AzM) * Sin(AzM)))` -/
def t47 : Tree :=
  .bin .div (.bin .mult (.call (.name "sin".toList) [.name "AzM".toList]) (.bin .sub (.bin .sub
    (.bin .mult (.bin .mult (.call (.name "tan".toList) [.name "Dip".toList]) (.call (.name
    "sin".toList) [.name "Inc".toList])) (.call (.name "cos".toList) [.name "Inc".toList])) (.bin
    .mult (.bin .mult (.call (.name "cos".toList) [.name "Inc".toList]) (.call (.name
    "cos".toList) [.name "Inc".toList])) (.call (.name "cos".toList) [.name "AzM".toList])))
    (.call (.name "cos".toList) [.name "AzM".toList]))) (.bin .mult (.num 2) (.bin .sub (.num 1)
    (.bin .mult (.bin .mult (.bin .mult (.call (.name "sin".toList) [.name "Inc".toList]) (.call
    (.name "sin".toList) [.name "Inc".toList])) (.call (.name "sin".toList) [.name
    "AzM".toList])) (.call (.name "sin".toList) [.name "AzM".toList]))))

/-- `Sin(AzM) * (Tan(Dip) * Sin(Inc) * Cos(Inc) - Cos(Inc) * Cos(Inc) * Cos(AzM) - Cos(AzM)) / 2` -/
def t48 : Tree :=
  .bin .div (.bin .mult (.call (.name "sin".toList) [.name "AzM".toList]) (.bin .sub (.bin .sub
    (.bin .mult (.bin .mult (.call (.name "tan".toList) [.name "Dip".toList]) (.call (.name
    "sin".toList) [.name "Inc".toList])) (.call (.name "cos".toList) [.name "Inc".toList])) (.bin
    .mult (.bin .mult (.call (.name "cos".toList) [.name "Inc".toList]) (.call (.name
    "cos".toList) [.name "Inc".toList])) (.call (.name "cos".toList) [.name "AzM".toList])))
    (.call (.name "cos".toList) [.name "AzM".toList]))) (.num 2)

/-- `Sin(AzT) * Tan(Inc) / (EarthRate * Cos(Latitude))` -/
def t49 : Tree :=
  .bin .div (.bin .mult (.call (.name "sin".toList) [.name "AzT".toList]) (.call (.name
    "tan".toList) [.name "Inc".toList])) (.bin .mult (.name "EarthRate".toList) (.call (.name
    "cos".toList) [.name "Latitude".toList]))

/-- `Sin(AzT) / (EarthRate * Cos(Latitude) * Cos(Inc))` -/
def t50 : Tree :=
  .bin .div (.call (.name "sin".toList) [.name "AzT".toList]) (.bin .mult (.bin .mult (.name
    "EarthRate".toList) (.call (.name "cos".toList) [.name "Latitude".toList])) (.call (.name
    "cos".toList) [.name "Inc".toList]))

/-- `Sin(Inc)` -/
def t51 : Tree :=
  .call (.name "sin".toList) [.name "Inc".toList]

/-- `Sin(Inc) * Cos(Inc) * Cos(Inc) * Sin(AzM) * (Tan(Dip) * Cos(Inc) + Sin(Inc) * Cos(AzM)) / (1 - Sin(Inc) * Sin(Inc) * Sin(AzM) * Sin(AzM))` -/
def t52 : Tree :=
  .bin .div (.bin .mult (.bin .mult (.bin .mult (.bin .mult (.call (.name "sin".toList) [.name
    "Inc".toList]) (.call (.name "cos".toList) [.name "Inc".toList])) (.call (.name "cos".toList)
    [.name "Inc".toList])) (.call (.name "sin".toList) [.name "AzM".toList])) (.bin .add (.bin
    .mult (.call (.name "tan".toList) [.name "Dip".toList]) (.call (.name "cos".toList) [.name
    "Inc".toList])) (.bin .mult (.call (.name "sin".toList) [.name "Inc".toList]) (.call (.name
    "cos".toList) [.name "AzM".toList])))) (.bin .sub (.num 1) (.bin .mult (.bin .mult (.bin
    .mult (.call (.name "sin".toList) [.name "Inc".toList]) (.call (.name "sin".toList) [.name
    "Inc".toList])) (.call (.name "sin".toList) [.name "AzM".toList])) (.call (.name
    "sin".toList) [.name "AzM".toList])))

/-- `Sin(Inc) * Cos(Inc) / 2` -/
def t53 : Tree :=
  .bin .div (.bin .mult (.call (.name "sin".toList) [.name "Inc".toList]) (.call (.name
    "cos".toList) [.name "Inc".toList])) (.num 2)

/-- `Sin(Inc) * Cos(Inc) / Sqr(2)` -/
def t54 : Tree :=
  .bin .div (.bin .mult (.call (.name "sin".toList) [.name "Inc".toList]) (.call (.name
    "cos".toList) [.name "Inc".toList])) (.call (.name "sqrt".toList) [.num 2])

/-- `Sin(Inc) * Sin(AzM)` -/
def t55 : Tree :=
  .bin .mult (.call (.name "sin".toList) [.name "Inc".toList]) (.call (.name "sin".toList) [.name
    "AzM".toList])

/-- `Sin(Inc) * Sin(AzM) * (Tan(Dip) * Cos(Inc) + Sin(Inc) * Cos(AzM)) / (Sqr(2) * (1 - Sin(Inc) * Sin(Inc) * Sin(AzM) * Sin(AzM)))` -/
def t56 : Tree :=
  .bin .div (.bin .mult (.bin .mult (.call (.name "sin".toList) [.name "Inc".toList]) (.call
    (.name "sin".toList) [.name "AzM".toList])) (.bin .add (.bin .mult (.call (.name
    "tan".toList) [.name "Dip".toList]) (.call (.name "cos".toList) [.name "Inc".toList])) (.bin
    .mult (.call (.name "sin".toList) [.name "Inc".toList]) (.call (.name "cos".toList) [.name
    "AzM".toList])))) (.bin .mult (.call (.name "sqrt".toList) [.num 2]) (.bin .sub (.num 1)
    (.bin .mult (.bin .mult (.bin .mult (.call (.name "sin".toList) [.name "Inc".toList]) (.call
    (.name "sin".toList) [.name "Inc".toList])) (.call (.name "sin".toList) [.name
    "AzM".toList])) (.call (.name "sin".toList) [.name "AzM".toList]))))

/-- `Sin(Inc) * Sin(AzM) * (Tan(Dip) * Cos(Inc) + Sin(Inc) * Cos(AzM)) / Sqr(2)` -/
def t57 : Tree :=
  .bin .div (.bin .mult (.bin .mult (.call (.name "sin".toList) [.name "Inc".toList]) (.call
    (.name "sin".toList) [.name "AzM".toList])) (.bin .add (.bin .mult (.call (.name
    "tan".toList) [.name "Dip".toList]) (.call (.name "cos".toList) [.name "Inc".toList])) (.bin
    .mult (.call (.name "sin".toList) [.name "Inc".toList]) (.call (.name "cos".toList) [.name
    "AzM".toList])))) (.call (.name "sqrt".toList) [.num 2])

/-- `Sin(Inc) * Sin(AzM) / (BField * Cos(Dip))` -/
def t58 : Tree :=
  .bin .div (.bin .mult (.call (.name "sin".toList) [.name "Inc".toList]) (.call (.name
    "sin".toList) [.name "AzM".toList])) (.bin .mult (.name "BField".toList) (.call (.name
    "cos".toList) [.name "Dip".toList]))

/-- `Sin(Inc) / Gfield` -/
def t59 : Tree :=
  .bin .div (.call (.name "sin".toList) [.name "Inc".toList]) (.name "Gfield".toList)

/-- `Sqr(XY_Gyro_Random_Walk ^ 2 + (MD - MDPrev) / (GXYRunningSpeed * Sin((Inc + IncPrev) / 2) ^ 2))` -/
def t60 : Tree :=
  .call (.name "sqrt".toList) [.bin .add (.bin .pow (.name "XY_Gyro_Random_Walk".toList) (.num
    2)) (.bin .div (.bin .sub (.name "MD".toList) (.name "MDPrev".toList)) (.bin .mult (.name
    "GXYRunningSpeed".toList) (.bin .pow (.call (.name "sin".toList) [.bin .div (.bin .add (.name
    "Inc".toList) (.name "IncPrev".toList)) (.num 2)]) (.num 2))))]

/-- `Tan(Dip) * Sin(Inc) * Cos(Inc) * Sin(AzM)` -/
def t61 : Tree :=
  .bin .mult (.bin .mult (.bin .mult (.call (.name "tan".toList) [.name "Dip".toList]) (.call
    (.name "sin".toList) [.name "Inc".toList])) (.call (.name "cos".toList) [.name
    "Inc".toList])) (.call (.name "sin".toList) [.name "AzM".toList])

/-- `Tan(Dip) * Sin(Inc) * Sin(AzM) / Gfield` -/
def t62 : Tree :=
  .bin .div (.bin .mult (.bin .mult (.call (.name "tan".toList) [.name "Dip".toList]) (.call
    (.name "sin".toList) [.name "Inc".toList])) (.call (.name "sin".toList) [.name
    "AzM".toList])) (.name "Gfield".toList)

/-- `XY_Gyro_Drift + (MD - MDPrev) / (GXYRunningSpeed * Sin((Inc + IncPrev) / 2))` -/
def t63 : Tree :=
  .bin .add (.name "XY_Gyro_Drift".toList) (.bin .div (.bin .sub (.name "MD".toList) (.name
    "MDPrev".toList)) (.bin .mult (.name "GXYRunningSpeed".toList) (.call (.name "sin".toList)
    [.bin .div (.bin .add (.name "Inc".toList) (.name "IncPrev".toList)) (.num 2)])))

/-- `Z_Gyro_Drift + (MD - MDPrev) / (GZRunningSpeed * Cos((Inc + IncPrev) / 2))` -/
def t64 : Tree :=
  .bin .add (.name "Z_Gyro_Drift".toList) (.bin .div (.bin .sub (.name "MD".toList) (.name
    "MDPrev".toList)) (.bin .mult (.name "GZRunningSpeed".toList) (.call (.name "cos".toList)
    [.bin .div (.bin .add (.name "Inc".toList) (.name "IncPrev".toList)) (.num 2)])))

/-- Every formula text of the shipped tool models, with its tree. -/
def trees : List (String × Tree) :=
  [("((Tan((pi / 2) - Inc)) - Tan(Dip) * Cos(AzM)) / Gfield",
    t0),
   ("(-Tan(Dip) * Sin(Inc) * Cos(Inc) * Sin(AzM)) / 2",
    t1),
   ("(-Tan(Dip) * Sin(Inc) * Cos(Inc) * Sin(AzM)) / Sqr(2)",
    t2),
   ("(Abs(Cos(Inc)) * Cos(AzT)) / Sin(Inc)",
    t3),
   ("(Cos(Inc) * Cos(AzM) * Cos(AzM) - Cos(Inc) * Sin(AzM) * Sin(AzM) - Tan(Dip) * Sin(Inc) * Cos(AzM)) / (2 * (1 - Sin(Inc) * Sin(Inc) * Sin(AzM) * Sin(AzM)))",
    t4),
   ("(Cos(Inc) * Cos(AzM) * Cos(AzM) - Cos(Inc) * Sin(AzM) * Sin(AzM) - Tan(Dip) * Sin(Inc) * Cos(AzM)) / 2",
    t5),
   ("(Cos(Inc) * Cos(AzT)  / Sin(Inc)) * Max(1, sqrt(10/(MD-MDPrev)))",
    t6),
   ("(Cos(Inc) * Cos(Inc) * Sin(AzM) * (Tan(Dip) * Cos(Inc) + Sin(Inc) * Cos(AzM))) / (GField * (1 - Sin(Inc) * Sin(Inc) * Sin(AzM) * Sin(AzM)))",
    t7),
   ("(Cos(Inc) * Sin(AzT)  / Sin(Inc)) * Max(1, sqrt(10/(MD-MDPrev)))",
    t8),
   ("(Sin(Inc) * Cos(Inc) * Sin(AzM) * (Tan(Dip) * Cos(Inc) + Sin(Inc) * Cos(AzM))) / (1 - Sin(Inc) * Sin(Inc) * Sin(AzM) * Sin(AzM)) / Gfield",
    t9),
   ("(Sin(Inc))^0.25",
    t10),
   ("(Tan(Dip) * Cos(Inc) * Sin(AzM)) / Gfield",
    t11),
   ("(Tan(Dip) * Sin(Inc) * Cos(AzM) - Cos(Inc)) / (2 * (1 - Sin(Inc) * Sin(Inc) * Sin(AzM) * Sin(AzM)))",
    t12),
   ("(Tan(Dip) * Sin(Inc) * Cos(AzM) - Cos(Inc)) / 2",
    t13),
   ("-(Abs(Cos(Inc)) * Sin(AzT)) / Sin(Inc)",
    t14),
   ("-(Sin(Inc) * Cos(AzM) + Tan(Dip) * Cos(Inc)) * Sin(Inc) * Sin(AzM)",
    t15),
   ("-(Sin(Inc) * Cos(Inc) * Cos(Inc) * Sin(AzM) * (Tan(Dip) * Cos(Inc) + Sin(Inc) * Cos(AzM))) / (2 * (1 - Sin(Inc) * Sin(Inc) * Sin(AzM) * Sin(AzM)))",
    t16),
   ("-(Sin(Inc) * Cos(Inc) * Cos(Inc) * Sin(AzM) * (Tan(Dip) * Cos(Inc) + Sin(Inc) * Cos(AzM))) / (Sqr(2) * (1 - Sin(Inc) * Sin(Inc) * Sin(AzM) * Sin(AzM)))",
    t17),
   ("-(Tan(Dip) * Cos(AzM) - Tan(90 * RAD - Inc)) / (GField * (1 - Sin(Inc) * Sin(Inc) * Sin(AzM) * Sin(AzM)))",
    t18),
   ("-1",
    t19),
   ("-Cos(Inc) * Sin(AzM) / (BField * Cos(Dip) * (1 - Sin(Inc) * Sin(Inc) * Sin(AzM) * Sin(AzM)))",
    t20),
   ("-Cos(Inc) * Sin(AzM) / (BField * Cos(Dip))",
    t21),
   ("-Cos(Inc) / Gfield",
    t22),
   ("-Sin(Inc) * Cos(Inc)",
    t23),
   ("-Sin(Inc) * Sin(AzM) * (Cos(Inc) - Tan(Dip) * Sin(Inc) * Cos(AzM)) / (1 - Sin(Inc) * Sin(Inc) * Sin(AzM) * Sin(AzM))",
    t24),
   ("-Sin(Inc) * Sin(AzM) * (Tan(Dip) * Cos(Inc) + Sin(Inc) * Cos(AzM)) / (1 - Sin(Inc) * Sin(Inc) * Sin(AzM) * Sin(AzM)) / Bfield",
    t25),
   ("-Sin(Inc) * Sin(AzM) / (BField * Cos(Dip))",
    t26),
   ("-Sin(Inc) / Gfield",
    t27),
   ("0",
    t28),
   ("1",
    t29),
   ("1 / (BField * Cos(Dip))",
    t30),
   ("1 / Sin(Inc)",
    t31),
   ("1.3 * Sin(Inc) * Cos(Inc)",
    t32),
   ("Abs(Cos(Inc)) * Cos(AzT)",
    t33),
   ("Abs(Cos(Inc)) * Sin(AzT)",
    t34),
   ("Abs(Sin(Inc))",
    t35),
   ("Cos(AzM) / (BField * Cos(Dip) * (1 - Sin(Inc) * Sin(Inc) * Sin(AzM) * Sin(AzM)))",
    t36),
   ("Cos(AzM) / (BField * Cos(Dip))",
    t37),
   ("Cos(AzT) * Sin(Inc) / (EarthRate * Cos(Latitude))",
    t38),
   ("Cos(AzT) / (EarthRate * Cos(Latitude))",
    t39),
   ("Cos(Inc) * Cos(AzT)  * Max(1, sqrt(10/(MD-MDPrev)))",
    t40),
   ("Cos(Inc) * Sin(AzT) * Max(1, sqrt(10/(MD-MDPrev)))",
    t41),
   ("MD",
    t42),
   ("MD * TVD",
    t43),
   ("Max(Abs(Inc-IncPrev), XCLTortuosity* (MD-MDPrev))",
    t44),
   ("Max(Sin(Abs(AzT-AzPrev)), XCLTortuosity * (MD-MDPrev) / Sin(Inc))",
    t45),
   ("NoiseReductionFactor * (Sqr(1 - (Cos(AzT)) ^ 2 * (Sin(Inc)) ^ 2)) / (EarthRate * Cos(Latitude) * Cos(Inc))",
    t46),
   ("Sin(AzM) * (Tan(Dip) * Sin(Inc) * Cos(Inc) - Cos(Inc) * Cos(Inc) * Cos(AzM) - Cos(AzM)) / (2 * (1 - Sin(Inc) * Sin(Inc) * Sin(AzM) * Sin(AzM)))",
    t47),
   ("Sin(AzM) * (Tan(Dip) * Sin(Inc) * Cos(Inc) - Cos(Inc) * Cos(Inc) * Cos(AzM) - Cos(AzM)) / 2",
    t48),
   ("Sin(AzT) * Tan(Inc) / (EarthRate * Cos(Latitude))",
    t49),
   ("Sin(AzT) / (EarthRate * Cos(Latitude) * Cos(Inc))",
    t50),
   ("Sin(Inc)",
    t51),
   ("Sin(Inc) * Cos(Inc) * Cos(Inc) * Sin(AzM) * (Tan(Dip) * Cos(Inc) + Sin(Inc) * Cos(AzM)) / (1 - Sin(Inc) * Sin(Inc) * Sin(AzM) * Sin(AzM))",
    t52),
   ("Sin(Inc) * Cos(Inc) / 2",
    t53),
   ("Sin(Inc) * Cos(Inc) / Sqr(2)",
    t54),
   ("Sin(Inc) * Sin(AzM)",
    t55),
   ("Sin(Inc) * Sin(AzM) * (Tan(Dip) * Cos(Inc) + Sin(Inc) * Cos(AzM)) / (Sqr(2) * (1 - Sin(Inc) * Sin(Inc) * Sin(AzM) * Sin(AzM)))",
    t56),
   ("Sin(Inc) * Sin(AzM) * (Tan(Dip) * Cos(Inc) + Sin(Inc) * Cos(AzM)) / Sqr(2)",
    t57),
   ("Sin(Inc) * Sin(AzM) / (BField * Cos(Dip))",
    t58),
   ("Sin(Inc) / Gfield",
    t59),
   ("Sqr(XY_Gyro_Random_Walk ^ 2 + (MD - MDPrev) / (GXYRunningSpeed * Sin((Inc + IncPrev) / 2) ^ 2))",
    t60),
   ("Tan(Dip) * Sin(Inc) * Cos(Inc) * Sin(AzM)",
    t61),
   ("Tan(Dip) * Sin(Inc) * Sin(AzM) / Gfield",
    t62),
   ("XY_Gyro_Drift + (MD - MDPrev) / (GXYRunningSpeed * Sin((Inc + IncPrev) / 2))",
    t63),
   ("Z_Gyro_Drift + (MD - MDPrev) / (GZRunningSpeed * Cos((Inc + IncPrev) / 2))",
    t64)]

end Welleng.Ftext
