import Verif.Model.FormulaText

/-!
The formulas of the shipped JSON tool models: the distinct combinations of
`x_owsg_weight_function`, `depth_formula`, `inclination_formula` and `azimuth_formula` in the `terms`
of the 100 files of `/repo/welleng/errors/iscwsa_json/owsg_a` and `owsg_b` (3095 terms), generated
from those files.
-/

namespace Welleng.Ftext

/-- The formulas of a term, `iscwsa_json/**/*.json`, keys `x_owsg_weight_function`, `depth_formula`,
`inclination_formula`, `azimuth_formula`, read at `tool_errors.py` 326-328. -/
structure Row where
  wf : String
  depth : String
  inc : String
  azi : String
  deriving DecidableEq

/-- The distinct rows of the shipped files, `iscwsa_json/**/*.json`. -/
def shipped : List Row :=
  [⟨"ABIXY-TI1", "0", "-Cos(Inc) / Gfield",
     "(Cos(Inc) * Cos(Inc) * Sin(AzM) * (Tan(Dip) * Cos(Inc) + Sin(Inc) * Cos(AzM))) / (GField * (1 - Sin(Inc) * Sin(Inc) * Sin(AzM) * Sin(AzM)))"⟩,
   ⟨"ABIXY-TI2", "0", "0",
     "-(Tan(Dip) * Cos(AzM) - Tan(90 * RAD - Inc)) / (GField * (1 - Sin(Inc) * Sin(Inc) * Sin(AzM) * Sin(AzM)))"⟩,
   ⟨"ABIZ", "0", "-Sin(Inc) / Gfield",
     "(Sin(Inc) * Cos(Inc) * Sin(AzM) * (Tan(Dip) * Cos(Inc) + Sin(Inc) * Cos(AzM))) / (1 - Sin(Inc) * Sin(Inc) * Sin(AzM) * Sin(AzM)) / Gfield"⟩,
   ⟨"ABXY-TI1", "0", "-Cos(Inc) / Gfield",
     "(Tan(Dip) * Cos(Inc) * Sin(AzM)) / Gfield"⟩,
   ⟨"ABXY-TI2", "0", "0",
     "((Tan((pi / 2) - Inc)) - Tan(Dip) * Cos(AzM)) / Gfield"⟩,
   ⟨"ABZ", "0", "-Sin(Inc) / Gfield",
     "Tan(Dip) * Sin(Inc) * Sin(AzM) / Gfield"⟩,
   ⟨"AMID", "0", "0",
     "Sin(Inc) * Sin(AzM)"⟩,
   ⟨"AMIL", "0", "0",
     "Sin(Inc) * Sin(AzM) / (BField * Cos(Dip))"⟩,
   ⟨"ASIXY-TI1", "0", "Sin(Inc) * Cos(Inc) / Sqr(2)",
     "-(Sin(Inc) * Cos(Inc) * Cos(Inc) * Sin(AzM) * (Tan(Dip) * Cos(Inc) + Sin(Inc) * Cos(AzM))) / (Sqr(2) * (1 - Sin(Inc) * Sin(Inc) * Sin(AzM) * Sin(AzM)))"⟩,
   ⟨"ASIXY-TI2", "0", "Sin(Inc) * Cos(Inc) / 2",
     "-(Sin(Inc) * Cos(Inc) * Cos(Inc) * Sin(AzM) * (Tan(Dip) * Cos(Inc) + Sin(Inc) * Cos(AzM))) / (2 * (1 - Sin(Inc) * Sin(Inc) * Sin(AzM) * Sin(AzM)))"⟩,
   ⟨"ASIXY-TI3", "0", "0",
     "(Tan(Dip) * Sin(Inc) * Cos(AzM) - Cos(Inc)) / (2 * (1 - Sin(Inc) * Sin(Inc) * Sin(AzM) * Sin(AzM)))"⟩,
   ⟨"ASIZ", "0", "-Sin(Inc) * Cos(Inc)",
     "Sin(Inc) * Cos(Inc) * Cos(Inc) * Sin(AzM) * (Tan(Dip) * Cos(Inc) + Sin(Inc) * Cos(AzM)) / (1 - Sin(Inc) * Sin(Inc) * Sin(AzM) * Sin(AzM))"⟩,
   ⟨"ASXY-TI1", "0", "Sin(Inc) * Cos(Inc) / Sqr(2)",
     "(-Tan(Dip) * Sin(Inc) * Cos(Inc) * Sin(AzM)) / Sqr(2)"⟩,
   ⟨"ASXY-TI2", "0", "Sin(Inc) * Cos(Inc) / 2",
     "(-Tan(Dip) * Sin(Inc) * Cos(Inc) * Sin(AzM)) / 2"⟩,
   ⟨"ASXY-TI3", "0", "0",
     "(Tan(Dip) * Sin(Inc) * Cos(AzM) - Cos(Inc)) / 2"⟩,
   ⟨"ASZ", "0", "-Sin(Inc) * Cos(Inc)",
     "Tan(Dip) * Sin(Inc) * Cos(Inc) * Sin(AzM)"⟩,
   ⟨"AXYZ-MIS", "0", "1",
     "0"⟩,
   ⟨"AXYZ-SF", "0", "1.3 * Sin(Inc) * Cos(Inc)",
     "0"⟩,
   ⟨"AXYZ-ZB", "0", "Sin(Inc) / Gfield",
     "0"⟩,
   ⟨"AZ", "0", "0",
     "1"⟩,
   ⟨"CNA", "0", "0",
     "1 / Sin(Inc)"⟩,
   ⟨"CNI", "0", "1",
     "0"⟩,
   ⟨"DBH", "0", "0",
     "1 / (BField * Cos(Dip))"⟩,
   ⟨"DREF", "1", "0",
     "0"⟩,
   ⟨"DSF", "MD", "0",
     "0"⟩,
   ⟨"DST", "MD * TVD", "0",
     "0"⟩,
   ⟨"EXT-REF", "0", "0",
     "1"⟩,
   ⟨"GXY-B1", "0", "0",
     "Sin(AzT) / (EarthRate * Cos(Latitude) * Cos(Inc))"⟩,
   ⟨"GXY-B2", "0", "0",
     "Cos(AzT) / (EarthRate * Cos(Latitude))"⟩,
   ⟨"GXY-G1", "0", "0",
     "Cos(AzT) * Sin(Inc) / (EarthRate * Cos(Latitude))"⟩,
   ⟨"GXY-G4", "0", "0",
     "Sin(AzT) * Tan(Inc) / (EarthRate * Cos(Latitude))"⟩,
   ⟨"GXY-GD", "0", "0",
     "XY_Gyro_Drift + (MD - MDPrev) / (GXYRunningSpeed * Sin((Inc + IncPrev) / 2))"⟩,
   ⟨"GXY-GRW", "0", "0",
     "Sqr(XY_Gyro_Random_Walk ^ 2 + (MD - MDPrev) / (GXYRunningSpeed * Sin((Inc + IncPrev) / 2) ^ 2))"⟩,
   ⟨"GXY-RN", "0", "0",
     "NoiseReductionFactor * (Sqr(1 - (Cos(AzT)) ^ 2 * (Sin(Inc)) ^ 2)) / (EarthRate * Cos(Latitude) * Cos(Inc))"⟩,
   ⟨"GZ-GD", "0", "0",
     "Z_Gyro_Drift + (MD - MDPrev) / (GZRunningSpeed * Cos((Inc + IncPrev) / 2))"⟩,
   ⟨"MBIXY-TI1", "0", "0",
     "-Cos(Inc) * Sin(AzM) / (BField * Cos(Dip) * (1 - Sin(Inc) * Sin(Inc) * Sin(AzM) * Sin(AzM)))"⟩,
   ⟨"MBIXY-TI2", "0", "0",
     "Cos(AzM) / (BField * Cos(Dip) * (1 - Sin(Inc) * Sin(Inc) * Sin(AzM) * Sin(AzM)))"⟩,
   ⟨"MBXY-TI1", "0", "0",
     "-Cos(Inc) * Sin(AzM) / (BField * Cos(Dip))"⟩,
   ⟨"MBXY-TI2", "0", "0",
     "Cos(AzM) / (BField * Cos(Dip))"⟩,
   ⟨"MBZ", "0", "0",
     "-Sin(Inc) * Sin(AzM) / (BField * Cos(Dip))"⟩,
   ⟨"MDI", "0", "0",
     "-Sin(Inc) * Sin(AzM) * (Cos(Inc) - Tan(Dip) * Sin(Inc) * Cos(AzM)) / (1 - Sin(Inc) * Sin(Inc) * Sin(AzM) * Sin(AzM))"⟩,
   ⟨"MFI", "0", "0",
     "-Sin(Inc) * Sin(AzM) * (Tan(Dip) * Cos(Inc) + Sin(Inc) * Cos(AzM)) / (1 - Sin(Inc) * Sin(Inc) * Sin(AzM) * Sin(AzM)) / Bfield"⟩,
   ⟨"MSIXY-TI1", "0", "0",
     "Sin(Inc) * Sin(AzM) * (Tan(Dip) * Cos(Inc) + Sin(Inc) * Cos(AzM)) / (Sqr(2) * (1 - Sin(Inc) * Sin(Inc) * Sin(AzM) * Sin(AzM)))"⟩,
   ⟨"MSIXY-TI2", "0", "0",
     "Sin(AzM) * (Tan(Dip) * Sin(Inc) * Cos(Inc) - Cos(Inc) * Cos(Inc) * Cos(AzM) - Cos(AzM)) / (2 * (1 - Sin(Inc) * Sin(Inc) * Sin(AzM) * Sin(AzM)))"⟩,
   ⟨"MSIXY-TI3", "0", "0",
     "(Cos(Inc) * Cos(AzM) * Cos(AzM) - Cos(Inc) * Sin(AzM) * Sin(AzM) - Tan(Dip) * Sin(Inc) * Cos(AzM)) / (2 * (1 - Sin(Inc) * Sin(Inc) * Sin(AzM) * Sin(AzM)))"⟩,
   ⟨"MSXY-TI1", "0", "0",
     "Sin(Inc) * Sin(AzM) * (Tan(Dip) * Cos(Inc) + Sin(Inc) * Cos(AzM)) / Sqr(2)"⟩,
   ⟨"MSXY-TI2", "0", "0",
     "Sin(AzM) * (Tan(Dip) * Sin(Inc) * Cos(Inc) - Cos(Inc) * Cos(Inc) * Cos(AzM) - Cos(AzM)) / 2"⟩,
   ⟨"MSXY-TI3", "0", "0",
     "(Cos(Inc) * Cos(AzM) * Cos(AzM) - Cos(Inc) * Sin(AzM) * Sin(AzM) - Tan(Dip) * Sin(Inc) * Cos(AzM)) / 2"⟩,
   ⟨"MSZ", "0", "0",
     "-(Sin(Inc) * Cos(AzM) + Tan(Dip) * Cos(Inc)) * Sin(Inc) * Sin(AzM)"⟩,
   ⟨"SAG", "0", "Sin(Inc)",
     "0"⟩,
   ⟨"SAGE", "0", "(Sin(Inc))^0.25",
     "0"⟩,
   ⟨"XCLA", "0", "0",
     "Max(Sin(Abs(AzT-AzPrev)), XCLTortuosity * (MD-MDPrev) / Sin(Inc))"⟩,
   ⟨"XCLH", "0", "Max(Abs(Inc-IncPrev), XCLTortuosity* (MD-MDPrev))",
     "0"⟩,
   ⟨"XYM1", "0", "Abs(Sin(Inc))",
     "0"⟩,
   ⟨"XYM2", "0", "0",
     "-1"⟩,
   ⟨"XYM3", "0", "Abs(Cos(Inc)) * Cos(AzT)",
     "-(Abs(Cos(Inc)) * Sin(AzT)) / Sin(Inc)"⟩,
   ⟨"XYM3E", "0", "Cos(Inc) * Cos(AzT)  * Max(1, sqrt(10/(MD-MDPrev)))",
     "(Cos(Inc) * Sin(AzT)  / Sin(Inc)) * Max(1, sqrt(10/(MD-MDPrev)))"⟩,
   ⟨"XYM4", "0", "Abs(Cos(Inc)) * Sin(AzT)",
     "(Abs(Cos(Inc)) * Cos(AzT)) / Sin(Inc)"⟩,
   ⟨"XYM4E", "0", "Cos(Inc) * Sin(AzT) * Max(1, sqrt(10/(MD-MDPrev)))",
     "(Cos(Inc) * Cos(AzT)  / Sin(Inc)) * Max(1, sqrt(10/(MD-MDPrev)))"⟩]

end Welleng.Ftext
