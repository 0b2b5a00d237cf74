import Verif.Model.Weights
import Verif.Model.Interpreter

/-!
The two ways of describing an error source: by the name of a weight function in the workbooks, and by
a hand-written function; and surveys on which both are defined.
-/

namespace Welleng.Spec

open Err Interp Real

/-- Name of an error source in the workbooks. -/
def weightName : Func → String
  | .DREF => "DREF" | .DSF => "DSF" | .DST => "DST" | .ABIZ => "ABIZ"
  | .ABIXY_TI1 => "ABIXY-TI1" | .ABXY_TI1 => "ABXY-TI1" | .ABIXY_TI2 => "ABIXY-TI2"
  | .ABXY_TI2 => "ABXY-TI2" | .AMID => "AMID" | .ABZ => "ABZ" | .ASXY_TI1 => "ASXY-TI1"
  | .ASIXY_TI1 => "ASIXY-TI1" | .ASXY_TI2 => "ASXY-TI2" | .ASIXY_TI2 => "ASIXY-TI2"
  | .ASXY_TI3 => "ASXY-TI3" | .ASIXY_TI3 => "ASIXY-TI3" | .ASZ => "ASZ" | .ASIZ => "ASIZ"
  | .CNA => "CNA" | .CNI => "CNI" | .MBXY_TI1 => "MBXY-TI1" | .MBIXY_TI1 => "MBIXY-TI1"
  | .MBXY_TI2 => "MBXY-TI2" | .MBIXY_TI2 => "MBIXY-TI2" | .MBZ => "MBZ" | .MFI => "MFI"
  | .MSXY_TI1 => "MSXY-TI1" | .MSXY_TI2 => "MSXY-TI2" | .MSXY_TI3 => "MSXY-TI3"
  | .MSIXY_TI1 => "MSIXY-TI1" | .MSIXY_TI2 => "MSIXY-TI2" | .MSIXY_TI3 => "MSIXY-TI3"
  | .MSZ => "MSZ" | .AZ => "AZ" | .DBH => "DBH" | .MDI => "MDI" | .DBHR => "DBHR"
  | .AMIL => "AMIL" | .SAG => "SAG" | .SAGE => "SAGE" | .XYM1 => "XYM1" | .XYM2 => "XYM2"
  | .XYM3 => "XYM3" | .XYM3E => "XYM3E" | .XYM4 => "XYM4" | .XYM4E => "XYM4E"
  | .XCLA => "XCLA" | .XCLH => "XCLH" | .XYM3L => "XYM3L" | .XYM4L => "XYM4L"

/-- The weight functions whose formulas use a name that the evaluation does not provide: two
misspellings (`GField`, `Bfield`), the previous station and constants of the tool. -/
def unprovided : List String :=
  ["ABIXY-TI1", "ABIXY-TI2", "MFI", "XYM3E", "XYM4E", "XCLA", "XCLH", "GXY-GD", "GXY-GRW", "GXY-RN",
   "GZ-GD"]

/-- No station is near vertical, none points along the magnetic east-west line, and gravity, total
field and horizontal field do not vanish: every weight function is defined. -/
structure Regular (c : Ctx) : Prop where
  gravity : c.G ≠ 0
  field : c.bTotal ≠ 0
  dip : cos c.dip ≠ 0
  inclined : ∀ k, c.vlim ≤ c.s.inc k
  sine : ∀ k, 0 < sin (c.s.inc k)
  offEast : ∀ k, sin (c.s.inc k) ^ 2 * sin (c.aziMag k) ^ 2 ≠ 1

/-- The names available to a formula stand for the data of the survey. -/
structure Feeds (c : Ctx) (scal : String → ℝ) (arrays : String → ℕ → ℝ) : Prop where
  md : arrays "MD" = c.s.md
  inc : arrays "Inc" = c.s.inc
  azT : arrays "AzT" = c.s.azi
  azM : arrays "AzM" = c.aziMag
  tvd : arrays "TVD" = c.tvd
  gravity : scal "Gfield" = c.G
  dip : scal "Dip" = c.dip
  field : scal "BField" = c.bTotal

end Welleng.Spec
