import Verif.Model.ErrorModel
import Mathlib.Analysis.SpecialFunctions.Pow.Real

/-!
Model of the weighting functions of `welleng/errors/tool_errors.py` 451-1918.  Each
error source contributes `dpde * mag` with `dpde` a row `[depth, inc, azi]` per
station; some sources replace their NEV error at near-vertical stations.

Simplifications: numpy's `x / 0` followed by `nan_to_num(…, posinf=0, neginf=0)`
is `0`, which is what real division gives; where the code replaces `inf` by another
number the branch is written out.  `sqrt(10 / 0)` (two stations at the same depth)
is `inf` in numpy and `0` here, so statements about those terms assume increasing
depths.
-/

namespace Welleng.Err

open Real

/-- Azimuth reference of the header, used by `CNA` (`tool_errors.py` 941). -/
inductive Ref | grid | true | magnetic
  deriving DecidableEq

/-- Survey data read by the weighting functions, `tool_errors.py` 451-1918. -/
structure Ctx where
  s : Sv
  tvd : ℕ → ℝ
  aziMag : ℕ → ℝ
  aziGrid : ℕ → ℝ
  G : ℝ
  dip : ℝ
  bTotal : ℝ
  vlim : ℝ
  ref : Ref
  tortuosity : Option ℝ

namespace Ctx
variable (c : Ctx) (k : ℕ)
/-- `_funky_denominator`, `tool_errors.py` 430-448. -/
noncomputable def funky : ℝ := 1 - sin (c.s.inc k) ^ 2 * sin (c.aziMag k) ^ 2
/-- Sine of the inclination, `tool_errors.py` 451-1918. -/
noncomputable def si : ℝ := sin (c.s.inc k)
/-- Cosine of the inclination, `tool_errors.py` 451-1918. -/
noncomputable def ci : ℝ := cos (c.s.inc k)
/-- Sine of the magnetic azimuth, `tool_errors.py` 451-1918. -/
noncomputable def sm : ℝ := sin (c.aziMag k)
/-- Cosine of the magnetic azimuth, `tool_errors.py` 451-1918. -/
noncomputable def cm : ℝ := cos (c.aziMag k)
/-- Sine of the true azimuth, `tool_errors.py` 451-1918. -/
noncomputable def st : ℝ := sin (c.s.azi k)
/-- Cosine of the true azimuth, `tool_errors.py` 451-1918. -/
noncomputable def ct : ℝ := cos (c.s.azi k)
/-- `tan(dip) * cos(inc) + sin(inc) * cos(azi_mag)`, a factor of many terms,
`tool_errors.py` 492-494. -/
noncomputable def mix : ℝ := tan c.dip * cos (c.s.inc k) + sin (c.s.inc k) * cos (c.aziMag k)
/-- Interval above station `k`, `error.py` 514-530. -/
def dmd : ℝ := c.s.md k - c.s.md (k - 1)
/-- `drdp_sing['double_delta_md']` at station `k`, `error.py` 514-530. -/
def dmd2 : ℝ := c.s.md (k + 1) - c.s.md (k - 1)
end Ctx

/-- The entries of `func_dict`, `tool_errors.py` 363-427, except `XCL`, which picks
`XCLA` or `XCLH` from the code name. -/
inductive Func
  | DREF | DSF | DST | ABIZ | ABIXY_TI1 | ABXY_TI1 | ABIXY_TI2 | ABXY_TI2 | AMID | ABZ
  | ASXY_TI1 | ASIXY_TI1 | ASXY_TI2 | ASIXY_TI2 | ASXY_TI3 | ASIXY_TI3 | ASZ | ASIZ
  | CNA | CNI | MBXY_TI1 | MBIXY_TI1 | MBXY_TI2 | MBIXY_TI2 | MBZ | MFI
  | MSXY_TI1 | MSXY_TI2 | MSXY_TI3 | MSIXY_TI1 | MSIXY_TI2 | MSIXY_TI3 | MSZ
  | AZ | DBH | MDI | DBHR | AMIL | SAG | SAGE | XYM1 | XYM2 | XYM3 | XYM3E | XYM4 | XYM4E
  | XCLA | XCLH | XYM3L | XYM4L
  deriving DecidableEq

/-- `sqrt(10 / delta_md)` limited below by one: `coeff` of `XYM3E`, `XYM4E`,
`XYM3L`, `XYM4L` at station `k ≥ 1` (`tool_errors.py` 1428-1440, 1546-1558, 1731-1737,
1829-1835); station 0 has coefficient 1. -/
noncomputable def coeff (c : Ctx) (k : ℕ) : ℝ :=
  if k = 0 then 1 else max 1 (√(10 / c.dmd k))

/-- `manage_sing` of `XCLA`, `tool_errors.py` 1630-1644. -/
noncomputable def xclaDelta (c : Ctx) (k : ℕ) : ℝ :=
  if c.s.inc (k - 1) < c.vlim then 0 else
    let w := pmod (c.s.azi k - c.s.azi (k - 1) + π) (2 * π) - π
    abs (sin (c.s.inc k) * sin (abs w))

/-- The rows `dpde` (before multiplication by `mag`) of every weighting function, with the lines of
`tool_errors.py`. -/
noncomputable def dpde (f : Func) (c : Ctx) (tort : ℝ) (k : ℕ) : V :=
  match f with
  -- 451-455
  | .DREF => ![1, 0, 0]
  -- 458-465
  | .DSF => ![1 * c.s.md k, 0 * c.s.inc k, 0 * c.s.azi k]
  -- 468-476
  | .DST => ![c.tvd k * c.s.md k, 0 * c.s.inc k, 0 * c.s.azi k]
  -- 479-500
  | .ABIZ =>
    let d := c.funky k / c.G
    let d := if d > 1e-6 then d else 1e-6
    ![0, -c.si k / c.G, (c.si k * c.ci k * c.sm k * c.mix k) / d]
  -- 503-523
  | .ABIXY_TI1 => ![0, -c.ci k / c.G, (c.ci k ^ 2 * c.sm k * c.mix k) / (c.G * c.funky k)]
  -- 526-538
  | .ABXY_TI1 => ![0, -c.ci k / c.G, (c.ci k * tan c.dip * c.sm k) / c.G]
  -- 541-631
  | .ABIXY_TI2 =>
    ![0, 0, -(tan c.dip * c.cm k - tan (π / 2 - c.s.inc k)) / (c.G * c.funky k)]
  -- 634-717
  | .ABXY_TI2 => ![0, 0, (tan (-c.s.inc k + π / 2) - tan c.dip * c.cm k) / c.G]
  -- 720-732
  | .AMID => ![0, 0, c.si k * c.sm k]
  -- 735-744
  | .ABZ => ![0, -c.si k / c.G, (c.si k * tan c.dip * c.sm k) / c.G]
  -- 747-763
  | .ASXY_TI1 => ![0, (c.si k * c.ci k) / √2, (c.si k * -tan c.dip * c.ci k * c.sm k) / √2]
  -- 766-790
  | .ASIXY_TI1 =>
    ![0, c.si k * c.ci k / √2, -(c.si k * c.ci k ^ 2 * c.sm k * c.mix k) / (√2 * c.funky k)]
  -- 793-807
  | .ASXY_TI2 => ![0, c.si k * c.ci k / 2, (c.si k * -tan c.dip * c.ci k * c.sm k) / 2]
  -- 810-833
  | .ASIXY_TI2 =>
    ![0, c.si k * c.ci k / 2, -(c.si k * c.ci k ^ 2 * c.sm k * c.mix k) / (2 * c.funky k)]
  -- 836-846
  | .ASXY_TI3 => ![0, 0, (c.si k * tan c.dip * c.cm k - c.ci k) / 2]
  -- 849-863
  | .ASIXY_TI3 => ![0, 0, (tan c.dip * c.si k * c.cm k - c.ci k) / (2 * c.funky k)]
  -- 866-880
  | .ASZ => ![0, -c.si k * c.ci k, c.si k * tan c.dip * c.ci k * c.sm k]
  -- 883-906
  | .ASIZ => ![0, -c.si k * c.ci k, (c.si k * c.ci k ^ 2 * c.sm k * c.mix k) / c.funky k]
  -- 917-992
  | .CNA => ![0, 0, if c.si k = 0 then 1 else 1 / c.si k]
  -- 995-1005
  | .CNI => ![0, 1, 0]
  -- 1010-1020
  | .MBXY_TI1 => ![0, 0, (-c.ci k * c.sm k) / (c.bTotal * cos c.dip)]
  -- 1023-1039
  | .MBIXY_TI1 => ![0, 0, (-c.ci k * c.sm k) / (c.bTotal * cos c.dip * c.funky k)]
  -- 1042-1055
  | .MBXY_TI2 => ![0, 0, c.cm k / (c.bTotal * cos c.dip)]
  -- 1058-1074
  | .MBIXY_TI2 => ![0, 0, c.cm k / (c.bTotal * cos c.dip * c.funky k)]
  -- 1077-1085
  | .MBZ => ![0, 0, (-c.si k * c.sm k) / (c.bTotal * cos c.dip)]
  -- 1088-1110
  | .MFI => ![0, 0, -c.si k * c.sm k * c.mix k / c.funky k / c.bTotal]
  -- 1113-1129
  | .MSXY_TI1 => ![0, 0, c.si k * c.sm k * c.mix k / √2]
  -- 1132-1148
  | .MSXY_TI2 =>
    ![0, 0, c.sm k * (tan c.dip * c.si k * c.ci k - c.ci k * c.ci k * c.cm k - c.cm k) / 2]
  -- 1151-1165
  | .MSXY_TI3 =>
    ![0, 0, (c.ci k * c.cm k * c.cm k - c.ci k * c.sm k * c.sm k
      - tan c.dip * c.si k * c.cm k) / 2]
  -- 1168-1192
  | .MSIXY_TI1 => ![0, 0, c.si k * c.sm k * c.mix k / (√2 * c.funky k)]
  -- 1195-1219
  | .MSIXY_TI2 =>
    ![0, 0, c.sm k * (tan c.dip * c.si k * c.ci k - c.ci k ^ 2 * c.cm k - c.cm k)
      / (2 * c.funky k)]
  -- 1222-1246
  | .MSIXY_TI3 =>
    ![0, 0, (c.ci k * c.cm k ^ 2 - c.ci k * c.sm k ^ 2 - tan c.dip * c.si k * c.cm k)
      / (2 * c.funky k)]
  -- 1249-1260
  | .MSZ => ![0, 0, -(c.si k * c.cm k + tan c.dip * c.ci k) * c.si k * c.sm k]
  -- 1263-1268
  | .AZ => ![0, 0, 1]
  -- 1271-1281
  | .DBH => ![0, 0, 1 / (c.bTotal * cos c.dip)]
  -- 1284-1303
  | .MDI =>
    ![0, 0, (-c.si k * c.sm k * (c.ci k - tan c.dip * c.si k * c.cm k)) / c.funky k]
  -- 1306-1315
  | .DBHR => ![0, 0, 1 / (c.bTotal * cos c.dip)]
  -- 1318-1327
  | .AMIL => ![0, 0, -c.si k * c.sm k / (c.bTotal * cos c.dip)]
  -- 1330-1337
  | .SAG => ![0, c.si k, 0]
  -- 1340-1347
  | .SAGE => ![0, c.si k ^ (0.25 : ℝ), 0]
  -- 1350-1357
  | .XYM1 => ![0, |c.si k|, 0]
  -- 1360-1368
  | .XYM2 => ![0, 0, -1]
  -- 1371-1424
  | .XYM3 => ![0, |c.ci k| * c.ct k, -(|c.ci k| * c.st k) / c.si k]
  -- 1489-1542
  | .XYM4 => ![0, |c.ci k| * c.st k, (|c.ci k| * c.ct k) / c.si k]
  -- 1427-1486
  | .XYM3E =>
    if k = 0 then 0 else
      ![0, |c.ci k * c.ct k * coeff c k|,
        if c.s.inc k < c.vlim then coeff c k
        else -|c.ci k| * c.st k / c.si k * coeff c k]
  -- 1545-1606
  | .XYM4E =>
    if k = 0 then 0 else
      ![0, c.ci k * c.st k * coeff c k, c.ci k * c.ct k / c.si k * coeff c k]
  -- 1627-1674
  | .XCLA =>
    if k = 0 then 0 else
      let m := max (xclaDelta c k) (tort * c.dmd k)
      ![c.dmd k * m * -c.st k, c.dmd k * m * c.ct k, 0]
  -- 1677-1727
  | .XCLH =>
    if k = 0 then 0 else
      let m := max |c.s.inc k - c.s.inc (k - 1)| (tort * c.dmd k)
      ![c.dmd k * m * c.ci k * c.ct k, c.dmd k * m * c.ci k * c.st k, c.dmd k * m * -c.si k]
  -- 1730-1824
  | .XYM3L =>
    let j := if k = 0 then 1 else k
    ![0, |c.ci j| * c.ct j * coeff c j, -|c.ci j| * (c.st j / c.si j) * coeff c j]
  -- 1827-1918
  | .XYM4L =>
    ![0, |c.ci k| * c.st k * coeff c k, |c.ci k| * c.ct k / c.si k * coeff c k]

/-- `dpde * mag`, `tool_errors.py` 453. -/
noncomputable def eDIA (f : Func) (c : Ctx) (tort mag : ℝ) (k : ℕ) : V :=
  fun i => dpde f c tort k i * mag

/-- Rows of the array assembled as `vstack(zeros, inner, zeros)`, for instance `tool_errors.py`
582-588. -/
noncomputable def inner (c : Ctx) (row : ℕ → V) (k : ℕ) : V :=
  if k = 0 ∨ k + 1 = c.s.n then 0 else row k

/-- Overwrite component `i` of row 1 (`arr[1, i] = x`), for instance `tool_errors.py` 590. -/
noncomputable def setRow1 (arr : ℕ → V) (i : Fin 3) (x : ℝ) (k : ℕ) : V :=
  if k = 1 then Function.update (arr k) i x else arr k

/-- `azi_{azi_reference}_rad` of the survey as read by `CNA`, `tool_errors.py` 940-974; the survey has
`azi_mag_rad` but no `azi_magnetic_rad`, so a magnetic reference raises
AttributeError. -/
def cnaAzi (c : Ctx) : Except Exc (ℕ → ℝ) :=
  match c.ref with
  | .grid => .ok c.aziGrid
  | .true => .ok c.s.azi
  | .magnetic => .error .attributeError

/-- `e_NEV_sing`, `e_NEV_star_sing` of `ABIXY_TI2` (`tool_errors.py` 566-631) and
`ABXY_TI2` (652-717); the second only overwrites entry `[1, 1]` when the model is not
rev4.  `md[2]` raises IndexError for two stations. -/
noncomputable def singABXY (c : Ctx) (mag : ℝ) (patch : Bool) :
    Except Exc ((ℕ → V) × (ℕ → V)) :=
  let a := inner c fun k =>
    ![0.5 * c.dmd2 k * -c.st k * mag / c.G, 0.5 * c.dmd2 k * c.ct k * mag / c.G, 0]
  let b := inner c fun k =>
    ![0.5 * c.dmd k * -c.st k * mag / c.G, 0.5 * c.dmd k * c.ct k * mag / c.G, 0]
  if patch then
    if c.s.n < 3 then .error .indexError
    else .ok
      (setRow1 a 1 ((c.s.md 2 + c.s.md 1 - 2 * c.s.md 0) / 2 * mag * cos (c.s.azi 1) / c.G),
       setRow1 b 1 ((c.s.md 1 - c.s.md 0) * mag * (cos (c.s.azi 1) / c.G)))
  else .ok (a, b)

/-- Singular rows of `XYM3L` (`i = 0`, `tool_errors.py` 1769-1824) and `XYM4L`
(`i = 1`, 1862-1918).  `co` is the coefficient used for row 1: `XYM3L` indexes an array that
starts at station 1 with `coeff[1]`, i.e. the coefficient of station 2. -/
noncomputable def singL (c : Ctx) (mag : ℝ) (i : Fin 3) (co : ℝ) :
    Except Exc ((ℕ → V) × (ℕ → V)) :=
  if c.s.n < 3 then .error .indexError
  else
    let a : ℕ → V := fun k =>
      if k = 0 then 0
      else if k + 1 = c.s.n then Pi.single i (coeff c k * c.dmd k / 2 * mag)
      else Pi.single i (coeff c k * c.dmd2 k / 2 * mag)
    let a := setRow1 a i (co * (c.s.md 2 + c.s.md 1 - 2 * c.s.md 0) / 2 * mag)
    let b : ℕ → V := fun k => if k = 0 then 0 else Pi.single i (c.dmd k / 2 * mag)
    let b := setRow1 b i ((c.s.md 1 - c.s.md 0) * mag)
    .ok (a, b)

/-- `arr[sing] = arr_sing[sing]`, for instance `tool_errors.py` 599. -/
noncomputable def replaceSing (c : Ctx) (arr sing : ℕ → V) (k : ℕ) : V :=
  if c.s.inc k < c.vlim then sing k else arr k

/-- Keep only component `i` of each row, `tool_errors.py` 1473-1480, 1595-1602. -/
noncomputable def onlyComp (i : Fin 3) (arr : ℕ → V) (j : Fin 3) (k : ℕ) : V :=
  Pi.single i (arr k j)

/-- The replacement rows of a function at near-vertical stations; `none` if the
function has no such branch.  `CNA` `tool_errors.py` 931-988, `XYM3` 1390-1424, `XYM4` 1508-1542,
`XYM3E` 1466-1484, `XYM4E` 1583-1606. -/
noncomputable def singRows (f : Func) (c : Ctx) (tort mag : ℝ) :
    Option (Except Exc ((ℕ → V) × (ℕ → V))) :=
  match f with
  | .ABIXY_TI2 => some (singABXY c mag true)
  | .ABXY_TI2 => some (singABXY c mag (!c.s.rev4))
  | .CNA => some (match cnaAzi c with
    | .error e => .error e
    | .ok a => .ok
      (inner c fun k => ![0.5 * c.dmd2 k * -sin (a k) * mag, 0.5 * c.dmd2 k * cos (a k) * mag, 0],
       inner c fun k => ![0.5 * c.dmd k * -sin (a k) * mag, 0.5 * c.dmd k * cos (a k) * mag, 0]))
  | .XYM3 => some (.ok
      (inner c fun k => ![0.5 * c.dmd2 k * mag, 0, 0],
       inner c fun k => ![0.5 * c.dmd k * mag, 0, 0]))
  | .XYM4 => some (.ok
      (inner c fun k => ![0, 0.5 * c.dmd2 k * mag, 0],
       inner c fun k => ![0, 0.5 * c.dmd k * mag, 0]))
  | .XYM3E =>
    some (.ok
      (onlyComp 0 (eNEV c.s (eDIA .XYM3E c tort mag)) 0,
       onlyComp 0 (eNEVStar c.s (eDIA .XYM3E c tort mag)) 0))
  | .XYM4E =>
    -- `xym3e.e_NEV[:, 0]`: the north component of the (already replaced) XYM3E error,
    -- which the replacement leaves unchanged
    some (.ok
      (onlyComp 1 (eNEV c.s (eDIA .XYM3E c tort mag)) 0,
       onlyComp 1 (eNEVStar c.s (eDIA .XYM3E c tort mag)) 0))
  | .XYM3L => some (singL c mag 0 (coeff c 2))
  | .XYM4L => some (singL c mag 1 (coeff c 1))
  | _ => none

/-- Propagation actually used: `XYM2` forces systematic (`tool_errors.py` 1363), `XYM4L`
forces random (1828). -/
def forcedProp (f : Func) (p : Prop') : Prop' :=
  match f with
  | .XYM2 => .systematic
  | .XYM4L => .random
  | _ => p

/-- Functions that read `kwargs['tortuosity']`, `tool_errors.py` 1609-1727. -/
def Func.usesTortuosity : Func → Bool
  | .XCLA | .XCLH => true
  | _ => false

/-- A call of a weighting function with `NEV=True`, `tool_errors.py` 272-287 and the tail of each
function.  `if len(sing[0]) < 1` is
whether any of the `n` stations is below the vertical limit.  A missing tortuosity
(`None * array`) is a TypeError.  The result is `none` when `_generate_error` returns
`None`; `XYM4E` over a vertical station then fails with AttributeError on
`xym3e.e_NEV` (`tool_errors.py` 1596). -/
noncomputable def callFunc (f : Func) (c : Ctx) (mag : ℝ) (p : Prop') :
    Except Exc (Option Term) :=
  open Classical in
  let p := forcedProp f p
  if f.usesTortuosity && c.tortuosity.isNone then .error .typeError
  else
    let tort := c.tortuosity.getD 0
    let e := eDIA f c tort mag
    if f = .XCLA ∨ f = .XCLH then .ok (generateError c.s e p (some (e, e)))
    else match singRows f c tort mag with
      | none => .ok (generateError c.s e p none)
      | some r =>
        if ∃ k < c.s.n, c.s.inc k < c.vlim then
          if f = .XYM4E ∧ p = .other then .error .attributeError
          else match r with
            | .error x => .error x
            | .ok (a, b) =>
              .ok (generateError c.s e p
                (some (replaceSing c (eNEV c.s e) a, replaceSing c (eNEVStar c.s e) b)))
        else .ok (generateError c.s e p none)

/-- One entry of a YAML catalogue (`codes`), `tool_errors.py` 226-251. -/
structure Entry where
  f : Func
  mag : ℝ
  prop : Prop'

/-- `ToolError.__init__` over a YAML catalogue, `tool_errors.py` 226-268. -/
noncomputable def callAll (c : Ctx) : List Entry → Except Exc (List (Option Term))
  | [] => .ok []
  | e :: es =>
    match callFunc e.f c e.mag e.prop with
    | .error x => .error x
    | .ok t => match callAll c es with
      | .error x => .error x
      | .ok ts => .ok (t :: ts)

/-- Total covariances of a YAML tool model on a survey, `tool_errors.py` 226-268. -/
noncomputable def toolError (c : Ctx) (codes : List Entry) : Except Exc Totals :=
  match callAll c codes with
  | .error x => .error x
  | .ok ts => totals ts

end Welleng.Err
