import Verif.Model.MinCurve
import Mathlib.Analysis.SpecialFunctions.Complex.Arg
import Mathlib.LinearAlgebra.Matrix.PosDef

/-!
Model of the vector / angle conversions and frame rotations in
`/repo/welleng/utils.py` lines 160-526.
-/

namespace Welleng

open Real

/-- `np.arctan2(y, x)`; `(0, 0)` gives `0` as in numpy (signed zeros not modelled). -/
noncomputable def atan2 (y x : ℝ) : ℝ := Complex.arg ⟨x, y⟩

/-- Python / numpy float `a % b` for `b > 0`. -/
noncomputable def pmod (a b : ℝ) : ℝ := a - b * ⌊a / b⌋

/-- Row normalisation `vec / np.linalg.norm(vec, axis=-1)`, `utils.py` 192, 259. -/
noncomputable def normalize (v : V3) : V3 := (1 / V3.norm v) • v

/-- `utils.get_vec` with `deg=False`, `utils.py` 160-192.  With `nev` the row is
`[n, e, v]`, otherwise `[x, y, z]`. -/
noncomputable def getVec (inc azi : ℝ) (nev : Bool) (r : ℝ := 1) : V3 :=
  let y := r * sin inc * cos azi
  let x := r * sin inc * sin azi
  let z := r * cos inc
  normalize (if nev then ⟨y, x, z⟩ else ⟨x, y, z⟩)

/-- `utils._get_angles` on one `[x, y, z]` row, `utils.py` 232-237. -/
noncomputable def getAnglesXyz (v : V3) : ℝ × ℝ :=
  (atan2 (√(v.x ^ 2 + v.y ^ 2)) v.z,
   pmod (atan2 v.x v.y + 2 * π) (2 * π))

/-- `utils.get_angles` on one row, `utils.py` 240-267. -/
noncomputable def getAngles (v : V3) (nev : Bool) : ℝ × ℝ :=
  let v := normalize v
  getAnglesXyz (if nev then ⟨v.y, v.x, v.z⟩ else v)

/-- `utils.get_nev` on one row, `utils.py` 195-221. -/
def getNev (pos startXyz startNev : V3) : V3 :=
  let d := pos - startXyz
  ⟨d.y, d.x, d.z⟩ + startNev

/-- `utils.get_xyz` on one row, `utils.py` 224-229. -/
def getXyz (pos startXyz startNev : V3) : V3 :=
  let d := pos - startNev
  ⟨d.y, d.x, d.z⟩ + startXyz

/-- A 3×3 covariance matrix. -/
abbrev M3 := Matrix (Fin 3) (Fin 3) ℝ

/-- `utils._get_transform` for one station, `utils.py` 270-280. -/
noncomputable def getTransform (inc azi : ℝ) : M3 :=
  !![cos inc * cos azi, cos inc * sin azi, -sin inc;
     -sin azi, cos azi, 0;
     sin inc * cos azi, sin inc * sin azi, cos inc]

/-- `utils.NEV_to_HLA` with `cov=True` for one station, `utils.py` 306-341. -/
noncomputable def nevToHlaCov (inc azi : ℝ) (c : M3) : M3 :=
  getTransform inc azi * c * (getTransform inc azi).transpose

/-- `utils.NEV_to_HLA` with `cov=False` for one station, `utils.py` 343-345
(`einsum('...k,...jk', NEV, trans)`: component `j` is `Σ_k NEV_k trans_jk`). -/
noncomputable def nevToHlaVec (inc azi : ℝ) (v : Fin 3 → ℝ) : Fin 3 → ℝ :=
  fun j => ∑ k, v k * getTransform inc azi j k

/-- `utils.HLA_to_NEV` with `cov=True` for one station, `utils.py` 348-354. -/
noncomputable def hlaToNevCov (inc azi : ℝ) (c : M3) : M3 :=
  (getTransform inc azi).transpose * c * getTransform inc azi

/-- `utils.HLA_to_NEV` with `cov=False` for one station, `utils.py` 356-358
(row vector times matrix). -/
noncomputable def hlaToNevVec (inc azi : ℝ) (v : Fin 3 → ℝ) : Fin 3 → ℝ :=
  Matrix.vecMul v (getTransform inc azi)

/-- `utils.cov_from_vec` on one row, `utils.py` 486-500. -/
def covFromVec (v : Fin 3 → ℝ) : M3 := Matrix.of fun i j => v i * v j

/-- `utils.make_cov` for scalars, `utils.py` 406-422 (the final `.T` of a single
matrix is the transpose). -/
def makeCov (a b c : ℝ) (long : Bool) : M3 :=
  (if long then !![a * a, a * b, a * c; a * b, b * b, b * c; a * c, b * c, c * c]
   else !![a * a, 0, 0; 0, b * b, 0; 0, 0, c * c]).transpose

/-- `utils.make_long_cov` on one row `[aa, ab, ac, bb, bc, cc]`, `utils.py` 425-443. -/
def makeLongCov (aa ab ac bb bc cc : ℝ) : M3 :=
  !![aa, ab, ac; ab, bb, bc; ac, bc, cc]

/-- `utils.get_sigmas` with `long=True` on one matrix, `utils.py` 376-383:
`cov[:, :, k].T` unpacks column `k`; later assignments win, so `ab` is entry
`(0, 1)`, `ac` entry `(0, 2)` and `bc` entry `(1, 2)`. -/
def getSigmasLong (c : M3) : ℝ × ℝ × ℝ × ℝ × ℝ × ℝ :=
  (c 0 0, c 1 1, c 2 2, c 0 1, c 0 2, c 1 2)

/-- `utils.get_sigmas` with `long=False`, `utils.py` 384-385. -/
noncomputable def getSigmas (c : M3) : ℝ × ℝ × ℝ := (√(c 0 0), √(c 1 1), √(c 2 2))

/-- `utils.errors_from_cov` on one matrix, `utils.py` 503-526. -/
def errorsFromCov (c : M3) : ℝ × ℝ × ℝ × ℝ × ℝ × ℝ :=
  (c 0 0, c 0 1, c 0 2, c 1 1, c 1 2, c 2 2)

/-- Results that may be `np.inf`, `utils.py` 451-459, 471-479. -/
inductive Ext | val (r : ℝ) | inf

/-- `utils.dls_from_radius` with a scalar, `utils.py` 458-463. -/
noncomputable def dlsFromRadius (radius : ℝ) : Ext :=
  if radius = 0 then .inf else .val (360 / (2 * π * radius) * 30)

/-- `utils.dls_from_radius` on one element of an array, `utils.py` 450-456, 461:
for `radius = 0` the circumference is `inf` and `360 / inf * 30 = 0`. -/
noncomputable def dlsFromRadiusArr (radius : ℝ) : Ext :=
  if radius ≠ 0 then .val (360 / (2 * π * radius) * 30) else .val 0

/-- `utils.radius_from_dls` with a scalar, `utils.py` 478-483. -/
noncomputable def radiusFromDls (dls : ℝ) : Ext :=
  if dls = 0 then .inf else .val (30 / dls * 360 / (2 * π))

/-- `utils.radius_from_dls` on one element of an array, `utils.py` 470-476, 481. -/
noncomputable def radiusFromDlsArr (dls : ℝ) : Ext :=
  if dls ≠ 0 then .val (30 / dls * 360 / (2 * π)) else .inf

end Welleng
