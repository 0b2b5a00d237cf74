import Verif.Model.ErrorModel
import Verif.Model.Interpolate
import Verif.Model.Survey
import Verif.Model.Dms

/-!
Model of `/repo/welleng/clearance.py`: the reference well below a kick-off point
(`Clearance`, 96-217), the separation quantities of `IscwsaClearance` (325-407, 409-477,
723-746, 752-830) and the separation factor of `MeshClearance` (1027-1046).

The searches with `scipy.optimize` and the mesh distances of `trimesh`/FCL are not
modelled: the points and distances they return are inputs.
-/

namespace Welleng.Clr

open Welleng Err Real

/-! ### Reference well below the kick-off point -/

/-- `Clearance._get_kop_index`, `clearance.py` 96-100. -/
noncomputable def kopIndex (mds : List ℝ) (kop : ℝ) : ℕ := searchsortedLeft mds kop

/-- The test for a depth-scale source, `clearance.py` 142-148: `np.all` and `np.any` over
the `n` rows of `e_DIA`. -/
def DepthOnly (n : ℕ) (e : ℕ → V) : Prop :=
  (∀ k < n, |e k 1| < 1e-10 ∧ |e k 2| < 1e-10) ∧ ∃ k < n, |e k 0| > 1e-10

open Classical in
/-- One pass of the loop of `Clearance._get_ref_cov_below_kop`, `clearance.py` 138-166; row
`k` of the result belongs to station `ki + k`. -/
noncomputable def belowKop (n ki : ℕ) (t : Term) (k : ℕ) : M3 :=
  let sigma := sigmaSystematic t.eNEV t.eStar
  match t.prop with
  | .systematic | .global | .withinPad =>
    covFromVec (if DepthOnly n t.eDIA then (if k = 0 then 0 else sigma (ki + k))
      else sigma (ki + k) - sigma ki)
  | .random =>
    if DepthOnly n t.eDIA then (if k = 0 then 0 else t.cov (ki + k))
    else t.cov (ki + k) - t.cov ki
  | .other => 0

/-- `Clearance._get_ref_cov_below_kop`, `clearance.py` 121-168. -/
noncomputable def covBelowKop (n ki : ℕ) (ts : List Term) (k : ℕ) : M3 :=
  (ts.map fun t => belowKop n ki t k).sum

/-- What `_get_ref` reads from the reference survey: the number of stations, the error model
(absent if the covariances were given directly), and the covariances, `clearance.py` 170-190. -/
structure RefSurvey where
  n : ℕ
  err : Option (List Term)
  cov : Option (ℕ → M3)

/-- The covariances of `Clearance.ref`, `clearance.py` 170-197 (`ki < n`; otherwise reading
`reference.x[kop_index]` raises IndexError).  Slicing a missing covariance raises TypeError,
`none` here. -/
noncomputable def refCov (r : RefSurvey) (ki : ℕ) : Option (ℕ → M3) :=
  if ki = 0 then r.cov else
    match r.err with
    | some ts => some (covBelowKop r.n ki ts)
    | none => r.cov.map fun c k => c (ki + k)

/-- Azimuths of a station of `Clearance.ref` when there is a kick-off point: the grid azimuth
of the reference is passed with the reference's own header, `clearance.py` 193-213. -/
noncomputable def refAzis (h : Sv.Header) (a : Sv.Azis) : Sv.Azis :=
  Sv.processAziRef h false a.gridRad

/-! ### ISCWSA separation -/

/-- A row of `ref_delta_nevs` or `off_delta_nevs`, `clearance.py` 757-776: `nan_to_num` turns
the `0/0` of coinciding points into 0. -/
noncomputable def unitDelta (p q : V) : V :=
  let d := √(∑ i, (q i - p i) ^ 2)
  if d = 0 then 0 else fun i => (q i - p i) / d

/-- A row of `distance_cc`, `clearance.py` 761. -/
noncomputable def distanceCc (p q : V) : ℝ := √(∑ i, (q i - p i) ^ 2)

/-- `einsum('ni,nij,nj->n', …)`, `clearance.py` 818-826, before the root. -/
noncomputable def quad (u : V) (c : M3) : ℝ := ∑ i, ∑ j, u i * c i j * u j

/-- Pedal curve radius, `clearance.py` 815-826.  numpy returns nan for a negative argument;
`√` here is 0 there (see `C31_root_defined`). -/
noncomputable def pcr (u : V) (c : M3) : ℝ := √(quad u c)

/-- One station pair, with the settings of the clearance object, `clearance.py` 756-866. -/
structure Pair where
  ref : V
  off : V
  refCov : M3
  offCov : M3
  Rr : ℝ
  Ro : ℝ
  k : ℝ
  sigmaPa : ℝ
  Sm : ℝ

/-- The results for one station, `clearance.py` 372-400.  `sf` is `none` when the boundary is
zero, where numpy's division gives inf or nan. -/
structure Sep where
  distance : ℝ
  sigmaS : ℝ
  calcHole : ℝ
  eouBoundary : ℝ
  wellboreSeparation : ℝ
  eouSeparation : ℝ
  masd : ℝ
  sf : Option ℝ

/-- `self.k * np.sqrt(self.sigmaS ** 2 + self.sigma_pa ** 2)`, `clearance.py` 379-381. -/
noncomputable def eou (k sigmaS sigmaPa : ℝ) : ℝ := k * √(sigmaS ^ 2 + sigmaPa ^ 2)

/-- `IscwsaClearance.__init__` for one station, `clearance.py` 361-400. -/
noncomputable def separation (p : Pair) : Sep :=
  let d := distanceCc p.ref p.off
  let rp := pcr (unitDelta p.ref p.off) p.refCov
  let op := pcr (unitDelta p.off p.ref) p.offCov
  let s := √(rp ^ 2 + op ^ 2)
  let hole := p.Rr + p.Ro
  let b := eou p.k s p.sigmaPa
  let w := d - hole - p.Sm
  ⟨d, s, hole, b, w, w - b, b + hole + p.Sm, if b = 0 then none else some (w / b)⟩

/-- `IscwsaClearance._interpolate_covs` and the same expression in `_get_sf_min`,
`clearance.py` 423-426, 452-455, 736-744. -/
def lerpCov (mult : ℝ) (a b : M3) : M3 := a + mult • (b - a)

/-- The last lines of `IscwsaClearance._get_sf_min`, `clearance.py` 464-477: the value the
search for a minimum between stations uses.  `none` stands for inf. -/
noncomputable def sfObjective (p : Pair) : Option ℝ :=
  let d := distanceCc p.ref p.off
  if d < 1e-10 then none else
    let u := unitDelta p.ref p.off
    let rp := √(max 0 (quad u p.refCov))
    let op := √(max 0 (quad u p.offCov))
    let s := √(rp ^ 2 + op ^ 2)
    some ((d - p.Rr - p.Ro) / eou p.k s p.sigmaPa)

/-! ### Mesh separation factor -/

/-- The unrounded separation factor of `MeshClearance._process_well`, `clearance.py`
1027-1040: `distance` is the distance between the meshes, `depth` that between the closest
points.  `none` is inf. -/
noncomputable def meshSf (collision : Bool) (cc distance depth : ℝ) : Option ℝ :=
  if collision then
    if cc ≠ 0 ∧ depth ≠ 0 then some (cc / (cc + depth)) else some 0
  else
    let denom := cc - distance
    if denom ≠ 0 then some (cc / denom) else none

/-- `self.sf.append(round(sf, 2))`, `clearance.py` 1047. -/
noncomputable def meshSfReported (collision : Bool) (cc distance depth : ℝ) : Option ℝ :=
  (meshSf collision cc distance depth).map fun x => Dms.pyRound x 2

/-- `get_ref_sigma` for one component, `clearance.py` 1099-1108: `sigma` has `n` entries. -/
def getRefSigma (sigma : ℕ → ℝ) (ki k : ℕ) : ℝ :=
  if k < ki then ∑ j ∈ Finset.Ico k ki, (sigma (j + 1) - sigma j)
  else ∑ j ∈ Finset.Ico ki k, (sigma (j + 1) - sigma j)

end Welleng.Clr
