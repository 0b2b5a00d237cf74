import Verif.Model.ConnectorSolve
import Verif.Model.Survey

/-!
Model of `interpolate_survey`, `/repo/welleng/survey.py` 2703-2816, with the parts of `Connector`,
`interpolate_well` and `from_connections` it runs through.
-/

namespace Welleng.Rs

open Real Con

/-- What the sectioning depends on besides the survey: `radius` is `denom / dls`
(`connector.py` 364-377 with `degrees=False`), `step` as passed, `nearPi d`: `d` rounds to `π` at five
decimals (634-637), `modVec` is `mod_vec` (399-407). -/
structure Cfg where
  radius : ℝ
  step : Option ℝ
  nearPi : ℝ → Prop
  modVec : V3 → V3

/-- A row of `interpolate_curve`, `connector.py` 2024-2084; the curve without length has the single
row `vec1` (2024-2034). -/
noncomputable def curveRow (md1 : ℝ) (v1 v2 : V3) (dc d m : ℝ) : ℝ × V3 :=
  (m, if dc = 0 then v1 else curveVec v1 v2 dc d (m - md1))

/-- `_min_curve` to a given depth (`connector.py` 625-671), then `get_min_curve` (2135-2164). -/
noncomputable def minCurveRows (c : Cfg) (md1 : ℝ) (v1 : V3) (mdT : ℝ) (vT : V3) :
    Option (List (ℝ × V3)) :=
  let d := angle v1 vT
  match minCurveMd md1 (some mdT) (.val c.radius) d (c.nearPi d) with
  | none => none
  | some (dep, dc) =>
    match dep.md2 with
    | none => some ((curveMds md1 dc c.step true).map (curveRow md1 v1 vT dc d))
    | some md2 => some ((curveMds md1 dc c.step false).map (curveRow md1 v1 vT dc d) ++
        (holdMds md2 mdT c.step true).map fun m => (m, vT))

/-- The direction a section ends in: a target opposite to the start is modified,
`connector.py` 398-407. -/
noncomputable def targetVec (c : Cfg) (v1 vT : V3) : V3 :=
  open Classical in if vT = (-1 : ℝ) • v1 then c.modVec vT else vT

/-- One section: the rows of the `Connector` of `survey.py` 2755-2764 after `interpolate_well`
(`connector.py` 1948-1978): depth and direction.  `none`: the assertion `md2 >= md1`
(`connector.py` 246), or a NaN. -/
noncomputable def sectionRows (c : Cfg) (md1 : ℝ) (v1 : V3) (mdT : ℝ) (vT : V3) :
    Option (List (ℝ × V3)) :=
  open Classical in
  if mdT < md1 then none
  else if targetVec c v1 vT = v1 then some ((holdMds md1 mdT c.step true).map fun m => (m, v1))
  else minCurveRows c md1 v1 mdT (targetVec c v1 vT)

/-- The loop of `survey.py` 2737-2765 from the depth and the direction of the last node; the end node
normalises its direction (`node.py` 107). -/
noncomputable def sections (c : Cfg) (md1 : ℝ) (v1 : V3) : List Station → Option (List (ℝ × V3))
  | [] => some []
  | l :: rest =>
    match sectionRows c md1 v1 l.md (getVec l.inc l.azi true) with
    | none => none
    | some rows =>
      match sections c l.md (normalize (targetVec c v1 (getVec l.inc l.azi true))) rest with
      | none => none
      | some tail => some (rows ++ tail)

/-- The angles of a row, `connector.py` 2072, 2122. -/
noncomputable def toStation (r : ℝ × V3) : Station :=
  ⟨r.1, (getAngles r.2 true).1, (getAngles r.2 true).2⟩

/-- Ways in which no survey is returned: no section at all (`np.vstack([])`), a section without
result, and the check of the unit in the constructor of the survey (`survey.py` 697). -/
inductive Exc | valueError | noSection | indexError | assertionError
  deriving DecidableEq

/-- The stations of `interpolate_survey`, `survey.py` 2733-2773: measured depth, inclination and
azimuth in the header's reference, which is also the reference in which `st` is read (2726-2733).
`key` is the rounded measured depth.  `from_connections` is called without `depth_unit`, so the unit of
the new survey is `"meters"` (2628, 2696) and has to be the header's (697). -/
noncomputable def resample {κ : Type} [DecidableEq κ] (c : Cfg) (key : ℝ → κ)
    (headerUnit : LenUnit) (st : List Station) : Except Exc (List Station) :=
  match st with
  | s :: l :: rest =>
    match sections c s.md (getVec s.inc s.azi true) (l :: rest) with
    | none => .error .noSection
    | some rows =>
      match Sv.removeDuplicates (fun r : Station => key r.md) (rows.map toStation) with
      | .error _ => .error .indexError
      | .ok out => if headerUnit = .meters then .ok out else .error .assertionError
  | _ => .error .valueError

/-- The grid azimuths of stations entered with the header's reference, `survey.py` 771-836: the
positions are computed from these. -/
noncomputable def gridStations (h : Sv.Header) (st : List Station) : List Station :=
  st.map fun s => { s with azi := (Sv.processAziRef h false s.azi).gridRad }

/-! ### Flags, radii and covariances -/

/-- `interpolated`, `survey.py` 2775-2778. -/
noncomputable def flags (mds : List ℝ) (md : ℝ) : Bool := open Classical in decide (md ∉ mds)

/-- `i + 1` at each row, `survey.py` 2780-2788, from the number of stations met before. -/
def counts : ℕ → List Bool → List ℕ
  | _, [] => []
  | k, b :: rest =>
    let k' := if b then k else k + 1
    k' :: counts k' rest

/-- `survey.radius[i]` with `i = k - 1`, `survey.py` 2802; the index `-1` is the last entry.  `none`:
IndexError. -/
def radiusAt {ρ : Type} (radius : List ρ) (k : ℕ) : Option ρ :=
  match k with
  | 0 => radius.getLast?
  | i + 1 => radius[i]?

/-- The covariance of a row with `i = k - 1`, `survey.py` 2789-2809.  `none`: the local variable
`unit_cov_nev` is unbound, an index is out of range, or a division by a zero interval. -/
noncomputable def covAt (mds : List ℝ) (cov : List M3) (k : ℕ) (md : ℝ) : Option M3 :=
  match k with
  | 0 => none
  | i + 1 =>
    if i < mds.length - 1 then
      match mds[i]?, mds[i + 1]?, cov[i]?, cov[i + 1]? with
      | some m1, some m2, some c1, some c2 =>
        if m2 - m1 = 0 then none
        else some (c1 + (md - m1) • ((1 / (m2 - m1)) • (c2 - c1)))
      | _, _, _, _ => none
    else cov[i]?

/-- `radius` of the interpolated survey: `orig` are the depths of the survey, `mds` those of the
interpolated one, `survey.py` 2703-2816. -/
noncomputable def radii {ρ : Type} (orig : List ℝ) (radius : List ρ) (mds : List ℝ) :
    List (Option ρ) :=
  (counts 0 (mds.map (flags orig))).map (radiusAt radius)

/-- `cov_nev` of the interpolated survey, with an error model, `survey.py` 2703-2816. -/
noncomputable def covs (orig : List ℝ) (cov : List M3) (mds : List ℝ) : List (Option M3) :=
  List.zipWith (covAt orig cov) (counts 0 (mds.map (flags orig))) mds

end Welleng.Rs
