import Verif.Model.Clearance
import Verif.Model.InterpTvd
import Verif.Model.Header

/-!
Model of the searches of `IscwsaClearance`, `/repo/welleng/clearance.py`: the hole radii
(107-119, 828), the closest point of the offset well to a station of the reference
(349-353, 612-651, 723-751) and the refinement of the reference with the minima found between
stations (479-557).

`scipy.optimize.minimize` is a parameter: for an objective and an upper bound `b` it gives the
abscissa returned for the bounds `(0, b)`.  The starting point, which Powell's method clips to
the bounds, is not passed.
-/

namespace Welleng.Clr

open Welleng Err Real

/-! ### Hole radii -/

/-- One half of `Clearance._get_radii`, `clearance.py` 107-119: `radius` is the survey's
attribute, `n` its number of stations and `r` the argument `Rr` or `Ro`. -/
def getRadii (radius : Option (List ℝ)) (n : ℕ) (r : ℝ) : List ℝ :=
  match radius with
  | some rs => rs
  | none => List.replicate n r

/-- The radii used for a survey of `n` stations made with the given `radius` argument:
`Survey.__init__` (`survey.py` 838-845) sets the attribute that `_get_radii` reads. -/
noncomputable def radiiUsed (n : ℕ) (given : Hdr.Radius) (r : ℝ) : Except Hdr.Exc (List ℝ) :=
  match Hdr.getRadius n given with
  | .error e => .error e
  | .ok rs => .ok (getRadii (some rs) n r)

/-- One entry of `calc_hole`, `clearance.py` 828; `none` is an IndexError. -/
def calcHole (Rr Ro : List ℝ) (row idx : ℕ) : Option ℝ :=
  match Rr[row]?, Ro[idx]? with
  | some a, some b => some (a + b)
  | _, _ => none

/-! ### The closest point -/

/-- An optimiser: the abscissa it returns for an objective on `[0, b]`. -/
abbrev Minimiser := (ℝ → ℝ) → ℝ → ℝ

open Classical in
/-- `np.argmin`: the first index of a smallest entry, `clearance.py` 349. -/
noncomputable def argmin (l : List ℝ) : ℕ := l.findIdx fun x => decide (∀ y ∈ l, x ≤ y)

/-- A row of `self.idx`, `clearance.py` 349-353. -/
noncomputable def nearest (off : SurveyG) (p : V3) : ℕ :=
  argmin (off.nev.map fun q => V3.norm (q - p))

/-- `IscwsaClearance._fun` on interval `j` of the offset well, `clearance.py` 746-751. -/
noncomputable def objective (p : V3) (p1 : V3) (s1 s2 : Station) (x : ℝ) : ℝ :=
  V3.norm (interpPosNev p1 s1 s2 x - p)

/-- What is kept of one search: `interval` and `x`, the value `fun` of the objective, the
position of the middle row of `_interpolate_survey` and the interpolated covariance,
`clearance.py` 612-667, 748-754. -/
structure Closest where
  interval : ℕ
  x : ℝ
  dist : ℝ
  pos : V3
  cov : Option M3

/-- One search with the point it gives, `clearance.py` 621-632 and 635-646 with 649-660; the
covariance by `_interpolate_covs`, 723-744.  `xyz` is the row of the station above in `x, y, z`.
`none` when the interval does not exist. -/
noncomputable def searchInterval (opt : Minimiser) (off : SurveyG) (xyz : ℕ → V3) (p : V3)
    (j : ℕ) : Option Closest :=
  match off.st[j]?, off.st[j + 1]?, off.nev[j]? with
  | some s1, some s2, some p1 =>
    let b := s2.md - s1.md
    let x := opt (objective p p1 s1 s2) b
    match interpolateSurvey off (xyz j) x j with
    | none => none
    | some node => some {
        interval := j
        x := x
        dist := objective p p1 s1 s2 x
        pos := node.pos
        cov := match off.cov with
          | none => none
          | some cs => match cs[j]?, cs[j + 1]? with
            | some c1, some c2 => some (lerpCov (x / (b - 0)) c1 c2)
            | _, _ => none }
  | _, _, _ => none

/-- One pass of `IscwsaClearance._get_closest_points`, `clearance.py` 619-660.  `none` is the
AttributeError of `res_1.x` when the offset well has a single station. -/
noncomputable def closestPoint (opt : Minimiser) (off : SurveyG) (xyz : ℕ → V3) (p : V3) :
    Option Closest :=
  let i := nearest off p
  let r1 := if 0 < i then searchInterval opt off xyz p (i - 1) else none
  let r2 := if i < off.nev.length - 1 then searchInterval opt off xyz p i else none
  match r1, r2 with
  | some a, some b => if a.dist < b.dist then some a else some b
  | r1, none => r1
  | none, some b => some b

/-! ### Minima between stations -/

/-- The test that drops a minimum, `clearance.py` 515-519: `result.x` is compared with 0 and
with the two entries of `delta_md`. -/
def keepMinimum (x d0 d1 : ℝ) : Prop := ¬ (x = 0 ∨ x = d0 ∨ x = d1)

/-- A row of the reference survey while it is refined. -/
@[ext] structure RRow where
  st : Station
  cov : M3
  interpolated : Bool
  radius : ℝ

/-- The exceptions of the refinement, `clearance.py` 479-585. -/
inductive RExc
  | attributeError | indexError | valueError | assertionError
  deriving DecidableEq

/-- `np.insert` of one entry, `clearance.py` 528-560. -/
def insertAt {α : Type*} (i : ℕ) (a : α) (l : List α) : List α := l.take i ++ a :: l.drop i

/-- The covariance of the node that `Survey.interpolate_md` returns: `get_node` (`survey.py`
1781-1806) passes none, and `Node.__init__` (`node.py` 84) then sets zeros. -/
def nodeCov : M3 := 0

/-- One pass of the loop of `IscwsaClearance.get_sf_mins`, `clearance.py` 527-565: the node at
`md` is interpolated on the current reference and inserted.  `hdrUnit` is the unit of the
reference's header: the new `Survey` is built with the default `unit='meters'`, which
`Survey.__init__` (`survey.py` 698-700) compares with it.  `start_xyz` and `start_nev` are those
of the reference. -/
noncomputable def refineStep (hdrUnit : Option String) (u : LenUnit) (sx sn : V3)
    (rows : List RRow) (md : ℝ) : Except RExc (List RRow) :=
  match surveyG (rows.map RRow.st) sx sn u with
  | .error _ => .error .valueError
  | .ok (sv, xyz) =>
    let i := Tvd.searchsortedRight (rows.map fun r => r.st.md) md
    match interpolateMd sv (fun j => xyz.getD j 0) md with
    | none => .error .attributeError
    | some node =>
      let a := getAngles node.vec true
      match rows[i]? with
      | none => .error .indexError
      | some below =>
        if hdrUnit = some "meters" then
          .ok (insertAt i ⟨⟨node.md, a.1, a.2⟩, nodeCov, true, below.radius⟩ rows)
        else .error .assertionError

/-- The loop over all minima, `clearance.py` 526-567. -/
noncomputable def refine (hdrUnit : Option String) (u : LenUnit) (sx sn : V3) :
    List RRow → List ℝ → Except RExc (List RRow)
  | rows, [] => .ok rows
  | rows, md :: mds =>
    match refineStep hdrUnit u sx sn rows md with
    | .error e => .error e
    | .ok rows' => refine hdrUnit u sx sn rows' mds

/-! ### The shared header -/

/-- What a program does with surveys that share a header: make a survey from azimuths in
radians, or interpolate one of them (`_interpolate_survey`, `survey.py` 1892-1893; also done by
the closest-point search and, for the reference, by `clearance.py` 534-535). -/
inductive HOp
  | make (azi : ℝ)
  | interpolate

/-- One operation: the header afterwards (the attribute of the shared object is assigned) and
the azimuths of the survey made, `clearance.py` 528-560, `survey.py` 771-812. -/
noncomputable def hStep (h : Sv.Header) : HOp → Sv.Header × Option Sv.Azis
  | .make azi => (h, some (Sv.processAziRef h false azi))
  | .interpolate => ({ h with aziRef := .grid }, none)

/-- A history of operations, `clearance.py` 528-560. -/
noncomputable def hRun (h : Sv.Header) : List HOp → Sv.Header
  | [] => h
  | o :: t => hRun (hStep h o).1 t

end Welleng.Clr
