import Verif.Model.ConnectorSolve

/-!
Model of the search of the curve-hold-curve construction of `/repo/welleng/connector.py`:
`_get_pos2` (698-740), the starting point and the damped iteration of
`minimize_target_pos_and_vec_defined` (1320-1524) and the calls of it made by
`_target_pos_and_vec_defined` (756-854).  What follows the search is in `ConnectorSolve`.

The design radii are finite (`dls_design=None` gives NaN in the starting point).  `np.allclose`
and `np.array_equal` are those of `Connector.lean`, in exact arithmetic.
-/

namespace Welleng.Con

open Real

/-- What the search reads and never changes, `connector.py` 276-399.  `noise k` is what the
`k`-th call of `_get_distances` would draw by `np.random.random(3)`. -/
structure Job where
  vec1 : V3
  vecT : V3
  md1 : ℝ
  r1 : ℝ
  r2 : ℝ
  dlsDesign : ℝ
  dlsDesign2 : ℝ
  minError : ℝ
  minTangent : ℝ
  deltaDls : ℝ
  maxIter : ℕ
  noise : ℕ → V3

/-- What the search leaves behind after a step, `connector.py` 1411-1469: distances and critical
radius, radius used, tangent length, dogleg, length of the curve, direction of the hold, length
of the hold as drawn, and the point between curve and hold. -/
structure Leg where
  dist : Dist
  rc : ℝ
  radius : ℝ
  tangent : ℝ
  dogleg : ℝ
  distCurve : ℝ
  dir : V3
  hold : ℝ
  joint : V3

/-- The attributes changed by the search, `connector.py` 1408-1513.  The lists have the newest
entry first.  `leg1`, `leg2`: `none` before the first step. -/
structure St where
  pos1 : V3
  posT : V3
  pos2 : V3
  pos3 : V3
  rc : Ext
  rc2 : Ext
  leg1 : Option Leg
  leg2 : Option Leg
  dir23 : V3
  errors : List Bool
  pos3List : List V3
  pos2List : List V3
  mdT : ℝ
  dls : Ext
  dls2 : Ext
  iterations : ℕ
  drawn : ℕ

/-- One curve and hold from a pose towards a point, `connector.py` 1411-1437 and 1440-1466, also
in `_get_pos2` 699-740 (`min(radius, radius_critical)` is spelled out there).  Errors: the
assertion of `get_radius_critical`, the NaN of a negative square root. -/
noncomputable def leg (e minTangent r : ℝ) (pos vec q : V3) : Except Fail Leg :=
  let x := getDistances pos vec q
  match getRadiusCritical x e with
  | none => .error .assertion
  | some rc =>
    let re := min r rc
    match minDistToTarget re x with
    | none => .error .nan
    | some (t, dl) =>
      let dl := checkDogleg dl
      let (dc, f) := getCurveHoldData re dl
      let v := getVecTarget pos vec q t dc f
      let h := tangentTemp minTangent t
      .ok ⟨x, rc, re, t, dl, dc, v, h, q - h • v⟩

/-- `radius_critical > 0` for the running minimum, `connector.py` 708. -/
def Ext.pos : Ext → Prop
  | .inf => True
  | .val r => 0 < r

open Classical in
/-- `_get_pos2`, `connector.py` 698-740, for a target that has been moved already: the assertion
on the running minimum is made when the critical radius is above the radius asked for. -/
noncomputable def getPos2 (j : Job) (rc : Ext) (r : ℝ) (pos vec q : V3) : Except Fail V3 :=
  match leg j.minError j.minTangent r pos vec q with
  | .error f => .error f
  | .ok l => if l.rc > r ∧ ¬ Ext.pos rc then .error .assertion else .ok l.joint

/-! ### The starting point -/

/-- A direction across `vec1`, towards the target if it is off the line, `connector.py` 1375-1386. -/
noncomputable def acrossHat (vec1 chord : V3) : V3 :=
  let dPerp := chord - V3.dot chord vec1 • vec1
  if V3.norm dPerp > 1e-10 then normalize dPerp
  else
    let arb : V3 := if |V3.dot vec1 ⟨1, 0, 0⟩| > 0.9 then ⟨0, 1, 0⟩ else ⟨1, 0, 0⟩
    normalize (V3.cross vec1 arb)

/-- The second direction across `vec1`, `connector.py` 1390-1395. -/
noncomputable def acrossCross (vec1 hat : V3) : V3 :=
  let c := V3.cross vec1 hat
  if V3.norm c > 1e-10 then normalize c else hat

/-- A candidate, `connector.py` 1398 and 1400. -/
noncomputable def candidate (pos1 vec1 : V3) (r : ℝ) (perp : V3) : V3 :=
  pos1 + r • vec1 + (2 * r) • perp

/-- The loop over the four candidates, `connector.py` 1396-1415.  `best` is `best_candidate`,
`bestRc` is `best_min_rc` (`none`: minus infinity), `k` counts the draws.  A candidate straight
ahead of the reversed target is moved. -/
noncomputable def pick (j : Job) (pos1 posT : V3) (r1 r2 : ℝ) :
    List V3 → ℕ → V3 → Option ℝ → Except Fail V3
  | [], _, best, _ => .ok best
  | perp :: rest, k, best, bestRc =>
    let back := (-1 : ℝ) • j.vecT
    let c := modTarget (j.noise k) posT back (candidate pos1 j.vec1 r1 perp)
    match getRadiusCritical (getDistances posT back c) j.minError with
    | none => .error .assertion
    | some rc =>
      if r2 ≤ rc then .ok c
      else
        match bestRc with
        | none => pick j pos1 posT r1 r2 rest (k + 1) c (some rc)
        | some b =>
          if rc > b then pick j pos1 posT r1 r2 rest (k + 1) c (some rc)
          else pick j pos1 posT r1 r2 rest (k + 1) best bestRc

/-- The four directions tried, `connector.py` 1371-1397. -/
noncomputable def perps (vec1 chord : V3) : List V3 :=
  let hat := acrossHat vec1 chord
  let crs := acrossCross vec1 hat
  [hat, -hat, crs, -crs]

/-- The starting point if the middle lies inside a turning circle, `connector.py` 1371-1415. -/
noncomputable def fallback (j : Job) (pos1 posT : V3) (r1 r2 : ℝ) (k : ℕ) : Except Fail V3 :=
  let chord := posT - pos1
  pick j pos1 posT r1 r2 (perps j.vec1 chord) k
    (candidate pos1 j.vec1 r1 (acrossHat j.vec1 chord)) none

/-- The first half of the starting point, `connector.py` 1356-1360: the points proposed from
either end; `_get_distances` moves the target, and then the start, if it is straight ahead.
Returns the new start and target and the middle. -/
noncomputable def middle (j : Job) (r1 r2 : ℝ) (s : St) : Except Fail (V3 × V3 × V3) :=
  let back := (-1 : ℝ) • j.vecT
  let posT := modTarget (j.noise s.drawn) s.pos1 j.vec1 s.posT
  match getPos2 j s.rc r1 s.pos1 j.vec1 posT with
  | .error f => .error f
  | .ok a =>
    let pos1 := modTarget (j.noise (s.drawn + 1)) posT back s.pos1
    match getPos2 j s.rc r2 posT back pos1 with
    | .error f => .error f
    | .ok b => .ok (pos1, posT, a + (1 / 2 : ℝ) • (b - a))

/-- The starting point, `connector.py` 1355-1415. -/
noncomputable def start (j : Job) (r1 r2 : ℝ) (s : St) : Except Fail St :=
  match middle j r1 r2 s with
  | .error f => .error f
  | .ok (pos1, posT, mid) =>
    let back := (-1 : ℝ) • j.vecT
    let mid1 := modTarget (j.noise (s.drawn + 2)) pos1 j.vec1 mid
    let mid2 := modTarget (j.noise (s.drawn + 3)) posT back mid1
    match getRadiusCritical (getDistances pos1 j.vec1 mid1) j.minError,
        getRadiusCritical (getDistances posT back mid2) j.minError with
    | some rc1, some rc2 =>
      if r1 ≤ rc1 ∧ r2 ≤ rc2 then
        .ok { s with pos1 := pos1, posT := posT, pos3 := mid2, drawn := s.drawn + 8 }
      else
        match fallback j pos1 posT r1 r2 (s.drawn + 4) with
        | .error f => .error f
        | .ok q => .ok { s with pos1 := pos1, posT := posT, pos3 := q, drawn := s.drawn + 8 }
    | _, _ => .error .assertion

/-! ### The iteration -/

open Classical in
/-- The running minimum, `connector.py` 1419-1421 and 1448-1450 (its assertion cannot fail: a
critical radius is not negative). -/
noncomputable def lower (rc : Ext) (r e new : ℝ) : Ext :=
  match rc with
  | .inf => if new < r * (1 - e * 100) then .val new else .inf
  | .val c => if new < min c (r * (1 - e * 100)) then .val new else .val c

/-- `np.allclose(a, b, rtol, atol)` on two rows, `connector.py` 1483-1488. -/
def closeTo (rtol atol : ℝ) (a b : V3) : Prop :=
  |a.x - b.x| ≤ atol + rtol * |b.x| ∧ |a.y - b.y| ≤ atol + rtol * |b.y| ∧
    |a.z - b.z| ≤ atol + rtol * |b.z|

/-- `np.radians(dls_from_radius(r))`, `connector.py` 1495-1502. -/
noncomputable def dlsOf : Ext → Ext
  | .inf => .val 0
  | .val r => if r = 0 then .inf else .val (radians (dlsFromRadius r))

/-- `max` on severities, `connector.py` 1495-1502. -/
noncomputable def Ext.max : Ext → Ext → Ext
  | .inf, _ => .inf
  | _, .inf => .inf
  | .val a, .val b => .val (Max.max a b)

open Classical in
/-- One step of the iteration, `connector.py` 1408-1505; the `Bool` is `c.error`. -/
noncomputable def stepOnce (j : Job) (r1 r2 : ℝ) (s : St) (old : V3) : Except Fail (St × Bool) :=
  let e := j.minError
  let back := (-1 : ℝ) • j.vecT
  let q3 := modTarget (j.noise s.drawn) s.pos1 j.vec1 s.pos3
  match leg e j.minTangent r1 s.pos1 j.vec1 q3 with
  | .error f => .error f
  | .ok l1 =>
    let pos2 := modTarget (j.noise (s.drawn + 1)) s.posT back l1.joint
    match leg e j.minTangent r2 s.posT back pos2 with
    | .error f => .error f
    | .ok l2 =>
      let pos3 := (1 / 2 : ℝ) • l2.joint + (1 / 2 : ℝ) • s.pos3
      let den := V3.norm (pos3 - pos2)
      let dir := if den = 0 then 0 else (1 / den) • (pos3 - pos2)
      let err := decide (closeTo (e * 10) (e * 0.1) dir old)
      let rc := lower s.rc r1 e l1.rc
      let rc2 := lower s.rc2 r2 e l2.rc
      .ok ({ s with
        pos2 := pos2, pos3 := pos3, rc := rc, rc2 := rc2, leg1 := some l1, leg2 := some l2,
        dir23 := dir, errors := err :: s.errors, pos3List := pos3 :: s.pos3List,
        pos2List := pos2 :: s.pos2List, mdT := j.md1 + l1.distCurve + l2.hold + l2.distCurve,
        dls := Ext.max (dlsOf (.val j.r1)) (dlsOf rc), dls2 := Ext.max (dlsOf (.val j.r2)) (dlsOf rc2),
        drawn := s.drawn + 2 }, err)

/-- The loop, `connector.py` 1407-1512, with the number of turns left. -/
noncomputable def iterate (j : Job) (r1 r2 : ℝ) : ℕ → St → V3 → Except Fail St
  | 0, s, _ => .ok s
  | n + 1, s, old =>
    match stepOnce j r1 r2 s old with
    | .error f => .error f
    | .ok (s', true) => .ok s'
    | .ok (s', false) => iterate j r1 r2 n { s' with iterations := s'.iterations + 1 } s'.dir23

/-- `minimize_target_pos_and_vec_defined`, `connector.py` 1320-1516, without a given point. -/
noncomputable def solveFresh (j : Job) (r1 r2 : ℝ) (s : St) : Except Fail St :=
  match start j r1 r2 s with
  | .error f => .error f
  | .ok s => iterate j r1 r2 j.maxIter s 0

/-- `minimize_target_pos_and_vec_defined`, `connector.py` 1320-1516, from a given point and
direction. -/
noncomputable def solveFrom (j : Job) (r1 r2 : ℝ) (s : St) (pos3 old : V3) : Except Fail St :=
  iterate j r1 r2 j.maxIter { s with pos3 := pos3 } old

/-! ### The calls -/

/-- `a > b` for a running minimum and a radius, `connector.py` 773-776. -/
def Ext.above : Ext → ℝ → Prop
  | .inf, _ => True
  | .val a, b => a > b

open Classical in
/-- `_outer_needed`, `connector.py` 763-776 and 798-812.  The assertion cannot fail for the
distances of a step made. -/
noncomputable def outerNeeded (j : Job) (s : St) : Bool :=
  match s.leg1, s.leg2 with
  | some l1, some l2 => decide (¬ (j.r1 ≤ l1.rc ∧ j.r2 ≤ l2.rc))
  | _, _ => decide (¬ (Ext.above s.rc j.r1 ∧ Ext.above s.rc2 j.r2))

/-- The radius common to both curves, `connector.py` 820-823; `none` is NaN. -/
noncomputable def balanced (j : Job) (s : St) (l1 l2 : Leg) : Option Ext :=
  let t := |l1.dogleg| + |l2.dogleg|
  if t = 0 then (if 0 < s.mdT - j.md1 then some .inf else none)
  else some (.val ((s.mdT - j.md1) / t))

/-- `abs(self.dls - self.dls2) < self.delta_dls`, `connector.py` 844. -/
def dlsClose (a b : Ext) (d : ℝ) : Prop :=
  match a, b with
  | .val x, .val y => |x - y| < d
  | _, _ => False

/-- The last five points are all close to `q`, `connector.py` 833-841. -/
def stable (q : V3) (l : List V3) (n : ℕ) : Prop := 5 ≤ n ∧ ∀ p ∈ l.take 5, allClose q p

/-- The stopping rule of the balancing loop, `connector.py` 833-853. -/
def balancedEnough (j : Job) (s : St) : Prop :=
  dlsClose s.dls s.dls2 j.deltaDls ∨ allClose s.pos1 s.pos2 ∨ allClose s.pos3 s.posT ∨
    (stable s.pos3 s.pos3List s.pos3List.length ∧ stable s.pos2 s.pos2List s.pos3List.length) ∨
    (s.dls = .val j.dlsDesign ∧ s.dls2 = .val j.dlsDesign2)

/-- `not (radius_critical >= 0)` for a number, `connector.py` 824. -/
def Ext.negative : Ext → Prop
  | .inf => False
  | .val c => c < 0

open Classical in
/-- The balancing loop, `connector.py` 815-853, with the number of turns left.  A NaN radius ends
the loop and is carried on: an error here.  A negative radius ends the loop. -/
noncomputable def balance (j : Job) : ℕ → St → Except Fail St
  | 0, s => .ok s
  | n + 1, s =>
    match s.leg1, s.leg2 with
    | some l1, some l2 =>
      match balanced j s l1 l2 with
      | none => .error .nan
      | some r =>
        if Ext.negative r then .ok { s with rc := r }
        else
          match solveFrom j j.r1 j.r2 { s with rc := r, rc2 := r } s.pos3 s.dir23 with
          | .error f => .error f
          | .ok s' => if balancedEnough j s' then .ok s' else balance j n s'
    | _, _ => .error .assertion

/-- The second attempt by way of a radius of a quarter of the distance, `connector.py` 777-812. -/
noncomputable def reseed (j : Job) (s : St) : Except Fail St :=
  let rSafe := V3.norm (s.posT - s.pos1) / 4
  if 0 < rSafe ∧ rSafe < min j.r1 j.r2 then
    match solveFresh j rSafe rSafe s with
    | .error f => .error f
    | .ok s1 => solveFrom j j.r1 j.r2 { s1 with rc := .inf, rc2 := .inf } s1.pos3 s1.dir23
  else .ok s

/-- The state at the call, `connector.py` 263-276, 399-401, 485-491. -/
def begin (pos1 posT : V3) : St :=
  ⟨pos1, posT, 0, posT, .inf, .inf, none, none, 0, [], [posT], [], 0, .val 0, .val 0, 0, 0⟩

/-- `_target_pos_and_vec_defined` up to `_happy_finish`, `connector.py` 756-854. -/
noncomputable def search (j : Job) (pos1 posT : V3) : Except Fail St :=
  match solveFresh j j.r1 j.r2 (begin pos1 posT) with
  | .error f => .error f
  | .ok s =>
    if outerNeeded j s then
      match reseed j s with
      | .error f => .error f
      | .ok s => if outerNeeded j s then balance j j.maxIter s else .ok s
    else .ok s

/-- What `_happy_finish` reads after the search, `connector.py` 868-1004; `none`: no step was
made, so the attributes are missing. -/
def St.solved (s : St) : Option Solved :=
  s.leg1.bind fun l1 => s.leg2.map fun l2 =>
    ⟨s.pos3, l1.dogleg, l1.tangent, some l1.dist, some l2.dist, s.rc, s.rc2⟩

/-- The plan the rest of the construction works with: start and target as the search has left
them, `connector.py` 855-866, 415-427. -/
def St.plan (j : Job) (s : St) : Plan :=
  ⟨s.pos1, j.vec1, j.md1, s.posT, j.vecT, .val j.r1, .val j.r2, j.minError⟩

end Welleng.Con
