import Verif.Model.Connector
import Mathlib.Data.Prod.Lex
import Mathlib.Data.List.Sort

/-!
Model of `welleng/torque_drag.py`: soft-string torque and drag.

Floats are real numbers.  A string or wellbore is its `complete` flag, its bottom depth and its
`sections` dictionary, an association list from integer keys to sections in insertion order (see
`architecture.py` 30, 94-117).  `interpolate_md` is an argument of the model.
-/

namespace Welleng.Td

open Real

/-- The exceptions that occur, `torque_drag.py` 48-296. -/
inductive Exc
  | assertion | typeError | keyError | indexError
  deriving DecidableEq

/-! ### Elementary formulas -/

/-- `force_normal`, `torque_drag.py` 309-344, one load case. -/
noncomputable def forceNormal (tension incAvg incDelta aziDelta weight : ℝ) : ℝ :=
  √((tension * aziDelta * sin incAvg) ^ 2 + (tension * incDelta + weight * sin incAvg) ^ 2)

/-- The three load cases, in the order of the arrays of the code, `torque_drag.py` 225-296. -/
structure Loads where
  pickup : ℝ
  slackoff : ℝ
  rotating : ℝ

/-- `force_tension_delta`, `torque_drag.py` 347-376. -/
noncomputable def forceTensionDelta (weight incAvg mu : ℝ) (fn : Loads) : Loads :=
  let a := weight * cos incAvg
  ⟨a + mu * fn.pickup * 1, a + mu * fn.slackoff * (-1), a + mu * fn.rotating * 0⟩

/-- `torsion_delta`, `torque_drag.py` 379-402. -/
def torsionDelta (mu fn radius : ℝ) : ℝ := mu * fn * radius

/-- `buoyancy_factor`, `torque_drag.py` 405-422.  A zero string density divides by zero. -/
noncomputable def buoyancyFactor (fluid string : ℝ) : ℝ := (string - fluid) / string

/-! ### The arrays -/

/-- `get_inc_average`, `torque_drag.py` 156-162: zero, then the averages. -/
noncomputable def incAverage (inc : List ℝ) : List ℝ :=
  match inc with
  | [] => []
  | _ :: t => 0 :: List.zipWith (fun b a => (b + a) / 2) t inc

/-- `get_inc_delta` and `get_azi_delta`, `torque_drag.py` 164-174: zero, then the differences.
The azimuth difference is not reduced to a half turn. -/
noncomputable def deltas (a : List ℝ) : List ℝ :=
  match a with
  | [] => []
  | _ :: t => 0 :: List.zipWith (fun b a => b - a) t a

/-- A section of a string or wellbore; `tooljointOd` may be absent, `torque_drag.py` 176-210. -/
structure TSec where
  bottom : ℝ
  unitWeight : ℝ
  density : ℝ
  od : ℝ
  tooljointOd : Option ℝ
  mu : ℝ

/-- A string or wellbore, `torque_drag.py` 48-101. -/
structure Tubular where
  complete : Bool
  bottom : ℝ
  sections : List (ℕ × TSec)

/-- A Python value met while iterating over `sections`, `torque_drag.py` 103-144. -/
inductive PyVal
  | int (n : ℕ)
  | sec (s : TSec)

/-- Iterating over a dictionary gives its keys, `torque_drag.py` 103-144. -/
def iterDict (d : List (ℕ × TSec)) : List PyVal := d.map fun kv => .int kv.1

/-- `s['bottom']`: an integer cannot be indexed, `torque_drag.py` 103-144. -/
def getBottom : PyVal → Except Exc ℝ
  | .int _ => .error .typeError
  | .sec s => .ok s.bottom

/-- Reading `sections[i]`, `torque_drag.py` 196-223. -/
def getSec (d : List (ℕ × TSec)) (i : ℕ) : Except Exc TSec :=
  match d.lookup i with
  | some s => .ok s
  | none => .error .keyError

open Classical in
/-- `get_characteristic_od`, `torque_drag.py` 176-194; a zero tool joint diameter counts as
absent. -/
noncomputable def characteristicOd (s : TSec) : ℝ :=
  match s.tooljointOd with
  | some d => if d ≠ 0 then d else s.od
  | none => s.od

/-- A survey station, `torque_drag.py` 103-144. -/
structure TStn where
  md : ℝ
  inc : ℝ
  azi : ℝ

/-- Stations as tuples, compared as Python compares tuples, `torque_drag.py` 103-144. -/
abbrev Tup := ℝ ×ₗ ℝ ×ₗ ℝ

/-- The tuple of a station, `torque_drag.py` 103-144. -/
def TStn.tup (s : TStn) : Tup := toLex (s.md, toLex (s.inc, s.azi))

/-- The station of a tuple, `torque_drag.py` 103-144. -/
def ofTup (t : Tup) : TStn := ⟨(ofLex t).1, (ofLex (ofLex t).2).1, (ofLex (ofLex t).2).2⟩

open Classical in
/-- One of the two loops of `add_survey_points_from_strings`, `torque_drag.py` 111-125: the
bottoms that are no station of the original survey. -/
noncomputable def missing (interp : ℝ → Except Exc TStn) (survey : List TStn) :
    List (ℕ × TSec) → Except Exc (List TStn)
  | [] => .ok []
  | (_, v) :: t =>
    if v.bottom ∈ survey.map (·.md) then missing interp survey t
    else do
      let s ← interp v.bottom
      let r ← missing interp survey t
      .ok (s :: r)

/-- `add_survey_points_from_strings`, `torque_drag.py` 103-144. -/
noncomputable def addSurveyPoints (interp : ℝ → Except Exc TStn) (survey : List TStn)
    (wellbore string : List (ℕ × TSec)) : Except Exc (List TStn) := do
  let q1 ← missing interp survey wellbore
  let q2 ← missing interp survey string
  .ok (((survey ++ (q1 ++ q2)).map TStn.tup).insertionSort (· ≤ ·) |>.map ofTup)

open Classical in
/-- `np.where(self.survey.md == self.string.bottom)[0][0] + 1`, `torque_drag.py` 89. -/
noncomputable def index (survey : List TStn) (bottom : ℝ) : Except Exc ℕ :=
  if bottom ∈ survey.map (·.md) then .ok ((survey.map (·.md)).idxOf bottom + 1)
  else .error .indexError

/-- `get_weight_buoyed_and_radius`, `torque_drag.py` 196-210, up to the first point at which it
fails: the list of bottoms is built from the dictionary itself; when the dictionary is empty
the read of section 0 for the characteristic diameter fails.  What follows is not reached. -/
def weightBuoyedAndRadius (sections : List (ℕ × TSec)) : Except Exc (List ℝ) := do
  let bottoms ← (iterDict sections).mapM getBottom
  let _ ← getSec sections 0
  .ok bottoms

/-- `TorqueDrag.__init__`, `torque_drag.py` 80-95, up to `get_weight_buoyed_and_radius`. -/
noncomputable def construct (interp : ℝ → Except Exc TStn) (survey : List TStn)
    (wellbore string : Tubular) : Except Exc (List TStn × ℕ × List ℝ) := do
  if wellbore.complete then .ok () else .error .assertion
  if string.complete then .ok () else .error .assertion
  let s ← addSurveyPoints interp survey wellbore.sections string.sections
  let i ← index s string.bottom
  let w ← weightBuoyedAndRadius string.sections
  .ok (s, i, w)

/-! ### Forces and torsion -/

/-- One element: a row of the `zip` of `get_forces_and_torsion`, `torque_drag.py` 225-296. -/
structure Elem where
  incAvg : ℝ
  incDelta : ℝ
  aziDelta : ℝ
  weight : ℝ
  mu : ℝ
  radius : ℝ

/-- The normal force of an element for the three load cases, `torque_drag.py` 265-268. -/
noncomputable def normalOf (e : Elem) (ft : Loads) : Loads :=
  ⟨forceNormal ft.pickup e.incAvg e.incDelta e.aziDelta e.weight,
   forceNormal ft.slackoff e.incAvg e.incDelta e.aziDelta e.weight,
   forceNormal ft.rotating e.incAvg e.incDelta e.aziDelta e.weight⟩

/-- One turn of the loop, `torque_drag.py` 265-274. -/
noncomputable def step (s : Loads × ℝ) (e : Elem) : Loads × ℝ :=
  let fn := normalOf e s.1
  let d := forceTensionDelta e.weight e.incAvg e.mu fn
  (⟨s.1.pickup + d.pickup, s.1.slackoff + d.slackoff, s.1.rotating + d.rotating⟩,
   s.2 + torsionDelta e.mu fn.rotating e.radius)

/-- The attributes read by `get_forces_and_torsion`, `torque_drag.py` 225-296. -/
structure Arrays where
  incAvg : List ℝ
  incDelta : List ℝ
  aziDelta : List ℝ
  weight : List ℝ
  mu : List ℝ
  radius : List ℝ
  index : ℕ

/-- The `zip` of `torque_drag.py` 252-259, from the bit to surface: every array but `radius` is
reversed, and `zip` stops at the shortest. -/
def rows (a : Arrays) : List Elem :=
  (((((a.incAvg.take a.index).reverse.zip (a.incDelta.take a.index).reverse).zip
      ((a.aziDelta.take a.index).reverse)).zip a.weight.reverse).zip
      ((a.mu.take a.index).reverse)).zip a.radius |>.map
    fun r => ⟨r.1.1.1.1.1, r.1.1.1.1.2, r.1.1.1.2, r.1.1.2, r.1.2, r.2⟩

/-- The profiles stored on the object (`self.tension`, `self.torque`), surface first,
`torque_drag.py` 225-296. -/
structure Profiles where
  pickup : Option (List ℝ) := none
  slackoff : Option (List ℝ) := none
  rotating : Option (List ℝ) := none
  drilling : Option (List ℝ) := none
  sliding : Option (List ℝ) := none
  overpull : Option (List ℝ) := none
  torqueRotating : Option (List ℝ) := none
  torqueDrilling : Option (List ℝ) := none

/-- The states of the loop, from the bit upwards, starting with the given one,
`torque_drag.py` 225-296. -/
noncomputable def states (s : Loads × ℝ) : List Elem → List (Loads × ℝ)
  | [] => [s]
  | e :: t => s :: states (step s e) t

/-- The states at the stations, surface first: reversed, without the last one computed,
`torque_drag.py` 277-278. -/
noncomputable def profile (s : Loads × ℝ) (es : List Elem) : List (Loads × ℝ) :=
  (states s es).reverse.drop 1

/-- Python truth of an optional number, `torque_drag.py` 225-296. -/
def truthy (o : Option ℝ) : Prop := ∃ x, o = some x ∧ x ≠ 0

/-- The profiles stored at the end of `get_forces_and_torsion`, `torque_drag.py` 279-294. -/
def store (wobT tobT overT : Prop) [Decidable wobT] [Decidable tobT] [Decidable overT]
    (r : List (Loads × ℝ)) (p : Profiles) : Profiles :=
  let p := if wobT then
      { p with
        drilling := some (List.map (fun x : Loads × ℝ => x.1.rotating) r)
        sliding := some (List.map (fun x : Loads × ℝ => x.1.slackoff) r) }
    else
      { p with
        slackoff := some (List.map (fun x : Loads × ℝ => x.1.slackoff) r)
        rotating := some (List.map (fun x : Loads × ℝ => x.1.rotating) r) }
  let p := if tobT then { p with torqueDrilling := some (List.map (fun x : Loads × ℝ => x.2) r) }
    else { p with torqueRotating := some (List.map (fun x : Loads × ℝ => x.2) r) }
  if overT then { p with overpull := some (List.map (fun x : Loads × ℝ => x.1.pickup) r) }
  else { p with pickup := some (List.map (fun x : Loads × ℝ => x.1.pickup) r) }

open Classical in
/-- The value used for an optional number: zero when it is falsy, `torque_drag.py` 225-296. -/
noncomputable def valueOf (o : Option ℝ) : ℝ := if truthy o then o.getD 0 else 0

open Classical in
/-- `get_forces_and_torsion`, `torque_drag.py` 225-296: updates the stored profiles; weight on
bit and torque on bit must be given together. -/
noncomputable def getForces (a : Arrays) (wob tob overpull : Option ℝ) (p : Profiles) :
    Except Exc Profiles :=
  if (truthy wob ∨ truthy tob) ∧ ¬ (truthy tob ∧ truthy wob) then .error .assertion
  else .ok (store (truthy wob) (truthy tob) (truthy overpull)
    (profile (⟨valueOf overpull, -valueOf wob, -valueOf wob⟩, valueOf tob) (rows a)) p)

/-! ### Hook load ranges -/

/-- `HookLoad.get_ff_range`, `torque_drag.py` 475-484. -/
noncomputable def ffRange (start stop step : ℝ) : List ℝ := Con.arange start stop step ++ [stop]

/-- `self.md_range` of `HookLoad.get_data`, `torque_drag.py` 489-492. -/
noncomputable def mdRange (top bottom step : ℝ) : List ℝ :=
  Con.arange (top + step) bottom step ++ [bottom]

end Welleng.Td
