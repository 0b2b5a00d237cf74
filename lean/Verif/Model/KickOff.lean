import Verif.Model.Clearance

/-!
Model of the choice of the reference well by its kick-off depth, `/repo/welleng/clearance.py` 79-100 and
170-214.
-/

namespace Welleng.Clr

/-- The exception of a read behind the end of an array, `clearance.py` 204-213. -/
inductive KopErr
  | indexError
  deriving DecidableEq

/-- The index of the first station, `clearance.py` 79-100; `none` is the default `-inf`, which is less than
every depth. -/
noncomputable def kopStart (mds : List ℝ) : Option ℝ → ℕ
  | none => 0
  | some kop => kopIndex mds kop

/-- The stations of `self.ref`, `clearance.py` 170-214: the reference itself for index 0, otherwise the tails
of its arrays.  The start position is read at the index, which raises when there is no such station.  What
`Survey` does with a tail of one station is not modelled. -/
noncomputable def refStations (mds : List ℝ) (kop : Option ℝ) : Except KopErr (List ℝ) :=
  if kopStart mds kop = 0 then .ok mds
  else match mds[kopStart mds kop]? with
    | none => .error .indexError
    | some _ => .ok (mds.drop (kopStart mds kop))

end Welleng.Clr
