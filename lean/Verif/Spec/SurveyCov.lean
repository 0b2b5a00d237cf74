import Verif.Model.SurveyCov

/-!
What is meant by the covariances of a survey (C233-C239), independently of how they are stored.
-/

namespace Welleng.Spec

open Cov

/-- A station's high side, right side and direction in north, east and down, for an inclination and
an azimuth: the rows of the matrix. -/
noncomputable def boreholeAxes (inc azi : ℝ) : M3 :=
  !![Real.cos inc * Real.cos azi, Real.cos inc * Real.sin azi, -Real.sin inc;
     -Real.sin azi, Real.cos azi, 0;
     Real.sin inc * Real.cos azi, Real.sin inc * Real.sin azi, Real.cos inc]

/-- The covariance along two of these axes. -/
noncomputable def seenAlong (inc azi : ℝ) (c : M3) : M3 :=
  fun i j => ∑ p, ∑ q, boreholeAxes inc azi i p * c p q * boreholeAxes inc azi j q

/-- The two lists have a covariance for each station, and the second is the first, seen along the
axes of the borehole at the station. -/
def Agree (angles : List Angles) (nev hla : List M3) : Prop :=
  nev.length = angles.length ∧ hla.length = angles.length ∧
  ∀ (k : ℕ) (a : Angles) (c d : M3), angles[k]? = some a → nev[k]? = some c → hla[k]? = some d →
    d = seenAlong a.inc a.grid c

/-- The matrices of an object. -/
def matrices : Obj → Option (List M3)
  | .array l => some l
  | .pylist l => some l
  | .ragged _ => none

/-- The matrices of an attribute of a survey, `none` for Python's `None`. -/
def valueOf (h : Heap) (r : Option ℕ) : Option (List M3) := r.bind fun r => matrices (h.get r)

/-- What a user sees of the covariances of a survey. -/
structure Seen where
  nev : Option (List M3)
  hla : Option (List M3)
  random : Option (List M3)
  systematic : Option (List M3)
  global : Option (List M3)
  withinPad : Option (List M3)

/-- What a user sees of the covariances of a survey. -/
def covs (h : Heap) (s : Survey) : Seen :=
  ⟨valueOf h s.nev, valueOf h s.hla, valueOf h s.random, valueOf h s.systematic,
    valueOf h s.global, valueOf h s.withinPad⟩

/-- The objects that existed before are as they were. -/
def Untouched (h h' : Heap) : Prop := ∀ r < h.next, h'.get r = h.get r

/-- A series of calls of `get_error`; some of them may raise an exception. -/
inductive Calls (models : List String) (em : String → Except Err.Exc Err.Totals) :
    Heap → Survey → List String → Heap → Survey → Prop
  | nil {h s} : Calls models em h s [] h s
  | cons {h s m h' s' e l h'' s''} : getError models em h s m = (h', s', e) →
      Calls models em h' s' l h'' s'' → Calls models em h s (m :: l) h'' s''

end Welleng.Spec
