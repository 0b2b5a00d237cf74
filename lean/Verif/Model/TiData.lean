import Verif.Model.Sections

/-!
Model of the cuts between the sections of the tortuosity indices,
`/repo/welleng/survey.py` 1670-1717, and of the functions and methods that use them, 1394-1431 and
1521-1636.

A survey has stations `0 … n` with `n ≥ 1` (shorter ones raise).
-/

namespace Welleng.Ti

open Real Sec

/-- `dls_continuity` at a station, `survey.py` 1682-1691: `np.isclose` with `dls_tol` for the relative
and `rtol` for the absolute tolerance. -/
def dlsClose (rtol : ℝ) (dlsTol : Option ℝ) (a b : ℝ) : Prop :=
  match dlsTol with
  | none => True
  | some t => isClose t rtol a b

/-- `continuous`, `survey.py` 1682-1702: one entry for each station `1 … n-1`. -/
noncomputable def tiContinuous (rtol : ℝ) (dlsTol : Option ℝ) (sv : ℕ → Row) (n : ℕ) : List Bool :=
  open Classical in
  (List.range' 1 (n - 1)).map fun k =>
    decide (normalsClose rtol rtol (normal (sv (k - 1)).st (sv k).st)
      (normal (sv k).st (sv (k + 1)).st) ∧ dlsClose rtol dlsTol (sv k).dls (sv (k + 1)).dls)

/-- `starts`, as reported with `data=True`, `survey.py` 1704-1707. -/
noncomputable def tiStarts (rtol : ℝ) (dlsTol : Option ℝ) (sv : ℕ → Row) (n : ℕ) : List ℕ :=
  starts (tiContinuous rtol dlsTol sv n)

/-- The function `tortuosity_index`, `survey.py` 1582-1636. -/
noncomputable def tiOf (coeff kappa rtol : ℝ) (dlsTol : Option ℝ) (sv : ℕ → Row) (n : ℕ) :
    Option (List ℝ) :=
  tortuosityIndex coeff kappa (fun k => (sv k).st.md) (fun k => (sv k).pos) n
    (tiContinuous rtol dlsTol sv n)

/-- The function `modified_tortuosity_index`, `survey.py` 1521-1579. -/
noncomputable def mtiOf (coeff kappa rtol : ℝ) (dlsTol : Option ℝ) (sv : ℕ → Row) (n : ℕ) :
    Option (List ℝ) :=
  modifiedTortuosityIndex coeff kappa (fun k => (sv k).st.md) (fun k => (sv k).pos) n
    (tiContinuous rtol dlsTol sv n)

/-- The sections reported by the method `Survey.tortuosity_index(data=True)`, `survey.py` 1394-1431:
its argument `dls_tol` is not passed on. -/
noncomputable def methodStarts (rtol : ℝ) (_dlsTol : Option ℝ) (sv : ℕ → Row) (n : ℕ) : List ℕ :=
  tiStarts rtol none sv n

/-- `kwargs.get(name, default)`, `survey.py` 1531-1532 and 1591-1592; `kw` holds the keyword arguments. -/
def kwGet (kw : List (String × ℝ)) (name : String) (d : ℝ) : ℝ := (kw.lookup name).getD d

/-- The method `Survey.tortuosity_index`, `survey.py` 1394-1431 and 1582-1636, with its keyword arguments;
`dls_tol` is not passed on. -/
noncomputable def tiMethod (rtol : ℝ) (_dlsTol : Option ℝ) (kw : List (String × ℝ)) (sv : ℕ → Row) (n : ℕ) :
    Option (List ℝ) :=
  tiOf (kwGet kw "coeff" 0.3048) (kwGet kw "kapa" 1e7) rtol none sv n

/-- The method `Survey.modified_tortuosity_index`, `survey.py` 1344-1392 and 1521-1579: a noise that is
neither `None` nor zero has the survey `noisy`, interpolated and with maximum curvature, examined. -/
noncomputable def mtiMethod (rtol : ℝ) (dlsTol dlsNoise : Option ℝ) (kw : List (String × ℝ))
    (sv : ℕ → Row) (n : ℕ) (noisy : ℝ → (ℕ → Row) × ℕ) : Option (List ℝ) :=
  open Classical in
  let s := match dlsNoise with
    | none => (sv, n)
    | some x => if x = 0 then (sv, n) else noisy x
  mtiOf (kwGet kw "coeff" 1) (kwGet kw "kapa" 1) rtol dlsTol s.1 s.2

end Welleng.Ti
