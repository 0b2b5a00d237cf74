import Verif.Model.Weights
import Verif.Model.Ingest
import Verif.Model.Interpreter

/-!
Model of the comparison of `/repo/welleng/errors/conformance.py` and of the variables that
`/repo/welleng/errors/copsegrove_validate.py` binds for the interpreter.
-/

namespace Welleng.Conf

open Err

/-- `_legacy_eval_term`, `conformance.py` 84-116: the array that a weight function hands to
`_generate_error`. The stand-in for the error model has neither `_e_NEV` nor a `_generate_error`
with replacement rows, and no tortuosity is passed, so a function that needs any of these raises,
and the term counts as one without a weight function (`none`). -/
noncomputable def legacyEval (f : Func) (c : Ctx) (mag : ℝ) : Option (ℕ → V) :=
  open Classical in
  if f.usesTortuosity then none
  else match singRows f c 0 mag with
    | none => some (eDIA f c 0 mag)
    | some _ => if ∃ k < c.s.n, c.s.inc k < c.vlim then none else some (eDIA f c 0 mag)

/-- The verdicts, `conformance.py` 227-236. -/
inductive Verdict
  | interpFailed | noLegacy | matches_ | nearMatch | differ
  deriving DecidableEq

/-- `max_abs_diff`, `conformance.py` 184-191. -/
noncomputable def maxDiff (n : ℕ) (a b : ℕ → V) : ℝ :=
  Ingest.maxOf ((List.range n).flatMap fun k =>
    [|a k 0 - b k 0|, |a k 1 - b k 1|, |a k 2 - b k 2|])

open Classical in
/-- The verdict on a term, `compare_model` and `_classify`, `conformance.py` 164-196, 227-236.
`interp` is the interpreter's array, `none` if it raised. -/
noncomputable def verdict (n : ℕ) (interp legacy : Option (ℕ → V)) : Verdict :=
  match interp with
  | none => .interpFailed
  | some i =>
    match legacy with
    | none => .noLegacy
    | some l =>
      if maxDiff n l i < 1e-10 then .matches_
      else if maxDiff n l i < 1e-6 then .nearMatch
      else .differ

/-- A station of a diagnostics file with the values of the survey that it was made from,
`copsegrove_validate.py` 52-73. -/
structure Station where
  md : ℝ
  inc : ℝ
  azi : ℝ

/-- The arrays of `_bindings_for_station`, `copsegrove_validate.py` 52-73. The angles of the
station are in radians here. -/
def stationStore (st : ℕ → Station) : String → ℕ → ℝ
  | "MD" => fun k => (st k).md
  | "Inc" => fun k => (st k).inc
  | "AzT" => fun k => (st k).azi
  | "AzM" => fun k => (st k).azi
  | "Az" => fun k => (st k).azi
  | "TVD" => fun k => (st k).md
  | _ => fun _ => 0

/-- The value of a formula at the stations, `copsegrove_validate.py` 101, 129-135; `none` if it
raised. The names that are bound are those of `_call_interpreter`. -/
noncomputable def stationFormula (scal : String → ℝ) (st : ℕ → Station) (e : Interp.PyExpr) :
    Option (ℕ → ℝ) :=
  match Interp.evaluateFormula e (Interp.jsonBindings scal) ⟨stationStore st, []⟩ with
  | (_, .error _) => none
  | (s, .ok v) => v.read s

end Welleng.Conf
