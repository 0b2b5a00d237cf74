import Verif.Model.Ingest
import Verif.Model.Conformance

/-!
Model of the printed reports: `ValidationReport.summary`, `/repo/welleng/errors/iscwsa_validate.py`
72-104, and the coverage matrix of `/repo/welleng/errors/conformance.py` 239-330.
-/

namespace Welleng.Report

open Welleng

section Summary

variable {α : Type} [LinearOrder α]

/-- Python's `max(rows, key=key)`: the first of the rows with the largest key; `none` stands for
the ValueError of an empty list, `iscwsa_validate.py` 85, 98. -/
def pyMax {R : Type} (key : R → α) : List R → Option R
  | [] => none
  | r :: t => some (t.foldl (fun b x => if key b < key x then x else b) r)

/-- `SourceCompare`, `iscwsa_validate.py` 33-42. -/
structure SRow (α : Type) where
  code : String
  md : α
  absErr : α
  relErr : α
  ok : Bool
  deriving DecidableEq

/-- A line of the list of sources, `iscwsa_validate.py` 86-89; `pass` is the mark `PASS`. -/
structure SLine (α : Type) where
  pass : Bool
  code : String
  md : α
  absErr : α
  relErr : α
  deriving DecidableEq

/-- The lines of the sources, `iscwsa_validate.py` 80-89. -/
def sourceLines (rows : List (SRow α)) : List (SLine α) :=
  ((Ingest.passFail (rows.map fun r => (r.code, r.ok))).mergeSort
      fun a b => decide (a.1 ≤ b.1)).filterMap fun kv =>
    (pyMax SRow.absErr (rows.filter fun r => decide (r.code = kv.1))).map fun w =>
      ⟨kv.2, kv.1, w.md, w.absErr, w.relErr⟩

/-- `TotalsCompare`, `iscwsa_validate.py` 45-52. -/
structure TRow (α : Type) where
  md : α
  absErr : α
  relErr : α
  ok : Bool
  deriving DecidableEq

/-- The line of the totals, `iscwsa_validate.py` 95-103: stations that pass, stations, worst
station; `none` if there are no totals. -/
def totalsLine (rows : List (TRow α)) : Option (ℕ × ℕ × TRow α) :=
  (pyMax TRow.absErr rows).map fun w =>
    ((rows.filter fun t => t.ok).length, rows.length, w)

end Summary

/-! ### The coverage matrix -/

/-- `d[k] = d.get(k, 0) + n`, `conformance.py` 246, 297. -/
def bump (d : List (Conf.Verdict × ℕ)) (k : Conf.Verdict) (n : ℕ) : List (Conf.Verdict × ℕ) :=
  match d with
  | [] => [(k, n)]
  | (k', m) :: t => if k' = k then (k', m + n) :: t else (k', m) :: bump t k n

/-- The counts of one model, `conformance.py` 243-252. -/
def counts (l : List Conf.Verdict) : List (Conf.Verdict × ℕ) :=
  l.foldl (fun d v => bump d v 1) []

/-- `c.get(k, 0)`, `conformance.py` 309-313, 317-321. -/
def cell (d : List (Conf.Verdict × ℕ)) (k : Conf.Verdict) : ℕ := (d.lookup k).getD 0

/-- `sum(c.values())`, `conformance.py` 307, 315. -/
def total (d : List (Conf.Verdict × ℕ)) : ℕ := (d.map (·.2)).sum

/-- The aggregate over the models, `conformance.py` 286-297. -/
def aggregate (models : List (List Conf.Verdict)) : List (Conf.Verdict × ℕ) :=
  models.foldl (fun d l => (counts l).foldl (fun d kv => bump d kv.1 kv.2) d) []

end Welleng.Report
