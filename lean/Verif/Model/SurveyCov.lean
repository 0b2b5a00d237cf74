import Verif.Model.ErrorModel
import Mathlib.Logic.Function.Basic

/-!
Model of the covariances of a `Survey`: the end of `Survey.__init__`, `get_error` and `_get_errors`,
`/repo/welleng/survey.py` 710, 747-761, 912-974.

The covariances that a caller passes are objects: the survey keeps the object and not a copy, and
`+=` changes it.  Objects live on a heap and are referred to by number.  Only covariances with three
axes (stations, rows, columns) are modelled.
-/

namespace Welleng.Cov

/-- Exceptions: those of the error model, of NumPy for shapes that do not fit, and of `assert`,
`survey.py` 751, 934, 950-974. -/
inductive Exc
  | model (e : Err.Exc)
  | value
  | assertion

/-- A covariance argument, `survey.py` 663-668: a NumPy array or a Python list of matrices; a list
that `+=` has extended is no longer one of matrices (`l` is what it was before). -/
inductive Obj
  | array (l : List M3)
  | pylist (l : List M3)
  | ragged (l : List M3)

/-- The objects, `survey.py` 754-755. -/
structure Heap where
  next : ℕ
  get : ℕ → Obj

/-- A new object, `survey.py` 955-965. -/
def Heap.alloc (h : Heap) (o : Obj) : Heap := ⟨h.next + 1, Function.update h.get h.next o⟩

/-- A change of an object, `survey.py` 973. -/
def Heap.set (h : Heap) (r : ℕ) (o : Obj) : Heap := ⟨h.next, Function.update h.get r o⟩

/-- Inclination, grid azimuth and true azimuth of a station, `survey.py` 717-718, `error.py`
181-185. -/
structure Angles where
  inc : ℝ
  grid : ℝ
  true' : ℝ

/-- The attributes that matter here, `survey.py` 710, 747-761. -/
structure Survey where
  angles : List Angles
  start : Option M3
  model : Option String
  nev : Option ℕ
  hla : Option ℕ
  random : Option ℕ
  systematic : Option ℕ
  global : Option ℕ
  withinPad : Option ℕ

/-- `trans @ cov @ trans.T` on arrays, with NumPy's broadcasting, `utils.py` 337-341, 349-354. -/
def batch (f : Angles → M3 → M3) (angles : List Angles) (l : List M3) :
    Except Exc (List M3) :=
  if l.length = angles.length then .ok (List.zipWith f angles l)
  else
    match l, angles with
    | [c], _ => .ok (angles.map fun a => f a c)
    | _, [a] => .ok (l.map (f a))
    | _, _ => .error .value

/-- `NEV_to_HLA(self.survey_rad, ·)`, `survey.py` 963, 974: with the grid azimuth. -/
noncomputable def toHla (angles : List Angles) : Obj → Except Exc (List M3)
  | .array l => batch (fun a c => nevToHlaCov a.inc a.grid c) angles l
  | .pylist l => batch (fun a c => nevToHlaCov a.inc a.grid c) angles l
  | .ragged _ => .error .value

/-- `HLA_to_NEV(self.survey_rad, ·)`, `survey.py` 965. -/
noncomputable def toNev (angles : List Angles) : Obj → Except Exc (List M3)
  | .array l => batch (fun a c => hlaToNevCov a.inc a.grid c) angles l
  | .pylist l => batch (fun a c => hlaToNevCov a.inc a.grid c) angles l
  | .ragged _ => .error .value

/-- `x += start`, `survey.py` 973: a NumPy array is changed in place, a Python list is extended by
the rows of the matrix. -/
def addStart (S : M3) : Obj → Obj
  | .array l => .array (l.map (· + S))
  | .pylist l => .ragged l
  | .ragged l => .ragged l

/-- The values of an array over the stations, `tool_errors.py` 253-258. -/
def rows (n : ℕ) (f : ℕ → M3) : Obj := .array ((List.range n).map f)

/-- `self.err.errors.cov_HLAs`: with the true azimuth, `error.py` 181-185, `tool_errors.py` 270. -/
noncomputable def hlaOf (angles : List Angles) (f : ℕ → M3) : Obj :=
  .array (List.zipWith (fun a c => nevToHlaCov a.inc a.true' c) angles
    ((List.range angles.length).map f))

/-- The first part of `_get_errors`, `survey.py` 949-967.  `em` is what the error model of a name
computes for the survey.  The survey is returned with the exception, if there is one. -/
noncomputable def base (em : String → Except Err.Exc Err.Totals) (h : Heap) (s : Survey) :
    Heap × Survey × Option Exc :=
  match s.model with
  | some m =>
    match em m with
    | .error e => (h, s, some (.model e))
    | .ok t =>
      let n := s.angles.length
      (((((((h.alloc (hlaOf s.angles t.total)).alloc (rows n t.total)).alloc
        (rows n t.random)).alloc (rows n t.systematic)).alloc (rows n t.global)).alloc
        (rows n t.withinPad)),
       { s with hla := some h.next, nev := some (h.next + 1), random := some (h.next + 2),
                systematic := some (h.next + 3), global := some (h.next + 4),
                withinPad := some (h.next + 5) }, none)
  | none =>
    match s.nev, s.hla with
    | some r, none =>
      match toHla s.angles (h.get r) with
      | .error e => (h, s, some e)
      | .ok l => (h.alloc (.array l), { s with hla := some h.next }, none)
    | none, some r =>
      match toNev s.angles (h.get r) with
      | .error e => (h, s, some e)
      | .ok l => (h.alloc (.array l), { s with nev := some h.next }, none)
    | _, _ => (h, s, none)

/-- `Survey._get_errors`, `survey.py` 944-974. -/
noncomputable def getErrors (em : String → Except Err.Exc Err.Totals) (h : Heap) (s : Survey) :
    Heap × Survey × Option Exc :=
  match base em h s with
  | (h, s, some e) => (h, s, some e)
  | (h, s, none) =>
    match s.start, s.nev with
    | some S, some r =>
      let h := h.set r (addStart S (h.get r))
      match toHla s.angles (h.get r) with
      | .error e => (h, s, some e)
      | .ok l => (h.alloc (.array l), { s with hla := some h.next }, none)
    | _, _ => (h, s, none)

/-- The covariance part of `Survey.__init__`, `survey.py` 710, 747-761; `models` are the
`ERROR_MODELS` (none of them the empty text). -/
noncomputable def construct (models : List String) (em : String → Except Err.Exc Err.Totals)
    (h : Heap) (angles : List Angles) (start : Option M3) (model : Option String)
    (nev hla : Option ℕ) : Heap × Except Exc Survey :=
  if ∀ m, model = some m → m ∈ models then
    match getErrors em h ⟨angles, start, model, nev, hla, none, none, none, none⟩ with
    | (h, s, none) => (h, .ok s)
    | (h, _, some e) => (h, .error e)
  else (h, .error .assertion)

/-- `Survey.get_error`, `survey.py` 912-942: the survey afterwards, and the exception. -/
noncomputable def getError (models : List String) (em : String → Except Err.Exc Err.Totals)
    (h : Heap) (s : Survey) (m : String) : Heap × Survey × Option Exc :=
  if m ∈ models then getErrors em h { s with model := some m }
  else (h, s, some .assertion)

end Welleng.Cov
