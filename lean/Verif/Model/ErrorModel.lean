import Verif.Model.Angles
import Mathlib.Algebra.BigOperators.Group.Finset.Basic

/-!
Model of `welleng/error.py` (`ErrorModel`): partial derivatives of position, error
vectors, propagation of one error source, and the totals of
`welleng/errors/tool_errors.py` (`ToolError.__init__`).

A numpy array with `n` rows is modelled by a function on row indices, meaningful
below `n`; a sum over leading rows (`np.cumsum`) is a sum over `Finset.range`.
Floats are reals.
-/

namespace Welleng.Err

open Real Finset

/-- A row of an `(n, 3)` array. -/
abbrev V := Fin 3 → ℝ

/-- What the error model reads: `survey_rad` (measured depth, inclination, true
azimuth; `error.py` 183-187) and whether the model name ends in `rev4`
(`error_model.lower().split()[-1]`, `error.py` 350, 488). -/
structure Sv where
  n : ℕ
  md : ℕ → ℝ
  inc : ℕ → ℝ
  azi : ℕ → ℝ
  rev4 : Bool

/-- `ErrorModel.drk_dDepth`, `error.py` 298-323. -/
noncomputable def drkDepth (s : Sv) (k : ℕ) : V :=
  if k = 0 then 0 else
    (0.5 : ℝ) •
      ![sin (s.inc (k - 1)) * cos (s.azi (k - 1)) + sin (s.inc k) * cos (s.azi k),
        sin (s.inc (k - 1)) * sin (s.azi (k - 1)) + sin (s.inc k) * sin (s.azi k),
        cos (s.inc (k - 1)) + cos (s.inc k)]

/-- `ErrorModel.drk_dInc`, `error.py` 325-356.  `N[0] *= 2` is the row of station 1. -/
noncomputable def drkInc (s : Sv) (k : ℕ) : V :=
  if k = 0 then 0 else
    let d := s.md k - s.md (k - 1)
    let N := 0.5 * (d * cos (s.inc k) * cos (s.azi k))
    ![if !s.rev4 && k == 1 then N * 2 else N,
      0.5 * (d * cos (s.inc k) * sin (s.azi k)),
      0.5 * (-d * sin (s.inc k))]

/-- `ErrorModel.drk_dAz`, `error.py` 358-384. -/
noncomputable def drkAz (s : Sv) (k : ℕ) : V :=
  if k = 0 then 0 else
    let d := s.md k - s.md (k - 1)
    ![-0.5 * (d * sin (s.inc k) * sin (s.azi k)),
      0.5 * (d * sin (s.inc k) * cos (s.azi k)),
      0]

/-- `ErrorModel.drkplus1_dDepth`, `error.py` 386-405. -/
noncomputable def drk1Depth (s : Sv) (k : ℕ) : V :=
  if k + 1 < s.n then (-1 : ℝ) • drkDepth s (k + 1) else 0

/-- `ErrorModel.drkplus1_dInc`, `error.py` 407-433. -/
noncomputable def drk1Inc (s : Sv) (k : ℕ) : V :=
  if k + 1 < s.n then
    let d := s.md (k + 1) - s.md k
    ![0.5 * (d * cos (s.inc k) * cos (s.azi k)),
      0.5 * (d * cos (s.inc k) * sin (s.azi k)),
      0.5 * (-d * sin (s.inc k))]
  else 0

/-- `ErrorModel.drkplus1_dAz`, `error.py` 435-461. -/
noncomputable def drk1Az (s : Sv) (k : ℕ) : V :=
  if k + 1 < s.n then
    let d := s.md (k + 1) - s.md k
    ![-0.5 * (d * sin (s.inc k) * sin (s.azi k)),
      0.5 * (d * sin (s.inc k) * cos (s.azi k)),
      0]
  else 0

/-- One row of `ErrorModel._drdp`, `error.py` 463-512.  `half_dmd[j]` is
`0.5 * (md[j+1] - md[j])`, `dc_N[j]` … are the mean direction cosines of interval
`j`; the slices `[1:]` and `[:-1]` become the conditions on `k`.  (For one station
and a model other than rev4 `result[1, 3]` raises IndexError; a survey here has at
least two stations.) -/
noncomputable def drdp (s : Sv) (k : ℕ) : Fin 18 → ℝ :=
  let half := fun j => 0.5 * (s.md (j + 1) - s.md j)
  let si := fun j => sin (s.inc j)
  let ci := fun j => cos (s.inc j)
  let sa := fun j => sin (s.azi j)
  let ca := fun j => cos (s.azi j)
  let dcN := fun j => 0.5 * (si j * ca j + si (j + 1) * ca (j + 1))
  let dcE := fun j => 0.5 * (si j * sa j + si (j + 1) * sa (j + 1))
  let dcV := fun j => 0.5 * (ci j + ci (j + 1))
  let up := fun x : ℝ => if 1 ≤ k then x else 0
  let dn := fun x : ℝ => if k + 1 < s.n then x else 0
  ![up (dcN (k - 1)), up (dcE (k - 1)), up (dcV (k - 1)),
    up (if !s.rev4 && k == 1 then half (k - 1) * ci k * ca k * 2
        else half (k - 1) * ci k * ca k),
    up (half (k - 1) * ci k * sa k),
    up (-half (k - 1) * si k),
    up (-half (k - 1) * si k * sa k), up (half (k - 1) * si k * ca k), 0,
    dn (-dcN k), dn (-dcE k), dn (-dcV k),
    dn (half k * ci k * ca k), dn (half k * ci k * sa k), dn (-half k * si k),
    dn (-half k * si k * sa k), dn (half k * si k * ca k), 0]

/-- `ErrorModel._e_NEV`, `error.py` 207-225. -/
noncomputable def eNEV (s : Sv) (e : ℕ → V) (k : ℕ) : V :=
  if k = 0 then 0 else
    let t := drdp s k
    ![(t 0 + t 9) * e k 0 + (t 3 + t 12) * e k 1 + (t 6 + t 15) * e k 2,
      (t 1 + t 10) * e k 0 + (t 4 + t 13) * e k 1 + (t 7 + t 16) * e k 2,
      (t 2 + t 11) * e k 0 + (t 5 + t 14) * e k 1 + (t 8 + t 17) * e k 2]

/-- `ErrorModel._e_NEV_star`, `error.py` 227-245. -/
noncomputable def eNEVStar (s : Sv) (e : ℕ → V) (k : ℕ) : V :=
  if k = 0 then 0 else
    let t := drdp s k
    ![t 0 * e k 0 + t 3 * e k 1 + t 6 * e k 2,
      t 1 * e k 0 + t 4 * e k 1 + t 7 * e k 2,
      t 2 * e k 0 + t 5 * e k 1 + t 8 * e k 2]

/-- `ErrorModel._sigma_e_NEV_systematic`, `error.py` 247-253. -/
def sigmaSystematic (e es : ℕ → V) (k : ℕ) : V :=
  es k + if k = 0 then e 0 else ∑ j ∈ range k, e j

/-- The propagation strings `_generate_error` distinguishes; any other string is
`other` (JSON catalogues produce `'well'`, `tool_errors.py` 19-24). -/
inductive Prop' | random | systematic | global | withinPad | other
  deriving DecidableEq

/-- `ErrorModel.Error`, `error.py` 92-150, the fields read downstream. -/
structure Term where
  prop : Prop'
  eDIA : ℕ → V
  eNEV : ℕ → V
  eStar : ℕ → V
  cov : ℕ → M3

/-- Covariances of one source from its error vectors, `error.py` 271-284; `none` is
the bare `return` of line 286 (Python `None`). -/
noncomputable def propagate (p : Prop') (e es : ℕ → V) : Option (ℕ → M3) :=
  match p with
  | .systematic | .global | .withinPad =>
    some fun k => covFromVec (sigmaSystematic e es k)
  | .random =>
    some fun k => covFromVec (es k) +
      if k = 0 then 0 else ∑ j ∈ range k, covFromVec (e j)
  | .other => none

/-- `ErrorModel._generate_error` with `NEV=True`, `error.py` 255-296.  `nev` holds
the optional arguments `e_NEV`, `e_NEV_star`. -/
noncomputable def generateError (s : Sv) (eDIA : ℕ → V) (p : Prop')
    (nev : Option ((ℕ → V) × (ℕ → V))) : Option Term :=
  let ne := match nev with
    | none => (eNEV s eDIA, eNEVStar s eDIA)
    | some x => x
  (propagate p ne.1 ne.2).map fun c => ⟨p, eDIA, ne.1, ne.2, c⟩

/-- Accumulators of `ToolError.__init__`, `tool_errors.py` 253-258. -/
structure Totals where
  total : ℕ → M3
  random : ℕ → M3
  systematic : ℕ → M3
  global : ℕ → M3
  withinPad : ℕ → M3

/-- Loop body, `tool_errors.py` 260-268. -/
def Totals.step (t : Totals) (v : Term) : Totals :=
  let t := { t with total := t.total + v.cov }
  match v.prop with
  | .random => { t with random := t.random + v.cov }
  | .systematic => { t with systematic := t.systematic + v.cov }
  | .global => { t with global := t.global + v.cov }
  | .withinPad => { t with withinPad := t.withinPad + v.cov }
  | .other => t

/-- Exceptions of the error model, `error.py` 178, 271-286, `tool_errors.py` 138-270. -/
inductive Exc | attributeError | indexError | typeError | assertionError | fileNotFound | nameError
  deriving DecidableEq

/-- `ToolError.__init__`, `tool_errors.py` 253-268: a source whose propagation was
not recognised is `None`, and reading `None.cov_NEV` raises AttributeError. -/
def totalsLoop : List (Option Term) → Totals → Except Exc Totals
  | [], t => .ok t
  | none :: _, _ => .error .attributeError
  | some v :: vs, t => totalsLoop vs (t.step v)

/-- Totals of a list of sources, starting from zero arrays, `tool_errors.py` 253-268. -/
def totals (l : List (Option Term)) : Except Exc Totals :=
  totalsLoop l ⟨0, 0, 0, 0, 0⟩

/-- `self.cov_HLAs = NEV_to_HLA(self.e.survey_rad, self.cov_NEVs)`,
`tool_errors.py` 270. -/
noncomputable def covHLAs (s : Sv) (cov : ℕ → M3) (k : ℕ) : M3 :=
  nevToHlaCov (s.inc k) (s.azi k) (cov k)

/-- `_JSON_PROP_TO_LEGACY.get(mode, "systematic")`, `tool_errors.py` 19-24, 119-121. -/
def jsonProp (mode : String) : Prop' :=
  if mode = "Random" then .random
  else if mode = "Systematic" then .systematic
  else if mode = "Global" then .global
  else if mode = "Well" then .other
  else .systematic

/-- The propagation string of a YAML catalogue entry, as `_generate_error` reads it,
`error.py` 271-286. -/
def yamlProp (mode : String) : Prop' :=
  if mode = "random" then .random
  else if mode = "systematic" then .systematic
  else if mode = "global" then .global
  else if mode = "within_pad" then .withinPad
  else .other

/-- Scale factor of `_MAG_UNIT_TO_BASE.get(unit, 1.0)`, `tool_errors.py` 32-43, 359. -/
noncomputable def unitScale (unit : String) : ℝ :=
  if unit = "deg" ∨ unit = "deg/hr" ∨ unit = "deg/nT" then π / 180 else 1

/-- `error.get_errors` on one matrix, `error.py` 533-550: `[nn, ee, vv, ne, nv, ev]`. -/
def getErrors (c : M3) : List ℝ := [c 0 0, c 1 1, c 2 2, c 0 1, c 0 2, c 1 2]

end Welleng.Err
