import Verif.Model.EdmCase

/-!
Model of the hole sections and of the pressure and temperature tables of a well,
`/repo/welleng/exchange/edm.py` 429-541.
-/

namespace Welleng.Edm

/-- `Well.get_hole_sections`, `edm.py` 429-439.  `list(set(…))` has no fixed order; here the order
of the last occurrences.  The attribute names of an element are distinct, so a row gives at most
one id. -/
def holeSections (data : List (String × List Node)) : List String :=
  (data.flatMap fun kv => kv.2.filterMap fun row => row.get "hole_sect_group_id").dedup

/-- `Well.get_hole_section_data`, `edm.py` 454-465: `none` stands for the default argument. -/
def holeSectionTable (data : List (String × List Node)) (sections : Option (List String)) :
    List (String × List (String × Node)) :=
  (sections.getD (holeSections data)).foldl
    (fun d hs => dictSet d hs (holeSectionData data hs)) []

/-- The exceptions of `_get_ppfpt_data`, `edm.py` 499-541: a missing field, or a text `float`
refuses. -/
inductive TExc | key | value
  deriving DecidableEq

/-- `p[k]`, `edm.py` 521-535. -/
def field (p : Attrs) (k : String) : Except TExc String :=
  match p.lookup k with
  | some x => .ok x
  | none => .error .key

/-- `float(p[k])`, `edm.py` 524-533; `num` is what `float` makes of a text, `none` the
ValueError. -/
def number (num : String → Option ℚ) (p : Attrs) (k : String) : Except TExc ℚ :=
  match field p k with
  | .error e => .error e
  | .ok x =>
    match num x with
    | some q => .ok q
    | none => .error .value

/-- One pass of the loop of `_get_ppfpt_data`, `edm.py` 520-535: the fields in the order read. -/
def readRow (num : String → Option ℚ) (groupKey valueKey : String) (p : Attrs) :
    Except TExc Row :=
  match field p groupKey with
  | .error e => .error e
  | .ok g =>
    match number num p "tvd" with
    | .error e => .error e
    | .ok t =>
      match number num p valueKey with
      | .error e => .error e
      | .ok v => .ok ⟨g, t, v⟩

/-- The loop of `_get_ppfpt_data`, `edm.py` 518-535, up to its first exception. -/
def readRows (num : String → Option ℚ) (groupKey valueKey : String) :
    List Attrs → Except TExc (List Row)
  | [] => .ok []
  | p :: ps =>
    match readRow num groupKey valueKey p with
    | .error e => .error e
    | .ok r =>
      match readRows num groupKey valueKey ps with
      | .error e => .error e
      | .ok rs => .ok (r :: rs)

/-- One of the three `try` blocks of `get_ppfpt_data`, `edm.py` 468-491: any KeyError, of the table
or of a field, gives `None`. -/
def tableOrNone (num : String → Option ℚ) (w : Tables) (table groupKey valueKey : String) :
    Except TExc (Option (List (String × List (ℚ × ℚ)))) :=
  match w.lookup table with
  | none => .ok none
  | some rows =>
    match readRows num groupKey valueKey rows with
    | .ok rs => .ok (some (ppfpt rs))
    | .error .key => .ok none
    | .error .value => .error .value

/-- What `get_ppfpt_data` returns, `edm.py` 493-497. -/
structure Tables3 where
  pore : Option (List (String × List (ℚ × ℚ)))
  frac : Option (List (String × List (ℚ × ℚ)))
  temp : Option (List (String × List (ℚ × ℚ)))
  deriving DecidableEq

/-- `Well.get_ppfpt_data`, `edm.py` 467-497. -/
def ppfptData (num : String → Option ℚ) (w : Tables) : Except TExc Tables3 :=
  match tableOrNone num w "CD_PORE_PRESSURE" "pore_pressure_group_id" "pore_pressure" with
  | .error e => .error e
  | .ok p =>
    match tableOrNone num w "CD_FRAC_GRADIENT" "frac_gradient_group_id"
        "frac_gradient_pressure" with
    | .error e => .error e
    | .ok f =>
      match tableOrNone num w "CD_TEMP_GRADIENT" "temp_gradient_group_id" "temperature" with
      | .error e => .error e
      | .ok t => .ok ⟨p, f, t⟩

end Welleng.Edm
