import Verif.Model.Sheets
import Verif.Model.ClosestPoint

/-!
Model of `/repo/welleng/io.py` from the cells of the sheets on, of the markers of
`/repo/welleng/visual.py` 435-477 and of the lines of `/repo/welleng/clearance.py` 587-610.
-/

namespace Welleng.Io

open Ingest (Cell)

/-- The columns read for a well, `io.py` 40-72. -/
structure Well where
  md : List Cell := []
  inc : List Cell := []
  azi : List Cell := []
  tvd : List Cell := []
  n : List Cell := []
  e : List Cell := []
  sigmaH : List Cell := []
  sigmaL : List Cell := []
  sigmaA : List Cell := []

/-- A cell of a row of `iter_rows`, `io.py` 53-68; rows have the nine columns B to J. -/
def cell (r : List Cell) (i : ℕ) : Cell := (r[i]?).getD .empty

/-- The body of the loop, `io.py` 59-68. -/
def wellStep (w : Well) (r : List Cell) : Well :=
  if Ingest.isNum (cell r 0) then
    ⟨w.md ++ [cell r 0], w.inc ++ [cell r 1], w.azi ++ [cell r 2], w.tvd ++ [cell r 3],
     w.n ++ [cell r 4], w.e ++ [cell r 5], w.sigmaH ++ [cell r 6], w.sigmaL ++ [cell r 7],
     w.sigmaA ++ [cell r 8]⟩
  else w

/-- `get_well_data`, `io.py` 40-72: from row 17 on. -/
def getWellData (rows : List (List Cell)) : Well := (rows.drop 16).foldl wellStep {}

/-- What the dictionary holds for a well, `io.py` 69-109: `mesh` is not set by the import; it is
the list of the positions of a mesh that a caller may add. -/
structure Entry where
  well : Well
  sf : Option (List Cell) := none
  mesh : Option (List V3) := none

/-- `get_clearance_data`, `io.py` 97-109: column O from row 5 on. -/
def getSf (rows : List (List Cell)) : List Cell := (rows.drop 4).map fun r => cell r 14

/-- `get_standard_data`, `io.py` 13-37: `sheets` are the names and rows of the workbook, `rows` of
a well start in column B, `wells` are the names that end in the word `well`. `none` is the
`KeyError` of an offset well without a sheet of clearances. -/
def standardData (sheets : List (String × List (List Cell))) (wells : List String) :
    Option (List (String × Entry)) :=
  wells.foldlM (fun d w => do
    let rows ← sheets.lookup w
    let wd := getWellData (rows.map (·.drop 1))
    if w = "Reference well" then
      some (Edm.dictSet d w { well := wd })
    else do
      let sh ← sheets.lookup (String.ofList (w.toList.take 5) ++ "clearance")
      some (Edm.dictSet d w { well := wd, sf := some (getSf sh) })) []

/-- `make_survey`, `io.py` 85-94: the start of the survey and its columns; `none` is a `KeyError`
(or an `IndexError` of an empty mesh). -/
def makeSurvey (data : List (String × Entry)) (well : String) : Option (V3 × Well) := do
  let off ← data.lookup "offset"
  let nevs ← off.mesh
  let start ← nevs.head?
  let w ← data.lookup well
  some (start, w.well)

/-! ### Markers -/

/-- A station of a survey as it is drawn, `visual.py` 447-456. -/
structure Shown (K : Type) where
  n : K
  e : K
  tvd : K
  md : K
  inc : K
  azi : K
  deriving DecidableEq

/-- The flags, `visual.py` 444-445: all stations are surveyed if the attribute is missing. -/
def flags (interpolated : Option (List Bool)) (n : ℕ) : List Bool :=
  interpolated.getD (List.replicate n false)

/-- The stations of one marker trace, `visual.py` 447-474; a trace without stations is left out
(`ValueError` of the assignment). -/
def trace {K : Type} (st : List (Shown K)) (fl : List Bool) (which : Bool) : List (Shown K) :=
  ((st.zip fl).filter fun p => p.2 == which).map (·.1)

/-- The marker traces of `_scatter3d`, `visual.py` 435-477. -/
def markers {K : Type} (st : List (Shown K)) (interpolated : Option (List Bool)) :
    List (String × List (Shown K)) :=
  [("interpolated", trace st (flags interpolated st.length) true),
   ("survey_point", trace st (flags interpolated st.length) false)].filter fun t => !t.2.isEmpty

/-! ### Lines between wells -/

/-- `IscwsaClearance.get_lines`, `clearance.py` 587-610: from each station of the reference to the
point found on the offset well. -/
noncomputable def getLines (opt : Clr.Minimiser) (off : SurveyG) (xyz : ℕ → V3)
    (refs : List V3) : Option (List (V3 × V3)) :=
  refs.mapM fun p => (Clr.closestPoint opt off xyz p).map fun c => (p, c.pos)

end Welleng.Io
