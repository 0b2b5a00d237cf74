import Mathlib.Data.List.Basic

/-!
Model of `/repo/welleng/target.py`. Only the decision logic: which arguments construct a target and
which targets can be drawn. The drawing itself (vedo) is not modelled.
-/

namespace Welleng.Target

/-- Exceptions, `target.py` 43-121. -/
inductive Err
  | assertion | key | unboundLocal
  deriving DecidableEq

/-- `SHAPES`, `target.py` 94-99. -/
def shapes : List String := ["circle", "ellipse", "rectangle", "polygon"]

/-- `GEOMETRY`, `target.py` 101-105: the argument names of a shape; `none` is a missing key. -/
def geometryKeys (shape : String) : Option (List String) :=
  [("rectangle", ["pos1", "pos2"]), ("circle", ["radius"]),
    ("ellipse", ["radius_1", "radius_2", "res"])].lookup shape

/-- A target: its shape and geometry arguments (names and values), `target.py` 43-121. -/
structure Target (V : Type) where
  shape : String
  geometry : List (String × V)

/-- `Target.__init__`, `target.py` 92-120: `vedo` says whether the library is installed; keyword
arguments have distinct names. -/
def init {V : Type} (vedo : Bool) (shape : String) (geometry : List (String × V)) :
    Except Err (Target V) :=
  if ¬ vedo then .error .assertion
  else if shape ∉ shapes then .error .assertion
  else match geometryKeys shape with
    | none => .error .key
    | some ks =>
      if (∀ k ∈ geometry.map Prod.fst, k ∈ ks) ∧ (∀ k ∈ ks, k ∈ geometry.map Prod.fst) then
        .ok ⟨shape, geometry⟩
      else .error .assertion

/-- `Target.plot_data`, `target.py` 122-149: what is drawn is the circle of this radius. -/
def plotData {V : Type} (t : Target V) : Except Err V :=
  if t.shape = "circle" then
    match t.geometry.lookup "radius" with
    | some r => .ok r
    | none => .error .key
  else .error .unboundLocal

end Welleng.Target
