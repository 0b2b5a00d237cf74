import Verif.Model.Edm
import Mathlib.Data.String.Basic
import Mathlib.Data.List.Dedup

/-!
Model of `welleng/exchange/edm.py`: the list of tags (123-128), the wellbore graph (130-141) and
the look-up of a wellbore (198-213).
-/

namespace Welleng.Edm

/-- `get_tags()` with the default `sort=True`, `edm.py` 123-126. -/
def getTags (root : List Node) : List String :=
  (root.map (·.tag)).dedup.mergeSort fun a b => decide (a ≤ b)

/-- A `networkx.Graph`: its nodes and its edges, which have no direction, `edm.py` 133. -/
structure Graph where
  nodes : List String
  edges : List (String × String)
  deriving DecidableEq

/-- Whether a graph has an edge between two nodes, in either order, `edm.py` 133. -/
def Graph.joins (g : Graph) (a b : String) : Prop := (a, b) ∈ g.edges ∨ (b, a) ∈ g.edges

/-- The body of the loop of `get_wellbore_graph`, `edm.py` 136-139; adding an edge adds its ends. -/
def addWellbore (g : Graph) (b : Bore) : Graph :=
  match b.parent with
  | some p => ⟨g.nodes ++ [p, b.id], g.edges ++ [(p, b.id)]⟩
  | none => ⟨g.nodes ++ [b.id], g.edges⟩

/-- `get_wellbore_graph`, `edm.py` 130-141. -/
def wellboreGraph (root : List Bore) : Graph :=
  (wellboreIds root).foldl (fun g kv => addWellbore g kv.2) ⟨[], []⟩

/-- The identifier and name that `get_wellbore(x)` or `get_wellbore(x, name=True)` uses,
`edm.py` 198-205; `none` is a `KeyError`. -/
def resolve (root : List Bore) (x : String) (byName : Bool) : Option (String × String) :=
  if byName then ((nameToId root).lookup x).map fun i => (i, x)
  else ((idToName root).lookup x).map fun n => (x, n)

end Welleng.Edm
