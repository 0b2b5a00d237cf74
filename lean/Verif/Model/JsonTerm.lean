import Verif.Model.Interpreter

/-!
The terms of a JSON tool model as the error engine reads them: `_json_to_em_adapter` and
`ToolError._call_interpreter` of `welleng/errors/tool_errors.py`.
-/

namespace Welleng.Interp

open Welleng Err

/-- One entry of `terms` in a JSON tool model, the fields read by `tool_errors.py` 112-125 and
290-361, and the formulas declared for vertical stations, which the files carry as
`north_singularity`, `east_singularity` and `vertical_singularity` (null: `none`), and which no line
of the engine reads.  The formulas are parsed. -/
structure JTerm where
  name : String
  value : ℝ
  units : String
  mode : String
  formulas : Formulas
  singNorth : Option PyExpr
  singEast : Option PyExpr
  singVertical : Option PyExpr

/-- `codes[name] = …`, `tool_errors.py` 115: a name already present keeps its place and takes the
new entry. -/
def putCode (t : JTerm) : List JTerm → List JTerm
  | [] => [t]
  | u :: us => if u.name = t.name then t :: us else u :: putCode t us

/-- `codes` of `_json_to_em_adapter`, `tool_errors.py` 112-126. -/
def jsonCodes (terms : List JTerm) : List JTerm :=
  terms.foldl (fun d t => putCode t d) []

/-- `_call_interpreter` on one entry of `codes`, `tool_errors.py` 116-125, 290-361: magnitude, unit,
propagation and formulas are taken from the term. -/
noncomputable def callTerm (scal : String → ℝ) (s : Sv) (t : JTerm) (st : St) :
    St × Except PyErr (Option Term) :=
  callInterpreter scal s t.formulas t.value t.units (jsonProp t.mode) st

end Welleng.Interp
