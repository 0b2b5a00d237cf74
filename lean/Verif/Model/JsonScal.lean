import Verif.Model.Header
import Verif.Model.Interpreter

/-!
The scalars a JSON tool model is evaluated with (`/repo/welleng/errors/tool_errors.py` 315-324).
-/

namespace Welleng.Interp

open Real

/-- Python's `x or d` for a number, `tool_errors.py` 317, 321 (`header.b_total` and
`header.latitude` are numbers once the header has been made). -/
noncomputable def orElse (x d : ℝ) : ℝ := open Classical in if x = 0 then d else x

/-- The scalar entries of `bindings`, `tool_errors.py` 315-324 (the same list is in
`conformance.py` 74-81). -/
noncomputable def headerScal (h : Hdr.Header) : String → ℝ
  | "Gfield" => h.g
  | "Dip" => h.dip
  | "BField" => orElse h.bTotal 50000
  | "EarthRate" => 0.262516
  | "Latitude" => radians (orElse h.latitude 0)
  | "RAD" => π / 180
  | _ => 0

end Welleng.Interp
