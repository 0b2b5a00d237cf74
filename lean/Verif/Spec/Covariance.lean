import Mathlib.LinearAlgebra.Matrix.Notation
import Mathlib.Data.Real.Basic
import Mathlib.Tactic.Ring

/-! What it means for a 3×3 matrix to be a covariance matrix. -/

namespace Welleng.Spec

/-- Symmetric, and no direction has negative variance. -/
structure IsCov (m : Matrix (Fin 3) (Fin 3) ℝ) : Prop where
  symm : ∀ i j, m i j = m j i
  nonneg : ∀ v : Fin 3 → ℝ, 0 ≤ ∑ i, ∑ j, v i * m i j * v j

end Welleng.Spec
