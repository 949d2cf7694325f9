import Mathlib.Analysis.InnerProductSpace.Basic

/-!
# Linear systems and contracting vector fields
-/

namespace Verif

/-- A linear solver that returns least-squares solutions. (For a regular matrix: the solution.) This is what
`lx.AutoLinearSolver(well_posed=None)`, the default of `ImplicitAdjoint`, does: LU decomposition for square matrices, QR
decomposition for others. -/
def LeastSquares {E V : Type} [NormedAddCommGroup E] [NormedSpace ℝ E] [NormedAddCommGroup V] [NormedSpace ℝ V]
    (lin : (E →L[ℝ] V) → V → E) : Prop :=
  ∀ (A : E →L[ℝ] V) (b : V) (x : E), ‖A (lin A b) - b‖ ≤ ‖A x - b‖

/-- Solutions approach each other at a rate of at least `μ`. -/
structure Contracting {E : Type} [NormedAddCommGroup E] [InnerProductSpace ℝ E] (f : E → E) (μ : ℝ) : Prop where
  pos : 0 < μ
  inward : ∀ x x', inner ℝ (f x - f x') (x - x') ≤ -(μ * ‖x - x'‖ ^ 2)

end Verif
