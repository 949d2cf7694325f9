import Verif.Model.Solvers
import Mathlib.Analysis.InnerProductSpace.Basic

/-!
# Specifications for the solvers of `Model/Solvers.lean`
-/

namespace Verif

variable {T Y E D S : Type}

/-- Value and solver state after stepping through the times `ts`, starting at `t`, without jumps. -/
def march (s : Solver T Y E D S) : T → Y × S → List T → Y × S
  | _, x, [] => x
  | t, x, t' :: ts =>
    let o := s.step t t' x.1 x.2 false
    march s t' (o.y, o.state) ts

/-- The times to go through to get back from the end of `t :: ts` to `t`. -/
def backTimes : T → List T → List T
  | _, [] => []
  | t, t' :: ts => backTimes t' ts ++ [t]

/-- The grid with the point `half a b` put between consecutive points. -/
def refine (half : T → T → T) : List (T × T × Bool) → List (T × T × Bool)
  | [] => []
  | (a, b, j) :: l => (a, half a b, false) :: (half a b, b, j) :: refine half l

/-- A term whose product is linear in the vector field, odd in the control, and whose control over a
reversed interval is the negative one. -/
structure Term.Reversible {VF Ct : Type} [AddCommGroup Y] [AddCommGroup VF] [Neg Ct] (term : Term T Y VF Ct) :
    Prop where
  add : ∀ f g c, term.prod (f + g) c = term.prod f c + term.prod g c
  neg : ∀ f c, term.prod f (-c) = - term.prod f c
  contr : ∀ t0 t1, term.contr t1 t0 = - term.contr t0 t1
  vfProd : ∀ t y c, term.vfProd t y c = term.prod (term.vf t y) c

/-- The canonical symplectic form `dp ∧ dq`. -/
noncomputable def symplectic {F : Type} [NormedAddCommGroup F] [InnerProductSpace ℝ F] (u v : F × F) : ℝ :=
  inner ℝ u.1 v.2 - inner ℝ v.1 u.2

end Verif
