import Verif.Spec.RK
import Verif.Model.Term
import Mathlib.Algebra.Polynomial.Derivative
import Mathlib.Algebra.Polynomial.Taylor
import Mathlib.Algebra.Algebra.Rat
import Mathlib.Data.Real.Basic

/-!
# Exactness of a step on problems with a known solution
-/

namespace Verif
open Polynomial Finset

/-- One step of the solver for `y' = sum_p P_p(t)`, polynomials of degree less than `n` with
antiderivatives `Q_p`, is exact for every step size (up to `ε`, if the coefficients are not exact), if it
succeeds. -/
def IntegratesPoly {m : ℕ} (tab : Fin m → Tableau ℚ) (n : ℕ) (ε : ℚ) : Prop :=
  ∀ (J : Type) (P Q : Fin m → ℝ[X]) (_ : ∀ p, derivative (Q p) = P p) (_ : ∀ p, (P p).natDegree < n)
    (cj : CalcJac) (rF rK : RootFinder ℝ J) (nj : J)
    (_ : (∃ p, (tab p).implicit = true) → rF.Exact ∧ rK.Exact) (t0 h y0 : ℝ) (st : RK.State m ℝ) (mj : Bool)
    (_ : (odeRK tab (fun p t _ => (P p).eval t) cj rF rK nj).ValidState t0 y0 st mj)
    (_ : ((odeRK tab (fun p t _ => (P p).eval t) cj rF rK nj).step t0 (t0 + h) y0 st
      mj).result.isOkay = true),
    |((odeRK tab (fun p t _ => (P p).eval t) cj rF rK nj).step t0 (t0 + h) y0 st mj).y
        - (y0 + ∑ p, ((Q p).eval (t0 + h) - (Q p).eval t0))|
      ≤ ε * ∑ p, ∑ k ∈ range n, |(taylor t0 (P p)).coeff k| * |h| ^ (k + 1)

/-- One step of the explicit solver for `y' = lam y` multiplies `y` by a polynomial in `h lam` whose first
coefficients are those of the exponential function (up to `ε`). -/
def AmplifiesLikeExp (tab : Tableau ℚ) (n : ℕ) (ε : ℚ) : Prop :=
  ∃ r : ℕ → ℚ, (∀ k ≤ n, |r k - 1 / (k.factorial : ℚ)| ≤ ε) ∧
    ∀ (E : Type) [AddCommGroup E] [Module ℝ E] [Module ℚ E] (J : Type) (lam : ℝ)
      (cj : CalcJac) (rF rK : RootFinder E J) (nj : J) (t0 h : ℝ) (y0 : E) (st : RK.State 1 E) (mj : Bool)
      (_ : (odeRK ![tab] ![fun _ y => lam • y] cj rF rK nj).ValidState t0 y0 st mj),
      ((odeRK ![tab] ![fun _ y => lam • y] cj rF rK nj).step t0 (t0 + h) y0 st mj).y
        = (∑ k ∈ range (tab.bSol.length + 1), (r k : ℝ) * (h * lam) ^ k) • y0

/-- `sum_j a_ij = c_i`, `sum_i b_i = 1`, `sum_i e_i = 0`, up to `ε`. -/
structure Tableau.Consistent (tab : Tableau ℚ) (ε : ℚ) : Prop where
  rows : ∀ i < tab.c.length, |(tab.aLower.getD i []).sum + (tab.aDiagonal.getD []).getD (i + 1) 0
    - tab.c.getD i 0| ≤ ε
  sol : |tab.bSol.sum - 1| ≤ ε
  error : |tab.bError.sum| ≤ ε

end Verif
