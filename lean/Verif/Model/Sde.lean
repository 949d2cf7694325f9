import Verif.Model.Term
import Verif.Model.Solvers

/-!
# Model of the terms of a stochastic differential equation (`/repo/diffrax/_term.py`)

As in `Model/Term.lean`: exact real arithmetic, `args` and pytrees left out. (`Model/Terms.lean` has the same terms for
pytrees of arrays; here the vector field is given by its columns.)
-/

namespace Verif

variable {T Y VF VF' Ct Ct' : Type}

/-- `ControlTerm(g, w)` (271-555), when the control is a path with values in `ℝ^d`: `contr` is `w.evaluate(t0, t1)`, the
increment of the path, and `prod` is the product of the matrix with columns `g j` with the control (267-268; `conj` does
nothing for real numbers). `vf_prod` is the default one (133-140). -/
def noiseTerm {E : Type} [AddCommGroup E] [Module ℝ E] {d : ℕ} (g : Fin d → ℝ → E → E) (w : ℝ → Fin d → ℝ) :
    Term ℝ E (Fin d → E) (Fin d → ℝ) where
  vf t y j := g j t y
  contr t0 t1 := w t1 - w t0
  prod v c := ∑ j, c j • v j
  vfProd t y c := ∑ j, c j • g j t y

/-- `MultiTerm(k, k')` (666-731). -/
def multiTerm [Add Y] (k : Term T Y VF Ct) (k' : Term T Y VF' Ct') : Term T Y (VF × VF') (Ct × Ct') where
  vf t y := (k.vf t y, k'.vf t y)
  contr t0 t1 := (k.contr t0 t1, k'.contr t0 t1)
  prod v c := k.prod v.1 c.1 + k'.prod v.2 c.2
  vfProd t y c := k.vfProd t y c.1 + k'.vfProd t y c.2
  vfExpensive := k.vfExpensive || k'.vfExpensive

/-- A Runge-Kutta method with one tableau, applied to `MultiTerm(ODETerm(f), ControlTerm(g, w))`: the tableau is used for
the whole `MultiTerm` (`runge_kutta.py` 367-372, 511-515). -/
noncomputable def sdeRK {E J : Type} [AddCommGroup E] [Module ℝ E] [Module ℚ E] {d : ℕ} (tab : Tableau ℚ)
    (f : ℝ → E → E) (g : Fin d → ℝ → E → E) (w : ℝ → Fin d → ℝ) (calcJac : CalcJac)
    (rootF : RootFinder (E × (Fin d → E)) J) (rootK : RootFinder E J) (noJac : J) :
    RK 1 ℝ ℚ E (E × (Fin d → E)) (ℝ × (Fin d → ℝ)) J where
  tab _ := tab
  term _ := multiTerm (odeTerm f) (noiseTerm g w)
  at' t0 t1 c := t0 + (c : ℝ) * (t1 - t0)
  calcJac := calcJac
  rootF := rootF
  rootK := rootK
  noJac := noJac

end Verif
