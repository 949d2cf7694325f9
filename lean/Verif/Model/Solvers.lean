import Verif.Model.Loop
import Verif.Model.RK
import Mathlib.Analysis.Calculus.FDeriv.Basic
import Mathlib.Algebra.BigOperators.Fin

/-!
# Models of the solvers in `/repo/diffrax/_solver/` that are not Runge-Kutta tableaus

`HalfSolver`, `Euler`, `ImplicitEuler`, `LeapfrogMidpoint`, `ReversibleHeun`, `SemiImplicitEuler`,
`EulerHeun`, `StratonovichMilstein`, `ItoMilstein`. Terms are as in `Model/RK.lean` (`vf`, `contr`, `prod`,
`vf_prod`). Simplifications: exact arithmetic over a field (`0.5` is one half), `args` left out; the error
estimate `None` of non-adaptive solvers is `()`; `jax.jvp` and `jax.jacfwd` are the Fréchet derivative.
The dense information `dict(y0=y0, y1=y1)` is the pair `(y0, y1)`.
-/

namespace Verif

variable {T K Y VF Ct : Type}

/-! ### HalfSolver -/

/-- `HalfSolver.step` (`base.py` 313-341). `half t0 t1` is `t0 + 0.5 * (t1 - t0)`, `dist a b` is `|a - b|`. -/
def halfSolver {E E' D S : Type} (half : T → T → T) (dist : Y → Y → E') (s : Solver T Y E D S) :
    Solver T Y E' D S where
  step t0 t1 y0 st madeJump :=
    let thalf := half t0 t1
    let o1 := s.step t0 thalf y0 st madeJump
    let o2 := s.step thalf t1 o1.y o1.state false
    let o3 := s.step t0 t1 y0 st madeJump
    { y := o2.y
      err := dist o2.y o3.y
      dense := o3.dense
      state := o2.state
      result := o1.result.update (o2.result.update o3.result) }
  interp := s.interp

section
variable [AddCommGroup Y]

/-- `LocalLinearInterpolation` is modelled elsewhere (`Model/LocalInterp.lean`); here it is a parameter. -/
abbrev LocalLin (T Y : Type) := T → T → Y × Y → T → Y

/-- `Euler.step` (`euler.py` 47-61). -/
def euler (term : Term T Y VF Ct) (interp : LocalLin T Y) : Solver T Y Unit (Y × Y) Unit where
  step t0 t1 y0 _ _ :=
    let control := term.contr t0 t1
    let y1 := y0 + term.vfProd t0 y0 control
    { y := y1, err := (), dense := (y0, y1), state := (), result := .successful }
  interp := interp

/-- `LeapfrogMidpoint.init` (`leapfrog_midpoint.py` 54-64). -/
def leapfrogInit (t0 : T) (y0 : Y) : T × Y := (t0, y0)

/-- `LeapfrogMidpoint.step` (66-82). -/
def leapfrog (term : Term T Y VF Ct) (interp : LocalLin T Y) : Solver T Y Unit (Y × Y) (T × Y) where
  step t0 t1 y0 st _ :=
    let control := term.contr st.1 t1
    let y1 := st.2 + term.vfProd t0 y0 control
    { y := y1, err := (), dense := (y0, y1), state := (t0, y0), result := .successful }
  interp := interp

/-- `SemiImplicitEuler.step` (`semi_implicit_euler.py` 46-68). -/
def semiImplicitEuler {Y₁ Y₂ C₁ C₂ : Type} [AddCommGroup Y₁] [AddCommGroup Y₂]
    (term1 : T → Y₂ → C₁ → Y₁) (contr1 : T → T → C₁) (term2 : T → Y₁ → C₂ → Y₂) (contr2 : T → T → C₂)
    (interp : LocalLin T (Y₁ × Y₂)) :
    Solver T (Y₁ × Y₂) Unit ((Y₁ × Y₂) × (Y₁ × Y₂)) Unit where
  step t0 t1 y0 _ _ :=
    let control1 := contr1 t0 t1
    let control2 := contr2 t0 t1
    let y1_1 := y0.1 + term1 t0 y0.2 control1
    let y1_2 := y0.2 + term2 t0 y1_1 control2
    { y := (y1_1, y1_2), err := (), dense := (y0, (y1_1, y1_2)), state := (), result := .successful }
  interp := interp

variable [Field K] [Module K Y]

/-- `ImplicitEuler.step` (`implicit_euler.py` 66-100); `root rel guess` is `optx.root_find` with
`throw=False`, and its result promoted. -/
def implicitEuler (K : Type) [Field K] [Module K Y] (term : Term T Y VF Ct)
    (root : (Y → Y) → Y → Y × Result) (interp : LocalLin T Y) : Solver T Y Y (Y × Y) Unit where
  step t0 t1 y0 _ _ :=
    let control := term.contr t0 t1
    let k0 := term.vfProd t0 y0 control
    let sol := root (fun z => term.vfProd t1 (y0 + z) control - z) k0
    let k1 := sol.1
    let y1 := y0 + k1
    { y := y1, err := (1 / 2 : K) • (k1 - k0), dense := (y0, y1), state := (), result := sol.2 }
  interp := interp

/-- `ReversibleHeun.init` (`reversible_heun.py` 49-59). -/
def reversibleHeunInit (term : Term T Y VF Ct) (t0 : T) (y0 : Y) : Y × VF := (y0, term.vf t0 y0)

/-- `ReversibleHeun.step` (61-83). -/
def reversibleHeun (K : Type) [Field K] [Module K Y] [AddCommGroup VF] (term : Term T Y VF Ct)
    (interp : LocalLin T Y) : Solver T Y Y (Y × Y) (Y × VF) where
  step t0 t1 y0 st madeJump :=
    let yhat0 := st.1
    let vf0 := if madeJump then term.vf t0 y0 else st.2
    let control := term.contr t0 t1
    let yhat1 := (2 : K) • y0 - yhat0 + term.prod vf0 control
    let vf1 := term.vf t1 yhat1
    let y1 := y0 + (1 / 2 : K) • term.prod (vf0 + vf1) control
    { y := y1, err := (1 / 2 : K) • term.prod (vf1 - vf0) control, dense := (y0, y1)
      state := (yhat1, vf1), result := .successful }
  interp := interp

/-- `EulerHeun.step` (`euler_heun.py` 52-77); `drift` and `diffusion` are the two terms. -/
def eulerHeun (K : Type) [Field K] [Module K Y] {VF' Ct' : Type} (drift : Term T Y VF Ct)
    (diffusion : Term T Y VF' Ct') (interp : LocalLin T Y) : Solver T Y Unit (Y × Y) Unit where
  step t0 t1 y0 _ _ :=
    let dt := drift.contr t0 t1
    let dW := diffusion.contr t0 t1
    let f0 := drift.vfProd t0 y0 dt
    let g0 := diffusion.vfProd t0 y0 dW
    let y' := y0 + g0
    let g' := diffusion.vfProd t0 y' dW
    let y1 := y0 + f0 + (1 / 2 : K) • (g0 + g')
    { y := y1, err := (), dense := (y0, y1), state := (), result := .successful }
  interp := interp

end

/-! ### Milstein's method -/

section
variable {E VF' Ct' : Type} [NormedAddCommGroup E] [NormedSpace ℝ E]

/-- `StratonovichMilstein.step` (`milstein.py` 67-92). -/
noncomputable def stratonovichMilstein (drift : Term T E VF Ct) (diffusion : Term T E VF' Ct')
    (interp : LocalLin T E) : Solver T E Unit (E × E) Unit where
  step t0 t1 y0 _ _ :=
    let dt := drift.contr t0 t1
    let dw := diffusion.contr t0 t1
    let f0_prod := drift.vfProd t0 y0 dt
    let g0_prod := diffusion.vfProd t0 y0 dw
    let v0_prod := fderiv ℝ (fun y => diffusion.vfProd t0 y dw) y0 g0_prod
    let y1 := y0 + f0_prod + g0_prod + (1 / 2 : ℝ) • v0_prod
    { y := y1, err := (), dense := (y0, y1), state := (), result := .successful }
  interp := interp

variable [NormedAddCommGroup VF'] [NormedSpace ℝ VF']

/-- `ItoMilstein.step` (`milstein.py` 146-370), for a Brownian motion with values in `ℝ^d` (the
flattened pytree; the reshaping and transposing of pytrees is left out) and real numbers (`conj` does
nothing). -/
noncomputable def itoMilstein {d : ℕ} (drift : Term T E VF ℝ) (diffusion : Term T E VF' (Fin d → ℝ))
    (interp : LocalLin T E) : Solver T E Unit (E × E) Unit where
  step t0 t1 y0 _ _ :=
    let dt := drift.contr t0 t1
    let dw := diffusion.contr t0 t1
    let f0_prod := drift.vfProd t0 y0 dt
    let g0 := diffusion.vf t0 y0
    let g0_prod := diffusion.prod g0 dw
    -- 217-227
    let dwdw : Fin d → Fin d → ℝ := fun j1 j2 => dw j1 * dw j2 - (if j1 = j2 then dt else 0)
    -- the columns of the matrix of `g0` (294-299)
    let g0_matrix : Fin d → E := fun j => fderiv ℝ (fun w => diffusion.prod g0 w) dw (Pi.single j 1)
    -- 236-250, 277-305
    let v0_matrix : Fin d → Fin d → E := fun j1 j2 =>
      let jvp := fderiv ℝ (fun y => diffusion.vf t0 y) y0 (g0_matrix j1)
      fderiv ℝ (fun w => diffusion.prod jvp w) dw (Pi.single j2 1)
    -- 311-328
    let v0_prod := ∑ j1, ∑ j2, dwdw j1 j2 • v0_matrix j1 j2
    let y1 := y0 + f0_prod + g0_prod + (1 / 2 : ℝ) • v0_prod
    { y := y1, err := (), dense := (y0, y1), state := (), result := .successful }
  interp := interp

end
end Verif
