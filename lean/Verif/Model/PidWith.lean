import Verif.Model.Pid

/-!
# PIDController on other representations of the state

`pidController` of `Model/Pid.lean` works on trees of extended numbers. Here it is attached to solvers whose states are
of another type, through the scaled error (`/repo/diffrax/_step_size_controller/pid.py` 473-486).
-/

namespace Verif

section
variable {K Y Er : Type} [Field K] [LinearOrder K]

/-- `adapt_step_size` (`pid.py` 394-567), given how the scaled error is computed. -/
def pidWith (p : Pid K) (scaled : Y → Y → Er → XVal K) : Controller K Y Er (PidState K) where
  adapt t0 t1 y0 y1 err s :=
    let r := p.adaptScaled (.fin t0) (.fin t1) (scaled y0 y1 err) s
    { keep := r.keep, tprev := r.t0.toK t0, tnext := r.t1.toK t1, madeJump := false, state := r.state,
      result := r.result }

/-- On trees of extended numbers this is the controller of `Model/Pid.lean`. -/
theorem pidWith_tree (p : Pid K) : pidWith p p.scaledError = pidController p := rfl

variable {d : ℕ}

/-- A vector as a pytree with one leaf. -/
def vecTree (y : Fin d → K) : XTree K := [List.ofFn fun i => .fin (y i)]

/-- An error estimate, `none` being infinite (after a failed implicit solve, `runge_kutta.py` 1155-1166). -/
def errTree (d : ℕ) : Option (Fin d → K) → XTree K
  | some e => vecTree e
  | none => [List.replicate d .pinf]

/-- The scaled error (473-486) for a state that is one vector. -/
def Pid.scaledVec (p : Pid K) (y0 y1 : Fin d → K) (err : Option (Fin d → K)) : XVal K :=
  p.scaledError (vecTree y0) (vecTree y1) (errTree d err)

end
end Verif
