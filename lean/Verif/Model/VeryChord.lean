import Verif.Model.Results
import Verif.Model.XReal

/-!
# Model of the chord root finder (`/repo/diffrax/_root_finder/_verychord.py`)

Numbers are exact, NaN or infinite. The states, the function, the linear solve (with the operator fixed at the start)
and the norm are arbitrary. The loop that calls `step` and `terminate` is `optimistix.root_find`, which is not in the
repository: `chordLoop` is what its documentation says. Left out: gradients, `aux`.
-/

namespace Verif

/-- What the root finder is given. -/
structure Chord (Y K : Type) where
  /-- `fn(y, args)`. -/
  fn : Y → Y
  /-- `lx.linear_solve(jac, fx, ..., throw=False)`. -/
  linearSolve : Y → Y × Result
  /-- `(y**ω - diff**ω).ω`. -/
  sub : Y → Y → Y
  /-- `diff` and `new_y` to `self.norm(diff / (self.atol + self.rtol * abs(new_y)))` (127-129). -/
  size : Y → Y → XVal K
  kappa : K
  /-- `10 ** (2 - jnp.finfo(diffsize.dtype).precision)` (25). -/
  resolution : K
  /-- `optx.RESULTS.nonlinear_divergence` and `optx.RESULTS.nonlinear_max_steps_reached`. -/
  divergence : Result
  maxStepsReached : Result

/-- `_VeryChordState` (38-44), without the linear operator, which does not change, and `diff`, which is not read. -/
structure ChordState (K : Type) where
  diffsize : XVal K
  diffsizePrev : XVal K
  result : Result
  step : ℕ

namespace Chord
variable {Y K : Type} [Field K] [LinearOrder K]

/-- `init` (98-105), or, for a stage of a Runge-Kutta method, the state made by it at the beginning of the step. -/
def init : ChordState K :=
  { diffsize := .pinf, diffsizePrev := .fin 1, result := .successful, step := 0 }

/-- `step` (110-139). -/
def step (c : Chord Y K) (y : Y) (s : ChordState K) : Y × ChordState K :=
  let sol := c.linearSolve (c.fn y)
  let diff := sol.1
  let newY := c.sub y diff
  (newY, { diffsize := c.size diff newY, diffsizePrev := s.diffsize, result := sol.2, step := s.step + 1 })

/-- `_small` (22-26). -/
def small (c : Chord Y K) (diffsize : XVal K) : Bool := diffsize.lt (.fin c.resolution)

/-- `_diverged` (29-30). -/
def diverged (rate : XVal K) : Bool := (rate.isNan || rate.isInf) || (XVal.fin 2).lt rate

/-- `_converged` (33-34). -/
def converged (c : Chord Y K) (factor : XVal K) : Bool := (XVal.fin 0).lt factor && factor.lt (.fin c.kappa)

/-- `terminate` (141-169). -/
def terminate (c : Chord Y K) (s : ChordState K) : Bool × Result :=
  let atLeastTwo := decide (2 ≤ s.step)
  let rate := s.diffsize.div s.diffsizePrev
  let factor := (s.diffsize.mul rate).div ((XVal.fin 1).sub rate)
  let small := c.small s.diffsize
  let diverged := diverged rate
  let converged := c.converged factor
  let terminate := atLeastTwo && (small || diverged || converged)
  let terminateResult :=
    if atLeastTwo && !small && (diverged || !converged) then c.divergence else .successful
  let linsolveFail := !s.result.isSuccessful
  (linsolveFail || terminate, if linsolveFail then s.result else terminateResult)

/-- The loop of `optimistix.root_find`: at most `max_steps` steps, until `terminate` says so. -/
def chordLoop (c : Chord Y K) : ℕ → Y → ChordState K → Y × ChordState K
  | 0, y, s => (y, s)
  | n + 1, y, s => if (c.terminate s).1 then (y, s) else chordLoop c n (c.step y s).1 (c.step y s).2

/-- The result of the loop. -/
def rootFind (c : Chord Y K) (maxSteps : ℕ) (y : Y) : Y × ChordState K × Result :=
  let r := c.chordLoop maxSteps y init
  let t := c.terminate r.2
  (r.1, r.2, if t.2 = .successful ∧ t.1 = false then c.maxStepsReached else t.2)

end Chord
end Verif
