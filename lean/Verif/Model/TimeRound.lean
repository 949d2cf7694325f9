import Verif.Model.Front

/-!
# Model of the conversion of times to the time type in `/repo/diffrax/_integrate.py`

* 1036-1045: the sign of `dt0` is checked on the times as they were passed;
* 1080-1088: `t0`, `t1`, `dt0` and `SaveAt(ts=...)` are converted to one floating point type, that is, rounded.

Everything that follows uses the converted times. Simplified: the conversion is a function `rnd` on the times of the model; the
arithmetic after it is exact, as in `Model/Front`. The times inside the step size controller are not converted here.
-/

namespace Verif

variable {T Y VF Ct E D S C O F : Type} {m : Nat}

/-- Lines 1080-1088. -/
def Problem.roundTimes (rnd : T → T) (p : Problem m T Y VF Ct E D S C O F) : Problem m T Y VF Ct E D S C O F :=
  { p with
    t0 := rnd p.t0, t1 := rnd p.t1, dt0 := p.dt0.map rnd
    subs := p.subs.map (fun s => { s with ts := s.ts.map rnd }) }

variable [Ring T] [LinearOrder T] [LinearOrder F] [Zero F] [AddCommGroup Ct]

/-- `diffeqsolve` with the conversion of times. (The sign of `dt0` is checked once more by `diffeqsolve` on the converted times; that
does not happen in the code and cannot fail, see `C117_dt0`.) -/
def diffeqsolveRounded (rnd : T → T) (p : Problem m T Y VF Ct E D S C O F) : Except FrontError (Sol T Y D S C O F) := do
  p.checkDt0
  diffeqsolve (p.roundTimes rnd)

end Verif
