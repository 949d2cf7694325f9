import Verif.Model.Batch
import Verif.Spec.Loop

/-!
# What it means for a batch to behave like its elements
-/

namespace Verif

variable {n : ℕ} {T Y E D S C O F : Type}

/-- A batched solver step that gives each lane exactly what the lane's own solver gives it when called alone,
provided that the lane's call is `valid`; whatever the other lanes are doing. -/
def BatchStep.Faithful (step : BatchStep n T Y E D S) (solver : Fin n → Solver T Y E D S)
    (valid : Fin n → T → Y → S → Bool → Prop) : Prop :=
  ∀ calls i, valid i (calls i).t0 (calls i).y0 (calls i).state (calls i).madeJump →
    step calls i = (solver i).step (calls i).t0 (calls i).t1 (calls i).y0 (calls i).state (calls i).madeJump

/-- A root finder which, started at a root, returns it. (The initial guess is the upper end.) -/
def FindsStart [Zero F] (find : (T → List F) → T → T → T × Option Result) : Prop :=
  ∀ g lo hi, (∀ x ∈ g hi, x = 0) → find g lo hi = (hi, none)

section
variable [LinearOrder T] [LinearOrder F] [Zero F]

/-- The solve that a lane would do on its own. -/
def Start.solve (start : Start T Y S C) (cfg : Cfg T Y E D S C O F) : Output T Y D S C O F :=
  Verif.solve cfg start.y0 start.tnext start.ctrl start.state start.madeJump

/-- The states in which that solve attempts steps. -/
def Start.history (start : Start T Y S C) (cfg : Cfg T Y E D S C O F) : List (Core T Y D S C F) :=
  Verif.history cfg start.y0 start.tnext start.ctrl start.state start.madeJump

/-- Each element of the batch gets exactly what it gets when it is solved alone: saved values, dense output,
statistics, internal states, result. -/
def BatchAgrees (cfg : Fin n → Cfg T Y E D S C O F) (step : BatchStep n T Y E D S) (zero : O) (maxSteps : ℕ)
    (start : Fin n → Start T Y S C) : Prop :=
  ∀ i, solveB cfg step zero maxSteps start i = (start i).solve (cfg i)

end
end Verif
