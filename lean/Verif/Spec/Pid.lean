import Verif.Model.Pid
import Mathlib.Algebra.Order.Field.Basic

/-! # Specification vocabulary for PIDController -/

set_option linter.unusedSectionVars false

namespace Verif

variable {K : Type} [Field K] [LinearOrder K] [IsStrictOrderedRing K]

namespace XVal

/-- A value a norm can take: finite and nonnegative, or infinite. -/
def IsErr (x : XVal K) : Prop := x = .pinf ∨ ∃ a, 0 ≤ a ∧ x = .fin a

/-- Finite and positive. -/
def Pos (x : XVal K) : Prop := ∃ a, 0 < a ∧ x = .fin a

end XVal

/-- Sensible settings: `0 < factormin ≤ safety < 1 ≤ factormax`, a positive power function. -/
structure Pid.Valid (p : Pid K) : Prop where
  rpow_pos : ∀ b c, 0 < b → 0 < p.rpow b c
  factormin_pos : 0 < p.factormin
  factormin_le : p.factormin ≤ p.safety
  safety_lt : p.safety < 1
  le_factormax : 1 ≤ p.factormax

/-- The stored errors are finite and positive. -/
def PidState.Good (s : PidState K) : Prop := s.prevInv.Pos ∧ s.prevPrevInv.Pos

/-- `d` forced into `[dtmin, dtmax]`. -/
def clampDt (p : Pid K) (d : K) : K :=
  let d := match p.dtmax with
    | some m => min d m
    | none => d
  match p.dtmin with
  | some m => max d m
  | none => d

/-- One component of the data of a step: initial value, candidate value (`none` is NaN), error. -/
abbrev Comp (K : Type) := K × Option K × K

/-- The scaled error of one component of a leaf, as documented: `err / (atol + rtol * max |y0| |y1|)`,
or with `|y0|` only if the candidate of this leaf contains a NaN. -/
def specScaled (p : Pid K) (leaf : List (Comp K)) : List K :=
  if ∃ c ∈ leaf, c.2.1 = none then
    leaf.map (fun c => c.2.2 / (p.atol + p.rtol * |c.1|))
  else
    leaf.map (fun c => c.2.2 / (p.atol + p.rtol * max |c.1| |c.2.1.getD 0|))

/-- A number or NaN. -/
def optX : Option K → XVal K
  | some x => .fin x
  | none => .nan

/-- The three pytrees the controller is given. -/
def treeY0 (data : List (List (Comp K))) : XTree K := data.map (fun l => l.map (fun c => .fin c.1))
def treeY1 (data : List (List (Comp K))) : XTree K :=
  data.map (fun l => l.map (fun c => optX c.2.1))
def treeErr (data : List (List (Comp K))) : XTree K := data.map (fun l => l.map (fun c => .fin c.2.2))

/-- The largest absolute component, NaN-propagating: an example of a norm. -/
def linf (t : XTree K) : XVal K := (t.flatMap id).foldl (fun a x => XVal.max a x.abs) (.fin 0)

/-- The controller's state after a sequence of calls `(t0, t1, scaled error)`. -/
def pidRun (p : Pid K) (s : PidState K) (calls : List (K × K × XVal K)) : PidState K :=
  calls.foldl (fun s c => (p.adaptScaled (.fin c.1) (.fin c.2.1) c.2.2 s).state) s

/-- Which of these calls were accepted: their scaled errors, in order. -/
def acceptedErrs (p : Pid K) (s : PidState K) : List (K × K × XVal K) → List (XVal K)
  | [] => []
  | c :: cs =>
    let r := p.adaptScaled (.fin c.1) (.fin c.2.1) c.2.2 s
    if r.keep then c.2.2 :: acceptedErrs p r.state cs else acceptedErrs p r.state cs

/-- The inverse of a scaled error as it should enter the history: zero and infinite ones are
replaced by 1. -/
def cleanInv : XVal K → XVal K
  | .fin a => if a = 0 then .fin 1 else .fin (1 / a)
  | .pinf => .fin 1
  | .ninf => .fin 1
  | .nan => .nan

/-- A fresh controller state. -/
def PidState.fresh : PidState K := { prevInv := .fin 1, prevPrevInv := .fin 1, atDtmin := false }

end Verif
