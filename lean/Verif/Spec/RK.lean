import Verif.Model.RK
import Verif.Spec.Loop

/-!
# Specification of a Runge-Kutta step, independent of how it is computed

The textbook formulas, for `m` interleaved tableaus with lower triangular coefficients.
-/

namespace Verif

variable {T K Y VF Ct J : Type} {m : Nat}
variable [Field K] [DecidableEq K] [AddCommGroup Y] [Module K Y] [AddCommGroup VF] [Module K VF]

/-- The coefficient `a_ij` below the diagonal (counting stages from zero; stage 0 has no row). -/
def Tableau.a (tab : Tableau K) (i j : Nat) : K := (tab.aLower.getD (i - 1) []).getD j 0

/-- The coefficient `a_ii`. -/
def Tableau.d (tab : Tableau K) (i : Nat) : K := (tab.aDiagonal.getD []).getD i 0

/-- The abscissa `c_i`. -/
def Tableau.abscissa (tab : Tableau K) (i : Nat) : K := (tab.c1 :: tab.c).getD i 0

/-- The shapes that `ButcherTableau.__post_init__` asserts, for `n` stages. -/
structure Tableau.Shape (tab : Tableau K) (n : Nat) : Prop where
  c : tab.c.length + 1 = n
  bSol : tab.bSol.length = n
  bError : tab.bError.length = n
  rows : tab.aLower.length + 1 = n
  row : ∀ i < tab.aLower.length, (tab.aLower.getD i []).length = i + 1
  diag : ∀ d, tab.aDiagonal = some d → d.length = n

/-- What the class checks (113-140, 367-374), plus the laws of terms (see C50) for those terms whose
vector field is not declared expensive. -/
structure RK.WF (rk : RK m T K Y VF Ct J) : Prop where
  pos : 0 < m
  shape : ∀ p, (rk.tab p).Shape rk.numStages
  two : 2 ≤ rk.numStages
  oneImplicit : ∀ p q, (rk.tab p).implicit → (rk.tab q).implicit → p = q
  add : ∀ p f g c, (rk.term p).prod (f + g) c = (rk.term p).prod f c + (rk.term p).prod g c
  smul : ∀ p (a : K) f c, (rk.term p).prod (a • f) c = a • (rk.term p).prod f c
  vfProd : ∀ p t y c, (rk.term p).vfProd t y c = (rk.term p).prod ((rk.term p).vf t y) c

/-- The value at which stage `i` is evaluated, given all the stages `k p j` (term `p`, stage `j`). -/
def RK.stageValue (rk : RK m T K Y VF Ct J) (y0 : Y) (k : Fin m → Nat → Y) (i : Nat) : Y :=
  y0 + ∑ p, (∑ j ∈ Finset.range i, (rk.tab p).a i j • k p j + (rk.tab p).d i • k p i)

/-- The time at which term `p` is evaluated at stage `i`; exactly the end of the step if `c_i = 1`. -/
def RK.stageTime (rk : RK m T K Y VF Ct J) (t0 t1 : T) (p : Fin m) (i : Nat) : T :=
  if (rk.tab p).abscissa i = 1 then t1 else rk.at' t0 t1 ((rk.tab p).abscissa i)

/-- `k` are the stages of the method: `k_i = f(t_i, y0 + sum_j a_ij k_j) . control`. -/
def RK.IsStages (rk : RK m T K Y VF Ct J) (t0 t1 : T) (y0 : Y) (k : Fin m → Nat → Y) : Prop :=
  ∀ i < rk.numStages, ∀ p, k p i = (rk.term p).prod
    ((rk.term p).vf (rk.stageTime t0 t1 p i) (rk.stageValue y0 k i)) ((rk.term p).contr t0 t1)

/-- `y0 + sum_i b_i k_i`, summed over all terms. -/
def RK.combine (rk : RK m T K Y VF Ct J) (b : Tableau K → List K) (k : Fin m → Nat → Y) : Y :=
  ∑ p, ∑ i ∈ Finset.range rk.numStages, (b (rk.tab p)).getD i 0 • k p i

/-- A root finder that is right whenever it reports success. -/
def RootFinder.Exact {X : Type} [Zero X] (r : RootFinder X J) : Prop :=
  ∀ i rel guess jac, (r.find i rel guess jac).2.isOkay = true → rel (r.find i rel guess jac).1 = 0

/-- A root finder that solves `x - v = 0`, successfully. -/
def RootFinder.SolvesTrivial {X : Type} [Sub X] (r : RootFinder X J) : Prop :=
  ∀ i v guess jac, r.find i (fun x => x - v) guess jac = (v, .successful)

/-- The stored vector field is that at the start of the step, unless it is not going to be used. -/
def RK.ValidState (rk : RK m T K Y VF Ct J) (t0 : T) (y0 : Y) (st : RK.State m VF) (madeJump : Bool) :
    Prop :=
  rk.fsal = true → ∃ b f0, st = some (b, f0) ∧
    (b = true ∨ madeJump = true ∨ ∀ p, f0 p = (rk.term p).vf t0 y0)

/-- Extra conditions under which first-same-as-last methods make sense (they hold, up to rounding, by
the consistency checks 122-126): the first stage is at `t0` and the last one at `t1`. -/
structure RK.FsalOK (rk : RK m T K Y VF Ct J) : Prop where
  c1 : rk.fsal = true → ∀ p, (rk.tab p).c1 = 0
  cLast : rk.fsal = true → ∀ p, (rk.tab p).abscissa (rk.numStages - 1) = 1
  at_zero : ∀ a b, rk.at' a b 0 = a

/-- The same method, forgetting everything between steps: every stage is evaluated. -/
def RK.scratch (rk : RK m T K Y VF Ct J) (interp : T → T → RK.Dense m Y → T → Y) :
    Solver T Y (Option Y) (RK.Dense m Y) (RK.State m VF) :=
  { step := fun t0 t1 y0 _ madeJump => rk.step t0 t1 y0 rk.init madeJump, interp := interp }

end Verif
