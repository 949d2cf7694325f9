import Mathlib.Algebra.Module.Defs
import Mathlib.Algebra.Field.Defs
import Mathlib.Algebra.BigOperators.Fin
import Verif.Model.Loop

/-!
# Model of `/repo/diffrax/_solver/runge_kutta.py`

`ButcherTableau`, `AbstractRungeKutta.init` and `AbstractRungeKutta.step`, for one tableau or for
several interleaved ones (`MultiButcherTableau`), explicit or diagonally implicit, working with vector
fields ("f-space") or with (vector field)-control products ("k-space"), with or without the
first-same-as-last (FSAL) optimisation.

Simplifications:
* the tableaus' coefficients are elements of a field `K`; `y` and the vector field values are elements
  of modules over `K` (exact arithmetic, no NaN). Times are elements of any type `T`:
  `t0 + c * (t1 - t0)` is an arbitrary function `at'`;
* a pytree of tableaus and terms is indexed by `Fin m`. All terms share one type of vector field
  values and one type of controls (which can be sum types);
* a buffer with one entry per stage is a function of the stage index;
* the nonlinear solver is an arbitrary function, of the stage index, the function whose root is sought,
  the initial guess and the state made by its `init` (the Jacobian);
* `terms.is_vf_expensive` only depends on shapes, so it is a constant;
* `args`, dtypes, `scan_kind`, `stop_gradient`s and `eqxi.unvmap_any` (batching) are left out.
-/

namespace Verif

variable {T K Y VF Ct J : Type}

/-! ### Tableaus -/

/-- `ButcherTableau` (49-64). `aPredictor` is only used if `aDiagonal` is given. -/
structure Tableau (K : Type) where
  c : List K
  bSol : List K
  bError : List K
  aLower : List (List K)
  aDiagonal : Option (List K) := none
  aPredictor : List (List K) := []
  c1 : K
deriving DecidableEq

namespace Tableau
variable [Field K] [DecidableEq K] (tab : Tableau K)

/-- `implicit` (164). -/
def implicit : Bool := tab.aDiagonal.isSome

/-- `num_stages` (165). -/
def numStages : Nat := tab.bSol.length

/-- The asserts of `__post_init__` (113-140); `close` is `np.allclose`. -/
def check (close : K → K → Bool) : Bool :=
  tab.c.length == tab.aLower.length
  && (tab.aLower.mapIdx (fun i a => a.length == i + 1)).all id
  && tab.c.length + 1 == tab.bSol.length
  && tab.c.length + 1 == tab.bError.length
  && ((List.zip tab.aLower tab.c).mapIdx (fun i ac =>
        let diagonal := match tab.aDiagonal with
          | none => 0
          | some d => d.getD (i + 1) 0
        close (ac.1.sum + diagonal) ac.2)).all id
  && close tab.bSol.sum 1
  && close tab.bError.sum 0
  && match tab.aDiagonal with
     | none => tab.aPredictor.isEmpty
     | some d =>
       tab.c.length + 1 == d.length
       && tab.aLower.length == tab.aPredictor.length
       && (List.zip tab.aLower tab.aPredictor).all (fun ap =>
            ap.1.length == ap.2.length && close ap.2.sum 1)

/-- Lines 142-144. -/
def bSolEqual : Bool :=
  let lower := decide (tab.bSol.dropLast = tab.aLower.getLastD [])
  let lastDiagonal := match tab.aDiagonal with
    | none => 0
    | some d => d.getLastD 0
  lower && decide (tab.bSol.getLastD 0 = lastDiagonal)

/-- `fsal` (145-147, 151-156). -/
def fsal : Bool :=
  tab.bSolEqual && match tab.aDiagonal with
    | none => true
    | some d => decide (d.headD 0 = 0)

/-- `ssal` (148-150, 157-162). -/
def ssal : Bool :=
  tab.bSolEqual && match tab.aDiagonal with
    | none => true
    | some d => decide (d.getLastD 0 = 0)

/-- `embed_a_lower(tab)[i]` (788-794): row `i` of the lower triangle, as part of a square matrix. -/
def row (n : Nat) : Nat → List K
  | 0 => List.replicate n 0
  | i + 1 =>
    let a := tab.aLower.getD i []
    a ++ List.replicate (n - a.length) 0

/-- `implicit_predictor[i]` (810-818). -/
def predictorRow (n : Nat) : Nat → List K
  | 0 => List.replicate n 0
  | i + 1 =>
    let a := tab.aPredictor.getD i []
    a ++ List.replicate (n - a.length) 0

/-- `embed_c(tab)[i]` (796-801). -/
def cAt : Nat → K
  | 0 => tab.c1
  | i + 1 => tab.c.getD i 0

/-- `implicit_diagonal[i]` (807-809). -/
def diagAt (i : Nat) : K := (tab.aDiagonal.getD []).getD i 0

end Tableau

/-- `vector_tree_dot(a, buf)` (`base.py` 37-41), on a buffer with one entry per stage. -/
def treeDot {V : Type} [Field K] [AddCommGroup V] [Module K V] (a : List K) (buf : Nat → V) : V :=
  ∑ j ∈ Finset.range a.length, a.getD j 0 • buf j

/-! ### Terms -/

/-- `AbstractTerm` (`_term.py` 30-168) as a solver sees it, at given `args`. -/
structure Term (T Y VF Ct : Type) where
  vf : T → Y → VF
  contr : T → T → Ct
  prod : VF → Ct → Y
  vfProd : T → Y → Ct → Y
  vfExpensive : Bool := false

/-! ### The solver -/

/-- `CalculateJacobian` (215-236). -/
inductive CalcJac where
  | never | everyStage | firstStage | secondStage
deriving DecidableEq

/-- An `optimistix` root finder: `init` (returning a state which holds the Jacobian) and `root_find`.
The stage index is part of the arguments. -/
structure RootFinder (X J : Type) where
  init : Nat → (X → X) → X → J
  find : Nat → (X → X) → X → J → X × Result

/-- An instance of `AbstractRungeKutta` together with the `m` terms it is applied to (one tableau for
each). -/
structure RK (m : Nat) (T K Y VF Ct J : Type) where
  tab : Fin m → Tableau K
  term : Fin m → Term T Y VF Ct
  /-- `t0 + c * dt` -/
  at' : T → T → K → T
  calcJac : CalcJac
  rootF : RootFinder VF J
  rootK : RootFinder Y J
  /-- `_unused` Jacobian (explicit methods) -/
  noJac : J

/-- The value carried by the loop over stages (1045-1054, 1125-1134). `fs`/`ks` hold, for each term, the
stages computed so far; `f1` is `f1_for_fsal`, one vector field value per term. -/
structure StageState (m : Nat) (Y VF J : Type) where
  idx : Nat
  yi : Y
  f1 : Fin m → VF
  jac : J
  fs : Fin m → Nat → VF
  ks : Fin m → Nat → Y
  result : Result

namespace RK
variable {m : Nat}
variable [Field K] [DecidableEq K] [AddCommGroup Y] [Module K Y] [AddCommGroup VF] [Module K VF]
variable (rk : RK m T K Y VF Ct J)

/-- `num_stages` (744): that of the first tableau; they are all the same (369-370). -/
def numStages : Nat := if h : 0 < m then (rk.tab ⟨0, h⟩).numStages else 0

/-- `_common` (392-404): `vf_expensive`. For a `MultiTerm` it is `any` (`_term.py` 729-731). -/
def vfExpensive : Bool := (List.finRange m).any (fun p => (rk.term p).vfExpensive)

/-- `_common` (392-404): `fsal`. -/
def fsal : Bool := (List.finRange m).all (fun p => (rk.tab p).fsal) && !rk.vfExpensive

/-- `implicit_tableau`, `implicit_term` (491-511): the first implicit one. -/
def implicitPart : Option (Fin m) := (List.finRange m).find? (fun p => (rk.tab p).implicit)

/-- `eval_fs` (584-597). -/
def evalFs : Bool := !rk.vfExpensive && rk.fsal

/-- `store_fs` (584-597). -/
def storeFs : Bool := rk.evalFs && rk.implicitPart.isSome

/-- `control` (657). -/
def control (t0 t1 : T) (p : Fin m) : Ct := (rk.term p).contr t0 t1

/-- `prod` (682-688), of one vector field value per term. -/
def prods (t0 t1 : T) (f : Fin m → VF) (p : Fin m) : Y := (rk.term p).prod (f p) (rk.control t0 t1 p)

/-- `jnp.where(c == 1, t1, t0 + c * dt)` (907, 1009). -/
def timeAt (t0 t1 : T) (c : K) : T := if c = 1 then t1 else rk.at' t0 t1 c

/-- `_implicit_relation_f` (245-264). -/
def relF (p : Fin m) (t0 t1 : T) (diag : K) (ti : T) (yPartial : Y) (fi : VF) : VF :=
  fi - (rk.term p).vf ti (yPartial + diag • (rk.term p).prod fi (rk.control t0 t1 p))

/-- `_implicit_relation_k` (268-279). -/
def relK (p : Fin m) (t0 t1 : T) (diag : K) (ti : T) (yPartial : Y) (ki : Y) : Y :=
  ki - (rk.term p).vfProd ti (yPartial + diag • ki) (rk.control t0 t1 p)

/-- The Jacobian used at stage `i`: a new one, or the one carried along (951-990). -/
def newJac (i : Nat) (jac new : J) : J :=
  match rk.calcJac with
  | .never => jac
  | .everyStage => new
  | .firstStage => if i = 0 then new else jac
  | .secondStage => if i = 1 then new else jac

/-- The implicit solve of stage `i` in f-space (908-930, 992-1003): value, Jacobian, result. -/
def solveF (t0 t1 : T) (y0 yPartial : Y) (p : Fin m) (s : StageState m Y VF J) : VF × J × Result :=
  let i := s.idx
  let rel := rk.relF p t0 t1 ((rk.tab p).diagAt i) (rk.timeAt t0 t1 ((rk.tab p).cAt i)) yPartial
  let pred := treeDot ((rk.tab p).predictorRow rk.numStages i) (s.fs p)
  let pred := if !rk.fsal && i == 0 then (rk.term p).vf t0 y0 else pred
  let jac := rk.newJac i s.jac (rk.rootF.init i rel pred)
  let sol := rk.rootF.find i rel pred jac
  (sol.1, jac, sol.2)

/-- The implicit solve of stage `i` in k-space (931-950, 1004-1017). -/
def solveK (t0 t1 : T) (y0 yPartial : Y) (p : Fin m) (s : StageState m Y VF J) : Y × J × Result :=
  let i := s.idx
  let rel := rk.relK p t0 t1 ((rk.tab p).diagAt i) (rk.timeAt t0 t1 ((rk.tab p).cAt i)) yPartial
  let pred := treeDot ((rk.tab p).predictorRow rk.numStages i) (s.ks p)
  let pred := if !rk.fsal && i == 0 then (rk.term p).vfProd t0 y0 (rk.control t0 t1 p) else pred
  let jac := rk.newJac i s.jac (rk.rootK.init i rel pred)
  let sol := rk.rootK.find i rel pred jac
  (sol.1, jac, sol.2)

/-- The `y` at which stage `s.idx` is evaluated, up to its implicit part (869-888). -/
def partialY (t0 t1 : T) (y0 : Y) (s : StageState m Y VF J) : Y :=
  let n := rk.numStages
  let increment : Fin m → Y :=
    if rk.storeFs then rk.prods t0 t1 (fun p => treeDot ((rk.tab p).row n s.idx) (s.fs p))
    else fun p => treeDot ((rk.tab p).row n s.idx) (s.ks p)
  y0 + ∑ p, increment p

/-- The end of `rk_stage` (1009-1054), given the values found for the implicit term (if any). -/
def stageEnd (t0 t1 : T) (s : StageState m Y VF J) (yi : Y) (implicitF : Option VF)
    (implicitK : Option Y) (jac : J) (result : Result) : StageState m Y VF J :=
  let i := s.idx
  let ti : Fin m → T := fun p => rk.timeAt t0 t1 ((rk.tab p).cAt i)
  let fi : Fin m → VF := fun p =>
    if (rk.tab p).implicit then implicitF.getD 0 else (rk.term p).vf (ti p) yi
  let ki : Fin m → Y :=
    if rk.evalFs then rk.prods t0 t1 fi
    else fun p =>
      if (rk.tab p).implicit then implicitK.getD 0
      else (rk.term p).vfProd (ti p) yi (rk.control t0 t1 p)
  { idx := i + 1
    yi := yi
    f1 := if rk.fsal then fi else s.f1
    jac := jac
    fs := if rk.storeFs then fun p => Function.update (s.fs p) i (fi p) else s.fs
    ks := if rk.storeFs then s.ks else fun p => Function.update (s.ks p) i (ki p)
    result := result }

/-- `rk_stage` (859-1054). -/
def stage (t0 t1 : T) (y0 : Y) (s : StageState m Y VF J) : StageState m Y VF J :=
  let yPartial := rk.partialY t0 t1 y0 s
  match rk.implicitPart with
  | none => rk.stageEnd t0 t1 s yPartial none none s.jac s.result
  | some p =>
    let diag := (rk.tab p).diagAt s.idx
    if rk.evalFs then
      let sol := rk.solveF t0 t1 y0 yPartial p s
      let inc := (rk.term p).prod sol.1 (rk.control t0 t1 p)
      rk.stageEnd t0 t1 s (yPartial + diag • inc) (some sol.1) none sol.2.1
        (Result.update s.result sol.2.2)
    else
      let sol := rk.solveK t0 t1 y0 yPartial p s
      rk.stageEnd t0 t1 s (yPartial + diag • sol.1) none (some sol.1) sol.2.1
        (Result.update s.result sol.2.2)

/-- The loop over stages (1136-1150), at most `num_stages` iterations (the fuel). -/
def stages (t0 t1 : T) (y0 : Y) : Nat → StageState m Y VF J → StageState m Y VF J
  | 0, s => s
  | fuel + 1, s =>
    if s.idx < rk.numStages then stages t0 t1 y0 fuel (rk.stage t0 t1 y0 s) else s

/-- The initial Jacobian: that of a relation with zero diagonal (1077-1124). -/
def initJac (t0 t1 : T) (y0 : Y) : J :=
  match rk.calcJac, rk.implicitPart with
  | .never, _ => rk.noJac
  | _, none => rk.noJac
  | _, some p =>
    if rk.evalFs then rk.rootF.init 0 (rk.relF p t0 t1 0 t0 y0) 0
    else rk.rootK.init 0 (rk.relK p t0 t1 0 t0 y0) 0

/-- The solver state: `first_step` and `f0` (one value per term), or `None` (239). -/
abbrev State (m : Nat) (VF : Type) := Option (Bool × (Fin m → VF))

/-- `init` (415-444). -/
def init : State m VF := if rk.fsal then some (true, fun _ => 0) else none

/-- The value the loop over stages starts from (684-704, 740-782, 1125-1134). -/
def initStage (t0 t1 : T) (y0 : Y) (st : State m VF) (madeJump : Bool) : StageState m Y VF J :=
  if rk.fsal then
    let st := st.getD (true, fun _ => 0)
    let evalFirst := st.1 || madeJump
    let f0 : Fin m → VF := fun p => if evalFirst then 0 else st.2 p
    let k0 := rk.prods t0 t1 f0
    { idx := if evalFirst then 0 else 1
      yi := y0
      f1 := f0
      jac := rk.initJac t0 t1 y0
      fs := if rk.storeFs then fun p => Function.update (fun _ => 0) 0 (f0 p) else fun _ _ => 0
      ks := if rk.storeFs then fun _ _ => 0 else fun p => Function.update (fun _ => 0) 0 (k0 p)
      result := .successful }
  else
    { idx := 0, yi := y0, f1 := fun _ => 0, jac := rk.initJac t0 t1 y0, fs := fun _ _ => 0
      ks := fun _ _ => 0, result := .successful }

/-- What `step` puts into `dense_info` (1197). -/
structure Dense (m : Nat) (Y : Type) where
  y0 : Y
  y1 : Y
  ks : Fin m → Nat → Y

/-- `step` (446-1203). The error estimate is `none` if infinite (an implicit solve failed). -/
def step (t0 t1 : T) (y0 : Y) (st : State m VF) (madeJump : Bool) :
    StepOut Y (Option Y) (Dense m Y) (State m VF) :=
  let fin := rk.stages t0 t1 y0 rk.numStages (rk.initStage t0 t1 y0 st madeJump)
  -- 1165-1170
  let ks : Fin m → Nat → Y :=
    if rk.storeFs then fun p i => rk.prods t0 t1 (fun p => fin.fs p i) p else fin.ks
  -- 1171-1180
  let y1 := if (List.finRange m).any (fun p => !(rk.tab p).ssal) then
      y0 + ∑ p, treeDot (rk.tab p).bSol (ks p)
    else fin.yi
  -- 1181-1196
  let yError := ∑ p, treeDot (rk.tab p).bError (ks p)
  { y := y1
    err := if fin.result.isOkay then some yError else none
    dense := { y0 := y0, y1 := y1, ks := ks }
    state := if rk.fsal then some (false, fin.f1) else none
    result := fin.result }

/-- The solver handed to the loop; `interp` is the solver's `interpolation_cls`. -/
def solver (interp : T → T → Dense m Y → T → Y) :
    Solver T Y (Option Y) (Dense m Y) (State m VF) :=
  { step := rk.step, interp := interp }

end RK
end Verif
