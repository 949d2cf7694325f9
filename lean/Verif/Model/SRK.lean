import Verif.Model.Solvers
import Verif.Model.Front
import Mathlib.Analysis.Real.Sqrt
import Mathlib.Algebra.BigOperators.Fin

/-!
# Model of the stochastic Runge-Kutta solvers (`/repo/diffrax/_solver/srk.py`) and of their tableaus

`StochasticButcherTableau`, `AbstractSRK.step`; `SEA` (`sea.py`), `SRA1` (`sra1.py`), `ShARK` (`shark.py`),
`GeneralShARK` (`shark_general.py`), `SlowRK` (`slowrk.py`), `SPaRK` (`spark.py`).

Simplifications:
* exact arithmetic over a field `K`, of which times are also elements; `jnp.conj` of the (real) coefficients
  is the identity;
* a buffer with one entry per stage is a function of the stage index;
* that `coeffs_hh` and `coeffs_kk` have the class of `coeffs_w`, and that `coeffs_kk` is only given if
  `coeffs_hh` is (`__post_init__`, 145-156), is built into the type;
* a Brownian increment (`dt`, `W`, `H`, `K`) and each of its leaves are elements of the type `Ct'` of controls of
  the diffusion; `leafW` picks the leaf `W`, `leafLevy 0` the leaf `H`, `leafLevy 1` the leaf `K`. That
  the increment has the leaves needed (`isinstance(bm_inc, self.minimal_levy_area)`, 394-398) is assumed;
* the check in `init` (301-330) that the diffusion does not depend on `y` is left out;
* `args`, dtypes and `scan_kind` are left out.
-/

namespace Verif
open Finset

variable {K Y VF VF' Ct Ct' : Type}

/-- `AdditiveCoeffs` (58-83). -/
structure AdditiveCoeffs (K : Type) where
  a : List K
  bSol : K

/-- `GeneralCoeffs` (86-104). -/
structure GeneralCoeffs (K : Type) where
  a : List (List K)
  bSol : List K
  bError : Option (List K)

/-- `coeffs_w`, and `[coeffs_hh, coeffs_kk]` as far as given (121-123). -/
inductive NoiseCoeffs (K : Type) where
  | additive (w : AdditiveCoeffs K) (levy : List (AdditiveCoeffs K))
  | general (w : GeneralCoeffs K) (levy : List (GeneralCoeffs K))

/-- `StochasticButcherTableau` (111-128). -/
structure STableau (K : Type) where
  a : List (List K)
  bSol : List K
  bError : Option (List K)
  c : List K
  noise : NoiseCoeffs K
  ignoreF : Option (List Bool)
  ignoreG : Option (List Bool)

/-- `_embed_a_lower(a)[j]` (332-337). -/
def lowerRow [Zero K] (a : List (List K)) (n : Nat) : Nat → List K
  | 0 => List.replicate n 0
  | i + 1 =>
    let r := a.getD i []
    r ++ List.replicate (n - r.length) 0

/-- An instance of `AbstractSRK`, together with the two terms it is applied to. -/
structure SRK (K Y VF VF' Ct Ct' : Type) where
  tab : STableau K
  drift : Term K Y VF Ct
  diffusion : Term K Y VF' Ct'
  /-- the number `h`, as a control of the drift -/
  ofTime : K → Ct
  leafW : Ct' → Ct'
  leafLevy : Nat → Ct' → Ct'

/-- The value carried by the scan over stages: `h_kfs`, `w_kgs`, `levylist_kgs` (444-463). -/
structure SrkCarry (Y : Type) where
  hkf : Nat → Y
  wkg : Nat → Y
  lkg : Nat → Nat → Y

namespace SRK
variable [Field K] [AddCommGroup Y] [Module K Y] [AddCommGroup VF'] [Module K VF'] [AddCommGroup Ct']
  [Module K Ct']
variable (s : SRK K Y VF VF' Ct Ct')

/-- `len(b_sol)`. -/
def numStages : Nat := s.tab.bSol.length

/-- `c` with 0 inserted first (368-370). -/
def cAt : Nat → K
  | 0 => 0
  | i + 1 => s.tab.c.getD i 0

/-- `add_levy_to_w` (419-426), given the products of the vector field with the leaves. -/
def addLevy (cw : K) (cl : List K) (w : Y) (levy : Nat → Y) : Y :=
  cw • w + ∑ l ∈ range cl.length, cl.getD l 0 • levy l

/-- `sum_prev_stages` for `w_kgs` and each of `levylist_kgs`, added up (531-541, 625-634). -/
def sumNoise (aw : List K) (al : List (List K)) (c : SrkCarry Y) : Y :=
  treeDot aw c.wkg + ∑ l ∈ range al.length, treeDot (al.getD l []) (c.lkg l)

/-- `_diffusion_result` at stage `j` (511-541). -/
def stageNoise (t0 t1 : K) (y0 : Y) (c : SrkCarry Y) (j : Nat) : Y :=
  match s.tab.noise with
  | .additive w levy =>
    let g0 := s.diffusion.vf t0 y0
    let bm := s.diffusion.contr t0 t1
    addLevy (w.a.getD j 0) (levy.map fun l => l.a.getD j 0) (s.diffusion.prod g0 (s.leafW bm))
      (fun l => s.diffusion.prod g0 (s.leafLevy l bm))
  | .general w levy =>
    sumNoise (lowerRow w.a s.numStages j) (levy.map fun l => lowerRow l.a s.numStages j) c

/-- One stage (493-594). -/
def stage (t0 t1 : K) (y0 : Y) (c : SrkCarry Y) (j : Nat) : SrkCarry Y :=
  let h := t1 - t0
  let z := y0 + treeDot (lowerRow s.tab.a s.numStages j) c.hkf + s.stageNoise t0 t1 y0 c j
  let t := t0 + s.cAt j * h
  let hkf := if (s.tab.ignoreF.getD []).getD j false then c.hkf
    else Function.update c.hkf j (s.drift.vfProd t z (s.ofTime h))
  match s.tab.noise with
  | .additive _ _ => { c with hkf := hkf }
  | .general _ levy =>
    if (s.tab.ignoreG.getD []).getD j false then { c with hkf := hkf }
    else
      let bm := s.diffusion.contr t0 t1
      { hkf := hkf
        wkg := Function.update c.wkg j (s.diffusion.vfProd t z (s.leafW bm))
        lkg := fun l => if l < levy.length then
            Function.update (c.lkg l) j (s.diffusion.vfProd t z (s.leafLevy l bm))
          else c.lkg l }

/-- The scan over stages (596-604). -/
def stages (t0 t1 : K) (y0 : Y) : SrkCarry Y :=
  (List.range s.numStages).foldl (s.stage t0 t1 y0) ⟨fun _ => 0, fun _ => 0, fun _ _ => 0⟩

/-- `diffusion_result` (606-634). -/
def diffusionResult (t0 t1 : K) (y0 : Y) (c : SrkCarry Y) : Y :=
  match s.tab.noise with
  | .additive w levy =>
    let g0 := s.diffusion.vf t0 y0
    let g1 := s.diffusion.vf t1 y0
    let gDelta := (1 / 2 : K) • (g1 - g0)
    let bm := s.diffusion.contr t0 t1
    let timeVarContr := if levy.isEmpty then s.leafW bm else s.leafW bm - (2 : K) • s.leafLevy 0 bm
    addLevy w.bSol (levy.map fun l => l.bSol) (s.diffusion.prod g0 (s.leafW bm))
        (fun l => s.diffusion.prod g0 (s.leafLevy l bm))
      + s.diffusion.prod gDelta timeVarContr
  | .general w levy => sumNoise w.bSol (levy.map fun l => l.bSol) c

/-- The error estimate (636-664). -/
def errorEstimate (c : SrkCarry Y) : Option Y :=
  match s.tab.bError with
  | none => none
  | some bErr =>
    let drift := treeDot bErr c.hkf
    match s.tab.noise with
    | .additive _ _ => some drift
    | .general w levy =>
      match w.bError with
      | none => some drift
      | some bw => some (drift + sumNoise bw (levy.map fun l => l.bError.getD []) c)

/-- `AbstractSRK.step` (339-671). -/
def step (t0 t1 : K) (y0 : Y) : StepOut Y (Option Y) (Y × Y) Unit :=
  let c := s.stages t0 t1 y0
  let y1 := y0 + treeDot s.tab.bSol c.hkf + s.diffusionResult t0 t1 y0 c
  { y := y1, err := s.errorEstimate c, dense := (y0, y1), state := (), result := .successful }

end SRK

/-- The solver class, for `MultiTerm(drift, diffusion)`; the dense output is linear. -/
def srkClass [Field K] [AddCommGroup Y] [Module K Y] [AddCommGroup VF] [Module K VF] [AddCommGroup Ct] [Module K Ct]
    (tab : STableau K) (ofTime : K → Ct) (leafW : Ct → Ct) (leafLevy : Nat → Ct → Ct) (interp : LocalLin K Y)
    (dummy : Y × Y) : SolverClass 2 K Y VF Ct (Option Y) (Y × Y) Unit where
  init _ _ _ _ := ()
  step terms t0 t1 y0 _ _ :=
    SRK.step { tab := tab, drift := terms 0, diffusion := terms 1, ofTime := ofTime, leafW := leafW
               leafLevy := leafLevy } t0 t1 y0
  interp := interp
  dummy := dummy

/-! ### The tableaus -/

namespace STab
variable [Field K]

/-- `sea.py` 10-30. -/
def sea : STableau K where
  a := []
  bSol := [1]
  bError := none
  c := []
  noise := .additive ⟨[1 / 2], 1⟩ [⟨[1], 0⟩]
  ignoreF := none
  ignoreG := none

/-- `sra1.py` 10-30. -/
def sra1 : STableau K where
  a := [[3 / 4]]
  bSol := [1 / 3, 2 / 3]
  bError := some [-2 / 3, 2 / 3]
  c := [3 / 4]
  noise := .additive ⟨[0, 3 / 4], 1⟩ [⟨[0, 3 / 2], 0⟩]
  ignoreF := none
  ignoreG := none

/-- `shark.py` 10-30. -/
def shark : STableau K where
  a := [[5 / 6]]
  bSol := [2 / 5, 3 / 5]
  bError := some [-3 / 5, 3 / 5]
  c := [5 / 6]
  noise := .additive ⟨[0, 5 / 6], 1⟩ [⟨[1, 1], 0⟩]
  ignoreF := none
  ignoreG := none

/-- `shark_general.py` 10-32. -/
def generalShark : STableau K where
  a := [[0], [0, 5 / 6]]
  bSol := [0, 2 / 5, 3 / 5]
  bError := none
  c := [0, 5 / 6]
  noise := .general ⟨[[0], [0, 5 / 6]], [0, 2 / 5, 3 / 5], none⟩ [⟨[[1], [1, 0]], [0, 6 / 5, -6 / 5], none⟩]
  ignoreF := some [true, false, false]
  ignoreG := none

/-- `slowrk.py` 10-53. -/
def slowRK : STableau K where
  a := [[1 / 2], [1 / 2, 0], [1 / 2, 0, 0], [1 / 2, 0, 0, 0], [3 / 4, 0, 0, 0, 0], [1, 0, 0, 0, 0, 0]]
  bSol := [1 / 3, 0, 0, 0, 0, 2 / 3, 0]
  bError := none
  c := [1 / 2, 1 / 2, 1 / 2, 1 / 2, 3 / 4, 1]
  noise := .general
    ⟨[[0], [0, 1 / 2], [0, 0, 1 / 2], [0, 0, 0, 1], [0, 0, 0, 3 / 4, 0], [0, 0, 1 / 2, 0, 0, 0]],
      [0, 1 / 6, 1 / 3, 1 / 3, 1 / 6, 0, 0], none⟩
    [⟨[[0], [0, 0], [0, 0, 0], [0, 0, 0, 0], [0, 0, 0, 3 / 2, 0], [0, 0, 0, 0, 0, 0]],
      [0, 0, 0, 2, 0, 0, -2], none⟩]
  ignoreF := some [false, true, true, true, true, false, true]
  ignoreG := some [true, false, false, false, false, true, false]

/-- `spark.py` 10-11: `_x1`. -/
noncomputable def x1 : ℝ := (3 - √3) / 6

/-- `spark.py` 10-11: `_x2`. -/
noncomputable def x2 : ℝ := √3 / 3

/-- `spark.py` 13-35. -/
noncomputable def spark : STableau ℝ where
  a := [[1 / 2], [0, 1]]
  bSol := [x1, x2, x1]
  bError := some [x1 - 1 / 2, x2, x1 - 1 / 2]
  c := [1 / 2, 1]
  noise := .general ⟨[[1 / 2], [0, 1]], [x1, x2, x1], some [x1 - 1 / 2, x2, x1 - 1 / 2]⟩
    [⟨[[√3], [0, 0]], [1, 0, -1], some [1, 0, -1]⟩]
  ignoreF := none
  ignoreG := none

end STab
end Verif
