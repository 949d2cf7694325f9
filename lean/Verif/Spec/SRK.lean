import Verif.Model.SRK

/-!
# The formulas in the documentation of `AbstractSRK`, and what is expected of a tableau
-/

namespace Verif
open Finset

variable {K Y VF VF' Ct Ct' : Type} [Field K]

/-- Entry `(i, j)` of a matrix given by the rows of its strictly lower triangle. -/
def lowerAt (a : List (List K)) (i j : Nat) : K := if j < i then (a.getD (i - 1) []).getD j 0 else 0

/-- Rows of lengths 1, 2, ..., n-1. -/
structure LowerShape (a : List (List K)) (n : Nat) : Prop where
  rows : a.length + 1 = n
  row : ∀ i < a.length, (a.getD i []).length = i + 1

/-- The stage is not evaluated. -/
def Ignored (l : Option (List Bool)) (j : Nat) : Prop := (l.getD []).getD j false = true

/-- What `__post_init__` asserts about the shapes, and that the stages that are not evaluated are not used. -/
structure STableau.WF (tab : STableau K) : Prop where
  a : LowerShape tab.a tab.bSol.length
  c : tab.c.length + 1 = tab.bSol.length
  ignoreA : ∀ j, Ignored tab.ignoreF j → ∀ i < tab.bSol.length, lowerAt tab.a i j = 0
  ignoreB : ∀ j, Ignored tab.ignoreF j → tab.bSol.getD j 0 = 0
  error : ∀ e, tab.bError = some e → e.length = tab.bSol.length ∧
    ∀ j, Ignored tab.ignoreF j → e.getD j 0 = 0
  general : ∀ w levy, tab.noise = .general w levy → ∀ x, x = w ∨ x ∈ levy →
    LowerShape x.a tab.bSol.length ∧ x.bSol.length = tab.bSol.length ∧
    (∀ j, Ignored tab.ignoreG j → ∀ i < tab.bSol.length, lowerAt x.a i j = 0) ∧
    (∀ j, Ignored tab.ignoreG j → x.bSol.getD j 0 = 0) ∧
    (tab.bError.isSome → ∃ e, x.bError = some e ∧ e.length = tab.bSol.length ∧
      ∀ j, Ignored tab.ignoreG j → e.getD j 0 = 0)

/-- The time increments of the stages; the first one is zero. -/
def STableau.cs (tab : STableau K) (j : Nat) : K := if j = 0 then 0 else tab.c.getD (j - 1) 0

namespace SRK
variable [AddCommGroup Y] [Module K Y] [AddCommGroup VF'] [Module K VF'] [AddCommGroup Ct'] [Module K Ct']
variable (s : SRK K Y VF VF' Ct Ct')

/-- `h f_j`, where `f_j = f(t0 + c_j h, z_j)`. -/
def hf (t0 t1 : K) (z : Nat → Y) (j : Nat) : Y :=
  s.drift.vfProd (t0 + s.tab.cs j * (t1 - t0)) (z j) (s.ofTime (t1 - t0))

/-- `W g_j`, where `g_j = g(t0 + c_j h, z_j)`. -/
def wg (t0 t1 : K) (z : Nat → Y) (j : Nat) : Y :=
  s.diffusion.vfProd (t0 + s.tab.cs j * (t1 - t0)) (z j) (s.leafW (s.diffusion.contr t0 t1))

/-- `H g_j` (`l = 0`), `K g_j` (`l = 1`). -/
def lg (t0 t1 : K) (z : Nat → Y) (l j : Nat) : Y :=
  s.diffusion.vfProd (t0 + s.tab.cs j * (t1 - t0)) (z j) (s.leafLevy l (s.diffusion.contr t0 t1))

/-- `g(t_n) (a W + a' H + ...)`. -/
def g0Noise (t0 t1 : K) (y0 : Y) (cw : K) (cl : Nat → K) (nl : Nat) : Y :=
  cw • s.diffusion.prod (s.diffusion.vf t0 y0) (s.leafW (s.diffusion.contr t0 t1))
    + ∑ l ∈ range nl, cl l • s.diffusion.prod (s.diffusion.vf t0 y0) (s.leafLevy l (s.diffusion.contr t0 t1))

/-- The noise in the formula for `z_j`. -/
def docStageNoise (t0 t1 : K) (y0 : Y) (z : Nat → Y) (j : Nat) : Y :=
  match s.tab.noise with
  | .additive w levy => s.g0Noise t0 t1 y0 (w.a.getD j 0) (fun l => (levy.map (·.a)).getD l [] |>.getD j 0) levy.length
  | .general w levy => ∑ i ∈ range j, (lowerAt w.a j i • s.wg t0 t1 z i
      + ∑ l ∈ range levy.length, lowerAt ((levy.map (·.a)).getD l []) j i • s.lg t0 t1 z l i)

/-- The noise in the formula for `y_{n+1}`, including the correction for `g` depending on time. -/
def docNoise (t0 t1 : K) (y0 : Y) (z : Nat → Y) : Y :=
  match s.tab.noise with
  | .additive w levy =>
    let bm := s.diffusion.contr t0 t1
    s.g0Noise t0 t1 y0 w.bSol (fun l => (levy.map (·.bSol)).getD l 0) levy.length
      + s.diffusion.prod ((1 / 2 : K) • (s.diffusion.vf t1 y0 - s.diffusion.vf t0 y0))
          (if levy.length = 0 then s.leafW bm else s.leafW bm - (2 : K) • s.leafLevy 0 bm)
  | .general w levy => ∑ i ∈ range s.tab.bSol.length, (w.bSol.getD i 0 • s.wg t0 t1 z i
      + ∑ l ∈ range levy.length, ((levy.map (·.bSol)).getD l []).getD i 0 • s.lg t0 t1 z l i)

/-- `z` are the stages of the documentation. -/
def IsStages (t0 t1 : K) (y0 : Y) (z : Nat → Y) : Prop := ∀ j < s.tab.bSol.length,
  z j = y0 + ∑ i ∈ range j, lowerAt s.tab.a j i • s.hf t0 t1 z i + s.docStageNoise t0 t1 y0 z j

/-- `y_{n+1}` of the documentation. -/
def docY1 (t0 t1 : K) (y0 : Y) (z : Nat → Y) : Y :=
  y0 + ∑ j ∈ range s.tab.bSol.length, s.tab.bSol.getD j 0 • s.hf t0 t1 z j + s.docNoise t0 t1 y0 z

/-- The error estimate: for additive noise, that of the drift only. -/
def docError (t0 t1 : K) (z : Nat → Y) (bErr : List K) : Y :=
  ∑ j ∈ range s.tab.bSol.length, bErr.getD j 0 • s.hf t0 t1 z j +
    match s.tab.noise with
    | .additive _ _ => 0
    | .general w levy => ∑ i ∈ range s.tab.bSol.length, ((w.bError.getD []).getD i 0 • s.wg t0 t1 z i
      + ∑ l ∈ range levy.length, ((levy.map fun x => x.bError.getD []).getD l []).getD i 0 • s.lg t0 t1 z l i)

end SRK
end Verif
