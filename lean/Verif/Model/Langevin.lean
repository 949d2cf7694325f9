import Verif.Model.Loop
import Mathlib.Analysis.SpecialFunctions.Exp
import Mathlib.Analysis.Real.Sqrt

/-!
# Model of the solvers for underdamped Langevin diffusions

`/repo/diffrax/_solver/foster_langevin_srk.py`, `align.py`, `should.py`, `quicsort.py`.

Simplifications:
* exact arithmetic over `ℝ` (`jnp.exp`, `jnp.sqrt` and `math.sqrt` are the functions themselves);
* the position is a vector with `d` real entries; `gamma` and `u` have been broadcast to its shape
  (`broadcast_underdamped_langevin_arg`), they agree between drift and diffusion (`init`, 276-291), and the
  checks of shapes, dtypes and of the type of the Lévy area are left out;
* `gamma`, `u`, `rho` and `taylor_coeffs`, which the solver state carries unchanged, are recomputed;
* the condition `unvmap_all(cond)` under which only the Taylor expansion is computed (219-226) does not
  affect the result and is left out; no `vmap`, so `unvmap_all` and `unvmap_any` are the identity;
* `args` left out.
-/

namespace Verif

/-- `jnp.polyval`. -/
def polyvalH (p : List ℝ) (h : ℝ) : ℝ := p.foldl (fun acc a => acc * h + a) 0

/-! ### Coefficients -/

/-- `_ALIGNCoeffs` (`align.py` 27-43). -/
structure AlignCoeffs (R : Type) where
  beta : R
  a1 : R
  b1 : R
  aa : R
  chh : R

/-- `_ShOULDCoeffs` (`should.py` 22-57). -/
structure ShouldCoeffs (R : Type) where
  betaHalf : R
  aHalf : R
  bHalf : R
  beta1 : R
  a1 : R
  b1 : R
  aa : R
  chh : R
  ckk : R

/-- The entries of `beta_lr1`, `a_lr1` and `b_lr1` for `l`, `r` and `1`. -/
structure LR1 (R : Type) where
  l : R
  r : R
  one : R

/-- `_QUICSORTCoeffs` (`quicsort.py` 27-44). -/
structure QuicsortCoeffs (R : Type) where
  beta : LR1 R
  a : LR1 R
  b : LR1 R
  aThird : R
  aDivH : R

/-- `ALIGN._directly_compute_coeffs_leaf` (`align.py` 99-120). -/
noncomputable def alignDirect (h c : ℝ) : AlignCoeffs ℝ :=
  let al := c * h
  let beta := Real.exp (-al)
  let a1 := (1 - beta) / c
  let b1 := (beta + al - 1) / (c * al)
  let aa := a1 / h
  let al2 := al ^ 2
  let chh := 6 * (beta * (al + 2) + al - 2) / (al2 * c)
  { beta := beta, a1 := a1, b1 := b1, aa := aa, chh := chh }

/-- `ALIGN._tay_coeffs_single` (`align.py` 122-151). -/
noncomputable def alignTay (c : ℝ) : AlignCoeffs (List ℝ) :=
  let c2 := c ^ 2
  let c3 := c2 * c
  let c4 := c3 * c
  let c5 := c4 * c
  { beta := [-c5 / 120, c4 / 24, -c3 / 6, c2 / 2, -c, 1]
    a1 := [c4 / 120, -c3 / 24, c2 / 6, -c / 2, 1, 0]
    b1 := [c4 / 720, -c3 / 120, c2 / 24, -c / 6, 1 / 2, 0]
    aa := [-c5 / 720, c4 / 120, -c3 / 24, c2 / 6, -c / 2, 1]
    chh := [c4 / 168, -c3 / 30, 3 * c2 / 20, -c / 2, 1, 0] }

/-- `_eval_taylor` (`foster_langevin_srk.py` 168-182) for `ALIGN`. -/
noncomputable def alignEval (h : ℝ) (t : AlignCoeffs (List ℝ)) : AlignCoeffs ℝ :=
  { beta := polyvalH t.beta h, a1 := polyvalH t.a1 h, b1 := polyvalH t.b1 h, aa := polyvalH t.aa h,
    chh := polyvalH t.chh h }

/-- `ShOULD._directly_compute_coeffs_leaf` (`should.py` 106-136). -/
noncomputable def shouldDirect (h c : ℝ) : ShouldCoeffs ℝ :=
  let al := c * h
  let betaHalf := Real.exp (-al / 2)
  let beta1 := Real.exp (-al)
  let aHalf := (1 - betaHalf) / c
  let a1 := (1 - beta1) / c
  let bHalf := (betaHalf + al / 2 - 1) / (al * c)
  let b1 := (beta1 + al - 1) / (al * c)
  let aa := a1 / h
  let al2 := al ^ 2
  let al3 := al2 * al
  let chh := 6 * (beta1 * (al + 2) + al - 2) / (al2 * c)
  let ckk := 60 * (beta1 * (al * (al + 6) + 12) - al * (al - 6) - 12) / (al3 * c)
  { betaHalf := betaHalf, aHalf := aHalf, bHalf := bHalf, beta1 := beta1, a1 := a1, b1 := b1, aa := aa,
    chh := chh, ckk := ckk }

/-- `ShOULD._tay_coeffs_single` (`should.py` 138-190). -/
noncomputable def shouldTay (c : ℝ) : ShouldCoeffs (List ℝ) :=
  let c2 := c ^ 2
  let c3 := c2 * c
  let c4 := c3 * c
  let c5 := c4 * c
  { betaHalf := [-c5 / 3840, c4 / 384, -c3 / 48, c2 / 8, -c / 2, 1]
    beta1 := [-c5 / 120, c4 / 24, -c3 / 6, c2 / 2, -c, 1]
    aHalf := [c4 / 3840, -c3 / 384, c2 / 48, -c / 8, 1 / 2, 0]
    a1 := [c4 / 120, -c3 / 24, c2 / 6, -c / 2, 1, 0]
    aa := [-c5 / 720, c4 / 120, -c3 / 24, c2 / 6, -c / 2, 1]
    bHalf := [c4 / 46080, -c3 / 3840, c2 / 384, -c / 48, 1 / 8, 0]
    b1 := [c4 / 720, -c3 / 120, c2 / 24, -c / 6, 1 / 2, 0]
    chh := [c4 / 168, -c3 / 30, 3 * c2 / 20, -c / 2, 1, 0]
    ckk := [5 * c4 / 168, -c3 / 7, c2 / 2, -c, 0, 0] }

/-- `_eval_taylor` for `ShOULD`. -/
noncomputable def shouldEval (h : ℝ) (t : ShouldCoeffs (List ℝ)) : ShouldCoeffs ℝ :=
  { betaHalf := polyvalH t.betaHalf h, aHalf := polyvalH t.aHalf h, bHalf := polyvalH t.bHalf h,
    beta1 := polyvalH t.beta1 h, a1 := polyvalH t.a1 h, b1 := polyvalH t.b1 h, aa := polyvalH t.aa h,
    chh := polyvalH t.chh h, ckk := polyvalH t.ckk h }

/-- `l` and `r` (`quicsort.py` 117-118, 155-156). -/
noncomputable def quicL : ℝ := 1 / 2 - Real.sqrt 3 / 6
noncomputable def quicR : ℝ := 1 / 2 + Real.sqrt 3 / 6

/-- `QUICSORT._directly_compute_coeffs_leaf` (`quicsort.py` 109-137). -/
noncomputable def quicsortDirect (h c : ℝ) : QuicsortCoeffs ℝ :=
  let alpha := c * h
  let beta := fun lr1 : ℝ => Real.exp (-(alpha * lr1))
  let a := fun lr1 : ℝ => (1 - beta lr1) / c
  let b := fun lr1 : ℝ => (beta lr1 + alpha * lr1 - 1) / (c ^ 2 * h)
  { beta := ⟨beta quicL, beta quicR, beta 1⟩
    a := ⟨a quicL, a quicR, a 1⟩
    b := ⟨b quicL, b quicR, b 1⟩
    aThird := (1 - Real.exp (-alpha / 3)) / c
    aDivH := (1 - Real.exp (-alpha)) / (c * h) }

/-- One row of `lr1_pows` (`quicsort.py` 157-159). -/
noncomputable def quicPows (lr1 : ℝ) : List ℝ := [lr1 ^ 5, lr1 ^ 4, lr1 ^ 3, lr1 ^ 2, lr1 ^ 1, lr1 ^ 0]

/-- `QUICSORT._tay_coeffs_single` (`quicsort.py` 139-190). -/
noncomputable def quicsortTay (c : ℝ) : QuicsortCoeffs (List ℝ) :=
  let c2 := c ^ 2
  let c3 := c2 * c
  let c4 := c3 * c
  let c5 := c4 * c
  let beta := [-c5 / 120, c4 / 24, -c3 / 6, c2 / 2, -c, 1]
  let a := [c4 / 120, -c3 / 24, c2 / 6, -c / 2, 1, 0]
  let b := [c4 / 720, -c3 / 120, c2 / 24, -c / 6, 1 / 2, 0]
  let betaAt := fun lr1 => List.zipWith (· * ·) (quicPows lr1) beta
  let aAt := fun lr1 => List.zipWith (· * ·) (quicPows lr1) a
  let bAt := fun lr1 => List.zipWith (· * ·) ((quicPows lr1).map (· * lr1)) b
  { beta := ⟨betaAt quicL, betaAt quicR, betaAt 1⟩
    a := ⟨aAt quicL, aAt quicR, aAt 1⟩
    b := ⟨bAt quicL, bAt quicR, bAt 1⟩
    aThird := [c4 / 29160, -c3 / 1944, c2 / 162, -c / 18, 1 / 3, 0]
    aDivH := [-c5 / 720, c4 / 120, -c3 / 24, c2 / 6, -c / 2, 1] }

/-- `_eval_taylor` for `QUICSORT`. -/
noncomputable def quicsortEval (h : ℝ) (t : QuicsortCoeffs (List ℝ)) : QuicsortCoeffs ℝ :=
  let ev := fun p : LR1 (List ℝ) => (⟨polyvalH p.l h, polyvalH p.r h, polyvalH p.one h⟩ : LR1 ℝ)
  { beta := ev t.beta, a := ev t.a, b := ev t.b, aThird := polyvalH t.aThird h,
    aDivH := polyvalH t.aDivH h }

/-! ### The step -/

abbrev RVec (d : ℕ) := Fin d → ℝ

/-- A Brownian increment with its Lévy areas. -/
structure LevyInc (d : ℕ) where
  W : RVec d
  H : RVec d
  K : RVec d

/-- The terms: `UnderdampedLangevinDriftTerm` and `UnderdampedLangevinDiffusionTerm` (`_term.py` 955-1104),
possibly wrapped in a `WrapTerm`, which only changes the controls. -/
structure LangevinTerms (d : ℕ) where
  gamma : RVec d
  u : RVec d
  gradF : RVec d → RVec d
  /-- `drift.contr` -/
  contr : ℝ → ℝ → ℝ
  /-- `diffusion.contr(..., use_levy=True)` -/
  levy : ℝ → ℝ → LevyInc d

/-- `rho = sqrt(2 * gamma * u)` (`foster_langevin_srk.py` 317). -/
noncomputable def LangevinTerms.rho {d : ℕ} (T : LangevinTerms d) : RVec d :=
  fun i => Real.sqrt (2 * T.gamma i * T.u i)

/-- What `_compute_step` returns: `x_out`, `v_out`, `f_fsal`, `error`. -/
structure LangevinOut (d : ℕ) where
  x : RVec d
  v : RVec d
  fFsal : Option (RVec d)
  err : Option (RVec d × RVec d)

/-- A solver: how its coefficients are computed, whether it is FSAL, and its `_compute_step`, which is given
`h`, the Lévy areas, `x0`, `v0`, the terms, the coefficients and `prev_f`. -/
structure LangevinSolver (Co : Type) where
  direct : ℝ → ℝ → Co
  taylor : ℝ → ℝ → Co
  threshold : ℝ
  isFsal : Bool
  compute : ∀ {d : ℕ}, ℝ → LevyInc d → RVec d → RVec d → LangevinTerms d → (Fin d → Co) →
    Option (RVec d) → LangevinOut d

/-- `ALIGN._compute_step` (`align.py` 153-196). -/
noncomputable def alignCompute {d : ℕ} (h : ℝ) (levy : LevyInc d) (x0 v0 : RVec d) (T : LangevinTerms d)
    (co : Fin d → AlignCoeffs ℝ) (prevF : Option (RVec d)) : LangevinOut d :=
  let w := levy.W
  let hh := levy.H
  let uh := fun i => T.u i * h
  let f0 := prevF.getD 0
  let x1 : RVec d := fun i => x0 i + (co i).a1 * v0 i - (co i).b1 * uh i * f0 i
    + T.rho i * ((co i).b1 * w i + (co i).chh * hh i)
  let f1 := T.gradF x1
  let v1 : RVec d := fun i => (co i).beta * v0 i
    - T.u i * (((co i).a1 - (co i).b1) * f0 i + (co i).b1 * f1 i)
    + T.rho i * ((co i).aa * w i - T.gamma i * (co i).chh * hh i)
  let err : RVec d × RVec d := (0, fun i => -T.u i * (co i).b1 * (f1 i - f0 i))
  { x := x1, v := v1, fFsal := some f1, err := some err }

/-- `ShOULD._compute_step` (`should.py` 192-256). -/
noncomputable def shouldCompute {d : ℕ} (h : ℝ) (levy : LevyInc d) (x0 v0 : RVec d) (T : LangevinTerms d)
    (co : Fin d → ShouldCoeffs ℝ) (prevF : Option (RVec d)) : LangevinOut d :=
  let w := levy.W
  let hh := levy.H
  let kk := levy.K
  let hhkk := fun i => (co i).chh * hh i + (co i).ckk * kk i
  let rhoWK := fun i => T.rho i * (w i - 12 * kk i)
  let uh := fun i => T.u i * h
  let f0 := prevF.getD 0
  let v1 := fun i => v0 i + T.rho i * (hh i + 6 * kk i)
  let x1 : RVec d := fun i => x0 i + (co i).aHalf * v1 i + (co i).bHalf * (-(uh i) * f0 i + rhoWK i)
  let f1 := T.gradF x1
  let xOut : RVec d := fun i => x0 i + (co i).a1 * v0 i - uh i * (co i).b1 * (1 / 3 * f0 i + 2 / 3 * f1 i)
    + T.rho i * ((co i).b1 * w i + hhkk i)
  let fOut := T.gradF xOut
  let vOut : RVec d := fun i => (co i).beta1 * v0 i
    - uh i * ((co i).beta1 / 6 * f0 i + 2 / 3 * (co i).betaHalf * f1 i + 1 / 6 * fOut i)
    + T.rho i * ((co i).aa * w i - T.gamma i * hhkk i)
  { x := xOut, v := vOut, fFsal := some fOut, err := none }

/-- `QUICSORT._compute_step` (`quicsort.py` 192-266). -/
noncomputable def quicsortCompute {d : ℕ} (h : ℝ) (levy : LevyInc d) (x0 v0 : RVec d) (T : LangevinTerms d)
    (co : Fin d → QuicsortCoeffs ℝ) (_prevF : Option (RVec d)) : LangevinOut d :=
  let w := levy.W
  let hh := levy.H
  let kk := levy.K
  let rhoWK := fun i => T.rho i * (w i - 12 * kk i)
  let uh := fun i => T.u i * h
  let vTilde := fun i => v0 i + T.rho i * (hh i + 6 * kk i)
  let x1 : RVec d := fun i => x0 i + (co i).a.l * vTilde i + (co i).b.l * rhoWK i
  let f1uh := fun i => T.gradF x1 i * uh i
  let x2 : RVec d := fun i => x0 i + (co i).a.r * vTilde i + (co i).b.r * rhoWK i - (co i).aThird * f1uh i
  let f2uh := fun i => T.gradF x2 i * uh i
  let xOut : RVec d := fun i => x0 i + (co i).a.one * vTilde i + (co i).b.one * rhoWK i
    - 1 / 2 * ((co i).a.r * f1uh i + (co i).a.l * f2uh i)
  let vOutTilde : RVec d := fun i => (co i).beta.one * vTilde i
    - 1 / 2 * ((co i).beta.r * f1uh i + (co i).beta.l * f2uh i) + (co i).aDivH * rhoWK i
  let vOut : RVec d := fun i => vOutTilde i - T.rho i * (hh i - 6 * kk i)
  { x := xOut, v := vOut, fFsal := none, err := none }

noncomputable def ALIGN (threshold : ℝ) : LangevinSolver (AlignCoeffs ℝ) where
  direct := alignDirect
  taylor h c := alignEval h (alignTay c)
  threshold := threshold
  isFsal := true
  compute := alignCompute

noncomputable def ShOULD (threshold : ℝ) : LangevinSolver (ShouldCoeffs ℝ) where
  direct := shouldDirect
  taylor h c := shouldEval h (shouldTay c)
  threshold := threshold
  isFsal := true
  compute := shouldCompute

noncomputable def QUICSORT (threshold : ℝ) : LangevinSolver (QuicsortCoeffs ℝ) where
  direct := quicsortDirect
  taylor h c := quicsortEval h (quicsortTay c)
  threshold := threshold
  isFsal := false
  compute := quicsortCompute

/-- The changing parts of `SolverState` (`foster_langevin_srk.py` 91-98). -/
structure LangevinState (d : ℕ) (Co : Type) where
  h : ℝ
  coeffs : Fin d → Co
  prevF : Option (RVec d)

namespace LangevinSolver
variable {Co : Type} {d : ℕ} (sv : LangevinSolver Co) (T : LangevinTerms d)

/-- `_recompute_coeffs` (`foster_langevin_srk.py` 184-244), leaf by leaf. -/
noncomputable def recompute (h c : ℝ) : Co := if h * c < sv.threshold then sv.taylor h c else sv.direct h c

/-- `init` (246-330). -/
noncomputable def init (t0 t1 : ℝ) (y0 : RVec d × RVec d) : LangevinState d Co :=
  let h := T.contr t0 t1
  { h := h, coeffs := fun i => sv.recompute h (T.gamma i),
    prevF := if sv.isFsal then some (T.gradF y0.1) else none }

/-- `jnp.isclose(h_prev, h, rtol=1e-10, atol=1e-12)` (391). -/
def isclose (hPrev h : ℝ) : Prop := |hPrev - h| ≤ 1 / 10 ^ 12 + 1 / 10 ^ 10 * |h|

open Classical in
/-- The coefficients used by a step of length `h` (388-396). -/
noncomputable def stepCoeffs (st : LangevinState d Co) (h : ℝ) : Fin d → Co :=
  if isclose st.h h then st.coeffs else fun i => sv.recompute h (T.gamma i)

/-- `step` (365-443) with `made_jump` not traced (`none`: it is the constant `False`, 407-408) or traced
(`some b`: 409-412). Tracing `lax.cond` fails (`none`) if its branches disagree, which they do if `prev_f` is
`None`. -/
noncomputable def tracedStep (t0 t1 : ℝ) (y0 : RVec d × RVec d) (st : LangevinState d Co)
    (madeJump : Option Bool) : Option (StepOut (RVec d × RVec d) (Option (RVec d × RVec d))
      ((RVec d × RVec d) × (RVec d × RVec d)) (LangevinState d Co)) :=
  let h := T.contr t0 t1
  let co := sv.stepCoeffs T st h
  let levy := T.levy t0 t1
  let prevF : Option (Option (RVec d)) :=
    match madeJump with
    | none => some st.prevF
    | some b => match st.prevF with
      | none => none
      | some f => some (some (if b then T.gradF y0.1 else f))
  prevF.map fun prevF =>
    let o := sv.compute h levy y0.1 y0.2 T co prevF
    { y := (o.x, o.v), err := o.err, dense := (y0, (o.x, o.v)),
      state := { h := h, coeffs := co, prevF := o.fFsal }, result := .successful }

end LangevinSolver
end Verif
