import Verif.Lemmas.SRK
import Verif.Spec.Levy
import Verif.Spec.Front
import Verif.Model.SRK
import Mathlib.MeasureTheory.Integral.IntervalIntegral.FundThmCalculus
import Mathlib.Analysis.SpecialFunctions.Integrals.Basic
import Mathlib.Tactic.NormNum
import Mathlib.Tactic.FieldSimp
import Mathlib.Tactic.Module
import Mathlib.Data.Rat.Floor

/-!
# C65 (Lévy areas of backward solves), C66 (stochastic Runge-Kutta steps are the documented formulas)
-/

set_option linter.unusedSectionVars false

namespace Verif
open Finset

/-! ## C65 -/

section
variable {E : Type} [NormedAddCommGroup E] [NormedSpace ℝ E]

theorem bridgeOf_neg (W : ℝ → E) (s t u : ℝ) (h : s ≠ t) :
    bridgeOf (fun r => W (-r)) (-t) (-s) (-u) = bridgeOf W s t u := by
  unfold bridgeOf
  have h1 : t - s ≠ 0 := sub_ne_zero.2 h.symm
  have e1 : (-u - -t) / (-s - -t) = 1 - (u - s) / (t - s) := by
    rw [show -s - -t = t - s by ring]; field_simp; ring
  simp only [neg_neg, e1]
  module

/-- **C65, what the leaves should be.** For the path run backwards in time, over the same piece of it: `dt`
and `H` stay, `W` and `K` change sign. -/
theorem C65_reversed (W : ℝ → E) (s t : ℝ) (h : s < t) :
    levyOf (fun r => W (-r)) (-t) (-s)
      = ((levyOf W s t).1, -(levyOf W s t).2.1, (levyOf W s t).2.2.1, -(levyOf W s t).2.2.2) := by
  have hb : ∀ u, bridgeOf (fun r => W (-r)) (-t) (-s) u = bridgeOf W s t (-u) := by
    intro u
    have := bridgeOf_neg W s t (-u) h.ne
    simpa using this
  unfold levyOf areaH areaK
  refine Prod.ext ?_ (Prod.ext ?_ (Prod.ext ?_ ?_))
  · simp only; ring
  · simp
  · simp only [hb]
    rw [intervalIntegral.integral_comp_neg (fun u => bridgeOf W s t u)]
    simp only [neg_neg]
    congr 1
    ring
  · simp only [hb]
    have : ∀ r, ((-s + -t) / 2 - r) • bridgeOf W s t (-r)
        = (fun u => (-((t + s) / 2 - u)) • bridgeOf W s t u) (-r) := by
      intro r
      simp only
      congr 1
      ring
    simp only [this]
    rw [intervalIntegral.integral_comp_neg (fun u => (-((t + s) / 2 - u)) • bridgeOf W s t u)]
    simp only [neg_neg, neg_smul, intervalIntegral.integral_neg, smul_neg]
    congr 2
    ring_nf

/-- A `ControlTerm` of a Brownian path, asked for Lévy areas. -/
noncomputable def brownianK {Y VF : Type} (W : ℝ → E) (f : ℝ → Y → VF) (prod : VF → ℝ × E × E × E → Y) :
    KTerm ℝ Y VF (ℝ × E × E × E) where
  vf := f
  contr := levyOf W
  prod := prod
  vfProd t y c := prod (f t y) c
  cls := .control

/-- **C65, what holds.** In a backward solve the solver is given the right `W` and `K`, and the negatives of
the right `dt` and `H`. -/
theorem C65_wrapped_partial {Y VF : Type} (W : ℝ → E) (f : ℝ → Y → VF) (prod : VF → ℝ × E × E × E → Y)
    (s0 s1 : ℝ) (h : s0 < s1) :
    let given := (wrapTerm (-1) (brownianK W f prod)).contr s0 s1
    let right := levyOf (fun r => W (-r)) s0 s1
    given.2.1 = right.2.1 ∧ given.2.2.2 = right.2.2.2 ∧ given.1 = -right.1 ∧ given.2.2.1 = -right.2.2.1 := by
  have h2 := C65_reversed W (-s1) (-s0) (by linarith)
  simp only [neg_neg] at h2
  simp only [wrapTerm, brownianK]
  rw [if_neg (by decide), if_neg (by decide), h2]
  simp

/-- In forward solves everything is as it should be. -/
theorem C65_forward {Y VF : Type} (W : ℝ → E) (f : ℝ → Y → VF) (prod : VF → ℝ × E × E × E → Y) (s0 s1 : ℝ) :
    (wrapTerm 1 (brownianK W f prod)).contr s0 s1 = levyOf W s0 s1 := by
  simp [wrapTerm, brownianK]

/-- The areas of the path `r²` over `[-1, 0]`. -/
theorem areaH_sq (s t : ℝ) (h : s ≠ t) : areaH (fun r => r ^ 2) s t = -(t - s) ^ 2 / 6 := by
  have h1 : t - s ≠ 0 := sub_ne_zero.2 h.symm
  have hb : ∀ r, bridgeOf (fun r : ℝ => r ^ 2) s t r = r ^ 2 - (s + t) * r + s * t := by
    intro r
    unfold bridgeOf
    simp only [smul_eq_mul]
    field_simp
    ring
  unfold areaH
  simp only [hb, smul_eq_mul]
  rw [intervalIntegral.integral_add, intervalIntegral.integral_sub, intervalIntegral.integral_const_mul,
    integral_pow, integral_id, intervalIntegral.integral_const]
  · simp only [smul_eq_mul]
    field_simp
    ring
  all_goals exact Continuous.intervalIntegrable (by fun_prop) _ _

/-- **C65 is false**: the space-time Lévy area given to the solver in a backward solve has the wrong sign. -/
theorem C65_violated : ∃ (W : ℝ → ℝ) (s0 s1 : ℝ), Continuous W ∧ s0 < s1 ∧
    ((wrapTerm (-1) (brownianK W (fun (_ : ℝ) (_ : ℝ) => (1 : ℝ)) (fun v c => v * c.2.1))).contr s0 s1).2.2.1
      ≠ (levyOf (fun r => W (-r)) s0 s1).2.2.1 := by
  refine ⟨fun r => r ^ 2, 0, 1, by fun_prop, by norm_num, ?_⟩
  have h := (C65_wrapped_partial (fun r : ℝ => r ^ 2) (fun (_ : ℝ) (_ : ℝ) => (1 : ℝ)) (fun v c => v * c.2.1) 0 1
    (by norm_num)).2.2.2
  rw [h]
  have h2 : (levyOf (fun r : ℝ => (-r) ^ 2) 0 1).2.2.1 = -1 / 6 := by
    show areaH _ _ _ = _
    have : (fun r : ℝ => (-r) ^ 2) = fun r => r ^ 2 := by ext; ring
    rw [this, areaH_sq 0 1 (by norm_num)]
    norm_num
  rw [h2]
  norm_num

end

/-! ## C66 -/

section
variable {K Y VF VF' Ct Ct' : Type} [Field K]
variable [AddCommGroup Y] [Module K Y] [AddCommGroup VF'] [Module K VF'] [AddCommGroup Ct'] [Module K Ct']

/-- **C66, in forward solves.** The step and its error estimate are the ones in the documentation, also if
some stages are left out. -/
theorem C66_formula_partial (s : SRK K Y VF VF' Ct Ct') (hwf : s.tab.WF) (t0 t1 : K) (y0 : Y) :
    ∃ z, s.IsStages t0 t1 y0 z ∧ (s.step t0 t1 y0).y = s.docY1 t0 t1 y0 z ∧
      (s.step t0 t1 y0).err = s.tab.bError.map (s.docError t0 t1 z) :=
  ⟨_, s.zAt_isStages hwf t0 t1 y0, s.step_y hwf t0 t1 y0, s.step_err hwf t0 t1 y0⟩

/-! The built-in tableaus are well-formed. -/

theorem ignored_lt {l : List Bool} {j : Nat} (h : Ignored (some l) j) : j < l.length := by
  by_contra hc
  unfold Ignored at h
  rw [Option.getD_some, List.getD_eq_default _ _ (not_lt.1 hc)] at h
  cases h

theorem not_ignored_none (j : Nat) : ¬ Ignored none j := by simp [Ignored]

theorem lowerShape_of (a : List (List K)) (n : Nat) (h : a.length + 1 = n)
    (h2 : a.map List.length = (List.range a.length).map (· + 1)) : LowerShape a n := by
  refine ⟨h, fun i hi => ?_⟩
  have h3 := congrArg (fun l => l.getD i 0) h2
  rw [SRK.getD_map' _ _ _ hi, SRK.getD_map' _ _ _ (by simpa using hi)] at h3
  rw [List.getD_eq_getElem _ _ hi, h3]
  simp

theorem sea_wf : (STab.sea : STableau K).WF where
  a := lowerShape_of _ _ rfl rfl
  c := rfl
  ignoreA j h := (not_ignored_none j h).elim
  ignoreB j h := (not_ignored_none j h).elim
  error e h := by cases h
  general w levy h := by cases h

theorem sra1_wf : (STab.sra1 : STableau K).WF where
  a := lowerShape_of _ _ rfl rfl
  c := rfl
  ignoreA j h := (not_ignored_none j h).elim
  ignoreB j h := (not_ignored_none j h).elim
  error e h := by cases h; exact ⟨rfl, fun j h => (not_ignored_none j h).elim⟩
  general w levy h := by cases h

theorem shark_wf : (STab.shark : STableau K).WF where
  a := lowerShape_of _ _ rfl rfl
  c := rfl
  ignoreA j h := (not_ignored_none j h).elim
  ignoreB j h := (not_ignored_none j h).elim
  error e h := by cases h; exact ⟨rfl, fun j h => (not_ignored_none j h).elim⟩
  general w levy h := by cases h

theorem generalShark_wf : (STab.generalShark : STableau K).WF where
  a := lowerShape_of _ _ rfl rfl
  c := rfl
  ignoreA j h i hi := by
    have hj := ignored_lt h
    simp only [STab.generalShark, List.length_cons, List.length_nil] at hj hi
    interval_cases j
    · interval_cases i <;> simp [STab.generalShark, lowerAt]
    all_goals simp [STab.generalShark, Ignored] at h
  ignoreB j h := by
    have hj := ignored_lt h
    simp only [STab.generalShark, List.length_cons, List.length_nil] at hj
    interval_cases j
    · simp [STab.generalShark]
    all_goals simp [STab.generalShark, Ignored] at h
  error e h := by cases h
  general w levy h x hx := by
    cases h
    refine ⟨?_, ?_, fun j h => (not_ignored_none j h).elim, fun j h => (not_ignored_none j h).elim, fun h => by cases h⟩
    · rcases hx with rfl | hx
      · exact lowerShape_of _ _ rfl rfl
      · rw [List.mem_singleton] at hx; subst hx; exact lowerShape_of _ _ rfl rfl
    · rcases hx with rfl | hx
      · rfl
      · rw [List.mem_singleton] at hx; subst hx; rfl

theorem slowRK_wf : (STab.slowRK : STableau K).WF where
  a := lowerShape_of _ _ rfl rfl
  c := rfl
  ignoreA j h i hi := by
    have hj := ignored_lt h
    simp only [STab.slowRK, List.length_cons, List.length_nil] at hj hi
    interval_cases j <;> first
      | (exfalso; simp [STab.slowRK, Ignored] at h; done)
      | (interval_cases i <;> simp [STab.slowRK, lowerAt])
  ignoreB j h := by
    have hj := ignored_lt h
    simp only [STab.slowRK, List.length_cons, List.length_nil] at hj
    interval_cases j <;> first
      | (exfalso; simp [STab.slowRK, Ignored] at h; done)
      | simp [STab.slowRK]
  error e h := by cases h
  general w levy h x hx := by
    cases h
    have hx' : x = ⟨[[0], [0, 1 / 2], [0, 0, 1 / 2], [0, 0, 0, 1], [0, 0, 0, 3 / 4, 0], [0, 0, 1 / 2, 0, 0, 0]],
        [0, 1 / 6, 1 / 3, 1 / 3, 1 / 6, 0, 0], none⟩ ∨
        x = ⟨[[0], [0, 0], [0, 0, 0], [0, 0, 0, 0], [0, 0, 0, 3 / 2, 0], [0, 0, 0, 0, 0, 0]],
      [0, 0, 0, 2, 0, 0, -2], none⟩ := by
      rcases hx with rfl | hx
      · exact .inl rfl
      · exact .inr (List.mem_singleton.1 hx)
    rcases hx' with rfl | rfl
    all_goals
      refine ⟨lowerShape_of _ _ rfl rfl, rfl, fun j h i hi => ?_, fun j h => ?_, fun h => by cases h⟩
      · have hj := ignored_lt h
        simp only [STab.slowRK, List.length_cons, List.length_nil] at hj hi
        interval_cases j <;> first
          | (exfalso; simp [STab.slowRK, Ignored] at h; done)
          | (interval_cases i <;> simp [lowerAt])
      · have hj := ignored_lt h
        simp only [STab.slowRK, List.length_cons, List.length_nil] at hj
        interval_cases j <;> first
          | (exfalso; simp [STab.slowRK, Ignored] at h; done)
          | simp

theorem spark_wf : STab.spark.WF where
  a := lowerShape_of _ _ rfl rfl
  c := rfl
  ignoreA j h := (not_ignored_none j h).elim
  ignoreB j h := (not_ignored_none j h).elim
  error e h := by cases h; exact ⟨rfl, fun j h => (not_ignored_none j h).elim⟩
  general w levy h x hx := by
    cases h
    refine ⟨?_, ?_, fun j h => (not_ignored_none j h).elim, fun j h => (not_ignored_none j h).elim, fun _ => ?_⟩
    · rcases hx with rfl | hx
      · exact lowerShape_of _ _ rfl rfl
      · rw [List.mem_singleton] at hx; subst hx; exact lowerShape_of _ _ rfl rfl
    · rcases hx with rfl | hx
      · rfl
      · rw [List.mem_singleton] at hx; subst hx; rfl
    · rcases hx with rfl | hx
      · exact ⟨_, rfl, rfl, fun j h => (not_ignored_none j h).elim⟩
      · rw [List.mem_singleton] at hx; subst hx
        exact ⟨_, rfl, rfl, fun j h => (not_ignored_none j h).elim⟩

end

/-! ### Backward solves -/

section
variable {K Y : Type} [Field K] [LinearOrder K] [AddCommGroup Y] [Module K Y]

/-- The drift `f dt` as a term, where controls have leaves `dt`, `W`, `H`, `K`. -/
def driftK (f : K → Y → Y) : KTerm K Y Y (K × K × K × K) where
  vf := f
  contr t0 t1 := (t1 - t0, 0, 0, 0)
  prod v c := c.1 • v
  vfProd t y c := c.1 • f t y
  cls := .ode

/-- The diffusion `g dW` as a term, for a scalar path with increments `bm`. -/
def diffusionK (g : K → Y → Y) (bm : K → K → K × K × K × K) : KTerm K Y Y (K × K × K × K) where
  vf := g
  contr := bm
  prod v c := c.2.1 • v
  vfProd t y c := c.2.1 • g t y
  cls := .control

/-- A stochastic Runge-Kutta solver applied to scalar noise. -/
def srkScalar (tab : STableau K) (interp : LocalLin K Y) :
    SolverClass 2 K Y Y (K × K × K × K) (Option Y) (Y × Y) Unit :=
  srkClass tab (fun h => (h, 0, 0, 0)) (fun c => (0, c.2.1, 0, 0))
    (fun l c => (0, if l = 0 then c.2.2.1 else c.2.2.2, 0, 0)) interp (0, 0)

/-- **C66 is false for backward solves** of `dy = v dt` (`v` constant, no noise), with any tableau whose weights
add up to one: in the solver's time `s = -t`, the exact solution moves by `-(s1 - s0) v`, but the step moves
by `+(s1 - s0) v`. -/
theorem C66_violated (tab : STableau K) (hwf : tab.WF) (hb : ∑ j ∈ range tab.bSol.length, tab.bSol.getD j 0 = 1)
    (v : Y) (bm : K → K → K × K × K × K) (interp : LocalLin K Y) (s0 s1 : K) (y0 : Y) :
    ((srkScalar tab interp).step (fun i => (wrapTerm (-1) (![driftK (fun _ _ => v), diffusionK (fun _ _ => 0) bm] i)).toTerm)
      s0 s1 y0 () false).y = y0 + (s1 - s0) • v := by
  simp only [srkScalar, srkClass]
  rw [SRK.step_y _ (by exact hwf)]
  simp only [SRK.docY1, SRK.hf, wrapTerm, Matrix.cons_val_zero, driftK]
  rw [← sum_smul]
  have e := congrArg (fun x : K => x • ((s1 - s0) • v)) hb
  simp only [one_smul] at e
  rw [e]
  simp only [SRK.docNoise, SRK.g0Noise, SRK.wg, SRK.lg, diffusionK, wrapTerm, Matrix.cons_val_one]
  cases tab.noise with
  | additive w levy => simp
  | general w levy => simp

/-- The same solver does the right thing forwards. -/
theorem C66_constant_forward (tab : STableau K) (hwf : tab.WF)
    (hb : ∑ j ∈ range tab.bSol.length, tab.bSol.getD j 0 = 1)
    (v : Y) (bm : K → K → K × K × K × K) (interp : LocalLin K Y) (t0 t1 : K) (y0 : Y) :
    ((srkScalar tab interp).step (fun i => (wrapTerm 1 (![driftK (fun _ _ => v), diffusionK (fun _ _ => 0) bm] i)).toTerm)
      t0 t1 y0 () false).y = y0 + (t1 - t0) • v := by
  simp only [srkScalar, srkClass]
  rw [SRK.step_y _ (by exact hwf)]
  simp only [SRK.docY1, SRK.hf, wrapTerm, Matrix.cons_val_zero, driftK]
  rw [← sum_smul]
  have e := congrArg (fun x : K => x • ((t1 - t0) • v)) hb
  simp only [one_smul] at e
  rw [e]
  simp only [SRK.docNoise, SRK.g0Noise, SRK.wg, SRK.lg, diffusionK, wrapTerm, Matrix.cons_val_one]
  cases tab.noise with
  | additive w levy => simp
  | general w levy => simp

end

/-- A whole backward solve of `dy = 2 dt`, `y(1) = 5`, down to `t = 0`, with `SRA1` in one step. -/
def backSrk : Problem 2 ℚ ℚ ℚ (ℚ × ℚ × ℚ × ℚ) (Option ℚ) (ℚ × ℚ) Unit Nat ℚ ℚ :=
  { terms := ![driftK (fun _ _ => 2), diffusionK (fun _ _ => 0) (fun a b => (b - a, 0, 0, 0))]
    solver := srkScalar STab.sra1 (fun _ _ d _ => d.2)
    controller := stepToClass [1, 0], t0 := 1, t1 := 0, dt0 := none, y0 := 5
    subs := [{ t0 := false, t1 := true, ts := [], steps := 0, fn := fun _ y => y }], dense := false
    events := [], rootFinder := none, dist := fun a b => a - b, maxSteps := 4, cleanErr := id
    floorOf := fun t => t, mid := fun a b => (a + b) / 2 }

/-- **C66 is false**: the solve reports success and `y(0) = 7`; the exact value is `y(0) = 3`. -/
theorem C66_violated_solve : (diffeqsolve backSrk).toOption.map (fun s => (s.saved, s.result))
    = some ([[.val 0 7]], .successful) := by
  decide +kernel

/-- Forwards, from `y(0) = 3`, it gets `y(1) = 5`. -/
example : (diffeqsolve { backSrk with t0 := 0, t1 := 1, y0 := 3, controller := stepToClass [0, 1] }).toOption.map
    (fun s => (s.saved, s.result)) = some ([[.val 1 5]], .successful) := by
  decide +kernel

/-- The hypotheses of `C66_violated` hold for the built-in solvers. -/
example : (STab.slowRK : STableau ℚ).WF ∧
    ∑ j ∈ range (STab.slowRK : STableau ℚ).bSol.length, (STab.slowRK : STableau ℚ).bSol.getD j 0 = 1 :=
  ⟨slowRK_wf, by decide +kernel⟩

end Verif
