import Verif.Props.OrderSolvers
import Mathlib.Topology.MetricSpace.Contracting
import Mathlib.Analysis.SpecialFunctions.ExpDeriv

/-!
# C61: the conditions on implicit methods can be met

With a root finder that finds a root whenever there is one, the order of the solvers holds for every
Lipschitz continuous analytic vector field on a Banach space, without further conditions.
-/

set_option linter.unusedSectionVars false

namespace Verif
open Finset Asymptotics Filter Topology Tab

section
variable {T K Y VF Ct J : Type} {m : ℕ}
variable [Field K] [DecidableEq K] [AddCommGroup Y] [Module K Y] [AddCommGroup VF] [Module K VF]

/-- If all root finding succeeds, so does the step. -/
theorem RK.stages_okay (rk : RK m T K Y VF Ct J) (t0 t1 : T) (y0 : Y)
    (hF : ∀ p i ti yp guess jac,
      (rk.rootF.find i (rk.relF p t0 t1 ((rk.tab p).diagAt i) ti yp) guess jac).2.isOkay = true)
    (hK : ∀ p i ti yp guess jac,
      (rk.rootK.find i (rk.relK p t0 t1 ((rk.tab p).diagAt i) ti yp) guess jac).2.isOkay = true)
    (n : ℕ) (s : StageState m Y VF J) (hs : s.result.isOkay = true) :
    (rk.stages t0 t1 y0 n s).result.isOkay = true := by
  induction n generalizing s with
  | zero => exact hs
  | succ n ih =>
    simp only [RK.stages]
    split
    · apply ih
      cases hp : rk.implicitPart with
      | none => simp only [RK.stage, hp, RK.stageEnd]; exact hs
      | some p =>
        by_cases he : rk.evalFs = true
        · have : (rk.stage t0 t1 y0 s).result
              = s.result.update (rk.solveF t0 t1 y0 (rk.partialY t0 t1 y0 s) p s).2.2 := by
            simp only [RK.stage, hp, he, RK.stageEnd, if_true]
          rw [this, Result.update_isOkay, hs, Bool.true_and]
          exact hF _ _ _ _ _ _
        · have : (rk.stage t0 t1 y0 s).result
              = s.result.update (rk.solveK t0 t1 y0 (rk.partialY t0 t1 y0 s) p s).2.2 := by
            simp only [RK.stage, hp, he, RK.stageEnd]; simp
          rw [this, Result.update_isOkay, hs, Bool.true_and]
          exact hK _ _ _ _ _ _
    · exact hs

end

open Classical in
/-- Finds a root if there is one. -/
noncomputable def idealRoot (X : Type) [Zero X] : RootFinder X Unit where
  init _ _ _ := ()
  find _ rel guess _ := if h : ∃ x, rel x = 0 then (h.choose, .successful) else (guess, .other 0)

theorem idealRoot_exact (X : Type) [Zero X] : (idealRoot X).Exact := by
  intro i rel guess jac h
  by_cases hx : ∃ x, rel x = 0
  · simp only [idealRoot, hx, dif_pos]
    exact hx.choose_spec
  · simp [idealRoot, hx, Result.isOkay, Result.isSuccessful, Result.isEvent] at h

theorem idealRoot_okay (X : Type) [Zero X] (i : ℕ) (rel : X → X) (guess : X) (jac : Unit)
    (hx : ∃ x, rel x = 0) : ((idealRoot X).find i rel guess jac).2.isOkay = true := by
  simp [idealRoot, hx, Result.isOkay, Result.isSuccessful]

theorem exists_fixed {E : Type} [NormedAddCommGroup E] [CompleteSpace E] (Φ : E → E) (q : ℝ)
    (hq0 : 0 ≤ q) (hq : q < 1) (h : ∀ x y, ‖Φ x - Φ y‖ ≤ q * ‖x - y‖) : ∃ x, x - Φ x = 0 := by
  have hc : ContractingWith ⟨q, hq0⟩ Φ := by
    refine ⟨by exact_mod_cast hq, LipschitzWith.of_dist_le_mul (fun x y => ?_)⟩
    rw [dist_eq_norm, dist_eq_norm]
    exact h x y
  obtain ⟨x, hx, -⟩ := hc.exists_fixedPoint 0 (edist_ne_top _ _)
  exact ⟨x, sub_eq_zero.2 hx.symm⟩

section
variable {m : ℕ} {E : Type} [NormedAddCommGroup E] [NormedSpace ℝ E] [Module ℚ E] [CompleteSpace E]

/-- The root finder succeeds whenever the step is short enough; how short does not depend on where. -/
theorem ideal_succeeds_uniform {tab : Fin m → Tableau ℚ} (f : Fin m → ℝ → E → E) (cj : CalcJac)
    (L : ℝ) (hL : 0 ≤ L) (hlip : ∀ p t y y', ‖f p t y - f p t y'‖ ≤ L * ‖y - y'‖) :
    ∃ δ > 0, ∀ h, |h| ≤ δ → ∀ (t0 : ℝ) (y0 : E) (st : RK.State m E) (mj : Bool),
      ((odeRK tab f cj (idealRoot E) (idealRoot E) ()).step t0 (t0 + h) y0 st mj).result.isOkay = true := by
  -- a bound for the diagonal coefficients
  obtain ⟨D, hD0, hD⟩ : ∃ D : ℝ, 0 ≤ D ∧ ∀ p i, |((tab p).diagAt i : ℝ)| ≤ D := by
    refine ⟨∑ p, (((tab p).aDiagonal.getD []).map (fun x : ℚ => |(x : ℝ)|)).sum, ?_, ?_⟩
    · apply sum_nonneg; intro p _
      apply List.sum_nonneg
      intro x hx
      obtain ⟨y, -, rfl⟩ := List.mem_map.1 hx
      exact abs_nonneg _
    · intro p i
      have h1 : |((tab p).diagAt i : ℝ)|
          ≤ (((tab p).aDiagonal.getD []).map (fun x : ℚ => |(x : ℝ)|)).sum := by
        unfold Tableau.diagAt
        set l := (tab p).aDiagonal.getD [] with hl
        by_cases hi : i < l.length
        · rw [List.getD_eq_getElem (hn := hi)]
          apply List.single_le_sum
          · intro x hx
            obtain ⟨y, -, rfl⟩ := List.mem_map.1 hx
            exact abs_nonneg _
          · exact List.mem_map.2 ⟨l[i], List.getElem_mem hi, rfl⟩
        · rw [List.getD_eq_default (hn := by omega)]
          simp only [Rat.cast_zero, abs_zero]
          apply List.sum_nonneg
          intro x hx
          obtain ⟨y, -, rfl⟩ := List.mem_map.1 hx
          exact abs_nonneg _
      refine h1.trans ?_
      apply single_le_sum (f := fun p => (((tab p).aDiagonal.getD []).map (fun x : ℚ => |(x : ℝ)|)).sum)
      · intro q _
        apply List.sum_nonneg
        intro x hx
        obtain ⟨y, -, rfl⟩ := List.mem_map.1 hx
        exact abs_nonneg _
      · exact mem_univ p
  refine ⟨1 / (1 + D * L), by positivity, fun h hδ t0 y0 st mj => ?_⟩
  have hh : |h| * (D * L) < 1 := by
    rw [le_div_iff₀ (by positivity)] at hδ
    have hDL : 0 ≤ D * L := by positivity
    rcases (abs_nonneg h).eq_or_lt with h0 | h0
    · rw [← h0]; norm_num
    · nlinarith
  have hq0 : 0 ≤ |h| * (D * L) := by positivity
  apply RK.stages_okay
  · intro p i ti yp guess jac
    apply idealRoot_okay
    refine exists_fixed (fun fi => f p ti (yp + (tab p).diagAt i • ((t0 + h - t0) • fi)))
      (|h| * (D * L)) hq0 hh ?_
    intro x y
    refine (hlip _ _ _ _).trans ?_
    rw [add_sub_add_left_eq_sub, ← smul_sub, ← smul_sub, qsmul_eq, norm_smul, norm_smul,
      Real.norm_eq_abs, Real.norm_eq_abs, add_sub_cancel_left]
    have := mul_le_mul_of_nonneg_right (hD p i) (by positivity : 0 ≤ L * (|h| * ‖x - y‖))
    calc L * (|((tab p).diagAt i : ℝ)| * (|h| * ‖x - y‖))
        = |((tab p).diagAt i : ℝ)| * (L * (|h| * ‖x - y‖)) := by ring
      _ ≤ D * (L * (|h| * ‖x - y‖)) := this
      _ = |h| * (D * L) * ‖x - y‖ := by ring
  · intro p i ti yp guess jac
    apply idealRoot_okay
    refine exists_fixed (fun ki => (t0 + h - t0) • f p ti (yp + (tab p).diagAt i • ki))
      (|h| * (D * L)) hq0 hh ?_
    intro x y
    rw [← smul_sub, norm_smul, Real.norm_eq_abs, add_sub_cancel_left]
    have h1 := hlip p ti (yp + (tab p).diagAt i • x) (yp + (tab p).diagAt i • y)
    rw [add_sub_add_left_eq_sub, ← smul_sub, qsmul_eq _ (x - y), norm_smul, Real.norm_eq_abs] at h1
    have h2 := mul_le_mul_of_nonneg_right (hD p i) (by positivity : 0 ≤ L * ‖x - y‖)
    calc |h| * ‖f p ti (yp + (tab p).diagAt i • x) - f p ti (yp + (tab p).diagAt i • y)‖
        ≤ |h| * (L * (|((tab p).diagAt i : ℝ)| * ‖x - y‖)) := mul_le_mul_of_nonneg_left h1 (abs_nonneg h)
      _ ≤ |h| * (D * (L * ‖x - y‖)) := by
          apply mul_le_mul_of_nonneg_left _ (abs_nonneg h)
          calc _ = |((tab p).diagAt i : ℝ)| * (L * ‖x - y‖) := by ring
            _ ≤ _ := h2
      _ = |h| * (D * L) * ‖x - y‖ := by ring
  · show (RK.initStage _ _ _ _ _ _).result.isOkay = true
    unfold RK.initStage
    split <;> rfl

theorem ideal_succeeds {tab : Fin m → Tableau ℚ} (f : Fin m → ℝ → E → E) (cj : CalcJac)
    (t0 : ℝ) (y0 : E) (L : ℝ) (hL : 0 ≤ L) (hlip : ∀ p t y y', ‖f p t y - f p t y'‖ ≤ L * ‖y - y'‖)
    (st : RK.State m E) (mj : Bool) :
    ∀ᶠ h in 𝓝 (0 : ℝ), ((odeRK tab f cj (idealRoot E) (idealRoot E) ()).step t0 (t0 + h) y0 st
      mj).result.isOkay = true := by
  obtain ⟨δ, hδ, h⟩ := ideal_succeeds_uniform (tab := tab) f cj L hL hlip
  filter_upwards [Metric.closedBall_mem_nhds (0 : ℝ) hδ] with x hx
  exact h x (by simpa using hx) t0 y0 st mj

/-- **C61, implicit methods.** With an ideal root finder: Lipschitz continuous analytic vector fields on
Banach spaces are integrated with the stated order. -/
theorem C61_ideal {tab : Fin m → Tableau ℚ} {N M : ℕ} {ε δ : ℚ} (h : StepOrder tab N ε M δ)
    (s : ℕ) (c : ℕ → ℚ) (hok : methodOK s c tab = true)
    (f : Fin m → ℝ → E → E) (cj : CalcJac) (t0 : ℝ) (y0 : E)
    (G : Fin m → FormalMultilinearSeries ℝ (ℝ × E) E)
    (hG : ∀ p, HasFPowerSeriesAt (fun x : ℝ × E => f p x.1 x.2) (G p) (t0, y0))
    (L : ℝ) (hL : 0 ≤ L) (hlip : ∀ p t y y', ‖f p t y - f p t y'‖ ≤ L * ‖y - y'‖)
    (y : ℝ → E) (hy : SolvesODE f t0 y0 y) :
    NearOrder G N ε (fun h => ((odeRK tab f cj (idealRoot E) (idealRoot E) ()).step t0 (t0 + h) y0
      (odeRK tab f cj (idealRoot E) (idealRoot E) ()).init false).y - y (t0 + h)) :=
  (h.lipschitz s c hok f cj (idealRoot E) (idealRoot E) () t0 y0 G hG L hlip y hy _ false
    (by
      intro hf
      exact ⟨true, fun _ => 0, by simp [RK.init, hf], Or.inl rfl⟩)
    ⟨idealRoot_exact E, idealRoot_exact E⟩ (ideal_succeeds f cj t0 y0 L hL hlip _ false)).1

end

/-! ### Examples -/

/-- `exp` solves `y' = y`. -/
theorem exp_solves : SolvesODE ![fun _ y => y] 0 1 Real.exp :=
  ⟨Real.exp_zero, Eventually.of_forall (fun t => by simpa using Real.hasDerivAt_exp t)⟩

theorem linear_analytic (p : Fin 1) (x : ℝ × ℝ) :
    AnalyticAt ℝ (fun x : ℝ × ℝ => (![fun _ y => y] : Fin 1 → ℝ → ℝ → ℝ) p x.1 x.2) x := by
  fin_cases p
  exact analyticAt_snd

/-- One step of `Dopri5` for `y' = y`. -/
example : (fun h => ((odeRK ![Dopri5.tableau] ![fun _ y => y] .never (idealRoot ℝ) (idealRoot ℝ) ()).step
    0 (0 + h) 1 (some (true, fun _ => 0)) false).y - Real.exp (0 + h)) =O[𝓝 0] (fun h : ℝ => h ^ 6) :=
  (C61_dopri5.explicit (by decide +kernel) ![fun _ y => y] .never (idealRoot ℝ) (idealRoot ℝ) () 0 1
    (fun p => linear_analytic p _) Real.exp exp_solves (some (true, fun _ => 0)) false
    (fun _ => ⟨true, fun _ => 0, rfl, Or.inl rfl⟩)).1

/-- One step of `Kvaerno3` for `y' = y`. -/
example : (fun h => ((odeRK ![Kvaerno3.tableau] ![fun _ y => y] .secondStage (idealRoot ℝ) (idealRoot ℝ)
    ()).step 0 (0 + h) 1
    (odeRK ![Kvaerno3.tableau] ![fun _ y => y] .secondStage (idealRoot ℝ) (idealRoot ℝ) ()).init
    false).y - Real.exp (0 + h)) =O[𝓝 0] (fun h : ℝ => h ^ 4) := by
  have hG : ∀ p, ∃ G, HasFPowerSeriesAt (fun x : ℝ × ℝ => (![fun _ y => y] : Fin 1 → ℝ → ℝ → ℝ) p x.1 x.2)
      G (0, 1) := fun p => linear_analytic p _
  choose G hG using hG
  have := C61_ideal C61_kvaerno3 4 Kvaerno3.tableau.abscissa (by decide +kernel) ![fun _ y => y]
    .secondStage 0 1 G hG 1 zero_le_one (by intro p t y y'; fin_cases p; simp) Real.exp exp_solves
  rw [Rat.cast_zero] at this
  exact this.isBigO

end Verif
