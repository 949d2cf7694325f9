import Verif.Spec.DerivativeConvergence
import Verif.Lemmas.DenseDerivative
import Verif.Props.DenseConvergence
import Verif.Props.Front
import Mathlib.Analysis.Calculus.Deriv.CompMul

/-!
# C101: the derivative returned by `sol.derivative(t)` converges to the vector field along the solution
-/

set_option linter.unusedSectionVars false
set_option maxRecDepth 100000

namespace Verif
open Finset Filter Topology Tab

section
variable {E Er D S C O F : Type} [NormedAddCommGroup E] [NormedSpace ℝ E] [LinearOrder F] [Zero F]

/-- Dense output returns the derivative of the interpolation of the step that is responsible for the time. -/
theorem derivative_value (cfg : Cfg ℝ E Er D S C O F) (hd : cfg.dense = true)
    (y0 : E) (tnext : ℝ) (ctrl : C) (ss : S) (mj : Bool)
    (hhist : ∀ s ∈ history cfg y0 tnext ctrl ss mj, (adaptOut cfg s).Exact s.tprev s.tnext ∧
      s.tprev ≤ s.tnext ∧ s.tnext ≤ cfg.t1)
    (hne : 0 < (solve cfg y0 tnext ctrl ss mj).core.numAccepted) (t : ℝ) (hlo : cfg.t0 ≤ t)
    (hhi : t ≤ (solve cfg y0 tnext ctrl ss mj).core.tprev) :
    ∃ p, firstCovering (pieces cfg y0 tnext ctrl ss mj) t = some p ∧
      (denseOf cfg y0 (solve cfg y0 tnext ctrl ss mj)).derivative t true = some (deriv (p.eval cfg.solver) t) := by
  obtain ⟨-, h2, h3⟩ := dense_piece cfg hd y0 tnext ctrl ss mj hhist hne t
  obtain ⟨p, i, hp, hseg, ha, hb, hinf⟩ := h3 hlo hhi
  refine ⟨p, hp, ?_⟩
  unfold DenseInterp.derivative
  rw [h2]
  simp only [not_lt.2 hlo, not_lt.2 hhi, decide_false, Bool.or_self, Bool.false_eq_true, if_false]
  rw [hseg, ha, hb, hinf]
  rfl

/-- **C101, any one-step method.** -/
theorem derivative_error (cfg : Cfg ℝ E Er D S C O F) (hwf : cfg.WF) (V : ℝ → E → S → Bool → Prop) (y : ℝ → E)
    (δ A B K A' B' K' : ℝ) (hA : 0 ≤ A) (hB : 0 ≤ B) (hK : 0 ≤ K) (hA' : 0 ≤ A') (hK' : 0 ≤ K')
    (N N' : ℕ) (hacc : cfg.solver.Accurate V y cfg.t0 cfg.t1 δ A B K N)
    (hden : cfg.solver.DerivativeAccurate V y cfg.t0 cfg.t1 δ A' B' K' N')
    (hctrl : cfg.controller.Exact) (y0 : E) (tnext : ℝ) (ctrl : C) (ss : S) (mj : Bool)
    (hV : V cfg.t0 y0 ss mj)
    (hfor : ∀ c ∈ callLog cfg y0 tnext ctrl ss mj, c.solverT0 < c.solverT1)
    (hok : ∀ c ∈ callLog cfg y0 tnext ctrl ss mj, (c.answer cfg).keep = true →
      (cfg.solver.step c.solverT0 c.solverT1 c.solverY c.solverState c.solverMadeJump).result.isOkay = true)
    (η : ℝ) (hη0 : 0 ≤ η) (hηδ : η ≤ δ)
    (hη : ∀ c ∈ callLog cfg y0 tnext ctrl ss mj, (c.answer cfg).keep = true →
      c.solverT1 - c.solverT0 ≤ η) (t : ℝ) (ht : cfg.t0 ≤ t) (p : Piece ℝ E D)
    (hp : firstCovering (pieces cfg y0 tnext ctrl ss mj) t = some p) :
    ‖deriv (p.eval cfg.solver) t - deriv y t‖
      ≤ K' * (Real.exp (K * (cfg.t1 - cfg.t0)) * (‖y0 - y cfg.t0‖ + (cfg.t1 - cfg.t0) * (A * η ^ N + B)))
        + A' * η ^ N' + B' := by
  obtain ⟨g1, -, -⟩ := global_error cfg hwf V y δ A B K hA hB hK N hacc hctrl y0 tnext ctrl ss mj hV
    (fun c hc => (hfor c hc).le) hok η hηδ hη
  rw [log_eq_history] at hfor hok hη g1
  have hhist : ∀ s ∈ history cfg y0 tnext ctrl ss mj, (adaptOut cfg s).Exact s.tprev s.tnext ∧
      s.tprev ≤ s.tnext ∧ s.tnext ≤ cfg.t1 := fun s hs =>
    ⟨hctrl _ _ _ _ _ _, (hfor _ (List.mem_map_of_mem hs)).le, (g1 _ (List.mem_map_of_mem hs)).1.1.2⟩
  obtain ⟨h1, h2, h3⟩ := covering_contains cfg y0 tnext ctrl ss mj hhist t ht p hp
  obtain ⟨s, hs, rfl⟩ := List.mem_map.1 h3
  obtain ⟨hs, hk⟩ := List.mem_filter.1 hs
  obtain ⟨⟨⟨b1, b2⟩, b3⟩, b4⟩ := g1 _ (List.mem_map_of_mem hs)
  have b5 : s.tprev < s.tnext := hfor _ (List.mem_map_of_mem hs)
  have b6 : s.tnext - s.tprev ≤ η := hη _ (List.mem_map_of_mem hs) hk
  have b7 := hok _ (List.mem_map_of_mem hs) hk
  replace b1 : cfg.t0 ≤ s.tprev := b1
  replace b2 : s.tnext ≤ cfg.t1 := b2
  have main := hden s.tprev s.tnext s.y s.solverState s.madeJump b3 b1 b5 b2 (b6.trans hηδ) b7 t h1 h2
  refine le_trans main ?_
  have c1 := errorBound_mono A B K hA hB hK N η ‖y0 - y cfg.t0‖ cfg.t0 s.tprev cfg.t1 hη0 (norm_nonneg _)
    b1 (b5.le.trans b2)
  have c2 := mul_le_mul_of_nonneg_left (le_trans b4 c1) hK'
  have c5 : A' * (s.tnext - s.tprev) ^ N' ≤ A' * η ^ N' :=
    mul_le_mul_of_nonneg_left (pow_le_pow_left₀ (sub_nonneg.2 b5.le) b6 _) hA'
  exact add_le_add (add_le_add c2 c5) le_rfl

end

section
variable {m : ℕ} {tab : Fin m → Tableau ℚ} {s : ℕ} {c : ℕ → ℚ} {N M N' : ℕ} {ε δ' ε' : ℚ}

theorem any_derivativeAccurate {E J : Type} [NormedAddCommGroup E] [NormedSpace ℝ E] [Module ℚ E] [CompleteSpace E]
    (hok : methodOK s c tab = true) {interp : InterpRule m} {rows : Tableau ℚ → List (List ℚ)} {d : ℕ}
    (hrows : HasRows tab interp s d rows) (hε' : 0 ≤ ε') (hden : DenseOrder tab interp N' ε')
    (f : Fin m → ℝ → E → E) (cj : CalcJac)
    (rF rK : RootFinder E J) (nj : J) (hroot : (odeRK tab f cj rF rK nj).RootExact)
    (L : ℝ) (hf : NiceODE f L)
    (y : ℝ → E) (hy : ∀ t, HasDerivAt y (∑ p, f p t (y t)) t) (a b D : ℝ) (hD : ElemBound f y a b N' D)
    {μ : ℝ} (hμ0 : 0 ≤ μ) (hμ : ∀ (q : ℕ → E) (B : ℝ),
      (∀ θ ∈ Set.Icc (0 : ℝ) 1, ‖∑ j ∈ range (max d N'), θ ^ (j + 1) • q j‖ ≤ B) →
      ∀ θ ∈ Set.Icc (0 : ℝ) 1, ‖∑ j ∈ range (max d N'), ((j + 1 : ℝ) * θ ^ j) • q j‖ ≤ μ * B) :
    ∃ δ A, 0 < δ ∧ 0 ≤ A ∧ Solver.DerivativeAccurate
      { step := (odeRK tab f cj rF rK nj).step, interp := interp E }
      (odeRK tab f cj rF rK nj).ValidState y a b δ A (μ * ε' * D) (μ * (4 * rowSum s d rows tab * (m * s)) * |L|) N' := by
  obtain ⟨δ, A, hδ, hA, herr⟩ := dense_derivative tab f cj rF rK nj hok hroot hrows hε' hden hf.analytic
    (abs_nonneg L) (fun p t x x' => (hf.lipschitz p t x x').trans
      (mul_le_mul_of_nonneg_right (le_abs_self L) (norm_nonneg _))) y hy hD hμ0 hμ
  refine ⟨δ, A, hδ, hA, ?_⟩
  intro t t' x st mj hst hat htt htb hδt hokay τ hτ0 hτ1
  obtain ⟨h, rfl⟩ : ∃ h, t' = t + h := ⟨t' - t, by ring⟩
  have hh : 0 < h := by linarith
  obtain ⟨θ, hθ, rfl⟩ : ∃ θ ∈ Set.Icc (0 : ℝ) 1, τ = t + θ * h := by
    refine ⟨(τ - t) / h, ⟨div_nonneg (by linarith) hh.le, ?_⟩, ?_⟩
    · rw [div_le_one hh]; linarith
    · field_simp; ring
  rw [add_sub_cancel_left] at hδt ⊢
  refine (herr t ⟨hat, htt.le.trans htb⟩ h hh hδt θ hθ x st mj hst hokay).trans (le_of_eq ?_)
  ring

/-- **C101.** A Runge-Kutta solver of order `N` with interpolation of order `N'`. -/
theorem C101_converges (hord : StepOrder tab N ε M δ') (hok : methodOK s c tab = true) (hε : 0 ≤ ε)
    {interp : InterpRule m} {rows : Tableau ℚ → List (List ℚ)} {d : ℕ} (hrows : HasRows tab interp s d rows)
    (hden : DenseOrder tab interp N' ε') (hε' : 0 ≤ ε') (hN : N' ≤ N) :
    DerivativeConverges tab interp N N' ε ε' := by
  have hb0 := bSum_nonneg tab s
  have hr0 := rowSum_nonneg tab s d rows
  obtain ⟨μ, hμ0, hμ⟩ := poly_deriv_le (max d N')
  refine ⟨4 * bSum s tab * (m * s), max μ (μ * (4 * rowSum s d rows tab * (m * s))), by positivity,
    hμ0.trans (le_max_left _ _), ?_⟩
  intro E J _ _ _ _ f cj rF rK nj hroot L hf y hy a b D hD
  have hroot' : (odeRK tab f cj rF rK nj).RootExact := fun h =>
    hroot ((implicitPart_isSome tab f cj rF rK nj).1 h)
  obtain ⟨δ₁, A, hδ₁, hA, hacc⟩ := any_accurate hok hε hord f cj rF rK nj hroot' L hf y hy a b D hD
  obtain ⟨δ₂, A', hδ₂, hA', hdacc⟩ := any_derivativeAccurate hok hrows hε' hden f cj rF rK nj hroot' L hf y hy a b D
    (hD.mono hN) hμ0 (hμ E)
  refine ⟨min δ₁ δ₂, max A A', lt_min hδ₁ hδ₂, hA.trans (le_max_left _ _), ?_⟩
  intro C O F _ _ cfg hwf ha hb hstep hinterp hctrl y0 tnext ctrl mj η hη0 hηδ hfor hall hd hpos t ht0 ht1
  subst ha hb
  have hsolver : cfg.solver = { step := (odeRK tab f cj rF rK nj).step, interp := interp E } := by
    rw [← hstep, ← hinterp]
  have hD0 := elemBound_nonneg hwf.le hD
  have hacc' : cfg.solver.Accurate (odeRK tab f cj rF rK nj).ValidState y cfg.t0 cfg.t1 (min δ₁ δ₂) A (ε * D)
      (4 * bSum s tab * (m * s) * |L|) N := by
    rw [hsolver]
    exact ⟨(hacc _).valid, fun t t' x st mj h1 h2 h3 h4 h5 h6 =>
      (hacc _).error t t' x st mj h1 h2 h3 h4 (h5.trans (min_le_left _ _)) h6⟩
  have hdacc' : cfg.solver.DerivativeAccurate (odeRK tab f cj rF rK nj).ValidState y cfg.t0 cfg.t1 (min δ₁ δ₂) A'
      (μ * ε' * D) (μ * (4 * rowSum s d rows tab * (m * s)) * |L|) N' := by
    rw [hsolver]
    exact fun t t' x st mj h1 h2 h3 h4 h5 h6 =>
      hdacc t t' x st mj h1 h2 h3 h4 (h5.trans (min_le_right _ _)) h6
  have hεR : (0 : ℝ) ≤ ε := by exact_mod_cast hε
  have hεR' : (0 : ℝ) ≤ ε' := by exact_mod_cast hε'
  have hhist : ∀ s ∈ history cfg y0 tnext ctrl (odeRK tab f cj rF rK nj).init mj,
      (adaptOut cfg s).Exact s.tprev s.tnext ∧ s.tprev ≤ s.tnext ∧ s.tnext ≤ cfg.t1 := by
    intro s hs
    refine ⟨hctrl _ _ _ _ _ _, ?_, (history_le cfg hwf y0 tnext ctrl _ mj s hs).2⟩
    have hfor' := hfor
    rw [log_eq_history] at hfor'
    exact (hfor' _ (List.mem_map_of_mem hs)).le
  obtain ⟨p, hp, hv⟩ := derivative_value cfg hd y0 tnext ctrl _ mj hhist hpos t ht0 ht1
  refine ⟨_, hv, ?_⟩
  rw [← (hy t).deriv]
  refine (derivative_error cfg hwf _ y (min δ₁ δ₂) A (ε * D) _ A' (μ * ε' * D) _ hA (by positivity) (by positivity) hA'
    (by positivity) N N' hacc' hdacc' hctrl y0 tnext ctrl _ mj
    (validState_init tab f cj rF rK nj _ _ _) hfor (fun c hc hk => (hall c hc hk).1) η hη0 hηδ
    (fun c hc hk => (hall c hc hk).2) t ht0 p hp).trans ?_
  have hle : 0 ≤ cfg.t1 - cfg.t0 := sub_nonneg.2 hwf.le
  gcongr
  · exact le_max_right _ _
  · exact le_max_left _ _
  · exact le_max_right _ _
  · exact le_max_left _ _

end

/-! ### The solvers -/

/-- **C101.** `Heun`: order 2; `Midpoint` and `Ralston`: order 1. -/
theorem C101_order2 : DerivativeConverges ![Heun.tableau] (fun _ _ _ => hermiteInterp 2) 2 2 0 0 ∧
    DerivativeConverges ![Midpoint.tableau] (fun _ _ _ => hermiteInterp 2) 2 1 0 0 ∧
    DerivativeConverges ![Ralston.tableau] (fun _ _ _ => hermiteInterp 2) 2 1 0 0 :=
  ⟨C101_converges (s := 2) (c := Heun.tableau.abscissa) C61_heun (by decide +kernel) (le_refl _)
    (hermite_hasRows _ 2 (by norm_num)) C75_heun (le_refl _) (by norm_num),
   C101_converges (s := 2) (c := Midpoint.tableau.abscissa) C61_midpoint (by decide +kernel) (le_refl _)
    (hermite_hasRows _ 2 (by norm_num)) C75_midpoint (le_refl _) (by norm_num),
   C101_converges (s := 2) (c := Ralston.tableau.abscissa) C61_ralston (by decide +kernel) (le_refl _)
    (hermite_hasRows _ 2 (by norm_num)) C75_ralston (le_refl _) (by norm_num)⟩

/-- **C101.** `Bosh3`: order 3. -/
theorem C101_bosh3 : DerivativeConverges ![Bosh3.tableau] (fun _ _ _ => hermiteInterp 4) 3 3 0 0 :=
  C101_converges (s := 4) (c := Bosh3.tableau.abscissa) C61_bosh3 (by decide +kernel) (le_refl _)
    (hermite_hasRows _ 4 (by norm_num)) C75_bosh3 (le_refl _) (by norm_num)

/-- **C101.** `Dopri5`: order 4. -/
theorem C101_dopri5 : DerivativeConverges ![Dopri5.tableau] (fun _ _ _ => dopri5Interp) 5 4 0 0 :=
  C101_converges (s := 7) (c := Dopri5.tableau.abscissa) C61_dopri5 (by decide +kernel) (le_refl _)
    (dopri5_hasRows _) C75_dopri5 (le_refl _) (by norm_num)

/-- **C101.** `Tsit5`: order 4. -/
theorem C101_tsit5 :
    DerivativeConverges ![Tsit5.tableau] (fun _ _ _ => tsit5Interp) 5 4 (1 / 10 ^ 82) (4 * (1 / 10 ^ 16)) :=
  C101_converges (s := 7) (c := Tsit5.tableau.abscissa) C61_tsit5 (by decide +kernel) (by norm_num)
    (tsit5_hasRows _) C75_tsit5 (by norm_num) (by norm_num)

/-- **C101.** `Dopri8`: order 5. -/
theorem C101_dopri8 :
    DerivativeConverges ![Dopri8.tableau] (fun _ _ _ => dopri8Interp) 8 5 (1 / 10 ^ 16) (6 * (1 / 10 ^ 14)) :=
  C101_converges (s := 14) (c := Dopri8.tableau.abscissa) C61_dopri8 (by decide +kernel) (by norm_num)
    (dopri8_hasRows _) C75_dopri8_partial (by norm_num) (by norm_num)

/-- **C101.** `Kvaerno3`, `Kvaerno4` and `Kvaerno5`: order 3. -/
theorem C101_kvaerno : DerivativeConverges ![Kvaerno3.tableau] (fun _ _ _ => hermiteInterp 4) 3 3 0 0 ∧
    DerivativeConverges ![Kvaerno4.tableau] (fun _ _ _ => hermiteInterp 5) 4 3 0 0 ∧
    DerivativeConverges ![Kvaerno5.tableau] (fun _ _ _ => hermiteInterp 7) 5 3 (1 / 10 ^ 16) (3 * (1 / 10 ^ 16)) :=
  ⟨C101_converges (s := 4) (c := Kvaerno3.tableau.abscissa) C61_kvaerno3 (by decide +kernel) (le_refl _)
    (hermite_hasRows _ 4 (by norm_num)) C75_kvaerno3 (le_refl _) (by norm_num),
   C101_converges (s := 5) (c := Kvaerno4.tableau.abscissa) C61_kvaerno4 (by decide +kernel) (le_refl _)
    (hermite_hasRows _ 5 (by norm_num)) C75_kvaerno4 (le_refl _) (by norm_num),
   C101_converges (s := 7) (c := Kvaerno5.tableau.abscissa) C61_kvaerno5 (by decide +kernel) (by norm_num)
    (hermite_hasRows _ 7 (by norm_num)) C75_kvaerno5 (by norm_num) (by norm_num)⟩

/-- **C101.** `KenCarp3`, `KenCarp4`, `KenCarp5` and `Sil3`: orders 2, 3, 3 and 2. -/
theorem C101_imex :
    DerivativeConverges ![KenCarp3.explicit, KenCarp3.implicit] (fun _ _ _ => kencarpInterp kencarp3Coeffs) 3 2
      (1 / 10 ^ 25) (2 * (1 / 10 ^ 19)) ∧
    DerivativeConverges ![KenCarp4.explicit, KenCarp4.implicit] (fun _ _ _ => kencarpInterp kencarp4Coeffs) 4 3
      (1 / 10 ^ 25) (3 * (1 / 10 ^ 19)) ∧
    DerivativeConverges ![KenCarp5.explicit, KenCarp5.implicit] (fun _ _ _ => kencarpInterp kencarp5Coeffs) 5 3
      (4 / 10 ^ 12) (3 * (1 / 10 ^ 10)) ∧
    DerivativeConverges ![Sil3.explicit, Sil3.implicit] (fun _ _ _ => sil3Interp) 2 2 0 0 :=
  ⟨C101_converges (s := 4) (c := KenCarp3.explicit.abscissa) C61_kencarp3 (by decide +kernel) (by norm_num)
    (kencarp_hasRows _ _ 4 2 rfl (by decide)) C75_kencarp3 (by norm_num) (by norm_num),
   C101_converges (s := 6) (c := KenCarp4.explicit.abscissa) C61_kencarp4 (by decide +kernel) (by norm_num)
    (kencarp_hasRows _ _ 6 3 rfl (by decide)) C75_kencarp4 (by norm_num) (by norm_num),
   C101_converges (s := 8) (c := KenCarp5.explicit.abscissa) C61_kencarp5 (by decide +kernel) (by norm_num)
    (kencarp_hasRows _ _ 8 3 rfl (by decide)) C75_kencarp5 (by norm_num) (by norm_num),
   C101_converges (s := 4) (c := Sil3.explicit.abscissa) C61_sil3 (by decide +kernel) (le_refl _)
    (sil3_hasRows _) C75_sil3 (le_refl _) (by norm_num)⟩

/-! ### Constant steps -/

section
variable {m : ℕ} {E J : Type} [NormedAddCommGroup E] [NormedSpace ℝ E] [Module ℚ E] {tab : Fin m → Tableau ℚ}
  {N N' : ℕ}

/-- **C101, constant steps.** With `ConstantStepSize`, an explicit method and `SaveAt(dense=True)`, started on the solution: the
error of `sol.derivative(t)` is at most a constant times `dt0^k`, where `k` is the smaller one of `N` and `N'`. -/
theorem C101_constant [CompleteSpace E] {interp : InterpRule m} (hconv : DerivativeConverges tab interp N N' 0 0)
    (hex : ∀ p, (tab p).implicit = false)
    (f : Fin m → ℝ → E → E) (cj : CalcJac) (rF rK : RootFinder E J) (nj : J)
    (L : ℝ) (hf : NiceODE f L) (y : ℝ → E) (hy : ∀ t, HasDerivAt y (∑ p, f p t (y t)) t) (a b : ℝ) :
    ∃ δ B : ℝ, 0 < δ ∧ ∀ (O F : Type) [LinearOrder F] [Zero F]
      (cfg : Cfg ℝ E (Option E) (RK.Dense m E) (RK.State m E) (ConstState ℝ) O F) (_ : cfg.WF)
      (_ : cfg.t0 = a) (_ : cfg.t1 = b) (_ : a < b)
      (_ : cfg.solver.step = (odeRK tab f cj rF rK nj).step) (_ : cfg.solver.interp = interp E)
      (_ : cfg.controller = constantStepSize) (_ : cfg.events = []) (_ : cfg.rootFinder = none)
      (dt0 : ℝ) (_ : 0 < dt0) (_ : dt0 ≤ δ) (tnext : ℝ) (ctrl : ConstState ℝ) (mj : Bool)
      (_ : constInit id a (some b) (some dt0) = some (tnext, ctrl))
      (_ : b - (b - a) / (⌈(b - a) / dt0⌉ : Int) ≤ cfg.floor)
      (_ : ⌈(b - a) / dt0⌉ ≤ cfg.maxSteps)
      (_ : cfg.dense = true),
      (solve cfg (y a) tnext ctrl (odeRK tab f cj rF rK nj).init mj).result = .successful ∧
      ∀ t, a ≤ t → t ≤ b →
        ∃ v, (denseOf cfg (y a) (solve cfg (y a) tnext ctrl (odeRK tab f cj rF rK nj).init mj)).derivative t true = some v ∧
          ‖v - ∑ p, f p t (y t)‖ ≤ B * dt0 ^ min N N' := by
  obtain ⟨κ, μ, -, hμ, hconv⟩ := hconv
  obtain ⟨D, -, hD⟩ := elemBound_exists f y
    (continuous_iff_continuousAt.2 fun t => (hy t).continuousAt) hf.analytic a b N
  obtain ⟨δ, B, hδ, hB, hall⟩ := hconv E J f cj rF rK nj
    (fun ⟨p, hp⟩ => by rw [hex p] at hp; simp at hp) L hf y hy a b D hD
  refine ⟨min δ 1, μ * |L| * (Real.exp (κ * |L| * (b - a)) * ((b - a) * B)) + B, lt_min hδ one_pos, ?_⟩
  intro O F _ _ cfg hwf ha hb hab hstep hinterp hctrl hev hroot dt0 hdt hdδ tnext ctrl mj hinit hfl hmax hdense
  subst ha hb
  obtain ⟨n, p, hn, hlog, hp0, hpn, hlt, hle, -, -, -, htf, hres, -, hnacc, -⟩ :=
    C22_constant_steps cfg id dt0 (y cfg.t0) (odeRK tab f cj rF rK nj).init mj tnext ctrl hinit hab hdt
      (le_refl _) (fun h => h) hctrl hev
      (fun a b y s j => by rw [hstep, C41_explicit_succeeds _ hex]) hwf.floor_le hfl hmax
  have hmem : ∀ c ∈ callLog cfg (y cfg.t0) tnext ctrl (odeRK tab f cj rF rK nj).init mj,
      ∃ k < n, c.solverT0 = p k ∧ c.solverT1 = p (k + 1) := by
    intro c hc
    have h1 : (c.solverT0, c.solverT1) ∈ (List.range n).map (fun j => (p j, p (j + 1))) := by
      rw [← hlog]; exact List.mem_map_of_mem hc
    obtain ⟨k, hk, he⟩ := List.mem_map.1 h1
    have he' := Prod.mk.inj he
    exact ⟨k, List.mem_range.1 hk, he'.1.symm, he'.2.symm⟩
  have hexact : cfg.controller.Exact := by
    rw [hctrl]
    intro a b y0 y1 e st
    exact ⟨fun _ => rfl, fun h => by simp [constantStepSize, constAdapt] at h⟩
  refine ⟨hres, fun t ht0 ht1 => ?_⟩
  obtain ⟨v, hv1, hv2⟩ := hall _ O F cfg hwf rfl rfl hstep hinterp hexact (y cfg.t0) tnext ctrl mj dt0 hdt.le
    (hdδ.trans (min_le_left _ _))
    (fun c hc => by
      obtain ⟨k, hk, e1, e2⟩ := hmem c hc
      rw [e1, e2]; exact hlt k hk)
    (fun c hc _ => by
      refine ⟨by rw [hstep, C41_explicit_succeeds _ hex]; rfl, ?_⟩
      obtain ⟨k, hk, e1, e2⟩ := hmem c hc
      rw [e1, e2]
      have := hle k hk
      simpa using this) hdense (by
      rw [hnacc]
      rcases Nat.eq_zero_or_pos n with h | h
      · rw [h, hp0] at hpn; exact absurd hpn hab.ne
      · exact h) t ht0 (by
      have e : (solve cfg (y cfg.t0) tnext ctrl (odeRK tab f cj rF rK nj).init mj).core.tprev = cfg.t1 := by
        rw [← htf]
        show _ = (finalise cfg (solve cfg (y cfg.t0) tnext ctrl (odeRK tab f cj rF rK nj).init mj).core).1
        simp only [finalise, hroot]
      rw [e]; exact ht1)
  refine ⟨v, hv1, hv2.trans ?_⟩
  have h1 : dt0 ≤ 1 := hdδ.trans (min_le_right _ _)
  have h2 : dt0 ^ N ≤ dt0 ^ min N N' := pow_le_pow_of_le_one hdt.le h1 (min_le_left _ _)
  have h3 : dt0 ^ N' ≤ dt0 ^ min N N' := pow_le_pow_of_le_one hdt.le h1 (min_le_right _ _)
  have hba : 0 ≤ cfg.t1 - cfg.t0 := sub_nonneg.2 hwf.le
  rw [sub_self, norm_zero, Rat.cast_zero]
  calc _ = μ * |L| * (Real.exp (κ * |L| * (cfg.t1 - cfg.t0)) * ((cfg.t1 - cfg.t0) * B)) * dt0 ^ N + B * dt0 ^ N' := by
        ring
    _ ≤ μ * |L| * (Real.exp (κ * |L| * (cfg.t1 - cfg.t0)) * ((cfg.t1 - cfg.t0) * B)) * dt0 ^ min N N'
        + B * dt0 ^ min N N' := by gcongr
    _ = _ := by ring

end

/-! ### `sol.derivative` is the derivative of `sol.evaluate` -/

section
variable {E Er D S C O F VF Ct : Type} [NormedAddCommGroup E] [NormedSpace ℝ E] [LinearOrder F] [Zero F] [AddCommGroup Ct]

theorem firstCovering_near (ps : List (Piece ℝ E D)) (t : ℝ) (hne : ∀ p ∈ ps, p.t1 ≠ t) :
    ∀ᶠ u in 𝓝 t, firstCovering ps u = firstCovering ps t := by
  induction ps with
  | nil => exact Eventually.of_forall fun _ => rfl
  | cons p ps ih =>
    have ih := ih fun q hq => hne q (List.mem_cons_of_mem _ hq)
    rcases lt_or_gt_of_ne (hne p List.mem_cons_self) with h | h
    · filter_upwards [ih, eventually_gt_nhds h] with u hu hpu
      unfold firstCovering at hu ⊢
      rw [List.find?_cons_of_neg (by simpa using hpu), List.find?_cons_of_neg (by simpa using h), hu]
    · filter_upwards [eventually_lt_nhds h] with u hpu
      unfold firstCovering
      rw [List.find?_cons_of_pos (by simpa using hpu.le), List.find?_cons_of_pos (by simpa using h.le)]

/-- **C101.** Between the ends of the steps, `sol.derivative(t)` is the derivative of `sol.evaluate`, whether the solve goes
forwards or backwards in time. -/
theorem C101_is_derivative {m : ℕ} (p : Problem m ℝ E VF Ct Er D S C O F) (cfg : Cfg ℝ E Er D S C O F)
    (tnext : ℝ) (ctrl : C) (ss : S) (_ : p.setup = .ok (cfg, tnext, ctrl, ss)) (hd : cfg.dense = true)
    (hhist : ∀ s ∈ history cfg p.y0 tnext ctrl ss (p.madeJump.getD false), (adaptOut cfg s).Exact s.tprev s.tnext ∧
      s.tprev ≤ s.tnext ∧ s.tnext ≤ cfg.t1)
    (hne : 0 < (solve cfg p.y0 tnext ctrl ss (p.madeJump.getD false)).core.numAccepted) (sol : Sol ℝ E D S C O F)
    (hsol : diffeqsolve p = .ok sol) (t : ℝ) (hlo : cfg.t0 < t * p.direction)
    (hhi : t * p.direction < (solve cfg p.y0 tnext ctrl ss (p.madeJump.getD false)).core.tprev)
    (hends : ∀ q ∈ pieces cfg p.y0 tnext ctrl ss (p.madeJump.getD false), q.t1 ≠ t * p.direction) :
    sol.derivative t true = some (deriv (fun u => (sol.evaluate u true).getD 0) t) := by
  rename_i hset
  have hsol' : sol = p.finish cfg (solve cfg p.y0 tnext ctrl ss (p.madeJump.getD false)) := by
    unfold diffeqsolve at hsol
    rw [hset] at hsol
    exact (Except.ok.inj hsol).symm
  subst hsol'
  obtain ⟨q, hq, hv⟩ := derivative_value cfg hd p.y0 tnext ctrl ss _ hhist hne _ hlo.le hhi.le
  have e1 : (p.finish cfg (solve cfg p.y0 tnext ctrl ss (p.madeJump.getD false))).derivative t true
      = some ((p.direction : ℝ) • deriv (q.eval cfg.solver) (t * p.direction)) := by
    simp only [Sol.derivative, Problem.finish, hv, Option.map_some]
  have hcont : Tendsto (fun u : ℝ => u * (p.direction : ℝ)) (𝓝 t) (𝓝 (t * p.direction)) :=
    (continuous_id.mul continuous_const).tendsto t
  have hnear : (fun u => ((p.finish cfg (solve cfg p.y0 tnext ctrl ss (p.madeJump.getD false))).evaluate u true).getD 0)
      =ᶠ[𝓝 t] fun u => q.eval cfg.solver (u * p.direction) := by
    filter_upwards [hcont.eventually (firstCovering_near _ _ hends), hcont.eventually (eventually_gt_nhds hlo),
      hcont.eventually (eventually_lt_nhds hhi)] with u h1 h2 h3
    obtain ⟨q', hq', hv'⟩ := (dense_value cfg hd p.y0 tnext ctrl ss _ hhist hne _).1 h2.le h3.le
    rw [h1, hq, Option.some.injEq] at hq'
    subst hq'
    simp only [Sol.evaluate, Problem.finish, hv', Option.getD_some]
  have e2 : (fun u => q.eval cfg.solver (u * p.direction)) = fun u => q.eval cfg.solver (p.direction * u) := by
    funext u; rw [mul_comm]
  rw [e1, hnear.deriv_eq, e2, deriv_comp_mul_left, mul_comm t]

end

/-- `n` steps of `Dopri5` for `y' = y` on `[0, 1]`, with dense output. -/
noncomputable def expDenseCfg (n : ℕ) :
    Cfg ℝ ℝ (Option ℝ) (RK.Dense 1 ℝ) (RK.State 1 ℝ) (ConstState ℝ) ℝ ℝ :=
  { expTsCfg n with dense := true }

theorem expDenseCfg_WF (n : ℕ) : (expDenseCfg n).WF where
  le := (expTsCfg_WF n).le
  floor_le := (expTsCfg_WF n).floor_le
  le_mid := (expTsCfg_WF n).le_mid
  mid_le := (expTsCfg_WF n).mid_le

/-- With `n` steps of `Dopri5`, the derivative of `e^t` comes out with an error of at most a constant over `n^4` at all times of
`[0, 1]`. -/
example : ∃ B : ℝ, ∃ n₀ : ℕ, ∀ n : ℕ, n₀ ≤ n → ∃ tnext ctrl,
    constInit id (0 : ℝ) (some 1) (some (1 / n)) = some (tnext, ctrl) ∧
    ∀ t, 0 ≤ t → t ≤ 1 → ∃ v, (denseOf (expDenseCfg n) (Real.exp 0) (solve (expDenseCfg n) (Real.exp 0) tnext ctrl
      (odeRK ![Dopri5.tableau] ![fun _ y => y] .never (idealRoot ℝ) (idealRoot ℝ) ()).init false)).derivative t true = some v ∧
      ‖v - Real.exp t‖ ≤ B * (1 / n) ^ 4 := by
  obtain ⟨δ, B, hδ, hB⟩ := C101_constant C101_dopri5
    (by decide +kernel) ![fun _ y => y] .never (idealRoot ℝ) (idealRoot ℝ) () 1 linear_nice Real.exp
    exp_solves_everywhere 0 1
  obtain ⟨n₀, hn₀⟩ := exists_nat_gt (1 / δ)
  refine ⟨B, n₀, fun n hnn => ?_⟩
  have hn1 : 1 / δ < n := hn₀.trans_le (by exact_mod_cast hnn)
  have hn' : (0 : ℝ) < n := lt_trans (by positivity) hn1
  have hc : ⌈((1 : ℝ) - 0) / (1 / n)⌉ = (n : ℤ) := by
    have : ((1 : ℝ) - 0) / (1 / n) = n := by field_simp; ring
    rw [this]; exact Int.ceil_natCast n
  refine ⟨_, _, rfl, ?_⟩
  obtain ⟨-, h⟩ := hB ℝ ℝ (expDenseCfg n) (expDenseCfg_WF n) rfl rfl (by norm_num) rfl rfl rfl rfl rfl (1 / n)
    (by positivity) (by rw [div_le_iff₀ hn']; rw [div_lt_iff₀ hδ] at hn1; linarith) _ _ false rfl (by
      rw [hc]
      have : (0 : ℝ) ≤ (1 - 0) / ((n : ℤ) : ℝ) := by rw [Int.cast_natCast, sub_zero]; positivity
      show (1 : ℝ) - _ ≤ 1
      linarith) (by rw [hc]; exact le_refl _) rfl
  intro t h0 h1
  obtain ⟨v, hv, hv'⟩ := h t h0 h1
  refine ⟨v, hv, ?_⟩
  have e : ∑ p, (![fun _ y => y] : Fin 1 → ℝ → ℝ → ℝ) p t (Real.exp t) = Real.exp t := by simp
  rw [e] at hv'
  exact hv'

/-- One step of Euler's method for `y' = 2 t`, backwards in time from `1` to `0`. -/
noncomputable def backDense : Problem 1 ℝ ℝ ℝ ℝ Unit (ℝ × ℝ) Unit (ConstState ℝ) ℝ ℝ where
  terms := fun _ => odeK (fun t _ => 2 * t)
  solver := { init := fun _ _ _ _ => ()
              step := fun tm a b y _ _ => ⟨y + (tm 0).vfProd a y ((tm 0).contr a b), (), (y, y + (tm 0).vfProd a y ((tm 0).contr a b)), (), .successful⟩
              interp := fun a b d t => d.1 + (t - a) / (b - a) * (d.2 - d.1)
              dummy := (0, 0) }
  controller := constClass id
  t0 := 1
  t1 := 0
  dt0 := some (-1)
  y0 := 1
  subs := []
  dense := true
  events := []
  rootFinder := none
  dist := fun a b => a - b
  maxSteps := 1
  cleanErr := id
  floorOf := id
  mid := fun a b => (a + b) / 2

/-- In the middle of the step, the derivative is that of `sol.evaluate`. -/
example : ∃ sol, diffeqsolve backDense = .ok sol ∧
    sol.derivative (1 / 2) true = some (deriv (fun u => (sol.evaluate u true).getD 0) (1 / 2)) := by
  have hdir : backDense.direction = -1 := by norm_num [Problem.direction, backDense]
  obtain ⟨cfg, tnext, ctrl, ss, hset, h0, h1, ht, hc, hev, hd, hm, hcl, hroot, hfl, hin⟩ : ∃ cfg tnext ctrl ss,
      backDense.setup = .ok (cfg, tnext, ctrl, ss) ∧ cfg.t0 = -1 ∧ cfg.t1 = 0 ∧ tnext = 0 ∧
      cfg.controller = constantStepSize ∧ cfg.events = [] ∧ cfg.dense = true ∧ cfg.maxSteps = 1 ∧
      (∀ a b y s j, (cfg.solver.step a b y s j).result = .successful) ∧ cfg.rootFinder = none ∧ cfg.floor = 0 ∧
      constInit id cfg.t0 (some cfg.t1) (some 1) = some (tnext, ctrl) := by
    have hck : backDense.checkDt0 = .ok () := by norm_num [Problem.checkDt0, backDense]
    refine ⟨_, _, _, _, by unfold Problem.setup; rw [hck]; rfl, ?_, ?_, ?_, rfl, rfl, rfl, rfl, fun _ _ _ _ _ => rfl, rfl,
      ?_, ?_⟩
    · show backDense.t0 * (backDense.direction : ℝ) = -1
      rw [hdir]; norm_num [backDense]
    · show backDense.t1 * (backDense.direction : ℝ) = 0
      rw [hdir]; norm_num [backDense]
    · show backDense.t0 * (backDense.direction : ℝ) + -1 * (backDense.direction : ℝ) = 0
      rw [hdir]; norm_num [backDense]
    · show backDense.t1 * (backDense.direction : ℝ) = 0
      rw [hdir]; norm_num [backDense]
    · show constInit id (backDense.t0 * (backDense.direction : ℝ)) (some (backDense.t1 * (backDense.direction : ℝ))) (some 1)
        = constInit id (backDense.t0 * (backDense.direction : ℝ)) (some (backDense.t1 * (backDense.direction : ℝ)))
          (some (-1 * (backDense.direction : ℝ)))
      rw [hdir]; norm_num
  have hsol : diffeqsolve backDense = .ok (backDense.finish cfg (solve cfg backDense.y0 tnext ctrl ss
      (backDense.madeJump.getD false))) := by
    unfold diffeqsolve; rw [hset]; rfl
  refine ⟨_, hsol, ?_⟩
  set s0 := (initState cfg backDense.y0 tnext ctrl ss (backDense.madeJump.getD false)).core with hs0
  have e0 : s0.tprev = -1 := h0
  have e1 : s0.tnext = 0 := by
    show min tnext cfg.t1 = 0
    rw [ht, h1, min_self]
  have hcond : condFun cfg s0 = true := by
    simp [hs0, condFun, hc, constantStepSize, initState, hev, firstTrue, Result.where', Result.isSuccessful, h0, h1]
  have hhist : history cfg backDense.y0 tnext ctrl ss (backDense.madeJump.getD false) = [s0] := by
    simp [history, hm, attempts, hcond, ← hs0]
  have hacc : accepted cfg s0 = true := by
    simp [accepted, adaptOut, hc, constantStepSize, constAdapt]
  have hex : (adaptOut cfg s0).Exact s0.tprev s0.tnext := by
    simp [adaptOut, hc, constantStepSize, constAdapt, AdaptOut.Exact]
  have hfin : (solve cfg backDense.y0 tnext ctrl ss (backDense.madeJump.getD false)).core.numAccepted = 1 ∧
      (solve cfg backDense.y0 tnext ctrl ss (backDense.madeJump.getD false)).core.tprev = 0 := by
    have hceil : ⌈(cfg.t1 - cfg.t0) / id 1⌉ = 1 := by rw [h0, h1]; norm_num
    obtain ⟨n, -, hn, -, -, -, -, -, -, -, -, htf, -, -, hna, -⟩ := C22_constant_steps cfg id 1 backDense.y0 ss
      (backDense.madeJump.getD false) tnext ctrl hin (by rw [h0, h1]; norm_num) one_pos (le_refl _) (fun h => h) hc hev hcl
      (by rw [hfl, h1]) (by rw [hceil, hfl, h0, h1]; norm_num) (by rw [hceil, hm]; norm_num)
    rw [hceil] at hn
    refine ⟨by rw [hna]; exact_mod_cast hn, ?_⟩
    rw [← h1, ← htf]
    show _ = (finalise cfg (solve cfg backDense.y0 tnext ctrl ss (backDense.madeJump.getD false)).core).1
    simp only [finalise, hroot]
  apply C101_is_derivative backDense cfg tnext ctrl ss hset hd
  · rw [hhist]
    intro s hs
    rw [List.mem_singleton] at hs
    subst hs
    exact ⟨hex, by rw [e0, e1]; norm_num, by rw [e1, h1]⟩
  · rw [hfin.1]; norm_num
  · exact hsol
  · rw [h0, hdir]; norm_num
  · rw [hfin.2, hdir]; norm_num
  · unfold pieces
    rw [hhist]
    intro q hq
    simp only [List.filter_cons_of_pos hacc, List.filter_nil, List.map_cons, List.map_nil, List.mem_singleton] at hq
    subst hq
    rw [hdir]
    show s0.tnext ≠ _
    rw [e1]; norm_num

end Verif
