import Verif.Spec.Tolerance
import Verif.Props.AdaptiveExplicit
import Mathlib.MeasureTheory.Integral.IntervalIntegral.FundThmCalculus
import Mathlib.Analysis.Analytic.Constructions

/-!
# Do tolerances control the error of an adaptive solve?
-/

set_option linter.unusedSectionVars false

namespace Verif
open Finset

/-! ### An equation that no tolerance can solve -/

section
variable {s : ℕ} {c : ℕ → ℚ} {J : Type}

/-- A vector field that vanishes at all times at which the method looks during a step from 0 to 1. -/
noncomputable def blindField (c : ℕ → ℚ) (s : ℕ) (t : ℝ) : ℝ := ∏ i ∈ range s, (t - (c i : ℝ)) ^ 2

theorem blindField_cont (c : ℕ → ℚ) (s : ℕ) : Continuous (blindField c s) := by
  unfold blindField; fun_prop

theorem blindField_zero (c : ℕ → ℚ) {s i : ℕ} (hi : i < s) : blindField c s (c i) = 0 :=
  prod_eq_zero (mem_range.2 hi) (by simp)

/-- What the solution should come to at time 1. -/
noncomputable def blindTruth (c : ℕ → ℚ) (s : ℕ) (t : ℝ) : ℝ := ∫ r in (0 : ℝ)..t, blindField c s r

theorem blindTruth_pos (c : ℕ → ℚ) (s : ℕ) : 0 < blindTruth c s 1 := by
  have hfin : (Set.range fun i : Fin s => ((c i : ℚ) : ℝ)).Finite := Set.finite_range _
  obtain ⟨r, ⟨hr0, hr1⟩, hr⟩ := ((Set.Ioo_infinite (zero_lt_one' ℝ)).sdiff hfin).nonempty
  have hpos : 0 < blindField c s r := by
    apply prod_pos
    intro i hi
    have : r - (c i : ℝ) ≠ 0 := by
      intro h
      exact hr ⟨⟨i, mem_range.1 hi⟩, by simp only; linarith⟩
    positivity
  exact intervalIntegral.integral_pos zero_lt_one (blindField_cont c s).continuousOn
    (fun x _ => prod_nonneg fun _ _ => sq_nonneg _) ⟨r, ⟨hr0.le, hr1.le⟩, hpos⟩

/-- The equation `y' = blindField t`. -/
noncomputable def blindODE (c : ℕ → ℚ) (s : ℕ) : Fin 1 → ℝ → (Fin 1 → ℝ) → Fin 1 → ℝ :=
  fun _ t _ _ => blindField c s t

theorem blind_nice (c : ℕ → ℚ) (s : ℕ) : NiceODE (blindODE c s) 0 where
  analytic := fun p x _ => by
    refine analyticAt_pi_iff.2 fun i => ?_
    show AnalyticAt ℝ (fun x : ℝ × (Fin 1 → ℝ) => blindField c s x.1) x
    unfold blindField
    refine Finset.analyticAt_fun_prod _ fun i _ => ?_
    exact (analyticAt_fst.sub analyticAt_const).pow 2
  lipschitz := fun p t x x' => by
    have : blindODE c s p t x - blindODE c s p t x' = 0 := sub_self _
    rw [this]; simp

theorem blind_solution (c : ℕ → ℚ) (s : ℕ) (t : ℝ) :
    HasDerivAt (fun t => (fun _ => blindTruth c s t : Fin 1 → ℝ))
      (∑ p, blindODE c s p t (fun _ => blindTruth c s t)) t := by
  refine hasDerivAt_pi.2 fun i => ?_
  have h := intervalIntegral.integral_hasDerivAt_right ((blindField_cont c s).intervalIntegrable 0 t)
    ((blindField_cont c s).stronglyMeasurableAtFilter _ _) (blindField_cont c s).continuousAt
  have e : (∑ p, blindODE c s p t fun _ => blindTruth c s t) i = blindField c s t := by
    simp [blindODE]
  rw [e]
  exact h

/-- The step from 0 to 1 sees nothing. -/
theorem blind_step (tab : Fin 1 → Tableau ℚ) (hok : methodOK s c tab = true) (hex : ∀ p, (tab p).implicit = false)
    (cj : CalcJac) (rF rK : RootFinder (Fin 1 → ℝ) J) (nj : J) (x : Fin 1 → ℝ) (mj : Bool) :
    let rk := odeRK tab (blindODE (tab 0).abscissa s) cj rF rK nj
    (rk.step 0 1 x rk.init mj).y = x ∧ (rk.step 0 1 x rk.init mj).err = some 0 := by
  intro rk
  have hv := validState_init tab (blindODE (tab 0).abscissa s) cj rF rK nj 0 x mj
  have h1 := explicit_step tab (blindODE (tab 0).abscissa s) cj rF rK nj hok hex 0 1 x _ mj hv
  have h2 := explicit_err tab hok hex (blindODE (tab 0).abscissa s) cj rF rK nj 0 1 x _ mj hv
  have hk : ∀ p, ∀ i ∈ range s, exK tab (blindODE (tab 0).abscissa s) cj rF rK nj 0 1 x p i = 0 := by
    intro p i hi
    rw [h1.2 i (mem_range.1 hi) p, one_smul]
    funext j
    show blindField (tab 0).abscissa s _ = 0
    obtain rfl : p = 0 := Subsingleton.elim _ _
    rw [zero_add, mul_one]
    exact blindField_zero _ (mem_range.1 hi)
  rw [zero_add] at h1 h2
  constructor
  · rw [h1.1, sum_eq_zero fun p _ => sum_eq_zero fun i hi => by rw [hk p i hi, smul_zero], add_zero]
  · rw [h2, sum_eq_zero fun p _ => sum_eq_zero fun i hi => by rw [hk p i hi, smul_zero]]

/-- **C93, violated**, for every explicit Runge-Kutta method. Over `[0, 1]`, with `dt0 = 1`, the equation
`y' = ∏ᵢ (t - cᵢ)²` is solved in a single step by `y = y0`, for all tolerances. -/
theorem C93_blind (tab : Fin 1 → Tableau ℚ) (hok : methodOK s c tab = true) (hex : ∀ p, (tab p).implicit = false)
    (cj : CalcJac) (rF rK : RootFinder (Fin 1 → ℝ) J) (nj : J)
    (p : Pid ℝ) (hp : p.Valid) (hmin : p.dtmin = none) (hmax : ∀ M, p.dtmax = some M → 1 ≤ M) (hatol : 0 < p.atol)
    (hrtol : 0 ≤ p.rtol) (hnorm : NormBelowMax p.norm) {O F : Type} [LinearOrder F] [Zero F]
    (cfg : Cfg ℝ (Fin 1 → ℝ) (Option (Fin 1 → ℝ)) (RK.Dense 1 (Fin 1 → ℝ)) (RK.State 1 (Fin 1 → ℝ)) (PidState ℝ) O F)
    (h0 : cfg.t0 = 0) (h1 : cfg.t1 = 1)
    (hs : cfg.solver.step = (odeRK tab (blindODE (tab 0).abscissa s) cj rF rK nj).step)
    (hc : cfg.controller = pidWith p p.scaledVec) (hclean : ∀ e, cfg.cleanErr (some e) = some e)
    (hev : cfg.events = []) (hroot : cfg.rootFinder = none) (hsteps : 1 ≤ cfg.maxSteps)
    (y0 : Fin 1 → ℝ) (mj : Bool) :
    p.init (.fin 0) (.fin 1) = (.fin 1, .fresh) ∧
    (solve cfg y0 1 .fresh (odeRK tab (blindODE (tab 0).abscissa s) cj rF rK nj).init mj).result = .successful ∧
    (solve cfg y0 1 .fresh (odeRK tab (blindODE (tab 0).abscissa s) cj rF rK nj).init mj).tfinal = 1 ∧
    (solve cfg y0 1 .fresh (odeRK tab (blindODE (tab 0).abscissa s) cj rF rK nj).init mj).yfinal = y0 := by
  set rk := odeRK tab (blindODE (tab 0).abscissa s) cj rF rK nj with hrk
  obtain ⟨hy, he⟩ := blind_step tab hok hex cj rF rK nj y0 mj
  rw [← hrk] at hy he
  refine ⟨?_, ?_⟩
  · unfold Pid.init
    rw [hmin]
    cases hM : p.dtmax with
    | none => simp [XVal.add]; rfl
    | some M => simp [XVal.add, XVal.min_fin, min_eq_left (hmax M hM)]; rfl
  obtain ⟨n, hn⟩ : ∃ n, cfg.maxSteps = n + 1 := ⟨cfg.maxSteps - 1, by omega⟩
  set s0 := (initState cfg y0 1 .fresh rk.init mj).core with hs0
  have ht0 : s0.tprev = 0 := h0
  have ht1 : s0.tnext = 1 := by show min (1 : ℝ) cfg.t1 = 1; rw [h1, min_self]
  have hout : solverOut cfg s0 = rk.step 0 1 y0 rk.init mj := by
    show cfg.solver.step s0.tprev s0.tnext y0 rk.init mj = _
    rw [hs, ht0, ht1]
  obtain ⟨w, hw0, hw1, hw⟩ := scaledVec_le p hatol hrtol hnorm y0 y0 0
  have hw2 : w = 0 := le_antisymm (by simpa using hw1) hw0
  have hx : (p.scaledVec y0 y0 (some 0)).IsErr := by rw [hw]; exact Or.inr ⟨w, hw0, rfl⟩
  obtain ⟨f, d, r, hr, hk, _, -, -, h3, h4, -, -, h6, hgood⟩ :=
    adapt_cases p hp .fresh fresh_good 0 1 _ hx
  have hkeep : r.keep = true := by
    rw [hk]
    unfold Pid.keep
    rw [hmin, hw, hw2]
    show decide ((0 : ℝ) < 1) = true
    simp
  have hao : adaptOut cfg s0 =
      { keep := true, tprev := 1, tnext := 1 + d, madeJump := false, state := r.state, result := .successful } := by
    have e : adaptOut cfg s0 = (pidWith p p.scaledVec).adapt s0.tprev s0.tnext y0 (solverOut cfg s0).y
        (cfg.cleanErr (solverOut cfg s0).err) .fresh := by
      rw [← hc]; rfl
    rw [e, hout, hy, he, hclean, ht0, ht1]
    simp only [pidWith]
    rw [hr, h3, h4, (h6 hmin).1, hkeep]
    rfl
  have hres0 : s0.result = .successful := by
    show Result.where' (firstTrue false (cfg.events.map fun e => e.initMask cfg.t0 y0)).2 .eventOccurred .successful = _
    rw [hev]; rfl
  have hst : cfg.controller.stepTo = none := by rw [hc]; rfl
  have hcond : condFun cfg s0 = true := by
    unfold condFun
    rw [ht0, h1, hst, hres0]
    simp [Result.isSuccessful]
  have b1 : (coreBody cfg s0).1.tprev = 1 := by
    show min (adaptOut cfg s0).tprev cfg.t1 = 1
    rw [hao, h1]; exact min_self _
  have b2 : (coreBody cfg s0).1.y = y0 := by
    show (if accepted cfg s0 then (solverOut cfg s0).y else s0.y) = y0
    rw [hout, hy]; exact ite_self _
  have hres : (solverOut cfg s0).result = .successful := by
    rw [hout]; exact C41_explicit_succeeds rk hex _ _ _ _ _
  have b3 : (coreBody cfg s0).1.result = .successful := by
    rw [coreBody_result cfg s0 (by rw [hres0]; rfl)]
    have : triggered cfg s0 = [] := by unfold triggered; rw [hev]; rfl
    rw [this, hres, hao]
    simp [Result.isOkay, Result.isSuccessful]
  have hstop : condFun cfg (coreBody cfg s0).1 = false := by
    unfold condFun
    rw [b1, h1, hst]; simp
  have hrun : coreRun cfg cfg.maxSteps s0 = (coreBody cfg s0).1 := by
    rw [hn, coreRun, if_pos hcond]
    cases n <;> simp [coreRun, hstop]
  have hcore : (solve cfg y0 1 .fresh rk.init mj).core = (coreBody cfg s0).1 := by
    rw [solve_core, ← hs0, hrun]
  rw [solve_result, solve_tfinal, solve_yfinal, hcore, finalise_no_root cfg _ hroot, hstop]
  exact ⟨by simp [b3], b1, b2⟩

/-- A solve on `[0, 1]`. -/
noncomputable def tolCfg {m d : ℕ} (rk : RK m ℝ ℚ (Fin d → ℝ) (Fin d → ℝ) ℝ J) (p : Pid ℝ) (n : ℕ) :
    Cfg ℝ (Fin d → ℝ) (Option (Fin d → ℝ)) (RK.Dense m (Fin d → ℝ)) (RK.State m (Fin d → ℝ)) (PidState ℝ) ℝ ℝ where
  solver := { step := rk.step, interp := fun _ _ _ _ => 0 }
  controller := pidWith p p.scaledVec
  cleanErr := id
  events := []
  rootFinder := none
  dist := fun a b => a - b
  dummyDense := (rk.step 0 0 0 rk.init false).dense
  t0 := 0
  t1 := 1
  floor := 1
  mid := fun a b => (a + b) / 2
  subs := []
  dense := false
  maxSteps := n

theorem tolCfg_WF {m d : ℕ} (rk : RK m ℝ ℚ (Fin d → ℝ) (Fin d → ℝ) ℝ J) (p : Pid ℝ) (n : ℕ) :
    (tolCfg rk p n).WF where
  le := by norm_num [tolCfg]
  floor_le := by norm_num [tolCfg]
  le_mid := by intro a h; simp only [tolCfg] at *; linarith
  mid_le := by intro a h; simp only [tolCfg] at *; linarith

/-- The default `PIDController` with both tolerances `tol`, for a method of order `k`. -/
noncomputable def pidTol (tol k : ℝ) : Pid ℝ := { pidDefault with rtol := tol, atol := tol, order := k }

theorem pidTol_valid (tol k : ℝ) : (pidTol tol k).Valid where
  rpow_pos := pidDefault_valid.rpow_pos
  factormin_pos := pidDefault_valid.factormin_pos
  factormin_le := pidDefault_valid.factormin_le
  safety_lt := pidDefault_valid.safety_lt
  le_factormax := pidDefault_valid.le_factormax

/-- **C93, violated.** For no explicit Runge-Kutta method do the tolerances control the error. -/
theorem C93_violated (tab : Fin 1 → Tableau ℚ) (hok : methodOK s c tab = true) (hex : ∀ p, (tab p).implicit = false) :
    ¬ TolerancesControlError tab := by
  intro h
  obtain ⟨tol, htol, h⟩ := h 1 Unit (blindODE (tab 0).abscissa s) .never (idealRoot _) (idealRoot _) () 0
    (blind_nice _ _) (fun t _ => blindTruth (tab 0).abscissa s t) (blind_solution _ _) 0 1 zero_lt_one 1 one_pos
    (blindTruth (tab 0).abscissa s 1 / 2) (half_pos (blindTruth_pos _ _))
  set rk := odeRK tab (blindODE (tab 0).abscissa s) .never (idealRoot (Fin 1 → ℝ)) (idealRoot (Fin 1 → ℝ)) () with hrk
  obtain ⟨g1, g2, -, g4⟩ := C93_blind tab hok hex .never (idealRoot (Fin 1 → ℝ)) (idealRoot (Fin 1 → ℝ)) () (pidTol tol 1)
    (pidTol_valid tol 1) rfl (fun M hM => by cases hM) htol htol.le rmsNorm_belowMax (tolCfg rk (pidTol tol 1) 1)
    rfl rfl rfl rfl (fun _ => rfl) rfl rfl le_rfl (fun _ => blindTruth (tab 0).abscissa s 0) false
  have := h (pidTol tol 1) (pidTol_valid tol 1) rfl (fun M hM => by cases hM) htol htol.le le_rfl le_rfl rmsNorm_belowMax
    ℝ ℝ (tolCfg rk (pidTol tol 1) 1) (tolCfg_WF _ _ _) rfl rfl rfl rfl (fun _ => rfl) (fun _ => rfl) rfl rfl 1 .fresh g1
    false g2
  rw [g4] at this
  have h2 := (norm_le_pi_norm _ (0 : Fin 1)).trans this
  have h3 : blindTruth (tab 0).abscissa s 0 = 0 := intervalIntegral.integral_same
  have h4 := blindTruth_pos (tab 0).abscissa s
  simp only [Pi.sub_apply, h3, zero_sub, norm_neg, Real.norm_eq_abs, abs_of_pos h4] at h2
  linarith

end

/-- **C93, violated**, for the explicit solvers of the library that estimate errors. -/
theorem C93_violated_solvers : ¬ TolerancesControlError ![Tab.Heun.tableau] ∧ ¬ TolerancesControlError ![Tab.Midpoint.tableau] ∧
    ¬ TolerancesControlError ![Tab.Ralston.tableau] ∧ ¬ TolerancesControlError ![Tab.Bosh3.tableau] ∧
    ¬ TolerancesControlError ![Tab.Dopri5.tableau] ∧ ¬ TolerancesControlError ![Tab.Tsit5.tableau] ∧
    ¬ TolerancesControlError ![Tab.Dopri8.tableau] :=
  ⟨C93_violated (s := 2) (c := Tab.Heun.tableau.abscissa) _ (by decide +kernel) (by decide +kernel),
   C93_violated (s := 2) (c := Tab.Midpoint.tableau.abscissa) _ (by decide +kernel) (by decide +kernel),
   C93_violated (s := 2) (c := Tab.Ralston.tableau.abscissa) _ (by decide +kernel) (by decide +kernel),
   C93_violated (s := 4) (c := Tab.Bosh3.tableau.abscissa) _ (by decide +kernel) (by decide +kernel),
   C93_violated (s := 7) (c := Tab.Dopri5.tableau.abscissa) _ (by decide +kernel) (by decide +kernel),
   C93_violated (s := 7) (c := Tab.Tsit5.tableau.abscissa) _ (by decide +kernel) (by decide +kernel),
   C93_violated (s := 14) (c := Tab.Dopri8.tableau.abscissa) _ (by decide +kernel) (by decide +kernel)⟩

/-- For `Heun` the equation is `y' = t²(1 - t)²`: the solve gives `0`, whatever the tolerances. -/
example (t : ℝ) : blindField Tab.Heun.tableau.abscissa 2 t = t ^ 2 * (t - 1) ^ 2 := by
  have h0 : Tab.Heun.tableau.abscissa 0 = 0 := by decide +kernel
  have h1 : Tab.Heun.tableau.abscissa 1 = 1 := by decide +kernel
  simp [blindField, prod_range_succ, h0, h1]

/-! ### `dtmax` -/

section
variable {m s : ℕ} {c : ℕ → ℚ} {d : ℕ} {J : Type} {N : ℕ} {M' : ℕ} {δ' : ℚ}
variable {Y Er D S O F : Type} [LinearOrder F] [Zero F]

/-- With `dtmax`, no step is longer than that, but for the last one. -/
theorem pidWith_dtmax (p : Pid ℝ) (hp : p.Valid) (hmin : p.dtmin = none) (M : ℝ)
    (hM : p.dtmax = some M) (hM0 : 0 ≤ M) (scaled : Y → Y → Er → XVal ℝ)
    (cfg : Cfg ℝ Y Er D S (PidState ℝ) O F) (hwf : cfg.WF)
    (hc : cfg.controller = pidWith p scaled) (y0 : Y) (dt0 tnext : ℝ) (ctrl : PidState ℝ)
    (hdt : 0 ≤ dt0) (hinit : p.init (.fin cfg.t0) (.fin dt0) = (.fin tnext, ctrl)) (ss : S) (mj : Bool)
    (hx : ∀ c ∈ callLog cfg y0 tnext ctrl ss mj, (scaled c.ctrlY0 c.ctrlY1 c.ctrlErr).IsErr) :
    ∀ c ∈ callLog cfg y0 tnext ctrl ss mj, c.solverT1 - c.solverT0 ≤ M + (cfg.t1 - cfg.floor) := by
  have hfl := hwf.floor_le
  have hfor := pidWith_forward p hp hmin (fun M' h => by rw [hM] at h; obtain rfl := Option.some.inj h; exact hM0)
    scaled cfg hwf hc y0 dt0 tnext ctrl hdt hinit ss mj hx
  obtain ⟨ht, rfl⟩ : tnext ≤ cfg.t0 + M ∧ ctrl = .fresh := by
    unfold Pid.init at hinit
    rw [hmin, hM] at hinit
    simp only at hinit
    have h1 := congrArg Prod.fst hinit
    have h2 := congrArg Prod.snd hinit
    refine ⟨?_, h2.symm⟩
    simp only [XVal.min_fin, XVal.add] at h1
    have := XVal.fin.inj h1
    have := min_le_right dt0 M
    linarith
  rw [log_eq] at hx hfor ⊢
  have hall := (run_inv cfg (fun s => s.ctrlState.Good ∧ s.tnext - s.tprev ≤ M + (cfg.t1 - cfg.floor))
    cfg.maxSteps (initState cfg y0 tnext .fresh ss mj).core
    ⟨fresh_good, by
      show min tnext cfg.t1 - cfg.t0 ≤ _
      have := min_le_left tnext cfg.t1
      linarith⟩ (by
      intro s hs _ hI
      have hxs := hx (expectedCall cfg s) (List.mem_map.2 ⟨s, hs, rfl⟩)
      have hfs := hfor (expectedCall cfg s) (List.mem_map.2 ⟨s, hs, rfl⟩)
      obtain ⟨f, dd, r, hr, hk, _, h1, h2, h3, h4, h5, h6, _, hgood⟩ :=
        adapt_cases p hp s.ctrlState hI.1 s.tprev s.tnext _ hxs
      have hd : dd ≤ M := by
        rcases h5 with h | ⟨_, _, h⟩
        · rw [h]
          unfold clampDt
          rw [hmin, hM]
          exact min_le_right _ _
        · rw [hmin] at h; cases h
      have hao : adaptOut cfg s =
          { keep := r.keep, tprev := if r.keep then s.tnext else s.tprev,
            tnext := (if r.keep then s.tnext else s.tprev) + dd, madeJump := false, state := r.state,
            result := r.result } := by
        have e : adaptOut cfg s = (pidWith p scaled).adapt s.tprev s.tnext s.y (solverOut cfg s).y
            (cfg.cleanErr (solverOut cfg s).err) s.ctrlState := by
          rw [← hc]; rfl
        have hr' : p.adaptScaled (.fin s.tprev) (.fin s.tnext)
          (scaled s.y (solverOut cfg s).y (cfg.cleanErr (solverOut cfg s).err)) s.ctrlState = r := hr
        rw [e]
        simp only [pidWith]
        rw [hr', h3, h4]
        rfl
      have hpt : (adaptOut cfg s).tprev ≤ cfg.t1 := by
        rw [hao]; simp only; split
        · exact hfs.2.2
        · exact hfs.2.1.trans hfs.2.2
      have hlen : (adaptOut cfg s).tnext - (adaptOut cfg s).tprev ≤ M := by
        rw [hao]; simp only; linarith
      refine ⟨?_, ?_⟩
      · show (adaptOut cfg s).state.Good
        rw [hao]; exact hgood
      · show clipToEnd cfg.mid (min (adaptOut cfg s).tprev cfg.t1)
          (adaptOut cfg s).tnext cfg.t1 cfg.floor (adaptOut cfg s).keep - min (adaptOut cfg s).tprev cfg.t1 ≤ _
        rw [min_eq_left hpt]
        unfold clipToEnd
        simp only
        split
        · rename_i hgt
          split
          · linarith
          · have := hwf.mid_le _ hpt
            linarith
        · linarith)).1
  intro c hcm
  obtain ⟨s, hs, rfl⟩ := List.mem_map.1 hcm
  exact (hall s hs).2

/-- The scaled errors of an explicit method are numbers. -/
theorem explicit_isErr (tab : Fin m → Tableau ℚ) (hex : ∀ p, (tab p).implicit = false)
    (f : Fin m → ℝ → (Fin d → ℝ) → Fin d → ℝ) (cj : CalcJac) (rF rK : RootFinder (Fin d → ℝ) J) (nj : J)
    (p : Pid ℝ) (hatol : 0 < p.atol) (hrtol : 0 ≤ p.rtol) (hnorm : NormBelowMax p.norm)
    (cfg : Cfg ℝ (Fin d → ℝ) (Option (Fin d → ℝ)) (RK.Dense m (Fin d → ℝ)) (RK.State m (Fin d → ℝ)) (PidState ℝ) O F)
    (hs : cfg.solver.step = (odeRK tab f cj rF rK nj).step) (hclean : ∀ e, cfg.cleanErr (some e) = some e)
    (y0 : Fin d → ℝ) (tnext : ℝ) (ctrl : PidState ℝ) (mj : Bool) :
    ∀ c ∈ callLog cfg y0 tnext ctrl (odeRK tab f cj rF rK nj).init mj, ∃ e,
      ((odeRK tab f cj rF rK nj).step c.solverT0 c.solverT1 c.solverY c.solverState c.solverMadeJump).err = some e ∧
      c.ctrlErr = some e ∧ c.ctrlY0 = c.solverY ∧
      c.ctrlY1 = ((odeRK tab f cj rF rK nj).step c.solverT0 c.solverT1 c.solverY c.solverState c.solverMadeJump).y ∧
      (p.scaledVec c.ctrlY0 c.ctrlY1 c.ctrlErr).IsErr := by
  intro c hcm
  rw [log_eq] at hcm
  obtain ⟨s, _, rfl⟩ := List.mem_map.1 hcm
  have hres := C41_explicit_succeeds (odeRK tab f cj rF rK nj) hex s.tprev s.tnext s.y s.solverState s.madeJump
  have e : ((odeRK tab f cj rF rK nj).step s.tprev s.tnext s.y s.solverState s.madeJump).err
      = if ((odeRK tab f cj rF rK nj).step s.tprev s.tnext s.y s.solverState s.madeJump).result.isOkay then
        some (∑ p, treeDot ((odeRK tab f cj rF rK nj).tab p).bError
          (((odeRK tab f cj rF rK nj).step s.tprev s.tnext s.y s.solverState s.madeJump).dense.ks p)) else none := rfl
  rw [hres, if_pos (show Result.successful.isOkay = true from rfl)] at e
  set v := ∑ p, treeDot ((odeRK tab f cj rF rK nj).tab p).bError
    (((odeRK tab f cj rF rK nj).step s.tprev s.tnext s.y s.solverState s.madeJump).dense.ks p)
  have e2 : (expectedCall cfg s).ctrlErr = some v := by
    show cfg.cleanErr (cfg.solver.step s.tprev s.tnext s.y s.solverState s.madeJump).err = _
    rw [hs, e, hclean]
  refine ⟨_, e, e2, rfl, ?_, ?_⟩
  · show (cfg.solver.step s.tprev s.tnext s.y s.solverState s.madeJump).y = _
    rw [hs]; rfl
  · rw [e2]
    obtain ⟨w, h0, _, hw⟩ := scaledVec_le p hatol hrtol hnorm (expectedCall cfg s).ctrlY0 (expectedCall cfg s).ctrlY1 _
    rw [hw]
    exact Or.inr ⟨w, h0, rfl⟩

/-- **C93, with `dtmax`.** For any tolerances, the error is at most a constant times `dtmax^N`. -/
theorem C93_dtmax_partial {tab : Fin m → Tableau ℚ} (hord : StepOrder tab N 0 M' δ') (hok : methodOK s c tab = true)
    (hex : ∀ p, (tab p).implicit = false)
    (f : Fin m → ℝ → (Fin d → ℝ) → Fin d → ℝ) (cj : CalcJac) (rF rK : RootFinder (Fin d → ℝ) J) (nj : J)
    (L : ℝ) (hf : NiceODE f L) (y : ℝ → Fin d → ℝ) (hy : ∀ t, HasDerivAt y (∑ p, f p t (y t)) t) (a b : ℝ) :
    ∃ B : ℝ, 0 ≤ B ∧ ∀ (p : Pid ℝ) (_ : p.Valid) (_ : p.dtmin = none) (M : ℝ) (_ : p.dtmax = some M) (_ : 0 < M)
      (_ : 0 < p.atol) (_ : 0 ≤ p.rtol) (_ : NormBelowMax p.norm) (O F : Type) [LinearOrder F] [Zero F]
      (cfg : Cfg ℝ (Fin d → ℝ) (Option (Fin d → ℝ)) (RK.Dense m (Fin d → ℝ)) (RK.State m (Fin d → ℝ)) (PidState ℝ) O F)
      (_ : cfg.WF) (_ : cfg.t0 = a) (_ : cfg.t1 = b)
      (_ : cfg.solver.step = (odeRK tab f cj rF rK nj).step) (_ : cfg.controller = pidWith p p.scaledVec)
      (_ : ∀ e, cfg.cleanErr (some e) = some e) (_ : b - cfg.floor ≤ M) (_ : cfg.rootFinder = none)
      (dt0 : ℝ) (_ : 0 < dt0) (tnext : ℝ) (ctrl : PidState ℝ) (_ : p.init (.fin a) (.fin dt0) = (.fin tnext, ctrl))
      (mj : Bool),
      ‖(solve cfg (y a) tnext ctrl (odeRK tab f cj rF rK nj).init mj).yfinal
        - y (solve cfg (y a) tnext ctrl (odeRK tab f cj rF rK nj).init mj).tfinal‖ ≤ B * M ^ N := by
  obtain ⟨D, -, hD⟩ := elemBound_exists f y
    (continuous_iff_continuousAt.2 fun t => (hy t).continuousAt) hf.analytic a b N
  obtain ⟨B, K, hB, hK, hmain⟩ := C70_explicit hord hok (le_refl _) hex f cj rF rK nj L hf y hy a b D hD
  refine ⟨Real.exp (K * (b - a)) * (|b - a| * (B * 2 ^ N)), by positivity, ?_⟩
  intro p hp hmin M hM hM0 hatol hrtol hnorm O F _ _ cfg hwf ha hb hs hc hclean hfl hroot dt0 hdt0 tnext ctrl hinit mj
  have hx := fun c hcm => (explicit_isErr tab hex f cj rF rK nj p hatol hrtol hnorm cfg hs hclean (y a) tnext ctrl mj
    c hcm).choose_spec.2.2.2.2
  rw [← ha] at hinit
  have h1 := pidWith_dtmax p hp hmin M hM hM0.le p.scaledVec cfg hwf hc (y a) dt0 tnext ctrl hdt0.le hinit _ mj hx
  have h2 := pidWith_forward p hp hmin (fun M' h => by rw [hM] at h; obtain rfl := Option.some.inj h; exact hM0.le)
    p.scaledVec cfg hwf hc (y a) dt0 tnext ctrl hdt0.le hinit _ mj hx
  have h3 := (hmain _ O F cfg hwf ha hb hs (by rw [hc]; exact pidWith_exact p _) (y a) tnext ctrl mj (2 * M)
    (by positivity) (fun c hcm => (h2 c hcm).2.1) (fun c hcm _ => by
      have := h1 c hcm
      rw [hb] at this
      linarith)).2 hroot
  refine h3.trans (le_of_eq ?_)
  have hab : a ≤ b := by rw [← ha, ← hb]; exact hwf.le
  rw [sub_self, norm_zero, abs_of_nonneg (sub_nonneg.2 hab), mul_pow]
  push_cast
  ring

end

/-! ### Estimates that see the error -/

theorem rmsNorm_seesAll (d : ℕ) : NormSeesAll d (Real.sqrt d) rmsNorm := by
  intro l w hl hw x hx
  unfold rmsNorm at hw
  simp only [List.flatMap_cons, List.flatMap_nil, List.append_nil, id] at hw
  have h1 : (l.map XVal.fin).any XVal.isNan = false := by
    rw [List.any_eq_false]; intro x hx; obtain ⟨y, _, rfl⟩ := List.mem_map.1 hx; simp [XVal.isNan]
  have h2 : (l.map XVal.fin).any XVal.isInf = false := by
    rw [List.any_eq_false]; intro x hx; obtain ⟨y, _, rfl⟩ := List.mem_map.1 hx; simp [XVal.isInf]
  rw [h1, h2] at hw
  simp only [Bool.false_eq_true, if_false] at hw
  have hw := XVal.fin.inj hw
  rw [List.map_map, List.length_map, hl] at hw
  have h3 : x ^ 2 ≤ (l.map ((fun x : XVal ℝ => x.toK 0 ^ 2) ∘ XVal.fin)).sum :=
    List.single_le_sum (by
      intro z hz; obtain ⟨u, _, rfl⟩ := List.mem_map.1 hz; exact sq_nonneg _) _ (List.mem_map.2 ⟨x, hx, rfl⟩)
  have hd : (0 : ℝ) < d := by
    rw [← hl]; exact_mod_cast List.length_pos_of_mem hx
  rw [← hw, ← Real.sqrt_mul hd.le, mul_div_cancel₀ _ hd.ne', ← Real.sqrt_sq_eq_abs]
  exact Real.sqrt_le_sqrt h3

section
variable {m s : ℕ} {c : ℕ → ℚ} {d : ℕ} {J : Type} {N : ℕ} {M' : ℕ} {δ' : ℚ}

/-- What acceptance of a step says about the error estimate. -/
theorem accepted_estimate (p : Pid ℝ) (hmin : p.dtmin = none) (hatol : 0 < p.atol) (hrtol : 0 ≤ p.rtol)
    (hnorm : NormBelowMax p.norm) (Cn : ℝ) (hCn : 0 ≤ Cn) (hsees : NormSeesAll d Cn p.norm) (tol R : ℝ)
    (ha : p.atol ≤ tol) (hr : p.rtol ≤ tol) (y0 y1 e : Fin d → ℝ) (h0 : ‖y0‖ ≤ R) (h1 : ‖y1‖ ≤ R) (at' : Bool)
    (hk : p.keep (p.scaledVec y0 y1 (some e)) at' = true) : ‖e‖ ≤ Cn * (tol * (1 + R)) := by
  obtain ⟨w, hw0, -, hw⟩ := scaledVec_le p hatol hrtol hnorm y0 y1 e
  have hw1 : w < 1 := by
    unfold Pid.keep at hk
    rw [hmin, hw] at hk
    simpa [XVal.lt] using hk
  rw [scaledVec_some p hatol hrtol] at hw
  have hR : 0 ≤ R := (norm_nonneg _).trans h0
  have htol : 0 < tol := hatol.trans_le ha
  refine (pi_norm_le_iff_of_nonneg (by positivity)).2 fun i => ?_
  have h2 := hsees _ w (by simp) hw (e i / (p.atol + p.rtol * max |y0 i| |y1 i|)) ((List.mem_ofFn' _ _).2 ⟨i, rfl⟩)
  have h3 : max |y0 i| |y1 i| ≤ R := max_le ((norm_le_pi_norm y0 i).trans h0) ((norm_le_pi_norm y1 i).trans h1)
  have h4 : 0 ≤ max |y0 i| |y1 i| := le_max_of_le_left (abs_nonneg _)
  have h5 : 0 < p.atol + p.rtol * max |y0 i| |y1 i| := by positivity
  rw [abs_div, abs_of_pos h5, div_le_iff₀ h5] at h2
  rw [Real.norm_eq_abs]
  refine h2.trans ?_
  have h6 : p.atol + p.rtol * max |y0 i| |y1 i| ≤ tol * (1 + R) := by
    have := mul_le_mul hr h3 h4 htol.le
    linarith
  calc Cn * w * (p.atol + p.rtol * max |y0 i| |y1 i|) ≤ Cn * 1 * (tol * (1 + R)) := by gcongr
    _ = _ := by ring

/-- **C93, where the estimate sees the error.** Then the error of the solve is at most a constant times `tol^(N/q)`. -/
theorem C93_sees_partial {tab : Fin m → Tableau ℚ} (hord : StepOrder tab N 0 M' δ') (hok : methodOK s c tab = true)
    (hex : ∀ p, (tab p).implicit = false)
    (f : Fin m → ℝ → (Fin d → ℝ) → Fin d → ℝ) (cj : CalcJac) (rF rK : RootFinder (Fin d → ℝ) J) (nj : J)
    (L : ℝ) (hf : NiceODE f L) (y : ℝ → Fin d → ℝ) (hy : ∀ t, HasDerivAt y (∑ p, f p t (y t)) t) (a b : ℝ) (hab : a ≤ b)
    (S : Set (Fin d → ℝ)) (q : ℕ) (hq : 0 < q) (hS : EstimateSees (odeRK tab f cj rF rK nj) S a b q) (hyS : y a ∈ S)
    (Cn : ℝ) (hCn : 0 ≤ Cn) :
    ∃ B : ℝ, 0 ≤ B ∧ ∀ (tol : ℝ) (p : Pid ℝ) (_ : p.Valid) (_ : p.dtmin = none) (_ : ∀ M, p.dtmax = some M → 0 < M)
      (_ : 0 < p.atol) (_ : 0 ≤ p.rtol) (_ : p.atol ≤ tol) (_ : p.rtol ≤ tol) (_ : NormBelowMax p.norm)
      (_ : NormSeesAll d Cn p.norm) (O F : Type) [LinearOrder F] [Zero F]
      (cfg : Cfg ℝ (Fin d → ℝ) (Option (Fin d → ℝ)) (RK.Dense m (Fin d → ℝ)) (RK.State m (Fin d → ℝ)) (PidState ℝ) O F)
      (_ : cfg.WF) (_ : cfg.t0 = a) (_ : cfg.t1 = b)
      (_ : cfg.solver.step = (odeRK tab f cj rF rK nj).step) (_ : cfg.controller = pidWith p p.scaledVec)
      (_ : ∀ e, cfg.cleanErr (some e) = some e) (_ : cfg.rootFinder = none)
      (dt0 : ℝ) (_ : 0 < dt0) (tnext : ℝ) (ctrl : PidState ℝ) (_ : p.init (.fin a) (.fin dt0) = (.fin tnext, ctrl))
      (mj : Bool),
      ‖(solve cfg (y a) tnext ctrl (odeRK tab f cj rF rK nj).init mj).yfinal
        - y (solve cfg (y a) tnext ctrl (odeRK tab f cj rF rK nj).init mj).tfinal‖ ≤ B * tol ^ ((N : ℝ) / q) := by
  obtain ⟨D, -, hD⟩ := elemBound_exists f y
    (continuous_iff_continuousAt.2 fun t => (hy t).continuousAt) hf.analytic a b N
  obtain ⟨B, K, hB, hK, hmain⟩ := C70_explicit hord hok (le_refl _) hex f cj rF rK nj L hf y hy a b D hD
  have hcont : ∀ p, Continuous fun t => f p t 0 := fun p => by
    have h1 : Continuous fun x : ℝ × (Fin d → ℝ) => f p x.1 x.2 :=
      continuous_iff_continuousAt.2 fun x => (hf.analytic p x (Set.mem_univ _)).continuousAt
    exact h1.comp (by fun_prop : Continuous fun t : ℝ => (t, (0 : Fin d → ℝ)))
  obtain ⟨C, hC, htame⟩ := explicit_tame tab hok hex f cj rF rK nj L hf.lipschitz hcont a b
  have hba : 0 ≤ b - a := sub_nonneg.2 hab
  -- the values stay bounded
  obtain ⟨R, hR⟩ : ∃ R, R = Real.exp (C * (b - a)) * (‖y a‖ + C * (b - a)) := ⟨_, rfl⟩
  have hR0 : 0 ≤ R := by rw [hR]; positivity
  obtain ⟨R1, hR1⟩ : ∃ R1, R1 = R + C * (b - a) * (1 + R) := ⟨_, rfl⟩
  have hR10 : 0 ≤ R1 := by rw [hR1]; positivity
  have hRR : R ≤ R1 := by rw [hR1]; linarith [show 0 ≤ C * (b - a) * (1 + R) by positivity]
  obtain ⟨c0, hc0, hsee⟩ := hS.2 R
  obtain ⟨X, hX⟩ : ∃ X, X = Cn * (1 + R1) / c0 := ⟨_, rfl⟩
  have hX0 : 0 ≤ X := by rw [hX]; positivity
  refine ⟨Real.exp (K * (b - a)) * ((b - a) * (B * X ^ ((N : ℝ) / q))), by positivity, ?_⟩
  intro tol p hp hmin hmax hatol hrtol hatol' hrtol' hnorm hsees O F _ _ cfg hwf ha hb hs hc hclean hroot dt0 hdt0 tnext
    ctrl hinit mj
  have htol : 0 < tol := hatol.trans_le hatol'
  have hcalls := explicit_isErr tab hex f cj rF rK nj p hatol hrtol hnorm cfg hs hclean (y a) tnext ctrl mj
  have hx := fun c hcm => (hcalls c hcm).choose_spec.2.2.2.2
  rw [← ha] at hinit
  have hfor := pidWith_forward p hp hmin (fun M hM => (hmax M hM).le) p.scaledVec cfg hwf hc (y a) dt0 tnext ctrl hdt0.le
    hinit _ mj hx
  have ht := htame cfg.solver.interp
  rw [← hs] at ht
  -- the values are bounded and in `S`
  have hbd := (global_error_on cfg hwf (fun t x st mj => (odeRK tab f cj rF rK nj).ValidState t x st mj ∧ x ∈ S)
    (fun _ => 0) C 0 C hC le_rfl hC 0 (fun _ _ => True)
    (fun t t' x st mj hv h1 h2 h3 _ _ mj' => ⟨ht.valid t t' x st mj hv.1 (ha ▸ h1) h2 (hb ▸ h3) mj', by
      rw [hs]; exact hS.1 t t' x st mj hv.1 hv.2 (ha ▸ h1) h2 (hb ▸ h3)⟩)
    (fun t t' x st mj hv h1 h2 h3 _ _ => by
        have h4 := ht.growth t t' x st mj hv.1 (ha ▸ h1) h2 (hb ▸ h3)
        have h5 := norm_add_le ((cfg.solver.step t t' x st mj).y - x) x
        rw [sub_add_cancel] at h5
        rw [sub_zero, sub_zero]
        rw [zero_add, pow_one, zero_mul, add_zero]
        have h4' : ‖(cfg.solver.step t t' x st mj).y - x‖ ≤ C * (t' - t) * (1 + ‖x‖) := h4
        linarith)
    (by rw [hc]; exact pidWith_exact p _) (y a) tnext ctrl _ mj
    ⟨validState_init tab f cj rF rK nj _ _ _, hyS⟩ (fun c hcm => (hfor c hcm).2.1)
    (fun c _ _ => by rw [hs, C41_explicit_succeeds _ hex]; rfl) (cfg.t1 - cfg.t0) (fun _ _ _ => trivial)
    (fun c hcm _ => by
      obtain ⟨h1, -, h2⟩ := hfor c hcm
      linarith)).1
  have hstep : ∀ c ∈ callLog cfg (y a) tnext ctrl (odeRK tab f cj rF rK nj).init mj, (c.answer cfg).keep = true →
      c.solverT1 - c.solverT0 ≤ (X * tol) ^ (1 / (q : ℝ)) := by
    intro c hcm hk
    obtain ⟨⟨⟨h1, h2⟩, hv, hcS⟩, h4⟩ := hbd c hcm
    have h12 := (hfor c hcm).2.1
    have hT : 0 ≤ c.solverT1 - c.solverT0 := sub_nonneg.2 h12
    obtain ⟨e, he, e1, e2, e3, -⟩ := hcalls c hcm
    rw [ha] at h1; rw [hb] at h2
    have hyR : ‖c.solverY‖ ≤ R := by
      rw [sub_zero, sub_zero] at h4
      refine h4.trans ?_
      unfold errorBound
      rw [hR, pow_zero, mul_one, add_zero, ha]
      have h5 : 0 ≤ c.solverT0 - a := sub_nonneg.2 h1
      have h6 : c.solverT0 ≤ b := h12.trans h2
      gcongr
    have hy1 : ‖c.ctrlY1‖ ≤ R1 := by
      have h5 := ht.growth _ _ _ _ _ hv h1 h12 h2
      have h5' : ‖((odeRK tab f cj rF rK nj).step c.solverT0 c.solverT1 c.solverY c.solverState c.solverMadeJump).y
        - c.solverY‖ ≤ C * (c.solverT1 - c.solverT0) * (1 + ‖c.solverY‖) := by rw [← hs]; exact h5
      rw [← e3] at h5'
      have h6 := norm_add_le (c.ctrlY1 - c.solverY) c.solverY
      rw [sub_add_cancel] at h6
      have h7 : c.solverT1 - c.solverT0 ≤ b - a := by linarith
      have h8 : C * (c.solverT1 - c.solverT0) * (1 + ‖c.solverY‖) ≤ C * (b - a) * (1 + R) := by gcongr
      rw [hR1]; linarith
    have hkeep : p.keep (p.scaledVec c.ctrlY0 c.ctrlY1 (some e)) c.ctrlState.atDtmin = true := by
      rw [← e1]
      unfold CallLog.answer at hk
      rw [hc] at hk
      exact hk
    have hest := accepted_estimate p hmin hatol hrtol hnorm Cn hCn hsees tol R1 hatol' hrtol' c.ctrlY0 c.ctrlY1 e
      (by rw [e2]; exact hyR.trans hRR) hy1 _ hkeep
    have h9 := (hsee _ _ _ _ _ hv hcS hyR h1 h12 h2 e he).trans hest
    have h10 : (c.solverT1 - c.solverT0) ^ q ≤ X * tol := by
      rw [hX]
      have : (c.solverT1 - c.solverT0) ^ q ≤ Cn * (tol * (1 + R1)) / c0 := (le_div_iff₀' hc0).2 h9
      refine this.trans (le_of_eq (by ring))
    calc c.solverT1 - c.solverT0 = ((c.solverT1 - c.solverT0) ^ q) ^ (1 / (q : ℝ)) := by
          rw [one_div, Real.pow_rpow_inv_natCast hT hq.ne']
      _ ≤ _ := Real.rpow_le_rpow (pow_nonneg hT _) h10 (by positivity)
  have h3 := (hmain _ O F cfg hwf ha hb hs (by rw [hc]; exact pidWith_exact p _) (y a) tnext ctrl mj _
    (by positivity) (fun c hcm => (hfor c hcm).2.1) hstep).2 hroot
  refine h3.trans (le_of_eq ?_)
  have e : ((X * tol) ^ (1 / (q : ℝ))) ^ N = X ^ ((N : ℝ) / q) * tol ^ ((N : ℝ) / q) := by
    rw [← Real.rpow_natCast, ← Real.rpow_mul (by positivity), Real.mul_rpow hX0 htol.le]
    congr 2 <;> ring
  rw [sub_self, norm_zero, e]
  push_cast
  ring

end

/-! ### An example: `y' = y` -/

/-- `y' = y`. -/
def growthODE : Fin 1 → ℝ → (Fin 1 → ℝ) → Fin 1 → ℝ := fun _ _ y => y

theorem growth_nice : NiceODE growthODE 1 where
  analytic := fun p x _ => analyticAt_snd
  lipschitz := fun p t x x' => by simp [growthODE]

noncomputable def growthRK : RK 1 ℝ ℚ (Fin 1 → ℝ) (Fin 1 → ℝ) ℝ Unit :=
  odeRK ![Tab.Heun.tableau] growthODE .never (idealRoot _) (idealRoot _) ()

theorem growth_step (t t' : ℝ) (x : Fin 1 → ℝ) (st : RK.State 1 (Fin 1 → ℝ)) (mj : Bool)
    (hv : growthRK.ValidState t x st mj) :
    (growthRK.step t t' x st mj).y = (1 + (t' - t) + (t' - t) ^ 2 / 2) • x ∧
    (growthRK.step t t' x st mj).err = some (-((t' - t) ^ 2 / 2) • x) := by
  have hok : methodOK 2 Tab.Heun.tableau.abscissa ![Tab.Heun.tableau] = true := by decide +kernel
  have hex : ∀ p, (![Tab.Heun.tableau] p).implicit = false := by decide +kernel
  have h1 := explicit_step ![Tab.Heun.tableau] growthODE .never (idealRoot (Fin 1 → ℝ)) (idealRoot (Fin 1 → ℝ)) () hok hex t
    (t' - t) x st mj hv
  have h2 := explicit_err ![Tab.Heun.tableau] hok hex growthODE .never (idealRoot (Fin 1 → ℝ)) (idealRoot (Fin 1 → ℝ)) () t
    (t' - t) x st mj hv
  rw [add_sub_cancel] at h1 h2
  have a10 : Tab.Heun.tableau.a 1 0 = 1 := by decide +kernel
  have b0 : Tab.Heun.tableau.bSol.getD 0 0 = 1 / 2 := by decide +kernel
  have b1 : Tab.Heun.tableau.bSol.getD 1 0 = 1 / 2 := by decide +kernel
  have e0 : Tab.Heun.tableau.bError.getD 0 0 = 1 / 2 := by decide +kernel
  have e1 : Tab.Heun.tableau.bError.getD 1 0 = -1 / 2 := by decide +kernel
  have k0 := h1.2 0 (by norm_num) 0
  have k1 := h1.2 1 (by norm_num) 0
  simp only [Fin.sum_univ_one, sum_range_succ, range_zero, sum_empty, zero_add, add_zero, growthODE,
    Matrix.cons_val_fin_one, a10, Rat.cast_one, one_smul] at k0 k1
  constructor
  · show ((odeRK ![Tab.Heun.tableau] growthODE .never (idealRoot (Fin 1 → ℝ)) (idealRoot (Fin 1 → ℝ)) ()).step t t' x st
      mj).y = _
    rw [h1.1]
    simp only [Fin.sum_univ_one, sum_range_succ, range_zero, sum_empty, zero_add, Matrix.cons_val_fin_one, b0, b1]
    rw [k1, k0]
    funext i
    simp only [Pi.add_apply, Pi.smul_apply, smul_eq_mul]
    push_cast
    ring
  · show ((odeRK ![Tab.Heun.tableau] growthODE .never (idealRoot (Fin 1 → ℝ)) (idealRoot (Fin 1 → ℝ)) ()).step t t' x st
      mj).err = _
    rw [h2]
    congr 1
    simp only [Fin.sum_univ_one, sum_range_succ, range_zero, sum_empty, zero_add, Matrix.cons_val_fin_one, e0, e1]
    rw [k1, k0]
    funext i
    simp only [Pi.add_apply, Pi.smul_apply, smul_eq_mul]
    push_cast
    ring

theorem growth_sees : EstimateSees growthRK {x | 1 ≤ x 0} 0 1 2 := by
  refine ⟨?_, fun R => ⟨1 / 2, by norm_num, ?_⟩⟩
  · intro t t' x st mj hv hx _ h _
    have hx : 1 ≤ x 0 := hx
    rw [(growth_step t t' x st mj hv).1]
    show 1 ≤ (1 + (t' - t) + (t' - t) ^ 2 / 2) * x 0
    have h1 : 1 ≤ 1 + (t' - t) + (t' - t) ^ 2 / 2 := by
      have := sub_nonneg.2 h
      linarith [sq_nonneg (t' - t)]
    exact one_le_mul_of_one_le_of_one_le h1 hx
  · intro t t' x st mj hv hx _ _ _ _ e he
    have hx : 1 ≤ x 0 := hx
    rw [(growth_step t t' x st mj hv).2] at he
    rw [← Option.some.inj he, norm_smul, norm_neg, Real.norm_eq_abs, abs_of_nonneg (by positivity)]
    have h1 : 1 ≤ ‖x‖ := hx.trans ((le_abs_self _).trans (norm_le_pi_norm x 0))
    have h2 : 0 ≤ (t' - t) ^ 2 / 2 := by positivity
    nlinarith

/-- `Heun` on `y' = y`, `y(0) = 1`, with `rtol = atol = tol`: given enough steps, the solve ends at 1, and it is within a
constant times `tol` of Euler's number. -/
example : ∃ B : ℝ, ∀ tol > 0, ∃ n₀ : ℕ, ∀ n ≥ n₀,
    (solve (tolCfg growthRK (pidTol tol 2) n) (fun _ => 1) (1 / 10) .fresh growthRK.init false).result = .successful ∧
    (solve (tolCfg growthRK (pidTol tol 2) n) (fun _ => 1) (1 / 10) .fresh growthRK.init false).tfinal = 1 ∧
    ‖(solve (tolCfg growthRK (pidTol tol 2) n) (fun _ => 1) (1 / 10) .fresh growthRK.init false).yfinal
      - fun _ => Real.exp 1‖ ≤ B * tol := by
  have hok : methodOK 2 Tab.Heun.tableau.abscissa ![Tab.Heun.tableau] = true := by decide +kernel
  obtain ⟨B, hB, h⟩ := C93_sees_partial (s := 2) (c := Tab.Heun.tableau.abscissa) C61_heun hok (by decide +kernel) growthODE
    .never (idealRoot (Fin 1 → ℝ)) (idealRoot (Fin 1 → ℝ)) () 1 growth_nice (fun t _ => Real.exp t)
    (fun t => hasDerivAt_pi.2 fun i => by simpa [growthODE] using Real.hasDerivAt_exp t) 0 1 zero_le_one
    {x | 1 ≤ x 0} 2 two_pos growth_sees (by simp) (Real.sqrt (1 : ℕ)) (Real.sqrt_nonneg _)
  refine ⟨B, fun tol htol => ?_⟩
  obtain ⟨H, n₀, hH, hfin⟩ := C82_solvers.1 1 Unit growthODE .never (idealRoot (Fin 1 → ℝ)) (idealRoot (Fin 1 → ℝ)) () 1
    growth_nice.lipschitz (fun p => continuous_const) 0 1 zero_le_one 1 (pidTol tol 2) (pidTol_valid tol 2) rfl
    (fun M hM => by cases hM) htol htol.le rmsNorm_belowMax (1 / 10) (by norm_num)
  have hinit : (pidTol tol 2).init (.fin 0) (.fin (1 / 10)) = (.fin (1 / 10), .fresh) := by
    show (XVal.fin ((0 : ℝ) + 1 / 10), PidState.fresh) = _
    rw [zero_add]
  refine ⟨n₀, fun n hn => ?_⟩
  have h1 := hfin ℝ ℝ (tolCfg growthRK (pidTol tol 2) n) (tolCfg_WF _ _ _) rfl rfl rfl rfl (fun _ => rfl) (fun _ => rfl)
    (by show (1 : ℝ) - 1 ≤ H; linarith) rfl rfl hn (fun _ => 1) (by simp) (1 / 10) .fresh hinit false
  have h2 := h tol (pidTol tol 2) (pidTol_valid tol 2) rfl (fun M hM => by cases hM) htol htol.le le_rfl le_rfl
    rmsNorm_belowMax (rmsNorm_seesAll 1) ℝ ℝ (tolCfg growthRK (pidTol tol 2) n) (tolCfg_WF _ _ _) rfl rfl rfl rfl
    (fun _ => rfl) rfl (1 / 10) (by norm_num) (1 / 10) .fresh hinit false
  simp only [Real.exp_zero] at h2
  refine ⟨h1.1, h1.2.1, ?_⟩
  rw [h1.2.1] at h2
  have e : tol ^ (((2 : ℕ) : ℝ) / (2 : ℕ)) = tol := by
    rw [div_self (by norm_num), Real.rpow_one]
  rw [e] at h2
  exact h2

/-- `Dopri5` on the same equation with `dtmax = M`: the error is at most a constant times `M^5`, for all tolerances. -/
example : ∃ B : ℝ, ∀ tol > 0, ∀ M > 0, ∀ n,
    let rk := odeRK ![Tab.Dopri5.tableau] growthODE .never (idealRoot (Fin 1 → ℝ)) (idealRoot (Fin 1 → ℝ)) ()
    let sol := solve (tolCfg rk { pidTol tol 5 with dtmax := some M } n) (fun _ => 1) (min 1 M) .fresh rk.init false
    ‖sol.yfinal - fun _ => Real.exp sol.tfinal‖ ≤ B * M ^ 5 := by
  obtain ⟨B, -, h⟩ := C93_dtmax_partial (s := 7) (c := Tab.Dopri5.tableau.abscissa) C61_dopri5 (by decide +kernel)
    (by decide +kernel) growthODE
    .never (idealRoot (Fin 1 → ℝ)) (idealRoot (Fin 1 → ℝ)) () 1 growth_nice (fun t _ => Real.exp t)
    (fun t => hasDerivAt_pi.2 fun i => by simpa [growthODE] using Real.hasDerivAt_exp t) 0 1
  refine ⟨B, fun tol htol M hM n => ?_⟩
  have hv : ({ pidTol tol 5 with dtmax := some M } : Pid ℝ).Valid :=
    ⟨(pidTol_valid tol 5).1, (pidTol_valid tol 5).2, (pidTol_valid tol 5).3, (pidTol_valid tol 5).4, (pidTol_valid tol 5).5⟩
  have h2 := h { pidTol tol 5 with dtmax := some M } hv rfl M rfl hM htol htol.le
    rmsNorm_belowMax ℝ ℝ (tolCfg (odeRK ![Tab.Dopri5.tableau] growthODE .never (idealRoot (Fin 1 → ℝ))
      (idealRoot (Fin 1 → ℝ)) ()) { pidTol tol 5 with dtmax := some M } n) (tolCfg_WF _ _ _) rfl rfl rfl rfl
    (fun _ => rfl) (by show (1 : ℝ) - 1 ≤ M; linarith) rfl 1 (by norm_num) (min 1 M) .fresh (by
      show (XVal.add (XVal.fin (0 : ℝ)) (XVal.min (.fin 1) (.fin M)), PidState.fresh) = _
      rw [XVal.min_fin]
      simp [XVal.add]) false
  simp only [Real.exp_zero] at h2
  exact h2

end Verif
