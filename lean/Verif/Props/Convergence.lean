import Verif.Lemmas.ConvergenceImplicit
import Verif.Props.OrderSolvers
import Verif.Props.OrderLarge
import Verif.Props.Constant
import Verif.Props.Loop
import Mathlib.Analysis.SpecialFunctions.ExpDeriv

/-!
# C70: a solve converges with the order of its method

The error of a whole `diffeqsolve`, for any step size controller, any outputs and any pattern of rejected
steps, is at most a constant times the `N`-th power of the longest accepted step.
-/

set_option linter.unusedSectionVars false
set_option maxRecDepth 100000

namespace Verif
open Finset Filter Topology Tab

section
variable {E Er D S C O F : Type} [NormedAddCommGroup E] [NormedSpace ℝ E] [LinearOrder F] [Zero F]

/-- The error that has accumulated at time `t`. -/
noncomputable def errorBound (A B K : ℝ) (N : ℕ) (η e0 a t : ℝ) : ℝ :=
  Real.exp (K * (t - a)) * (e0 + (A * η ^ N + B) * (t - a))

theorem errorBound_step (A B K : ℝ) (hA : 0 ≤ A) (hB : 0 ≤ B) (hK : 0 ≤ K) (N : ℕ) (η e0 a t t' e : ℝ) (hη : t' - t ≤ η)
    (he0 : 0 ≤ e0) (hat : a ≤ t) (ht : t ≤ t') (he : e ≤ errorBound A B K N η e0 a t) :
    (1 + K * (t' - t)) * e + A * (t' - t) ^ (N + 1) + B * (t' - t) ≤ errorBound A B K N η e0 a t' := by
  have hh : 0 ≤ t' - t := sub_nonneg.2 ht
  have hη0 : 0 ≤ η := hh.trans hη
  have h1 : 1 + K * (t' - t) ≤ Real.exp (K * (t' - t)) := by
    have := Real.add_one_le_exp (K * (t' - t)); linarith
  have h2 : (t' - t) ^ (N + 1) ≤ η ^ N * (t' - t) := by
    rw [pow_succ]; exact mul_le_mul_of_nonneg_right (pow_le_pow_left₀ hh hη _) hh
  have h3 : 0 ≤ errorBound A B K N η e0 a t := by
    unfold errorBound
    have : 0 ≤ t - a := sub_nonneg.2 hat
    positivity
  have h4 : (1 : ℝ) ≤ Real.exp (K * (t' - a)) :=
    Real.one_le_exp (mul_nonneg hK (by linarith))
  have h5 : Real.exp (K * (t' - t)) * errorBound A B K N η e0 a t
      = Real.exp (K * (t' - a)) * (e0 + (A * η ^ N + B) * (t - a)) := by
    unfold errorBound
    rw [← mul_assoc, ← Real.exp_add]
    congr 2; ring
  have h6 : 0 ≤ (A * η ^ N + B) * (t' - t) := by positivity
  calc (1 + K * (t' - t)) * e + A * (t' - t) ^ (N + 1) + B * (t' - t)
      ≤ Real.exp (K * (t' - t)) * errorBound A B K N η e0 a t + A * (η ^ N * (t' - t))
          + B * (t' - t) := by
        apply add_le_add_left
        apply add_le_add _ (mul_le_mul_of_nonneg_left h2 hA)
        have : 0 ≤ 1 + K * (t' - t) := by positivity
        calc _ ≤ (1 + K * (t' - t)) * errorBound A B K N η e0 a t := mul_le_mul_of_nonneg_left he this
          _ ≤ _ := mul_le_mul_of_nonneg_right h1 h3
    _ ≤ Real.exp (K * (t' - a)) * (e0 + (A * η ^ N + B) * (t - a))
        + Real.exp (K * (t' - a)) * ((A * η ^ N + B) * (t' - t)) := by
        rw [h5, add_assoc]
        have : A * (η ^ N * (t' - t)) + B * (t' - t) = 1 * ((A * η ^ N + B) * (t' - t)) := by ring
        rw [this]
        gcongr
    _ = errorBound A B K N η e0 a t' := by unfold errorBound; ring

/-- **C70, any one-step method**, where the accepted steps are known to satisfy `Ok`. -/
theorem global_error_on (cfg : Cfg ℝ E Er D S C O F) (hwf : cfg.WF) (V : ℝ → E → S → Bool → Prop) (y : ℝ → E)
    (A B K : ℝ) (hA : 0 ≤ A) (hB : 0 ≤ B) (hK : 0 ≤ K) (N : ℕ) (Ok : ℝ → ℝ → Prop)
    (hvalid : ∀ t t' x st mj, V t x st mj → cfg.t0 ≤ t → t ≤ t' → t' ≤ cfg.t1 → Ok t t' →
      (cfg.solver.step t t' x st mj).result.isOkay = true →
      ∀ mj', V t' (cfg.solver.step t t' x st mj).y (cfg.solver.step t t' x st mj).state mj')
    (herror : ∀ t t' x st mj, V t x st mj → cfg.t0 ≤ t → t ≤ t' → t' ≤ cfg.t1 → Ok t t' →
      (cfg.solver.step t t' x st mj).result.isOkay = true →
      ‖(cfg.solver.step t t' x st mj).y - y t'‖
        ≤ (1 + K * (t' - t)) * ‖x - y t‖ + A * (t' - t) ^ (N + 1) + B * (t' - t))
    (hctrl : cfg.controller.Exact) (y0 : E) (tnext : ℝ) (ctrl : C) (ss : S) (mj : Bool)
    (hV : V cfg.t0 y0 ss mj)
    (hfor : ∀ c ∈ callLog cfg y0 tnext ctrl ss mj, c.solverT0 ≤ c.solverT1)
    (hok : ∀ c ∈ callLog cfg y0 tnext ctrl ss mj, (c.answer cfg).keep = true →
      (cfg.solver.step c.solverT0 c.solverT1 c.solverY c.solverState c.solverMadeJump).result.isOkay = true)
    (η : ℝ) (hOk : ∀ c ∈ callLog cfg y0 tnext ctrl ss mj, (c.answer cfg).keep = true →
      Ok c.solverT0 c.solverT1) (hη : ∀ c ∈ callLog cfg y0 tnext ctrl ss mj, (c.answer cfg).keep = true →
      c.solverT1 - c.solverT0 ≤ η) :
    (∀ c ∈ callLog cfg y0 tnext ctrl ss mj, ((cfg.t0 ≤ c.solverT0 ∧ c.solverT1 ≤ cfg.t1) ∧
      V c.solverT0 c.solverY c.solverState c.solverMadeJump) ∧
      ‖c.solverY - y c.solverT0‖ ≤ errorBound A B K N η ‖y0 - y cfg.t0‖ cfg.t0 c.solverT0) ∧
    (cfg.t0 ≤ (solve cfg y0 tnext ctrl ss mj).core.tprev ∧
      (solve cfg y0 tnext ctrl ss mj).core.tprev ≤ cfg.t1) ∧
    ‖(solve cfg y0 tnext ctrl ss mj).core.y - y (solve cfg y0 tnext ctrl ss mj).core.tprev‖
      ≤ errorBound A B K N η ‖y0 - y cfg.t0‖ cfg.t0 (solve cfg y0 tnext ctrl ss mj).core.tprev := by
  rw [log_eq_history] at hfor hok hOk hη ⊢
  have hmain := run_inv cfg (fun s => cfg.t0 ≤ s.tprev ∧ s.tprev ≤ cfg.t1 ∧ s.tnext ≤ cfg.t1 ∧
      V s.tprev s.y s.solverState s.madeJump ∧
      ‖s.y - y s.tprev‖ ≤ errorBound A B K N η ‖y0 - y cfg.t0‖ cfg.t0 s.tprev)
    cfg.maxSteps (initState cfg y0 tnext ctrl ss mj).core
    ⟨le_refl _, hwf.le, min_le_right _ _, hV, by
      show ‖y0 - y cfg.t0‖ ≤ errorBound A B K N η ‖y0 - y cfg.t0‖ cfg.t0 cfg.t0
      simp [errorBound]⟩ (by
      rintro s hs - ⟨h1, h0, h3, h4, h5⟩
      have h2 : s.tprev ≤ s.tnext := hfor _ (List.mem_map_of_mem hs)
      have hso : (adaptOut cfg s).keep = true → (solverOut cfg s).result.isOkay = true :=
        hok _ (List.mem_map_of_mem hs)
      have hstep : (adaptOut cfg s).keep = true → s.tnext - s.tprev ≤ η := hη _ (List.mem_map_of_mem hs)
      have hOks : (adaptOut cfg s).keep = true → Ok s.tprev s.tnext := hOk _ (List.mem_map_of_mem hs)
      have hex := hctrl s.tprev s.tnext s.y (solverOut cfg s).y (cfg.cleanErr (solverOut cfg s).err) s.ctrlState
      have e1 : (coreBody cfg s).1.tprev = min (adaptOut cfg s).tprev cfg.t1 := rfl
      have e2 : (coreBody cfg s).1.tnext = clipToEnd cfg.mid (min (adaptOut cfg s).tprev cfg.t1)
        (adaptOut cfg s).tnext cfg.t1 cfg.floor (adaptOut cfg s).keep := rfl
      have e3 : (coreBody cfg s).1.solverState
          = if accepted cfg s then (solverOut cfg s).state else s.solverState := rfl
      have e4 : (coreBody cfg s).1.y = if accepted cfg s then (solverOut cfg s).y else s.y := rfl
      have e5 : (coreBody cfg s).1.madeJump
          = if accepted cfg s then (adaptOut cfg s).madeJump else s.madeJump := rfl
      have hle : min (adaptOut cfg s).tprev cfg.t1 ≤ cfg.t1 := min_le_right _ _
      have hnew : (coreBody cfg s).1.tprev = if accepted cfg s then s.tnext else s.tprev := by
        rw [e1]
        cases hk : accepted cfg s with
        | true =>
          have : (adaptOut cfg s).tprev = s.tnext := hex.1 hk
          rw [this, min_eq_left h3]; rfl
        | false =>
          have : (adaptOut cfg s).tprev = s.tprev := hex.2 hk
          rw [this, min_eq_left (h2.trans h3)]; rfl
      refine ⟨?_, ?_, ?_, ?_, ?_⟩
      · rw [hnew]; split
        · exact h1.trans h2
        · exact h1
      · rw [e1]; exact hle
      · rw [e2]; unfold clipToEnd
        dsimp only
        split
        · split
          · exact le_refl _
          · exact hwf.mid_le _ hle
        · rename_i hcl; exact le_trans (not_lt.1 hcl) hwf.floor_le
      · rw [hnew, e3, e4, e5]
        cases hk : accepted cfg s with
        | true =>
          simp only [if_true]
          exact hvalid _ _ _ _ _ h4 h1 h2 h3 (hOks hk) (hso hk) _
        | false =>
          simp only [Bool.false_eq_true, if_false]
          exact h4
      · rw [hnew, e4]
        cases hk : accepted cfg s with
        | true =>
          simp only [if_true]
          refine (herror _ _ _ _ _ h4 h1 h2 h3 (hOks hk) (hso hk)).trans ?_
          exact errorBound_step A B K hA hB hK N η _ _ _ _ _ (hstep hk) (norm_nonneg _) h1 h2 h5
        | false =>
          simp only [Bool.false_eq_true, if_false]
          exact h5)
  obtain ⟨hall, hfin⟩ := hmain
  refine ⟨?_, ?_⟩
  · intro c hc
    obtain ⟨s, hs, rfl⟩ := List.mem_map.1 hc
    exact ⟨⟨⟨(hall s hs).1, (hall s hs).2.2.1⟩, (hall s hs).2.2.2.1⟩, (hall s hs).2.2.2.2⟩
  · rw [solve_core]
    exact ⟨⟨hfin.1, hfin.2.1⟩, hfin.2.2.2.2⟩

/-- **C70, any one-step method.** -/
theorem global_error (cfg : Cfg ℝ E Er D S C O F) (hwf : cfg.WF) (V : ℝ → E → S → Bool → Prop) (y : ℝ → E)
    (δ A B K : ℝ) (hA : 0 ≤ A) (hB : 0 ≤ B) (hK : 0 ≤ K) (N : ℕ)
    (hacc : cfg.solver.Accurate V y cfg.t0 cfg.t1 δ A B K N)
    (hctrl : cfg.controller.Exact) (y0 : E) (tnext : ℝ) (ctrl : C) (ss : S) (mj : Bool)
    (hV : V cfg.t0 y0 ss mj)
    (hfor : ∀ c ∈ callLog cfg y0 tnext ctrl ss mj, c.solverT0 ≤ c.solverT1)
    (hok : ∀ c ∈ callLog cfg y0 tnext ctrl ss mj, (c.answer cfg).keep = true →
      (cfg.solver.step c.solverT0 c.solverT1 c.solverY c.solverState c.solverMadeJump).result.isOkay = true)
    (η : ℝ) (hηδ : η ≤ δ) (hη : ∀ c ∈ callLog cfg y0 tnext ctrl ss mj, (c.answer cfg).keep = true →
      c.solverT1 - c.solverT0 ≤ η) :
    (∀ c ∈ callLog cfg y0 tnext ctrl ss mj, ((cfg.t0 ≤ c.solverT0 ∧ c.solverT1 ≤ cfg.t1) ∧
      V c.solverT0 c.solverY c.solverState c.solverMadeJump) ∧
      ‖c.solverY - y c.solverT0‖ ≤ errorBound A B K N η ‖y0 - y cfg.t0‖ cfg.t0 c.solverT0) ∧
    (cfg.t0 ≤ (solve cfg y0 tnext ctrl ss mj).core.tprev ∧
      (solve cfg y0 tnext ctrl ss mj).core.tprev ≤ cfg.t1) ∧
    ‖(solve cfg y0 tnext ctrl ss mj).core.y - y (solve cfg y0 tnext ctrl ss mj).core.tprev‖
      ≤ errorBound A B K N η ‖y0 - y cfg.t0‖ cfg.t0 (solve cfg y0 tnext ctrl ss mj).core.tprev :=
  global_error_on cfg hwf V y A B K hA hB hK N (fun t t' => t' - t ≤ δ)
    (fun t t' x st mj h1 h2 h3 h4 _ h6 => hacc.valid t t' x st mj h1 h2 h3 h4 h6)
    (fun t t' x st mj h1 h2 h3 h4 h5 h6 => hacc.error t t' x st mj h1 h2 h3 h4 h5 h6)
    hctrl y0 tnext ctrl ss mj hV hfor hok η (fun c hc hk => (hη c hc hk).trans hηδ) hη

theorem errorBound_mono (A B K : ℝ) (hA : 0 ≤ A) (hB : 0 ≤ B) (hK : 0 ≤ K) (N : ℕ) (η e0 a t b : ℝ)
    (hη : 0 ≤ η) (he0 : 0 ≤ e0) (hat : a ≤ t) (htb : t ≤ b) :
    errorBound A B K N η e0 a t ≤ Real.exp (K * (b - a)) * (e0 + (b - a) * (A * η ^ N + B)) := by
  have : 0 ≤ t - a := sub_nonneg.2 hat
  unfold errorBound
  calc Real.exp (K * (t - a)) * (e0 + (A * η ^ N + B) * (t - a))
      ≤ Real.exp (K * (b - a)) * (e0 + (A * η ^ N + B) * (b - a)) := by gcongr
    _ = _ := by ring

/-- **C70.** If a solve without a root finder for events reports success, then all its accepted steps had
succeeded. -/
theorem C70_accepted_succeeded (cfg : Cfg ℝ E Er D S C O F) (y0 : E) (tnext : ℝ) (ctrl : C) (ss : S)
    (mj : Bool) (hroot : cfg.rootFinder = none)
    (hres : (solve cfg y0 tnext ctrl ss mj).result = .successful) :
    ∀ c ∈ callLog cfg y0 tnext ctrl ss mj, (c.answer cfg).keep = true →
      (cfg.solver.step c.solverT0 c.solverT1 c.solverY c.solverState c.solverMadeJump).result.isOkay
        = true := by
  have hcore : (solve cfg y0 tnext ctrl ss mj).core.result = .successful := by
    rw [solve_result, finalise_no_root cfg _ hroot] at hres
    split at hres
    · cases hres
    · exact hres
  rw [solve_core] at hcore
  intro c hc hk
  rw [log_eq_history] at hc
  obtain ⟨s, hs, rfl⟩ := List.mem_map.1 hc
  have hcond := condFun_succ cfg s (attempts_cond cfg _ _ s hs)
  by_contra hno
  have hno' : (solverOut cfg s).result.isOkay = false := Bool.eq_false_of_not_eq_true hno
  have hnot : (coreBody cfg s).1.result.isSuccessful = false := by
    rw [coreBody_result cfg s hcond]
    split
    · rfl
    · rw [if_pos ⟨hk, hno'⟩]
      simp only [Result.isOkay, Bool.or_eq_false_iff] at hno'
      exact hno'.1
  have := (attempts_last cfg _ _ s hs hnot).2
  rw [this] at hcore
  rw [hcore] at hnot
  simp [Result.isSuccessful] at hnot
end

section
variable {m : ℕ} {E J : Type} [NormedAddCommGroup E] [NormedSpace ℝ E] [Module ℚ E]
  {tab : Fin m → Tableau ℚ} {s : ℕ} {c : ℕ → ℚ} {N M : ℕ} {ε δ' : ℚ}

theorem valid_after (hok : methodOK s c tab = true) (f : Fin m → ℝ → E → E) (cj : CalcJac)
    (rF rK : RootFinder E J) (nj : J) (hroot : (odeRK tab f cj rF rK nj).RootExact)
    (t t' : ℝ) (x : E) (st : RK.State m E) (mj : Bool)
    (hst : (odeRK tab f cj rF rK nj).ValidState t x st mj)
    (hokay : ((odeRK tab f cj rF rK nj).step t t' x st mj).result.isOkay = true) (mj' : Bool) :
    (odeRK tab f cj rF rK nj).ValidState t' ((odeRK tab f cj rF rK nj).step t t' x st mj).y
      ((odeRK tab f cj rF rK nj).step t t' x st mj).state mj' := by
  intro hfs
  obtain ⟨hns, hwf, hfsal⟩ := odeRK_WF hok f cj rF rK nj
  obtain ⟨k, _, _, _, _, _, _, hlast⟩ := C41_step_formula (odeRK tab f cj rF rK nj) hwf hfsal
    hroot _ _ _ _ _ hst hokay
  obtain ⟨f1, hf1, hf1v⟩ := hlast hfs
  refine ⟨false, f1, hf1, Or.inr (Or.inr fun p => ?_)⟩
  rw [hf1v p]
  unfold RK.stageTime
  rw [if_pos (hfsal.cLast hfs p)]

/-- Explicit Runge-Kutta methods are accurate along every solution, for steps of any length. -/
theorem explicit_accurate (hok : methodOK s c tab = true) (hex : ∀ p, (tab p).implicit = false)
    (hε : 0 ≤ ε) (hord : StepOrder tab N ε M δ') (f : Fin m → ℝ → E → E) (cj : CalcJac)
    (rF rK : RootFinder E J) (nj : J) (L : ℝ) (hf : NiceODE f L)
    (y : ℝ → E) (hy : ∀ t, HasDerivAt y (∑ p, f p t (y t)) t) (a b D : ℝ) (hD : ElemBound f y a b N D) :
    ∃ A K, 0 ≤ A ∧ 0 ≤ K ∧ ∀ interp, Solver.Accurate
      { step := (odeRK tab f cj rF rK nj).step, interp := interp }
      (odeRK tab f cj rF rK nj).ValidState y a b (b - a) A (ε * D * max 1 (b - a) ^ N) K N := by
  obtain ⟨A, hA, hlocal⟩ := explicit_local_uniform tab f cj rF rK nj hok hex hε hord hf.analytic y hy hD
    (b - a)
  obtain ⟨K, hK, hlip⟩ := explicit_lipschitz tab f cj rF rK nj hok hex L hf.lipschitz (b - a)
  refine ⟨A, K, hA, hK, fun interp => ⟨?_, ?_⟩⟩
  · intro t t' x st mj hst _ _ _ hokay mj'
    exact valid_after hok f cj rF rK nj (rootExact_of_explicit tab f cj rF rK nj hex) t t' x st mj hst
      hokay mj'
  · intro t t' x st mj hst hat htt htb _ _
    have e : t' = t + (t' - t) := by ring
    have hh : 0 ≤ t' - t := sub_nonneg.2 htt
    have hv := validState_init tab f cj rF rK nj t (y t) false
    have h1 := hlip t (t' - t) hh (by linarith) x (y t) st _ mj false hst hv
    have h2 := hlocal t ⟨hat, htt.trans htb⟩ (t' - t) (by rw [abs_of_nonneg hh]; linarith) _ false hv
    rw [← e] at h1 h2
    rw [abs_of_nonneg hh] at h2
    rw [add_assoc]
    calc _ ≤ ‖((odeRK tab f cj rF rK nj).step t t' x st mj).y
          - ((odeRK tab f cj rF rK nj).step t t' (y t) (odeRK tab f cj rF rK nj).init false).y‖
          + ‖((odeRK tab f cj rF rK nj).step t t' (y t) (odeRK tab f cj rF rK nj).init false).y - y t'‖ :=
          norm_sub_le_norm_sub_add_norm_sub _ _ _
      _ ≤ _ := add_le_add h1 h2

/-- All Runge-Kutta methods are accurate along every solution, for short steps. -/
theorem any_accurate [CompleteSpace E] (hok : methodOK s c tab = true)
    (hε : 0 ≤ ε) (hord : StepOrder tab N ε M δ') (f : Fin m → ℝ → E → E) (cj : CalcJac)
    (rF rK : RootFinder E J) (nj : J) (hroot : (odeRK tab f cj rF rK nj).RootExact)
    (L : ℝ) (hf : NiceODE f L)
    (y : ℝ → E) (hy : ∀ t, HasDerivAt y (∑ p, f p t (y t)) t) (a b D : ℝ) (hD : ElemBound f y a b N D) :
    ∃ δ A, 0 < δ ∧ 0 ≤ A ∧ ∀ interp, Solver.Accurate
      { step := (odeRK tab f cj rF rK nj).step, interp := interp }
      (odeRK tab f cj rF rK nj).ValidState y a b δ A (ε * D) (4 * bSum s tab * (m * s) * |L|) N := by
  obtain ⟨δ, A, hδ, -, hA, herr⟩ := implicit_error tab f cj rF rK nj hok hroot hε hord hf.analytic
    (abs_nonneg L) (fun p t x x' => (hf.lipschitz p t x x').trans
      (mul_le_mul_of_nonneg_right (le_abs_self L) (norm_nonneg _))) y hy hD
  refine ⟨δ, A, hδ, hA, fun interp => ⟨?_, ?_⟩⟩
  · intro t t' x st mj hst _ _ _ hokay mj'
    exact valid_after hok f cj rF rK nj hroot t t' x st mj hst hokay mj'
  · intro t t' x st mj hst hat htt htb hδt hokay
    have e : t + (t' - t) = t' := by ring
    have h := herr t ⟨hat, htt.trans htb⟩ (t' - t) (sub_nonneg.2 htt) hδt x st mj hst
    rw [e] at h
    refine (h hokay).trans (le_of_eq ?_)
    ring

theorem elemBound_nonneg {f : Fin m → ℝ → E → E} {y : ℝ → E} {a b D : ℝ} (hab : a ≤ b)
    (hD : ElemBound f y a b N D) : 0 ≤ D := by
  obtain ⟨G, hG⟩ := hD
  exact (Finset.sum_nonneg fun _ _ => norm_nonneg _).trans (hG a ⟨le_refl _, hab⟩).2

/-- From accuracy to the error of a whole solve. -/
theorem solve_error {C O F : Type} [LinearOrder F] [Zero F] (f : Fin m → ℝ → E → E) (cj : CalcJac)
    (rF rK : RootFinder E J) (nj : J) (y : ℝ → E) (δ A B K : ℝ) (hA : 0 ≤ A) (hB : 0 ≤ B) (hK : 0 ≤ K)
    (cfg : Cfg ℝ E (Option E) (RK.Dense m E) (RK.State m E) C O F) (hwf : cfg.WF)
    (hacc : cfg.solver.Accurate (odeRK tab f cj rF rK nj).ValidState y cfg.t0 cfg.t1 δ A B K N)
    (hctrl : cfg.controller.Exact) (y0 : E) (tnext : ℝ) (ctrl : C) (mj : Bool) (η : ℝ) (hη0 : 0 ≤ η)
    (hηδ : η ≤ δ)
    (hfor : ∀ c ∈ callLog cfg y0 tnext ctrl (odeRK tab f cj rF rK nj).init mj, c.solverT0 ≤ c.solverT1)
    (hok : ∀ c ∈ callLog cfg y0 tnext ctrl (odeRK tab f cj rF rK nj).init mj, (c.answer cfg).keep = true →
      (cfg.solver.step c.solverT0 c.solverT1 c.solverY c.solverState c.solverMadeJump).result.isOkay = true ∧
      c.solverT1 - c.solverT0 ≤ η) :
    (∀ c ∈ callLog cfg y0 tnext ctrl (odeRK tab f cj rF rK nj).init mj,
      ‖c.solverY - y c.solverT0‖
        ≤ Real.exp (K * (cfg.t1 - cfg.t0)) * (‖y0 - y cfg.t0‖ + (cfg.t1 - cfg.t0) * (A * η ^ N + B))) ∧
    (cfg.rootFinder = none →
      ‖(solve cfg y0 tnext ctrl (odeRK tab f cj rF rK nj).init mj).yfinal
        - y (solve cfg y0 tnext ctrl (odeRK tab f cj rF rK nj).init mj).tfinal‖
        ≤ Real.exp (K * (cfg.t1 - cfg.t0))
          * (‖y0 - y cfg.t0‖ + (cfg.t1 - cfg.t0) * (A * η ^ N + B))) := by
  obtain ⟨g1, g3, g2⟩ := global_error cfg hwf _ y δ A B K hA hB hK N hacc hctrl y0 tnext ctrl _ mj
    (validState_init tab f cj rF rK nj _ _ _) hfor (fun c hc hk => (hok c hc hk).1) η hηδ
    (fun c hc hk => (hok c hc hk).2)
  refine ⟨?_, ?_⟩
  · intro c hc
    obtain ⟨⟨⟨b1, b2⟩, -⟩, b3⟩ := g1 c hc
    exact b3.trans (errorBound_mono A B K hA hB hK N η _ _ _ _ hη0 (norm_nonneg _) b1 ((hfor c hc).trans b2))
  · intro hroot
    rw [solve_yfinal, solve_tfinal, finalise_no_root cfg _ hroot]
    exact g2.trans (errorBound_mono A B K hA hB hK N η _ _ _ _ hη0 (norm_nonneg _) g3.1 g3.2)

/-- **C70.** A Runge-Kutta solver, explicit or implicit, converges with the order of its steps. -/
theorem C70_converges (hord : StepOrder tab N ε M δ') (hok : methodOK s c tab = true) (hε : 0 ≤ ε) :
    Converges tab N ε := by
  refine ⟨4 * bSum s tab * (m * s), by have := bSum_nonneg tab s; positivity, ?_⟩
  intro E J _ _ _ _ f cj rF rK nj hroot L hf y hy a b D hD
  have hroot' : (odeRK tab f cj rF rK nj).RootExact := fun h =>
    hroot ((implicitPart_isSome tab f cj rF rK nj).1 h)
  obtain ⟨δ, A, hδ, hA, hacc⟩ := any_accurate hok hε hord f cj rF rK nj hroot' L hf y hy a b D hD
  refine ⟨δ, A, hδ, hA, ?_⟩
  intro C O F _ _ cfg hwf ha hb hsolver hctrl y0 tnext ctrl mj η hη0 hηδ hfor hall
  subst ha hb
  have hacc' := hacc cfg.solver.interp
  rw [← hsolver] at hacc'
  exact solve_error f cj rF rK nj y δ A _ _ hA
    (mul_nonneg (by exact_mod_cast hε) (elemBound_nonneg hwf.le hD))
    (by have := bSum_nonneg tab s; positivity) cfg hwf hacc' hctrl y0 tnext ctrl mj
    η hη0 hηδ hfor hall

/-- **C70.** For explicit methods the steps may have any length. -/
theorem C70_explicit (hord : StepOrder tab N ε M δ') (hok : methodOK s c tab = true) (hε : 0 ≤ ε)
    (hex : ∀ p, (tab p).implicit = false)
    (f : Fin m → ℝ → E → E) (cj : CalcJac) (rF rK : RootFinder E J) (nj : J)
    (L : ℝ) (hf : NiceODE f L) (y : ℝ → E) (hy : ∀ t, HasDerivAt y (∑ p, f p t (y t)) t) (a b D : ℝ)
    (hD : ElemBound f y a b N D) :
    ∃ B K : ℝ, 0 ≤ B ∧ 0 ≤ K ∧ ∀ (C O F : Type) [LinearOrder F] [Zero F]
      (cfg : Cfg ℝ E (Option E) (RK.Dense m E) (RK.State m E) C O F) (_ : cfg.WF)
      (_ : cfg.t0 = a) (_ : cfg.t1 = b) (_ : cfg.solver.step = (odeRK tab f cj rF rK nj).step)
      (_ : cfg.controller.Exact) (y0 : E) (tnext : ℝ) (ctrl : C) (mj : Bool) (η : ℝ) (_ : 0 ≤ η)
      (_ : ∀ c ∈ callLog cfg y0 tnext ctrl (odeRK tab f cj rF rK nj).init mj, c.solverT0 ≤ c.solverT1)
      (_ : ∀ c ∈ callLog cfg y0 tnext ctrl (odeRK tab f cj rF rK nj).init mj, (c.answer cfg).keep = true →
        c.solverT1 - c.solverT0 ≤ η),
      (∀ c ∈ callLog cfg y0 tnext ctrl (odeRK tab f cj rF rK nj).init mj,
        ‖c.solverY - y c.solverT0‖ ≤ Real.exp (K * (b - a))
          * (‖y0 - y a‖ + (b - a) * (B * η ^ N + ε * D * max 1 (b - a) ^ N))) ∧
      (cfg.rootFinder = none →
        ‖(solve cfg y0 tnext ctrl (odeRK tab f cj rF rK nj).init mj).yfinal
          - y (solve cfg y0 tnext ctrl (odeRK tab f cj rF rK nj).init mj).tfinal‖ ≤ Real.exp (K * (b - a))
          * (‖y0 - y a‖ + (b - a) * (B * η ^ N + ε * D * max 1 (b - a) ^ N))) := by
  obtain ⟨A, K, hA, hK, hacc⟩ := explicit_accurate hok hex hε hord f cj rF rK nj L hf y hy a b D hD
  refine ⟨A, K, hA, hK, ?_⟩
  intro C O F _ _ cfg hwf ha hb hsolver hctrl y0 tnext ctrl mj η hη0 hfor hη
  subst ha hb
  have hacc' := hacc cfg.solver.interp
  rw [← hsolver] at hacc'
  have hD0 := elemBound_nonneg hwf.le hD
  have hε' : (0 : ℝ) ≤ ε := by exact_mod_cast hε
  have hokay : ∀ a b y s j, (cfg.solver.step a b y s j).result.isOkay = true := by
    intro a b y s j
    rw [hsolver, C41_explicit_succeeds _ hex]; rfl
  -- no step is longer than the whole interval
  have hB0 : 0 ≤ ε * D * max 1 (cfg.t1 - cfg.t0) ^ N := by positivity
  obtain ⟨g1, g3, g2⟩ := global_error cfg hwf _ y (max η (cfg.t1 - cfg.t0)) A _ K hA hB0 hK N
    { valid := hacc'.valid
      error := fun t t' x st mj hst hat htt htb _ hk =>
        hacc'.error t t' x st mj hst hat htt htb (by linarith) hk }
    hctrl y0 tnext ctrl _ mj (validState_init tab f cj rF rK nj _ _ _) hfor (fun c _ _ => hokay _ _ _ _ _) η
    (le_max_left _ _) hη
  refine ⟨?_, ?_⟩
  · intro c hc
    obtain ⟨⟨⟨b1, b2⟩, -⟩, b3⟩ := g1 c hc
    exact b3.trans (errorBound_mono A _ K hA hB0 hK N η _ _ _ _ hη0 (norm_nonneg _) b1 ((hfor c hc).trans b2))
  · intro hroot
    rw [solve_yfinal, solve_tfinal, finalise_no_root cfg _ hroot]
    exact g2.trans (errorBound_mono A _ K hA hB0 hK N η _ _ _ _ hη0 (norm_nonneg _) g3.1 g3.2)

/-- **C70, constant steps.** With `ConstantStepSize` and an explicit method, started on the solution: the
solve succeeds, ends at `t1`, and the error there is at most a constant times `dt0^N`. -/
theorem C70_constant [CompleteSpace E] (hord : StepOrder tab N 0 M δ') (hok : methodOK s c tab = true)
    (hex : ∀ p, (tab p).implicit = false)
    (f : Fin m → ℝ → E → E) (cj : CalcJac) (rF rK : RootFinder E J) (nj : J)
    (L : ℝ) (hf : NiceODE f L) (y : ℝ → E) (hy : ∀ t, HasDerivAt y (∑ p, f p t (y t)) t) (a b : ℝ) :
    ∃ B : ℝ, ∀ (O F : Type) [LinearOrder F] [Zero F]
      (cfg : Cfg ℝ E (Option E) (RK.Dense m E) (RK.State m E) (ConstState ℝ) O F) (_ : cfg.WF)
      (_ : cfg.t0 = a) (_ : cfg.t1 = b) (_ : a < b)
      (_ : cfg.solver.step = (odeRK tab f cj rF rK nj).step)
      (_ : cfg.controller = constantStepSize) (_ : cfg.events = []) (_ : cfg.rootFinder = none)
      (dt0 : ℝ) (_ : 0 < dt0) (tnext : ℝ) (ctrl : ConstState ℝ) (mj : Bool)
      (_ : constInit id a (some b) (some dt0) = some (tnext, ctrl))
      (_ : b - (b - a) / (⌈(b - a) / dt0⌉ : Int) ≤ cfg.floor)
      (_ : ⌈(b - a) / dt0⌉ ≤ cfg.maxSteps),
      (solve cfg (y a) tnext ctrl (odeRK tab f cj rF rK nj).init mj).result = .successful ∧
      (solve cfg (y a) tnext ctrl (odeRK tab f cj rF rK nj).init mj).tfinal = b ∧
      ‖(solve cfg (y a) tnext ctrl (odeRK tab f cj rF rK nj).init mj).yfinal - y b‖ ≤ B * dt0 ^ N := by
  obtain ⟨D, -, hD⟩ := elemBound_exists f y
    (continuous_iff_continuousAt.2 fun t => (hy t).continuousAt) hf.analytic a b N
  obtain ⟨B, K, -, -, hB⟩ := C70_explicit hord hok (le_refl _) hex f cj rF rK nj L hf y hy a b D hD
  refine ⟨Real.exp (K * (b - a)) * ((b - a) * B), ?_⟩
  intro O F _ _ cfg hwf ha hb hab hsolver hctrl hev hroot dt0 hdt tnext ctrl mj hinit hfl hmax
  subst ha hb
  obtain ⟨n, p, hn, hlog, hp0, hpn, hlt, hle, -, -, -, htf, hres, -, -, -⟩ :=
    C22_constant_steps cfg id dt0 (y cfg.t0) (odeRK tab f cj rF rK nj).init mj tnext ctrl hinit hab hdt
      (le_refl _) (fun h => h) hctrl hev
      (fun a b y s j => by rw [hsolver, C41_explicit_succeeds _ hex]) hwf.floor_le hfl hmax
  have hmem : ∀ c ∈ callLog cfg (y cfg.t0) tnext ctrl (odeRK tab f cj rF rK nj).init mj,
      ∃ k < n, c.solverT0 = p k ∧ c.solverT1 = p (k + 1) := by
    intro c hc
    have h1 : (c.solverT0, c.solverT1) ∈ (List.range n).map (fun j => (p j, p (j + 1))) := by
      rw [← hlog]; exact List.mem_map_of_mem hc
    obtain ⟨k, hk, he⟩ := List.mem_map.1 h1
    have he' := Prod.mk.inj he
    exact ⟨k, List.mem_range.1 hk, he'.1.symm, he'.2.symm⟩
  have hexact : cfg.controller.Exact := by
    rw [hctrl]
    intro a b y0 y1 e st
    exact ⟨fun _ => rfl, fun h => by simp [constantStepSize, constAdapt] at h⟩
  have := (hB _ O F cfg hwf rfl rfl hsolver hexact (y cfg.t0) tnext ctrl mj dt0 hdt.le
    (fun c hc => by
      obtain ⟨k, hk, e1, e2⟩ := hmem c hc
      rw [e1, e2]; exact (hlt k hk).le)
    (fun c hc _ => by
      obtain ⟨k, hk, e1, e2⟩ := hmem c hc
      rw [e1, e2]
      have := hle k hk
      simpa using this)).2 hroot
  rw [sub_self, norm_zero, zero_add, htf] at this
  refine ⟨hres, htf, this.trans (le_of_eq ?_)⟩
  push_cast
  ring

/-- **C70, ideal root finder.** For an implicit method with an ideal root finder, and steps that are short
enough, nothing has to be assumed about the success of the steps. -/
theorem C70_ideal (hconv : Converges tab N ε) : ∃ κ : ℝ, 0 ≤ κ ∧ ∀ (E : Type) [NormedAddCommGroup E]
    [NormedSpace ℝ E] [Module ℚ E] [CompleteSpace E] (f : Fin m → ℝ → E → E) (cj : CalcJac)
    (L : ℝ) (_ : NiceODE f L) (y : ℝ → E) (_ : ∀ t, HasDerivAt y (∑ p, f p t (y t)) t) (a b D : ℝ)
    (_ : ElemBound f y a b N D),
    ∃ δ B : ℝ, 0 < δ ∧ 0 ≤ B ∧ ∀ (C O F : Type) [LinearOrder F] [Zero F]
      (cfg : Cfg ℝ E (Option E) (RK.Dense m E) (RK.State m E) C O F) (_ : cfg.WF)
      (_ : cfg.t0 = a) (_ : cfg.t1 = b)
      (_ : cfg.solver.step = (odeRK tab f cj (idealRoot E) (idealRoot E) ()).step)
      (_ : cfg.controller.Exact) (y0 : E) (tnext : ℝ) (ctrl : C) (mj : Bool) (η : ℝ) (_ : 0 ≤ η) (_ : η ≤ δ)
      (_ : ∀ c ∈ callLog cfg y0 tnext ctrl (odeRK tab f cj (idealRoot E) (idealRoot E) ()).init mj,
        c.solverT0 ≤ c.solverT1)
      (_ : ∀ c ∈ callLog cfg y0 tnext ctrl (odeRK tab f cj (idealRoot E) (idealRoot E) ()).init mj,
        (c.answer cfg).keep = true → c.solverT1 - c.solverT0 ≤ η) (_ : cfg.rootFinder = none),
      ‖(solve cfg y0 tnext ctrl (odeRK tab f cj (idealRoot E) (idealRoot E) ()).init mj).yfinal
        - y (solve cfg y0 tnext ctrl (odeRK tab f cj (idealRoot E) (idealRoot E) ()).init mj).tfinal‖
        ≤ Real.exp (κ * |L| * (b - a)) * (‖y0 - y a‖ + (b - a) * (B * η ^ N + ε * D)) := by
  obtain ⟨κ, hκ, hconv⟩ := hconv
  refine ⟨κ, hκ, ?_⟩
  intro E _ _ _ _ f cj L hf y hy a b D hD
  obtain ⟨δ₁, B, hδ₁, hB, hall⟩ := hconv E Unit f cj (idealRoot E) (idealRoot E) ()
    (fun _ => ⟨idealRoot_exact E, idealRoot_exact E⟩) L hf y hy a b D hD
  obtain ⟨δ₂, hδ₂, hsucc⟩ := ideal_succeeds_uniform (tab := tab) f cj |L| (abs_nonneg L)
    (fun p t x x' => (hf.lipschitz p t x x').trans
      (mul_le_mul_of_nonneg_right (le_abs_self L) (norm_nonneg _)))
  refine ⟨min δ₁ δ₂, B, lt_min hδ₁ hδ₂, hB, ?_⟩
  intro C O F _ _ cfg hwf ha hb hsolver hctrl y0 tnext ctrl mj η hη0 hηδ hfor hη hroot
  refine (hall C O F cfg hwf ha hb hsolver hctrl y0 tnext ctrl mj η hη0 (hηδ.trans (min_le_left _ _)) hfor
    (fun c hc hk => ⟨?_, hη c hc hk⟩)).2 hroot
  have h1 := hfor c hc
  have h2 := hη c hc hk
  have h3 := hsucc (c.solverT1 - c.solverT0)
    (by rw [abs_of_nonneg (sub_nonneg.2 h1)]; exact h2.trans (hηδ.trans (min_le_right _ _)))
    c.solverT0 c.solverY c.solverState c.solverMadeJump
  rw [add_sub_cancel] at h3
  rw [hsolver]
  exact h3

end

/-! ### The solvers -/

/-- **C70.** `Heun`, `Midpoint` and `Ralston` converge with order 2. -/
theorem C70_order2 : Converges ![Heun.tableau] 2 0 ∧ Converges ![Midpoint.tableau] 2 0 ∧
    Converges ![Ralston.tableau] 2 0 :=
  ⟨C70_converges (s := 2) (c := Heun.tableau.abscissa) C61_heun (by decide +kernel) (le_refl _),
   C70_converges (s := 2) (c := Midpoint.tableau.abscissa) C61_midpoint (by decide +kernel) (le_refl _),
   C70_converges (s := 2) (c := Ralston.tableau.abscissa) C61_ralston (by decide +kernel) (le_refl _)⟩

/-- **C70.** `Bosh3` converges with order 3. -/
theorem C70_bosh3 : Converges ![Bosh3.tableau] 3 0 :=
  C70_converges (s := 4) (c := Bosh3.tableau.abscissa) C61_bosh3 (by decide +kernel) (le_refl _)

/-- **C70.** `Dopri5` converges with order 5. -/
theorem C70_dopri5 : Converges ![Dopri5.tableau] 5 0 :=
  C70_converges (s := 7) (c := Dopri5.tableau.abscissa) C61_dopri5 (by decide +kernel) (le_refl _)

/-- **C70.** `Tsit5` converges with order 5, up to the 82nd decimal. -/
theorem C70_tsit5 : Converges ![Tsit5.tableau] 5 (1 / 10 ^ 82) :=
  C70_converges (s := 7) (c := Tsit5.tableau.abscissa) C61_tsit5 (by decide +kernel) (by norm_num)

/-- **C70.** `Dopri8` converges with order 8, up to the 16th decimal. -/
theorem C70_dopri8 : Converges ![Dopri8.tableau] 8 (1 / 10 ^ 16) :=
  C70_converges (s := 14) (c := Dopri8.tableau.abscissa) C61_dopri8 (by decide +kernel) (by norm_num)

/-- **C70.** `Kvaerno3`, `Kvaerno4` and `Kvaerno5` converge with orders 3, 4 and 5. -/
theorem C70_kvaerno : Converges ![Kvaerno3.tableau] 3 0 ∧ Converges ![Kvaerno4.tableau] 4 0 ∧
    Converges ![Kvaerno5.tableau] 5 (1 / 10 ^ 16) :=
  ⟨C70_converges (s := 4) (c := Kvaerno3.tableau.abscissa) C61_kvaerno3 (by decide +kernel) (le_refl _),
   C70_converges (s := 5) (c := Kvaerno4.tableau.abscissa) C61_kvaerno4 (by decide +kernel) (le_refl _),
   C70_converges (s := 7) (c := Kvaerno5.tableau.abscissa) C61_kvaerno5 (by decide +kernel) (by norm_num)⟩

/-- **C70.** The implicit-explicit `KenCarp3`, `KenCarp4` and `KenCarp5` converge with orders 3, 4 and 5,
and `Sil3` with order 2. -/
theorem C70_imex : Converges ![KenCarp3.explicit, KenCarp3.implicit] 3 (1 / 10 ^ 25) ∧
    Converges ![KenCarp4.explicit, KenCarp4.implicit] 4 (1 / 10 ^ 25) ∧
    Converges ![KenCarp5.explicit, KenCarp5.implicit] 5 (4 / 10 ^ 12) ∧
    Converges ![Sil3.explicit, Sil3.implicit] 2 0 :=
  ⟨C70_converges (s := 4) (c := KenCarp3.explicit.abscissa) C61_kencarp3 (by decide +kernel) (by norm_num),
   C70_converges (s := 6) (c := KenCarp4.explicit.abscissa) C61_kencarp4 (by decide +kernel) (by norm_num),
   C70_converges (s := 8) (c := KenCarp5.explicit.abscissa) C61_kencarp5 (by decide +kernel) (by norm_num),
   C70_converges (s := 4) (c := Sil3.explicit.abscissa) C61_sil3 (by decide +kernel) (le_refl _)⟩

/-! ### `y' = y` -/

theorem linear_nice : NiceODE (![fun _ y => y] : Fin 1 → ℝ → ℝ → ℝ) 1 where
  analytic := fun p x _ => linear_analytic p x
  lipschitz := fun p t x x' => by fin_cases p; simp

theorem exp_solves_everywhere (t : ℝ) :
    HasDerivAt Real.exp (∑ p, (![fun _ y => y] : Fin 1 → ℝ → ℝ → ℝ) p t (Real.exp t)) t := by
  simpa using Real.hasDerivAt_exp t

/-- `n` steps of a method for `y' = y` on `[0, 1]`. -/
noncomputable def expCfg (tab : Fin 1 → Tableau ℚ) (n : ℕ) :
    Cfg ℝ ℝ (Option ℝ) (RK.Dense 1 ℝ) (RK.State 1 ℝ) (ConstState ℝ) ℝ ℝ where
  solver := { step := (odeRK tab ![fun _ y => y] .never (idealRoot ℝ) (idealRoot ℝ) ()).step,
              interp := fun _ _ _ t => t }
  controller := constantStepSize
  cleanErr := id
  events := []
  rootFinder := none
  dist := fun a b => a - b
  dummyDense := ((odeRK tab ![fun _ y => y] .never (idealRoot ℝ) (idealRoot ℝ) ()).step 0 0 0
    (odeRK tab ![fun _ y => y] .never (idealRoot ℝ) (idealRoot ℝ) ()).init false).dense
  t0 := 0
  t1 := 1
  floor := 1
  mid := fun a b => (a + b) / 2
  subs := []
  dense := false
  maxSteps := n

theorem expCfg_WF (tab : Fin 1 → Tableau ℚ) (n : ℕ) : (expCfg tab n).WF where
  le := by norm_num [expCfg]
  floor_le := by norm_num [expCfg]
  le_mid := by intro a h; simp only [expCfg] at *; linarith
  mid_le := by intro a h; simp only [expCfg] at *; linarith

/-- With `Dopri5` and `n` steps, Euler's number comes out with an error of at most a constant over `n^5`. -/
example : ∃ B : ℝ, ∀ n : ℕ, 0 < n → ∃ tnext ctrl,
    constInit id (0 : ℝ) (some 1) (some (1 / n)) = some (tnext, ctrl) ∧
    ‖(solve (expCfg ![Dopri5.tableau] n) (Real.exp 0) tnext ctrl
      (odeRK ![Dopri5.tableau] ![fun _ y => y] .never (idealRoot ℝ) (idealRoot ℝ) ()).init false).yfinal
      - Real.exp 1‖ ≤ B * (1 / n) ^ 5 := by
  obtain ⟨B, hB⟩ := C70_constant (s := 7) (c := Dopri5.tableau.abscissa) C61_dopri5 (by decide +kernel)
    (by decide +kernel) ![fun _ y => y] .never (idealRoot ℝ) (idealRoot ℝ) () 1 linear_nice Real.exp
    exp_solves_everywhere 0 1
  refine ⟨B, fun n hn => ?_⟩
  have hn' : (0 : ℝ) < n := by exact_mod_cast hn
  have hc : ⌈((1 : ℝ) - 0) / (1 / n)⌉ = (n : ℤ) := by
    have : ((1 : ℝ) - 0) / (1 / n) = n := by field_simp; ring
    rw [this]; exact Int.ceil_natCast n
  refine ⟨_, _, rfl, ?_⟩
  refine (hB ℝ ℝ (expCfg _ n) (expCfg_WF _ n) rfl rfl (by norm_num) rfl rfl rfl rfl (1 / n) (by positivity)
    _ _ false rfl ?_ ?_).2.2
  · rw [hc]
    have : (0 : ℝ) ≤ (1 - 0) / ((n : ℤ) : ℝ) := by rw [Int.cast_natCast, sub_zero]; positivity
    show (1 : ℝ) - _ ≤ 1
    linarith
  · rw [hc]; exact le_refl _

/-- One step of the implicit `Kvaerno3` from `0`: the hypotheses of `C70_ideal` are met for all small
steps. -/
example : ∃ δ B : ℝ, 0 < δ ∧ ∀ η, 0 < η → η ≤ δ → ∃ ctrl,
    ‖(solve (expCfg ![Kvaerno3.tableau] 1) (Real.exp 0) η ctrl
        (odeRK ![Kvaerno3.tableau] ![fun _ y => y] .never (idealRoot ℝ) (idealRoot ℝ) ()).init false).yfinal
      - Real.exp (solve (expCfg ![Kvaerno3.tableau] 1) (Real.exp 0) η ctrl
        (odeRK ![Kvaerno3.tableau] ![fun _ y => y] .never (idealRoot ℝ) (idealRoot ℝ) ()).init false).tfinal‖
      ≤ B * η ^ 3 := by
  obtain ⟨D, -, hD⟩ := elemBound_exists (![fun _ y => y] : Fin 1 → ℝ → ℝ → ℝ) Real.exp Real.continuous_exp
    linear_nice.analytic 0 1 3
  obtain ⟨κ, -, h⟩ := C70_ideal C70_kvaerno.1
  obtain ⟨δ, B, hδ, -, h⟩ := h ℝ ![fun _ y => y] .never 1 linear_nice Real.exp exp_solves_everywhere 0 1 D hD
  refine ⟨δ, Real.exp κ * B, hδ, fun η hη hηδ => ?_⟩
  refine ⟨{ completed := 1, numSteps := 2, t0 := 0, t1OrDt0 := 1 }, ?_⟩
  have hlog : ∀ c ∈ callLog (expCfg ![Kvaerno3.tableau] 1) (Real.exp 0) η
      { completed := 1, numSteps := 2, t0 := 0, t1OrDt0 := 1 }
      (odeRK ![Kvaerno3.tableau] ![fun _ y => y] .never (idealRoot ℝ) (idealRoot ℝ) ()).init false,
      c.solverT0 = 0 ∧ c.solverT1 = min η 1 := by
    intro c hc
    rw [log_eq_history] at hc
    obtain ⟨s, hs, rfl⟩ := List.mem_map.1 hc
    have hs' : s ∈ attempts (expCfg ![Kvaerno3.tableau] 1) 1 (initState (expCfg ![Kvaerno3.tableau] 1)
      (Real.exp 0) η { completed := 1, numSteps := 2, t0 := 0, t1OrDt0 := 1 }
      (odeRK ![Kvaerno3.tableau] ![fun _ y => y] .never (idealRoot ℝ) (idealRoot ℝ) ()).init false).core := hs
    simp only [attempts] at hs'
    split at hs'
    · rw [List.mem_singleton] at hs'
      subst hs'
      exact ⟨rfl, rfl⟩
    · simp at hs'
  have := h (ConstState ℝ) ℝ ℝ (expCfg ![Kvaerno3.tableau] 1) (expCfg_WF _ 1) rfl rfl rfl
    (fun a b y0 y1 e st => ⟨fun _ => rfl, fun h => by simp [expCfg, constantStepSize, constAdapt] at h⟩)
    (Real.exp 0) η { completed := 1, numSteps := 2, t0 := 0, t1OrDt0 := 1 } false η hη.le hηδ
    (fun c hc => by
      obtain ⟨e1, e2⟩ := hlog c hc
      rw [e1, e2]; exact le_min hη.le (by norm_num))
    (fun c hc _ => by
      obtain ⟨e1, e2⟩ := hlog c hc
      rw [e1, e2, sub_zero]; exact min_le_left _ _) rfl
  refine this.trans (le_of_eq ?_)
  rw [sub_self, norm_zero, abs_one]
  push_cast
  ring_nf

end Verif
