import Mathlib.Analysis.InnerProductSpace.PiL2
import Mathlib.Analysis.InnerProductSpace.Calculus
import Mathlib.Analysis.Calculus.Deriv.MeanValue
import Mathlib.Analysis.SpecialFunctions.ExpDeriv
import Mathlib.Algebra.Order.Chebyshev
import Verif.Model.SteadyState
import Verif.Spec.SteadyState
import Verif.Props.EventPrefix
import Verif.Lemmas.AcceptedInv
import Verif.Props.EventConvergence

/-!
# C88: stopping at a steady state
-/

set_option linter.unusedSectionVars false
set_option maxRecDepth 100000

namespace Verif
open Finset Filter Topology Tab

/-! ### Boolean conditions -/

section
variable {T Y Er D S C O F : Type} [LinearOrder T] [LinearOrder F] [Zero F]

/-- If the event of a boolean condition is reported, it holds for the final time and value. -/
theorem bool_event_reported (cfg : Cfg T Y Er D S C O F) (hown : cfg.OwnCodes) (cond : T → Y → Bool)
    (hev : cfg.events = [.bool cond]) (hroot : cfg.rootFinder = none) (y0 : Y) (tnext : T) (ctrl : C) (ss : S)
    (mj : Bool) (hocc : (solve cfg y0 tnext ctrl ss mj).result = .eventOccurred) :
    cond (solve cfg y0 tnext ctrl ss mj).tfinal (solve cfg y0 tnext ctrl ss mj).yfinal = true := by
  obtain ⟨-, -, r15⟩ := C15_stops_at_first_trigger cfg hown y0 tnext ctrl ss mj
  have hlast := r15 hocc
  have htf : (solve cfg y0 tnext ctrl ss mj).tfinal = (finalise cfg (solve cfg y0 tnext ctrl ss mj).core).1 := rfl
  have hyf : (solve cfg y0 tnext ctrl ss mj).yfinal = (finalise cfg (solve cfg y0 tnext ctrl ss mj).core).2.1 := rfl
  rw [htf, hyf, finalise_no_root cfg _ hroot, solve_core, coreRun_eq_last]
  cases hl : (history cfg y0 tnext ctrl ss mj).getLast? with
  | none =>
    rw [hl] at hlast
    obtain ⟨ev, hmem, hi⟩ := hlast
    rw [hev, List.mem_singleton] at hmem
    subst hmem
    unfold history at hl
    rw [hl]
    exact hi
  | some s =>
    rw [hl] at hlast
    obtain ⟨ev, hmem, hx⟩ := hlast
    rw [hev, List.mem_singleton] at hmem
    subst hmem
    unfold history at hl
    rw [hl]
    exact hx

end

section
variable {E Er D S C O F : Type} [NormedAddCommGroup E] [NormedSpace ℝ E] [LinearOrder F] [Zero F]

/-- **C88, any one-step method.** States have errors of at most `e`. -/
theorem bool_event_stops (cfg : Cfg ℝ E Er D S C O F) (hwf : cfg.WF) (hown : cfg.OwnCodes)
    (hst : cfg.controller.stepTo = none) (hctrl : cfg.controller.Exact)
    (y : ℝ → E) (y0 : E) (tnext : ℝ) (ctrl : C) (ss : S) (mj : Bool) (e η : ℝ) (hη : 0 ≤ η)
    (H : ∀ s ∈ history cfg y0 tnext ctrl ss mj, ‖s.y - y s.tprev‖ ≤ e ∧
      (accepted cfg s = true → s.tnext - s.tprev ≤ η))
    (Hf : ‖(solve cfg y0 tnext ctrl ss mj).core.y - y (solve cfg y0 tnext ctrl ss mj).core.tprev‖ ≤ e)
    (cond : ℝ → E → Bool) (hev : cfg.events = [.bool cond]) (hroot : cfg.rootFinder = none)
    (τ : ℝ) (ha : cfg.t0 < τ) (hb : τ + η ≤ cfg.t1)
    (hon : ∀ t ∈ Set.Icc τ (τ + η), ∀ x, ‖x - y t‖ ≤ e → cond t x = true) :
    (solve cfg y0 tnext ctrl ss mj).result ≠ .successful ∧
    ((solve cfg y0 tnext ctrl ss mj).result = .eventOccurred → (solve cfg y0 tnext ctrl ss mj).tfinal ≤ τ + η) := by
  have gnext : ∀ s ∈ history cfg y0 tnext ctrl ss mj, ‖nextY cfg s - y (nextT cfg s)‖ ≤ e := by
    intro s hs
    rcases attempts_next cfg cfg.maxSteps _ s hs with h | h
    · exact (H _ h).1
    · have h1 : nextY cfg s = (coreBody cfg s).1.y := rfl
      have h2 : nextT cfg s = (coreBody cfg s).1.tprev := rfl
      rw [h1, h2, h, ← solve_core]
      exact Hf
  have hstep : ∀ s ∈ history cfg y0 tnext ctrl ss mj, nextT cfg s ≤ s.tprev + η := by
    intro s hs
    have hex := hctrl s.tprev s.tnext s.y (solverOut cfg s).y (cfg.cleanErr (solverOut cfg s).err) s.ctrlState
    have e1 : nextT cfg s = min (adaptOut cfg s).tprev cfg.t1 := rfl
    rw [e1]
    refine (min_le_left _ _).trans ?_
    cases hk : accepted cfg s with
    | true =>
      have : (adaptOut cfg s).tprev = s.tnext := hex.1 hk
      rw [this]; linarith [(H s hs).2 hk]
    | false =>
      have : (adaptOut cfg s).tprev = s.tprev := hex.2 hk
      rw [this]; linarith
  obtain ⟨t15, -, r15⟩ := C15_stops_at_first_trigger cfg hown y0 tnext ctrl ss mj
  have inv := run_inv cfg (fun s => s.result.isSuccessful = true → s.tprev < τ) cfg.maxSteps
    (initState cfg y0 tnext ctrl ss mj).core (fun _ => ha) (by
      intro s hs hcond hP hres
      have hP1 : s.tprev < τ := hP (condFun_succ cfg s hcond)
      by_contra hge
      have hx : cond (nextT cfg s) (nextY cfg s) = true :=
        hon (nextT cfg s) ⟨not_lt.1 hge, by linarith [hstep s hs]⟩ _ (gnext s hs)
      have h1 := (t15 s hs 0 (.bool cond) (by rw [hev]; rfl)).2 hx
      have h2 : (triggered cfg s).any id = true :=
        List.any_eq_true.2 ⟨true, List.mem_of_getElem? h1, rfl⟩
      rw [coreBody_result cfg s (condFun_succ cfg s hcond), h2, if_pos rfl] at hres
      exact absurd hres (by simp [Result.isSuccessful]))
  have hresult : (solve cfg y0 tnext ctrl ss mj).result
      = if condFun cfg (solve cfg y0 tnext ctrl ss mj).core then .maxStepsReached
        else (finalise cfg (solve cfg y0 tnext ctrl ss mj).core).2.2 := rfl
  have htf : (solve cfg y0 tnext ctrl ss mj).tfinal = (finalise cfg (solve cfg y0 tnext ctrl ss mj).core).1 := rfl
  refine ⟨?_, ?_⟩
  · intro hsucc
    have h1 := ((C03_result_classification cfg hwf hown hst y0 tnext ctrl ss mj).1 hsucc).2
    have hcond : condFun cfg (solve cfg y0 tnext ctrl ss mj).core = false := by
      unfold condFun; rw [hst, h1]; simp
    rw [hresult, hcond, if_neg (by simp), finalise_no_root cfg _ hroot] at hsucc
    dsimp only at hsucc
    rw [solve_core] at h1 hsucc
    have := inv.2 (by rw [hsucc]; rfl)
    rw [h1] at this
    linarith
  · intro hocc
    have hlast := r15 hocc
    rw [htf, finalise_no_root cfg _ hroot, solve_core, coreRun_eq_last]
    cases hl : (history cfg y0 tnext ctrl ss mj).getLast? with
    | none =>
      unfold history at hl
      rw [hl]
      show cfg.t0 ≤ τ + η
      linarith
    | some s =>
      have hs : s ∈ history cfg y0 tnext ctrl ss mj := List.mem_of_getLast? hl
      have hcond := attempts_cond _ _ _ _ hs
      have hP := inv.1 s hs (condFun_succ cfg s hcond)
      unfold history at hl
      rw [hl]
      show nextT cfg s ≤ τ + η
      linarith [hstep s hs]

end

section
variable {m : ℕ} {tab : Fin m → Tableau ℚ} {N : ℕ} {ε : ℚ}

/-- **C88, boolean conditions.** -/
theorem C88_not_missed (hconv : Converges tab N ε) : BoolEventStops tab N ε := by
  obtain ⟨κ, hκ, hconv⟩ := hconv
  refine ⟨κ, hκ, ?_⟩
  intro E J _ _ _ _ f cj rF rK nj hroot L hf y hy a b D hD
  obtain ⟨δ, B, hδ, hB, hconv⟩ := hconv E J f cj rF rK nj hroot L hf y hy a b D hD
  refine ⟨δ, B, hδ, hB, ?_⟩
  intro C O F _ _ cfg hwf ha hb hstep hown hctrl hst y0 tnext ctrl mj η hη hηδ hfor hall cond hev hrf e he τ₀ τ haτ hbτ
    hoff hon
  obtain ⟨g1, g2⟩ := hconv C O F cfg hwf ha hb hstep hctrl y0 tnext ctrl mj η hη hηδ hfor hall
  replace g2 := g2 hrf
  rw [← he] at g2
  have htf : (solve cfg y0 tnext ctrl (odeRK tab f cj rF rK nj).init mj).tfinal
      = (finalise cfg (solve cfg y0 tnext ctrl (odeRK tab f cj rF rK nj).init mj).core).1 := rfl
  have hyf : (solve cfg y0 tnext ctrl (odeRK tab f cj rF rK nj).init mj).yfinal
      = (finalise cfg (solve cfg y0 tnext ctrl (odeRK tab f cj rF rK nj).init mj).core).2.1 := rfl
  rw [finalise_no_root cfg _ hrf] at htf hyf
  obtain ⟨-, k2, -⟩ := accepted_inv cfg hwf (fun _ _ _ _ => True) (fun _ _ => True) (by intros; trivial) hctrl y0
    tnext ctrl (odeRK tab f cj rF rK nj).init mj trivial hfor (by intros; trivial)
  rw [log_eq_history] at hall g1
  obtain ⟨r1, r2⟩ := bool_event_stops cfg hwf hown hst hctrl y y0 tnext ctrl (odeRK tab f cj rF rK nj).init mj e η hη
    (fun s hs => ⟨by
        have := g1 _ (List.mem_map_of_mem hs)
        rw [← he] at this
        exact this, fun hk => (hall _ (List.mem_map_of_mem hs) hk).2⟩)
    (by rw [htf, hyf] at g2; exact g2) cond hev hrf τ (by rw [ha]; exact haτ) (by rw [hb]; exact hbτ) hon
  refine ⟨r1, fun hocc => ?_⟩
  have hc := bool_event_reported cfg hown cond hev hrf y0 tnext ctrl _ mj hocc
  refine ⟨?_, r2 hocc, hc, g2⟩
  by_contra hlt
  have := hoff _ (by rw [htf, ← ha]; exact k2.1) (not_le.1 hlt) _ g2
  rw [this] at hc
  simp at hc

end

/-! ### The condition -/

section
variable {T Y V : Type}

/-- **C88, defaults.** What is not given comes from the controller, if it is adaptive. Otherwise, if anything is
missing, there is an error. Else the condition is `norm(f) < atol + rtol * norm(y)`. -/
theorem C88_condition (a : SteadyArgs ℝ) (ctrl : Option (AdaptiveTols ℝ)) (func : T → Y → V) (lv : V → List ℝ)
    (ly : Y → List ℝ) :
    (steadyStateEvent a ctrl func lv ly = none ↔
      ctrl = none ∧ (a.rtol = none ∨ a.atol = none ∨ a.norm = none)) ∧
    ∀ cond, steadyStateEvent a ctrl func lv ly = some cond → ∃ rtol atol norm,
      (a.rtol = some rtol ∨ a.rtol = none ∧ ∃ c, ctrl = some c ∧ c.rtol = rtol) ∧
      (a.atol = some atol ∨ a.atol = none ∧ ∃ c, ctrl = some c ∧ c.atol = atol) ∧
      (a.norm = some norm ∨ a.norm = none ∧ ∃ c, ctrl = some c ∧ c.norm = norm) ∧
      ∀ t y, cond t y = true ↔ norm (lv (func t y)) < atol + rtol * norm (ly y) := by
  rcases a with ⟨_ | r, _ | s, _ | n⟩ <;> rcases ctrl with _ | ⟨cr, ca, cn⟩ <;>
    simp [steadyStateEvent, steadyDefault]

end

/-! ### Accuracy -/

section
variable {E : Type} [NormedAddCommGroup E] [InnerProductSpace ℝ E]

theorem Attracting.dist_le {f : ℝ → E → E} {z : E} {μ : ℝ} (h : Attracting f z μ) (t : ℝ) (x : E) :
    μ * ‖x - z‖ ≤ ‖f t x‖ := by
  rcases eq_or_lt_of_le (norm_nonneg (x - z)) with h0 | h0
  · rw [← h0, mul_zero]; exact norm_nonneg _
  · have h1 := h.inward t x
    have h2 := abs_le.1 (abs_real_inner_le_norm (f t x) (x - z))
    have h3 : (μ * ‖x - z‖) * ‖x - z‖ ≤ ‖f t x‖ * ‖x - z‖ := by nlinarith [h2.1]
    exact le_of_mul_le_mul_right h3 h0

theorem Attracting.decay {f : ℝ → E → E} {z : E} {μ : ℝ} (h : Attracting f z μ) {y : ℝ → E}
    (hy : ∀ t, HasDerivAt y (f t (y t)) t) {a t : ℝ} (hat : a ≤ t) :
    ‖y t - z‖ ≤ Real.exp (-(μ * (t - a))) * ‖y a - z‖ := by
  have hd : ∀ s, HasDerivAt (fun s => Real.exp (2 * μ * (s - a)) * ‖y s - z‖ ^ 2)
      (Real.exp (2 * μ * (s - a)) * (2 * μ) * ‖y s - z‖ ^ 2
        + Real.exp (2 * μ * (s - a)) * (2 * inner ℝ (y s - z) (f s (y s)))) s := by
    intro s
    have h1 : HasDerivAt (fun s => Real.exp (2 * μ * (s - a))) (Real.exp (2 * μ * (s - a)) * (2 * μ)) s := by
      have : HasDerivAt (fun s => 2 * μ * (s - a)) (2 * μ) s := by
        simpa using ((hasDerivAt_id s).sub_const a).const_mul (2 * μ)
      exact this.exp
    exact h1.mul ((hy s).sub_const z).norm_sq
  have hanti : Antitone (fun s => Real.exp (2 * μ * (s - a)) * ‖y s - z‖ ^ 2) := by
    refine antitone_of_deriv_nonpos (fun s => (hd s).differentiableAt) (fun s => ?_)
    rw [(hd s).deriv]
    have h1 := h.inward s (y s)
    rw [real_inner_comm] at h1
    have h2 := Real.exp_pos (2 * μ * (s - a))
    have : Real.exp (2 * μ * (s - a)) * (2 * μ) * ‖y s - z‖ ^ 2
        + Real.exp (2 * μ * (s - a)) * (2 * inner ℝ (y s - z) (f s (y s)))
        = Real.exp (2 * μ * (s - a)) * (2 * (μ * ‖y s - z‖ ^ 2 + inner ℝ (y s - z) (f s (y s)))) := by ring
    rw [this]
    exact mul_nonpos_of_nonneg_of_nonpos h2.le (by linarith)
  have h1 := hanti hat
  simp only [sub_self, mul_zero, Real.exp_zero, one_mul] at h1
  have h2 : (Real.exp (μ * (t - a)) * ‖y t - z‖) ^ 2 ≤ ‖y a - z‖ ^ 2 := by
    rw [mul_pow, ← Real.exp_nat_mul, show ((2 : ℕ) : ℝ) * (μ * (t - a)) = 2 * μ * (t - a) by push_cast; ring]
    exact h1
  have h3 := (pow_le_pow_iff_left₀ (by positivity) (norm_nonneg _) two_ne_zero).1 h2
  rw [Real.exp_neg, ← div_eq_inv_mul, le_div_iff₀ (Real.exp_pos _), mul_comm]
  exact h3

/-- **C88, accuracy.** For an equation with an attracting steady state and a norm that is a multiple of that of the
space: when a solve reports the event, then the final value is within `(atol / c + rtol * ‖y‖) / μ` of the steady
state. This is for any solver and step size controller. -/
theorem C88_accurate {Er D S C O F : Type} [LinearOrder F] [Zero F] (cfg : Cfg ℝ E Er D S C O F)
    (hown : cfg.OwnCodes) (a : SteadyArgs ℝ) (ctrl' : Option (AdaptiveTols ℝ)) (f : ℝ → E → E)
    (leaves : E → List ℝ) (cond : ℝ → E → Bool) (hc : steadyStateEvent a ctrl' (odeFunc f) leaves leaves = some cond)
    (hev : cfg.events = [.bool cond]) (hroot : cfg.rootFinder = none)
    (rtol atol c : ℝ) (norm : List ℝ → ℝ) (hrtol : a.rtol = some rtol) (hatol : a.atol = some atol)
    (hnorm : a.norm = some norm) (hpos : 0 < c) (hscale : ∀ x, norm (leaves x) = c * ‖x‖)
    (z : E) (μ : ℝ) (hz : Attracting f z μ) (y0 : E) (tnext : ℝ) (ctrl : C) (ss : S) (mj : Bool)
    (hocc : (solve cfg y0 tnext ctrl ss mj).result = .eventOccurred) :
    ‖(solve cfg y0 tnext ctrl ss mj).yfinal - z‖
      < (atol / c + rtol * ‖(solve cfg y0 tnext ctrl ss mj).yfinal‖) / μ := by
  have h1 := bool_event_reported cfg hown cond hev hroot y0 tnext ctrl ss mj hocc
  obtain ⟨r, s, n, e1, e2, e3, h2⟩ := (C88_condition a ctrl' (odeFunc f) leaves leaves).2 cond hc
  rw [hrtol] at e1
  rw [hatol] at e2
  rw [hnorm] at e3
  simp only [Option.some.injEq, reduceCtorEq, false_and, or_false] at e1 e2 e3
  subst e1 e2 e3
  have h3 := (h2 _ _).1 h1
  rw [hscale, hscale] at h3
  have h4 := hz.dist_le (solve cfg y0 tnext ctrl ss mj).tfinal (solve cfg y0 tnext ctrl ss mj).yfinal
  rw [lt_div_iff₀ hz.pos]
  have h5 : c * (μ * ‖(solve cfg y0 tnext ctrl ss mj).yfinal - z‖)
      < c * (atol / c + rtol * ‖(solve cfg y0 tnext ctrl ss mj).yfinal‖) := by
    rw [mul_add, mul_div_cancel₀ _ hpos.ne']
    have := mul_le_mul_of_nonneg_left h4 hpos.le
    have h6 : odeFunc f (solve cfg y0 tnext ctrl ss mj).tfinal (solve cfg y0 tnext ctrl ss mj).yfinal
      = f (solve cfg y0 tnext ctrl ss mj).tfinal (solve cfg y0 tnext ctrl ss mj).yfinal := rfl
    rw [h6] at h3
    linarith [mul_left_comm c rtol ‖(solve cfg y0 tnext ctrl ss mj).yfinal‖]
  have := lt_of_mul_lt_mul_left h5 hpos.le
  linarith [mul_comm μ ‖(solve cfg y0 tnext ctrl ss mj).yfinal - z‖]


/-! ### The event is reported -/

/-- **C88, the steady state is found.** An equation with an attracting steady state, `ConstantStepSize`, and an
explicit method, started on the solution. There is a time `T` such that, for every `t1 > T` and small enough steps,
the event is reported at a time of at most `T + dt0`. -/
theorem C88_found_partial [CompleteSpace E] [Module ℚ E] {J : Type} {tab : Fin 1 → Tableau ℚ} {N : ℕ}
    (hconv : Converges tab N 0) (hN : 1 ≤ N) (hex : ∀ p, (tab p).implicit = false)
    (f : ℝ → E → E) (cj : CalcJac) (rF rK : RootFinder E J) (nj : J)
    (L : ℝ) (hf : NiceODE (fun _ : Fin 1 => f) L) (y : ℝ → E) (hy : ∀ t, HasDerivAt y (f t (y t)) t)
    (z : E) (μ : ℝ) (hz : Attracting f z μ)
    (args : SteadyArgs ℝ) (leaves : E → List ℝ) (cond : ℝ → E → Bool)
    (hc : steadyStateEvent args none (odeFunc f) leaves leaves = some cond)
    (rtol atol c : ℝ) (norm : List ℝ → ℝ) (hrtol : args.rtol = some rtol) (hatol : args.atol = some atol)
    (hnorm : args.norm = some norm) (hr0 : 0 ≤ rtol) (ha0 : 0 < atol)
    (hpos : 0 < c) (hscale : ∀ x, norm (leaves x) = c * ‖x‖) (a : ℝ) :
    ∃ T, a < T ∧ ∀ b, T < b → ∃ δ : ℝ, 0 < δ ∧ ∀ (O F : Type) [LinearOrder F] [Zero F]
      (cfg : Cfg ℝ E (Option E) (RK.Dense 1 E) (RK.State 1 E) (ConstState ℝ) O F) (_ : cfg.WF) (_ : cfg.OwnCodes)
      (_ : cfg.t0 = a) (_ : cfg.t1 = b)
      (_ : cfg.solver.step = (odeRK tab (fun _ => f) cj rF rK nj).step)
      (_ : cfg.controller = constantStepSize)
      (_ : cfg.events = [.bool cond]) (_ : cfg.rootFinder = none)
      (dt0 : ℝ) (_ : 0 < dt0) (_ : dt0 ≤ δ) (tnext : ℝ) (ctrl : ConstState ℝ) (mj : Bool)
      (_ : constInit id a (some b) (some dt0) = some (tnext, ctrl))
      (_ : b - (b - a) / (⌈(b - a) / dt0⌉ : Int) ≤ cfg.floor)
      (_ : ⌈(b - a) / dt0⌉ ≤ cfg.maxSteps),
      let out := solve cfg (y a) tnext ctrl (odeRK tab (fun _ => f) cj rF rK nj).init mj
      out.result = .eventOccurred ∧ out.tfinal ≤ T + dt0 ∧
      ‖out.yfinal - z‖ < (atol / c + rtol * ‖out.yfinal‖) / μ := by
  have hy' : ∀ t, HasDerivAt y (∑ p : Fin 1, (fun _ : Fin 1 => f) p t (y t)) t := by
    intro t; simpa using hy t
  -- when the condition holds
  set ε₀ := atol / (4 * c * (|L| + 1)) with hε₀
  have hL : 0 ≤ |L| := abs_nonneg L
  have hε₀0 : 0 < ε₀ := by rw [hε₀]; positivity
  obtain ⟨r, s, n, e1, e2, e3, hcond⟩ := (C88_condition args none (odeFunc f) leaves leaves).2 cond hc
  rw [hrtol] at e1
  rw [hatol] at e2
  rw [hnorm] at e3
  simp only [Option.some.injEq, reduceCtorEq, false_and, or_false, exists_false, and_false] at e1 e2 e3
  subst e1 e2 e3
  have hholds : ∀ t x, ‖x - z‖ ≤ 2 * ε₀ → cond t x = true := by
    intro t x hx
    rw [hcond, hscale, hscale]
    have h1 : ‖f t x‖ ≤ |L| * ‖x - z‖ := by
      have := hf.lipschitz 0 t x z
      rw [hz.steady t, sub_zero] at this
      exact this.trans (mul_le_mul_of_nonneg_right (le_abs_self L) (norm_nonneg _))
    have h2 : c * ‖f t x‖ ≤ atol / 2 := by
      calc c * ‖f t x‖ ≤ c * (|L| * (2 * ε₀)) := by gcongr; exact h1.trans (by gcongr)
        _ ≤ c * ((|L| + 1) * (2 * ε₀)) := by gcongr; linarith
        _ = atol / 2 := by rw [hε₀]; field_simp; ring
    have h3 : 0 ≤ rtol * (c * ‖x‖) := by positivity
    show c * ‖f t x‖ < _
    linarith
  -- the time
  set R := ‖y a - z‖ with hR
  have hR0 : 0 ≤ R := norm_nonneg _
  have hμ := hz.pos
  refine ⟨a + 1 + R / (μ * ε₀), by have : 0 ≤ R / (μ * ε₀) := by positivity
                                   linarith, ?_⟩
  set T := a + 1 + R / (μ * ε₀) with hT
  have hTa : a < T := by
    have : 0 ≤ R / (μ * ε₀) := by positivity
    linarith
  have hnear : ∀ t, T ≤ t → ‖y t - z‖ ≤ ε₀ := by
    intro t ht
    refine (hz.decay hy (a := a) (by linarith)).trans ?_
    rw [Real.exp_neg, ← div_eq_inv_mul, div_le_iff₀ (Real.exp_pos _)]
    have h1 := Real.add_one_le_exp (μ * (t - a))
    have h2 : R / (μ * ε₀) ≤ t - a := by linarith
    rw [div_le_iff₀ (by positivity)] at h2
    have h3 : ε₀ * (μ * (t - a) + 1) ≤ ε₀ * Real.exp (μ * (t - a)) := mul_le_mul_of_nonneg_left h1 hε₀0.le
    nlinarith
  intro b hTb
  obtain ⟨κ, -, hstop⟩ := C88_not_missed hconv
  obtain ⟨D, -, hD⟩ := elemBound_exists (fun _ : Fin 1 => f) y
    (continuous_iff_continuousAt.2 fun t => (hy t).continuousAt) hf.analytic a b N
  obtain ⟨δ, B, hδ, hB, hall⟩ := hstop E J (fun _ : Fin 1 => f) cj rF rK nj
    (fun ⟨p, hp⟩ => by rw [hex p] at hp; simp at hp) L hf y hy' a b D hD
  have hba : 0 ≤ b - a := by linarith
  set B' := Real.exp (κ * |L| * (b - a)) * ((b - a) * B) with hB'
  have hB0 : 0 ≤ B' := by rw [hB']; positivity
  refine ⟨min δ (min 1 (min (b - T) (ε₀ / (B' + 1)))), lt_min hδ (lt_min one_pos (lt_min (by linarith)
    (by positivity))), ?_⟩
  intro O F _ _ cfg hwf hown hcfa hcfb hstep hctrl hev hroot dt0 hdt hdδ tnext ctrl mj hinit hfl hmax
  have hd1 : dt0 ≤ δ := hdδ.trans (min_le_left _ _)
  have hd2 : dt0 ≤ 1 := hdδ.trans ((min_le_right _ _).trans (min_le_left _ _))
  have hd3 : dt0 ≤ b - T := hdδ.trans ((min_le_right _ _).trans ((min_le_right _ _).trans (min_le_left _ _)))
  have hd4 : dt0 ≤ ε₀ / (B' + 1) :=
    hdδ.trans ((min_le_right _ _).trans ((min_le_right _ _).trans (min_le_right _ _)))
  rw [le_div_iff₀ (by linarith)] at hd4
  obtain ⟨k, p, hk, hlog, hp0, hpn, hlt, hle, -, -, -, htf, hres, -, -, -⟩ :=
    C22_constant_steps (noEvents cfg) id dt0 (y cfg.t0) (odeRK tab (fun _ => f) cj rF rK nj).init mj tnext ctrl
      (by rw [← hcfa, ← hcfb] at hinit; exact hinit)
      (show cfg.t0 < cfg.t1 by rw [hcfa, hcfb]; linarith) hdt (le_refl _) (fun h => h) hctrl rfl
      (fun a b y s j => by
        show (cfg.solver.step a b y s j).result = _
        rw [hstep, C41_explicit_succeeds _ hex]) hwf.floor_le
      (by rw [← hcfa, ← hcfb] at hfl; exact hfl) (by rw [← hcfa, ← hcfb] at hmax; exact hmax)
  rw [hcfa] at hlog hres
  have hmem : ∀ c ∈ callLog cfg (y a) tnext ctrl (odeRK tab (fun _ => f) cj rF rK nj).init mj,
      ∃ j < k, c.solverT0 = p j ∧ c.solverT1 = p (j + 1) := by
    intro c hc
    have h1 : (c.solverT0, c.solverT1) ∈ (List.range k).map (fun j => (p j, p (j + 1))) := by
      rw [← hlog]
      exact List.mem_map_of_mem ((C84_same_steps cfg _ _ _ _ _).subset hc)
    obtain ⟨j, hj, he⟩ := List.mem_map.1 h1
    have he' := Prod.mk.inj he
    exact ⟨j, List.mem_range.1 hj, he'.1.symm, he'.2.symm⟩
  have hexact : cfg.controller.Exact := by
    rw [hctrl]
    intro a b y0 y1 e st
    exact ⟨fun _ => rfl, fun h => by simp [constantStepSize, constAdapt] at h⟩
  have hst : cfg.controller.stepTo = none := by rw [hctrl]; rfl
  obtain ⟨e, he⟩ : ∃ e, e = Real.exp (κ * |L| * (b - a)) * (‖y a - y a‖ + (b - a)
      * (B * dt0 ^ N + ((0 : ℚ) : ℝ) * D)) := ⟨_, rfl⟩
  have hee : e ≤ ε₀ := by
    have h2 : dt0 ^ N ≤ dt0 := by
      have : dt0 ^ N ≤ dt0 ^ 1 := pow_le_pow_of_le_one hdt.le hd2 hN
      simpa using this
    rw [he, sub_self, norm_zero, Rat.cast_zero]
    calc _ = B' * dt0 ^ N := by rw [hB']; ring
      _ ≤ B' * dt0 := by gcongr
      _ ≤ dt0 * (B' + 1) := by linarith [mul_comm B' dt0]
      _ ≤ ε₀ := hd4
  obtain ⟨r1, r2⟩ := hall _ O F cfg hwf hcfa hcfb hstep hown hexact hst (y a) tnext ctrl mj dt0 hdt.le hd1
    (fun c hc => by
      obtain ⟨j, hj, e1, e2⟩ := hmem c hc
      rw [e1, e2]; exact (hlt j hj).le)
    (fun c hc _ => by
      refine ⟨by rw [hstep, C41_explicit_succeeds _ hex]; rfl, ?_⟩
      obtain ⟨j, hj, e1, e2⟩ := hmem c hc
      rw [e1, e2]
      have := hle j hj
      simpa using this) cond hev hroot e he a T hTa (by linarith)
    (fun t h1 h2 => absurd h2 (not_lt.2 h1))
    (fun t ht x hx => hholds t x (by
      have := norm_sub_le_norm_sub_add_norm_sub x (y t) z
      linarith [hnear t ht.1]))
  have hocc : (solve cfg (y a) tnext ctrl (odeRK tab (fun _ => f) cj rF rK nj).init mj).core.result
      = .eventOccurred := by
    rw [(core_result_classification cfg hown _ _ _ _ _).2]
    by_contra hno
    apply r1
    rw [(C84_no_event cfg _ _ _ _ _ ?_).2.2.1]
    · exact hres
    · intro b hb
      by_contra hb'
      exact hno (List.any_eq_true.2 ⟨b, hb, by simpa using hb'⟩)
  have hr1 : (solve cfg (y a) tnext ctrl (odeRK tab (fun _ => f) cj rF rK nj).init mj).result = .eventOccurred := by
    have hcf : condFun cfg (solve cfg (y a) tnext ctrl (odeRK tab (fun _ => f) cj rF rK nj).init mj).core = false := by
      unfold condFun; rw [hocc]; simp [Result.isSuccessful]
    show (if condFun cfg (solve cfg (y a) tnext ctrl (odeRK tab (fun _ => f) cj rF rK nj).init mj).core then _
      else (finalise cfg _).2.2) = _
    rw [hcf, finalise_no_root cfg _ hroot]
    exact hocc
  exact ⟨hr1, (r2 hr1).2.1, C88_accurate cfg hown args none f leaves cond hc hev hroot rtol atol c norm hrtol hatol
    hnorm hpos hscale z μ hz (y a) tnext ctrl _ mj hr1⟩

end

/-! ### The default norm -/

theorem sum_map_ofFn {n : ℕ} (x : Fin n → ℝ) :
    ((List.ofFn x).map fun a => a ^ 2).sum = ∑ i, x i ^ 2 := by
  rw [List.map_ofFn, List.sum_ofFn]
  rfl

/-- `optx.rms_norm` of an array is its Euclidean norm, divided by the square root of its size. -/
theorem C88_rms {n : ℕ} (hn : 0 < n) (x : EuclideanSpace ℝ (Fin n)) :
    rmsNormList (List.ofFn fun i => x i) = (1 / Real.sqrt n) * ‖x‖ := by
  have h0 : List.ofFn (fun i => x i) ≠ [] := by
    intro h
    have := congrArg List.length h
    simp at this
    omega
  rw [rmsNormList, if_neg h0, sum_map_ofFn, List.length_ofFn, Real.sqrt_div' _ (by positivity),
    EuclideanSpace.norm_eq]
  simp only [Real.norm_eq_abs, sq_abs]
  ring

/-! ### Several terms -/

theorem rms_tuple {m n : ℕ} (hm : 0 < m) (hn : 0 < n) (v : Fin m → EuclideanSpace ℝ (Fin n)) :
    rmsNormList (tupleLeaves (fun x : EuclideanSpace ℝ (Fin n) => List.ofFn fun i => x i) v)
      = Real.sqrt ((∑ p, ‖v p‖ ^ 2) / (m * n)) := by
  have hlen : (tupleLeaves (fun x : EuclideanSpace ℝ (Fin n) => List.ofFn fun i => x i) v).length = m * n := by
    simp [tupleLeaves, List.length_flatten, List.map_ofFn, Function.comp_def, List.sum_ofFn]
  have h0 : tupleLeaves (fun x : EuclideanSpace ℝ (Fin n) => List.ofFn fun i => x i) v ≠ [] := by
    intro h
    rw [h] at hlen
    have : 0 < m * n := Nat.mul_pos hm hn
    simp at hlen
    omega
  have hsum : ((tupleLeaves (fun x : EuclideanSpace ℝ (Fin n) => List.ofFn fun i => x i) v).map
      fun a => a ^ 2).sum = ∑ p, ‖v p‖ ^ 2 := by
    rw [tupleLeaves, List.map_flatten, List.sum_flatten, List.map_map, List.map_ofFn, List.sum_ofFn]
    refine Finset.sum_congr rfl fun p _ => ?_
    rw [EuclideanSpace.real_norm_sq_eq]
    exact sum_map_ofFn _
  rw [rmsNormList, if_neg h0, hsum, hlen]
  push_cast
  rfl

theorem norm_sum_le_rms {G : Type} [SeminormedAddCommGroup G] {m n : ℕ} (hm : 0 < m) (hn : 0 < n) (v : Fin m → G) :
    ‖∑ p, v p‖ ≤ m * Real.sqrt n * Real.sqrt ((∑ p, ‖v p‖ ^ 2) / (m * n)) := by
  have hm' : (0 : ℝ) < m := by exact_mod_cast hm
  have hn' : (0 : ℝ) < n := by exact_mod_cast hn
  have h7 : (∑ p, ‖v p‖) ^ 2 ≤ m * ∑ p, ‖v p‖ ^ 2 := by
    have := sq_sum_le_card_mul_sum_sq (s := (Finset.univ : Finset (Fin m))) (f := fun p => ‖v p‖)
    simpa using this
  have h0 : 0 ≤ ∑ p, ‖v p‖ ^ 2 := Finset.sum_nonneg fun p _ => sq_nonneg _
  refine (norm_sum_le _ _).trans ?_
  generalize ∑ p, ‖v p‖ ^ 2 = Q at h7 h0 ⊢
  refine abs_le_of_sq_le_sq' ?_ (by positivity) |>.2
  rw [mul_pow, mul_pow, Real.sq_sqrt hn'.le, Real.sq_sqrt (by positivity)]
  refine h7.trans (le_of_eq ?_)
  field_simp

/-- **C88, several terms: accuracy.** With an implicit-explicit method the bound gets worse by the number of
terms. -/
theorem C88_imex_accurate {m n : ℕ} (hm : 0 < m) (hn : 0 < n) {Er D S C O F : Type} [LinearOrder F] [Zero F]
    (cfg : Cfg ℝ (EuclideanSpace ℝ (Fin n)) Er D S C O F) (hown : cfg.OwnCodes) (rtol atol : ℝ)
    (ctrl' : Option (AdaptiveTols ℝ)) (f : Fin m → ℝ → EuclideanSpace ℝ (Fin n) → EuclideanSpace ℝ (Fin n))
    (cond : ℝ → EuclideanSpace ℝ (Fin n) → Bool)
    (hc : steadyStateEvent ⟨some rtol, some atol, some rmsNormList⟩ ctrl' (multiFunc f)
      (tupleLeaves fun x : EuclideanSpace ℝ (Fin n) => List.ofFn fun i => x i)
      (fun x : EuclideanSpace ℝ (Fin n) => List.ofFn fun i => x i) = some cond)
    (hev : cfg.events = [.bool cond]) (hroot : cfg.rootFinder = none)
    (z : EuclideanSpace ℝ (Fin n)) (μ : ℝ) (hz : Attracting (fun t x => ∑ p, f p t x) z μ)
    (y0 : EuclideanSpace ℝ (Fin n)) (tnext : ℝ) (ctrl : C) (ss : S) (mj : Bool)
    (hocc : (solve cfg y0 tnext ctrl ss mj).result = .eventOccurred) :
    ‖(solve cfg y0 tnext ctrl ss mj).yfinal - z‖
      < m * (Real.sqrt n * atol + rtol * ‖(solve cfg y0 tnext ctrl ss mj).yfinal‖) / μ := by
  have h1 := bool_event_reported cfg hown cond hev hroot y0 tnext ctrl ss mj hocc
  have h4 := hz.dist_le (solve cfg y0 tnext ctrl ss mj).tfinal (solve cfg y0 tnext ctrl ss mj).yfinal
  generalize (solve cfg y0 tnext ctrl ss mj).yfinal = x at h1 h4 ⊢
  generalize (solve cfg y0 tnext ctrl ss mj).tfinal = t at h1 h4
  obtain ⟨r, s, N, e1, e2, e3, h2⟩ := (C88_condition _ ctrl' (multiFunc f) _ _).2 cond hc
  simp only [Option.some.injEq, reduceCtorEq, false_and, or_false] at e1 e2 e3
  subst e1 e2 e3
  have h3 := (h2 _ _).1 h1
  rw [rms_tuple hm hn, C88_rms hn] at h3
  have hm' : (0 : ℝ) < m := by exact_mod_cast hm
  have hn' : (0 : ℝ) < n := by exact_mod_cast hn
  have hsn : 0 < Real.sqrt n := Real.sqrt_pos.2 hn'
  rw [lt_div_iff₀ hz.pos]
  have h5 := norm_sum_le_rms hm hn (fun p => f p t x)
  have h8 : m * Real.sqrt n * Real.sqrt ((∑ p, ‖f p t x‖ ^ 2) / (m * n))
      < m * Real.sqrt n * (atol + rtol * (1 / Real.sqrt n * ‖x‖)) :=
    mul_lt_mul_of_pos_left h3 (by positivity)
  have h9 : m * Real.sqrt n * (atol + rtol * (1 / Real.sqrt n * ‖x‖))
      = m * (Real.sqrt n * atol + rtol * ‖x‖) := by
    field_simp
  rw [h9] at h8
  calc ‖x - z‖ * μ = μ * ‖x - z‖ := mul_comm _ _
    _ ≤ ‖∑ p, f p t x‖ := h4
    _ < _ := h5.trans_lt h8

/-- The equation `y' = 1 - y`, with one term for each part. Its steady state is `1`. -/
noncomputable def balanced : Fin 2 → ℝ → EuclideanSpace ℝ (Fin 1) → EuclideanSpace ℝ (Fin 1) :=
  ![fun _ _ => EuclideanSpace.single 0 1, fun _ y => -y]

/-- The equation has an attracting steady state, and satisfies everything that is asked for in `C88_found_partial`. -/
theorem balanced_attracting : Attracting (fun t x => ∑ p, balanced p t x) (EuclideanSpace.single 0 1) 1 where
  pos := one_pos
  steady := by intro t; simp [balanced]
  inward := by
    intro t x
    have : (∑ p, balanced p t x) = -(x - EuclideanSpace.single 0 1) := by
      simp [balanced]; abel
    rw [this, inner_neg_left, real_inner_self_eq_norm_sq, one_mul]

/-- **C88 is violated by implicit-explicit methods.** For `y' = 1 - y`, written as a `MultiTerm` of `1` and `-y`, with
tolerances of `1/1000` and the default norm: the event is never reported, however close to the steady state the
solution gets. This is for any solver whose `func` returns the value of the `MultiTerm`. -/
theorem C88_violated_imex {Er D S C O F : Type} [LinearOrder F] [Zero F]
    (cfg : Cfg ℝ (EuclideanSpace ℝ (Fin 1)) Er D S C O F) (hown : cfg.OwnCodes)
    (cond : ℝ → EuclideanSpace ℝ (Fin 1) → Bool)
    (hc : steadyStateEvent ⟨some (1 / 1000), some (1 / 1000), some rmsNormList⟩ none (multiFunc balanced)
      (tupleLeaves fun x : EuclideanSpace ℝ (Fin 1) => List.ofFn fun i => x i)
      (fun x : EuclideanSpace ℝ (Fin 1) => List.ofFn fun i => x i) = some cond)
    (hev : cfg.events = [.bool cond]) (hroot : cfg.rootFinder = none)
    (y0 : EuclideanSpace ℝ (Fin 1)) (tnext : ℝ) (ctrl : C) (ss : S) (mj : Bool) :
    (∀ t, cond t (EuclideanSpace.single 0 1) = false) ∧
    (solve cfg y0 tnext ctrl ss mj).result ≠ .eventOccurred := by
  have hfalse : ∀ t x, cond t x = false := by
    intro t x
    obtain ⟨r, s, N, e1, e2, e3, h2⟩ := (C88_condition _ none (multiFunc balanced) _ _).2 cond hc
    simp only [Option.some.injEq, reduceCtorEq, false_and, or_false] at e1 e2 e3
    subst e1 e2 e3
    rw [← Bool.not_eq_true, h2, rms_tuple (by norm_num) (by norm_num), C88_rms (by norm_num), not_lt]
    refine Real.le_sqrt_of_sq_le ?_
    have h1 : ∑ p, ‖multiFunc balanced t x p‖ ^ 2 = 1 + ‖x‖ ^ 2 := by
      simp [multiFunc, balanced]
    rw [h1]
    have hx := norm_nonneg x
    norm_num
    nlinarith [sq_nonneg (‖x‖ - 1)]
  refine ⟨fun t => hfalse t _, fun hocc => ?_⟩
  have := bool_event_reported cfg hown cond hev hroot y0 tnext ctrl ss mj hocc
  rw [hfalse] at this
  simp at this

/-- `Sil3` started at the steady state of `y' = 1 - y`: the condition is there, and never triggers. -/
example (cfg : Cfg ℝ (EuclideanSpace ℝ (Fin 1)) (Option (EuclideanSpace ℝ (Fin 1)))
      (RK.Dense 2 (EuclideanSpace ℝ (Fin 1))) (RK.State 2 (EuclideanSpace ℝ (Fin 1))) (ConstState ℝ) ℝ ℝ)
    (hown : cfg.OwnCodes) (hroot : cfg.rootFinder = none) (cj : CalcJac)
    (rF rK : RootFinder (EuclideanSpace ℝ (Fin 1)) Unit)
    (_ : cfg.solver.step = (odeRK ![Sil3.explicit, Sil3.implicit] balanced cj rF rK ()).step) :
    ∃ cond, steadyStateEvent ⟨some (1 / 1000), some (1 / 1000), some rmsNormList⟩ none (multiFunc balanced)
        (tupleLeaves fun x : EuclideanSpace ℝ (Fin 1) => List.ofFn fun i => x i)
        (fun x : EuclideanSpace ℝ (Fin 1) => List.ofFn fun i => x i) = some cond ∧
      (cfg.events = [.bool cond] → ∀ tnext ctrl ss mj,
        (solve cfg (EuclideanSpace.single 0 1) tnext ctrl ss mj).result ≠ .eventOccurred) :=
  ⟨_, rfl, fun hev _ _ _ _ => (C88_violated_imex cfg hown _ rfl hev hroot _ _ _ _ _).2⟩

/-! ### The solvers -/

/-- **C88.** No Runge-Kutta method misses a boolean condition that holds for longer than a step. -/
theorem C88_solvers :
    BoolEventStops ![Heun.tableau] 2 0 ∧ BoolEventStops ![Midpoint.tableau] 2 0 ∧
    BoolEventStops ![Ralston.tableau] 2 0 ∧ BoolEventStops ![Bosh3.tableau] 3 0 ∧
    BoolEventStops ![Dopri5.tableau] 5 0 ∧ BoolEventStops ![Tsit5.tableau] 5 (1 / 10 ^ 82) ∧
    BoolEventStops ![Dopri8.tableau] 8 (1 / 10 ^ 16) ∧ BoolEventStops ![Kvaerno3.tableau] 3 0 ∧
    BoolEventStops ![Kvaerno4.tableau] 4 0 ∧ BoolEventStops ![Kvaerno5.tableau] 5 (1 / 10 ^ 16) ∧
    BoolEventStops ![KenCarp3.explicit, KenCarp3.implicit] 3 (1 / 10 ^ 25) ∧
    BoolEventStops ![KenCarp4.explicit, KenCarp4.implicit] 4 (1 / 10 ^ 25) ∧
    BoolEventStops ![KenCarp5.explicit, KenCarp5.implicit] 5 (4 / 10 ^ 12) ∧
    BoolEventStops ![Sil3.explicit, Sil3.implicit] 2 0 :=
  ⟨C88_not_missed C70_order2.1, C88_not_missed C70_order2.2.1, C88_not_missed C70_order2.2.2,
   C88_not_missed C70_bosh3, C88_not_missed C70_dopri5, C88_not_missed C70_tsit5, C88_not_missed C70_dopri8,
   C88_not_missed C70_kvaerno.1, C88_not_missed C70_kvaerno.2.1, C88_not_missed C70_kvaerno.2.2,
   C88_not_missed C70_imex.1, C88_not_missed C70_imex.2.1, C88_not_missed C70_imex.2.2.1,
   C88_not_missed C70_imex.2.2.2⟩

/-! ### An example -/

/-- The event for `y' = 1 - y`, with tolerances of `1/1000`. -/
noncomputable def relaxCond (_ : ℝ) (y : ℝ) : Bool :=
  decide (rmsNormList [1 - y] < 1 / 1000 + 1 / 1000 * rmsNormList [y])

theorem rmsNormList_singleton (x : ℝ) : rmsNormList [x] = 1 * ‖x‖ := by
  simp [rmsNormList, Real.sqrt_sq_eq_abs]

/-- `n` steps of `Dopri5` for `y' = 1 - y` on `[0, b]`, with `steady_state_event`. -/
noncomputable def relaxCfg (b : ℝ) (n : ℕ) :
    Cfg ℝ ℝ (Option ℝ) (RK.Dense 1 ℝ) (RK.State 1 ℝ) (ConstState ℝ) ℝ ℝ :=
  { expCfg ![Dopri5.tableau] n with
    solver := { step := (odeRK ![Dopri5.tableau] (fun _ _ y => 1 - y) .never (idealRoot ℝ) (idealRoot ℝ) ()).step,
                interp := dopri5Interp }
    t1 := b
    floor := b
    events := [.bool relaxCond] }

theorem relaxCfg_WF (b : ℝ) (hb : 0 ≤ b) (n : ℕ) : (relaxCfg b n).WF where
  le := hb
  floor_le := le_refl _
  le_mid := by intro a h; simp only [relaxCfg, expCfg] at *; linarith
  mid_le := by intro a h; simp only [relaxCfg, expCfg] at *; linarith

theorem relaxCfg_own (b : ℝ) (n : ℕ) : (relaxCfg b n).OwnCodes where
  solver := by
    intro a b' y s j
    have : ((relaxCfg b n).solver.step a b' y s j).result = .successful :=
      C41_explicit_succeeds _ (by decide +kernel) _ _ _ _ _
    rw [this]; simp
  controller := by intro a b y y' e c; simp [relaxCfg, expCfg, constantStepSize, constAdapt]
  root := by intro f hf; simp [relaxCfg, expCfg] at hf

theorem relax_nice : NiceODE (fun _ : Fin 1 => fun (_ : ℝ) (y : ℝ) => 1 - y) 1 where
  analytic := fun _ => analyticOnNhd_const.sub analyticOnNhd_snd
  lipschitz := by
    intro _ _ x x'
    rw [one_mul, show 1 - x - (1 - x') = -(x - x') by ring, norm_neg]

theorem relax_attracting : Attracting (fun (_ : ℝ) (y : ℝ) => 1 - y) 1 1 where
  pos := one_pos
  steady := by intro _; simp
  inward := by
    intro _ x
    rw [show (1 : ℝ) - x = -(x - 1) by ring, inner_neg_left, real_inner_self_eq_norm_sq, one_mul]

/-- If `t1` is large enough, sufficiently many steps of `Dopri5` find the steady state of `y' = 1 - y`. -/
example : ∃ T : ℝ, ∀ b, T < b → ∃ n₀ : ℕ, ∀ n : ℕ, n₀ ≤ n → ∃ tnext ctrl,
    constInit id (0 : ℝ) (some b) (some (b / n)) = some (tnext, ctrl) ∧
    (solve (relaxCfg b n) (1 - Real.exp (-0)) tnext ctrl
      (odeRK ![Dopri5.tableau] (fun _ _ y => 1 - y) .never (idealRoot ℝ) (idealRoot ℝ) ()).init false).result
      = .eventOccurred := by
  obtain ⟨T, hT, h⟩ := C88_found_partial C70_dopri5 (by norm_num) (by decide +kernel) (fun _ y => 1 - y) .never
    (idealRoot ℝ) (idealRoot ℝ) () 1 relax_nice (fun t => 1 - Real.exp (-t)) (by
      intro t
      have h1 := ((hasDerivAt_neg t).exp).const_sub 1
      convert h1 using 1
      ring) 1 1 relax_attracting ⟨some (1 / 1000), some (1 / 1000), some rmsNormList⟩ (fun y => [y]) relaxCond rfl
    (1 / 1000) (1 / 1000) 1 rmsNormList rfl rfl rfl (by norm_num) (by norm_num) one_pos rmsNormList_singleton 0
  refine ⟨T, fun b hb => ?_⟩
  obtain ⟨δ, hδ, h⟩ := h b hb
  have hb0 : 0 < b := hT.trans hb
  obtain ⟨n₀, hn₀⟩ := exists_nat_gt (b / δ)
  refine ⟨n₀, fun n hnn => ?_⟩
  have hn1 : b / δ < n := hn₀.trans_le (by exact_mod_cast hnn)
  have hn' : (0 : ℝ) < n := lt_trans (by positivity) hn1
  have hc : ⌈(b - 0) / (b / n)⌉ = (n : ℤ) := by
    have : (b - 0) / (b / n) = n := by rw [sub_zero]; field_simp
    rw [this]; exact Int.ceil_natCast n
  refine ⟨_, _, rfl, ?_⟩
  exact (h ℝ ℝ (relaxCfg b n) (relaxCfg_WF b hb0.le n) (relaxCfg_own b n) rfl rfl rfl rfl rfl rfl
    (b / n) (by positivity) (by rw [div_le_iff₀ hn']; rw [div_lt_iff₀ hδ] at hn1; linarith) _ _ false rfl (by
      rw [hc]
      have : (0 : ℝ) ≤ (b - 0) / ((n : ℤ) : ℝ) := by rw [Int.cast_natCast, sub_zero]; positivity
      show b - _ ≤ b
      linarith) (by rw [hc]; exact le_refl _)).1

end Verif
