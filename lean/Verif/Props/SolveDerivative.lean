import Verif.Lemmas.SolveDerivative
import Verif.Props.LocalConvergence

/-!
# C96: derivatives of solves converge
-/

set_option linter.unusedSectionVars false
set_option maxRecDepth 100000

namespace Verif
open Finset Filter Topology Tab
open scoped ContDiff

/-- The steps lead from `a` to `b`. -/
def Chain : List (ℝ × ℝ) → ℝ → ℝ → Prop
  | [], a, b => a = b
  | p :: l, a, b => p.1 = a ∧ p.1 ≤ p.2 ∧ Chain l p.2 b

theorem Chain.le {l : List (ℝ × ℝ)} {a b : ℝ} (h : Chain l a b) : a ≤ b := by
  induction l generalizing a with
  | nil => exact le_of_eq h
  | cons p l ih =>
    obtain ⟨h1, h2, h3⟩ := h
    exact h1 ▸ h2.trans (ih h3)

section
variable {m : ℕ} {E J C O F : Type} [NormedAddCommGroup E] [NormedSpace ℝ E] [Module ℚ E] [LinearOrder F] [Zero F]
  {tab : Fin m → Tableau ℚ} {s : ℕ} {c : ℕ → ℚ} (f : Fin m → ℝ → E → E) (cj : CalcJac) (rF rK : RootFinder E J) (nj : J)
  (cfg : Cfg ℝ E (Option E) (RK.Dense m E) (RK.State m E) C O F)

theorem coreRun_along (hok : methodOK s c tab = true) (hex : ∀ p, (tab p).implicit = false) (hwf : cfg.WF)
    (hsolver : cfg.solver.step = (odeRK tab f cj rF rK nj).step) (hctrl : cfg.controller.Exact) (n : ℕ)
    (σ : Core ℝ E (RK.Dense m E) (RK.State m E) C F) (hfor : ∀ s' ∈ attempts cfg n σ, s'.tprev ≤ s'.tnext)
    (h1 : σ.tnext ≤ cfg.t1) (hV : (odeRK tab f cj rF rK nj).ValidState σ.tprev σ.y σ.solverState σ.madeJump) :
    (coreRun cfg n σ).y = valueAlong (odeRK tab f cj rF rK nj)
      (((attempts cfg n σ).filter (accepted cfg)).map fun s' => (s'.tprev, s'.tnext)) σ.y ∧
    Chain (((attempts cfg n σ).filter (accepted cfg)).map fun s' => (s'.tprev, s'.tnext)) σ.tprev
      (coreRun cfg n σ).tprev := by
  induction n generalizing σ with
  | zero => exact ⟨rfl, rfl⟩
  | succ n ih =>
    by_cases hc : condFun cfg σ = true
    · simp only [attempts, coreRun, hc, if_true] at hfor ⊢
      have h2 : σ.tprev ≤ σ.tnext := hfor σ (by simp)
      have hexa := hctrl σ.tprev σ.tnext σ.y (solverOut cfg σ).y (cfg.cleanErr (solverOut cfg σ).err) σ.ctrlState
      have e1 : (coreBody cfg σ).1.tprev = min (adaptOut cfg σ).tprev cfg.t1 := rfl
      have e2 : (coreBody cfg σ).1.tnext = clipToEnd cfg.mid (min (adaptOut cfg σ).tprev cfg.t1)
        (adaptOut cfg σ).tnext cfg.t1 cfg.floor (adaptOut cfg σ).keep := rfl
      have e3 : (coreBody cfg σ).1.solverState
          = if accepted cfg σ then (solverOut cfg σ).state else σ.solverState := rfl
      have e4 : (coreBody cfg σ).1.y = if accepted cfg σ then (solverOut cfg σ).y else σ.y := rfl
      have e5 : (coreBody cfg σ).1.madeJump
          = if accepted cfg σ then (adaptOut cfg σ).madeJump else σ.madeJump := rfl
      have hnew : (coreBody cfg σ).1.tprev = if accepted cfg σ then σ.tnext else σ.tprev := by
        rw [e1]
        cases hk : accepted cfg σ with
        | true =>
          have : (adaptOut cfg σ).tprev = σ.tnext := hexa.1 hk
          rw [this, min_eq_left h1]; rfl
        | false =>
          have : (adaptOut cfg σ).tprev = σ.tprev := hexa.2 hk
          rw [this, min_eq_left (h2.trans h1)]; rfl
      have hnext : (coreBody cfg σ).1.tnext ≤ cfg.t1 := by
        rw [e2]; unfold clipToEnd
        dsimp only
        split
        · split
          · exact le_refl _
          · exact hwf.mid_le _ (min_le_right _ _)
        · rename_i hcl; exact le_trans (not_lt.1 hcl) hwf.floor_le
      have hso : solverOut cfg σ = (odeRK tab f cj rF rK nj).step σ.tprev σ.tnext σ.y σ.solverState σ.madeJump := by
        show cfg.solver.step _ _ _ _ _ = _
        rw [hsolver]
      have hVn : (odeRK tab f cj rF rK nj).ValidState (coreBody cfg σ).1.tprev (coreBody cfg σ).1.y
          (coreBody cfg σ).1.solverState (coreBody cfg σ).1.madeJump := by
        rw [hnew, e3, e4, e5]
        cases hk : accepted cfg σ with
        | true =>
          simp only [if_true, hso]
          exact valid_after hok f cj rF rK nj (rootExact_of_explicit tab f cj rF rK nj hex) _ _ _ _ _ hV
            (by rw [C41_explicit_succeeds _ hex]; rfl) _
        | false => exact hV
      obtain ⟨g1, g2⟩ := ih _ (fun s' hs' => hfor s' (List.mem_cons_of_mem _ hs')) hnext hVn
      rw [hnew] at g2
      rw [e4] at g1
      cases hk : accepted cfg σ with
      | true =>
        rw [List.filter_cons_of_pos hk, List.map_cons]
        rw [hk] at g1 g2
        refine ⟨?_, rfl, h2, g2⟩
        rw [g1]
        have e : σ.tnext = σ.tprev + (σ.tnext - σ.tprev) := by ring
        have hy : (solverOut cfg σ).y = ((odeRK tab f cj rF rK nj).step σ.tprev σ.tnext σ.y
            (odeRK tab f cj rF rK nj).init false).y := by
          rw [hso, e, (explicit_step tab f cj rF rK nj hok hex _ _ _ _ _ hV).1,
            (explicit_step tab f cj rF rK nj hok hex _ _ _ _ false (validState_init tab f cj rF rK nj _ _ _)).1]
        rw [if_pos rfl, hy]
        rfl
      | false =>
        rw [List.filter_cons_of_neg (by rw [hk]; exact Bool.false_ne_true)]
        rw [hk] at g1 g2
        exact ⟨g1, g2⟩
    · have hc' : condFun cfg σ = false := by simpa using hc
      simp only [attempts, coreRun, hc', Bool.false_eq_true, if_false]
      exact ⟨rfl, rfl⟩

/-- The value of a solve is the value along its accepted steps, each taken from a fresh solver state, and these steps lead
from `t0` to the final time. -/
theorem C96_replay (hok : methodOK s c tab = true) (hex : ∀ p, (tab p).implicit = false) (hwf : cfg.WF)
    (hsolver : cfg.solver.step = (odeRK tab f cj rF rK nj).step) (hctrl : cfg.controller.Exact)
    (hroot : cfg.rootFinder = none) (y0 : E) (tnext : ℝ) (ctrl : C) (mj : Bool)
    (hfor : ∀ c ∈ callLog cfg y0 tnext ctrl (odeRK tab f cj rF rK nj).init mj, c.solverT0 ≤ c.solverT1) :
    (solve cfg y0 tnext ctrl (odeRK tab f cj rF rK nj).init mj).yfinal = valueAlong (odeRK tab f cj rF rK nj)
      (acceptedSteps cfg y0 tnext ctrl (odeRK tab f cj rF rK nj).init mj) y0 ∧
    Chain (acceptedSteps cfg y0 tnext ctrl (odeRK tab f cj rF rK nj).init mj) cfg.t0
      (solve cfg y0 tnext ctrl (odeRK tab f cj rF rK nj).init mj).tfinal := by
  have hl : acceptedSteps cfg y0 tnext ctrl (odeRK tab f cj rF rK nj).init mj
      = ((attempts cfg cfg.maxSteps (initState cfg y0 tnext ctrl (odeRK tab f cj rF rK nj).init mj).core).filter
        (accepted cfg)).map fun s' => (s'.tprev, s'.tnext) := by
    unfold acceptedSteps
    rw [log_eq_history, List.filter_map, List.map_map]
    rfl
  rw [hl, solve_yfinal, solve_tfinal, finalise_no_root cfg _ hroot, solve_core]
  refine coreRun_along f cj rF rK nj cfg hok hex hwf hsolver hctrl _ _ ?_ (min_le_right _ _)
    (validState_init tab f cj rF rK nj _ _ _)
  intro s' hs'
  rw [log_eq_history] at hfor
  exact hfor _ (List.mem_map_of_mem (f := expectedCall cfg) hs')
end

section
variable {m : ℕ} {E J : Type} [NormedAddCommGroup E] [NormedSpace ℝ E] [Module ℚ E]
  {tab : Fin m → Tableau ℚ} (f : Fin m → ℝ → E → E) (cj : CalcJac) (rF rK : RootFinder E J) (nj : J)

theorem chain_error (y : ℝ → E) (a b ρ δ A B K : ℝ) (N : ℕ) (hA : 0 ≤ A) (hB : 0 ≤ B) (hK : 0 ≤ K)
    (hacc : ∀ t t' x st mj, (odeRK tab f cj rF rK nj).ValidState t x st mj →
      a ≤ t → t ≤ t' → t' ≤ b → t' - t ≤ δ → ‖x - y t‖ ≤ ρ →
      ‖((odeRK tab f cj rF rK nj).step t t' x st mj).y - y t'‖
        ≤ (1 + K * (t' - t)) * ‖x - y t‖ + A * (t' - t) ^ (N + 1) + B * (t' - t))
    (η : ℝ) (hη0 : 0 ≤ η) (hηδ : η ≤ δ) (hρ : Real.exp (K * (b - a)) * ((b - a) * (A * η ^ N + B)) ≤ ρ)
    (l : List (ℝ × ℝ)) (hl : ∀ p ∈ l, p.2 - p.1 ≤ η) (t t' : ℝ) (hat : a ≤ t) (htb : t' ≤ b) (hc : Chain l t t') (x : E)
    (hx : ‖x - y t‖ ≤ errorBound A B K N η 0 a t) :
    ‖valueAlong (odeRK tab f cj rF rK nj) l x - y t'‖ ≤ errorBound A B K N η 0 a t' := by
  induction l generalizing t x with
  | nil =>
    have : t = t' := hc
    subst this
    exact hx
  | cons p l ih =>
    obtain ⟨rfl, h2, h3⟩ := hc
    refine ih (fun q hq => hl q (List.mem_cons_of_mem _ hq)) p.2 (hat.trans h2) h3 _ ?_
    have hp := hl p (List.mem_cons_self ..)
    have hb := errorBound_mono A B K hA hB hK N η 0 a p.1 b hη0 (le_refl 0) hat (h2.trans (h3.le.trans htb))
    rw [zero_add] at hb
    exact (hacc _ _ _ _ _ (validState_init tab f cj rF rK nj _ _ _) hat h2 (h3.le.trans htb) (hp.trans hηδ)
      (hx.trans (hb.trans hρ))).trans (errorBound_step A B K hA hB hK N η 0 a _ _ _ hp (le_refl 0) hat h2 hx)
end

/-- **C96.** The derivatives of solves with explicit Runge-Kutta methods converge, also if their order conditions hold only
up to `ε`. -/
theorem C96_near {m : ℕ} {tab : Fin m → Tableau ℚ} {s : ℕ} {c : ℕ → ℚ} {N M : ℕ} {ε δ' : ℚ}
    (hord : StepOrder tab N ε M δ') (hok : methodOK s c tab = true) (hε : 0 ≤ ε)
    (hex : ∀ p, (tab p).implicit = false) : DerivativesConvergeUpTo tab N ε := by
  intro E J _ _ _ _ g cj rF rK nj Y θ a b hs D hD
  have hcE : CompleteSpace E := FiniteDimensional.complete ℝ E
  obtain ⟨ρ, δ, A, K, hρ, hδ, hA, hK, hacc⟩ := explicit_accurate_near hok hex hε hord (varField g θ) cj
    (idealRoot (E × E)) (idealRoot (E × E)) () Set.univ _ a b hs.near D hD
  refine ⟨ρ, δ, A, K, hρ, hδ, hA, hK, ?_⟩
  intro C O F _ _ cfg hwf ha hb hsolver hctrl hroot tnext ctrl mj η hη0 hηδ hsmall hfor hη
  subst ha hb
  have hB : 0 ≤ (ε : ℝ) * D := mul_nonneg (by exact_mod_cast hε) (elemBound_nonneg hwf.le hD)
  obtain ⟨h1, h2⟩ := C96_replay (fieldAt g θ) cj rF rK nj cfg hok hex hwf hsolver hctrl hroot (Y θ cfg.t0) tnext ctrl mj hfor
  obtain ⟨a', ha, b', hb, hY⟩ := hs.solves
  have hx : HasDerivAt (fun θ' => Y θ' cfg.t0) (deriv (fun θ' => Y θ' cfg.t0) θ) θ := by
    have := hasDerivAt_left ((hY cfg.t0 ⟨ha, hwf.le.trans_lt hb⟩).1.differentiableAt (by norm_num))
    rw [this.deriv]; exact this
  have hj := valueAlong_jvp tab g cj cj rF rK nj (idealRoot (E × E)) (idealRoot (E × E)) () θ hok hex
    (fun p x => (hs.analytic p x trivial).differentiableAt)
    (acceptedSteps cfg (Y θ cfg.t0) tnext ctrl (odeRK tab (fieldAt g θ) cj rF rK nj).init mj) _ _ hx
  refine ⟨_, ⟨h1, hj.2⟩, ?_⟩
  have htf : (solve cfg (Y θ cfg.t0) tnext ctrl (odeRK tab (fieldAt g θ) cj rF rK nj).init mj).tfinal ≤ cfg.t1 := by
    rw [solve_tfinal, finalise_no_root cfg _ hroot, solve_core]
    exact (run_inv cfg (fun s => s.tprev ≤ cfg.t1) cfg.maxSteps _ hwf.le fun s _ _ _ => min_le_right _ _).2
  have hsteps : ∀ p ∈ acceptedSteps cfg (Y θ cfg.t0) tnext ctrl (odeRK tab (fieldAt g θ) cj rF rK nj).init mj,
      p.2 - p.1 ≤ η := by
    intro p hp
    obtain ⟨c, hc, rfl⟩ := List.mem_map.1 hp
    obtain ⟨hc1, hc2⟩ := List.mem_filter.1 hc
    exact hη c hc1 hc2
  have herr := chain_error (varField g θ) cj (idealRoot (E × E)) (idealRoot (E × E)) ()
    (fun t => (Y θ t, deriv (fun θ' => Y θ' t) θ)) cfg.t0 cfg.t1 ρ δ A (ε * D) K N hA hB hK hacc η hη0 hηδ hsmall
    _ hsteps _ _ (le_refl _) htf h2 (Y θ cfg.t0, deriv (fun θ' => Y θ' cfg.t0) θ) (by simp [errorBound])
  have hm := errorBound_mono A (ε * D) K hA hB hK N η 0 cfg.t0 _ cfg.t1 hη0 (le_refl 0) h2.le htf
  rw [zero_add] at hm
  exact (norm_snd_le _).trans (herr.trans hm)

/-- **C96.** The derivatives of solves with an explicit Runge-Kutta method converge with the order of its steps. -/
theorem C96_converges {m : ℕ} {tab : Fin m → Tableau ℚ} {s : ℕ} {c : ℕ → ℚ} {N M : ℕ} {δ' : ℚ} (hN : N ≠ 0)
    (hord : StepOrder tab N 0 M δ') (hok : methodOK s c tab = true)
    (hex : ∀ p, (tab p).implicit = false) : DerivativesConverge tab N := by
  intro E J _ _ _ _ g cj rF rK nj Y θ a b hs
  have hcE : CompleteSpace E := FiniteDimensional.complete ℝ E
  obtain ⟨D, hD⟩ := elemBound_near hs.near N
  obtain ⟨ρ, δ, A, K, hρ, hδ, hA, hK, hall⟩ := C96_near hord hok (le_refl 0) hex E J g cj rF rK nj Y θ a b hs D hD
  have hba : 0 ≤ b - a := sub_nonneg.2 hs.le
  set B : ℝ := Real.exp (K * (b - a)) * ((b - a) * A) with hB
  have hB0 : 0 ≤ B := by positivity
  have hle : ∀ η : ℝ, Real.exp (K * (b - a)) * ((b - a) * (A * η ^ N + (0 : ℚ) * D)) = B * η ^ N := by
    intro η
    rw [hB, Rat.cast_zero]
    ring
  simp only [hle] at hall
  refine ⟨min δ (min 1 (ρ / (B + 1))), B, by positivity, hB0, ?_⟩
  intro C O F _ _ cfg hwf ha hb hsolver hctrl hroot tnext ctrl mj η hη0 hηδ hfor hη
  refine hall C O F cfg hwf ha hb hsolver hctrl hroot tnext ctrl mj η hη0 (hηδ.trans (min_le_left _ _)) ?_ hfor hη
  have h1 : η ^ N ≤ ρ / (B + 1) := by
    have h2 : η ≤ 1 := hηδ.trans ((min_le_right _ _).trans (min_le_left _ _))
    exact (pow_le_of_le_one hη0 h2 hN).trans (hηδ.trans ((min_le_right _ _).trans (min_le_right _ _)))
  rw [le_div_iff₀ (by positivity)] at h1
  have : 0 ≤ η ^ N := by positivity
  nlinarith

/-- **C96.** With `ConstantStepSize` and a small `dt0` the value of the solve is differentiable, and its derivative differs
from the derivative of the exact solution by at most a constant times the `N`-th power of `dt0`. -/
theorem C96_constant {m : ℕ} {E J : Type} [NormedAddCommGroup E] [NormedSpace ℝ E] [Module ℚ E] [FiniteDimensional ℝ E]
    {tab : Fin m → Tableau ℚ} {s : ℕ} {c : ℕ → ℚ} {N : ℕ} (hconv : DerivativesConverge tab N)
    (hok : methodOK s c tab = true) (hex : ∀ p, (tab p).implicit = false)
    (g : Fin m → ℝ × ℝ × E → E) (cj : CalcJac) (rF rK : RootFinder E J) (nj : J) (Y : ℝ → ℝ → E) (θ a b : ℝ)
    (hs : SolutionFamily g Y θ a b) :
    ∃ δ B : ℝ, 0 < δ ∧ 0 ≤ B ∧ ∀ (O F : Type) [LinearOrder F] [Zero F]
      (cfg : ℝ → Cfg ℝ E (Option E) (RK.Dense m E) (RK.State m E) (ConstState ℝ) O F) (_ : ∀ θ', (cfg θ').WF)
      (_ : ∀ θ', (cfg θ').t0 = a) (_ : ∀ θ', (cfg θ').t1 = b) (_ : a < b)
      (_ : ∀ θ', (cfg θ').solver.step = (odeRK tab (fieldAt g θ') cj rF rK nj).step)
      (_ : ∀ θ', (cfg θ').controller = constantStepSize) (_ : ∀ θ', (cfg θ').events = [])
      (_ : ∀ θ', (cfg θ').rootFinder = none)
      (dt0 : ℝ) (_ : 0 < dt0) (_ : dt0 ≤ δ) (tnext : ℝ) (ctrl : ConstState ℝ) (mj : Bool)
      (_ : constInit id a (some b) (some dt0) = some (tnext, ctrl))
      (_ : ∀ θ', b - (b - a) / (⌈(b - a) / dt0⌉ : Int) ≤ (cfg θ').floor)
      (_ : ∀ θ', ⌈(b - a) / dt0⌉ ≤ (cfg θ').maxSteps),
      ∃ d, HasDerivAt (fun θ' => (solve (cfg θ') (Y θ' a) tnext ctrl
          (odeRK tab (fieldAt g θ') cj rF rK nj).init mj).yfinal) d θ ∧
        ‖d - deriv (fun θ' => Y θ' b) θ‖ ≤ B * dt0 ^ N := by
  obtain ⟨δ, B, hδ, hB0, hB⟩ := hconv E J g cj rF rK nj Y θ a b hs
  refine ⟨δ, B, hδ, hB0, ?_⟩
  intro O F _ _ cfg hwf ha hb hab hsolver hctrl hev hroot dt0 hdt hdtδ tnext ctrl mj hinit hfl hmax
  have hexact : ∀ θ', (cfg θ').controller.Exact := by
    intro θ'
    rw [hctrl]
    intro a b y0 y1 e st
    exact ⟨fun _ => rfl, fun h => by simp [constantStepSize, constAdapt] at h⟩
  -- the steps do not depend on the parameter
  have hC22 : ∀ θ', ∃ (n : ℕ) (p : ℕ → ℝ), (n : Int) = ⌈(b - a) / dt0⌉ ∧
      (callLog (cfg θ') (Y θ' a) tnext ctrl (odeRK tab (fieldAt g θ') cj rF rK nj).init mj).map
        (fun c => (c.solverT0, c.solverT1)) = (List.range n).map (fun j => (p j, p (j + 1))) ∧ p 0 = a ∧
      (∀ k, k < n → p k < p (k + 1)) ∧ (∀ k, k < n → p (k + 1) - p k ≤ dt0) ∧ p 1 = min (a + dt0) b ∧
      (∀ k, 2 ≤ k → k ≤ n → p k = a + (b - a) * k / n) ∧
      (solve (cfg θ') (Y θ' a) tnext ctrl (odeRK tab (fieldAt g θ') cj rF rK nj).init mj).tfinal = b := by
    intro θ'
    obtain ⟨n, p, hn, hlog, hp0, hpn, hlt, hle, -, hp1, hpk, htf, hres, -, -, -⟩ :=
      C22_constant_steps (cfg θ') id dt0 (Y θ' a) (odeRK tab (fieldAt g θ') cj rF rK nj).init mj tnext ctrl
        (by rw [ha, hb]; exact hinit) (by rw [ha, hb]; exact hab) hdt
        (le_refl _) (fun h => h) (hctrl θ') (hev θ')
        (fun a b y s j => by rw [hsolver, C41_explicit_succeeds _ hex]) (hwf θ').floor_le
        (by rw [ha, hb]; exact hfl θ') (by rw [ha, hb]; exact hmax θ')
    rw [ha, hb] at *
    exact ⟨n, p, hn, hlog, hp0, hlt, fun k hk => by simpa using hle k hk, hp1, hpk, htf⟩
  have hkeep : ∀ θ', ∀ c ∈ callLog (cfg θ') (Y θ' a) tnext ctrl (odeRK tab (fieldAt g θ') cj rF rK nj).init mj,
      (c.answer (cfg θ')).keep = true := by
    intro θ' c _
    unfold CallLog.answer
    rw [hctrl]; rfl
  have hacc : ∀ θ', acceptedSteps (cfg θ') (Y θ' a) tnext ctrl (odeRK tab (fieldAt g θ') cj rF rK nj).init mj
      = (callLog (cfg θ') (Y θ' a) tnext ctrl (odeRK tab (fieldAt g θ') cj rF rK nj).init mj).map
        (fun c => (c.solverT0, c.solverT1)) := by
    intro θ'
    unfold acceptedSteps
    rw [List.filter_eq_self.2 (hkeep θ')]
  have hsame : ∀ θ', acceptedSteps (cfg θ') (Y θ' a) tnext ctrl (odeRK tab (fieldAt g θ') cj rF rK nj).init mj
      = acceptedSteps (cfg θ) (Y θ a) tnext ctrl (odeRK tab (fieldAt g θ) cj rF rK nj).init mj := by
    intro θ'
    obtain ⟨n, p, hn, hlog, hp0, -, -, hp1, hpk, -⟩ := hC22 θ'
    obtain ⟨n', p', hn', hlog', hp0', -, -, hp1', hpk', -⟩ := hC22 θ
    have hnn : n = n' := by exact_mod_cast hn.trans hn'.symm
    subst hnn
    have hpp : ∀ k ≤ n, p k = p' k := by
      intro k hk
      rcases k with _ | _ | k
      · rw [hp0, hp0']
      · rw [zero_add, hp1, hp1']
      · rw [hpk _ (by omega) hk, hpk' _ (by omega) hk]
    rw [hacc, hacc, hlog, hlog']
    refine List.map_congr_left fun k hk => ?_
    have := List.mem_range.1 hk
    rw [hpp k this.le, hpp (k + 1) this]
  have hmem : ∀ θ', ∀ c ∈ callLog (cfg θ') (Y θ' a) tnext ctrl (odeRK tab (fieldAt g θ') cj rF rK nj).init mj,
      c.solverT0 ≤ c.solverT1 ∧ c.solverT1 - c.solverT0 ≤ dt0 := by
    intro θ' c hc
    obtain ⟨n, p, hn, hlog, hp0, hlt, hle, -⟩ := hC22 θ'
    have h1 : (c.solverT0, c.solverT1) ∈ (List.range n).map (fun j => (p j, p (j + 1))) := by
      rw [← hlog]; exact List.mem_map_of_mem hc
    obtain ⟨k, hk, he⟩ := List.mem_map.1 h1
    have he' := Prod.mk.inj he
    rw [← he'.1, ← he'.2]
    exact ⟨(hlt k (List.mem_range.1 hk)).le, hle k (List.mem_range.1 hk)⟩
  obtain ⟨d, ⟨-, hd⟩, herr⟩ := hB _ O F (cfg θ) (hwf θ) (ha θ) (hb θ) (hsolver θ) (hexact θ) (hroot θ) tnext ctrl mj dt0
    hdt.le hdtδ (fun c hc => (hmem θ c hc).1) (fun c hc _ => (hmem θ c hc).2)
  refine ⟨d, ?_, ?_⟩
  · have e : (fun θ' => (solve (cfg θ') (Y θ' a) tnext ctrl (odeRK tab (fieldAt g θ') cj rF rK nj).init mj).yfinal)
        = fun θ' => valueAlong (odeRK tab (fieldAt g θ') cj rF rK nj)
          (acceptedSteps (cfg θ) (Y θ a) tnext ctrl (odeRK tab (fieldAt g θ) cj rF rK nj).init mj) (Y θ' a) := by
      funext θ'
      rw [← hsame θ']
      exact (C96_replay (fieldAt g θ') cj rF rK nj (cfg θ') hok hex (hwf θ') (hsolver θ') (hexact θ') (hroot θ') _ _ _ _
        (fun c hc => (hmem θ' c hc).1)).1
    rw [e]
    exact hd
  · obtain ⟨-, -, -, -, -, -, -, -, -, htf⟩ := hC22 θ
    rw [htf] at herr
    exact herr

/-- **C96.** The derivatives of solves with `Heun`, `Midpoint`, `Ralston`, `Bosh3` and `Dopri5` converge. -/
theorem C96_solvers : DerivativesConverge ![Heun.tableau] 2 ∧ DerivativesConverge ![Midpoint.tableau] 2 ∧
    DerivativesConverge ![Ralston.tableau] 2 ∧ DerivativesConverge ![Bosh3.tableau] 3 ∧
    DerivativesConverge ![Dopri5.tableau] 5 :=
  ⟨C96_converges (s := 2) (c := Heun.tableau.abscissa) (by norm_num) C61_heun (by decide +kernel) (by decide +kernel),
   C96_converges (s := 2) (c := Midpoint.tableau.abscissa) (by norm_num) C61_midpoint (by decide +kernel) (by decide +kernel),
   C96_converges (s := 2) (c := Ralston.tableau.abscissa) (by norm_num) C61_ralston (by decide +kernel) (by decide +kernel),
   C96_converges (s := 4) (c := Bosh3.tableau.abscissa) (by norm_num) C61_bosh3 (by decide +kernel) (by decide +kernel),
   C96_converges (s := 7) (c := Dopri5.tableau.abscissa) (by norm_num) C61_dopri5 (by decide +kernel) (by decide +kernel)⟩

/-- **C96.** The derivatives of solves with `Tsit5` and `Dopri8` converge, up to the last decimals. -/
theorem C96_solvers_upTo : DerivativesConvergeUpTo ![Tsit5.tableau] 5 (1 / 10 ^ 82) ∧
    DerivativesConvergeUpTo ![Dopri8.tableau] 8 (1 / 10 ^ 16) :=
  ⟨C96_near (s := 7) (c := Tsit5.tableau.abscissa) C61_tsit5 (by decide +kernel) (by norm_num) (by decide +kernel),
   C96_near (s := 14) (c := Dopri8.tableau.abscissa) C61_dopri8 (by decide +kernel) (by norm_num) (by decide +kernel)⟩

/-! ### `y' = θ y`, `y(0) = 1`, whose solution `exp(θ t)` has the derivative `t exp(θ t)` -/

theorem exp_family (θ b : ℝ) (hb : 0 ≤ b) :
    SolutionFamily (![fun x => x.1 * x.2.2] : Fin 1 → ℝ × ℝ × ℝ → ℝ) (fun θ t => Real.exp (θ * t)) θ 0 b where
  analytic := fun p x _ => by
    fin_cases p
    exact analyticAt_fst.mul (AnalyticAt.fun_comp analyticAt_snd analyticAt_snd)
  le := hb
  solves := ⟨-1, by norm_num, b + 1, by linarith, fun t _ => ⟨by
    have : ContDiff ℝ 2 (fun x : ℝ × ℝ => Real.exp (x.1 * x.2)) := by fun_prop
    exact this.contDiffAt, Eventually.of_forall fun θ' => by
    have := ((hasDerivAt_id t).const_mul θ').exp
    simp only [id] at this
    refine this.congr_deriv ?_
    simp [mul_comm]⟩⟩

/-- The derivative of `Dopri5` with constant steps. -/
example (θ b : ℝ) (hb0 : 0 < b) : ∃ δ B : ℝ, 0 < δ ∧ ∀ n : ℕ, 0 < n → b / n ≤ δ → ∃ tnext ctrl d,
    constInit id (0 : ℝ) (some b) (some (b / n)) = some (tnext, ctrl) ∧
    HasDerivAt (fun θ' => (solve { expCfg ![Dopri5.tableau] n with
        solver := { step := (odeRK ![Dopri5.tableau] (fieldAt ![fun x => x.1 * x.2.2] θ') .never (idealRoot ℝ)
                      (idealRoot ℝ) ()).step,
                    interp := fun _ _ _ t => t }
        t1 := b
        floor := b } (Real.exp (θ' * 0)) tnext ctrl
      (odeRK ![Dopri5.tableau] (fieldAt ![fun x => x.1 * x.2.2] θ') .never (idealRoot ℝ) (idealRoot ℝ) ()).init
        false).yfinal) d θ ∧ ‖d - b * Real.exp (θ * b)‖ ≤ B * (b / n) ^ 5 := by
  obtain ⟨δ, B, hδ, -, hB⟩ := C96_constant (s := 7) (c := Dopri5.tableau.abscissa) C96_solvers.2.2.2.2 (by decide +kernel)
    (by decide +kernel) _ .never (idealRoot ℝ) (idealRoot ℝ) () _ θ 0 b (exp_family θ b hb0.le)
  refine ⟨δ, B, hδ, fun n hn hnδ => ?_⟩
  have hn' : (0 : ℝ) < n := by exact_mod_cast hn
  have hc : ⌈(b - 0) / (b / n)⌉ = (n : ℤ) := by
    have : (b - 0) / (b / n) = n := by field_simp; ring
    rw [this]; exact Int.ceil_natCast n
  obtain ⟨d, hd, herr⟩ := hB ℝ ℝ (fun θ' => { expCfg ![Dopri5.tableau] n with
        solver := { step := (odeRK ![Dopri5.tableau] (fieldAt ![fun x => x.1 * x.2.2] θ') .never (idealRoot ℝ)
                      (idealRoot ℝ) ()).step,
                    interp := fun _ _ _ t => t }
        t1 := b
        floor := b })
    (fun _ => { le := hb0.le
                floor_le := le_refl _
                le_mid := by intro a h; simp only [expCfg] at *; linarith
                mid_le := by intro a h; simp only [expCfg] at *; linarith }) (fun _ => rfl) (fun _ => rfl) hb0
    (fun _ => rfl) (fun _ => rfl) (fun _ => rfl) (fun _ => rfl) (b / n) (by positivity) hnδ _ _ false rfl
    (fun _ => by
      rw [hc]
      have : (0 : ℝ) ≤ (b - 0) / ((n : ℤ) : ℝ) := by rw [Int.cast_natCast, sub_zero]; positivity
      show b - _ ≤ b
      linarith) (fun _ => by rw [hc]; exact le_refl _)
  refine ⟨_, _, d, rfl, hd, ?_⟩
  have hder : deriv (fun θ' => Real.exp (θ' * b)) θ = b * Real.exp (θ * b) := by
    have := ((hasDerivAt_id θ).mul_const b).exp
    simp only [id] at this
    rw [this.deriv]; ring
  rw [hder] at herr
  exact herr

end Verif
