import Verif.Props.Convergence
import Verif.Props.Solvers
import Verif.Spec.SolveError
import Verif.Lemmas.SolveInvariant
import Verif.Lemmas.SolutionTaylor
import Mathlib.Analysis.SpecialFunctions.Trigonometric.Bounds

/-!
# C78: convergence of the solvers for ODEs that are not Runge-Kutta tableaus

`Euler`, `ImplicitEuler`, `SemiImplicitEuler`, `ReversibleHeun`, `LeapfrogMidpoint`, and `HalfSolver` around any
solver. The estimates are for whole solves, with explicit constants.
-/

set_option linter.unusedSectionVars false

namespace Verif
open Set

section
variable {E Er Er' D S : Type} [NormedAddCommGroup E] [NormedSpace ℝ E]

/-- From one step to the whole solve. -/
theorem Solver.Accurate.errorAtMost {sv : Solver ℝ E Er D S} {V : ℝ → E → S → Bool → Prop} {y : ℝ → E}
    {a b δ A B K : ℝ} {N : ℕ} (hacc : sv.Accurate V y a b δ A B K N) (hA : 0 ≤ A) (hB : 0 ≤ B) (hK : 0 ≤ K)
    (init : ℝ → E → S) (hinit : ∀ y0 mj, V a y0 (init a y0) mj) :
    ErrorAtMost sv init y a b δ
      (fun e η => Real.exp (K * (b - a)) * (e + (b - a) * (A * η ^ N + B))) := by
  intro C O F _ _ cfg hwf ha hb hsv hctrl y0 tnext ctrl mj η hη0 hηδ hfor hok
  subst ha hb
  have hacc' : cfg.solver.Accurate V y cfg.t0 cfg.t1 δ A B K N :=
    ⟨by rw [hsv]; exact hacc.valid, by rw [hsv]; exact hacc.error⟩
  obtain ⟨g1, g3, g2⟩ := global_error cfg hwf V y δ A B K hA hB hK N hacc' hctrl y0 tnext ctrl _ mj
    (hinit _ _) (fun c hc => (hfor c hc).1) (fun c hc hk => (hok c hc hk).1) η hηδ
    (fun c hc hk => (hok c hc hk).2)
  refine ⟨?_, ?_⟩
  · intro c hc
    obtain ⟨⟨⟨b1, b2⟩, -⟩, b3⟩ := g1 c hc
    exact b3.trans (errorBound_mono A B K hA hB hK N η _ _ _ _ hη0 (norm_nonneg _) b1 ((hfor c hc).1.trans b2))
  · intro hroot
    rw [solve_yfinal, solve_tfinal, finalise_no_root cfg _ hroot]
    exact g2.trans (errorBound_mono A B K hA hB hK N η _ _ _ _ hη0 (norm_nonneg _) g3.1 g3.2)

theorem ErrorAtMost.mono {sv : Solver ℝ E Er D S} {init : ℝ → E → S} {y : ℝ → E} {a b δ : ℝ}
    {bound bound' : ℝ → ℝ → ℝ} (h : ErrorAtMost sv init y a b δ bound)
    (hle : ∀ e η, 0 ≤ e → 0 ≤ η → η ≤ δ → a ≤ b → bound e η ≤ bound' e η) :
    ErrorAtMost sv init y a b δ bound' := by
  intro C O F _ _ cfg hwf ha hb hsv hctrl y0 tnext ctrl mj η hη0 hηδ hfor hok
  have hab : a ≤ b := by rw [← ha, ← hb]; exact hwf.le
  obtain ⟨h1, h2⟩ := h C O F cfg hwf ha hb hsv hctrl y0 tnext ctrl mj η hη0 hηδ hfor hok
  have := hle ‖y0 - y a‖ η (norm_nonneg _) hη0 hηδ hab
  exact ⟨fun c hc => (h1 c hc).trans this, fun hr => (h2 hr).trans this⟩

/-- **C78, constant steps.** A solver whose steps always succeed, with `ConstantStepSize`, started on the
solution: the solve succeeds, ends at `t1`, and the error is at most the bound for steps of length `dt0`. -/
theorem C78_constant {sv : Solver ℝ E Er D S} {init : ℝ → E → S} {y : ℝ → E} {a b δ : ℝ}
    {bound : ℝ → ℝ → ℝ} (h : ErrorAtMost sv init y a b δ bound)
    (hokay : ∀ t0 t1 x st mj, (sv.step t0 t1 x st mj).result = .successful)
    (O F : Type) [LinearOrder F] [Zero F] (cfg : Cfg ℝ E Er D S (ConstState ℝ) O F) (hwf : cfg.WF)
    (ha : cfg.t0 = a) (hb : cfg.t1 = b) (hab : a < b) (hsv : cfg.solver.step = sv.step)
    (hctrl : cfg.controller = constantStepSize) (hev : cfg.events = []) (hroot : cfg.rootFinder = none)
    (dt0 : ℝ) (hdt : 0 < dt0) (hdtδ : dt0 ≤ δ) (tnext : ℝ) (ctrl : ConstState ℝ)
    (hinit : constInit id a (some b) (some dt0) = some (tnext, ctrl))
    (hfl : b - (b - a) / (⌈(b - a) / dt0⌉ : Int) ≤ cfg.floor)
    (hmax : ⌈(b - a) / dt0⌉ ≤ cfg.maxSteps) :
    (solve cfg (y a) tnext ctrl (init a (y a)) false).result = .successful ∧
    (solve cfg (y a) tnext ctrl (init a (y a)) false).tfinal = b ∧
    ‖(solve cfg (y a) tnext ctrl (init a (y a)) false).yfinal - y b‖ ≤ bound 0 dt0 := by
  subst ha hb
  obtain ⟨n, p, hn, hlog, hp0, hpn, hlt, hle, -, -, -, htf, hres, -, -, -⟩ :=
    C22_constant_steps cfg id dt0 (y cfg.t0) (init cfg.t0 (y cfg.t0)) false tnext ctrl hinit hab hdt
      (le_refl _) (fun h => h) hctrl hev (fun a b y s j => by rw [hsv, hokay]) hwf.floor_le hfl hmax
  have hmem : ∀ c ∈ callLog cfg (y cfg.t0) tnext ctrl (init cfg.t0 (y cfg.t0)) false,
      ∃ k < n, c.solverT0 = p k ∧ c.solverT1 = p (k + 1) := by
    intro c hc
    have h1 : (c.solverT0, c.solverT1) ∈ (List.range n).map (fun j => (p j, p (j + 1))) := by
      rw [← hlog]; exact List.mem_map_of_mem hc
    obtain ⟨k, hk, he⟩ := List.mem_map.1 h1
    have he' := Prod.mk.inj he
    exact ⟨k, List.mem_range.1 hk, he'.1.symm, he'.2.symm⟩
  have hjump : ∀ c ∈ callLog cfg (y cfg.t0) tnext ctrl (init cfg.t0 (y cfg.t0)) false,
      c.solverMadeJump = false := by
    intro c hc
    rw [log_eq_history] at hc
    obtain ⟨s, hs, rfl⟩ := List.mem_map.1 hc
    refine (run_inv cfg (fun s => s.madeJump = false) cfg.maxSteps
      (initState cfg (y cfg.t0) tnext ctrl (init cfg.t0 (y cfg.t0)) false).core rfl ?_).1 s hs
    intro s' _ _ h'
    show (if accepted cfg s' then (adaptOut cfg s').madeJump else s'.madeJump) = false
    split
    · unfold adaptOut; rw [hctrl]; rfl
    · exact h'
  have hexact : cfg.controller.Exact := by
    rw [hctrl]
    intro a b y0 y1 e st
    exact ⟨fun _ => rfl, fun h => by simp [constantStepSize, constAdapt] at h⟩
  have := (h _ O F cfg hwf rfl rfl hsv hexact (y cfg.t0) tnext ctrl false dt0 hdt.le hdtδ
    (fun c hc => by
      obtain ⟨k, hk, e1, e2⟩ := hmem c hc
      refine ⟨?_, hjump c hc⟩
      rw [e1, e2]; exact (hlt k hk).le)
    (fun c hc _ => by
      obtain ⟨k, hk, e1, e2⟩ := hmem c hc
      refine ⟨by rw [hsv, hokay]; rfl, ?_⟩
      rw [e1, e2]
      have := hle k hk
      simpa using this)).2 hroot
  rw [sub_self, norm_zero, htf] at this
  exact ⟨hres, htf, this⟩

/-- A solve on `[0, 1]`, for the examples. -/
noncomputable def unitCfg {C : Type} (sv : Solver ℝ E Er D S) (controller : Controller ℝ E Er C) (dflt : D) (n : ℕ) :
    Cfg ℝ E Er D S C ℝ ℝ where
  solver := sv
  controller := controller
  cleanErr := id
  events := []
  rootFinder := none
  dist := fun a b => a - b
  dummyDense := dflt
  t0 := 0
  t1 := 1
  floor := 1
  mid := fun a b => (a + b) / 2
  subs := []
  dense := false
  maxSteps := n

theorem unitCfg_WF {C : Type} (sv : Solver ℝ E Er D S) (controller : Controller ℝ E Er C) (dflt : D) (n : ℕ) :
    (unitCfg sv controller dflt n).WF where
  le := by norm_num [unitCfg]
  floor_le := by norm_num [unitCfg]
  le_mid := by intro a h; simp only [unitCfg] at *; linarith
  mid_le := by intro a h; simp only [unitCfg] at *; linarith

theorem unit_ceil (n : ℕ) (hn : 0 < n) : ⌈((1 : ℝ) - 0) / (1 / n)⌉ = (n : ℤ) := by
  have hn' : (0 : ℝ) < n := by exact_mod_cast hn
  have : ((1 : ℝ) - 0) / (1 / n) = n := by field_simp; ring
  rw [this]; exact Int.ceil_natCast n

/-- The hypotheses of `C78_constant` are met by `n` steps on `[0, 1]`, for every `n`. -/
theorem unit_constant {sv : Solver ℝ E Er D S} {init : ℝ → E → S} {y : ℝ → E} {δ : ℝ} {bound : ℝ → ℝ → ℝ}
    (h : ErrorAtMost sv init y 0 1 δ bound)
    (hokay : ∀ t0 t1 x st mj, (sv.step t0 t1 x st mj).result = .successful) (dflt : D)
    (n : ℕ) (hn : 0 < n) (hδ : 1 / (n : ℝ) ≤ δ) : ∃ tnext ctrl,
    constInit id (0 : ℝ) (some 1) (some (1 / n)) = some (tnext, ctrl) ∧
    ‖(solve (unitCfg sv constantStepSize dflt n) (y 0) tnext ctrl (init 0 (y 0)) false).yfinal - y 1‖
      ≤ bound 0 (1 / n) := by
  have hn' : (0 : ℝ) < n := by exact_mod_cast hn
  refine ⟨_, _, rfl, ?_⟩
  refine (C78_constant h hokay ℝ ℝ (unitCfg sv constantStepSize dflt n) (unitCfg_WF _ _ _ _) rfl rfl
    (by norm_num) rfl rfl rfl rfl (1 / n) (by positivity) hδ _ _ rfl ?_ ?_).2.2
  · rw [unit_ceil n hn]
    have : (0 : ℝ) ≤ (1 - 0) / ((n : ℤ) : ℝ) := by rw [Int.cast_natCast, sub_zero]; positivity
    show (1 : ℝ) - _ ≤ 1
    linarith
  · rw [unit_ceil n hn]; exact le_refl _

/-! ### Euler's methods -/

/-- `y` solves `y' = f(t, y)` where `f` is `L`-Lipschitz in `y`, and on `[a, b]` the derivative of `y` is
`M`-Lipschitz. -/
structure LipschitzSolution (f : ℝ → E → E) (y : ℝ → E) (a b L M : ℝ) : Prop where
  L_nonneg : 0 ≤ L
  M_nonneg : 0 ≤ M
  lipschitz : ∀ t x x', ‖f t x - f t x'‖ ≤ L * ‖x - x'‖
  solves : ∀ t, HasDerivAt y (f t (y t)) t
  deriv_lipschitz : ∀ s ∈ Icc a b, ∀ t ∈ Icc a b, ‖f s (y s) - f t (y t)‖ ≤ M * |s - t|

variable {f : ℝ → E → E} {y : ℝ → E} {a b L M : ℝ}

theorem euler_accurate (h : LipschitzSolution f y a b L M) (interp : LocalLin ℝ E) (δ : ℝ) :
    (euler (odeTerm f) interp).Accurate (fun _ _ _ _ => True) y a b δ M 0 L 1 := by
  refine ⟨fun _ _ _ _ _ _ _ _ _ _ _ => trivial, ?_⟩
  intro t t' x st mj _ hat htt htb _ _
  have hh : 0 ≤ t' - t := sub_nonneg.2 htt
  have h1 := taylor_one h.solves h.deriv_lipschitz h.M_nonneg (s := t') (t := t) (r := t)
    ⟨hat.trans htt, htb⟩ ⟨hat, htt.trans htb⟩ left_mem_uIcc
  rw [abs_of_nonneg hh] at h1
  have e : ((euler (odeTerm f) interp).step t t' x st mj).y - y t'
      = (x - y t) + (t' - t) • (f t x - f t (y t)) - (y t' - y t - (t' - t) • f t (y t)) := by
    show x + (t' - t) • f t x - y t' = _
    module
  rw [e]
  have h2 : ‖(t' - t) • (f t x - f t (y t))‖ ≤ (t' - t) * (L * ‖x - y t‖) := by
    rw [norm_smul, Real.norm_eq_abs, abs_of_nonneg hh]
    exact mul_le_mul_of_nonneg_left (h.lipschitz _ _ _) hh
  have h3 := norm_sub_le ((x - y t) + (t' - t) • (f t x - f t (y t))) (y t' - y t - (t' - t) • f t (y t))
  have h4 := norm_add_le (x - y t) ((t' - t) • (f t x - f t (y t)))
  have h5 : (1 + L * (t' - t)) * ‖x - y t‖ = ‖x - y t‖ + (t' - t) * (L * ‖x - y t‖) := by ring
  rw [h5, one_add_one_eq_two, zero_mul]
  linarith

/-- **C78, Euler.** First order. -/
theorem C78_euler (h : LipschitzSolution f y a b L M) (interp : LocalLin ℝ E) (δ : ℝ) :
    ErrorAtMost (euler (odeTerm f) interp) (fun _ _ => ()) y a b δ
      (fun e η => Real.exp (L * (b - a)) * (e + (b - a) * (M * η))) :=
  ((euler_accurate h interp δ).errorAtMost h.M_nonneg (le_refl _) h.L_nonneg _ (fun _ _ => trivial)).mono
    (fun e η _ _ _ _ => by rw [pow_one, add_zero])

/-- `y' = y` on `[0, 1]`. -/
theorem exp_lipschitzSolution :
    LipschitzSolution (fun _ x : ℝ => x) Real.exp 0 1 1 (Real.exp 1) where
  L_nonneg := zero_le_one
  M_nonneg := (Real.exp_pos 1).le
  lipschitz := fun _ x x' => by rw [one_mul]
  solves := Real.hasDerivAt_exp
  deriv_lipschitz := by
    intro s hs t ht
    have := (convex_Icc (0 : ℝ) 1).norm_image_sub_le_of_norm_hasDerivWithin_le (f := Real.exp) (f' := Real.exp)
      (C := Real.exp 1) (x := t) (y := s) (fun x _ => (Real.hasDerivAt_exp x).hasDerivWithinAt)
      (fun x hx => by rw [Real.norm_eq_abs, abs_of_pos (Real.exp_pos x)]; exact Real.exp_le_exp.2 hx.2) ht hs
    simpa using this

/-- Euler's number, by Euler's method with `n` steps. -/
example (interp : LocalLin ℝ ℝ) (n : ℕ) (hn : 0 < n) : ∃ tnext ctrl,
    constInit id (0 : ℝ) (some 1) (some (1 / n)) = some (tnext, ctrl) ∧
    ‖(solve (unitCfg (euler (odeTerm fun _ x : ℝ => x) interp) constantStepSize (0, 0) n) (Real.exp 0) tnext ctrl
      () false).yfinal - Real.exp 1‖ ≤ Real.exp 2 * (1 / n) := by
  have hn' : (1 : ℝ) ≤ n := by exact_mod_cast hn
  obtain ⟨tnext, ctrl, h1, h2⟩ := unit_constant (C78_euler exp_lipschitzSolution interp 1)
    (fun _ _ _ _ _ => rfl) (0, 0) n hn (div_le_one_of_le₀ hn' (by positivity))
  refine ⟨tnext, ctrl, h1, h2.trans (le_of_eq ?_)⟩
  rw [show (2 : ℝ) = 1 + 1 by norm_num, Real.exp_add]
  ring_nf

/-- **C78, ImplicitEuler**, one step: what is returned as a success solves the equation of the method; a
failure of the root finder is reported. The error estimate is half the difference to Euler's method. -/
theorem C78_implicit_euler_step {VF Ct : Type} (term : Term ℝ E VF Ct) (root : (E → E) → E → E × Result)
    (hroot : ∀ rel guess, (root rel guess).2.isOkay = true → rel (root rel guess).1 = 0)
    (interp : LocalLin ℝ E) (t0 t1 : ℝ) (y0 : E) (mj : Bool)
    (o : StepOut E E (E × E) Unit) (ho : (implicitEuler ℝ term root interp).step t0 t1 y0 () mj = o) :
    (o.result.isOkay = true → o.y = y0 + term.vfProd t1 o.y (term.contr t0 t1)) ∧
    ((∀ rel guess, (root rel guess).2.isOkay = false) → o.result.isOkay = false) ∧
    o.err = (1 / 2 : ℝ) • (o.y - ((euler term interp).step t0 t1 y0 () mj).y) ∧
    o.dense = (y0, o.y) := by
  subst ho
  refine ⟨?_, ?_, ?_, rfl⟩
  · intro hok
    have := hroot _ _ hok
    have e := sub_eq_zero.1 this
    show y0 + _ = y0 + _
    congr 1
    exact e.symm
  · intro hno
    exact hno _ _
  · show (1 / 2 : ℝ) • _ = (1 / 2 : ℝ) • (y0 + _ - (y0 + _))
    rw [add_sub_add_left_eq_sub]

theorem implicitEuler_accurate (h : LipschitzSolution f y a b L M) (root : (E → E) → E → E × Result)
    (hroot : ∀ rel guess, (root rel guess).2.isOkay = true → rel (root rel guess).1 = 0)
    (interp : LocalLin ℝ E) (δ : ℝ) (hδ : L * δ ≤ 1 / 2) :
    (implicitEuler ℝ (odeTerm f) root interp).Accurate (fun _ _ _ _ => True) y a b δ (2 * M) 0 (2 * L) 1 := by
  refine ⟨fun _ _ _ _ _ _ _ _ _ _ _ => trivial, ?_⟩
  intro t t' x st mj _ hat htt htb hhδ hok
  have hh : 0 ≤ t' - t := sub_nonneg.2 htt
  have h1 := taylor_one h.solves h.deriv_lipschitz h.M_nonneg (s := t') (t := t) (r := t')
    ⟨hat.trans htt, htb⟩ ⟨hat, htt.trans htb⟩ right_mem_uIcc
  rw [abs_of_nonneg hh] at h1
  have hs := (C78_implicit_euler_step (odeTerm f) root hroot interp t t' x mj _ rfl).1 hok
  set z := ((implicitEuler ℝ (odeTerm f) root interp).step t t' x st mj).y with hz
  have hz' : z = x + (t' - t) • f t' z := hs
  have e : z - y t' = (x - y t) + (t' - t) • (f t' z - f t' (y t')) - (y t' - y t - (t' - t) • f t' (y t')) := by
    have : z - (t' - t) • f t' z = x := by rw [sub_eq_iff_eq_add]; exact hz'
    rw [← this]
    module
  have h2 : ‖(t' - t) • (f t' z - f t' (y t'))‖ ≤ (t' - t) * (L * ‖z - y t'‖) := by
    rw [norm_smul, Real.norm_eq_abs, abs_of_nonneg hh]
    exact mul_le_mul_of_nonneg_left (h.lipschitz _ _ _) hh
  have h3 : ‖z - y t'‖ ≤ ‖x - y t‖ + (t' - t) * (L * ‖z - y t'‖) + M * (t' - t) ^ 2 := by
    have h4 := norm_sub_le ((x - y t) + (t' - t) • (f t' z - f t' (y t')))
      (y t' - y t - (t' - t) • f t' (y t'))
    have h5 := norm_add_le (x - y t) ((t' - t) • (f t' z - f t' (y t')))
    rw [← e] at h4
    linarith
  have hL := h.L_nonneg
  have hM := h.M_nonneg
  have hq : L * (t' - t) ≤ 1 / 2 := (mul_le_mul_of_nonneg_left hhδ hL).trans hδ
  have hq0 : 0 ≤ L * (t' - t) := mul_nonneg hL hh
  -- `1 / (1 - q) ≤ 1 + 2 q ≤ 2` for `q ≤ 1 / 2`
  generalize hqd : L * (t' - t) = q at *
  have h6 : (1 - q) * ‖z - y t'‖ ≤ ‖x - y t‖ + M * (t' - t) ^ 2 := by
    have : (t' - t) * (L * ‖z - y t'‖) = q * ‖z - y t'‖ := by rw [← hqd]; ring
    linarith
  have h7 : ‖z - y t'‖ ≤ (1 + 2 * q) * (‖x - y t‖ + M * (t' - t) ^ 2) := by
    have h8 : 1 ≤ (1 + 2 * q) * (1 - q) := by nlinarith
    have h9 : 0 ≤ 1 + 2 * q := by linarith
    calc ‖z - y t'‖ = 1 * ‖z - y t'‖ := (one_mul _).symm
      _ ≤ ((1 + 2 * q) * (1 - q)) * ‖z - y t'‖ := mul_le_mul_of_nonneg_right h8 (norm_nonneg _)
      _ = (1 + 2 * q) * ((1 - q) * ‖z - y t'‖) := by ring
      _ ≤ _ := mul_le_mul_of_nonneg_left h6 h9
  have h10 : (1 + 2 * q) * (M * (t' - t) ^ 2) ≤ 2 * M * (t' - t) ^ 2 := by
    have : 0 ≤ M * (t' - t) ^ 2 := by positivity
    nlinarith
  have h11 : 1 + 2 * L * (t' - t) = 1 + 2 * q := by rw [← hqd]; ring
  rw [h11]
  calc ‖z - y t'‖ ≤ (1 + 2 * q) * (‖x - y t‖ + M * (t' - t) ^ 2) := h7
    _ = (1 + 2 * q) * ‖x - y t‖ + (1 + 2 * q) * (M * (t' - t) ^ 2) := by ring
    _ ≤ _ := by simp only [zero_mul, add_zero]; gcongr

/-- **C78, ImplicitEuler.** First order, for steps with `L * δ ≤ 1/2`, if the root finder is right whenever it
succeeds. -/
theorem C78_implicit_euler (h : LipschitzSolution f y a b L M) (root : (E → E) → E → E × Result)
    (hroot : ∀ rel guess, (root rel guess).2.isOkay = true → rel (root rel guess).1 = 0)
    (interp : LocalLin ℝ E) (δ : ℝ) (hδ : L * δ ≤ 1 / 2) :
    ErrorAtMost (implicitEuler ℝ (odeTerm f) root interp) (fun _ _ => ()) y a b δ
      (fun e η => Real.exp (2 * L * (b - a)) * (e + (b - a) * (2 * M * η))) :=
  ((implicitEuler_accurate h root hroot interp δ hδ).errorAtMost
    (mul_nonneg zero_le_two h.M_nonneg) (le_refl _) (mul_nonneg zero_le_two h.L_nonneg) _
    (fun _ _ => trivial)).mono (fun e η _ _ _ _ => by rw [pow_one, add_zero])

open Classical in
/-- A root finder for the examples: it returns a root if there is one. -/
noncomputable def anyRoot (rel : E → E) (guess : E) : E × Result :=
  if h : ∃ x, rel x = 0 then (h.choose, .successful) else (guess, .other 0)

theorem anyRoot_exact (rel : E → E) (guess : E) (h : (anyRoot rel guess).2.isOkay = true) :
    rel (anyRoot rel guess).1 = 0 := by
  unfold anyRoot at *
  split
  · rename_i h'; exact h'.choose_spec
  · rename_i h'; rw [dif_neg h'] at h; 
    have h2 : Result.isOkay (.other 0) = true := h
    exact absurd h2 (by decide)

/-- Euler's number, by the implicit Euler method with `n ≥ 2` steps: all the steps succeed, and the error is at
most a constant over `n`. -/
example (interp : LocalLin ℝ ℝ) (n : ℕ) (hn : 2 ≤ n) :
    ErrorAtMost (implicitEuler ℝ (odeTerm fun _ x : ℝ => x) anyRoot interp) (fun _ _ => ()) Real.exp 0 1 (1 / n)
      (fun e η => Real.exp 2 * (e + 2 * Real.exp 1 * η)) ∧
    (∀ t0 t1 : ℝ, t1 - t0 ≤ 1 / n → ∀ x mj,
      ((implicitEuler ℝ (odeTerm fun _ x : ℝ => x) anyRoot interp).step t0 t1 x () mj).result
        = .successful) := by
  have hn' : (2 : ℝ) ≤ n := by exact_mod_cast hn
  have hn1 : 1 / (n : ℝ) ≤ 1 / 2 := one_div_le_one_div_of_le two_pos hn'
  refine ⟨?_, ?_⟩
  · have := C78_implicit_euler exp_lipschitzSolution anyRoot anyRoot_exact interp (1 / n) (by rw [one_mul]; exact hn1)
    simpa using this
  · intro t0 t1 h x mj
    set d := t1 - t0 with hd
    have hd1 : 1 - d ≠ 0 := by linarith
    show (anyRoot _ _).2 = _
    unfold anyRoot
    rw [dif_pos]
    refine ⟨d * x / (1 - d), ?_⟩
    show d • (x + d * x / (1 - d)) - d * x / (1 - d) = 0
    rw [smul_eq_mul]
    field_simp
    ring

/-! ### HalfSolver -/

/-- The midpoint of a step. -/
noncomputable def midpoint' (t0 t1 : ℝ) : ℝ := t0 + (1 / 2) * (t1 - t0)

/-- `HalfSolver` around an accurate solver is accurate, with the local error divided by `2^N` (up to a
factor that tends to 1 as the steps get short). -/
theorem half_accurate {sv : Solver ℝ E Er D S} {V : ℝ → E → S → Bool → Prop} {δ A B K : ℝ} {N : ℕ}
    (hacc : sv.Accurate V y a b δ A B K N) (hA : 0 ≤ A) (hB : 0 ≤ B) (hK : 0 ≤ K) (dist : E → E → Er') :
    (halfSolver midpoint' dist sv).Accurate V y a b δ ((1 + K * δ / 4) * (A / 2 ^ N)) ((1 + K * δ / 4) * B)
      (K * (1 + K * δ / 4)) N := by
  have key : ∀ t t' : ℝ, t ≤ t' → t ≤ midpoint' t t' ∧ midpoint' t t' ≤ t' ∧
      midpoint' t t' - t = (t' - t) / 2 ∧ t' - midpoint' t t' = (t' - t) / 2 := by
    intro t t' h
    unfold midpoint'
    refine ⟨by linarith, by linarith, by ring, by ring⟩
  refine ⟨?_, ?_⟩
  · intro t t' x st mj hV hat htt htb hok mj'
    obtain ⟨k1, k2, -, -⟩ := key t t' htt
    obtain ⟨ey, es, -, -, hres, -⟩ := C43_step midpoint' dist sv t t' x st mj
    obtain ⟨r1, r2, -⟩ := hres.1 hok
    rw [ey, es]
    exact hacc.valid _ _ _ _ _ (hacc.valid _ _ _ _ _ hV hat k1 (k2.trans htb) r1 false) (hat.trans k1) k2 htb
      r2 mj'
  · intro t t' x st mj hV hat htt htb hδ hok
    obtain ⟨k1, k2, k3, k4⟩ := key t t' htt
    obtain ⟨ey, -, -, -, hres, -⟩ := C43_step midpoint' dist sv t t' x st mj
    obtain ⟨r1, r2, -⟩ := hres.1 hok
    have hh : 0 ≤ t' - t := sub_nonneg.2 htt
    have e1 := hacc.error _ _ _ _ _ hV hat k1 (k2.trans htb) (by rw [k3]; linarith) r1
    have e2 := hacc.error _ _ _ _ _ (hacc.valid _ _ _ _ _ hV hat k1 (k2.trans htb) r1 false) (hat.trans k1) k2
      htb (by rw [k4]; linarith) r2
    rw [ey]
    rw [k3] at e1
    rw [k4] at e2
    have he0 : 0 ≤ ‖x - y t‖ := norm_nonneg _
    generalize ‖x - y t‖ = e0 at *
    generalize t' - t = h at *
    have hq : 0 ≤ 1 + K * (h / 2) := by positivity
    have h2 := mul_le_mul_of_nonneg_left e1 hq
    refine e2.trans (((add_le_add_left (add_le_add_left h2 _) _)).trans ?_)
    have hp : (h / 2) ^ (N + 1) = h ^ (N + 1) / 2 ^ N / 2 := by
      rw [div_pow, pow_succ 2 N]; field_simp
    rw [hp]
    have hd : K * h ≤ K * δ := mul_le_mul_of_nonneg_left hδ hK
    have t0 : 0 ≤ K * h * e0 := by positivity
    have t1 : 0 ≤ A * (h ^ (N + 1) / 2 ^ N) := by positivity
    have t2 : 0 ≤ B * h := by positivity
    have u0 := mul_le_mul_of_nonneg_right hd t0
    have u1 := mul_le_mul_of_nonneg_right hd t1
    have u2 := mul_le_mul_of_nonneg_right hd t2
    have e : A / 2 ^ N * h ^ (N + 1) = A * (h ^ (N + 1) / 2 ^ N) := by ring
    rw [mul_assoc _ (A / 2 ^ N), e, mul_assoc _ B]
    generalize h ^ (N + 1) / 2 ^ N = P at *
    clear e1 e2 h2
    nlinarith

/-- **C78, HalfSolver.** Around a solver with local error `A h^(N+1)`, whole solves have the order `N` too,
with a constant smaller by `2^N` up to a factor close to 1. -/
theorem C78_half {sv : Solver ℝ E Er D S} {V : ℝ → E → S → Bool → Prop} {δ A B K : ℝ} {N : ℕ}
    (hacc : sv.Accurate V y a b δ A B K N) (hA : 0 ≤ A) (hB : 0 ≤ B) (hK : 0 ≤ K) (hδ : 0 ≤ δ)
    (init : ℝ → E → S) (hinit : ∀ y0 mj, V a y0 (init a y0) mj) (dist : E → E → Er') :
    ErrorAtMost (halfSolver midpoint' dist sv) init y a b δ
      (fun e η => Real.exp (K * (1 + K * δ / 4) * (b - a))
        * (e + (b - a) * (1 + K * δ / 4) * (A / 2 ^ N * η ^ N + B))) :=
  ((half_accurate hacc hA hB hK dist).errorAtMost (by positivity) (by positivity) (by positivity) init
    hinit).mono (fun e η _ _ _ _ => le_of_eq (by ring))

/-- Euler's number, by `HalfSolver(Euler())` with `n` steps. -/
example (interp : LocalLin ℝ ℝ) (n : ℕ) (hn : 0 < n) : ∃ tnext ctrl,
    constInit id (0 : ℝ) (some 1) (some (1 / n)) = some (tnext, ctrl) ∧
    ‖(solve (unitCfg (halfSolver midpoint' (fun u v => |u - v|) (euler (odeTerm fun _ x : ℝ => x) interp))
      constantStepSize (halfSolver midpoint' (fun u v : ℝ => |u - v|) (euler (odeTerm fun _ x : ℝ => x) interp)
        |>.step 0 0 0 () false).dense n) (Real.exp 0) tnext ctrl
      () false).yfinal - Real.exp 1‖ ≤ Real.exp (5 / 4) * (5 / 4 * (Real.exp 1 / 2)) * (1 / n) := by
  have hn' : (1 : ℝ) ≤ n := by exact_mod_cast hn
  obtain ⟨tnext, ctrl, h1, h2⟩ := unit_constant (C78_half (euler_accurate exp_lipschitzSolution interp 1)
    (Real.exp_pos 1).le (le_refl _) zero_le_one zero_le_one (fun _ _ => ()) (fun _ _ => trivial)
    (fun u v => |u - v|))
    (fun _ _ _ _ _ => rfl) (halfSolver midpoint' (fun u v : ℝ => |u - v|) (euler (odeTerm fun _ x : ℝ => x) interp)
        |>.step 0 0 0 () false).dense n hn (div_le_one_of_le₀ hn' (by positivity))
  refine ⟨tnext, ctrl, h1, h2.trans (le_of_eq ?_)⟩
  norm_num
  ring

/-- **C78, HalfSolver.** From an exact value, the error estimate is of the order `N + 1` that `HalfSolver`
reports as its `error_order`. -/
theorem C78_half_estimate {sv : Solver ℝ E Er D S} {V : ℝ → E → S → Bool → Prop} {δ A B K : ℝ} {N : ℕ}
    (hacc : sv.Accurate V y a b δ A B K N) (hA : 0 ≤ A) (hB : 0 ≤ B) (hK : 0 ≤ K)
    (t t' : ℝ) (st : S) (mj : Bool) (hV : V t (y t) st mj) (hat : a ≤ t) (htt : t ≤ t') (htb : t' ≤ b)
    (hδ : t' - t ≤ δ)
    (hok : ((halfSolver midpoint' (fun u v => ‖u - v‖) sv).step t t' (y t) st mj).result.isOkay = true) :
    ((halfSolver midpoint' (fun u v => ‖u - v‖) sv).step t t' (y t) st mj).err
      ≤ (2 + K * δ / 4) * (A * (t' - t) ^ (N + 1) + B * (t' - t)) := by
  obtain ⟨ey, -, eerr, -, hres, -⟩ := C43_step midpoint' (fun u v => ‖u - v‖) sv t t' (y t) st mj
  obtain ⟨-, -, r3⟩ := hres.1 hok
  have h1 := (half_accurate hacc hA hB hK (fun u v => ‖u - v‖)).error _ _ _ _ _ hV hat htt htb hδ hok
  have h2 := hacc.error _ _ _ _ _ hV hat htt htb hδ r3
  rw [ey] at h1
  rw [eerr]
  rw [sub_self, norm_zero, mul_zero, zero_add] at h1 h2
  have hh : 0 ≤ t' - t := sub_nonneg.2 htt
  have hδ0 : 0 ≤ δ := hh.trans hδ
  refine (norm_sub_le_norm_sub_add_norm_sub _ (y t') _).trans ?_
  rw [norm_sub_rev (y t')]
  have hp : (1 : ℝ) ≤ 2 ^ N := one_le_pow₀ one_le_two
  have h3 : A / 2 ^ N ≤ A := div_le_self hA hp
  have h4 : (1 + K * δ / 4) * (A / 2 ^ N) * (t' - t) ^ (N + 1) ≤ (1 + K * δ / 4) * A * (t' - t) ^ (N + 1) := by
    gcongr
  nlinarith

/-- The estimate of `HalfSolver(Euler())` on `y' = y` is quadratic in the step. -/
example (interp : LocalLin ℝ ℝ) (t t' : ℝ) (h0 : 0 ≤ t) (h1 : t ≤ t') (h2 : t' ≤ 1) :
    ((halfSolver midpoint' (fun u v => ‖u - v‖) (euler (odeTerm fun _ x : ℝ => x) interp)).step t t' (Real.exp t)
      () false).err ≤ (2 + 1 / 4) * (Real.exp 1 * (t' - t) ^ 2) := by
  have := C78_half_estimate (euler_accurate exp_lipschitzSolution interp 1) (Real.exp_pos 1).le (le_refl _)
    zero_le_one t t' () false trivial h0 h1 h2 (by linarith) rfl
  simpa using this

end

/-- **C78, HalfSolver** around any built-in Runge-Kutta solver (the hypotheses are proved for them in C61 and
C70). -/
theorem C78_half_rk {m : ℕ} {E J Er' : Type} [NormedAddCommGroup E] [NormedSpace ℝ E] [Module ℚ E]
    [CompleteSpace E] {tab : Fin m → Tableau ℚ} {s : ℕ} {c : ℕ → ℚ} {N M : ℕ} {ε δ' : ℚ}
    (hord : StepOrder tab N ε M δ') (hok : methodOK s c tab = true) (hε : 0 ≤ ε)
    (f : Fin m → ℝ → E → E) (cj : CalcJac) (rF rK : RootFinder E J) (nj : J)
    (hroot : (∃ p, (tab p).implicit = true) → rF.Exact ∧ rK.Exact) (L : ℝ) (hf : NiceODE f L)
    (y : ℝ → E) (hy : ∀ t, HasDerivAt y (∑ p, f p t (y t)) t) (a b D : ℝ) (hab : a ≤ b)
    (hD : ElemBound f y a b N D) :
    ∃ δ B K : ℝ, 0 < δ ∧ 0 ≤ B ∧ 0 ≤ K ∧ ∀ (dist : E → E → Er') interp,
      ErrorAtMost (halfSolver midpoint' dist { step := (odeRK tab f cj rF rK nj).step, interp := interp })
        (fun _ _ => (odeRK tab f cj rF rK nj).init) y a b δ
        (fun e η => Real.exp (K * (b - a)) * (e + (b - a) * (B * η ^ N + 2 * (ε * D)))) := by
  have hroot' : (odeRK tab f cj rF rK nj).RootExact := fun h =>
    hroot ((implicitPart_isSome tab f cj rF rK nj).1 h)
  obtain ⟨δ₀, A, hδ₀, hA, hacc⟩ := any_accurate hok hε hord f cj rF rK nj hroot' L hf y hy a b D hD
  have hB : 0 ≤ ε * D := mul_nonneg (by exact_mod_cast hε) (elemBound_nonneg hab hD)
  have hK : 0 ≤ 4 * bSum s tab * (m * s) * |L| := by have := bSum_nonneg tab s; positivity
  set K := 4 * bSum s tab * (m * s) * |L| with hKd
  have hK1 : 0 < 1 + K := by linarith
  refine ⟨min δ₀ (4 / (1 + K)), 2 * A, 2 * K, lt_min hδ₀ (by positivity), by positivity, by positivity, ?_⟩
  intro dist interp
  have hδ : K * min δ₀ (4 / (1 + K)) / 4 ≤ 1 := by
    have h1 : K * min δ₀ (4 / (1 + K)) ≤ K * (4 / (1 + K)) :=
      mul_le_mul_of_nonneg_left (min_le_right _ _) hK
    have h2 : K * (4 / (1 + K)) ≤ 4 := by
      rw [mul_div_assoc', div_le_iff₀ hK1]; linarith
    linarith
  have hacc' : Solver.Accurate { step := (odeRK tab f cj rF rK nj).step, interp := interp }
      (odeRK tab f cj rF rK nj).ValidState y a b (min δ₀ (4 / (1 + K))) A (ε * D) K N :=
    { valid := (hacc interp).valid
      error := fun t t' x st mj hst hat htt htb hd hk =>
        (hacc interp).error t t' x st mj hst hat htt htb (hd.trans (min_le_left _ _)) hk }
  refine (C78_half hacc' hA hB hK (le_of_lt (lt_min hδ₀ (by positivity)))
    (fun _ _ => (odeRK tab f cj rF rK nj).init) (fun _ _ => validState_init tab f cj rF rK nj _ _ _)
    dist).mono ?_
  intro e η he hη _ _
  have hba : 0 ≤ b - a := sub_nonneg.2 hab
  have hp : A / 2 ^ N ≤ A := div_le_self hA (one_le_pow₀ one_le_two)
  have hδ0 : 0 ≤ min δ₀ (4 / (1 + K)) := le_of_lt (lt_min hδ₀ (by positivity))
  have h1 : (1 + K * min δ₀ (4 / (1 + K)) / 4) * (A / 2 ^ N * η ^ N + ε * D) ≤ 2 * (A * η ^ N + ε * D) := by
    have : A / 2 ^ N * η ^ N ≤ A * η ^ N := mul_le_mul_of_nonneg_right hp (by positivity)
    have h0 : 0 ≤ A / 2 ^ N * η ^ N := by positivity
    apply mul_le_mul _ _ _ zero_le_two
    · linarith
    · linarith
    · linarith
  have h2 : K * (1 + K * min δ₀ (4 / (1 + K)) / 4) * (b - a) ≤ 2 * K * (b - a) := by
    have : K * (1 + K * min δ₀ (4 / (1 + K)) / 4) ≤ K * 2 := mul_le_mul_of_nonneg_left (by linarith) hK
    nlinarith
  calc _ ≤ Real.exp (2 * K * (b - a)) * (e + (b - a) * (2 * (A * η ^ N + ε * D))) := by
        rw [mul_assoc (b - a)]
        gcongr
    _ = _ := by ring

open Tab in
/-- `HalfSolver(Dopri5())` on `y' = y` has order 5. -/
example : ∃ δ B K : ℝ, 0 < δ ∧ ∀ interp,
    ErrorAtMost (halfSolver midpoint' (fun u v : ℝ => |u - v|)
        { step := (odeRK ![Dopri5.tableau] ![fun _ y : ℝ => y] .never (idealRoot ℝ) (idealRoot ℝ) ()).step,
          interp := interp })
      (fun _ _ => (odeRK ![Dopri5.tableau] ![fun _ y : ℝ => y] .never (idealRoot ℝ) (idealRoot ℝ) ()).init)
      Real.exp 0 1 δ (fun e η => Real.exp K * (e + B * η ^ 5)) := by
  obtain ⟨D, -, hD⟩ := elemBound_exists (![fun _ y => y] : Fin 1 → ℝ → ℝ → ℝ) Real.exp Real.continuous_exp
    linear_nice.analytic 0 1 5
  obtain ⟨δ, B, K, hδ, -, -, h⟩ := C78_half_rk (s := 7) (c := Dopri5.tableau.abscissa) C61_dopri5
    (by decide +kernel) (le_refl 0) ![fun _ y => y] .never (idealRoot ℝ) (idealRoot ℝ) ()
    (fun h => by
      obtain ⟨p, hp⟩ := h
      exact absurd hp (by fin_cases p; decide +kernel)) 1 linear_nice Real.exp
    exp_solves_everywhere 0 1 D zero_le_one hD
  refine ⟨δ, B, K, hδ, fun interp => ?_⟩
  have := h (fun u v : ℝ => |u - v|) interp
  simpa using this

/-! ### SemiImplicitEuler -/

section
variable {E₁ E₂ : Type} [NormedAddCommGroup E₁] [NormedSpace ℝ E₁] [NormedAddCommGroup E₂] [NormedSpace ℝ E₂]

/-- `(p, q)` solves `p' = f(t, q)`, `q' = g(t, p)`; `f` and `g` are `L`-Lipschitz; on `[a, b]` the derivatives of
`p` and `q` are `M`-Lipschitz, and that of `p` is at most `R`. -/
structure PartitionedSolution (f : ℝ → E₂ → E₁) (g : ℝ → E₁ → E₂) (p : ℝ → E₁) (q : ℝ → E₂)
    (a b L M R : ℝ) : Prop where
  L_nonneg : 0 ≤ L
  M_nonneg : 0 ≤ M
  R_nonneg : 0 ≤ R
  lip_f : ∀ t x x', ‖f t x - f t x'‖ ≤ L * ‖x - x'‖
  lip_g : ∀ t x x', ‖g t x - g t x'‖ ≤ L * ‖x - x'‖
  solves_p : ∀ t, HasDerivAt p (f t (q t)) t
  solves_q : ∀ t, HasDerivAt q (g t (p t)) t
  deriv_p : ∀ s ∈ Icc a b, ∀ t ∈ Icc a b, ‖f s (q s) - f t (q t)‖ ≤ M * |s - t|
  deriv_q : ∀ s ∈ Icc a b, ∀ t ∈ Icc a b, ‖g s (p s) - g t (p t)‖ ≤ M * |s - t|
  speed : ∀ t ∈ Icc a b, ‖f t (q t)‖ ≤ R

/-- `SemiImplicitEuler` applied to `p' = f(t, q)`, `q' = g(t, p)`. -/
def odeSemiImplicitEuler (f : ℝ → E₂ → E₁) (g : ℝ → E₁ → E₂) (interp : LocalLin ℝ (E₁ × E₂)) :
    Solver ℝ (E₁ × E₂) Unit ((E₁ × E₂) × (E₁ × E₂)) Unit :=
  semiImplicitEuler (fun t y c => c • f t y) (fun t0 t1 => t1 - t0) (fun t y c => c • g t y)
    (fun t0 t1 => t1 - t0) interp

/-- **C78, SemiImplicitEuler.** First order. -/
theorem C78_semi_implicit_euler {f : ℝ → E₂ → E₁} {g : ℝ → E₁ → E₂} {p : ℝ → E₁} {q : ℝ → E₂}
    {a b L M R : ℝ} (h : PartitionedSolution f g p q a b L M R) (interp : LocalLin ℝ (E₁ × E₂)) (δ : ℝ)
    (hδ : 0 ≤ δ) :
    ErrorAtMost (odeSemiImplicitEuler f g interp) (fun _ _ => ()) (fun t => (p t, q t)) a b δ
      (fun e η => Real.exp (L * (1 + L * δ) * (b - a)) * (e + (b - a) * ((M + L * R) * η))) := by
  have hL := h.L_nonneg
  have hM := h.M_nonneg
  have hR := h.R_nonneg
  have hacc : (odeSemiImplicitEuler f g interp).Accurate (fun _ _ _ _ => True) (fun t => (p t, q t)) a b δ
      (M + L * R) 0 (L * (1 + L * δ)) 1 := by
    refine ⟨fun _ _ _ _ _ _ _ _ _ _ _ => trivial, ?_⟩
    intro t t' x st mj _ hat htt htb hdδ _
    have hh : 0 ≤ t' - t := sub_nonneg.2 htt
    have ht : t ∈ Icc a b := ⟨hat, htt.trans htb⟩
    have ht' : t' ∈ Icc a b := ⟨hat.trans htt, htb⟩
    have h1 := taylor_one h.solves_p h.deriv_p hM ht' ht left_mem_uIcc
    have h2 := taylor_one h.solves_q h.deriv_q hM ht' ht left_mem_uIcc
    rw [abs_of_nonneg hh] at h1 h2
    obtain ⟨x1, x2⟩ := x
    set e0 := ‖(x1, x2) - (p t, q t)‖ with he0
    have b1 : ‖x1 - p t‖ ≤ e0 := norm_fst_le ((x1, x2) - (p t, q t))
    have b2 : ‖x2 - q t‖ ≤ e0 := norm_snd_le ((x1, x2) - (p t, q t))
    have he0' : 0 ≤ e0 := norm_nonneg _
    set d := t' - t with hd
    set p1 := x1 + d • f t x2 with hp1
    have c1 : ‖p1 - p t'‖ ≤ e0 + d * (L * e0) + M * d ^ 2 := by
      have e : p1 - p t' = (x1 - p t) + d • (f t x2 - f t (q t)) - (p t' - p t - d • f t (q t)) := by
        rw [hp1]; module
      rw [e]
      refine (norm_sub_le _ _).trans (add_le_add ((norm_add_le _ _).trans (add_le_add b1 ?_)) h1)
      rw [norm_smul, Real.norm_eq_abs, abs_of_nonneg hh]
      exact mul_le_mul_of_nonneg_left ((h.lip_f _ _ _).trans (mul_le_mul_of_nonneg_left b2 hL)) hh
    have c2 : ‖p1 - p t‖ ≤ e0 + d * (L * e0) + d * R := by
      have e : p1 - p t = (x1 - p t) + d • (f t x2 - f t (q t)) + d • f t (q t) := by
        rw [hp1]; module
      rw [e]
      refine (norm_add_le _ _).trans (add_le_add ((norm_add_le _ _).trans (add_le_add b1 ?_)) ?_)
      · rw [norm_smul, Real.norm_eq_abs, abs_of_nonneg hh]
        exact mul_le_mul_of_nonneg_left ((h.lip_f _ _ _).trans (mul_le_mul_of_nonneg_left b2 hL)) hh
      · rw [norm_smul, Real.norm_eq_abs, abs_of_nonneg hh]
        exact mul_le_mul_of_nonneg_left (h.speed t ht) hh
    have c3 : ‖x2 + d • g t p1 - q t'‖ ≤ e0 + d * (L * (e0 + d * (L * e0) + d * R)) + M * d ^ 2 := by
      have e : x2 + d • g t p1 - q t' = (x2 - q t) + d • (g t p1 - g t (p t)) - (q t' - q t - d • g t (p t)) := by
        module
      rw [e]
      refine (norm_sub_le _ _).trans (add_le_add ((norm_add_le _ _).trans (add_le_add b2 ?_)) h2)
      rw [norm_smul, Real.norm_eq_abs, abs_of_nonneg hh]
      exact mul_le_mul_of_nonneg_left ((h.lip_g _ _ _).trans (mul_le_mul_of_nonneg_left c2 hL)) hh
    have hstep : ((odeSemiImplicitEuler f g interp).step t t' (x1, x2) st mj).y - (p t', q t')
        = (p1 - p t', x2 + d • g t p1 - q t') := rfl
    rw [hstep, Prod.norm_def]
    have hdd : L * d ≤ L * δ := mul_le_mul_of_nonneg_left hdδ hL
    have u1 : L * d * (L * d * e0) ≤ L * δ * (L * d * e0) := mul_le_mul_of_nonneg_right hdd (by positivity)
    have u2 : 0 ≤ L * δ * (L * d * e0) := by positivity
    have u3 : 0 ≤ L * R * d ^ 2 := by positivity
    apply max_le
    · show ‖p1 - p t'‖ ≤ _
      refine c1.trans ?_
      rw [one_add_one_eq_two, zero_mul]
      nlinarith
    · show ‖x2 + d • g t p1 - q t'‖ ≤ _
      refine c3.trans ?_
      rw [one_add_one_eq_two, zero_mul]
      nlinarith
  exact (hacc.errorAtMost (by positivity) (le_refl _) (by positivity) _ (fun _ _ => trivial)).mono
    (fun e η _ _ _ _ => by rw [pow_one, add_zero])

/-- The pendulum `p' = -q`, `q' = p`, with solution `(cos, sin)`. -/
theorem circle_solution : PartitionedSolution (fun _ q : ℝ => -q) (fun _ p : ℝ => p) Real.cos Real.sin 0 1 1 1 1 where
  L_nonneg := zero_le_one
  M_nonneg := zero_le_one
  R_nonneg := zero_le_one
  lip_f := fun _ x x' => by rw [one_mul, neg_sub_neg, norm_sub_rev]
  lip_g := fun _ x x' => by rw [one_mul]
  solves_p := Real.hasDerivAt_cos
  solves_q := Real.hasDerivAt_sin
  deriv_p := by
    intro s _ t _
    have := Real.abs_sin_sub_sin_le t s
    rw [neg_sub_neg, one_mul, abs_sub_comm s t]; exact this
  deriv_q := by
    intro s _ t _
    have := Real.abs_cos_sub_cos_le s t
    rw [one_mul]; exact this
  speed := fun t _ => by rw [norm_neg]; exact Real.abs_sin_le_one t

example (interp : LocalLin ℝ (ℝ × ℝ)) (n : ℕ) (hn : 0 < n) : ∃ tnext ctrl,
    constInit id (0 : ℝ) (some 1) (some (1 / n)) = some (tnext, ctrl) ∧
    ‖(solve (unitCfg (odeSemiImplicitEuler (fun _ q : ℝ => -q) (fun _ p : ℝ => p) interp) constantStepSize
      ((0, 0), (0, 0)) n) (Real.cos 0, Real.sin 0) tnext ctrl () false).yfinal - (Real.cos 1, Real.sin 1)‖
      ≤ Real.exp 2 * (2 * (1 / n)) := by
  have hn' : (1 : ℝ) ≤ n := by exact_mod_cast hn
  obtain ⟨tnext, ctrl, h1, h2⟩ := unit_constant (C78_semi_implicit_euler circle_solution interp 1 zero_le_one)
    (fun _ _ _ _ _ => rfl) ((0, 0), (0, 0)) n hn (div_le_one_of_le₀ hn' (by positivity))
  refine ⟨tnext, ctrl, h1, h2.trans (le_of_eq ?_)⟩
  norm_num

end
end Verif
