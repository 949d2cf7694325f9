import Verif.Props.StrongSolve
import Verif.Lemmas.ItoTaylor
import Verif.Model.Sde

/-!
# C79: the solvers for stochastic equations converge, to the solution in the sense (Itô or Stratonovich) they document
-/

set_option linter.unusedSectionVars false

namespace Verif
open MeasureTheory ProbabilityTheory Filter Set Topology
open scoped InnerProductSpace ENNReal

variable {Ω : Type} {F : ℝ → MeasurableSpace Ω} {mΩ : MeasurableSpace Ω} {P : Measure Ω} [IsProbabilityMeasure P]
  {E : Type} [NormedAddCommGroup E] [InnerProductSpace ℝ E] {d : ℕ} {W : ℝ → Ω → Fin d → ℝ} {a b : ℝ}
  {Er D S : Type} {f : ℝ → E → E} {g : Fin d → ℝ → E → E} {Y : ℝ → Ω → E} {L : ℝ}

/-! ### Whole solves -/

theorem StrongErrorAtMost.mono {sv : Ω → Solver ℝ E Er D S} {init : Ω → E → S} {bound bound' : ℝ → ℝ → ℝ}
    (h : StrongErrorAtMost P F sv init Y a b bound)
    (hle : ∀ e η, 0 ≤ e → 0 ≤ η → a ≤ b → bound e η ≤ bound' e η) : StrongErrorAtMost P F sv init Y a b bound' := by
  intro C O G _ _ cfg hcfg y0 hy0 hy02 tnext ctrl mj p N η hη0 hp0 hpN hp hη hlog htf
  obtain ⟨ω⟩ := P.nonempty_of_neZero
  have hab : a ≤ b := by
    obtain ⟨h1, h2, h3, -⟩ := hcfg ω
    rw [← h2, ← h3]; exact h1.le
  obtain ⟨r1, r2⟩ := h C O G cfg hcfg y0 hy0 hy02 tnext ctrl mj p N η hη0 hp0 hpN hp hη hlog htf
  exact ⟨r1, r2.trans (hle _ _ (by positivity) hη0 hab)⟩

/-- **C79, constant steps.** With `ConstantStepSize` the steps are the same for all paths, so the estimate holds with
`η = dt0`. Every solve succeeds and ends at `b`. -/
theorem C79_constant {sv : Ω → Solver ℝ E Er D S} {init : Ω → E → S} {bound : ℝ → ℝ → ℝ}
    (h : StrongErrorAtMost P F sv init Y a b bound)
    (hokay : ∀ ω t0 t1 x st mj, ((sv ω).step t0 t1 x st mj).result = .successful)
    (O G : Type) [LinearOrder G] [Zero G] (cfg : Ω → Cfg ℝ E Er D S (ConstState ℝ) O G)
    (hcfg : ∀ ω, (cfg ω).WF ∧ (cfg ω).t0 = a ∧ (cfg ω).t1 = b ∧ (cfg ω).solver.step = (sv ω).step ∧
      (cfg ω).controller = constantStepSize ∧ (cfg ω).rootFinder = none ∧ (cfg ω).events = []) (hab : a < b)
    (y0 : Ω → E) (hy0 : StronglyMeasurable[F a] y0) (hy02 : MemLp y0 2 P)
    (dt0 : ℝ) (hdt : 0 < dt0) (tnext : ℝ) (ctrl : ConstState ℝ)
    (hinit : constInit id a (some b) (some dt0) = some (tnext, ctrl))
    (hfl : ∀ ω, b - (b - a) / (⌈(b - a) / dt0⌉ : Int) ≤ (cfg ω).floor)
    (hmax : ∀ ω, ⌈(b - a) / dt0⌉ ≤ (cfg ω).maxSteps) :
    (∀ ω, (solve (cfg ω) (y0 ω) tnext ctrl (init ω (y0 ω)) false).result = .successful ∧
      (solve (cfg ω) (y0 ω) tnext ctrl (init ω (y0 ω)) false).tfinal = b) ∧
    MemLp (fun ω => (solve (cfg ω) (y0 ω) tnext ctrl (init ω (y0 ω)) false).yfinal) 2 P ∧
    rms P (fun ω => (solve (cfg ω) (y0 ω) tnext ctrl (init ω (y0 ω)) false).yfinal - Y b ω) ^ 2
      ≤ bound (rms P (fun ω => y0 ω - Y a ω) ^ 2) dt0 := by
  have key := fun ω => C22_constant_steps (cfg ω) id dt0 (y0 ω) (init ω (y0 ω)) false tnext ctrl
    (by obtain ⟨-, h2, h3, -⟩ := hcfg ω; rw [h2, h3]; exact hinit)
    (by obtain ⟨-, h2, h3, -⟩ := hcfg ω; rw [h2, h3]; exact hab) hdt (le_refl _) (fun h => h) (hcfg ω).2.2.2.2.1
    (hcfg ω).2.2.2.2.2.2 (fun s t y st j => by rw [(hcfg ω).2.2.2.1, hokay]) (hcfg ω).1.floor_le
    (by obtain ⟨-, h2, h3, -⟩ := hcfg ω; rw [h2, h3]; exact hfl ω)
    (by obtain ⟨-, h2, h3, -⟩ := hcfg ω; rw [h2, h3]; exact hmax ω)
  obtain ⟨ω0⟩ := P.nonempty_of_neZero
  obtain ⟨n, p, hn, -, hp0, hpn, hlt, hle, -, hp1, hp2, -⟩ := key ω0
  have e2 := fun ω => (hcfg ω).2.1
  have e3 := fun ω => (hcfg ω).2.2.1
  rw [e2, e3] at hn hp1
  rw [e2] at hp0
  rw [e3] at hpn
  have hpk : ∀ k, 2 ≤ k → k ≤ n → p k = a + (b - a) * k / n := fun k h1 h2 => by
    have := hp2 k h1 h2; rwa [e2, e3] at this
  have hctrlE : ∀ ω, (cfg ω).controller.Exact := by
    intro ω
    rw [(hcfg ω).2.2.2.2.1]
    intro a b y0 y1 e st
    exact ⟨fun _ => rfl, fun h => by simp [constantStepSize, constAdapt] at h⟩
  have hend : ∀ ω, (solve (cfg ω) (y0 ω) tnext ctrl (init ω (y0 ω)) false).result = .successful ∧
      (solve (cfg ω) (y0 ω) tnext ctrl (init ω (y0 ω)) false).tfinal = b := by
    intro ω
    obtain ⟨_, _, _, _, _, _, _, _, _, _, _, htf, hres, -⟩ := key ω
    rw [e3] at htf
    exact ⟨hres, htf⟩
  refine ⟨hend, h _ O G cfg (fun ω => ⟨(hcfg ω).1, e2 ω, e3 ω, (hcfg ω).2.2.2.1, hctrlE ω, (hcfg ω).2.2.2.2.2.1⟩) y0 hy0
    hy02 tnext ctrl false p n dt0 hdt.le hp0 hpn hlt (fun k hk => by simpa using hle k hk) ?_ (fun ω => (hend ω).2)⟩
  intro ω
  obtain ⟨n', p', hn', hlog', hp0', hpn', -, -, -, hp1', hp2', -⟩ := key ω
  rw [e2, e3] at hn' hp1'
  rw [e2] at hp0'
  have hnn : n' = n := by
    have : (n' : ℤ) = n := by rw [hn', hn]
    exact_mod_cast this
  subst hnn
  rw [hlog']
  have hpp : ∀ k ≤ n', p' k = p k := by
    intro k hk
    match k with
    | 0 => rw [hp0, hp0']
    | 1 => rw [hp1, hp1']
    | k + 2 =>
      have := hp2' (k + 2) (by omega) hk
      rw [e2, e3] at this
      rw [this, hpk (k + 2) (by omega) hk]
  refine List.map_congr_left fun k hk => ?_
  have := List.mem_range.1 hk
  rw [hpp k (by omega), hpp (k + 1) (by omega)]

/-- **C79, `StepTo`.** Likewise, with the longest of the prescribed steps. -/
theorem C79_stepTo {sv : Ω → Solver ℝ E Er D S} {init : Ω → E → S} {bound : ℝ → ℝ → ℝ}
    (h : StrongErrorAtMost P F sv init Y a b bound)
    (hokay : ∀ ω t0 t1 x st mj, ((sv ω).step t0 t1 x st mj).result = .successful)
    (O G : Type) [LinearOrder G] [Zero G] (cfg : Ω → Cfg ℝ E Er D S Nat O G) (ts : List ℝ) (dflt : ℝ)
    (hcfg : ∀ ω, (cfg ω).WF ∧ (cfg ω).t0 = a ∧ (cfg ω).t1 = b ∧ (cfg ω).solver.step = (sv ω).step ∧
      (cfg ω).controller = stepTo ts dflt ∧ (cfg ω).rootFinder = none ∧ (cfg ω).events = [])
    (y0 : Ω → E) (hy0 : StronglyMeasurable[F a] y0) (hy02 : MemLp y0 2 P)
    (hvalid : stepToValid ts = true) (η : ℝ) (hη0 : 0 ≤ η)
    (hη : ∀ i (hi : i + 1 < ts.length), ts[i + 1] - ts[i] ≤ η) (tnext : ℝ) (ctrl : Nat)
    (hinit : stepToInit ts a b false = some (tnext, ctrl))
    (hfl : ∀ ω i (hi : i < ts.length), i + 1 < ts.length → ts[i] ≤ (cfg ω).floor)
    (hmax : ∀ ω, ts.length ≤ (cfg ω).maxSteps + 1) :
    (∀ ω, (solve (cfg ω) (y0 ω) tnext ctrl (init ω (y0 ω)) false).result = .successful ∧
      (solve (cfg ω) (y0 ω) tnext ctrl (init ω (y0 ω)) false).tfinal = b) ∧
    MemLp (fun ω => (solve (cfg ω) (y0 ω) tnext ctrl (init ω (y0 ω)) false).yfinal) 2 P ∧
    rms P (fun ω => (solve (cfg ω) (y0 ω) tnext ctrl (init ω (y0 ω)) false).yfinal - Y b ω) ^ 2
      ≤ bound (rms P (fun ω => y0 ω - Y a ω) ^ 2) η := by
  have key := fun ω => C23_stepTo ts dflt (cfg ω) (y0 ω) (init ω (y0 ω)) false tnext ctrl hvalid
    (by obtain ⟨-, h2, h3, -⟩ := hcfg ω; rw [h2, h3]; exact hinit) (hcfg ω).2.2.2.2.1 (hcfg ω).2.2.2.2.2.2
    (fun s t y st j => by rw [(hcfg ω).2.2.2.1, hokay]) (hfl ω) (hmax ω)
  have e2 := fun ω => (hcfg ω).2.1
  have e3 := fun ω => (hcfg ω).2.2.1
  obtain ⟨hlen, hpw⟩ := stepToValid_pairwise ts hvalid
  have hends : ts.head? = some a ∧ ts.getLast? = some b := by
    unfold stepToInit at hinit
    simp only [Bool.false_eq_true, if_false] at hinit
    split at hinit
    · exact absurd hinit (by simp)
    · rename_i h; rw [not_or, not_not, not_not] at h; exact h
  let p : ℕ → ℝ := fun k => (ts[k]?).getD 0
  have hpk : ∀ k (hk : k < ts.length), p k = ts[k] := fun k hk => by simp [p, List.getElem?_eq_getElem hk]
  have hctrlE : ∀ ω, (cfg ω).controller.Exact := by
    intro ω
    rw [(hcfg ω).2.2.2.2.1]
    intro a b y0 y1 e st
    exact ⟨fun _ => rfl, fun h => by simp [stepTo] at h⟩
  have hend : ∀ ω, (solve (cfg ω) (y0 ω) tnext ctrl (init ω (y0 ω)) false).result = .successful ∧
      (solve (cfg ω) (y0 ω) tnext ctrl (init ω (y0 ω)) false).tfinal = b := fun ω =>
    ⟨(key ω).2.2.1, by rw [← e3 ω]; exact (key ω).2.1⟩
  have hp0 : p 0 = a := by
    have := hends.1
    rw [List.head?_eq_getElem?] at this
    simp [p, this]
  have hpN : p (ts.length - 1) = b := by
    have := hends.2
    rw [List.getLast?_eq_getElem?] at this
    simp [p, this]
  refine ⟨hend, h _ O G cfg (fun ω => ⟨(hcfg ω).1, e2 ω, e3 ω, (hcfg ω).2.2.2.1, hctrlE ω, (hcfg ω).2.2.2.2.2.1⟩) y0 hy0
    hy02 tnext ctrl false p (ts.length - 1) η hη0 hp0 hpN ?_ ?_ ?_ (fun ω => (hend ω).2)⟩
  · intro k hk
    rw [hpk k (by omega), hpk (k + 1) (by omega)]
    exact hpw k (k + 1) (by omega) (by omega)
  · intro k hk
    rw [hpk k (by omega), hpk (k + 1) (by omega)]
    exact hη k (by omega)
  · intro ω
    rw [(key ω).1]
    refine List.ext_getElem (by simp) fun k h1 h2 => ?_
    have hk : k + 1 < ts.length := by simp at h2; omega
    simp [hpk k (by omega), hpk (k + 1) hk]

/-! ### Methods that are close to the Euler–Maruyama method -/

/-- A method whose step is that of Euler–Maruyama, up to something of the size of the length of the step that cannot be
foreseen, and something of the size of its power 3/2, converges to the solution in the sense of Itô. -/
theorem C79_near_euler (hW : BrownianNoise P F a W) (hY : ItoSolution P F W f g a b Y) (hL : 0 ≤ L)
    (hf : ItoLipschitz f a b L) (hg : ∀ j, ItoLipschitz (g j) a b L) {c : ℝ} (hc : 0 ≤ c)
    (sv : Ω → Solver ℝ E Er D S) (init : Ω → E → S) (val : Ω → ℝ → ℝ → E → E)
    (good : Ω → ℝ → E → S → Prop) (hinit : ∀ ω x, good ω a x (init ω x))
    (hval : ∀ ω s t x st mj, good ω s x st → ((sv ω).step s t x st mj).y = val ω s t x ∧
      good ω t (val ω s t x) ((sv ω).step s t x st mj).state)
    (hsv : ∀ s t, a ≤ s → s ≤ t → t ≤ b → ∀ V : Ω → E, StronglyMeasurable[F s] V → MemLp V 2 P →
      ∃ R1 R2 : Ω → E, StronglyMeasurable[F t] R1 ∧ StronglyMeasurable[F t] R2 ∧ MemLp R1 2 P ∧ MemLp R2 2 P ∧
        (∀ Z : Ω → E, StronglyMeasurable[F s] Z → MemLp Z 2 P → ∫ ω, ⟪Z ω, R1 ω⟫_ℝ ∂P = 0) ∧
        rms P R1 ≤ c * (t - s) * (1 + rms P V) ∧ rms P R2 ≤ c * (t - s) * √(t - s) * (1 + rms P V) ∧
        ∀ ω, val ω s t (V ω)
          = V ω + (t - s) • f s (V ω) + ∑ j, (W t ω j - W s ω j) • g j s (V ω) + R1 ω + R2 ω) :
    ∃ K, StrongErrorAtMost P F sv init Y a b (fun e η => K * (e + η)) := by
  rcases le_or_gt a b with hab | hab
  swap
  · refine ⟨0, ?_⟩
    intro C O G _ _ cfg hcfg
    obtain ⟨ω⟩ := P.nonempty_of_neZero
    obtain ⟨h1, h2, h3, -⟩ := hcfg ω
    have := h1.le
    rw [h2, h3] at this
    exact absurd this (not_le.2 hab)
  obtain ⟨α, β, hα, hβ, hstep⟩ := hY.step hW hL hf hg hc
  have hmain := C79_of_step (F := F) (α := α) (β := β) (θ := Real.sqrt) sv init val good hinit hval (hY.memLp a (left_mem_Icc.2 hab))
    (hY.memLp b (right_mem_Icc.2 hab)) (fun x y h => Real.sqrt_le_sqrt h) (fun h => Real.sqrt_nonneg h) (by
      intro s t hs hst htb V hV hV2
      obtain ⟨R1, R2, s1, s2, m1, m2, o1, r1, r2, he⟩ := hsv s t hs hst.le htb V hV hV2
      have hsI : s ∈ Icc a b := ⟨hs, hst.le.trans htb⟩
      have hmono := hW.mono s t hst.le
      have sg : ∀ j, StronglyMeasurable[F s] (fun ω => g j s (V ω)) := fun j => (hg j).measurable hL hsI hV
      have e' : (fun ω => val ω s t (V ω)) = fun ω => V ω + (t - s) • f s (V ω)
          + mulNoise (fun j ω => g j s (V ω)) (incr W s t) ω + R1 ω + R2 ω := by funext ω; exact he ω
      refine ⟨?_, ?_, hstep s t hs hst.le htb V _ R1 R2 hV hV2 m1 m2 o1 r1 r2 (fun ω => he ω)⟩
      · rw [e']
        exact ((((hV.mono hmono).add ((hf.measurable hL hsI hV).mono hmono |>.const_smul _)).add
          (mulNoise_measurable hW hs hst.le sg)).add s1).add s2
      · rw [e']
        exact memLp_add (memLp_add (memLp_add (memLp_add hV2 ((hf.memLp hL hsI hV2).const_smul _))
          ((hW.white hs hst.le).memLp_mulNoise sg (fun j => (hg j).memLp hL hsI hV2))) m1) m2)
  refine ⟨Real.exp ((1 + 4 * α ^ 2) * (b - a)) * (1 + 4 * β ^ 2 * (b - a)), hmain.mono fun e η he hη _ => ?_⟩
  rw [Real.sq_sqrt hη, mul_assoc (Real.exp _)]
  refine mul_le_mul_of_nonneg_left ?_ (Real.exp_pos _).le
  have h1 : 0 ≤ 4 * β ^ 2 * (b - a) := mul_nonneg (by positivity) (by linarith)
  nlinarith [mul_nonneg h1 he]

/-- **C79, Euler.** The Euler–Maruyama method converges to the solution in the sense of Itô, with strong order 1/2: the
mean square of the error at the end is at most a constant times the mean square of the initial error plus the length of
the longest step. -/
theorem C79_euler (hW : BrownianNoise P F a W) (hY : ItoSolution P F W f g a b Y) (hL : 0 ≤ L)
    (hf : ItoLipschitz f a b L) (hg : ∀ j, ItoLipschitz (g j) a b L) (interp : LocalLin ℝ E) :
    ∃ K, StrongErrorAtMost P F (fun ω => euler (multiTerm (odeTerm f) (noiseTerm g fun t => W t ω)) interp)
      (fun _ _ => ()) Y a b (fun e η => K * (e + η)) := by
  refine C79_near_euler hW hY hL hf hg le_rfl _ (fun _ _ => ()) _ (fun _ _ _ _ => True)
    (fun _ _ => trivial) (fun _ _ _ _ _ _ _ => ⟨rfl, trivial⟩) ?_
  intro s t hs hst htb V hV hV2
  refine ⟨fun _ => 0, fun _ => 0, stronglyMeasurable_const, stronglyMeasurable_const, MemLp.zero', MemLp.zero', ?_, ?_,
    ?_, ?_⟩
  · intro Z _ _; simp
  · rw [rms_const]; simp
  · rw [rms_const]; simp
  · intro ω
    rw [add_zero, add_zero, add_assoc]
    rfl

/-! ### Milstein's methods, and Euler–Heun -/

theorem milsteinTerm_small (hW : BrownianNoise P F a W) (hL : 0 ≤ L) (hg : ∀ j, ItoLipschitz (g j) a b L)
    (hg1 : ∀ t ∈ Icc a b, ∀ j, ContDiff ℝ 1 (g j t)) :
    ∃ c, 0 ≤ c ∧ ∀ s t, a ≤ s → s ≤ t → t ≤ b → ∀ V : Ω → E, StronglyMeasurable[F s] V → MemLp V 2 P →
      StronglyMeasurable[F t] (milsteinTerm g W V s t) ∧ MemLp (milsteinTerm g W V s t) 2 P ∧
      (∀ Z : Ω → E, StronglyMeasurable[F s] Z → MemLp Z 2 P → ∫ ω, ⟪Z ω, milsteinTerm g W V s t ω⟫_ℝ ∂P = 0) ∧
      rms P (milsteinTerm g W V s t) ≤ c * (t - s) * (1 + rms P V) := by
  obtain ⟨c, hc0, hc⟩ := hW.centred
  set K := ∑ j, ‖g j a 0‖ with hK
  have hK0 : 0 ≤ K := Finset.sum_nonneg fun _ _ => norm_nonneg _
  have hKj : ∀ j, ‖g j a 0‖ ≤ K := fun j =>
    Finset.single_le_sum (f := fun j => ‖g j a 0‖) (fun _ _ => norm_nonneg _) (Finset.mem_univ j)
  refine ⟨1 / 2 * (d * (d * (c * (L * (K + L * √(b - a) + L))))), by positivity, ?_⟩
  intro s t hs hst htb V hV hV2
  have hsI : s ∈ Icc a b := ⟨hs, hst.trans htb⟩
  have hts : 0 ≤ t - s := by linarith
  have hw := hW.white hs hst
  set Gz : Fin d → Fin d → Ω → E := fun i j ω => fderiv ℝ (g j s) (V ω) (g i s (V ω)) with hGz
  have sG : ∀ i j, StronglyMeasurable[F s] (Gz i j) := by
    intro i j
    have hcont : Continuous fun y => fderiv ℝ (g j s) y (g i s y) :=
      ((hg1 s hsI j).continuous_fderiv one_ne_zero).clm_apply ((hg i).continuous hL hsI)
    exact hcont.comp_stronglyMeasurable hV
  have nG : ∀ i j ω, ‖Gz i j ω‖ ≤ ‖L • g i s (V ω)‖ := by
    intro i j ω
    rw [norm_smul, Real.norm_of_nonneg hL]
    exact (ContinuousLinearMap.le_opNorm _ _).trans
      (mul_le_mul_of_nonneg_right (fderiv_le_of_lip hL (hg j) hsI _) (norm_nonneg _))
  have mLg : ∀ i, MemLp (fun ω => L • g i s (V ω)) 2 P := fun i => ((hg i).memLp hL hsI hV2).const_smul L
  have mG : ∀ i j, MemLp (Gz i j) 2 P := fun i j =>
    (mLg i).mono ((sG i j).mono (hW.le s)).aestronglyMeasurable (ae_of_all _ (nG i j))
  have rV0 : 0 ≤ rms P V := rms_nonneg V
  have rG : ∀ i j, rms P (Gz i j) ≤ L * (K + L * √(b - a) + L) * (1 + rms P V) := by
    intro i j
    refine (rms_mono (mLg i) (nG i j)).trans ?_
    rw [rms_smul, abs_of_nonneg hL, mul_assoc]
    refine mul_le_mul_of_nonneg_left ?_ hL
    refine ((hg i).rms_le hL hsI hV2).trans ?_
    have h1 := hKj i
    have h2 : 0 ≤ (K + L * √(b - a)) * rms P V := by positivity
    nlinarith
  have mt : ∀ i j, MemLp (fun ω => centred (t - s) i j (incr W s t ω) • Gz i j ω) 2 P ∧
      rms P (fun ω => centred (t - s) i j (incr W s t ω) • Gz i j ω)
        = rms P (fun ω => centred (t - s) i j (incr W s t ω)) * rms P (Gz i j) := fun i j =>
    hw.memLp_fun _ (measurable_centred _ i j) (hc s t hs hst i j).1 (sG i j) (mG i j)
  have ms : ∀ i, MemLp (fun ω => ∑ j, centred (t - s) i j (incr W s t ω) • Gz i j ω) 2 P := fun i =>
    memLp_finsetSum _ fun j _ => (mt i j).1
  have mss : MemLp (fun ω => ∑ i, ∑ j, centred (t - s) i j (incr W s t ω) • Gz i j ω) 2 P :=
    memLp_finsetSum _ fun i _ => ms i
  refine ⟨?_, mss.const_smul _, ?_, ?_⟩
  · refine StronglyMeasurable.const_smul (Finset.stronglyMeasurable_fun_sum _ fun i _ =>
      Finset.stronglyMeasurable_fun_sum _ fun j _ => ?_) _
    refine StronglyMeasurable.smul ?_ ((sG i j).mono (hW.mono s t hst))
    exact ((measurable_centred (t - s) i j).comp (incr_measurable hW hs hst)).stronglyMeasurable
  · intro Z hZ hZ2
    unfold milsteinTerm
    simp only [inner_smul_right, inner_sum]
    rw [integral_const_mul, integral_finsetSum, Finset.sum_eq_zero, mul_zero]
    · intro i _
      rw [integral_finsetSum, Finset.sum_eq_zero]
      · intro j _
        have := hw.orthogonal_fun _ (measurable_centred (t - s) i j) (hc s t hs hst i j).1 (hc s t hs hst i j).2.1
          (sG i j) (mG i j) hZ hZ2
        simpa only [inner_smul_right] using this
      · intro j _
        simpa only [inner_smul_right] using integrable_inner hZ2 (mt i j).1
    · intro i _
      refine integrable_finsetSum _ fun j _ => ?_
      simpa only [inner_smul_right] using integrable_inner hZ2 (mt i j).1
  · have h1 : rms P (milsteinTerm g W V s t)
        = 1 / 2 * rms P (fun ω => ∑ i, ∑ j, centred (t - s) i j (incr W s t ω) • Gz i j ω) := by
      have := rms_smul (P := P) (1 / 2 : ℝ) (fun ω => ∑ i, ∑ j, centred (t - s) i j (incr W s t ω) • Gz i j ω)
      rw [abs_of_pos (by norm_num)] at this
      exact this
    rw [h1]
    have h2 : rms P (fun ω => ∑ i, ∑ j, centred (t - s) i j (incr W s t ω) • Gz i j ω)
        ≤ ∑ _i : Fin d, ∑ _j : Fin d, c * (t - s) * (L * (K + L * √(b - a) + L) * (1 + rms P V)) := by
      refine (rms_sum_le _ _ fun i _ => ms i).trans (Finset.sum_le_sum fun i _ => ?_)
      refine (rms_sum_le _ _ fun j _ => (mt i j).1).trans (Finset.sum_le_sum fun j _ => ?_)
      rw [(mt i j).2]
      exact mul_le_mul (hc s t hs hst i j).2.2 (rG i j) (rms_nonneg _) (by positivity)
    calc _ ≤ 1 / 2 * ∑ _i : Fin d, ∑ _j : Fin d, c * (t - s) * (L * (K + L * √(b - a) + L) * (1 + rms P V)) :=
          mul_le_mul_of_nonneg_left h2 (by norm_num)
      _ = _ := by simp; ring

/-- The sum over all pairs is the centred sum and the sum over the diagonal. -/
theorem sum_pairs (h : ℝ) (x : Fin d → ℝ) (G : Fin d → Fin d → E) :
    (1 / 2 : ℝ) • ∑ i, ∑ j, (x i * x j) • G i j
      = (1 / 2 : ℝ) • ∑ i, ∑ j, centred h i j x • G i j + h • (1 / 2 : ℝ) • ∑ i, G i i := by
  have : ∑ i, ∑ j, (x i * x j) • G i j = ∑ i, ∑ j, centred h i j x • G i j + h • ∑ i, G i i := by
    rw [Finset.smul_sum, ← Finset.sum_add_distrib]
    refine Finset.sum_congr rfl fun i _ => ?_
    simp only [centred, sub_smul, Finset.sum_sub_distrib]
    rw [Finset.sum_eq_single (a := i) (f := fun j => (if i = j then h else 0) • G i j)]
    · simp
    · intro j _ hj; rw [if_neg (Ne.symm hj), zero_smul]
    · simp
  rw [this]; module

theorem noise_prod_deriv (v : Fin d → E) (x : Fin d → ℝ) (j : Fin d) :
    fderiv ℝ (fun w : Fin d → ℝ => ∑ i, w i • v i) x (Pi.single j 1) = v j := by
  have h : HasFDerivAt (fun w : Fin d → ℝ => ∑ i, w i • v i)
      (∑ i, (ContinuousLinearMap.proj (R := ℝ) (φ := fun _ : Fin d => ℝ) i).smulRight (v i)) x :=
    HasFDerivAt.fun_sum fun i _ => ((ContinuousLinearMap.proj (R := ℝ) (φ := fun _ : Fin d => ℝ) i).hasFDerivAt).smul_const
      (v i)
  rw [h.fderiv]
  simp [Pi.single_apply]

/-- The value of a step of ItoMilstein. -/
theorem itoMilstein_value {interp : LocalLin ℝ E} {s t : ℝ} (hg1 : ∀ j, ContDiff ℝ 1 (g j s)) (V : Ω → E) (ω : Ω) :
    ((itoMilstein (odeTerm f) (noiseTerm g fun t => W t ω) interp).step s t (V ω) () false).y
      = V ω + (t - s) • f s (V ω) + ∑ j, (W t ω j - W s ω j) • g j s (V ω) + milsteinTerm g W V s t ω := by
  have hd : ∀ y v j, fderiv ℝ (fun y j => g j s y) y v j = fderiv ℝ (g j s) y v := by
    intro y v j
    have : HasFDerivAt (fun y j => g j s y) (ContinuousLinearMap.pi fun j => fderiv ℝ (g j s) y) y :=
      hasFDerivAt_pi.2 fun j => ((hg1 j).differentiable one_ne_zero y).hasFDerivAt
    rw [this.fderiv]; rfl
  show V ω + (t - s) • f s (V ω) + ∑ j, (W t ω - W s ω) j • g j s (V ω) + (1 / 2 : ℝ) • ∑ i, ∑ j,
    ((W t ω - W s ω) i * (W t ω - W s ω) j - if i = j then t - s else 0) •
      fderiv ℝ (fun w : Fin d → ℝ => ∑ k, w k • fderiv ℝ (fun y j => g j s y) (V ω)
        (fderiv ℝ (fun w : Fin d → ℝ => ∑ k, w k • g k s (V ω)) (W t ω - W s ω) (Pi.single i 1)) k)
        (W t ω - W s ω) (Pi.single j 1) = _
  simp only [noise_prod_deriv, hd]
  rfl

/-- The value of a step of StratonovichMilstein. -/
theorem stratonovichMilstein_value {interp : LocalLin ℝ E} {s t : ℝ} (hg1 : ∀ j, ContDiff ℝ 1 (g j s)) (V : Ω → E)
    (ω : Ω) :
    ((stratonovichMilstein (odeTerm f) (noiseTerm g fun t => W t ω) interp).step s t (V ω) () false).y
      = V ω + (t - s) • stratonovichCorrected f g s (V ω) + ∑ j, (W t ω j - W s ω j) • g j s (V ω)
        + milsteinTerm g W V s t ω := by
  have hd : ∀ (x : Fin d → ℝ) (v : E), fderiv ℝ (fun y => ∑ j, x j • g j s y) (V ω) v
      = ∑ j, x j • fderiv ℝ (g j s) (V ω) v := by
    intro x v
    have : HasFDerivAt (fun y => ∑ j, x j • g j s y) (∑ j, x j • fderiv ℝ (g j s) (V ω)) (V ω) :=
      HasFDerivAt.fun_sum fun j _ => (((hg1 j).differentiable one_ne_zero (V ω)).hasFDerivAt).const_smul (x j)
    rw [this.fderiv]; simp
  show V ω + (t - s) • f s (V ω) + ∑ j, (W t ω - W s ω) j • g j s (V ω) + (1 / 2 : ℝ) •
    fderiv ℝ (fun y => ∑ j, (W t ω - W s ω) j • g j s y) (V ω) (∑ j, (W t ω - W s ω) j • g j s (V ω)) = _
  rw [hd]
  have e : ∑ j, (W t ω - W s ω) j • fderiv ℝ (g j s) (V ω) (∑ j, (W t ω - W s ω) j • g j s (V ω))
      = ∑ i, ∑ j, (incr W s t ω i * incr W s t ω j) • fderiv ℝ (g j s) (V ω) (g i s (V ω)) := by
    rw [Finset.sum_comm]
    refine Finset.sum_congr rfl fun j _ => ?_
    simp only [map_sum, map_smul, Finset.smul_sum, smul_smul, incr]
    exact Finset.sum_congr rfl fun i _ => by rw [mul_comm]
  rw [e, sum_pairs (t - s)]
  unfold milsteinTerm stratonovichCorrected
  simp only [Pi.sub_apply]
  module

/-- **C79, ItoMilstein.** It converges to the solution in the sense of Itô. -/
theorem C79_ito_milstein (hW : BrownianNoise P F a W) (hY : ItoSolution P F W f g a b Y) (hL : 0 ≤ L)
    (hf : ItoLipschitz f a b L) (hg : ∀ j, ItoLipschitz (g j) a b L) (hg1 : ∀ t ∈ Icc a b, ∀ j, ContDiff ℝ 1 (g j t))
    (interp : LocalLin ℝ E) :
    ∃ K, StrongErrorAtMost P F (fun ω => itoMilstein (odeTerm f) (noiseTerm g fun t => W t ω) interp)
      (fun _ _ => ()) Y a b (fun e η => K * (e + η)) := by
  obtain ⟨c, hc0, hc⟩ := milsteinTerm_small hW hL hg hg1
  refine C79_near_euler hW hY hL hf hg hc0 _ (fun _ _ => ()) _ (fun _ _ _ _ => True)
    (fun _ _ => trivial) (fun _ _ _ _ _ _ _ => ⟨rfl, trivial⟩) ?_
  intro s t hs hst htb V hV hV2
  obtain ⟨h1, h2, h3, h4⟩ := hc s t hs hst htb V hV hV2
  have hsI : s ∈ Icc a b := ⟨hs, hst.trans htb⟩
  refine ⟨milsteinTerm g W V s t, fun _ => 0, h1, stronglyMeasurable_const, h2, MemLp.zero', h3, h4, ?_, ?_⟩
  · rw [rms_const, norm_zero]
    have : 0 ≤ rms P V := rms_nonneg V
    have : 0 ≤ t - s := by linarith
    positivity
  · intro ω
    refine (itoMilstein_value (interp := interp) (fun j => hg1 s hsI j) V ω).trans ?_
    rw [add_zero]

/-- **C79, StratonovichMilstein.** It converges to the solution in the sense of Stratonovich. -/
theorem C79_stratonovich_milstein (hW : BrownianNoise P F a W) (hY : StratonovichSolution P F W f g a b Y) (hL : 0 ≤ L)
    (hf : ItoLipschitz (stratonovichCorrected f g) a b L) (hg : ∀ j, ItoLipschitz (g j) a b L)
    (hg1 : ∀ t ∈ Icc a b, ∀ j, ContDiff ℝ 1 (g j t)) (interp : LocalLin ℝ E) :
    ∃ K, StrongErrorAtMost P F (fun ω => stratonovichMilstein (odeTerm f) (noiseTerm g fun t => W t ω) interp)
      (fun _ _ => ()) Y a b (fun e η => K * (e + η)) := by
  obtain ⟨c, hc0, hc⟩ := milsteinTerm_small hW hL hg hg1
  refine C79_near_euler hW hY hL hf hg hc0 _ (fun _ _ => ()) _ (fun _ _ _ _ => True)
    (fun _ _ => trivial) (fun _ _ _ _ _ _ _ => ⟨rfl, trivial⟩) ?_
  intro s t hs hst htb V hV hV2
  obtain ⟨h1, h2, h3, h4⟩ := hc s t hs hst htb V hV hV2
  have hsI : s ∈ Icc a b := ⟨hs, hst.trans htb⟩
  refine ⟨milsteinTerm g W V s t, fun _ => 0, h1, stronglyMeasurable_const, h2, MemLp.zero', h3, h4, ?_, ?_⟩
  · rw [rms_const, norm_zero]
    have : 0 ≤ rms P V := rms_nonneg V
    have : 0 ≤ t - s := by linarith
    positivity
  · intro ω
    refine (stratonovichMilstein_value (interp := interp) (fun j => hg1 s hsI j) V ω).trans ?_
    rw [add_zero]

/-- **C79, EulerHeun.** It converges to the solution in the sense of Stratonovich. The last hypothesis is the estimate of
the second order terms, in the directions of the noise; it holds for example if `g` is linear, or if `g` is bounded and
its derivative is Lipschitz. -/
theorem C79_euler_heun (hW : BrownianNoise P F a W) (hY : StratonovichSolution P F W f g a b Y) (hL : 0 ≤ L)
    (hf : ItoLipschitz (stratonovichCorrected f g) a b L) (hg : ∀ j, ItoLipschitz (g j) a b L)
    (hg1 : ∀ t ∈ Icc a b, ∀ j, ContDiff ℝ 1 (g j t)) {Λ : ℝ} (hΛ : 0 ≤ Λ)
    (hg2 : ∀ t ∈ Icc a b, ∀ j y (x : Fin d → ℝ),
      ‖g j t (y + ∑ i, x i • g i t y) - g j t y - fderiv ℝ (g j t) y (∑ i, x i • g i t y)‖
        ≤ Λ * (∑ i, |x i|) ^ 2 * (1 + ‖y‖)) (interp : LocalLin ℝ E) :
    ∃ K, StrongErrorAtMost P F (fun ω => eulerHeun ℝ (odeTerm f) (noiseTerm g fun t => W t ω) interp)
      (fun _ _ => ()) Y a b (fun e η => K * (e + η)) := by
  obtain ⟨c, hc0, hc⟩ := milsteinTerm_small hW hL hg hg1
  obtain ⟨c', hc0', hc'⟩ := hW.cubed
  refine C79_near_euler hW hY hL hf hg (c := c + 1 / 2 * Λ * c') (by positivity) _ (fun _ _ => ()) _ (fun _ _ _ _ => True)
    (fun _ _ => trivial) (fun _ _ _ _ _ _ _ => ⟨rfl, trivial⟩) ?_
  intro s t hs hst htb V hV hV2
  obtain ⟨h1, h2, h3, h4⟩ := hc s t hs hst htb V hV hV2
  obtain ⟨m3, r3⟩ := hc' s t hs hst
  have hsI : s ∈ Icc a b := ⟨hs, hst.trans htb⟩
  have hts : 0 ≤ t - s := by linarith
  have rV0 : 0 ≤ rms P V := rms_nonneg V
  have hw := hW.white hs hst
  set R2 : Ω → E := fun ω => (1 / 2 : ℝ) • ∑ j, incr W s t ω j • (g j s (V ω + ∑ i, incr W s t ω i • g i s (V ω))
    - g j s (V ω) - fderiv ℝ (g j s) (V ω) (∑ i, incr W s t ω i • g i s (V ω))) with hR2
  have hmono := hW.mono s t hst
  have si : ∀ j, StronglyMeasurable[F t] (fun ω => incr W s t ω j) := fun j =>
    ((measurable_pi_apply j).comp (incr_measurable hW hs hst)).stronglyMeasurable
  have hVt := hV.mono hmono
  have sN : StronglyMeasurable[F t] (fun ω => ∑ i, incr W s t ω i • g i s (V ω)) :=
    Finset.stronglyMeasurable_fun_sum _ fun i _ => (si i).smul ((hg i).measurable hL hsI hVt)
  have sR2 : StronglyMeasurable[F t] R2 := by
    refine StronglyMeasurable.const_smul (Finset.stronglyMeasurable_fun_sum _ fun j _ => ?_) _
    refine (si j).smul ((((hg j).measurable hL hsI (hVt.add sN)).sub ((hg j).measurable hL hsI hVt)).sub ?_)
    have hcont : Continuous fun p : E × E => fderiv ℝ (g j s) p.1 p.2 :=
      (((hg1 s hsI j).continuous_fderiv one_ne_zero).comp continuous_fst).clm_apply continuous_snd
    exact hcont.comp_stronglyMeasurable (hVt.prodMk sN)
  have nR2 : ∀ ω, ‖R2 ω‖ ≤ ‖(1 / 2 * Λ * cubed (incr W s t ω)) • (1 + ‖V ω‖)‖ := by
    intro ω
    have hcub : 0 ≤ cubed (incr W s t ω) := by unfold cubed; positivity
    rw [smul_eq_mul, Real.norm_of_nonneg (by positivity)]
    simp only [hR2, norm_smul]
    rw [Real.norm_of_nonneg (by norm_num : (0 : ℝ) ≤ 1 / 2)]
    have : ‖∑ j, incr W s t ω j • (g j s (V ω + ∑ i, incr W s t ω i • g i s (V ω))
        - g j s (V ω) - fderiv ℝ (g j s) (V ω) (∑ i, incr W s t ω i • g i s (V ω)))‖
        ≤ ∑ j, |incr W s t ω j| * (Λ * (∑ i, |incr W s t ω i|) ^ 2 * (1 + ‖V ω‖)) := by
      refine (norm_sum_le _ _).trans (Finset.sum_le_sum fun j _ => ?_)
      rw [norm_smul, Real.norm_eq_abs]
      exact mul_le_mul_of_nonneg_left (hg2 s hsI j (V ω) _) (abs_nonneg _)
    rw [← Finset.sum_mul] at this
    calc _ ≤ 1 / 2 * ((∑ j, |incr W s t ω j|) * (Λ * (∑ i, |incr W s t ω i|) ^ 2 * (1 + ‖V ω‖))) :=
          mul_le_mul_of_nonneg_left this (by norm_num)
      _ = _ := by unfold cubed; ring
  have s1V : StronglyMeasurable[F s] (fun ω => 1 + ‖V ω‖) := stronglyMeasurable_const.add hV.norm
  have m1V : MemLp (fun ω => 1 + ‖V ω‖) 2 P := by simpa using memLp_affine 1 1 hV2
  have hψ : Measurable (fun x : Fin d → ℝ => 1 / 2 * Λ * cubed x) := measurable_cubed.const_mul _
  obtain ⟨mB, rB⟩ := hw.memLp_fun (fun x => 1 / 2 * Λ * cubed x) hψ (m3.const_mul _) s1V m1V
  have mR2 : MemLp R2 2 P := mB.mono (sR2.mono (hW.le t)).aestronglyMeasurable (ae_of_all _ nR2)
  refine ⟨milsteinTerm g W V s t, R2, h1, sR2, h2, mR2, h3, ?_, ?_, ?_⟩
  · refine h4.trans ?_
    have : 0 ≤ 1 / 2 * Λ * c' := by positivity
    gcongr
    linarith
  · refine (rms_mono mB nR2).trans ?_
    rw [rB]
    have q1 : rms P (fun ω => 1 / 2 * Λ * cubed (incr W s t ω)) ≤ 1 / 2 * Λ * (c' * (t - s) * √(t - s)) := by
      have := rms_smul (P := P) (1 / 2 * Λ) (fun ω => cubed (incr W s t ω))
      rw [abs_of_nonneg (by positivity)] at this
      refine (le_of_eq this).trans (mul_le_mul_of_nonneg_left r3 (by positivity))
    have q2 : rms P (fun ω => 1 + ‖V ω‖) ≤ 1 + rms P V := by
      have m5 : MemLp (fun _ : Ω => (1 : ℝ)) 2 P := memLp_const _
      have := rms_add_le m5 hV2.norm
      rw [rms_const, rms_norm, norm_one] at this
      exact this
    calc _ ≤ 1 / 2 * Λ * (c' * (t - s) * √(t - s)) * (1 + rms P V) :=
          mul_le_mul q1 q2 (rms_nonneg _) (by positivity)
      _ = 1 / 2 * Λ * c' * ((t - s) * √(t - s) * (1 + rms P V)) := by ring
      _ ≤ (c + 1 / 2 * Λ * c') * ((t - s) * √(t - s) * (1 + rms P V)) := by gcongr; linarith
      _ = _ := by ring
  · intro ω
    show V ω + (t - s) • f s (V ω) + (1 / 2 : ℝ) • (∑ j, incr W s t ω j • g j s (V ω)
      + ∑ j, incr W s t ω j • g j s (V ω + ∑ i, incr W s t ω i • g i s (V ω))) = _
    set N := ∑ i, incr W s t ω i • g i s (V ω) with hN
    have e0 : ∑ j, incr W s t ω j • g j s (V ω + N)
        = N + ∑ j, incr W s t ω j • fderiv ℝ (g j s) (V ω) N + (2 : ℝ) • R2 ω := by
      simp only [hR2, smul_smul]
      rw [← hN, show (2 : ℝ) * (1 / 2) = 1 by norm_num, one_smul]
      conv_rhs => rw [hN, ← hN]
      rw [hN, ← Finset.sum_add_distrib, ← Finset.sum_add_distrib]
      refine Finset.sum_congr rfl fun j _ => ?_
      module
    have e : ∑ j, incr W s t ω j • fderiv ℝ (g j s) (V ω) N
        = ∑ i, ∑ j, (incr W s t ω i * incr W s t ω j) • fderiv ℝ (g j s) (V ω) (g i s (V ω)) := by
      rw [Finset.sum_comm, hN]
      refine Finset.sum_congr rfl fun j _ => ?_
      simp only [map_sum, map_smul, Finset.smul_sum, smul_smul]
      exact Finset.sum_congr rfl fun i _ => by rw [mul_comm]
    have e2 : ∑ j, (W t ω j - W s ω j) • g j s (V ω) = N := rfl
    have e3 := sum_pairs (t - s) (incr W s t ω) fun i j => fderiv ℝ (g j s) (V ω) (g i s (V ω))
    rw [e0, e2, e]
    unfold milsteinTerm stratonovichCorrected
    have e4 : (1 / 2 : ℝ) • (N + (N + ∑ i, ∑ j, (incr W s t ω i * incr W s t ω j) •
        fderiv ℝ (g j s) (V ω) (g i s (V ω)) + (2 : ℝ) • R2 ω))
        = N + (1 / 2 : ℝ) • (∑ i, ∑ j, (incr W s t ω i * incr W s t ω j) •
        fderiv ℝ (g j s) (V ω) (g i s (V ω))) + R2 ω := by module
    rw [e4, e3]
    module

end Verif
