import Verif.Lemmas.AdditiveStep
import Verif.Props.StrongConvergence

/-!
# Stochastic Runge-Kutta methods for additive noise: the error of whole solves (C92)

`dY = f(t, Y) dt + g(t) dW`. SRA1, ShARK, GeneralShARK, SlowRK and SPaRK have strong order 3/2, SEA has strong order 1.
-/

namespace Verif
open Set MeasureTheory ProbabilityTheory
open scoped InnerProductSpace ENNReal NNReal

noncomputable section
variable {Ω : Type} {F : ℝ → MeasurableSpace Ω} {mΩ : MeasurableSpace Ω} {P : Measure Ω} [IsProbabilityMeasure P]
  {d : ℕ} {W : ℝ → Ω → Fin d → ℝ} {a b L : ℝ}
  {E : Type} [NormedAddCommGroup E] [InnerProductSpace ℝ E] [CompleteSpace E]
  {f ft : ℝ → E → E} {fy : ℝ → E → E →L[ℝ] E} {fyy : ℝ → E → E →L[ℝ] E →L[ℝ] E} {g g' : ℝ → (Fin d → ℝ) →L[ℝ] E}
  {Y : ℝ → Ω → E} {tab : STableau ℝ}

/-- The solver, applied to `MultiTerm(ODETerm(f), ControlTerm(g, w))`. -/
def additiveSolver (tab : STableau ℝ) (f : ℝ → E → E) (g : ℝ → (Fin d → ℝ) →L[ℝ] E) (w : ℝ → Fin d → ℝ)
    (interp : LocalLin ℝ E) : Solver ℝ E (Option E) (E × E) Unit where
  step t0 t1 x _ _ := (addSrk tab f g w).step t0 t1 x
  interp := interp

omit [IsProbabilityMeasure P] [InnerProductSpace ℝ E] [CompleteSpace E] in
theorem dominated {E' : Type} [NormedAddCommGroup E'] {X : Ω → E} {Z : Ω → E'} {c : ℝ} (hc : 0 ≤ c)
    (hX : AEStronglyMeasurable X P) (hZ : MemLp Z 2 P) (h : ∀ ω, ‖X ω‖ ≤ c * ‖Z ω‖) :
    MemLp X 2 P ∧ rms P X ≤ c * rms P Z := by
  have m : MemLp (fun ω => c • ‖Z ω‖) 2 P := hZ.norm.const_smul c
  have h' : ∀ ω, ‖X ω‖ ≤ ‖c • ‖Z ω‖‖ := fun ω => (h ω).trans (le_abs_self _)
  refine ⟨m.of_le hX (Filter.Eventually.of_forall h'), (rms_mono m h').trans_eq ?_⟩
  rw [rms_smul, rms_norm, abs_of_nonneg hc]

namespace PathIx

/-- The error of a step, up to fourth order. -/
theorem local_ord1 (h : SmoothDrift f ft fy fyy a b L) (hg : SmoothNoise g g' a b L) (hab : a ≤ b) (hwf : tab.WF)
    (ho : tab.AdditiveOrder) (h1 : tab.numLevy = 1) (hc : ∀ j, tab.cs j ∈ Icc (0 : ℝ) 1) :
    ∃ C, 0 ≤ C ∧ ∀ i : PathIx f g g' a b, ‖((i.srk tab).step i.s i.t i.X).y - i.y i.t‖
      ≤ C * (i.ε ^ 4 * (i.θ ^ 3 + i.q)) := by
  obtain ⟨C1, hC1, hl⟩ := local_ord (g := g) (g' := g') (fyy := fyy) h hg hab hwf ho h1 hc
  obtain ⟨C2, hC2, hll⟩ := lead_le (g := g) (g' := g') h hg hab tab
  have hs := scales (f := f) (g := g) (g' := g') (a := a) (b := b)
  have hL := h.L_nonneg hab
  obtain ⟨C3, hC3, hf⟩ := f0o (f := f) (g := g) (g' := g') h hab
  obtain ⟨c, hc'⟩ := hs.bdd
  refine ⟨C1 * |c| + C2 + |tab.sumBC - 1 / 2| * L + |tab.sumBA - 1 / 2| * (L * C3), by positivity, fun i => ?_⟩
  have hε := i.hε
  have hq := i.q_nonneg
  have hθ := i.one_le_θ
  have hθ3 : i.θ ≤ i.θ ^ 3 + i.q := by
    have : i.θ ≤ i.θ ^ 3 := le_self_pow₀ hθ (by norm_num)
    linarith
  set R := i.θ ^ 3 + i.q with hR
  have hR0 : 0 ≤ R := by linarith
  have b1 := hl i
  have b2 := hll i
  rw [← hR] at b1 b2
  have b3 : ‖((tab.sumBC - 1 / 2) * i.ε ^ 4) • ft i.s i.X‖ ≤ |tab.sumBC - 1 / 2| * L * (i.ε ^ 4 * R) := by
    rw [norm_smul, Real.norm_eq_abs, abs_mul, abs_of_pos (pow_pos hε 4)]
    have := (h.time_le i.s i.sI i.X).trans (mul_le_mul_of_nonneg_left (i.X_le.trans hθ3) hL)
    calc _ ≤ |tab.sumBC - 1 / 2| * i.ε ^ 4 * (L * R) := by gcongr
      _ = _ := by ring
  have b4 : ‖((tab.sumBA - 1 / 2) * i.ε ^ 4) • fy i.s i.X i.f0‖ ≤ |tab.sumBA - 1 / 2| * (L * C3) * (i.ε ^ 4 * R) := by
    rw [norm_smul, Real.norm_eq_abs, abs_mul, abs_of_pos (pow_pos hε 4)]
    have h1 := hf i
    rw [pow_zero, one_mul, pow_one] at h1
    have h2 : ‖fy i.s i.X i.f0‖ ≤ L * (C3 * R) := by
      refine (ContinuousLinearMap.le_opNorm _ _).trans ?_
      have := h.le1 i.s i.sI i.X
      have h3 : ‖i.f0‖ ≤ C3 * R := h1.trans (mul_le_mul_of_nonneg_left hθ3 hC3)
      gcongr
    calc _ ≤ |tab.sumBA - 1 / 2| * i.ε ^ 4 * (L * (C3 * R)) := by gcongr
      _ = _ := by ring
  have b5 : C1 * (i.ε ^ 5 * R) ≤ C1 * |c| * (i.ε ^ 4 * R) := by
    have : i.ε ≤ |c| := (hc' i).trans (le_abs_self c)
    calc C1 * (i.ε ^ 5 * R) = C1 * (i.ε * (i.ε ^ 4 * R)) := by ring
      _ ≤ C1 * (|c| * (i.ε ^ 4 * R)) := by gcongr
      _ = _ := by ring
  have e := norm_sub_norm_le (((i.srk tab).step i.s i.t i.X).y - i.y i.t)
    (((tab.sumBC - 1 / 2) * i.ε ^ 4) • ft i.s i.X + ((tab.sumBA - 1 / 2) * i.ε ^ 4) • fy i.s i.X i.f0 + i.lead fyy tab)
  have e' := norm_add₃_le (a := ((tab.sumBC - 1 / 2) * i.ε ^ 4) • ft i.s i.X)
    (b := ((tab.sumBA - 1 / 2) * i.ε ^ 4) • fy i.s i.X i.f0) (c := i.lead fyy tab)
  linarith

end PathIx

/-- One step in mean square, if the error of a step from the solution is `M` and something of higher order, and `M`
cannot be foreseen. -/
theorem additive_step (h : SmoothDrift f ft fy fyy a b L) (hg : SmoothNoise g g' a b L) (hW : BrownianPaths P F a W)
    (hY : AdditiveSolution P F W f g g' a b Y) (hab : a ≤ b) (hwf : tab.WF) (h1 : tab.numLevy = 1)
    (hc : ∀ j, tab.cs j ∈ Icc (0 : ℝ) 1) (κ : ℝ → ℝ) (hκ : ∀ r, 0 ≤ κ r) (M : ℝ → ℝ → Ω → E) {C : ℝ} (hC : 0 ≤ C)
    (hM : ∀ s t, a ≤ s → s < t → t ≤ b → AEStronglyMeasurable (M s t) P ∧
      (∀ Z : Ω → E, StronglyMeasurable[F s] Z → MemLp Z 2 P → ∫ ω, ⟪Z ω, M s t ω⟫_ℝ ∂P = 0) ∧
      ∀ ω, ‖M s t ω‖ ≤ C * (√(t - s) * κ (t - s) * bulk W Y s t ω) ∧
        ‖((addSrk tab f g fun r => W r ω).step s t (Y s ω)).y - Y t ω - M s t ω‖
          ≤ C * ((t - s) * κ (t - s) * bulk W Y s t ω)) :
    ∃ α β : ℝ, 0 ≤ α ∧ 0 ≤ β ∧ ∀ s t, a ≤ s → s < t → t ≤ b → ∀ V : Ω → E, StronglyMeasurable[F s] V → MemLp V 2 P →
      StronglyMeasurable[F t] (fun ω => ((addSrk tab f g fun r => W r ω).step s t (V ω)).y) ∧
      MemLp (fun ω => ((addSrk tab f g fun r => W r ω).step s t (V ω)).y) 2 P ∧
      rms P (fun ω => ((addSrk tab f g fun r => W r ω).step s t (V ω)).y - Y t ω) ^ 2 ≤ (1 + (t - s)) *
        (rms P (fun ω => V ω - Y s ω) ^ 2 * (1 + 4 * α ^ 2 * (t - s)) + 4 * β ^ 2 * (t - s) * κ (t - s) ^ 2) := by
  obtain ⟨A, hA, hst'⟩ := addSrk_stable (g := g) h hab hwf hc
  obtain ⟨K, hK0, hK⟩ := hY.sixth h hg hW hab
  obtain ⟨c, hc0, hb⟩ := bulk_rms (Y := Y) hW (K := K)
  refine ⟨A, C * c, hA, by positivity, fun s t hs hst htb V hV hV2 => ?_⟩
  have hsI : s ∈ Icc a b := ⟨hs, hst.le.trans htb⟩
  have htI : t ∈ Icc a b := ⟨hs.trans hst.le, htb⟩
  have h0 : 0 ≤ t - s := by linarith
  obtain ⟨b1, b2⟩ := hb s t hs hst (hK s hsI).1 (hK s hsI).2
  obtain ⟨mM, oM, eM⟩ := hM s t hs hst htb
  have hms : ∀ r ∈ Icc s t, Measurable[F t] fun ω => W r ω - W s ω := fun r hr =>
    hW.toBrownianNoise.measurable_sub hs hr.1 hr.2
  have sv : ∀ V : Ω → E, StronglyMeasurable[F s] V →
      StronglyMeasurable[F t] (fun ω => ((addSrk tab f g fun r => W r ω).step s t (V ω)).y) := fun V hV =>
    addSrk_measurable h hwf hc (F t) hW.continuous hs hst htb hms h1 (hV.mono (hW.mono s t hst.le))
  have yS := hY.memLp h hg hW hsI
  have yT := hY.memLp h hg hW htI
  have e2 : MemLp (fun ω => V ω - Y s ω) 2 P := hV2.sub yS
  have se : StronglyMeasurable[F s] (fun ω => V ω - Y s ω) := hV.sub (hY.adapted s hsI)
  have svm : ∀ V : Ω → E, StronglyMeasurable[F s] V →
      AEStronglyMeasurable (fun ω => ((addSrk tab f g fun r => W r ω).step s t (V ω)).y) P := fun V hV =>
    ((sv V hV).mono (hW.le t)).aestronglyMeasurable
  have hvm : ∀ V : Ω → E, StronglyMeasurable[F s] V → AEStronglyMeasurable V P := fun V hV =>
    (hV.mono (hW.le s)).aestronglyMeasurable
  set v : (Ω → E) → Ω → E := fun V ω => ((addSrk tab f g fun r => W r ω).step s t (V ω)).y with hv
  let D1 : Ω → E := fun ω => v V ω - V ω - (v (Y s) ω - Y s ω)
  let D2 : Ω → E := fun ω => v (Y s) ω - Y t ω - M s t ω
  have d1 : ∀ ω, ‖D1 ω‖ ≤ A * (t - s) * ‖V ω - Y s ω‖ := fun ω => by
    have := hst' (fun r => W r ω) s t hs hst.le htb (V ω) (Y s ω)
    rw [mul_assoc]; exact this
  have d2 : ∀ ω, ‖D2 ω‖ ≤ C * ((t - s) * κ (t - s)) * ‖bulk W Y s t ω‖ := fun ω => by
    rw [Real.norm_of_nonneg (bulk_nonneg hst.le ω), mul_assoc]; exact (eM ω).2
  have d3 : ∀ ω, ‖M s t ω‖ ≤ C * (√(t - s) * κ (t - s)) * ‖bulk W Y s t ω‖ := fun ω => by
    rw [Real.norm_of_nonneg (bulk_nonneg hst.le ω), mul_assoc]; exact (eM ω).1
  have sY := svm _ (hY.adapted s hsI)
  have hκ0 := hκ (t - s)
  obtain ⟨m1, r1⟩ := dominated (by positivity) (X := D1)
    (((svm V hV).sub (hvm V hV)).sub (sY.sub (hvm _ (hY.adapted s hsI)))) e2 d1
  obtain ⟨m2, r2⟩ := dominated (by positivity) (X := D2) ((sY.sub yT.1).sub mM) b1 d2
  obtain ⟨m3, r3⟩ := dominated (by positivity) (X := M s t) mM b1 d3
  have hdec : ∀ ω, v V ω - Y t ω = (V ω - Y s ω) + (D1 ω + D2 ω) + M s t ω := fun ω => by
    simp only [D1, D2]; abel
  have mV : MemLp (fun ω => v V ω) 2 P := by
    have e : (fun ω => v V ω) = fun ω => ((V ω - Y s ω) + (D1 ω + D2 ω) + M s t ω) + Y t ω := by
      funext ω; rw [← hdec]; abel
    rw [e]
    exact memLp_add (memLp_add (memLp_add e2 (memLp_add m1 m2)) m3) yT
  refine ⟨sv V hV, mV, ?_⟩
  refine mean_square_step h0 hA (by positivity) hκ0 e2 fun τ hτ => ⟨fun ω => D1 ω + D2 ω, M s t, fun _ => 0, ?_,
    memLp_add m1 m2, m3, MemLp.zero', ?_, ?_, ?_, oM _ se e2⟩
  · intro ω; rw [add_zero]; exact hdec ω
  · have q1 := rms_add_le m1 m2
    have q2 : C * ((t - s) * κ (t - s)) * rms P (bulk W Y s t) ≤ C * ((t - s) * κ (t - s)) * c := by gcongr
    calc _ ≤ A * (t - s) * rms P (fun ω => V ω - Y s ω) + C * ((t - s) * κ (t - s)) * c := by linarith
      _ = _ := by ring
  · have q2 : C * (√(t - s) * κ (t - s)) * rms P (bulk W Y s t) ≤ C * (√(t - s) * κ (t - s)) * c := by gcongr
    have q3 : 0 ≤ √(t - s) * (A * rms P (fun ω => V ω - Y s ω)) := by have := rms_nonneg (P := P) (fun ω => V ω - Y s ω); positivity
    calc _ ≤ √(t - s) * (A * rms P (fun ω => V ω - Y s ω)) + C * (√(t - s) * κ (t - s)) * c := by linarith
      _ = _ := by ring
  · rw [rms_const, norm_zero]; exact hτ.le

omit [CompleteSpace E] in
/-- From steps to whole solves. -/
theorem additive_solve {κ : ℝ → ℝ} (hκ : Monotone κ) (hκ0 : ∀ r, 0 ≤ κ r) (hYa : MemLp (Y a) 2 P) (hYb : MemLp (Y b) 2 P)
    (hab : a ≤ b) (interp : LocalLin ℝ E)
    (hs : ∃ α β : ℝ, 0 ≤ α ∧ 0 ≤ β ∧ ∀ s t, a ≤ s → s < t → t ≤ b → ∀ V : Ω → E, StronglyMeasurable[F s] V → MemLp V 2 P →
      StronglyMeasurable[F t] (fun ω => ((addSrk tab f g fun r => W r ω).step s t (V ω)).y) ∧
      MemLp (fun ω => ((addSrk tab f g fun r => W r ω).step s t (V ω)).y) 2 P ∧
      rms P (fun ω => ((addSrk tab f g fun r => W r ω).step s t (V ω)).y - Y t ω) ^ 2 ≤ (1 + (t - s)) *
        (rms P (fun ω => V ω - Y s ω) ^ 2 * (1 + 4 * α ^ 2 * (t - s)) + 4 * β ^ 2 * (t - s) * κ (t - s) ^ 2)) :
    ∃ K, StrongErrorAtMost P F (fun ω => additiveSolver tab f g (fun t => W t ω) interp) (fun _ _ => ()) Y a b
      (fun e η => K * (e + κ η ^ 2)) := by
  obtain ⟨α, β, hα, hβ, hstep⟩ := hs
  have hmain := C79_of_step (F := F) (α := α) (β := β) (θ := κ)
    (fun ω => additiveSolver tab f g (fun t => W t ω) interp) (fun _ _ => ())
    (fun ω s t x => ((addSrk tab f g fun r => W r ω).step s t x).y) (fun _ _ _ _ => True) (fun _ _ => trivial)
    (fun _ _ _ _ _ _ _ => ⟨rfl, trivial⟩) hYa hYb hκ hκ0 hstep
  refine ⟨Real.exp ((1 + 4 * α ^ 2) * (b - a)) * (1 + 4 * β ^ 2 * (b - a)), hmain.mono fun e η he hη _ => ?_⟩
  rw [mul_assoc (Real.exp _)]
  refine mul_le_mul_of_nonneg_left ?_ (Real.exp_pos _).le
  have h1 : 0 ≤ 4 * β ^ 2 * (b - a) := mul_nonneg (by positivity) (by linarith)
  have h2 := mul_nonneg h1 he
  have h3 : 0 ≤ κ η ^ 2 := by positivity
  linarith

theorem lead_measurable (h : SmoothDrift f ft fy fyy a b L) (hg : SmoothNoise g g' a b L) (hW : BrownianPaths P F a W)
    (hY : AdditiveSolution P F W f g g' a b Y) {s t : ℝ} (hs : a ≤ s) (hst : s < t) (ht : t ≤ b) :
    AEStronglyMeasurable (fun ω => (stepIx h hg hW hY hs hst ht ω).lead fyy tab) P := by
  have hsI : s ∈ Icc a b := ⟨hs, hst.le.trans ht⟩
  simp only [stepIx_lead h hg hW hY hs hst ht]
  refine (Finset.stronglyMeasurable_fun_sum _ fun k _ => Finset.stronglyMeasurable_fun_sum _ fun l _ =>
    ?_).aestronglyMeasurable
  have h1 := quadErr_measurable (tab := tab) mΩ hW.continuous hst (fun r hr =>
    hW.toBrownianNoise.measurable_sub' hs hr.1) k l
  exact h1.stronglyMeasurable.smul
    ((leadCoeff_measurable h (hs.trans hsI.2) hsI k l ((hY.adapted s hsI).mono (hW.le s))).const_smul (1 / 2 : ℝ))

theorem root_pow {s t : ℝ} (hst : s < t) : √(max (t - s) 0) = √(t - s) ∧ √(t - s) ^ 2 = t - s := by
  rw [max_eq_left (by linarith), Real.sq_sqrt (by linarith)]; exact ⟨rfl, rfl⟩

/-- **C92.** A stochastic Runge-Kutta method whose coefficients satisfy the conditions of order 3/2 for additive noise
has strong order 3/2: the mean square of the error at the end is at most a constant times the mean square of the
initial error plus the *third* power of the length of the longest step. -/
theorem C92_order15 (h : SmoothDrift f ft fy fyy a b L) (hg : SmoothNoise g g' a b L) (hW : BrownianPaths P F a W)
    (hY : AdditiveSolution P F W f g g' a b Y) (hwf : tab.WF) (ho : tab.AdditiveOrder15)
    (hc : ∀ j, tab.cs j ∈ Icc (0 : ℝ) 1) (interp : LocalLin ℝ E) :
    ∃ K, StrongErrorAtMost P F (fun ω => additiveSolver tab f g (fun t => W t ω) interp) (fun _ _ => ()) Y a b
      (fun e η => K * (e + η ^ 3)) := by
  rcases le_or_gt a b with hab | hab
  swap
  · refine ⟨0, ?_⟩
    intro C O G _ _ cfg hcfg
    obtain ⟨ω⟩ := P.nonempty_of_neZero
    obtain ⟨h1, h2, h3, -⟩ := hcfg ω
    have := h1.le
    rw [h2, h3] at this
    exact absurd this (not_le.2 hab)
  classical
  obtain ⟨C1, hC1, hl⟩ := PathIx.local_ord (g := g) (g' := g') (fyy := fyy) h hg hab hwf ho.toAdditiveOrder ho.levy1 hc
  obtain ⟨C2, hC2, hll⟩ := PathIx.lead_le (g := g) (g' := g') h hg hab tab
  obtain ⟨K, hK⟩ := additive_solve (F := F) (Y := Y) (W := W) (κ := fun r => √(max r 0) ^ 3) (f := f) (g := g) (tab := tab)
    (fun x y hxy => by dsimp only; gcongr) (fun r => by positivity)
    (hY.memLp h hg hW (left_mem_Icc.2 hab)) (hY.memLp h hg hW (right_mem_Icc.2 hab)) hab interp
    (additive_step h hg hW hY hab hwf ho.levy1 hc (fun r => √(max r 0) ^ 3) (fun r => by positivity)
      (fun s t ω => if hd : a ≤ s ∧ s < t ∧ t ≤ b then (stepIx h hg hW hY hd.1 hd.2.1 hd.2.2 ω).lead fyy tab else 0)
      (C := C1 + C2) (by positivity) (by
        intro s t hs hst ht
        have hd : a ≤ s ∧ s < t ∧ t ≤ b := ⟨hs, hst, ht⟩
        simp only [dif_pos hd]
        obtain ⟨e1, e2⟩ := root_pow hst
        refine ⟨lead_measurable h hg hW hY hs hst ht, fun Z hZ hZ2 => lead_orthogonal h hg hW hY hs hst ht ho hZ hZ2,
          fun ω => ?_⟩
        have hb := stepIx_bulk h hg hW hY hs hst ht ω
        have hb0 := bulk_nonneg (W := W) (Y := Y) hst.le ω
        have hε : 0 ≤ √(t - s) := Real.sqrt_nonneg _
        have i1 := hl (stepIx h hg hW hY hs hst ht ω)
        have i2 := hll (stepIx h hg hW hY hs hst ht ω)
        rw [ho.bc, ho.ba, sub_self, zero_mul, zero_smul, zero_smul, zero_add, zero_add] at i1
        have i1' : ‖((addSrk tab f g fun r => W r ω).step s t (Y s ω)).y - Y t ω
            - (stepIx h hg hW hY hs hst ht ω).lead fyy tab‖ ≤ C1 * (√(t - s) ^ 5 * ((stepIx h hg hW hY hs hst ht ω).θ ^ 3
              + (stepIx h hg hW hY hs hst ht ω).q)) := by
          rw [stepIx_t h hg hW hY hs hst ht ω] at i1; exact i1
        have i2' : ‖(stepIx h hg hW hY hs hst ht ω).lead fyy tab‖ ≤ C2 * (√(t - s) ^ 4 *
            ((stepIx h hg hW hY hs hst ht ω).θ ^ 3 + (stepIx h hg hW hY hs hst ht ω).q)) := i2
        rw [e1]
        constructor
        · calc _ ≤ C2 * (√(t - s) ^ 4 * bulk W Y s t ω) := i2'.trans (by gcongr)
            _ ≤ (C1 + C2) * (√(t - s) ^ 4 * bulk W Y s t ω) := by gcongr; linarith
            _ = _ := by ring
        · calc _ ≤ C1 * (√(t - s) ^ 5 * bulk W Y s t ω) := i1'.trans (by gcongr)
            _ ≤ (C1 + C2) * (√(t - s) ^ 5 * bulk W Y s t ω) := by gcongr; linarith
            _ = (C1 + C2) * (√(t - s) ^ 2 * √(t - s) ^ 3 * bulk W Y s t ω) := by ring
            _ = _ := by rw [e2]))
  refine ⟨K, hK.mono fun e η he hη _ => le_of_eq ?_⟩
  rw [max_eq_left hη, ← pow_mul, mul_comm 3 2, pow_mul, Real.sq_sqrt hη]

/-- **C92.** A method that satisfies the conditions of order 1 has strong order 1 for additive noise. -/
theorem C92_order1 (h : SmoothDrift f ft fy fyy a b L) (hg : SmoothNoise g g' a b L) (hW : BrownianPaths P F a W)
    (hY : AdditiveSolution P F W f g g' a b Y) (hwf : tab.WF) (ho : tab.AdditiveOrder) (h1 : tab.numLevy = 1)
    (hc : ∀ j, tab.cs j ∈ Icc (0 : ℝ) 1) (interp : LocalLin ℝ E) :
    ∃ K, StrongErrorAtMost P F (fun ω => additiveSolver tab f g (fun t => W t ω) interp) (fun _ _ => ()) Y a b
      (fun e η => K * (e + η ^ 2)) := by
  rcases le_or_gt a b with hab | hab
  swap
  · refine ⟨0, ?_⟩
    intro C O G _ _ cfg hcfg
    obtain ⟨ω⟩ := P.nonempty_of_neZero
    obtain ⟨h1, h2, h3, -⟩ := hcfg ω
    have := h1.le
    rw [h2, h3] at this
    exact absurd this (not_le.2 hab)
  obtain ⟨C1, hC1, hl⟩ := PathIx.local_ord1 (g := g) (g' := g') h hg hab hwf ho h1 hc
  obtain ⟨K, hK⟩ := additive_solve (F := F) (Y := Y) (W := W) (κ := fun r => max r 0) (f := f) (g := g) (tab := tab)
    (fun x y hxy => max_le_max hxy le_rfl) (fun r => le_max_right _ _)
    (hY.memLp h hg hW (left_mem_Icc.2 hab)) (hY.memLp h hg hW (right_mem_Icc.2 hab)) hab interp
    (additive_step h hg hW hY hab hwf h1 hc (fun r => max r 0) (fun r => le_max_right _ _)
      (fun _ _ _ => 0) (C := C1) hC1 (by
        intro s t hs hst ht
        have h0 : 0 ≤ t - s := by linarith
        refine ⟨aestronglyMeasurable_const, fun Z hZ hZ2 => by simp, fun ω => ?_⟩
        have hb := stepIx_bulk h hg hW hY hs hst ht ω
        have hb0 := bulk_nonneg (W := W) (Y := Y) hst.le ω
        have hε : 0 ≤ √(t - s) := Real.sqrt_nonneg _
        have e2 : √(t - s) ^ 2 = t - s := Real.sq_sqrt h0
        have i1 := hl (stepIx h hg hW hY hs hst ht ω)
        have i1' : ‖((addSrk tab f g fun r => W r ω).step s t (Y s ω)).y - Y t ω‖
            ≤ C1 * (√(t - s) ^ 4 * ((stepIx h hg hW hY hs hst ht ω).θ ^ 3 + (stepIx h hg hW hY hs hst ht ω).q)) := by
          rw [stepIx_t h hg hW hY hs hst ht ω] at i1; exact i1
        rw [max_eq_left h0]
        constructor
        · rw [norm_zero]; positivity
        · rw [sub_zero]
          calc _ ≤ C1 * (√(t - s) ^ 4 * bulk W Y s t ω) := i1'.trans (by gcongr)
            _ = C1 * (√(t - s) ^ 2 * √(t - s) ^ 2 * bulk W Y s t ω) := by ring
            _ = _ := by rw [e2]))
  refine ⟨K, hK.mono fun e η he hη _ => le_of_eq ?_⟩
  rw [max_eq_left hη]

/-! ### The methods -/

theorem sra1_cs (j : ℕ) : (STab.sra1 : STableau ℝ).cs j ∈ Icc (0 : ℝ) 1 := by
  unfold STableau.cs STab.sra1
  match j with
  | 0 => norm_num
  | 1 => norm_num
  | j + 2 => simp

theorem shark_cs (j : ℕ) : (STab.shark : STableau ℝ).cs j ∈ Icc (0 : ℝ) 1 := by
  unfold STableau.cs STab.shark
  match j with
  | 0 => norm_num
  | 1 => norm_num
  | j + 2 => simp

theorem generalShark_cs (j : ℕ) : (STab.generalShark : STableau ℝ).cs j ∈ Icc (0 : ℝ) 1 := by
  unfold STableau.cs STab.generalShark
  match j with
  | 0 => norm_num
  | 1 => norm_num
  | 2 => norm_num
  | j + 3 => simp

theorem slowRK_cs (j : ℕ) : (STab.slowRK : STableau ℝ).cs j ∈ Icc (0 : ℝ) 1 := by
  unfold STableau.cs STab.slowRK
  match j with
  | 0 => norm_num
  | 1 => norm_num
  | 2 => norm_num
  | 3 => norm_num
  | 4 => norm_num
  | 5 => norm_num
  | 6 => norm_num
  | j + 7 => simp

theorem spark_cs (j : ℕ) : STab.spark.cs j ∈ Icc (0 : ℝ) 1 := by
  unfold STableau.cs STab.spark
  match j with
  | 0 => norm_num
  | 1 => norm_num
  | 2 => norm_num
  | j + 3 => simp

theorem sea_cs (j : ℕ) : (STab.sea : STableau ℝ).cs j ∈ Icc (0 : ℝ) 1 := by
  unfold STableau.cs STab.sea
  match j with
  | 0 => norm_num
  | j + 1 => simp

/-- **C92, SRA1**: strong order 3/2 for additive noise. -/
theorem C92_sra1 (h : SmoothDrift f ft fy fyy a b L) (hg : SmoothNoise g g' a b L) (hW : BrownianPaths P F a W)
    (hY : AdditiveSolution P F W f g g' a b Y) (interp : LocalLin ℝ E) :
    ∃ K, StrongErrorAtMost P F (fun ω => additiveSolver STab.sra1 f g (fun t => W t ω) interp) (fun _ _ => ()) Y a b
      (fun e η => K * (e + η ^ 3)) :=
  C92_order15 h hg hW hY sra1_wf sra1_order15 sra1_cs interp

/-- **C92, ShARK**: strong order 3/2 for additive noise. -/
theorem C92_shark (h : SmoothDrift f ft fy fyy a b L) (hg : SmoothNoise g g' a b L) (hW : BrownianPaths P F a W)
    (hY : AdditiveSolution P F W f g g' a b Y) (interp : LocalLin ℝ E) :
    ∃ K, StrongErrorAtMost P F (fun ω => additiveSolver STab.shark f g (fun t => W t ω) interp) (fun _ _ => ()) Y a b
      (fun e η => K * (e + η ^ 3)) :=
  C92_order15 h hg hW hY shark_wf shark_order15 shark_cs interp

/-- **C92, GeneralShARK**: strong order 3/2 for additive noise. -/
theorem C92_generalShark (h : SmoothDrift f ft fy fyy a b L) (hg : SmoothNoise g g' a b L) (hW : BrownianPaths P F a W)
    (hY : AdditiveSolution P F W f g g' a b Y) (interp : LocalLin ℝ E) :
    ∃ K, StrongErrorAtMost P F (fun ω => additiveSolver STab.generalShark f g (fun t => W t ω) interp) (fun _ _ => ()) Y a b
      (fun e η => K * (e + η ^ 3)) :=
  C92_order15 h hg hW hY generalShark_wf generalShark_order15 generalShark_cs interp

/-- **C92, SlowRK**: strong order 3/2 for additive noise. -/
theorem C92_slowRK (h : SmoothDrift f ft fy fyy a b L) (hg : SmoothNoise g g' a b L) (hW : BrownianPaths P F a W)
    (hY : AdditiveSolution P F W f g g' a b Y) (interp : LocalLin ℝ E) :
    ∃ K, StrongErrorAtMost P F (fun ω => additiveSolver STab.slowRK f g (fun t => W t ω) interp) (fun _ _ => ()) Y a b
      (fun e η => K * (e + η ^ 3)) :=
  C92_order15 h hg hW hY slowRK_wf slowRK_order15 slowRK_cs interp

/-- **C92, SPaRK**: strong order 3/2 for additive noise. -/
theorem C92_spark (h : SmoothDrift f ft fy fyy a b L) (hg : SmoothNoise g g' a b L) (hW : BrownianPaths P F a W)
    (hY : AdditiveSolution P F W f g g' a b Y) (interp : LocalLin ℝ E) :
    ∃ K, StrongErrorAtMost P F (fun ω => additiveSolver STab.spark f g (fun t => W t ω) interp) (fun _ _ => ()) Y a b
      (fun e η => K * (e + η ^ 3)) :=
  C92_order15 h hg hW hY spark_wf spark_order15 spark_cs interp

/-- **C92, SEA**: strong order 1 for additive noise. -/
theorem C92_sea (h : SmoothDrift f ft fy fyy a b L) (hg : SmoothNoise g g' a b L) (hW : BrownianPaths P F a W)
    (hY : AdditiveSolution P F W f g g' a b Y) (interp : LocalLin ℝ E) :
    ∃ K, StrongErrorAtMost P F (fun ω => additiveSolver STab.sea f g (fun t => W t ω) interp) (fun _ _ => ()) Y a b
      (fun e η => K * (e + η ^ 2)) :=
  C92_order1 h hg hW hY sea_wf sea_order (by simp [STableau.numLevy, STab.sea]) sea_cs interp

end
end Verif
