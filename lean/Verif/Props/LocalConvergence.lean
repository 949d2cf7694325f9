import Verif.Lemmas.LocalConvergence
import Verif.Spec.ConvergenceNear
import Verif.Props.Convergence

/-!
# C95: solves converge wherever the solution exists
-/

set_option linter.unusedSectionVars false
set_option maxRecDepth 100000

namespace Verif
open Finset Filter Topology Tab
open scoped ContDiff

section
variable {m : ℕ} {E J : Type} [NormedAddCommGroup E] [NormedSpace ℝ E] [Module ℚ E] [FiniteDimensional ℝ E]
  {tab : Fin m → Tableau ℚ} {s : ℕ} {c : ℕ → ℚ} {N M : ℕ} {ε δ' : ℚ}

/-- The elementary differentials along a solution are bounded. -/
theorem elemBound_near {f : Fin m → ℝ → E → E} {U : Set (ℝ × E)} {y : ℝ → E} {a b : ℝ} (hs : SolutionNear f U y a b)
    (N : ℕ) : ∃ D, ElemBound f y a b N D := by
  obtain ⟨a', ha, b', hb, hy⟩ := hs.solves
  have hcE : CompleteSpace E := FiniteDimensional.complete ℝ E
  have hI : ∀ t ∈ Set.Icc a b, t ∈ Set.Ioo a' b' := fun t ht => ⟨ha.trans_le ht.1, ht.2.trans_lt hb⟩
  have hyc : ContDiffOn ℝ ∞ y (Set.Ioo a' b') := solution_smooth_on (fun t x => ∑ p, f p t x) U
    (fun z hz => ContDiffAt.sum fun p _ => (hs.analytic p z hz).contDiffAt) _ isOpen_Ioo y (fun t ht => (hy t ht).1)
    (fun t ht => (hy t ht).2)
  obtain ⟨w, hw, hwy⟩ := smooth_cutoff (Set.Ioo a' b') (Set.Icc a b) isOpen_Ioo isClosed_Icc hI y
    fun t ht => hyc.contDiffAt (isOpen_Ioo.mem_nhds ht)
  have hwe : ∀ t ∈ Set.Icc a b, w t = y t := fun t ht => (hwy t ht).eq_of_nhds
  obtain ⟨D, -, G, hG⟩ := elemBound_exists_at f w hw.continuous a b (fun p t ht => by
    rw [hwe t ht]; exact hs.analytic p _ (hy t (hI t ht)).1) N
  exact ⟨D, G, fun t ht => ⟨fun p => by rw [← hwe t ht]; exact (hG t ht).1 p, (hG t ht).2⟩⟩

/-- Explicit methods are accurate near a solution. -/
theorem explicit_accurate_near (hok : methodOK s c tab = true) (hex : ∀ p, (tab p).implicit = false)
    (hε : 0 ≤ ε) (hord : StepOrder tab N ε M δ') (f : Fin m → ℝ → E → E) (cj : CalcJac)
    (rF rK : RootFinder E J) (nj : J) (U : Set (ℝ × E)) (y : ℝ → E) (a b : ℝ) (hs : SolutionNear f U y a b)
    (D : ℝ) (hD : ElemBound f y a b N D) :
    ∃ ρ δ A K, 0 < ρ ∧ 0 < δ ∧ 0 ≤ A ∧ 0 ≤ K ∧ ∀ t t' x st mj, (odeRK tab f cj rF rK nj).ValidState t x st mj →
      a ≤ t → t ≤ t' → t' ≤ b → t' - t ≤ δ → ‖x - y t‖ ≤ ρ →
      ‖((odeRK tab f cj rF rK nj).step t t' x st mj).y - y t'‖
        ≤ (1 + K * (t' - t)) * ‖x - y t‖ + A * (t' - t) ^ (N + 1) + ε * D * (t' - t) := by
  obtain ⟨hU, hf, hab, a', ha, b', hb, hy⟩ := hs
  have hI : ∀ t ∈ Set.Icc a b, t ∈ Set.Ioo a' b' := fun t ht => ⟨ha.trans_le ht.1, ht.2.trans_lt hb⟩
  have hfs : ∀ p, ∀ z ∈ U, ContDiffAt ℝ ∞ (fun x : ℝ × E => f p x.1 x.2) z := fun p z hz => (hf p z hz).contDiffAt
  have hyc : ContDiffOn ℝ ∞ y (Set.Ioo a' b') := solution_smooth_on (fun t x => ∑ p, f p t x) U
    (fun z hz => ContDiffAt.sum fun p _ => hfs p z hz) _ isOpen_Ioo y (fun t ht => (hy t ht).1)
    (fun t ht => (hy t ht).2)
  have hgr : ContinuousOn (fun t => (t, y t)) (Set.Icc a b) :=
    continuousOn_id.prodMk (hyc.continuousOn.mono hI)
  set S : Set (ℝ × E) := (fun t => (t, y t)) '' Set.Icc a b with hS
  have hSc : IsCompact S := isCompact_Icc.image_of_continuousOn hgr
  have hSU : S ⊆ U := by rintro _ ⟨t, ht, rfl⟩; exact (hy t (hI t ht)).1
  have hmem : ∀ t ∈ Set.Icc a b, (t, y t) ∈ S := fun t ht => ⟨t, ht, rfl⟩
  obtain ⟨r, M', L, hr, hM', hL, htube⟩ := compact_tube (fun p (x : ℝ × E) => f p x.1 x.2) U S hU hSc hSU
    fun p z hz => (hfs p z hz).of_le (by exact_mod_cast le_top)
  have hA0 := aSize_pos tab s
  set δ : ℝ := min 1 (r / 2 / (aSize tab s * (M' + 1))) with hδdef
  have hδ0 : 0 < δ := lt_min one_pos (by positivity)
  have hδ : aSize tab s * (δ * (M' + 1)) ≤ r / 2 := by
    have h1 : δ ≤ r / 2 / (aSize tab s * (M' + 1)) := min_le_right _ _
    rw [le_div_iff₀ (by positivity)] at h1
    linarith
  obtain ⟨K, hK, hlip⟩ := local_lipschitz tab f cj rF rK nj hok hex r M' L δ hM' hL hδ
  -- cut off
  set T : Set (ℝ × E) := Metric.cthickening r S with hT
  have hTball : T = ⋃ z ∈ S, Metric.closedBall z r := hSc.cthickening_eq_biUnion_closedBall hr.le
  have hTU : T ⊆ U := by
    rw [hTball]; exact Set.iUnion₂_subset fun z hz => (htube z hz).1
  have hST : ∀ z ∈ S, Metric.closedBall z r ⊆ T := fun z hz => by
    rw [hTball]; exact Set.subset_biUnion_of_mem (u := fun z => Metric.closedBall z r) hz
  choose g hg hgf using fun p => smooth_cutoff U T hU Metric.isClosed_cthickening hTU
    (fun x : ℝ × E => f p x.1 x.2) (hfs p)
  obtain ⟨w, hw, hwy⟩ := smooth_cutoff (Set.Ioo a' b') (Set.Icc a b) isOpen_Ioo isClosed_Icc hI y
    fun t ht => hyc.contDiffAt (isOpen_Ioo.mem_nhds ht)
  have hwe : ∀ t ∈ Set.Icc a b, w t = y t := fun t ht => (hwy t ht).eq_of_nhds
  set F : Fin m → ℝ → E → E := fun p t x => g p (t, x) with hF
  have hFs : ∀ p, ContDiff ℝ ∞ (fun x : ℝ × E => F p x.1 x.2) := fun p => hg p
  have hFf : ∀ p, ∀ z ∈ T, (fun x : ℝ × E => F p x.1 x.2) =ᶠ[𝓝 z] fun x => f p x.1 x.2 := fun p z hz => hgf p z hz
  have hzT : ∀ t ∈ Set.Icc a b, (t, y t) ∈ T := fun t ht => hST _ (hmem t ht) (Metric.mem_closedBall_self hr.le)
  have hwd : ∀ t ∈ Set.Icc a b, ∀ᶠ r in 𝓝 t, HasDerivAt w (∑ p, F p r (w r)) r := by
    intro t ht
    have hyt : ContinuousAt (fun t => (t, y t)) t :=
      continuousAt_id.prodMk (hy t (hI t ht)).2.continuousAt
    have h1 : ∀ᶠ r in 𝓝 t, ∀ p, F p r (y r) = f p r (y r) := by
      rw [eventually_all]
      intro p
      exact hyt.eventually (hFf p _ (hzT t ht))
    filter_upwards [h1, (hwy t ht).eventuallyEq_nhds, isOpen_Ioo.mem_nhds (hI t ht)] with r h1 h2 h3
    have e : ∑ p, F p r (w r) = ∑ p, f p r (y r) := by
      rw [h2.eq_of_nhds]; exact sum_congr rfl fun p _ => h1 p
    rw [e]
    exact (hy r h3).2.congr_of_eventuallyEq h2
  have hDF : ElemBound F w a b N D := by
    obtain ⟨G, hG⟩ := hD
    refine ⟨G, fun t ht => ⟨fun p => ?_, (hG t ht).2⟩⟩
    rw [hwe t ht]
    exact ((hG t ht).1 p).congr (hFf p _ (hzT t ht)).symm
  obtain ⟨A, hA, hloc⟩ := explicit_local_uniform_on tab F cj rF rK nj hok hex hε hord hFs w hw hwd hDF δ
  refine ⟨r / 2, δ, A, K, by positivity, hδ0, hA, hK, ?_⟩
  intro t t' x st mj hst hat htt htb hδt hx
  have ht : t ∈ Set.Icc a b := ⟨hat, htt.trans htb⟩
  have hh : 0 ≤ t' - t := sub_nonneg.2 htt
  have e : t' = t + (t' - t) := by ring
  have hv := validState_init tab f cj rF rK nj t (y t) false
  have hMb : ∀ p, ∀ z ∈ Metric.closedBall (t, y t) r, ‖f p z.1 z.2‖ ≤ M' := fun p =>
    ((htube _ (hmem t ht)).2 p).1
  have h1 := hlip t (y t) hMb
    (fun p z hz z' hz' hzz => by
      have := ((htube _ (hmem t ht)).2 p).2 z hz z' hz'
      have e : ‖z - z'‖ = ‖z.2 - z'.2‖ := by
        rw [Prod.norm_def, Prod.fst_sub, Prod.snd_sub, hzz, sub_self, norm_zero]
        exact max_eq_right (norm_nonneg _)
      rw [e] at this
      exact this) (t' - t) hh hδt x (y t) hx (by rw [sub_self, norm_zero]; positivity) st _ mj false hst hv
  have hpts := stage_near tab f cj rF rK nj hok hex t (y t) r M' hM' hMb (t' - t) hh
    (le_trans (by gcongr) hδ) (y t) (by rw [sub_self, norm_zero]; positivity)
  have hcongr := step_congr tab f cj rF rK nj hok hex F t (t' - t) (y t) fun i hi p =>
    (hFf p _ (hST _ (hmem t ht) (hpts i hi p).1)).eq_of_nhds.symm
  have h2 := hloc t ht (t' - t) (by rw [abs_of_nonneg hh]; exact hδt) _ false
    (validState_init tab F cj rF rK nj t (w t) false)
  rw [hwe t ht, hcongr, ← e, hwe t' ⟨hat.trans htt, htb⟩, abs_of_nonneg hh,
    max_eq_left (min_le_left _ _ : δ ≤ 1), one_pow, mul_one] at h2
  rw [← e] at h1
  rw [add_assoc]
  calc _ ≤ ‖((odeRK tab f cj rF rK nj).step t t' x st mj).y
        - ((odeRK tab f cj rF rK nj).step t t' (y t) (odeRK tab f cj rF rK nj).init false).y‖
        + ‖((odeRK tab f cj rF rK nj).step t t' (y t) (odeRK tab f cj rF rK nj).init false).y - y t'‖ :=
        norm_sub_le_norm_sub_add_norm_sub _ _ _
    _ ≤ _ := add_le_add h1 h2

end

/-- Explicit Runge-Kutta methods converge wherever the solution exists, also if their order conditions hold only
up to `ε`, and from any state of the solver that is valid. -/
theorem near_valid {m : ℕ} {tab : Fin m → Tableau ℚ} {s : ℕ} {c : ℕ → ℚ} {N M : ℕ} {ε δ' : ℚ}
    (hord : StepOrder tab N ε M δ') (hok : methodOK s c tab = true) (hε : 0 ≤ ε)
    (hex : ∀ p, (tab p).implicit = false) (E J : Type) [NormedAddCommGroup E] [NormedSpace ℝ E] [Module ℚ E]
    [FiniteDimensional ℝ E] (f : Fin m → ℝ → E → E) (cj : CalcJac) (rF rK : RootFinder E J) (nj : J)
    (U : Set (ℝ × E)) (y : ℝ → E) (a b : ℝ) (hs : SolutionNear f U y a b) (D : ℝ) (hD : ElemBound f y a b N D) :
    ∃ ρ δ A K : ℝ, 0 < ρ ∧ 0 < δ ∧ 0 ≤ A ∧ 0 ≤ K ∧ ∀ (C O F : Type) [LinearOrder F] [Zero F]
      (cfg : Cfg ℝ E (Option E) (RK.Dense m E) (RK.State m E) C O F) (_ : cfg.WF)
      (_ : cfg.t0 = a) (_ : cfg.t1 = b) (_ : cfg.solver.step = (odeRK tab f cj rF rK nj).step)
      (_ : cfg.controller.Exact) (y0 : E) (tnext : ℝ) (ctrl : C) (ss : RK.State m E) (mj : Bool)
      (_ : (odeRK tab f cj rF rK nj).ValidState a y0 ss mj) (η : ℝ)
      (_ : 0 ≤ η) (_ : η ≤ δ) (_ : Real.exp (K * (b - a)) * (‖y0 - y a‖ + (b - a) * (A * η ^ N + ε * D)) ≤ ρ)
      (_ : ∀ c ∈ callLog cfg y0 tnext ctrl ss mj, c.solverT0 ≤ c.solverT1)
      (_ : ∀ c ∈ callLog cfg y0 tnext ctrl ss mj, (c.answer cfg).keep = true → c.solverT1 - c.solverT0 ≤ η),
      (∀ c ∈ callLog cfg y0 tnext ctrl ss mj,
        ‖c.solverY - y c.solverT0‖ ≤ Real.exp (K * (b - a)) * (‖y0 - y a‖ + (b - a) * (A * η ^ N + ε * D))) ∧
      (cfg.rootFinder = none →
        ‖(solve cfg y0 tnext ctrl ss mj).yfinal - y (solve cfg y0 tnext ctrl ss mj).tfinal‖
          ≤ Real.exp (K * (b - a)) * (‖y0 - y a‖ + (b - a) * (A * η ^ N + ε * D))) := by
  obtain ⟨ρ, δ, A, K, hρ, hδ, hA, hK, hacc⟩ := explicit_accurate_near hok hex hε hord f cj rF rK nj U y a b hs D hD
  refine ⟨ρ, δ, A, K, hρ, hδ, hA, hK, ?_⟩
  intro C O F _ _ cfg hwf ha hb hsolver hctrl y0 tnext ctrl ss mj hss η hη0 hηδ hsmall hfor hη
  subst ha hb
  have hB : 0 ≤ (ε : ℝ) * D := mul_nonneg (by exact_mod_cast hε) (elemBound_nonneg hwf.le hD)
  have hbound : ∀ t, cfg.t0 ≤ t → t ≤ cfg.t1 → errorBound A (ε * D) K N η ‖y0 - y cfg.t0‖ cfg.t0 t
      ≤ Real.exp (K * (cfg.t1 - cfg.t0)) * (‖y0 - y cfg.t0‖ + (cfg.t1 - cfg.t0) * (A * η ^ N + ε * D)) :=
    fun t h1 h2 => errorBound_mono A _ K hA hB hK N η _ _ _ _ hη0 (norm_nonneg _) h1 h2
  have herr : ∀ t t' x st mj, ((odeRK tab f cj rF rK nj).ValidState t x st mj ∧
      ‖x - y t‖ ≤ errorBound A (ε * D) K N η ‖y0 - y cfg.t0‖ cfg.t0 t) → cfg.t0 ≤ t → t ≤ t' → t' ≤ cfg.t1 →
      t' - t ≤ η → ‖(cfg.solver.step t t' x st mj).y - y t'‖
        ≤ (1 + K * (t' - t)) * ‖x - y t‖ + A * (t' - t) ^ (N + 1) + ε * D * (t' - t) := by
    intro t t' x st mj hV h1 h2 h3 h4
    rw [hsolver]
    exact hacc t t' x st mj hV.1 h1 h2 h3 (h4.trans hηδ)
      (hV.2.trans ((hbound t h1 (h2.trans h3)).trans hsmall))
  obtain ⟨g1, g3, g2⟩ := global_error_on cfg hwf (fun t x st mj => (odeRK tab f cj rF rK nj).ValidState t x st mj ∧
      ‖x - y t‖ ≤ errorBound A (ε * D) K N η ‖y0 - y cfg.t0‖ cfg.t0 t) y A (ε * D) K hA hB hK N
    (fun t t' => t' - t ≤ η)
    (fun t t' x st mj hV h1 h2 h3 h4 hokay mj' => ⟨by
      rw [hsolver] at hokay ⊢
      exact valid_after hok f cj rF rK nj (rootExact_of_explicit tab f cj rF rK nj hex) t t' x st mj hV.1 hokay mj',
      (herr t t' x st mj hV h1 h2 h3 h4).trans
        (errorBound_step A _ K hA hB hK N η _ _ _ _ _ h4 (norm_nonneg _) h1 h2 hV.2)⟩)
    (fun t t' x st mj hV h1 h2 h3 h4 _ => herr t t' x st mj hV h1 h2 h3 h4)
    hctrl y0 tnext ctrl _ mj ⟨hss, by simp [errorBound]⟩ hfor
    (fun c _ _ => by rw [hsolver, C41_explicit_succeeds _ hex]; rfl) η hη hη
  refine ⟨?_, ?_⟩
  · intro c hc
    obtain ⟨⟨⟨b1, b2⟩, -⟩, b3⟩ := g1 c hc
    exact b3.trans (hbound _ b1 ((hfor c hc).trans b2))
  · intro hroot
    rw [solve_yfinal, solve_tfinal, finalise_no_root cfg _ hroot]
    exact g2.trans (hbound _ g3.1 g3.2)

/-- **C95.** Explicit Runge-Kutta methods converge wherever the solution exists, also if their order conditions hold only
up to `ε`. -/
theorem C95_near {m : ℕ} {tab : Fin m → Tableau ℚ} {s : ℕ} {c : ℕ → ℚ} {N M : ℕ} {ε δ' : ℚ}
    (hord : StepOrder tab N ε M δ') (hok : methodOK s c tab = true) (hε : 0 ≤ ε)
    (hex : ∀ p, (tab p).implicit = false) : ConvergesNearUpTo tab N ε := by
  intro E J _ _ _ _ f cj rF rK nj U y a b hs D hD
  obtain ⟨ρ, δ, A, K, hρ, hδ, hA, hK, hall⟩ := near_valid hord hok hε hex E J f cj rF rK nj U y a b hs D hD
  refine ⟨ρ, δ, A, K, hρ, hδ, hA, hK, ?_⟩
  intro C O F _ _ cfg hwf ha hb hsolver hctrl y0 tnext ctrl mj
  exact hall C O F cfg hwf ha hb hsolver hctrl y0 tnext ctrl _ mj (validState_init tab f cj rF rK nj _ _ _)

/-- An explicit Runge-Kutta solver converges from any state of the solver that is valid. -/
theorem converges_valid {m : ℕ} {tab : Fin m → Tableau ℚ} {s : ℕ} {c : ℕ → ℚ} {N M : ℕ} {δ' : ℚ} (hN : N ≠ 0)
    (hord : StepOrder tab N 0 M δ') (hok : methodOK s c tab = true)
    (hex : ∀ p, (tab p).implicit = false) (E J : Type) [NormedAddCommGroup E] [NormedSpace ℝ E] [Module ℚ E]
    [FiniteDimensional ℝ E] (f : Fin m → ℝ → E → E) (cj : CalcJac) (rF rK : RootFinder E J) (nj : J)
    (U : Set (ℝ × E)) (y : ℝ → E) (a b : ℝ) (hs : SolutionNear f U y a b) :
    ∃ δ B : ℝ, 0 < δ ∧ 0 ≤ B ∧ ∀ (C O F : Type) [LinearOrder F] [Zero F]
      (cfg : Cfg ℝ E (Option E) (RK.Dense m E) (RK.State m E) C O F) (_ : cfg.WF)
      (_ : cfg.t0 = a) (_ : cfg.t1 = b) (_ : cfg.solver.step = (odeRK tab f cj rF rK nj).step)
      (_ : cfg.controller.Exact) (y0 : E) (_ : ‖y0 - y a‖ ≤ δ) (tnext : ℝ) (ctrl : C) (ss : RK.State m E) (mj : Bool)
      (_ : (odeRK tab f cj rF rK nj).ValidState a y0 ss mj) (η : ℝ)
      (_ : 0 ≤ η) (_ : η ≤ δ)
      (_ : ∀ c ∈ callLog cfg y0 tnext ctrl ss mj, c.solverT0 ≤ c.solverT1)
      (_ : ∀ c ∈ callLog cfg y0 tnext ctrl ss mj, (c.answer cfg).keep = true → c.solverT1 - c.solverT0 ≤ η),
      (∀ c ∈ callLog cfg y0 tnext ctrl ss mj, ‖c.solverY - y c.solverT0‖ ≤ B * (‖y0 - y a‖ + η ^ N)) ∧
      (cfg.rootFinder = none →
        ‖(solve cfg y0 tnext ctrl ss mj).yfinal - y (solve cfg y0 tnext ctrl ss mj).tfinal‖
          ≤ B * (‖y0 - y a‖ + η ^ N)) := by
  have hab := hs.le
  obtain ⟨D, hD⟩ := elemBound_near hs N
  obtain ⟨ρ, δ, A, K, hρ, hδ, hA, hK, hall⟩ := near_valid hord hok (le_refl 0) hex E J f cj rF rK nj U y a b hs D hD
  have hba : 0 ≤ b - a := sub_nonneg.2 hab
  set B : ℝ := Real.exp (K * (b - a)) * (1 + (b - a) * A) with hB
  have hB0 : 0 < B := by positivity
  have hle : ∀ e η : ℝ, 0 ≤ e → 0 ≤ η → Real.exp (K * (b - a)) * (e + (b - a) * (A * η ^ N + (0 : ℚ) * D))
      ≤ B * (e + η ^ N) := by
    intro e η he hη
    rw [hB, mul_assoc]
    apply mul_le_mul_of_nonneg_left _ (Real.exp_pos _).le
    have h1 : 0 ≤ (b - a) * A * e := by positivity
    have h2 : 0 ≤ η ^ N := by positivity
    simp only [Rat.cast_zero, zero_mul, add_zero]
    nlinarith
  refine ⟨min δ (min 1 (ρ / (2 * B))), B, by positivity, hB0.le, ?_⟩
  intro C O F _ _ cfg hwf ha hb hsolver hctrl y0 hy0 tnext ctrl ss mj hss η hη0 hηδ hfor hη
  have h1 : η ^ N ≤ ρ / (2 * B) := by
    have h2 : η ≤ 1 := hηδ.trans ((min_le_right _ _).trans (min_le_left _ _))
    exact (pow_le_of_le_one hη0 h2 hN).trans (hηδ.trans ((min_le_right _ _).trans (min_le_right _ _)))
  have h2 : ‖y0 - y a‖ ≤ ρ / (2 * B) := hy0.trans ((min_le_right _ _).trans (min_le_right _ _))
  have hl := hle ‖y0 - y a‖ η (norm_nonneg _) hη0
  have h3 : B * (‖y0 - y a‖ + η ^ N) ≤ ρ := by
    have : B * (‖y0 - y a‖ + η ^ N) ≤ B * (ρ / (2 * B) + ρ / (2 * B)) := by gcongr
    have e : B * (ρ / (2 * B) + ρ / (2 * B)) = ρ := by field_simp; ring
    linarith
  obtain ⟨k1, k2⟩ := hall C O F cfg hwf ha hb hsolver hctrl y0 tnext ctrl ss mj hss η hη0 (hηδ.trans (min_le_left _ _))
    (hl.trans h3) hfor hη
  exact ⟨fun c hc => (k1 c hc).trans hl, fun hr => (k2 hr).trans hl⟩

/-- **C95.** An explicit Runge-Kutta solver converges, with the order of its steps, wherever the solution
exists. -/
theorem C95_converges {m : ℕ} {tab : Fin m → Tableau ℚ} {s : ℕ} {c : ℕ → ℚ} {N M : ℕ} {δ' : ℚ} (hN : N ≠ 0)
    (hord : StepOrder tab N 0 M δ') (hok : methodOK s c tab = true)
    (hex : ∀ p, (tab p).implicit = false) : ConvergesNear tab N := by
  intro E J _ _ _ _ f cj rF rK nj U y a b hs
  obtain ⟨δ, B, hδ, hB, hall⟩ := converges_valid hN hord hok hex E J f cj rF rK nj U y a b hs
  refine ⟨δ, B, hδ, hB, ?_⟩
  intro C O F _ _ cfg hwf ha hb hsolver hctrl y0 hy0 tnext ctrl mj
  exact hall C O F cfg hwf ha hb hsolver hctrl y0 hy0 tnext ctrl _ mj (validState_init tab f cj rF rK nj _ _ _)

/-- **C95.** With `ConstantStepSize` and a small `dt0` the solve is successful, reaches `t1`, and its error is at most a
constant times the `N`-th power of `dt0`. -/
theorem C95_constant {m : ℕ} {E J : Type} [NormedAddCommGroup E] [NormedSpace ℝ E] [Module ℚ E] [FiniteDimensional ℝ E]
    {tab : Fin m → Tableau ℚ} {N : ℕ} (hconv : ConvergesNear tab N) (hex : ∀ p, (tab p).implicit = false)
    (f : Fin m → ℝ → E → E) (cj : CalcJac) (rF rK : RootFinder E J) (nj : J)
    (U : Set (ℝ × E)) (y : ℝ → E) (a b : ℝ) (hs : SolutionNear f U y a b) :
    ∃ δ B : ℝ, 0 < δ ∧ 0 ≤ B ∧ ∀ (O F : Type) [LinearOrder F] [Zero F]
      (cfg : Cfg ℝ E (Option E) (RK.Dense m E) (RK.State m E) (ConstState ℝ) O F) (_ : cfg.WF)
      (_ : cfg.t0 = a) (_ : cfg.t1 = b) (_ : a < b)
      (_ : cfg.solver.step = (odeRK tab f cj rF rK nj).step)
      (_ : cfg.controller = constantStepSize) (_ : cfg.events = []) (_ : cfg.rootFinder = none)
      (y0 : E) (_ : ‖y0 - y a‖ ≤ δ) (dt0 : ℝ) (_ : 0 < dt0) (_ : dt0 ≤ δ) (tnext : ℝ) (ctrl : ConstState ℝ) (mj : Bool)
      (_ : constInit id a (some b) (some dt0) = some (tnext, ctrl))
      (_ : b - (b - a) / (⌈(b - a) / dt0⌉ : Int) ≤ cfg.floor)
      (_ : ⌈(b - a) / dt0⌉ ≤ cfg.maxSteps),
      (solve cfg y0 tnext ctrl (odeRK tab f cj rF rK nj).init mj).result = .successful ∧
      (solve cfg y0 tnext ctrl (odeRK tab f cj rF rK nj).init mj).tfinal = b ∧
      ‖(solve cfg y0 tnext ctrl (odeRK tab f cj rF rK nj).init mj).yfinal - y b‖ ≤ B * (‖y0 - y a‖ + dt0 ^ N) := by
  obtain ⟨δ, B, hδ, hB0, hB⟩ := hconv E J f cj rF rK nj U y a b hs
  refine ⟨δ, B, hδ, hB0, ?_⟩
  intro O F _ _ cfg hwf ha hb hab hsolver hctrl hev hroot y0 hy0 dt0 hdt hdtδ tnext ctrl mj hinit hfl hmax
  subst ha hb
  obtain ⟨n, p, hn, hlog, hp0, hpn, hlt, hle, -, -, -, htf, hres, -, -, -⟩ :=
    C22_constant_steps cfg id dt0 y0 (odeRK tab f cj rF rK nj).init mj tnext ctrl hinit hab hdt
      (le_refl _) (fun h => h) hctrl hev
      (fun a b y s j => by rw [hsolver, C41_explicit_succeeds _ hex]) hwf.floor_le hfl hmax
  have hmem : ∀ c ∈ callLog cfg y0 tnext ctrl (odeRK tab f cj rF rK nj).init mj,
      ∃ k < n, c.solverT0 = p k ∧ c.solverT1 = p (k + 1) := by
    intro c hc
    have h1 : (c.solverT0, c.solverT1) ∈ (List.range n).map (fun j => (p j, p (j + 1))) := by
      rw [← hlog]; exact List.mem_map_of_mem hc
    obtain ⟨k, hk, he⟩ := List.mem_map.1 h1
    have he' := Prod.mk.inj he
    exact ⟨k, List.mem_range.1 hk, he'.1.symm, he'.2.symm⟩
  have hexact : cfg.controller.Exact := by
    rw [hctrl]
    intro a b y0 y1 e st
    exact ⟨fun _ => rfl, fun h => by simp [constantStepSize, constAdapt] at h⟩
  have := (hB _ O F cfg hwf rfl rfl hsolver hexact y0 hy0 tnext ctrl mj dt0 hdt.le hdtδ
    (fun c hc => by
      obtain ⟨k, hk, e1, e2⟩ := hmem c hc
      rw [e1, e2]; exact (hlt k hk).le)
    (fun c hc _ => by
      obtain ⟨k, hk, e1, e2⟩ := hmem c hc
      rw [e1, e2]
      have := hle k hk
      simpa using this)).2 hroot
  rw [htf] at this
  exact ⟨hres, htf, this⟩

/-- **C95.** `Heun`, `Midpoint`, `Ralston`, `Bosh3` and `Dopri5` converge wherever the solution exists. -/
theorem C95_solvers : ConvergesNear ![Heun.tableau] 2 ∧ ConvergesNear ![Midpoint.tableau] 2 ∧
    ConvergesNear ![Ralston.tableau] 2 ∧ ConvergesNear ![Bosh3.tableau] 3 ∧ ConvergesNear ![Dopri5.tableau] 5 :=
  ⟨C95_converges (s := 2) (c := Heun.tableau.abscissa) (by norm_num) C61_heun (by decide +kernel) (by decide +kernel),
   C95_converges (s := 2) (c := Midpoint.tableau.abscissa) (by norm_num) C61_midpoint (by decide +kernel) (by decide +kernel),
   C95_converges (s := 2) (c := Ralston.tableau.abscissa) (by norm_num) C61_ralston (by decide +kernel) (by decide +kernel),
   C95_converges (s := 4) (c := Bosh3.tableau.abscissa) (by norm_num) C61_bosh3 (by decide +kernel) (by decide +kernel),
   C95_converges (s := 7) (c := Dopri5.tableau.abscissa) (by norm_num) C61_dopri5 (by decide +kernel) (by decide +kernel)⟩

/-- **C95.** `Tsit5` and `Dopri8` converge wherever the solution exists, up to the last decimals. -/
theorem C95_solvers_upTo : ConvergesNearUpTo ![Tsit5.tableau] 5 (1 / 10 ^ 82) ∧
    ConvergesNearUpTo ![Dopri8.tableau] 8 (1 / 10 ^ 16) :=
  ⟨C95_near (s := 7) (c := Tsit5.tableau.abscissa) C61_tsit5 (by decide +kernel) (by norm_num) (by decide +kernel),
   C95_near (s := 14) (c := Dopri8.tableau.abscissa) C61_dopri8 (by decide +kernel) (by norm_num) (by decide +kernel)⟩

/-! ### `y' = y²`, whose solutions blow up -/

theorem blowup_near (b : ℝ) (hb0 : 0 ≤ b) (hb : b < 1) :
    SolutionNear (![fun _ y => y ^ 2] : Fin 1 → ℝ → ℝ → ℝ) Set.univ (fun t => (1 - t)⁻¹) 0 b where
  isOpen := isOpen_univ
  analytic := fun p x _ => by
    fin_cases p
    exact (analyticAt_snd (𝕜 := ℝ) (E := ℝ) (F := ℝ) (p := x)).pow 2
  le := hb0
  solves := ⟨-1, by norm_num, 1, hb, fun t ht => ⟨trivial, by
    have h : (1 - t) ≠ 0 := by have := ht.2; linarith
    have := (((hasDerivAt_id t).const_sub 1).inv h)
    simp only [id] at this
    refine this.congr_deriv ?_
    simp [div_eq_mul_inv, inv_pow]⟩⟩

/-- `Dopri5` with constant steps converges for `y' = y²`, `y(0) = 1` up to any time before the solution `1/(1 - t)` blows
up, although the vector field is not Lipschitz. -/
example (b : ℝ) (hb0 : 0 < b) (hb : b < 1) : ∃ δ B : ℝ, 0 < δ ∧ ∀ n : ℕ, 0 < n → b / n ≤ δ → ∃ tnext ctrl,
    constInit id (0 : ℝ) (some b) (some (b / n)) = some (tnext, ctrl) ∧
    ‖(solve { expCfg ![Dopri5.tableau] n with
        solver := { step := (odeRK ![Dopri5.tableau] ![fun _ y => y ^ 2] .never (idealRoot ℝ) (idealRoot ℝ) ()).step,
                    interp := fun _ _ _ t => t }
        t1 := b
        floor := b } 1 tnext ctrl
      (odeRK ![Dopri5.tableau] ![fun _ y => y ^ 2] .never (idealRoot ℝ) (idealRoot ℝ) ()).init false).yfinal
      - (1 - b)⁻¹‖ ≤ B * (b / n) ^ 5 := by
  obtain ⟨δ, B, hδ, -, hB⟩ := C95_constant C95_solvers.2.2.2.2 (by decide +kernel) ![fun _ y => y ^ 2] .never
    (idealRoot ℝ) (idealRoot ℝ) () Set.univ _ 0 b (blowup_near b hb0.le hb)
  refine ⟨δ, B, hδ, fun n hn hnδ => ?_⟩
  have hn' : (0 : ℝ) < n := by exact_mod_cast hn
  have hc : ⌈(b - 0) / (b / n)⌉ = (n : ℤ) := by
    have : (b - 0) / (b / n) = n := by field_simp; ring
    rw [this]; exact Int.ceil_natCast n
  refine ⟨_, _, rfl, ?_⟩
  have h := (hB ℝ ℝ { expCfg ![Dopri5.tableau] n with
        solver := { step := (odeRK ![Dopri5.tableau] ![fun _ y => y ^ 2] .never (idealRoot ℝ) (idealRoot ℝ) ()).step,
                    interp := fun _ _ _ t => t }
        t1 := b
        floor := b }
    { le := hb0.le
      floor_le := le_refl _
      le_mid := by intro a h; simp only [expCfg] at *; linarith
      mid_le := by intro a h; simp only [expCfg] at *; linarith } rfl rfl hb0 rfl rfl rfl rfl 1
    (by simpa using hδ.le) (b / n) (by positivity) hnδ _ _ false rfl ?_ ?_).2.2
  · simpa using h
  · rw [hc]
    have : (0 : ℝ) ≤ (b - 0) / ((n : ℤ) : ℝ) := by rw [Int.cast_natCast, sub_zero]; positivity
    show b - _ ≤ b
    linarith
  · rw [hc]; exact le_refl _

end Verif
