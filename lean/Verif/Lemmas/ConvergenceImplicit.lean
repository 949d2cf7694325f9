import Verif.Lemmas.Convergence

/-!
# The error of one step of an implicit method, uniformly along a solution

The stages of an implicit method are compared with finitely many fixed point iterations, which are smooth.
-/

set_option linter.unusedSectionVars false

namespace Verif
open Finset Filter Topology Asymptotics
open scoped ContDiff

section
variable {E : Type} [NormedAddCommGroup E] [NormedSpace ℝ E] {m : ℕ} [Module ℚ E] {J : Type}
  (tab : Fin m → Tableau ℚ) (f : Fin m → ℝ → E → E) (cj : CalcJac) (rF rK : RootFinder E J) (nj : J)

/-- One fixed point iteration for all the stages. -/
noncomputable def stageMap (t h : ℝ) (x : E) (k : Fin m → ℕ → E) : Fin m → ℕ → E :=
  fun p i => h • f p (t + ((tab p).abscissa i : ℝ) * h) (x + stageInc tab k i)

noncomputable def itK (t h : ℝ) (x : E) : ℕ → Fin m → ℕ → E
  | 0 => fun _ _ => 0
  | n + 1 => stageMap tab f t h x (itK t h x n)

/-- The sum of the norms of the first `s` stages. -/
noncomputable def stageNorm (s : ℕ) (k : Fin m → ℕ → E) : ℝ := ∑ p, ∑ i ∈ range s, ‖k p i‖

noncomputable def coefSum (s : ℕ) (tab : Fin m → Tableau ℚ) : ℝ :=
  ∑ i ∈ range s, ∑ p, ∑ j ∈ range s, |((tab p).full i j : ℝ)|

theorem coefSum_nonneg (s : ℕ) : 0 ≤ coefSum s tab := by unfold coefSum; positivity

theorem stageNorm_nonneg (s : ℕ) (k : Fin m → ℕ → E) : 0 ≤ stageNorm s k := by
  unfold stageNorm; positivity

theorem le_stageNorm {s : ℕ} (k : Fin m → ℕ → E) (p : Fin m) {i : ℕ} (hi : i < s) :
    ‖k p i‖ ≤ stageNorm s k := by
  unfold stageNorm
  calc ‖k p i‖ ≤ ∑ i ∈ range s, ‖k p i‖ :=
        single_le_sum (f := fun i => ‖k p i‖) (fun i _ => norm_nonneg _) (mem_range.2 hi)
    _ ≤ _ := single_le_sum (f := fun p => ∑ i ∈ range s, ‖k p i‖)
        (fun p _ => sum_nonneg fun i _ => norm_nonneg _) (mem_univ p)

theorem stageInc_lip {s : ℕ} (k k' : Fin m → ℕ → E) {i : ℕ} (hi : i < s) :
    ‖stageInc tab k i - stageInc tab k' i‖ ≤ coefSum s tab * stageNorm s (k - k') := by
  rw [stageInc_eq tab k s i hi, stageInc_eq tab k' s i hi, ← sum_sub_distrib]
  calc ‖∑ p, (∑ j ∈ range s, ((tab p).full i j : ℝ) • k p j - ∑ j ∈ range s, ((tab p).full i j : ℝ) • k' p j)‖
      ≤ ∑ p, ∑ j ∈ range s, |((tab p).full i j : ℝ)| * stageNorm s (k - k') := by
        refine (norm_sum_le _ _).trans (sum_le_sum fun p _ => ?_)
        rw [← sum_sub_distrib]
        refine (norm_sum_le _ _).trans (sum_le_sum fun j hj => ?_)
        rw [← smul_sub, norm_smul, Real.norm_eq_abs]
        exact mul_le_mul_of_nonneg_left (le_stageNorm (k - k') p (mem_range.1 hj)) (abs_nonneg _)
    _ = (∑ p, ∑ j ∈ range s, |((tab p).full i j : ℝ)|) * stageNorm s (k - k') := by
        simp only [sum_mul]
    _ ≤ _ := by
        apply mul_le_mul_of_nonneg_right _ (stageNorm_nonneg _ _)
        unfold coefSum
        exact single_le_sum (f := fun i => ∑ p, ∑ j ∈ range s, |((tab p).full i j : ℝ)|)
          (fun i _ => by positivity) (mem_range.2 hi)

/-- The iteration is a contraction for small `h`. -/
theorem stageMap_lip {s : ℕ} {L : ℝ} (hL0 : 0 ≤ L) (hL : ∀ p t x x', ‖f p t x - f p t x'‖ ≤ L * ‖x - x'‖)
    (t h : ℝ) (x x' : E) (k k' : Fin m → ℕ → E) :
    stageNorm s (stageMap tab f t h x k - stageMap tab f t h x' k')
      ≤ |h| * (L * m * s) * (‖x - x'‖ + coefSum s tab * stageNorm s (k - k')) := by
  have h1 : ∀ p, ∀ i ∈ range s, ‖(stageMap tab f t h x k - stageMap tab f t h x' k') p i‖
      ≤ |h| * L * (‖x - x'‖ + coefSum s tab * stageNorm s (k - k')) := by
    intro p i hi
    simp only [Pi.sub_apply, stageMap]
    rw [← smul_sub, norm_smul, Real.norm_eq_abs, mul_assoc]
    apply mul_le_mul_of_nonneg_left _ (abs_nonneg _)
    refine (hL _ _ _ _).trans (mul_le_mul_of_nonneg_left ?_ hL0)
    have e : x + stageInc tab k i - (x' + stageInc tab k' i)
        = (x - x') + (stageInc tab k i - stageInc tab k' i) := by abel
    rw [e]
    exact (norm_add_le _ _).trans (add_le_add_right (stageInc_lip tab k k' (mem_range.1 hi)) _)
  unfold stageNorm
  refine (sum_le_sum fun p _ => sum_le_sum (h1 p)).trans ?_
  simp only [sum_const, card_range, card_univ, Fintype.card_fin, nsmul_eq_mul]
  apply le_of_eq
  unfold stageNorm
  ring

theorem itK_smooth (hf : ∀ p, ContDiff ℝ ∞ (fun x : ℝ × E => f p x.1 x.2)) (y : ℝ → E)
    (hy : ContDiff ℝ ∞ y) (n : ℕ) : ∀ p i,
    ContDiff ℝ ∞ (fun x : ℝ × ℝ => itK tab f x.1 x.2 (y x.1) n p i) := by
  induction n with
  | zero => intro p i; exact contDiff_const
  | succ n ih =>
    intro p i
    simp only [itK, stageMap]
    have h1 : ContDiff ℝ ∞ (fun x : ℝ × ℝ => y x.1 + stageInc tab (itK tab f x.1 x.2 (y x.1) n) i) := by
      apply (hy.comp contDiff_fst).add
      simp only [stageInc_eq tab _ (i + 1) i (Nat.lt_succ_self i)]
      apply ContDiff.sum; intro q _
      apply ContDiff.sum; intro j _
      exact (ih q j).const_smul _
    have h2 : ContDiff ℝ ∞ (fun x : ℝ × ℝ => x.1 + ((tab p).abscissa i : ℝ) * x.2) := by fun_prop
    exact contDiff_snd.smul ((hf p).comp (h2.prodMk h1))

/-- The values after `n` iterations. -/
noncomputable def itY (s : ℕ) (n : ℕ) (t h : ℝ) (x : E) : E :=
  x + ∑ p, ∑ i ∈ range s, ((tab p).bSol.getD i 0 : ℝ) • itK tab f t h x n p i

noncomputable def bSum (s : ℕ) (tab : Fin m → Tableau ℚ) : ℝ :=
  ∑ p, ∑ i ∈ range s, |((tab p).bSol.getD i 0 : ℝ)|

theorem bSum_nonneg (s : ℕ) : 0 ≤ bSum s tab := by unfold bSum; positivity

/-- Solutions `k` of the stage equations at `x`, compared with the iterates at `x'`. -/
theorem stages_near_iterates {s : ℕ} {L : ℝ} (hL0 : 0 ≤ L)
    (hL : ∀ p t x x', ‖f p t x - f p t x'‖ ≤ L * ‖x - x'‖)
    (t h : ℝ) (hh : |h| * (L * m * s) * coefSum s tab ≤ 1 / 2) (x x' : E) (k : Fin m → ℕ → E)
    (hk : ∀ i < s, ∀ p, k p i = stageMap tab f t h x k p i) (n : ℕ) :
    stageNorm s (k - itK tab f t h x' n) ≤ 2 * |h| * (L * m * s) * ‖x - x'‖
      + (|h| * (L * m * s) * coefSum s tab) ^ n * stageNorm s k := by
  set P := L * m * s with hP
  set Λ := coefSum s tab with hΛ
  have hP0 : 0 ≤ P := by positivity
  have hΛ0 : 0 ≤ Λ := coefSum_nonneg tab s
  induction n with
  | zero =>
    have : k - itK tab f t h x' 0 = k := by funext p i; simp [itK]
    rw [this, pow_zero, one_mul]
    have : 0 ≤ 2 * |h| * P * ‖x - x'‖ := by positivity
    linarith
  | succ n ih =>
    have e : stageNorm s (k - itK tab f t h x' (n + 1))
        = stageNorm s (stageMap tab f t h x k - stageMap tab f t h x' (itK tab f t h x' n)) := by
      unfold stageNorm
      apply sum_congr rfl; intro p _
      apply sum_congr rfl; intro i hi
      simp only [Pi.sub_apply, itK]
      rw [← hk i (mem_range.1 hi) p]
    rw [e]
    refine (stageMap_lip tab f hL0 hL t h x x' _ _).trans ?_
    rw [← hP, ← hΛ]
    have h1 : |h| * P * Λ * stageNorm s (k - itK tab f t h x' n) ≤ |h| * P * Λ *
        (2 * |h| * P * ‖x - x'‖ + (|h| * P * Λ) ^ n * stageNorm s k) :=
      mul_le_mul_of_nonneg_left ih (by positivity)
    have h2 : |h| * P * Λ * (2 * |h| * P * ‖x - x'‖) ≤ 1 / 2 * (2 * |h| * P * ‖x - x'‖) :=
      mul_le_mul_of_nonneg_right hh (by positivity)
    have h3 : (|h| * P * Λ) ^ (n + 1) = |h| * P * Λ * (|h| * P * Λ) ^ n := by rw [pow_succ]; ring
    rw [h3]
    nlinarith

theorem stageNorm_sub_le (s : ℕ) (k k' : Fin m → ℕ → E) :
    stageNorm s k ≤ stageNorm s (k - k') + stageNorm s k' := by
  unfold stageNorm
  rw [← sum_add_distrib]
  apply sum_le_sum; intro p _
  rw [← sum_add_distrib]
  apply sum_le_sum; intro i _
  have : k p i = (k - k') p i + k' p i := by simp
  rw [this]
  exact norm_add_le _ _

/-- The stages at `x`, compared with the iterates at `x'`. -/
theorem stages_near {s : ℕ} {L : ℝ} (hL0 : 0 ≤ L)
    (hL : ∀ p t x x', ‖f p t x - f p t x'‖ ≤ L * ‖x - x'‖)
    (t h : ℝ) (hh : |h| * (L * m * s) * coefSum s tab ≤ 1 / 2) (x x' : E) (k : Fin m → ℕ → E)
    (hk : ∀ i < s, ∀ p, k p i = stageMap tab f t h x k p i) (n : ℕ) (M : ℝ)
    (hM : stageNorm s (itK tab f t h x' 1) ≤ |h| * M) :
    stageNorm s (k - itK tab f t h x' n) ≤ 4 * |h| * (L * m * s) * ‖x - x'‖
      + 2 * M * (L * m * s * coefSum s tab) ^ n * |h| ^ (n + 1) := by
  set P := L * m * s with hP
  set Λ := coefSum s tab with hΛ
  have hP0 : 0 ≤ P := by positivity
  have hΛ0 : 0 ≤ Λ := coefSum_nonneg tab s
  set X := ‖x - x'‖ with hX
  have hX0 : 0 ≤ X := norm_nonneg _
  have hN := stages_near_iterates tab f hL0 hL t h hh x x' k hk n
  have hnk0 := stageNorm_nonneg s k
  have h1 : stageNorm s k ≤ 2 * |h| * P * X + 2 * (|h| * M) := by
    have hs := stageNorm_sub_le s k (itK tab f t h x' 1)
    have e : stageNorm s (k - itK tab f t h x' 1)
        = stageNorm s (stageMap tab f t h x k - stageMap tab f t h x' (itK tab f t h x' 0)) := by
      unfold stageNorm
      apply sum_congr rfl; intro p _
      apply sum_congr rfl; intro i hi
      simp only [Pi.sub_apply, itK]
      rw [← hk i (mem_range.1 hi) p]
    have hl := stageMap_lip tab f (s := s) hL0 hL t h x x' k (itK tab f t h x' 0)
    have e0 : k - itK tab f t h x' 0 = k := by funext p i; simp [itK]
    rw [e0] at hl
    rw [e] at hs
    have h5 : |h| * P * Λ * stageNorm s k ≤ 1 / 2 * stageNorm s k := mul_le_mul_of_nonneg_right hh hnk0
    nlinarith
  rw [← hP, ← hΛ] at hN
  have hp0 : 0 ≤ |h| * P * Λ := by positivity
  have hp1 : (|h| * P * Λ) ^ n ≤ 1 := pow_le_one₀ hp0 (hh.trans (by norm_num))
  refine hN.trans ?_
  have h6 : (|h| * P * Λ) ^ n * stageNorm s k
      ≤ (|h| * P * Λ) ^ n * (2 * |h| * P * X) + (|h| * P * Λ) ^ n * (2 * (|h| * M)) := by
    rw [← mul_add]
    exact mul_le_mul_of_nonneg_left h1 (by positivity)
  have h7 : (|h| * P * Λ) ^ n * (2 * |h| * P * X) ≤ 1 * (2 * |h| * P * X) :=
    mul_le_mul_of_nonneg_right hp1 (by positivity)
  have h8 : (|h| * P * Λ) ^ n * (2 * (|h| * M)) = 2 * M * (P * Λ) ^ n * |h| ^ (n + 1) := by
    rw [mul_assoc |h| P Λ, mul_pow]; ring
  linarith

/-- Combinations of the stages at `x`, compared with those of the iterates at `x'`. -/
theorem weighted_near {s : ℕ} {L : ℝ} (hL0 : 0 ≤ L)
    (hL : ∀ p t x x', ‖f p t x - f p t x'‖ ≤ L * ‖x - x'‖)
    (t h : ℝ) (hh : |h| * (L * m * s) * coefSum s tab ≤ 1 / 2) (x x' : E) (k : Fin m → ℕ → E)
    (hk : ∀ i < s, ∀ p, k p i = stageMap tab f t h x k p i) (n : ℕ) (M : ℝ)
    (hM : stageNorm s (itK tab f t h x' 1) ≤ |h| * M) (w : Fin m → ℕ → ℝ) (W : ℝ)
    (hW : ∑ p, ∑ i ∈ range s, |w p i| ≤ W) :
    ‖x + ∑ p, ∑ i ∈ range s, w p i • k p i - (x' + ∑ p, ∑ i ∈ range s, w p i • itK tab f t h x' n p i)‖
      ≤ (1 + 4 * W * (L * m * s) * |h|) * ‖x - x'‖
        + 2 * W * M * (L * m * s * coefSum s tab) ^ n * |h| ^ (n + 1) := by
  have h2 := stages_near tab f hL0 hL t h hh x x' k hk n M hM
  set S := stageNorm s (k - itK tab f t h x' n) with hS
  have hS0 : 0 ≤ S := stageNorm_nonneg _ _
  have h3 : ‖∑ p, ∑ i ∈ range s, w p i • k p i - ∑ p, ∑ i ∈ range s, w p i • itK tab f t h x' n p i‖
      ≤ W * S := by
    refine le_trans ?_ (mul_le_mul_of_nonneg_right hW hS0)
    rw [← sum_sub_distrib]
    simp only [sum_mul]
    refine (norm_sum_le _ _).trans (sum_le_sum fun p _ => ?_)
    rw [← sum_sub_distrib]
    refine (norm_sum_le _ _).trans (sum_le_sum fun i hi => ?_)
    rw [← smul_sub, norm_smul, Real.norm_eq_abs]
    exact mul_le_mul_of_nonneg_left (le_stageNorm (k - itK tab f t h x' n) p (mem_range.1 hi)) (abs_nonneg _)
  have hW0 : 0 ≤ W := le_trans (by positivity) hW
  have e : x + ∑ p, ∑ i ∈ range s, w p i • k p i - (x' + ∑ p, ∑ i ∈ range s, w p i • itK tab f t h x' n p i)
      = (x - x') + (∑ p, ∑ i ∈ range s, w p i • k p i
        - ∑ p, ∑ i ∈ range s, w p i • itK tab f t h x' n p i) := by abel
  rw [e]
  have h4 := mul_le_mul_of_nonneg_left h2 hW0
  calc _ ≤ ‖x - x'‖ + W * S := (norm_add_le _ _).trans (by gcongr)
    _ ≤ ‖x - x'‖ + W * (4 * |h| * (L * m * s) * ‖x - x'‖
        + 2 * M * (L * m * s * coefSum s tab) ^ n * |h| ^ (n + 1)) := by linarith
    _ = _ := by ring

/-- What is obtained from the stages at `x`, compared with the iterates at `x'`. -/
theorem values_near {s : ℕ} {L : ℝ} (hL0 : 0 ≤ L)
    (hL : ∀ p t x x', ‖f p t x - f p t x'‖ ≤ L * ‖x - x'‖)
    (t h : ℝ) (hh : |h| * (L * m * s) * coefSum s tab ≤ 1 / 2) (x x' : E) (k : Fin m → ℕ → E)
    (hk : ∀ i < s, ∀ p, k p i = stageMap tab f t h x k p i) (n : ℕ) (M : ℝ)
    (hM : stageNorm s (itK tab f t h x' 1) ≤ |h| * M) :
    ‖x + ∑ p, ∑ i ∈ range s, ((tab p).bSol.getD i 0 : ℝ) • k p i - itY tab f s n t h x'‖
      ≤ (1 + 4 * bSum s tab * (L * m * s) * |h|) * ‖x - x'‖
        + 2 * bSum s tab * M * (L * m * s * coefSum s tab) ^ n * |h| ^ (n + 1) :=
  weighted_near tab f hL0 hL t h hh x x' k hk n M hM (fun p i => ((tab p).bSol.getD i 0 : ℝ)) _ le_rfl

variable {s : ℕ} {c : ℕ → ℚ}

/-- The stages of a successful step, whatever the method. -/
theorem any_step (hok : methodOK s c tab = true) (hroot : (odeRK tab f cj rF rK nj).RootExact)
    (t h : ℝ) (x : E) (st : RK.State m E) (mj : Bool)
    (hst : (odeRK tab f cj rF rK nj).ValidState t x st mj)
    (hokay : ((odeRK tab f cj rF rK nj).step t (t + h) x st mj).result.isOkay = true) :
    ∃ k : Fin m → ℕ → E, (∀ i < s, ∀ p, k p i = stageMap tab f t h x k p i) ∧
      ((odeRK tab f cj rF rK nj).step t (t + h) x st mj).y
        = x + ∑ p, ∑ i ∈ range s, ((tab p).bSol.getD i 0 : ℝ) • k p i := by
  obtain ⟨hns, hwf, hfs⟩ := odeRK_WF hok f cj rF rK nj
  obtain ⟨k, a1, a2, -⟩ := C41_step_formula _ hwf hfs hroot t (t + h) x st mj hst hokay
  refine ⟨k, ?_, ?_⟩
  · intro i hi p
    exact odeRK_stage_eq tab f cj rF rK nj t h x k a1 i (by rw [hns]; exact hi) p
  · rw [a2]
    unfold RK.combine
    rw [hns]
    congr 1
    apply sum_congr rfl; intro p _
    apply sum_congr rfl; intro i _
    rw [qsmul_eq]
    rfl

/-- How small the steps have to be. -/
theorem small_steps {P Λ : ℝ} (hP0 : 0 ≤ P) (hΛ0 : 0 ≤ Λ) :
    ∃ δ : ℝ, 0 < δ ∧ δ ≤ 1 ∧ ∀ h : ℝ, |h| ≤ δ → |h| * P * Λ ≤ 1 / 2 := by
  refine ⟨1 / (1 + 2 * (P * Λ)), by positivity, ?_, ?_⟩
  · rw [div_le_one (by positivity)]
    have : 0 ≤ P * Λ := by positivity
    linarith
  · intro h hh
    rw [le_div_iff₀ (by positivity)] at hh
    have := abs_nonneg h
    nlinarith

/-- A bound for the vector field along the solution. -/
theorem iterates_bound (hfs : ∀ p, ContDiff ℝ ∞ (fun x : ℝ × E => f p x.1 x.2)) (y : ℝ → E)
    (hys : ContDiff ℝ ∞ y) (a b δ : ℝ) (s : ℕ) :
    ∃ M1, 0 ≤ M1 ∧ ∀ t ∈ Set.Icc a b, ∀ h, |h| ≤ δ →
      stageNorm s (itK tab f t h (y t) 1) ≤ |h| * M1 := by
  let g : ℝ × ℝ → ℝ := fun z => ∑ p, ∑ i ∈ range s,
    ‖f p (z.1 + ((tab p).abscissa i : ℝ) * z.2) (y z.1)‖
  have hg : Continuous g := by
    apply continuous_finsetSum; intro p _
    apply continuous_finsetSum; intro i _
    have h2 : Continuous (fun x : ℝ × ℝ => x.1 + ((tab p).abscissa i : ℝ) * x.2) := by fun_prop
    exact ((hfs p).continuous.comp (h2.prodMk (hys.continuous.comp continuous_fst))).norm
  obtain ⟨M1, hM1⟩ := ((isCompact_Icc (a := a) (b := b)).prod
    (isCompact_Icc (a := -δ) (b := δ))).exists_bound_of_continuousOn hg.continuousOn
  refine ⟨max M1 0, le_max_right _ _, fun t ht h hh => ?_⟩
  have h1 := hM1 (t, h) ⟨ht, abs_le.1 hh⟩
  have h2 : stageNorm s (itK tab f t h (y t) 1) = |h| * g (t, h) := by
    simp only [stageNorm, itK, stageMap, g, mul_sum]
    apply sum_congr rfl; intro p _
    apply sum_congr rfl; intro i _
    rw [norm_smul, Real.norm_eq_abs]
    have : stageInc tab (fun _ _ => (0 : E)) i = 0 := by simp [stageInc]
    rw [this, add_zero]
  rw [h2]
  apply mul_le_mul_of_nonneg_left _ (abs_nonneg _)
  exact ((le_abs_self _).trans h1).trans (le_max_left _ _)

/-- The error of one step, started anywhere, uniformly along a solution. -/
theorem implicit_error [CompleteSpace E] (hok : methodOK s c tab = true)
    (hroot : (odeRK tab f cj rF rK nj).RootExact)
    {N M : ℕ} {ε δ' : ℚ} (hε : 0 ≤ ε) (hord : StepOrder tab N ε M δ')
    (hf : ∀ p, AnalyticOnNhd ℝ (fun x : ℝ × E => f p x.1 x.2) Set.univ)
    {L : ℝ} (hL0 : 0 ≤ L) (hL : ∀ p t x x', ‖f p t x - f p t x'‖ ≤ L * ‖x - x'‖)
    (y : ℝ → E) (hy : ∀ t, HasDerivAt y (∑ p, f p t (y t)) t) {a b D : ℝ} (hD : ElemBound f y a b N D) :
    ∃ δ A, 0 < δ ∧ δ ≤ 1 ∧ 0 ≤ A ∧ ∀ t ∈ Set.Icc a b, ∀ h, 0 ≤ h → h ≤ δ → ∀ x st mj,
      (odeRK tab f cj rF rK nj).ValidState t x st mj →
      ((odeRK tab f cj rF rK nj).step t (t + h) x st mj).result.isOkay = true →
      ‖((odeRK tab f cj rF rK nj).step t (t + h) x st mj).y - y (t + h)‖
        ≤ (1 + 4 * bSum s tab * (L * m * s) * h) * ‖x - y t‖ + A * h ^ (N + 1) + ε * D * h := by
  have hfs : ∀ p, ContDiff ℝ ∞ (fun x : ℝ × E => f p x.1 x.2) := fun p => (hf p).contDiff
  have hys : ContDiff ℝ ∞ y := solution_smooth (fun t x => ∑ p, f p t x)
    (ContDiff.sum fun p _ => hfs p) y hy
  set P := L * m * s with hP
  set Λ := coefSum s tab with hΛ
  have hP0 : 0 ≤ P := by positivity
  have hΛ0 : 0 ≤ Λ := coefSum_nonneg tab s
  obtain ⟨δ, hδ, hδ1, hδh⟩ := small_steps hP0 hΛ0
  obtain ⟨M1, hM1, hM⟩ := iterates_bound tab f hfs y hys a b δ s
  -- the iterates
  let e : ℝ → ℝ → E := fun t h => itY tab f s N t h (y t) - y (t + h)
  have hsm : ContDiff ℝ ∞ (fun x : ℝ × ℝ => e x.1 x.2) := by
    simp only [e, itY]
    apply ContDiff.sub
    · apply (hys.comp contDiff_fst).add
      apply ContDiff.sum; intro p _
      apply ContDiff.sum; intro i _
      exact (itK_smooth tab f hfs y hys N p i).const_smul _
    · exact hys.comp (contDiff_fst.add contDiff_snd)
  obtain ⟨G, hG⟩ := hD
  have hpt : ∀ t ∈ Set.Icc a b, NearOrder (G t) N ε (e t) := by
    intro t ht
    obtain ⟨d, hd, C, hC⟩ := C61_ideal hord s c hok f cj t (y t) (G t) (hG t ht).1 L hL0 hL y
      ⟨rfl, Eventually.of_forall hy⟩
    have hsucc := ideal_succeeds (tab := tab) f cj t (y t) L hL0 hL
      (odeRK tab f cj (idealRoot E) (idealRoot E) ()).init false
    have hsmall : ∀ᶠ h in 𝓝 (0 : ℝ), |h| ≤ δ := by
      filter_upwards [Metric.closedBall_mem_nhds (0 : ℝ) hδ] with h hh
      simpa using hh
    refine ⟨d, hd, C + 2 * bSum s tab * M1 * (P * Λ) ^ N, ?_⟩
    filter_upwards [hC, hsucc, hsmall] with h h1 h2 h3
    obtain ⟨k, hk, hyk⟩ := any_step tab f cj (idealRoot E) (idealRoot E) () hok
      (fun _ => ⟨idealRoot_exact E, idealRoot_exact E⟩) t h (y t) _ false
      (validState_init tab f cj (idealRoot E) (idealRoot E) () t (y t) false) h2
    have h4 := values_near tab f hL0 hL t h (hδh h h3) (y t) (y t) k hk N M1 (hM t ht h h3)
    rw [← hyk, sub_self, norm_zero, mul_zero, zero_add] at h4
    set S := ∑ τ ∈ PTree.upTo (Fin (m + 1)) N, (d τ * h ^ τ.order) • (τ.diff (autoSeries (G t))).2
    set Y := ((odeRK tab f cj (idealRoot E) (idealRoot E) ()).step t (t + h) (y t)
      (odeRK tab f cj (idealRoot E) (idealRoot E) ()).init false).y
    have e5 : e t h - S = (Y - y (t + h) - S) - (Y - itY tab f s N t h (y t)) := by
      simp only [e]; abel
    rw [e5, add_mul]
    exact (norm_sub_le _ _).trans (add_le_add h1 h4)
  obtain ⟨A, hA, hb⟩ := nearOrder_uniform isCompact_Icc (ε := (ε : ℝ)) (by exact_mod_cast hε) G
    (fun t ht => (hG t ht).2) e hsm hpt δ
  refine ⟨δ, A + 2 * bSum s tab * M1 * (P * Λ) ^ N, hδ, hδ1, ?_, ?_⟩
  · have := bSum_nonneg tab s; positivity
  intro t ht h h0 hh x st mj hst hokay
  have habs : |h| = h := abs_of_nonneg h0
  have hh' : |h| ≤ δ := by rw [habs]; exact hh
  obtain ⟨k, hk, hyk⟩ := any_step tab f cj rF rK nj hok hroot t h x st mj hst hokay
  have h4 := values_near tab f hL0 hL t h (hδh h hh') x (y t) k hk N M1 (hM t ht h hh')
  have h5 := hb t ht h hh'
  rw [← hyk] at h4
  rw [habs] at h4 h5
  rw [max_eq_left hδ1, one_pow, mul_one] at h5
  set Y := ((odeRK tab f cj rF rK nj).step t (t + h) x st mj).y
  have e6 : Y - y (t + h) = (Y - itY tab f s N t h (y t)) + e t h := by simp only [e]; abel
  rw [e6]
  refine (norm_add_le _ _).trans ((add_le_add h4 h5).trans (le_of_eq ?_))
  rw [← hP, ← hΛ]
  ring

end
end Verif
