import Verif.Lemmas.ConvergenceImplicit
import Verif.Props.DenseOrder

/-!
# The error of dense output over one step, uniformly along a solution
-/

set_option linter.unusedSectionVars false

namespace Verif
open Finset Filter Topology Asymptotics
open scoped ContDiff

section
variable {E : Type} [NormedAddCommGroup E] [NormedSpace ℝ E] {m : ℕ} [Module ℚ E] {J : Type}
  (tab : Fin m → Tableau ℚ) (f : Fin m → ℝ → E → E) (cj : CalcJac) (rF rK : RootFinder E J) (nj : J)
  {s : ℕ} {c : ℕ → ℚ}

/-- The weight of a stage in the value at the fraction `θ` of a step. -/
noncomputable def denseW (rows : Tableau ℚ → List (List ℚ)) (d : ℕ) (θ : ℝ) (p : Fin m) (i : ℕ) : ℝ :=
  ∑ j ∈ range d, θ ^ (j + 1) * (((rowOf rows j (tab p)).getD i 0 : ℚ) : ℝ)

noncomputable def rowSum (s d : ℕ) (rows : Tableau ℚ → List (List ℚ)) (tab : Fin m → Tableau ℚ) : ℝ :=
  ∑ p, ∑ i ∈ range s, ∑ j ∈ range d, |(((rowOf rows j (tab p)).getD i 0 : ℚ) : ℝ)|

theorem rowSum_nonneg (s d : ℕ) (rows : Tableau ℚ → List (List ℚ)) : 0 ≤ rowSum s d rows tab := by
  unfold rowSum; positivity

theorem denseW_le (rows : Tableau ℚ → List (List ℚ)) (d : ℕ) {θ : ℝ} (hθ0 : 0 ≤ θ) (hθ1 : θ ≤ 1) :
    ∑ p, ∑ i ∈ range s, |denseW tab rows d θ p i| ≤ rowSum s d rows tab := by
  unfold rowSum denseW
  apply sum_le_sum; intro p _
  apply sum_le_sum; intro i _
  refine (abs_sum_le_sum_abs _ _).trans (sum_le_sum fun j _ => ?_)
  rw [abs_mul, abs_of_nonneg (by positivity)]
  exact mul_le_of_le_one_left (abs_nonneg _) (pow_le_one₀ hθ0 hθ1)

theorem denseW_sum (rows : Tableau ℚ → List (List ℚ)) (d : ℕ) (θ : ℝ) (k : Fin m → ℕ → E) :
    ∑ j ∈ range d, θ ^ (j + 1) •
        ∑ p, ∑ i ∈ range s, (((rowOf rows j (tab p)).getD i 0 : ℚ) : ℝ) • k p i
      = ∑ p, ∑ i ∈ range s, denseW tab rows d θ p i • k p i := by
  simp only [smul_sum, denseW, sum_smul, smul_smul]
  rw [sum_comm]
  apply sum_congr rfl; intro p _
  rw [sum_comm]

/-- The value at the fraction `θ` of a successful step. -/
theorem dense_step (hok : methodOK s c tab = true) (hroot : (odeRK tab f cj rF rK nj).RootExact)
    {interp : InterpRule m} {rows : Tableau ℚ → List (List ℚ)} {d : ℕ} (hrows : HasRows tab interp s d rows)
    (t h : ℝ) (hh : h ≠ 0) (x : E) (st : RK.State m E) (mj : Bool)
    (hst : (odeRK tab f cj rF rK nj).ValidState t x st mj)
    (hokay : ((odeRK tab f cj rF rK nj).step t (t + h) x st mj).result.isOkay = true) :
    ∃ k : Fin m → ℕ → E, (∀ i < s, ∀ p, k p i = stageMap tab f t h x k p i) ∧
      ∀ θ, interp E t (t + h) ((odeRK tab f cj rF rK nj).step t (t + h) x st mj).dense (t + θ * h)
        = x + ∑ p, ∑ i ∈ range s, denseW tab rows d θ p i • k p i := by
  obtain ⟨hns, hwf, hfs⟩ := odeRK_WF hok f cj rF rK nj
  obtain ⟨a1, a2, a3, -⟩ := step_stages hok f cj rF rK nj t (t + h) x st mj hst
    (fun hi => hroot ((implicitPart_isSome tab f cj rF rK nj).2 hi)) (fun _ => hokay)
  set D := ((odeRK tab f cj rF rK nj).step t (t + h) x st mj).dense with hD
  refine ⟨D.ks, fun i hi p => odeRK_stage_eq tab f cj rF rK nj t h x D.ks a1 i (by rw [hns]; exact hi) p, ?_⟩
  intro θ
  rw [hrows E t (t + h) D (t + θ * h) (by rw [a2, a3, odeRK_combine hok f cj rF rK nj]), a2,
    linearRescale_step t θ h hh, denseW_sum]

/-- Over a step of length zero dense output is constant. -/
theorem dense_step_zero (hok : methodOK s c tab = true) (hroot : (odeRK tab f cj rF rK nj).RootExact)
    {interp : InterpRule m} {rows : Tableau ℚ → List (List ℚ)} {d : ℕ} (hrows : HasRows tab interp s d rows)
    (t : ℝ) (x : E) (st : RK.State m E) (mj : Bool)
    (hst : (odeRK tab f cj rF rK nj).ValidState t x st mj)
    (hokay : ((odeRK tab f cj rF rK nj).step t (t + 0) x st mj).result.isOkay = true) (τ : ℝ) :
    interp E t (t + 0) ((odeRK tab f cj rF rK nj).step t (t + 0) x st mj).dense τ = x := by
  obtain ⟨hns, hwf, hfs⟩ := odeRK_WF hok f cj rF rK nj
  obtain ⟨a1, a2, a3, -⟩ := step_stages hok f cj rF rK nj t (t + 0) x st mj hst
    (fun hi => hroot ((implicitPart_isSome tab f cj rF rK nj).2 hi)) (fun _ => hokay)
  set D := ((odeRK tab f cj rF rK nj).step t (t + 0) x st mj).dense with hD
  rw [hrows E t (t + 0) D τ (by rw [a2, a3, odeRK_combine hok f cj rF rK nj]), a2]
  have hz : ∀ j, (∑ p, ∑ i ∈ range s, (((rowOf rows j (tab p)).getD i 0 : ℚ) : ℝ) • D.ks p i) = 0 := by
    intro j
    apply sum_eq_zero; intro p _
    apply sum_eq_zero; intro i hi
    have := odeRK_stage_eq tab f cj rF rK nj t 0 x D.ks a1 i (by rw [hns]; exact mem_range.1 hi) p
    rw [this, zero_smul, smul_zero]
  simp only [hz, smul_zero, sum_const_zero, add_zero]

/-- What is added to `x` by the stages at `x`, compared with what is added to `x'` by the iterates there. -/
theorem weighted_increment {L : ℝ} (hL0 : 0 ≤ L)
    (hL : ∀ p t x x', ‖f p t x - f p t x'‖ ≤ L * ‖x - x'‖)
    (t h : ℝ) (hh : |h| * (L * m * s) * coefSum s tab ≤ 1 / 2) (x x' : E) (k : Fin m → ℕ → E)
    (hk : ∀ i < s, ∀ p, k p i = stageMap tab f t h x k p i) (n : ℕ) (M : ℝ)
    (hM : stageNorm s (itK tab f t h x' 1) ≤ |h| * M) (w : Fin m → ℕ → ℝ) (W : ℝ)
    (hW : ∑ p, ∑ i ∈ range s, |w p i| ≤ W) :
    ‖∑ p, ∑ i ∈ range s, w p i • k p i - ∑ p, ∑ i ∈ range s, w p i • itK tab f t h x' n p i‖
      ≤ 4 * W * (L * m * s) * |h| * ‖x - x'‖
        + 2 * W * M * (L * m * s * coefSum s tab) ^ n * |h| ^ (n + 1) := by
  have h2 := stages_near tab f hL0 hL t h hh x x' k hk n M hM
  set S := stageNorm s (k - itK tab f t h x' n) with hS
  have hS0 : 0 ≤ S := stageNorm_nonneg _ _
  have h3 : ‖∑ p, ∑ i ∈ range s, w p i • k p i - ∑ p, ∑ i ∈ range s, w p i • itK tab f t h x' n p i‖
      ≤ W * S := by
    refine le_trans ?_ (mul_le_mul_of_nonneg_right hW hS0)
    rw [← sum_sub_distrib]
    simp only [sum_mul]
    refine (norm_sum_le _ _).trans (sum_le_sum fun p _ => ?_)
    rw [← sum_sub_distrib]
    refine (norm_sum_le _ _).trans (sum_le_sum fun i hi => ?_)
    rw [← smul_sub, norm_smul, Real.norm_eq_abs]
    exact mul_le_mul_of_nonneg_left (le_stageNorm (k - itK tab f t h x' n) p (mem_range.1 hi)) (abs_nonneg _)
  have hW0 : 0 ≤ W := le_trans (by positivity) hW
  refine h3.trans ((mul_le_mul_of_nonneg_left h2 hW0).trans (le_of_eq ?_))
  ring

/-- The error of the increments of dense output over one step, started anywhere, uniformly along a solution. -/
theorem dense_increment [CompleteSpace E] (hok : methodOK s c tab = true)
    (hroot : (odeRK tab f cj rF rK nj).RootExact)
    {interp : InterpRule m} {rows : Tableau ℚ → List (List ℚ)} {d : ℕ} (hrows : HasRows tab interp s d rows)
    {N : ℕ} {ε : ℚ} (hε : 0 ≤ ε) (hden : DenseOrder tab interp N ε)
    (hf : ∀ p, AnalyticOnNhd ℝ (fun x : ℝ × E => f p x.1 x.2) Set.univ)
    {L : ℝ} (hL0 : 0 ≤ L) (hL : ∀ p t x x', ‖f p t x - f p t x'‖ ≤ L * ‖x - x'‖)
    (y : ℝ → E) (hy : ∀ t, HasDerivAt y (∑ p, f p t (y t)) t) {a b D : ℝ} (hD : ElemBound f y a b N D) :
    ∃ δ A, 0 < δ ∧ 0 ≤ A ∧ ∀ t ∈ Set.Icc a b, ∀ h, 0 ≤ h → h ≤ δ →
      ∀ θ ∈ Set.Icc (0 : ℝ) 1, ∀ x st mj,
      (odeRK tab f cj rF rK nj).ValidState t x st mj →
      ((odeRK tab f cj rF rK nj).step t (t + h) x st mj).result.isOkay = true →
      ‖interp E t (t + h) ((odeRK tab f cj rF rK nj).step t (t + h) x st mj).dense (t + θ * h) - x
          - (y (t + θ * h) - y t)‖
        ≤ 4 * rowSum s d rows tab * (L * m * s) * h * ‖x - y t‖ + A * h ^ (N + 1) + ε * D * h := by
  have hfs : ∀ p, ContDiff ℝ ∞ (fun x : ℝ × E => f p x.1 x.2) := fun p => (hf p).contDiff
  have hys : ContDiff ℝ ∞ y := solution_smooth (fun t x => ∑ p, f p t x)
    (ContDiff.sum fun p _ => hfs p) y hy
  set P := L * m * s with hP
  set Λ := coefSum s tab with hΛ
  set W := rowSum s d rows tab with hW
  have hP0 : 0 ≤ P := by positivity
  have hΛ0 : 0 ≤ Λ := coefSum_nonneg tab s
  have hW0 : 0 ≤ W := rowSum_nonneg tab s d rows
  obtain ⟨δ, hδ, hδ1, hδh⟩ := small_steps hP0 hΛ0
  obtain ⟨M1, hM1, hM⟩ := iterates_bound tab f hfs y hys a b δ s
  -- the iterates
  let v : ℝ → ℝ → ℝ → E := fun t θ h =>
    y t + ∑ p, ∑ i ∈ range s, denseW tab rows d θ p i • itK tab f t h (y t) N p i
  let e : ℝ × ℝ → ℝ → E := fun z h => v z.1 z.2 h - y (z.1 + z.2 * h)
  have hsm : ContDiff ℝ ∞ (fun x : (ℝ × ℝ) × ℝ => e x.1 x.2) := by
    have h1 : ContDiff ℝ ∞ (fun x : (ℝ × ℝ) × ℝ => x.1.1) := by fun_prop
    have h2 : ContDiff ℝ ∞ (fun x : (ℝ × ℝ) × ℝ => x.1.1 + x.1.2 * x.2) := by fun_prop
    have h3 : ContDiff ℝ ∞ (fun x : (ℝ × ℝ) × ℝ => (x.1.1, x.2)) := by fun_prop
    simp only [e, v]
    apply ContDiff.sub
    · apply (hys.comp h1).add
      apply ContDiff.sum; intro p _
      apply ContDiff.sum; intro i _
      refine ContDiff.smul ?_ ((itK_smooth tab f hfs y hys N p i).comp h3)
      simp only [denseW]
      fun_prop
    · exact hys.comp h2
  obtain ⟨G, hG⟩ := hD
  have hpt : ∀ z ∈ Set.Icc a b ×ˢ Set.Icc (0 : ℝ) 1, NearOrder (G z.1) N ε (e z) := by
    rintro ⟨t, θ⟩ ⟨ht, hθ⟩
    replace ht : t ∈ Set.Icc a b := ht
    replace hθ : θ ∈ Set.Icc (0 : ℝ) 1 := hθ
    obtain ⟨d', hd, C, hC⟩ := C75_ideal hden s c hok f cj t (y t) (G t) (hG t ht).1 L hL0 hL y
      ⟨rfl, Eventually.of_forall hy⟩ θ hθ.1 hθ.2
    have hsucc := ideal_succeeds (tab := tab) f cj t (y t) L hL0 hL
      (odeRK tab f cj (idealRoot E) (idealRoot E) ()).init false
    have hsmall : ∀ᶠ h in 𝓝 (0 : ℝ), |h| ≤ δ := by
      filter_upwards [Metric.closedBall_mem_nhds (0 : ℝ) hδ] with h hh
      simpa using hh
    refine ⟨d', hd, C + 2 * W * M1 * (P * Λ) ^ N, ?_⟩
    filter_upwards [hC, hsucc, hsmall] with h h1 h2 h3
    set S := ∑ τ ∈ PTree.upTo (Fin (m + 1)) N, (d' τ * h ^ τ.order) • (τ.diff (autoSeries (G t))).2 with hS
    by_cases hh0 : h = 0
    · have hC0 : 0 ≤ C * |h| ^ (N + 1) := (norm_nonneg _).trans h1
      have hS0 : S = 0 := by
        rw [hS]
        apply sum_eq_zero; intro τ _
        have : τ.order ≠ 0 := by cases τ; simp [PTree.order]
        rw [hh0, zero_pow this, mul_zero, zero_smul]
      have hz : ∀ n p i, itK tab f t 0 (y t) n p i = 0 := by
        intro n p i; cases n <;> simp [itK, stageMap]
      have he : e (t, θ) h = 0 := by simp [e, v, hh0, hz]
      show ‖e (t, θ) h - S‖ ≤ _
      rw [he, hS0, sub_zero, norm_zero, add_mul]
      positivity
    obtain ⟨k, hk, hyk⟩ := dense_step tab f cj (idealRoot E) (idealRoot E) () hok
      (fun _ => ⟨idealRoot_exact E, idealRoot_exact E⟩) hrows t h hh0 (y t) _ false
      (validState_init tab f cj (idealRoot E) (idealRoot E) () t (y t) false) h2
    have h4 := weighted_near tab f hL0 hL t h (hδh h h3) (y t) (y t) k hk N M1 (hM t ht h h3)
      (denseW tab rows d θ) W (denseW_le tab rows d hθ.1 hθ.2)
    rw [← hyk, sub_self, norm_zero, mul_zero, zero_add] at h4
    set Y := interp E t (t + h) ((odeRK tab f cj (idealRoot E) (idealRoot E) ()).step t (t + h) (y t)
      (odeRK tab f cj (idealRoot E) (idealRoot E) ()).init false).dense (t + θ * h)
    have e5 : e (t, θ) h - S = (Y - y (t + θ * h) - S) - (Y - v t θ h) := by
      simp only [e]; abel
    show ‖e (t, θ) h - S‖ ≤ _
    rw [e5, add_mul]
    exact (norm_sub_le _ _).trans (add_le_add h1 h4)
  have hT : IsCompact (Set.Icc a b ×ˢ Set.Icc (0 : ℝ) 1) := isCompact_Icc.prod isCompact_Icc
  have hε' : (0 : ℝ) ≤ (ε : ℝ) := by exact_mod_cast hε
  obtain ⟨A, hA, hb⟩ := nearOrder_uniform (X := ℝ × ℝ) hT hε'
    (fun z => G z.1) (fun z hz => (hG z.1 hz.1).2) e hsm hpt δ
  refine ⟨δ, A + 2 * W * M1 * (P * Λ) ^ N, hδ, by positivity, ?_⟩
  intro t ht h h0 hh θ hθ x st mj hst hokay
  rcases h0.eq_or_lt with rfl | h0
  · rw [dense_step_zero tab f cj rF rK nj hok hroot hrows t x st mj hst hokay]
    simp
  have habs : |h| = h := abs_of_pos h0
  have hh' : |h| ≤ δ := by rw [habs]; exact hh
  obtain ⟨k, hk, hyk⟩ := dense_step tab f cj rF rK nj hok hroot hrows t h h0.ne' x st mj hst hokay
  have h4 := weighted_increment tab f hL0 hL t h (hδh h hh') x (y t) k hk N M1 (hM t ht h hh')
    (denseW tab rows d θ) W (denseW_le tab rows d hθ.1 hθ.2)
  have h5 := hb (t, θ) ⟨ht, hθ⟩ h hh'
  rw [habs] at h4 h5
  rw [max_eq_left hδ1, one_pow, mul_one] at h5
  rw [hyk]
  set Y := ∑ p, ∑ i ∈ range s, denseW tab rows d θ p i • k p i
  have e6 : x + Y - x - (y (t + θ * h) - y t)
      = (Y - ∑ p, ∑ i ∈ range s, denseW tab rows d θ p i • itK tab f t h (y t) N p i) + e (t, θ) h := by
    simp only [e, v]; abel
  rw [e6]
  refine (norm_add_le _ _).trans ((add_le_add h4 h5).trans (le_of_eq ?_))
  rw [← hP, ← hΛ]
  ring

/-- The error of dense output over one step, started anywhere, uniformly along a solution. -/
theorem dense_error [CompleteSpace E] (hok : methodOK s c tab = true)
    (hroot : (odeRK tab f cj rF rK nj).RootExact)
    {interp : InterpRule m} {rows : Tableau ℚ → List (List ℚ)} {d : ℕ} (hrows : HasRows tab interp s d rows)
    {N : ℕ} {ε : ℚ} (hε : 0 ≤ ε) (hden : DenseOrder tab interp N ε)
    (hf : ∀ p, AnalyticOnNhd ℝ (fun x : ℝ × E => f p x.1 x.2) Set.univ)
    {L : ℝ} (hL0 : 0 ≤ L) (hL : ∀ p t x x', ‖f p t x - f p t x'‖ ≤ L * ‖x - x'‖)
    (y : ℝ → E) (hy : ∀ t, HasDerivAt y (∑ p, f p t (y t)) t) {a b D : ℝ} (hD : ElemBound f y a b N D) :
    ∃ δ A, 0 < δ ∧ 0 ≤ A ∧ ∀ t ∈ Set.Icc a b, ∀ h, 0 ≤ h → h ≤ δ →
      ∀ θ ∈ Set.Icc (0 : ℝ) 1, ∀ x st mj,
      (odeRK tab f cj rF rK nj).ValidState t x st mj →
      ((odeRK tab f cj rF rK nj).step t (t + h) x st mj).result.isOkay = true →
      ‖interp E t (t + h) ((odeRK tab f cj rF rK nj).step t (t + h) x st mj).dense (t + θ * h)
          - y (t + θ * h)‖
        ≤ (1 + 4 * rowSum s d rows tab * (L * m * s) * h) * ‖x - y t‖ + A * h ^ (N + 1) + ε * D * h := by
  obtain ⟨δ, A, hδ, hA, hb⟩ := dense_increment tab f cj rF rK nj hok hroot hrows hε hden hf hL0 hL y hy hD
  refine ⟨δ, A, hδ, hA, fun t ht h h0 hh θ hθ x st mj hst hokay => ?_⟩
  have h1 := hb t ht h h0 hh θ hθ x st mj hst hokay
  set Y := interp E t (t + h) ((odeRK tab f cj rF rK nj).step t (t + h) x st mj).dense (t + θ * h)
  have e1 : Y - y (t + θ * h) = (x - y t) + (Y - x - (y (t + θ * h) - y t)) := by abel
  rw [e1]
  refine (norm_add_le _ _).trans ((add_le_add_right h1 _).trans (le_of_eq ?_))
  ring

end
end Verif
