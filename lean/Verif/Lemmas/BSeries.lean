import Verif.Spec.Order
import Mathlib.Analysis.Calculus.FDeriv.Analytic
import Mathlib.Analysis.Calculus.MeanValue
import Mathlib.Analysis.Calculus.Deriv.Pow
import Mathlib.Analysis.Normed.Module.Multilinear.Basic

/-!
# Taylor series of the exact solution and of Runge-Kutta methods

Both are expanded into elementary differentials of trees, up to any order.
-/

set_option linter.unusedSectionVars false

namespace Verif
open Finset Asymptotics Filter Topology

section
variable {ι : Type} [Fintype ι] {E : Type} [NormedAddCommGroup E] [NormedSpace ℝ E]

namespace PTree

theorem order_pos (t : PTree ι) : 1 ≤ t.order := by
  cases t; simp [order]

theorem order_le_of_mem {N : ℕ} {t : PTree ι} (h : t ∈ upTo ι N) : t.order ≤ N := by
  cases N with
  | zero => simp [upTo] at h
  | succ N => simp only [upTo, mem_filter] at h; exact h.2

theorem sum_upTo_succ {M : Type} [AddCommMonoid M] (N : ℕ) (g : PTree ι → M) :
    ∑ t ∈ upTo ι (N + 1), g t = ∑ p, ∑ n ∈ range (N + 1),
      ∑ r ∈ Fintype.piFinset (fun _ : Fin n => upTo ι N),
        if (node p n r).order ≤ N + 1 then g (node p n r) else 0 := by
  classical
  rw [upTo, sum_filter, sum_map, sum_sigma]
  apply sum_congr rfl
  intro p _
  rw [sum_sigma]
  rfl

theorem mem_upTo (t : PTree ι) : ∀ N, t.order ≤ N → t ∈ upTo ι N := by
  induction t with
  | node p n ch ih =>
    intro N hN
    cases N with
    | zero => simp [order] at hN
    | succ N =>
      simp only [order] at hN
      have hsum : ∑ i, (ch i).order ≤ N := by omega
      simp only [upTo, mem_filter, Finset.mem_map, order]
      refine ⟨⟨⟨p, n, ch⟩, ?_, rfl⟩, hN⟩
      simp only [mem_sigma, mem_univ, true_and, mem_range, Fintype.mem_piFinset]
      constructor
      · have : n = ∑ i : Fin n, 1 := by simp
        have h2 : ∑ i : Fin n, 1 ≤ ∑ i, (ch i).order := sum_le_sum (fun i _ => (ch i).order_pos)
        omega
      · intro i
        apply ih
        exact le_trans (single_le_sum (f := fun i => (ch i).order) (fun _ _ => Nat.zero_le _) (mem_univ i)) hsum

end PTree

open PTree

/-- The truncated series with coefficients `α`. -/
noncomputable def bseries (F : ι → FormalMultilinearSeries ℝ E E) (N : ℕ) (α : PTree ι → ℝ) (h : ℝ) : E :=
  ∑ t ∈ upTo ι N, (α t * h ^ t.order) • t.diff F

/-- The part of `f_p(y0 + bseries)` that is of order at most `N`. -/
noncomputable def compPart (F : ι → FormalMultilinearSeries ℝ E E) (N : ℕ) (α : PTree ι → ℝ) (p : ι)
    (h : ℝ) : E :=
  ∑ n ∈ range (N + 1), ∑ r ∈ Fintype.piFinset (fun _ : Fin n => upTo ι N),
    if (node p n r).order ≤ N + 1 then
      ((∏ i, α (r i)) * h ^ ((node p n r).order - 1)) • (node p n r).diff F else 0

theorem bseries_isBigO (F : ι → FormalMultilinearSeries ℝ E E) (N : ℕ) (α : PTree ι → ℝ) :
    (fun h => bseries F N α h) =O[𝓝 0] (fun h : ℝ => h) := by
  unfold bseries
  apply IsBigO.fun_sum
  intro t _
  have h1 : (fun h : ℝ => (α t * h ^ t.order) • t.diff F) =O[𝓝 0] (fun h : ℝ => h ^ t.order) := by
    apply IsBigO.of_bound (‖α t‖ * ‖t.diff F‖)
    filter_upwards with h
    rw [norm_smul, norm_mul]
    ring_nf
    rfl
  refine h1.trans ?_
  have h2 : (fun h : ℝ => h ^ t.order) =O[𝓝 0] (fun h : ℝ => h ^ 1) := by
    rcases Nat.lt_or_ge 1 t.order with hlt | hge
    · exact (isLittleO_pow_pow hlt).isBigO
    · have : t.order = 1 := le_antisymm hge t.order_pos
      rw [this]
  simpa using h2

theorem bseries_zero_at (F : ι → FormalMultilinearSeries ℝ E E) (N : ℕ) (α : PTree ι → ℝ) :
    bseries F N α 0 = 0 := by
  unfold bseries
  apply sum_eq_zero
  intro t _
  rw [zero_pow (by have := t.order_pos; omega), mul_zero, zero_smul]

theorem isBigO_pow_of_le {a b : ℕ} (h : a ≤ b) : (fun x : ℝ => x ^ b) =O[𝓝 0] (fun x : ℝ => x ^ a) := by
  rcases h.lt_or_eq with hlt | rfl
  · exact (isLittleO_pow_pow hlt).isBigO
  · exact isBigO_refl _ _

/-- A polynomial applied to a truncated series. -/
theorem partialSum_bseries (F : ι → FormalMultilinearSeries ℝ E E) (N : ℕ) (α : PTree ι → ℝ) (p : ι) :
    (fun h => (F p).partialSum (N + 1) (bseries F N α h) - compPart F N α p h)
      =O[𝓝 0] (fun h : ℝ => h ^ (N + 1)) := by
  classical
  have key : ∀ h, (F p).partialSum (N + 1) (bseries F N α h)
      = ∑ n ∈ range (N + 1), ∑ r ∈ Fintype.piFinset (fun _ : Fin n => upTo ι N),
        ((∏ i, α (r i)) * h ^ ((node p n r).order - 1)) • (node p n r).diff F := by
    intro h
    unfold FormalMultilinearSeries.partialSum
    apply sum_congr rfl
    intro n _
    unfold bseries
    rw [ContinuousMultilinearMap.map_sum_finset]
    apply sum_congr rfl
    intro r _
    rw [ContinuousMultilinearMap.map_smul_univ, prod_mul_distrib, prod_pow_eq_pow_sum]
    simp [order, diff]
  have hd : ∀ h, (F p).partialSum (N + 1) (bseries F N α h) - compPart F N α p h
      = ∑ n ∈ range (N + 1), ∑ r ∈ Fintype.piFinset (fun _ : Fin n => upTo ι N),
        if (node p n r).order ≤ N + 1 then 0 else
        ((∏ i, α (r i)) * h ^ ((node p n r).order - 1)) • (node p n r).diff F := by
    intro h
    rw [key, compPart, ← sum_sub_distrib]
    apply sum_congr rfl
    intro n _
    rw [← sum_sub_distrib]
    apply sum_congr rfl
    intro r _
    split <;> simp
  simp only [hd]
  apply IsBigO.fun_sum
  intro n _
  apply IsBigO.fun_sum
  intro r _
  split
  · exact isBigO_zero _ _
  · rename_i hgt
    have h1 : (fun h : ℝ => ((∏ i, α (r i)) * h ^ ((node p n r).order - 1)) • (node p n r).diff F)
        =O[𝓝 0] (fun h : ℝ => h ^ ((node p n r).order - 1)) := by
      apply IsBigO.of_bound (‖∏ i, α (r i)‖ * ‖(node p n r).diff F‖)
      filter_upwards with h
      rw [norm_smul, norm_mul]
      apply le_of_eq; ring
    exact h1.trans (isBigO_pow_of_le (by omega))

/-- `f_p` applied to something with a known expansion. -/
theorem comp_expansion {f : E → E} {y0 : E} (F : ι → FormalMultilinearSeries ℝ E E) (p : ι)
    (hf : HasFPowerSeriesAt f (F p) y0) (N : ℕ) (α : PTree ι → ℝ) (v : ℝ → E)
    (hv : (fun h => v h - bseries F N α h) =O[𝓝 0] (fun h : ℝ => h ^ (N + 1))) :
    (fun h => f (y0 + v h) - compPart F N α p h) =O[𝓝 0] (fun h : ℝ => h ^ (N + 1)) := by
  have hid : Tendsto (fun h : ℝ => h) (𝓝 0) (𝓝 0) := tendsto_id
  have hB := bseries_isBigO F N α
  have hB0 : Tendsto (fun h => bseries F N α h) (𝓝 0) (𝓝 0) := hB.trans_tendsto hid
  have hpow0 : Tendsto (fun h : ℝ => h ^ (N + 1)) (𝓝 0) (𝓝 0) := by
    have := (continuous_pow (M := ℝ) (N + 1)).tendsto 0
    simpa using this
  have hd0 := hv.trans_tendsto hpow0
  have hv0 : Tendsto v (𝓝 0) (𝓝 0) := by
    have := hd0.add hB0
    simpa using this
  -- replace `v` by the series
  have h1 : (fun h => f (y0 + v h) - f (y0 + bseries F N α h)) =O[𝓝 0] (fun h : ℝ => h ^ (N + 1)) := by
    have hs := hf.hasStrictFDerivAt.isBigO_sub
    have ht : Tendsto (fun h => (y0 + v h, y0 + bseries F N α h)) (𝓝 0) (𝓝 (y0, y0)) := by
      rw [nhds_prod_eq]
      have h1 : Tendsto (fun h => y0 + v h) (𝓝 0) (𝓝 y0) := by simpa using hv0.const_add y0
      have h2 : Tendsto (fun h => y0 + bseries F N α h) (𝓝 0) (𝓝 y0) := by simpa using hB0.const_add y0
      exact h1.prodMk h2
    have := hs.comp_tendsto ht
    refine this.trans ?_
    simpa [Function.comp_def] using hv
  -- replace `f` by its Taylor polynomial
  have h2 : (fun h => f (y0 + bseries F N α h) - (F p).partialSum (N + 1) (bseries F N α h))
      =O[𝓝 0] (fun h : ℝ => h ^ (N + 1)) := by
    have := (hf.isBigO_sub_partialSum_pow (N + 1)).comp_tendsto hB0
    refine this.trans ?_
    have := (hB.norm_left).pow (N + 1)
    simpa [Function.comp_def] using this
  have h3 := partialSum_bseries F N α p
  have := (h1.add h2).add h3
  simpa using this

/-- The expansion of `sum_p sum_j (b_pj h) f_p(y0 + z_j)`. -/
theorem combine_expansion {f : ι → E → E} {y0 : E} (F : ι → FormalMultilinearSeries ℝ E E)
    (hf : ∀ p, HasFPowerSeriesAt (f p) (F p) y0) (N s : ℕ) (φ : ℕ → PTree ι → ℝ) (z : ℕ → ℝ → E)
    (hz : ∀ j < s, (fun h => z j h - bseries F N (φ j) h) =O[𝓝 0] (fun h : ℝ => h ^ (N + 1)))
    (b : ι → ℕ → ℝ) (ψ : PTree ι → ℝ)
    (hψ : ∀ p n (r : Fin n → PTree ι), ψ (node p n r) = ∑ j ∈ range s, b p j * ∏ i, φ j (r i)) :
    (fun h => (∑ p, ∑ j ∈ range s, (b p j * h) • f p (y0 + z j h)) - bseries F (N + 1) ψ h)
      =O[𝓝 0] (fun h : ℝ => h ^ (N + 2)) := by
  have key : ∀ h, bseries F (N + 1) ψ h
      = ∑ p, ∑ j ∈ range s, (b p j * h) • compPart F N (φ j) p h := by
    intro h
    unfold bseries
    rw [sum_upTo_succ]
    apply sum_congr rfl
    intro p _
    unfold compPart
    simp only [smul_sum]
    rw [sum_comm]
    apply sum_congr rfl
    intro n _
    rw [sum_comm]
    apply sum_congr rfl
    intro r _
    by_cases ho : (node p n r).order ≤ N + 1
    · simp only [if_pos ho, smul_smul, ← sum_smul]
      congr 1
      rw [hψ, sum_mul]
      apply sum_congr rfl
      intro j _
      obtain ⟨o, hoo⟩ : ∃ o, (node p n r).order = o + 1 := ⟨(node p n r).order - 1, by
        have := (node p n r).order_pos; omega⟩
      rw [hoo, Nat.add_sub_cancel, pow_succ]; ring
    · simp only [if_neg ho, smul_zero, sum_const_zero]
  simp only [key, ← sum_sub_distrib]
  apply IsBigO.fun_sum
  intro p _
  apply IsBigO.fun_sum
  intro j hj
  have h1 := comp_expansion F p (hf p) N (φ j) (z j) (hz j (mem_range.1 hj))
  have h2 : (fun h : ℝ => b p j * h) =O[𝓝 0] (fun h : ℝ => h) := isBigO_const_mul_self _ _ _
  have h3 := h2.smul h1
  refine (h3.congr_left ?_).trans ?_
  · intro h; simp only [smul_sub]
  · apply IsBigO.of_bound 1
    filter_upwards with h
    rw [one_mul, smul_eq_mul, ← pow_succ']

/-- **Expansion of the stages.** -/
theorem stage_expansion {f : ι → E → E} {y0 : E} (F : ι → FormalMultilinearSeries ℝ E E)
    (hf : ∀ p, HasFPowerSeriesAt (f p) (F p) y0) (s : ℕ) (a : ι → ℕ → ℕ → ℝ) (z : ℕ → ℝ → E)
    (hz0 : ∀ i < s, Tendsto (z i) (𝓝 0) (𝓝 0))
    (hz : ∀ i < s, ∀ᶠ h in 𝓝 (0 : ℝ), z i h = ∑ p, ∑ j ∈ range s, (a p i j * h) • f p (y0 + z j h))
    (N : ℕ) : ∀ i < s, (fun h => z i h - bseries F N
      (fun t => t.weight s a (fun p => a p i)) h) =O[𝓝 0] (fun h : ℝ => h ^ (N + 1)) := by
  induction N with
  | zero =>
    intro i hi
    have hb0 : ∀ h, bseries F 0 (fun t => t.weight s a (fun p => a p i)) h = 0 := by
      intro h; simp [bseries, upTo]
    simp only [hb0, sub_zero, zero_add, pow_one]
    refine IsBigO.congr' ?_ (f₁ := fun h => ∑ p, ∑ j ∈ range s, (a p i j * h) • f p (y0 + z j h))
      ?_ EventuallyEq.rfl
    · apply IsBigO.fun_sum
      intro p _
      apply IsBigO.fun_sum
      intro j hj
      have h2 : (fun h : ℝ => a p i j * h) =O[𝓝 0] (fun h : ℝ => h) := isBigO_const_mul_self _ _ _
      have hc : Tendsto (fun h => f p (y0 + z j h)) (𝓝 0) (𝓝 (f p y0)) := by
        have hcont := (hf p).continuousAt
        have : Tendsto (fun h => y0 + z j h) (𝓝 0) (𝓝 y0) := by
          simpa using (hz0 j (mem_range.1 hj)).const_add y0
        exact hcont.tendsto.comp this
      have h1 := hc.isBigO_one ℝ
      have h3 := h2.smul h1
      simpa using h3
    · filter_upwards [hz i hi] with h hh
      rw [hh]
  | succ N ih =>
    intro i hi
    have := combine_expansion F hf N s (fun j t => t.weight s a (fun p => a p j)) z ih
      (fun p => a p i) (fun t => t.weight s a (fun p => a p i)) (by
        intro p n r
        simp only [weight, root, stageWeight])
    refine this.congr' ?_ EventuallyEq.rfl
    filter_upwards [hz i hi] with h hh
    rw [hh]

/-- **Expansion of a Runge-Kutta method.** -/
theorem rk_expansion {f : ι → E → E} {y0 : E} (F : ι → FormalMultilinearSeries ℝ E E)
    (hf : ∀ p, HasFPowerSeriesAt (f p) (F p) y0) (s : ℕ) (a : ι → ℕ → ℕ → ℝ) (z : ℕ → ℝ → E)
    (hz0 : ∀ i < s, Tendsto (z i) (𝓝 0) (𝓝 0))
    (hz : ∀ i < s, ∀ᶠ h in 𝓝 (0 : ℝ), z i h = ∑ p, ∑ j ∈ range s, (a p i j * h) • f p (y0 + z j h))
    (b : ι → ℕ → ℝ) (N : ℕ) :
    (fun h => (∑ p, ∑ j ∈ range s, (b p j * h) • f p (y0 + z j h))
      - bseries F (N + 1) (fun t => t.weight s a b) h) =O[𝓝 0] (fun h : ℝ => h ^ (N + 2)) :=
  combine_expansion F hf N s (fun j t => t.weight s a (fun p => a p j)) z
    (stage_expansion F hf s a z hz0 hz N) b (fun t => t.weight s a b) (by
      intro p n r
      simp only [weight, root, stageWeight])

theorem isBigO_of_deriv {g g' : ℝ → E} (N : ℕ) (h0 : g 0 = 0) (hd : ∀ᶠ h in 𝓝 (0 : ℝ), HasDerivAt g (g' h) h)
    (hg' : g' =O[𝓝 0] (fun h : ℝ => h ^ N)) : g =O[𝓝 0] (fun h : ℝ => h ^ (N + 1)) := by
  obtain ⟨C, hC⟩ := hg'.bound
  obtain ⟨δ, hδ, hball⟩ := Metric.eventually_nhds_iff_ball.1 (hd.and hC)
  apply IsBigO.of_bound |C|
  filter_upwards [Metric.ball_mem_nhds (0 : ℝ) hδ] with h hh
  have hb : ∀ x ∈ Metric.closedBall (0 : ℝ) |h|, x ∈ Metric.ball (0 : ℝ) δ := by
    intro x hx
    rw [Metric.mem_closedBall, dist_zero_right, Real.norm_eq_abs] at hx
    rw [Metric.mem_ball, dist_zero_right, Real.norm_eq_abs] at hh ⊢
    linarith
  have hCnn : ∀ x ∈ Metric.closedBall (0 : ℝ) |h|, ‖g' x‖ ≤ |C| * |h| ^ N := by
    intro x hx
    have h1 := (hball x (hb x hx)).2
    rw [Metric.mem_closedBall, dist_zero_right, Real.norm_eq_abs] at hx
    rw [norm_pow, Real.norm_eq_abs] at h1
    calc ‖g' x‖ ≤ C * |x| ^ N := h1
      _ ≤ |C| * |x| ^ N := mul_le_mul_of_nonneg_right (le_abs_self C) (by positivity)
      _ ≤ |C| * |h| ^ N := mul_le_mul_of_nonneg_left (pow_le_pow_left₀ (abs_nonneg x) hx N) (abs_nonneg C)
  have := (convex_closedBall (0 : ℝ) |h|).norm_image_sub_le_of_norm_hasDerivWithin_le
    (fun x hx => ((hball x (hb x hx)).1).hasDerivWithinAt) hCnn
    (Metric.mem_closedBall_self (abs_nonneg h)) (by simp [Real.norm_eq_abs] : h ∈ Metric.closedBall (0 : ℝ) |h|)
  rw [h0, sub_zero, sub_zero, Real.norm_eq_abs] at this
  rw [norm_pow, Real.norm_eq_abs, pow_succ, ← mul_assoc]
  exact this

/-- **Expansion of the exact solution.** -/
theorem flow_expansion {f : ι → E → E} {y0 : E} (F : ι → FormalMultilinearSeries ℝ E E)
    (hf : ∀ p, HasFPowerSeriesAt (f p) (F p) y0) (w : ℝ → E) (hw : IsFlow f y0 w) (N : ℕ) :
    (fun h => w h - bseries F N (fun t => t.exact) h) =O[𝓝 0] (fun h : ℝ => h ^ (N + 1)) := by
  induction N with
  | zero =>
    have hb0 : ∀ h, bseries F 0 (fun t => t.exact) h = 0 := by
      intro h; simp [bseries, upTo]
    simp only [hb0, sub_zero, zero_add, pow_one]
    have hd := hw.2.self_of_nhds
    have := hd.isBigO_sub
    simpa [hw.1] using this
  | succ N ih =>
    apply isBigO_of_deriv (g' := fun h => (∑ p, f p (y0 + w h)) - ∑ p, compPart F N (fun t => t.exact) p h)
    · rw [hw.1, bseries_zero_at, sub_zero]
    · filter_upwards [hw.2] with h hh
      apply hh.sub
      have hB : HasDerivAt (fun h => bseries F (N + 1) (fun t => t.exact) h)
          (∑ t ∈ upTo ι (N + 1), (t.exact * (t.order * h ^ (t.order - 1))) • t.diff F) h := by
        unfold bseries
        apply HasDerivAt.fun_sum
        intro t _
        apply HasDerivAt.smul_const
        apply HasDerivAt.const_mul
        exact hasDerivAt_pow _ _
      convert hB using 1
      rw [sum_upTo_succ]
      apply sum_congr rfl
      intro p _
      unfold compPart
      apply sum_congr rfl
      intro n _
      apply sum_congr rfl
      intro r _
      split
      · congr 1
        have hne : ((node p n r).order : ℝ) ≠ 0 := by
          have := (node p n r).order_pos
          exact_mod_cast (by omega : (node p n r).order ≠ 0)
        have he : ((node p n r).exact : ℝ) = (∏ i, (r i).exact) / ((node p n r).order : ℝ) := by
          simp [PTree.exact, order]
        rw [he]
        field_simp
      · rfl
    · simp only [← sum_sub_distrib]
      apply IsBigO.fun_sum
      intro p _
      exact comp_expansion F p (hf p) N _ w ih

end
end Verif
