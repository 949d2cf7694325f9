import Mathlib.Analysis.Calculus.ContDiff.Basic
import Mathlib.Analysis.Calculus.IteratedDeriv.Lemmas
import Mathlib.Analysis.Calculus.MeanValue
import Mathlib.Analysis.Calculus.Deriv.Pow
import Mathlib.Analysis.Asymptotics.Lemmas

/-!
# From `O(h^n)` at every point to `O(h^n)` uniformly

A smooth function of `t` and `h` which is `O(h^n)` for every fixed `t` is bounded by `C h^n` for all `t` in a
compact set.
-/

namespace Verif
open Filter Topology Asymptotics Set
open scoped ContDiff

variable {E : Type*} [NormedAddCommGroup E] [NormedSpace ℝ E]
  {X : Type*} [NormedAddCommGroup X] [NormedSpace ℝ X]

/-- Integrate a bound of the derivative. -/
theorem norm_le_of_deriv_le (g : ℝ → E) (hg : Differentiable ℝ g) (h0 : g 0 = 0) (C : ℝ) (n : ℕ) (h : ℝ)
    (hd : ∀ x ∈ uIcc 0 h, ‖deriv g x‖ ≤ C * |x| ^ n) (hC : 0 ≤ C) : ‖g h‖ ≤ C * |h| ^ (n + 1) := by
  have hx : ∀ x ∈ uIcc 0 h, ‖deriv g x‖ ≤ C * |h| ^ n := by
    intro x hx
    refine (hd x hx).trans (mul_le_mul_of_nonneg_left (pow_le_pow_left₀ (abs_nonneg _) ?_ _) hC)
    have := abs_sub_left_of_mem_uIcc hx
    simpa using this
  have := (convex_uIcc (0 : ℝ) h).norm_image_sub_le_of_norm_deriv_le
    (fun x _ => hg x) hx left_mem_uIcc right_mem_uIcc
  simpa [h0, pow_succ, mul_assoc] using this

theorem isBigO_of_iteratedDeriv (n : ℕ) : ∀ (g : ℝ → E) (_ : ContDiff ℝ ∞ g)
    (_ : ∀ k < n, iteratedDeriv k g 0 = 0), g =O[𝓝 0] (fun h : ℝ => h ^ n) := by
  induction n with
  | zero =>
    intro g hg _
    simp only [pow_zero]
    exact hg.continuous.continuousAt.isBigO_one ℝ
  | succ n ih =>
    intro g hg hk
    have hg' : ContDiff ℝ ∞ (deriv g) := (contDiff_infty_iff_deriv.1 hg).2
    have h1 := ih (deriv g) hg' (fun k hkn => by
      rw [← iteratedDeriv_succ']; exact hk (k + 1) (by omega))
    obtain ⟨C, hC, hb⟩ := h1.exists_nonneg
    rw [isBigOWith_iff] at hb
    obtain ⟨r, hr, hb⟩ := Metric.eventually_nhds_iff.1 hb
    refine IsBigO.of_bound C ?_
    filter_upwards [Metric.ball_mem_nhds (0 : ℝ) hr] with h hh
    rw [norm_pow, Real.norm_eq_abs]
    refine norm_le_of_deriv_le g (hg.differentiable (by simp)) (by simpa using hk 0 (by omega)) C n h ?_ hC
    intro x hx
    have := abs_sub_left_of_mem_uIcc hx
    have := hb (y := x) (by
      rw [Real.dist_eq]
      rw [Metric.mem_ball, Real.dist_eq] at hh
      simp only [sub_zero] at *
      exact lt_of_le_of_lt this hh)
    rwa [norm_pow, Real.norm_eq_abs] at this

theorem iteratedDeriv_of_isBigO (n : ℕ) : ∀ (g : ℝ → E) (_ : ContDiff ℝ ∞ g)
    (_ : g =O[𝓝 0] (fun h : ℝ => h ^ n)), ∀ k < n, iteratedDeriv k g 0 = 0 := by
  induction n with
  | zero => intro g _ _ k hk; omega
  | succ n ih =>
    intro g hg hO
    have hn : (fun h : ℝ => h ^ (n + 1)) =O[𝓝 0] (fun h : ℝ => h ^ n) :=
      (isLittleO_pow_pow (𝕜 := ℝ) (Nat.lt_succ_self n)).isBigO
    have hlow := ih g hg (hO.trans hn)
    intro k hk
    rcases Nat.lt_succ_iff_lt_or_eq.1 hk with hk | rfl
    · exact hlow k hk
    -- subtract the first term
    set v := iteratedDeriv k g 0 with hv
    set c : E := ((k.factorial : ℝ)⁻¹) • v with hc
    have hmono : ContDiff ℝ ∞ (fun h : ℝ => h ^ k • c) := by fun_prop
    have hiter : ∀ j, iteratedDeriv j (fun h : ℝ => h ^ k • c) 0
        = (if j = k then (k.factorial : ℝ) else 0) • c := by
      intro j
      have e1 : iteratedDeriv j (fun h : ℝ => h ^ k • c) 0
          = iteratedDeriv j (fun h : ℝ => h ^ k) 0 • c :=
        iteratedDeriv_smul_const (by fun_prop) c
      rw [e1, iteratedDeriv_fun_pow_zero]
      by_cases hjk : j = k <;> simp [hjk]
    have hr : (fun h => g h - h ^ k • c) =O[𝓝 0] (fun h : ℝ => h ^ (k + 1)) := by
      apply isBigO_of_iteratedDeriv (k + 1) _ (hg.sub hmono)
      intro j hj
      have : iteratedDeriv j (fun h => g h - h ^ k • c) 0
          = iteratedDeriv j g 0 - iteratedDeriv j (fun h : ℝ => h ^ k • c) 0 :=
        iteratedDeriv_fun_sub (hg.contDiffAt.of_le (by exact_mod_cast le_top)) (hmono.contDiffAt.of_le (by exact_mod_cast le_top))
      rw [this, hiter]
      rcases Nat.lt_succ_iff_lt_or_eq.1 hj with hj' | rfl
      · rw [hlow j hj', if_neg (by omega)]; simp
      · rw [if_pos rfl, hc, smul_smul, mul_inv_cancel₀ (by positivity), one_smul, sub_self]
    have hm : (fun h : ℝ => h ^ k • c) =O[𝓝 0] (fun h : ℝ => h ^ (k + 1)) := by
      simpa using hO.sub hr
    obtain ⟨C, hC, hb⟩ := hm.exists_nonneg
    rw [isBigOWith_iff] at hb
    have hc0 : c = 0 := by
      by_contra hne
      have hpos : 0 < ‖c‖ := norm_pos_iff.2 hne
      have ht : ∀ᶠ h in 𝓝[>] (0 : ℝ), ‖c‖ ≤ C * h := by
        filter_upwards [hb.filter_mono nhdsWithin_le_nhds, self_mem_nhdsWithin] with h hh hp
        have hp : 0 < h := hp
        rw [norm_smul, norm_pow, norm_pow, Real.norm_of_nonneg hp.le, pow_succ] at hh
        have : h ^ k * ‖c‖ ≤ h ^ k * (C * h) := by linarith
        exact le_of_mul_le_mul_left this (by positivity)
      have h2 : Tendsto (fun h : ℝ => C * h) (𝓝[>] 0) (𝓝 (C * 0)) :=
        ((continuous_const.mul continuous_id).tendsto 0).mono_left nhdsWithin_le_nhds
      have := ge_of_tendsto h2 ht
      simp only [mul_zero] at this
      linarith
    have : v = (k.factorial : ℝ) • c := by
      rw [hc, smul_smul, mul_inv_cancel₀ (by positivity), one_smul]
    rw [this, hc0, smul_zero]

/-- The derivative of a smooth `O(h^(n+1))` is `O(h^n)`. -/
theorem deriv_isBigO (n : ℕ) (g : ℝ → E) (hg : ContDiff ℝ ∞ g)
    (hO : g =O[𝓝 0] (fun h : ℝ => h ^ (n + 1))) : deriv g =O[𝓝 0] (fun h : ℝ => h ^ n) := by
  apply isBigO_of_iteratedDeriv n _ (contDiff_infty_iff_deriv.1 hg).2
  intro k hk
  rw [← iteratedDeriv_succ']
  exact iteratedDeriv_of_isBigO (n + 1) g hg hO (k + 1) (by omega)

/-- The uniform bound. -/
theorem uniform_bound {T : Set X} (hT : IsCompact T) (H : ℝ) (n : ℕ) : ∀ (e : X → ℝ → E)
    (_ : ContDiff ℝ ∞ (fun x : X × ℝ => e x.1 x.2))
    (_ : ∀ t ∈ T, e t =O[𝓝 0] (fun h : ℝ => h ^ n)),
    ∃ C, 0 ≤ C ∧ ∀ t ∈ T, ∀ h, |h| ≤ H → ‖e t h‖ ≤ C * |h| ^ n := by
  induction n with
  | zero =>
    intro e he _
    obtain ⟨C, hC⟩ := (hT.prod (isCompact_Icc (a := -H) (b := H))).exists_bound_of_continuousOn
      he.continuous.continuousOn
    refine ⟨max C 0, le_max_right _ _, fun t ht h hh => ?_⟩
    rw [pow_zero, mul_one]
    exact (hC (t, h) ⟨ht, abs_le.1 hh⟩).trans (le_max_left _ _)
  | succ n ih =>
    intro e he hO
    have hpart : ∀ t h, HasDerivAt (e t) (fderiv ℝ (fun x : X × ℝ => e x.1 x.2) (t, h) (0, 1)) h := by
      intro t h
      have h1 : HasFDerivAt (fun x : X × ℝ => e x.1 x.2) (fderiv ℝ (fun x : X × ℝ => e x.1 x.2) (t, h)) (t, h) :=
        (he.differentiable (by simp) _).hasFDerivAt
      have h2 : HasDerivAt (fun h : ℝ => (t, h)) ((0 : X), (1 : ℝ)) h :=
        (hasDerivAt_const h t).prodMk (hasDerivAt_id h)
      exact h1.comp_hasDerivAt h h2
    have hsm : ∀ t, ContDiff ℝ ∞ (e t) := fun t =>
      he.comp (contDiff_const.prodMk contDiff_id)
    have hde : ContDiff ℝ ∞ (fun x : X × ℝ => fderiv ℝ (fun x : X × ℝ => e x.1 x.2) (x.1, x.2) (0, 1)) := by
      have : ContDiff ℝ ∞ (fderiv ℝ (fun x : X × ℝ => e x.1 x.2)) := he.fderiv_right (by simp)
      exact this.clm_apply contDiff_const
    obtain ⟨C, hC, hb⟩ := ih (fun t h => fderiv ℝ (fun x : X × ℝ => e x.1 x.2) (t, h) (0, 1)) hde (by
      intro t ht
      have := deriv_isBigO n (e t) (hsm t) (hO t ht)
      have e1 : deriv (e t) = fun h => fderiv ℝ (fun x : X × ℝ => e x.1 x.2) (t, h) (0, 1) :=
        funext fun h => (hpart t h).deriv
      rwa [e1] at this)
    refine ⟨C, hC, fun t ht h hh => ?_⟩
    apply norm_le_of_deriv_le (e t) ((hsm t).differentiable (by simp)) _ C n h _ hC
    · have := iteratedDeriv_of_isBigO (n + 1) (e t) (hsm t) (hO t ht) 0 (by omega)
      simpa using this
    · intro x hx
      rw [(hpart t x).deriv]
      apply hb t ht x
      have := abs_sub_left_of_mem_uIcc hx
      simp only [sub_zero] at this
      exact this.trans hh

/-- The derivatives with respect to the second argument, at zero, are smooth. -/
theorem iteratedDeriv_smooth (k : ℕ) : ∀ (e : X → ℝ → E)
    (_ : ContDiff ℝ ∞ (fun x : X × ℝ => e x.1 x.2)),
    ContDiff ℝ ∞ (fun x : X × ℝ => iteratedDeriv k (e x.1) x.2) := by
  induction k with
  | zero => intro e he; simpa using he
  | succ k ih =>
    intro e he
    have hpart : ∀ t h, HasDerivAt (e t) (fderiv ℝ (fun x : X × ℝ => e x.1 x.2) (t, h) (0, 1)) h := by
      intro t h
      have h1 : HasFDerivAt (fun x : X × ℝ => e x.1 x.2) (fderiv ℝ (fun x : X × ℝ => e x.1 x.2) (t, h)) (t, h) :=
        (he.differentiable (by simp) _).hasFDerivAt
      have h2 : HasDerivAt (fun h : ℝ => (t, h)) ((0 : X), (1 : ℝ)) h :=
        (hasDerivAt_const h t).prodMk (hasDerivAt_id h)
      exact h1.comp_hasDerivAt h h2
    have hde : ContDiff ℝ ∞ (fun x : X × ℝ => fderiv ℝ (fun x : X × ℝ => e x.1 x.2) (x.1, x.2) (0, 1)) := by
      have : ContDiff ℝ ∞ (fderiv ℝ (fun x : X × ℝ => e x.1 x.2)) := he.fderiv_right (by simp)
      exact this.clm_apply contDiff_const
    have := ih (fun t h => fderiv ℝ (fun x : X × ℝ => e x.1 x.2) (t, h) (0, 1)) hde
    convert this using 2 with x
    rw [iteratedDeriv_succ']
    congr 1
    exact funext fun h => (hpart x.1 h).deriv

theorem iteratedDeriv_poly (n : ℕ) (v : ℕ → E) (k : ℕ) (hk : k < n) :
    iteratedDeriv k (fun h : ℝ => ∑ j ∈ Finset.range n, h ^ j • v j) 0 = (k.factorial : ℝ) • v k := by
  have h1 : iteratedDeriv k (fun h : ℝ => ∑ j ∈ Finset.range n, h ^ j • v j) 0
      = ∑ j ∈ Finset.range n, iteratedDeriv k (fun h : ℝ => h ^ j • v j) 0 :=
    iteratedDeriv_fun_sum (fun j _ => by fun_prop)
  have h2 : ∀ j, iteratedDeriv k (fun h : ℝ => h ^ j • v j) 0
      = (if k = j then (j.factorial : ℝ) else 0) • v j := by
    intro j
    have e1 : iteratedDeriv k (fun h : ℝ => h ^ j • v j) 0
        = iteratedDeriv k (fun h : ℝ => h ^ j) 0 • v j := iteratedDeriv_smul_const (by fun_prop) _
    rw [e1, iteratedDeriv_fun_pow_zero]
    by_cases hjk : k = j <;> simp [hjk]
  rw [h1, Finset.sum_congr rfl (fun j _ => h2 j), Finset.sum_eq_single_of_mem k (Finset.mem_range.2 hk)]
  · simp
  · intro j _ hj; simp [Ne.symm hj]

/-- The uniform bound, after subtraction of a polynomial. -/
theorem uniform_taylor {T : Set X} (hT : IsCompact T) (H : ℝ) (n : ℕ) (e : X → ℝ → E)
    (he : ContDiff ℝ ∞ (fun x : X × ℝ => e x.1 x.2)) (v : X → ℕ → E)
    (hO : ∀ t ∈ T, (fun h => e t h - ∑ k ∈ Finset.range n, h ^ k • v t k) =O[𝓝 0] (fun h : ℝ => h ^ n)) :
    ∃ C, 0 ≤ C ∧ ∀ t ∈ T, ∀ h, |h| ≤ H →
      ‖e t h - ∑ k ∈ Finset.range n, h ^ k • v t k‖ ≤ C * |h| ^ n := by
  have hsm : ∀ t, ContDiff ℝ ∞ (e t) := fun t => he.comp (contDiff_const.prodMk contDiff_id)
  let w : X → ℕ → E := fun t k => ((k.factorial : ℝ)⁻¹) • iteratedDeriv k (e t) 0
  have hvw : ∀ t ∈ T, ∀ k < n, v t k = w t k := by
    intro t ht k hk
    have hp : ContDiff ℝ ∞ (fun h : ℝ => ∑ k ∈ Finset.range n, h ^ k • v t k) := by fun_prop
    have h1 := iteratedDeriv_of_isBigO n _ ((hsm t).sub hp) (hO t ht) k hk
    have h2 : iteratedDeriv k (fun h => e t h - ∑ k ∈ Finset.range n, h ^ k • v t k) 0
        = iteratedDeriv k (e t) 0 - iteratedDeriv k (fun h : ℝ => ∑ k ∈ Finset.range n, h ^ k • v t k) 0 :=
      iteratedDeriv_fun_sub ((hsm t).contDiffAt.of_le (by exact_mod_cast le_top))
        (hp.contDiffAt.of_le (by exact_mod_cast le_top))
    rw [h2, iteratedDeriv_poly n _ k hk, sub_eq_zero] at h1
    simp only [w]
    rw [h1, smul_smul, inv_mul_cancel₀ (by positivity), one_smul]
  have hws : ∀ k, ContDiff ℝ ∞ (fun t => w t k) := fun k =>
    ((iteratedDeriv_smooth k e he).comp (contDiff_id.prodMk contDiff_const)).const_smul _
  have heq : ∀ t ∈ T, ∀ h : ℝ, ∑ k ∈ Finset.range n, h ^ k • v t k = ∑ k ∈ Finset.range n, h ^ k • w t k :=
    fun t ht h => Finset.sum_congr rfl fun k hk => by rw [hvw t ht k (Finset.mem_range.1 hk)]
  obtain ⟨C, hC, hb⟩ := uniform_bound hT H n (fun t h => e t h - ∑ k ∈ Finset.range n, h ^ k • w t k)
    (he.sub (ContDiff.sum fun k _ => (contDiff_snd.pow k).smul ((hws k).comp contDiff_fst)))
    (fun t ht => by simpa only [heq t ht] using hO t ht)
  exact ⟨C, hC, fun t ht h hh => by rw [heq t ht]; exact hb t ht h hh⟩

end Verif
