import Verif.Lemmas.DenseConvergence
import Verif.Lemmas.UniformTaylor
import Mathlib.LinearAlgebra.Vandermonde
import Mathlib.LinearAlgebra.Matrix.NonsingularInverse

/-!
# The derivative of dense output over one step
-/

set_option linter.unusedSectionVars false

namespace Verif
open Finset
open scoped ContDiff

section
/-- The coefficients of a polynomial are bounded in terms of its values (Markov's inequality, without its constant). -/
theorem coeff_le (n : ℕ) : ∃ M : ℝ, 0 ≤ M ∧ ∀ (E : Type) [NormedAddCommGroup E] [NormedSpace ℝ E] (q : ℕ → E) (B : ℝ),
    (∀ θ ∈ Set.Icc (0 : ℝ) 1, ‖∑ j ∈ range n, θ ^ (j + 1) • q j‖ ≤ B) → ∀ j < n, ‖q j‖ ≤ M * B := by
  classical
  let x : Fin n → ℝ := fun i => ((i : ℕ) + 1 : ℝ) / n
  let V := Matrix.vandermonde x
  have hinj : Function.Injective x := by
    intro i j h
    have hn : (n : ℝ) ≠ 0 := by
      have := i.pos
      positivity
    simp only [x] at h
    field_simp at h
    exact Fin.ext (by exact_mod_cast (add_right_cancel h))
  have hdet : V.det ≠ 0 := Matrix.det_vandermonde_ne_zero_iff.2 hinj
  refine ⟨n * ∑ j, ∑ i, |V⁻¹ j i|, by positivity, ?_⟩
  intro E _ _ q B hB j hj
  have hpos : ∀ i : Fin n, 0 < x i ∧ x i ≤ 1 ∧ 1 ≤ n * x i := by
    intro i
    have hn : (0 : ℝ) < n := by exact_mod_cast i.pos
    have hi : ((i : ℕ) : ℝ) + 1 ≤ n := by exact_mod_cast i.2
    simp only [x]
    refine ⟨by positivity, ?_, ?_⟩
    · rw [div_le_one hn]; exact hi
    · rw [mul_div_cancel₀ _ hn.ne']; linarith [Nat.cast_nonneg (α := ℝ) (i : ℕ)]
  have hB0 : 0 ≤ B := (norm_nonneg _).trans (hB 1 ⟨by norm_num, by norm_num⟩)
  have hval : ∀ i : Fin n, ‖∑ k : Fin n, V i k • q k‖ ≤ n * B := by
    intro i
    have h1 := hB (x i) ⟨(hpos i).1.le, (hpos i).2.1⟩
    have h2 : ∑ j ∈ range n, x i ^ (j + 1) • q j = x i • ∑ k : Fin n, V i k • q k := by
      rw [Finset.sum_range, smul_sum]
      refine sum_congr rfl fun k _ => ?_
      show _ = x i • (Matrix.vandermonde x i k • q k)
      rw [smul_smul, Matrix.vandermonde_apply, pow_succ']
    rw [h2, norm_smul, Real.norm_eq_abs, abs_of_pos (hpos i).1] at h1
    calc ‖∑ k : Fin n, V i k • q k‖ ≤ (n * x i) * ‖∑ k : Fin n, V i k • q k‖ :=
          le_mul_of_one_le_left (norm_nonneg _) (hpos i).2.2
      _ ≤ n * B := by rw [mul_assoc]; gcongr
  have hq : q j = ∑ i, V⁻¹ ⟨j, hj⟩ i • ∑ k : Fin n, V i k • q k := by
    have h1 : V⁻¹ * V = 1 := Matrix.nonsing_inv_mul _ (isUnit_iff_ne_zero.2 hdet)
    have h2 : ∑ i, V⁻¹ ⟨j, hj⟩ i • ∑ k : Fin n, V i k • q k = ∑ k : Fin n, ((V⁻¹ * V) ⟨j, hj⟩ k) • q k := by
      simp only [smul_sum, smul_smul, Matrix.mul_apply, sum_smul]
      rw [sum_comm]
    rw [h2, h1]
    simp [Matrix.one_apply]
  rw [hq]
  calc _ ≤ ∑ i, |V⁻¹ ⟨j, hj⟩ i| * (n * B) := by
        refine (norm_sum_le _ _).trans (sum_le_sum fun i _ => ?_)
        rw [norm_smul, Real.norm_eq_abs]
        exact mul_le_mul_of_nonneg_left (hval i) (abs_nonneg _)
    _ ≤ (∑ j, ∑ i, |V⁻¹ j i|) * (n * B) := by
        rw [← sum_mul]
        refine mul_le_mul_of_nonneg_right ?_ (by positivity)
        exact single_le_sum (f := fun j => ∑ i, |V⁻¹ j i|) (fun _ _ => by positivity) (mem_univ (⟨j, hj⟩ : Fin n))
    _ = _ := by ring

/-- ... and so is its derivative. -/
theorem poly_deriv_le (n : ℕ) : ∃ M : ℝ, 0 ≤ M ∧ ∀ (E : Type) [NormedAddCommGroup E] [NormedSpace ℝ E] (q : ℕ → E) (B : ℝ),
    (∀ θ ∈ Set.Icc (0 : ℝ) 1, ‖∑ j ∈ range n, θ ^ (j + 1) • q j‖ ≤ B) →
    ∀ θ ∈ Set.Icc (0 : ℝ) 1, ‖∑ j ∈ range n, ((j + 1 : ℝ) * θ ^ j) • q j‖ ≤ M * B := by
  obtain ⟨M, hM, h⟩ := coeff_le n
  refine ⟨(∑ j ∈ range n, (j + 1 : ℝ)) * M, by positivity, ?_⟩
  intro E _ _ q B hB θ hθ
  rw [mul_assoc, sum_mul]
  refine (norm_sum_le _ _).trans (sum_le_sum fun j hj => ?_)
  have h1 := h E q B hB j (mem_range.1 hj)
  rw [norm_smul, Real.norm_eq_abs, abs_of_nonneg (mul_nonneg (by positivity) (pow_nonneg hθ.1 _))]
  have h2 : (j + 1 : ℝ) * θ ^ j ≤ j + 1 := mul_le_of_le_one_right (by positivity) (pow_le_one₀ hθ.1 hθ.2)
  exact mul_le_mul h2 h1 (norm_nonneg _) (by positivity)
end

section
variable {E : Type} [NormedAddCommGroup E] [NormedSpace ℝ E]
open Topology Asymptotics

/-- Taylor's formula for a smooth function and its derivative, uniformly on an interval. -/
theorem taylor_with_deriv (y : ℝ → E) (hy : ContDiff ℝ ∞ y) (a b : ℝ) (N : ℕ) :
    ∃ (w : ℝ → ℕ → E) (C : ℝ), 0 ≤ C ∧ ∀ t ∈ Set.Icc a b, ∀ u, |u| ≤ 1 →
      ‖y (t + u) - y t - ∑ j ∈ range N, u ^ (j + 1) • w t j‖ ≤ C * |u| ^ (N + 1) ∧
      ‖deriv y (t + u) - ∑ j ∈ range N, ((j + 1 : ℝ) * u ^ j) • w t j‖ ≤ C * |u| ^ N := by
  let v : ℝ → ℕ → E := fun t k => ((k.factorial : ℝ)⁻¹) • iteratedDeriv k y t
  let e : ℝ → ℝ → E := fun t u => y (t + u) - ∑ k ∈ range (N + 1), u ^ k • v t k
  have hv : ∀ k, ContDiff ℝ ∞ (fun t => v t k) := fun k => by
    simp only [v]
    have := (ContDiff.iterate_deriv k hy).const_smul ((k.factorial : ℝ)⁻¹)
    simpa only [iteratedDeriv_eq_iterate] using this
  have hpoly : ∀ t, ContDiff ℝ ∞ (fun u : ℝ => ∑ k ∈ range (N + 1), u ^ k • v t k) := fun t => by fun_prop
  have hsh : ∀ t, ContDiff ℝ ∞ (fun u : ℝ => y (t + u)) := fun t => hy.comp (contDiff_const.add contDiff_id)
  have hes : ContDiff ℝ ∞ (fun x : ℝ × ℝ => e x.1 x.2) := by
    simp only [e]
    exact (hy.comp (contDiff_fst.add contDiff_snd)).sub
      (ContDiff.sum fun k _ => (contDiff_snd.pow k).smul ((hv k).comp contDiff_fst))
  have het : ∀ t, ContDiff ℝ ∞ (e t) := fun t => (hsh t).sub (hpoly t)
  have hO : ∀ t, e t =O[𝓝 0] (fun u : ℝ => u ^ (N + 1)) := by
    intro t
    apply isBigO_of_iteratedDeriv (N + 1) _ (het t)
    intro k hk
    have h2 : iteratedDeriv k (e t) 0 = iteratedDeriv k (fun u => y (t + u)) 0
        - iteratedDeriv k (fun u : ℝ => ∑ k ∈ range (N + 1), u ^ k • v t k) 0 :=
      iteratedDeriv_fun_sub ((hsh t).contDiffAt.of_le (by exact_mod_cast le_top))
        ((hpoly t).contDiffAt.of_le (by exact_mod_cast le_top))
    rw [h2, iteratedDeriv_poly (N + 1) _ k hk, iteratedDeriv_comp_const_add]
    simp only [v]
    rw [smul_smul, mul_inv_cancel₀ (by positivity), one_smul, add_zero, sub_self]
  obtain ⟨C1, hC1, hb1⟩ := uniform_bound (isCompact_Icc (a := a) (b := b)) 1 (N + 1) e hes (fun t _ => hO t)
  obtain ⟨C2, hC2, hb2⟩ := uniform_bound (isCompact_Icc (a := a) (b := b)) 1 N (fun t => deriv (e t))
    (by simpa [iteratedDeriv_one] using iteratedDeriv_smooth 1 e hes)
    (fun t _ => deriv_isBigO N _ (het t) (hO t))
  have hsum : ∀ t (u : ℝ), ∑ k ∈ range (N + 1), u ^ k • v t k = ∑ j ∈ range N, u ^ (j + 1) • v t (j + 1) + y t := by
    intro t u
    rw [sum_range_succ']
    simp [v]
  refine ⟨fun t j => v t (j + 1), max C1 C2, hC1.trans (le_max_left _ _), fun t ht u hu => ⟨?_, ?_⟩⟩
  · have h1 := hb1 t ht u hu
    have h2 : y (t + u) - y t - ∑ j ∈ range N, u ^ (j + 1) • v t (j + 1) = e t u := by
      simp only [e]; rw [hsum]; abel
    rw [h2]
    exact h1.trans (by gcongr; exact le_max_left _ _)
  · have h1 := hb2 t ht u hu
    have h2 : deriv (e t) u = deriv y (t + u) - ∑ j ∈ range N, ((j + 1 : ℝ) * u ^ j) • v t (j + 1) := by
      have e1 : e t = fun u => y (t + u) - (∑ j ∈ range N, u ^ (j + 1) • v t (j + 1) + y t) := by
        funext u; simp only [e]; rw [hsum]
      rw [e1]
      apply HasDerivAt.deriv
      have d1 : HasDerivAt (fun u => y (t + u)) (deriv y (t + u)) u :=
        ((hy.differentiable (by simp) (t + u)).hasDerivAt).comp_const_add t u
      refine d1.sub (HasDerivAt.add_const _ (HasDerivAt.fun_sum fun j _ => ?_))
      have := (hasDerivAt_pow (j + 1) u).smul_const (v t (j + 1))
      simpa using this
    rw [← h2]
    exact h1.trans (by gcongr; exact le_max_right _ _)

end

section
variable {E : Type} [NormedAddCommGroup E] [NormedSpace ℝ E] {m : ℕ} [Module ℚ E] {J : Type}
  (tab : Fin m → Tableau ℚ) (f : Fin m → ℝ → E → E) (cj : CalcJac) (rF rK : RootFinder E J) (nj : J)
  {s : ℕ} {c : ℕ → ℚ}

/-- A sum padded with zeros. -/
theorem sum_pad (d n : ℕ) (h : d ≤ n) (g : ℕ → ℝ) (r : ℕ → E) :
    ∑ j ∈ range n, g j • (if j < d then r j else 0) = ∑ j ∈ range d, g j • r j := by
  rw [← sum_subset (range_subset_range.2 h) (fun j _ hj => by rw [if_neg (by simpa using hj), smul_zero])]
  exact sum_congr rfl fun j hj => by rw [if_pos (mem_range.1 hj)]

/-- The derivative of dense output over one step, started anywhere, uniformly along a solution; `M` is the constant of
`poly_deriv_le`. -/
theorem dense_derivative [CompleteSpace E] (hok : methodOK s c tab = true)
    (hroot : (odeRK tab f cj rF rK nj).RootExact)
    {interp : InterpRule m} {rows : Tableau ℚ → List (List ℚ)} {d : ℕ} (hrows : HasRows tab interp s d rows)
    {N : ℕ} {ε : ℚ} (hε : 0 ≤ ε) (hden : DenseOrder tab interp N ε)
    (hf : ∀ p, AnalyticOnNhd ℝ (fun x : ℝ × E => f p x.1 x.2) Set.univ)
    {L : ℝ} (hL0 : 0 ≤ L) (hL : ∀ p t x x', ‖f p t x - f p t x'‖ ≤ L * ‖x - x'‖)
    (y : ℝ → E) (hy : ∀ t, HasDerivAt y (∑ p, f p t (y t)) t) {a b D : ℝ} (hD : ElemBound f y a b N D)
    {M : ℝ} (hM0 : 0 ≤ M) (hM : ∀ (q : ℕ → E) (B : ℝ),
      (∀ θ ∈ Set.Icc (0 : ℝ) 1, ‖∑ j ∈ range (max d N), θ ^ (j + 1) • q j‖ ≤ B) →
      ∀ θ ∈ Set.Icc (0 : ℝ) 1, ‖∑ j ∈ range (max d N), ((j + 1 : ℝ) * θ ^ j) • q j‖ ≤ M * B) :
    ∃ δ A, 0 < δ ∧ 0 ≤ A ∧ ∀ t ∈ Set.Icc a b, ∀ h, 0 < h → h ≤ δ →
      ∀ θ ∈ Set.Icc (0 : ℝ) 1, ∀ x st mj,
      (odeRK tab f cj rF rK nj).ValidState t x st mj →
      ((odeRK tab f cj rF rK nj).step t (t + h) x st mj).result.isOkay = true →
      ‖deriv (interp E t (t + h) ((odeRK tab f cj rF rK nj).step t (t + h) x st mj).dense) (t + θ * h)
          - deriv y (t + θ * h)‖
        ≤ M * (4 * rowSum s d rows tab * (L * m * s)) * ‖x - y t‖ + A * h ^ N + M * ε * D := by
  have hys : ContDiff ℝ ∞ y := solution_smooth (fun t x => ∑ p, f p t x)
    (ContDiff.sum fun p _ => (hf p).contDiff) y hy
  obtain ⟨δ, A, hδ, hA, hb⟩ := dense_increment tab f cj rF rK nj hok hroot hrows hε hden hf hL0 hL y hy hD
  obtain ⟨w, C, hC, ht⟩ := taylor_with_deriv y hys a b N
  refine ⟨min δ 1, M * (A + C) + C, lt_min hδ one_pos, by positivity, ?_⟩
  intro t hta h h0 hh θ hθ x st mj hst hokay
  have hh1 : h ≤ 1 := hh.trans (min_le_right _ _)
  obtain ⟨k, hk, hyk⟩ := dense_step tab f cj rF rK nj hok hroot hrows t h h0.ne' x st mj hst hokay
  set I := interp E t (t + h) ((odeRK tab f cj rF rK nj).step t (t + h) x st mj).dense with hI
  let r : ℕ → E := fun j => ∑ p, ∑ i ∈ range s, (((rowOf rows j (tab p)).getD i 0 : ℚ) : ℝ) • k p i
  have hIr : ∀ θ, I (t + θ * h) = x + ∑ j ∈ range d, θ ^ (j + 1) • r j := by
    intro θ; rw [hyk, ← denseW_sum]
  -- the derivative of the interpolation
  have hder : HasDerivAt I (h⁻¹ • ∑ j ∈ range d, ((j + 1 : ℝ) * θ ^ j) • r j) (t + θ * h) := by
    have e1 : I = fun τ => x + ∑ j ∈ range d, ((τ - t) * h⁻¹) ^ (j + 1) • r j := by
      funext τ
      rw [← hIr]
      congr 1
      field_simp
      ring
    rw [e1]
    have e2 : (t + θ * h - t) * h⁻¹ = θ := by field_simp; ring
    refine HasDerivAt.const_add x ?_
    rw [smul_sum]
    refine HasDerivAt.fun_sum fun j _ => ?_
    have d1 : HasDerivAt (fun τ : ℝ => (τ - t) * h⁻¹) h⁻¹ (t + θ * h) := by
      simpa using ((hasDerivAt_id (t + θ * h)).sub_const t).mul_const h⁻¹
    have d2 := (d1.fun_pow (j + 1)).smul_const (r j)
    rw [e2] at d2
    convert d2 using 1
    rw [smul_smul]
    congr 1
    push_cast
    ring
  rw [hder.deriv]
  -- the difference from Taylor's polynomial
  set n := max d N with hn
  let q : ℕ → E := fun j => (if j < d then r j else 0) - (if j < N then h ^ (j + 1) • w t j else 0)
  have hq : ∀ g : ℕ → ℝ, ∑ j ∈ range n, g j • q j
      = ∑ j ∈ range d, g j • r j - ∑ j ∈ range N, g j • (h ^ (j + 1) • w t j) := by
    intro g
    simp only [q, smul_sub, sum_sub_distrib]
    rw [sum_pad d n (le_max_left _ _), sum_pad N n (le_max_right _ _) g (fun j => h ^ (j + 1) • w t j)]
  have hsmall : ∀ θ ∈ Set.Icc (0 : ℝ) 1, |θ * h| ≤ h := fun θ hθ => by
    rw [abs_of_nonneg (mul_nonneg hθ.1 h0.le)]
    exact mul_le_of_le_one_left h0.le hθ.2
  have hbound : ∀ θ ∈ Set.Icc (0 : ℝ) 1, ‖∑ j ∈ range n, θ ^ (j + 1) • q j‖
      ≤ 4 * rowSum s d rows tab * (L * m * s) * h * ‖x - y t‖ + (A + C) * h ^ (N + 1) + ε * D * h := by
    intro θ hθ
    have h1 := hb t hta h h0.le (hh.trans (min_le_left _ _)) θ hθ x st mj hst hokay
    have h2 := (ht t hta (θ * h) ((hsmall θ hθ).trans hh1)).1
    have h3 : C * |θ * h| ^ (N + 1) ≤ C * h ^ (N + 1) :=
      mul_le_mul_of_nonneg_left (pow_le_pow_left₀ (abs_nonneg _) (hsmall θ hθ) _) hC
    have e1 : ∑ j ∈ range n, θ ^ (j + 1) • q j = (I (t + θ * h) - x - (y (t + θ * h) - y t))
        + (y (t + θ * h) - y t - ∑ j ∈ range N, (θ * h) ^ (j + 1) • w t j) := by
      rw [hq, hIr]
      simp only [smul_smul, mul_pow]
      abel
    rw [e1]
    refine (norm_add_le _ _).trans ((add_le_add h1 (h2.trans h3)).trans (le_of_eq ?_))
    ring
  have hmain := hM q _ hbound θ hθ
  have htay := (ht t hta (θ * h) ((hsmall θ hθ).trans hh1)).2
  have h3 : C * |θ * h| ^ N ≤ C * h ^ N :=
    mul_le_mul_of_nonneg_left (pow_le_pow_left₀ (abs_nonneg _) (hsmall θ hθ) _) hC
  have e1 : h⁻¹ • ∑ j ∈ range d, ((j + 1 : ℝ) * θ ^ j) • r j - deriv y (t + θ * h)
      = h⁻¹ • (∑ j ∈ range n, ((j + 1 : ℝ) * θ ^ j) • q j)
        - (deriv y (t + θ * h) - ∑ j ∈ range N, ((j + 1 : ℝ) * (θ * h) ^ j) • w t j) := by
    have e2 : h⁻¹ • ∑ j ∈ range N, ((j + 1 : ℝ) * θ ^ j) • (h ^ (j + 1) • w t j)
        = ∑ j ∈ range N, ((j + 1 : ℝ) * (θ * h) ^ j) • w t j := by
      rw [smul_sum]
      refine sum_congr rfl fun j _ => ?_
      rw [smul_smul, smul_smul]
      congr 1
      rw [mul_pow, pow_succ]
      field_simp
    rw [hq, smul_sub, e2]
    abel
  rw [e1]
  refine (norm_sub_le _ _).trans ?_
  rw [norm_smul, Real.norm_eq_abs, abs_of_pos (inv_pos.2 h0)]
  have h5 := mul_le_mul_of_nonneg_left hmain (inv_pos.2 h0).le
  refine (add_le_add h5 (htay.trans h3)).trans (le_of_eq ?_)
  rw [pow_succ]
  field_simp
  ring

end
end Verif
