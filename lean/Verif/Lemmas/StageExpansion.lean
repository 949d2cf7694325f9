import Verif.Spec.ItoSmooth
import Verif.Lemmas.Ito
import Verif.Lemmas.SdeRKStep

/-!
# The stages of an explicit Runge-Kutta method applied to a stochastic equation, one path at a time
-/

set_option linter.unusedSectionVars false

namespace Verif
open Set Finset

variable {E : Type} [NormedAddCommGroup E] [InnerProductSpace ℝ E] {d : ℕ}
  {f : ℝ → E → E} {g : Fin d → ℝ → E → E} {a b L Λ : ℝ}

/-- Linear growth. -/
theorem ItoLipschitz.growth {φ : ℝ → E → E} (hL : 0 ≤ L) (hφ : ItoLipschitz φ a b L) :
    ∃ K, 0 ≤ K ∧ ∀ t ∈ Icc a b, ∀ y, ‖φ t y‖ ≤ K * (1 + ‖y‖) := by
  refine ⟨‖φ a 0‖ + L * √(b - a) + L, by positivity, fun t ht y => ?_⟩
  have hab : a ≤ b := ht.1.trans ht.2
  have h1 := hφ a (left_mem_Icc.2 hab) t ht y 0
  rw [norm_zero, add_zero, mul_one, sub_zero, abs_of_nonneg (sub_nonneg.2 ht.1)] at h1
  have h2 : ‖φ t y‖ ≤ ‖φ a 0‖ + ‖φ t y - φ a 0‖ := by
    have := norm_add_le (φ a 0) (φ t y - φ a 0)
    rwa [add_sub_cancel] at this
  have h3 : √(t - a) ≤ √(b - a) := Real.sqrt_le_sqrt (by linarith [ht.2])
  have h4 : 0 ≤ ‖y‖ := norm_nonneg y
  have h5 : L * √(t - a) ≤ L * √(b - a) := mul_le_mul_of_nonneg_left h3 hL
  have h6 : 0 ≤ (‖φ a 0‖ + L * √(b - a)) * ‖y‖ := by positivity
  nlinarith [norm_nonneg (φ a 0)]

section
variable {A : ℕ → ℕ → ℝ} {c : ℕ → ℝ} {n : ℕ}

theorem sum_smul_le {k : ℕ → E} {Amax B : ℝ} (m i : ℕ) (hA : ∀ j < m, |A i j| ≤ Amax) (hA0 : 0 ≤ Amax)
    (hk : ∀ j < m, ‖k j‖ ≤ B) : ‖∑ j ∈ range m, A i j • k j‖ ≤ m * (Amax * B) := by
  refine (norm_sum_le _ _).trans ?_
  calc ∑ j ∈ range m, ‖A i j • k j‖ ≤ ∑ _j ∈ range m, Amax * B := by
        refine sum_le_sum fun j hj => ?_
        rw [norm_smul, Real.norm_eq_abs]
        exact mul_le_mul (hA j (mem_range.1 hj)) (hk j (mem_range.1 hj)) (norm_nonneg _) hA0
    _ = _ := by simp

theorem noise_sum_le {x : Fin d → ℝ} {G : Fin d → E} {B : ℝ} (hG : ∀ l, ‖G l‖ ≤ B) :
    ‖∑ l, x l • G l‖ ≤ (∑ l, |x l|) * B := by
  refine (norm_sum_le _ _).trans ?_
  rw [sum_mul]
  refine sum_le_sum fun l _ => ?_
  rw [norm_smul, Real.norm_eq_abs]
  exact mul_le_mul_of_nonneg_left (hG l) (abs_nonneg _)

theorem sde_stage_time {s h ci : ℝ} (hs : s ∈ Icc a b) (hsh : s + h ∈ Icc a b) (hh : 0 ≤ h) (h0 : 0 ≤ ci) (h1 : ci ≤ 1) :
    s + ci * h ∈ Icc a b ∧ |s + ci * h - s| ≤ h := by
  have h2 : 0 ≤ ci * h := mul_nonneg h0 hh
  have h3 : ci * h ≤ h := by nlinarith
  refine ⟨⟨by linarith [hs.1], by linarith [hsh.2]⟩, ?_⟩
  rw [add_sub_cancel_left, abs_of_nonneg h2]; exact h3

/-- The size of the stages. -/
theorem sde_stages_small (hL : 0 ≤ L) (hf : ItoLipschitz f a b L) (hg : ∀ j, ItoLipschitz (g j) a b L)
    {Amax : ℝ} (hA : ∀ i < n, ∀ j < i, |A i j| ≤ Amax) (hA0 : 0 ≤ Amax) (hc : ∀ i < n, 0 ≤ c i ∧ c i ≤ 1) :
    ∀ m ≤ n, ∃ C, 0 ≤ C ∧ ∃ q : ℕ, ∀ s h x V k, s ∈ Icc a b → s + h ∈ Icc a b → 0 ≤ h →
      SdeStages A c n f g s h x V k → ∀ i < m, ‖k i‖ ≤
        C * (√h + ∑ l, |x l|) * (1 + ∑ l, |x l|) ^ q * (1 + ‖V‖) := by
  obtain ⟨K1, hK1, hfK⟩ := hf.growth hL
  choose K2 hK2 hgK using fun j => (hg j).growth hL
  set H := √(b - a) with hH
  have hH0 : 0 ≤ H := Real.sqrt_nonneg _
  intro m
  induction m with
  | zero => intro _; exact ⟨0, le_rfl, 0, fun _ _ _ _ _ _ _ _ _ i hi => absurd hi (Nat.not_lt_zero i)⟩
  | succ m ih =>
    intro hm
    obtain ⟨C, hC, q, ihm⟩ := ih (by omega)
    set K := H * K1 + ∑ j, K2 j with hK
    have hK0 : 0 ≤ K := by
      have := sum_nonneg fun (j : Fin d) (_ : j ∈ (univ : Finset (Fin d))) => hK2 j
      positivity
    set C' := K * (1 + m * (Amax * C) * (1 + H)) with hC'
    have hC'0 : 0 ≤ C' := by positivity
    refine ⟨C + C', by positivity, q + 1, ?_⟩
    intro s h x V k hs hsh hh hk i hi
    set S := ∑ l, |x l| with hS
    have hS0 : 0 ≤ S := sum_nonneg fun _ _ => abs_nonneg _
    set δ := √h + S with hδ
    set v := 1 + ‖V‖ with hv
    have hsq : 0 ≤ √h := Real.sqrt_nonneg _
    have hδ0 : 0 ≤ δ := by positivity
    have hv1 : 1 ≤ v := by have := norm_nonneg V; linarith
    have hsqH : √h ≤ H := Real.sqrt_le_sqrt (by linarith [hs.1, hsh.2])
    have hδM : δ ≤ (1 + H) * (1 + S) := by nlinarith
    have hM1 : 1 ≤ 1 + S := by linarith
    have hMq : (1 + S) ^ q ≤ (1 + S) ^ (q + 1) := pow_le_pow_right₀ hM1 (by omega)
    have hMq1 : 1 ≤ (1 + S) ^ (q + 1) := one_le_pow₀ hM1
    have hold : ∀ i < m, ‖k i‖ ≤ C * δ * (1 + S) ^ q * v := ihm s h x V k hs hsh hh hk
    rcases Nat.lt_succ_iff_lt_or_eq.1 hi with hi' | rfl
    · refine (hold i hi').trans ?_
      calc C * δ * (1 + S) ^ q * v ≤ C * δ * (1 + S) ^ (q + 1) * v := by gcongr
        _ ≤ (C + C') * δ * (1 + S) ^ (q + 1) * v := by gcongr; linarith
    · have hz := sum_smul_le i i (hA i (by omega)) hA0 hold
      set z := V + ∑ j ∈ range i, A i j • k j with hz'
      have hti := sde_stage_time hs hsh hh (hc i (by omega)).1 (hc i (by omega)).2
      have hz1 : 1 + ‖z‖ ≤ (1 + i * (Amax * C) * (1 + H)) * ((1 + S) ^ (q + 1) * v) := by
        have h1 : ‖z‖ ≤ ‖V‖ + i * (Amax * (C * δ * (1 + S) ^ q * v)) := (norm_add_le _ _).trans (by linarith)
        have h2 : (i : ℝ) * (Amax * (C * δ * (1 + S) ^ q * v))
            ≤ i * (Amax * (C * ((1 + H) * (1 + S)) * (1 + S) ^ q * v)) := by gcongr
        have h3 : v ≤ (1 + S) ^ (q + 1) * v := le_mul_of_one_le_left (by linarith) hMq1
        have h4 : (i : ℝ) * (Amax * (C * ((1 + H) * (1 + S)) * (1 + S) ^ q * v))
            = i * (Amax * C) * (1 + H) * ((1 + S) ^ (q + 1) * v) := by ring
        linarith
      rw [hk i (by omega)]
      have hhh : h ≤ H * δ := by
        calc h = √h * √h := (Real.mul_self_sqrt hh).symm
          _ ≤ H * δ := mul_le_mul hsqH (by linarith) hsq hH0
      have e1 : ‖h • f (s + c i * h) z‖ ≤ H * K1 * δ * (1 + ‖z‖) := by
        rw [norm_smul, Real.norm_of_nonneg hh]
        have := hfK _ hti.1 z
        calc h * ‖f (s + c i * h) z‖ ≤ (H * δ) * (K1 * (1 + ‖z‖)) := mul_le_mul hhh this (norm_nonneg _) (by positivity)
          _ = _ := by ring
      have e2 : ‖∑ l, x l • g l (s + c i * h) z‖ ≤ (∑ j, K2 j) * δ * (1 + ‖z‖) := by
        have h1 : ∀ l, ‖g l (s + c i * h) z‖ ≤ (∑ j, K2 j) * (1 + ‖z‖) := fun l =>
          (hgK l _ hti.1 z).trans (mul_le_mul_of_nonneg_right
            (single_le_sum (f := K2) (fun j _ => hK2 j) (mem_univ l)) (by positivity))
        have h2 : (0 : ℝ) ≤ ∑ j, K2 j := sum_nonneg fun j _ => hK2 j
        calc _ ≤ S * ((∑ j, K2 j) * (1 + ‖z‖)) := noise_sum_le h1
          _ ≤ δ * ((∑ j, K2 j) * (1 + ‖z‖)) := by gcongr; linarith
          _ = _ := by ring
      calc _ ≤ H * K1 * δ * (1 + ‖z‖) + (∑ j, K2 j) * δ * (1 + ‖z‖) := (norm_add_le _ _).trans (add_le_add e1 e2)
        _ = K * δ * (1 + ‖z‖) := by rw [hK]; ring
        _ ≤ K * δ * ((1 + i * (Amax * C) * (1 + H)) * ((1 + S) ^ (q + 1) * v)) := by gcongr
        _ = C' * δ * (1 + S) ^ (q + 1) * v := by rw [hC']; ring
        _ ≤ (C + C') * δ * (1 + S) ^ (q + 1) * v := by gcongr; linarith

/-- The distance from the first approximation. -/
theorem sde_stages_first (hL : 0 ≤ L) (hf : ItoLipschitz f a b L) (hg : ∀ j, ItoLipschitz (g j) a b L)
    {Amax : ℝ} (hA : ∀ i < n, ∀ j < i, |A i j| ≤ Amax) (hA0 : 0 ≤ Amax) (hc : ∀ i < n, 0 ≤ c i ∧ c i ≤ 1) :
    ∃ C, 0 ≤ C ∧ ∃ q : ℕ, ∀ s h x V k, s ∈ Icc a b → s + h ∈ Icc a b → 0 ≤ h →
      SdeStages A c n f g s h x V k → ∀ i < n,
        ‖∑ j ∈ range i, A i j • k j‖ ≤ C * (√h + ∑ l, |x l|) * (1 + ∑ l, |x l|) ^ q * (1 + ‖V‖) ∧
        ‖k i - ∑ l, x l • g l s V‖ ≤ C * (√h + ∑ l, |x l|) ^ 2 * (1 + ∑ l, |x l|) ^ q * (1 + ‖V‖) := by
  obtain ⟨K1, hK1, hfK⟩ := hf.growth hL
  obtain ⟨C, hC, q, hsm⟩ := sde_stages_small hL hf hg hA hA0 hc n le_rfl
  set H := √(b - a) with hH
  have hH0 : 0 ≤ H := Real.sqrt_nonneg _
  set B := n * (Amax * C) with hB
  have hB0 : 0 ≤ B := by positivity
  set C' := K1 * (1 + B * (1 + H)) + L * (1 + B) with hC'
  have hC'0 : 0 ≤ C' := by positivity
  refine ⟨B + C', by positivity, q + 1, ?_⟩
  intro s h x V k hs hsh hh hk i hi
  have hold := hsm s h x V k hs hsh hh hk
  set S := ∑ l, |x l| with hS
  have hS0 : 0 ≤ S := sum_nonneg fun _ _ => abs_nonneg _
  set δ := √h + S with hδ
  set v := 1 + ‖V‖ with hv
  have hsq : 0 ≤ √h := Real.sqrt_nonneg _
  have hδ0 : 0 ≤ δ := by positivity
  have hv1 : 1 ≤ v := by have := norm_nonneg V; linarith
  have hsqH : √h ≤ H := Real.sqrt_le_sqrt (by linarith [hs.1, hsh.2])
  have hδM : δ ≤ (1 + H) * (1 + S) := by nlinarith
  have hM1 : 1 ≤ 1 + S := by linarith
  have hMq : (1 + S) ^ q ≤ (1 + S) ^ (q + 1) := pow_le_pow_right₀ hM1 (by omega)
  have hMq1 : 1 ≤ (1 + S) ^ (q + 1) := one_le_pow₀ hM1
  have hz : ‖∑ j ∈ range i, A i j • k j‖ ≤ B * δ * (1 + S) ^ q * v := by
    have := sum_smul_le i i (hA i (by omega)) hA0 (fun j hj => hold j (by omega))
    refine this.trans ?_
    have hin : (i : ℝ) ≤ n := by exact_mod_cast hi.le
    calc (i : ℝ) * (Amax * (C * δ * (1 + S) ^ q * v)) ≤ n * (Amax * (C * δ * (1 + S) ^ q * v)) := by gcongr
      _ = _ := by rw [hB]; ring
  have hz' : ‖∑ j ∈ range i, A i j • k j‖ ≤ B * δ * (1 + S) ^ (q + 1) * v := hz.trans (by gcongr)
  refine ⟨hz'.trans (by gcongr; linarith), ?_⟩
  set w := ∑ j ∈ range i, A i j • k j with hw
  have hti := sde_stage_time hs hsh hh (hc i hi).1 (hc i hi).2
  have hz1 : 1 + ‖V + w‖ ≤ (1 + B * (1 + H)) * ((1 + S) ^ (q + 1) * v) := by
    have h1 : ‖V + w‖ ≤ ‖V‖ + B * δ * (1 + S) ^ q * v := (norm_add_le _ _).trans (by linarith)
    have h2 : B * δ * (1 + S) ^ q * v ≤ B * ((1 + H) * (1 + S)) * (1 + S) ^ q * v := by gcongr
    have h3 : v ≤ (1 + S) ^ (q + 1) * v := le_mul_of_one_le_left (by linarith) hMq1
    have h4 : B * ((1 + H) * (1 + S)) * (1 + S) ^ q * v = B * (1 + H) * ((1 + S) ^ (q + 1) * v) := by ring
    linarith
  have hhh : h ≤ δ ^ 2 := by
    have := Real.sq_sqrt hh
    nlinarith
  have e1 : ‖h • f (s + c i * h) (V + w)‖ ≤ K1 * (1 + B * (1 + H)) * δ ^ 2 * (1 + S) ^ (q + 1) * v := by
    rw [norm_smul, Real.norm_of_nonneg hh]
    have := (hfK _ hti.1 (V + w)).trans (mul_le_mul_of_nonneg_left hz1 hK1)
    calc _ ≤ δ ^ 2 * (K1 * ((1 + B * (1 + H)) * ((1 + S) ^ (q + 1) * v))) :=
          mul_le_mul hhh this (norm_nonneg _) (by positivity)
      _ = _ := by ring
  have e2 : ‖∑ l, x l • (g l (s + c i * h) (V + w) - g l s V)‖ ≤ L * (1 + B) * δ ^ 2 * (1 + S) ^ (q + 1) * v := by
    have h1 : ∀ l, ‖g l (s + c i * h) (V + w) - g l s V‖ ≤ L * ((1 + B) * δ * (1 + S) ^ (q + 1) * v) := by
      intro l
      refine (hg l s hs _ hti.1 (V + w) V).trans (mul_le_mul_of_nonneg_left ?_ hL)
      rw [show V + w - V = w from add_sub_cancel_left _ _]
      show √|s + c i * h - s| * v + ‖w‖ ≤ _
      have h2 : √|s + c i * h - s| ≤ δ := (Real.sqrt_le_sqrt hti.2).trans (by linarith)
      have h3 : √|s + c i * h - s| * v ≤ δ * v := mul_le_mul_of_nonneg_right h2 (by linarith)
      have h4 : δ * v ≤ δ * ((1 + S) ^ (q + 1) * v) :=
        mul_le_mul_of_nonneg_left (le_mul_of_one_le_left (by linarith) hMq1) hδ0
      have h5 : (1 + B) * δ * (1 + S) ^ (q + 1) * v = δ * ((1 + S) ^ (q + 1) * v) + B * δ * (1 + S) ^ (q + 1) * v := by ring
      linarith
    calc _ ≤ S * (L * ((1 + B) * δ * (1 + S) ^ (q + 1) * v)) := noise_sum_le h1
      _ ≤ δ * (L * ((1 + B) * δ * (1 + S) ^ (q + 1) * v)) := by gcongr; linarith
      _ = _ := by ring
  have e3 : k i - ∑ l, x l • g l s V
      = h • f (s + c i * h) (V + w) + ∑ l, x l • (g l (s + c i * h) (V + w) - g l s V) := by
    rw [hk i hi]
    simp only [smul_sub, sum_sub_distrib]
    abel
  rw [e3]
  calc _ ≤ K1 * (1 + B * (1 + H)) * δ ^ 2 * (1 + S) ^ (q + 1) * v + L * (1 + B) * δ ^ 2 * (1 + S) ^ (q + 1) * v :=
        (norm_add_le _ _).trans (add_le_add e1 e2)
    _ = C' * δ ^ 2 * (1 + S) ^ (q + 1) * v := by rw [hC']; ring
    _ ≤ (B + C') * δ ^ 2 * (1 + S) ^ (q + 1) * v := by gcongr; linarith

/-- The distance from the second approximation. -/
theorem sde_stages_second (hL : 0 ≤ L) (hf : ItoLipschitz f a b L) (hg : ∀ j, ItoLipschitz (g j) a b L)
    (hgt : ∀ j, TimeLipschitz (g j) a b L) (hΛ : 0 ≤ Λ) (hgs : ∀ j, SmoothAlong (g j) g a b Λ)
    {Amax : ℝ} (hA : ∀ i < n, ∀ j < i, |A i j| ≤ Amax) (hA0 : 0 ≤ Amax) (hc : ∀ i < n, 0 ≤ c i ∧ c i ≤ 1)
    (hrow : ∀ i < n, ∑ j ∈ range i, A i j = c i) :
    ∃ C, 0 ≤ C ∧ ∃ q : ℕ, ∀ s h x V k, s ∈ Icc a b → s + h ∈ Icc a b → 0 ≤ h →
      SdeStages A c n f g s h x V k → ∀ i < n,
        ‖k i - (h • f s V + ∑ l, x l • g l s V + c i • ∑ l, x l • fderiv ℝ (g l s) V (∑ l', x l' • g l' s V))‖
          ≤ C * (√h + ∑ l, |x l|) ^ 3 * (1 + ∑ l, |x l|) ^ q * (1 + ‖V‖) := by
  obtain ⟨C, hC, q, hsm⟩ := sde_stages_first hL hf hg hA hA0 hc
  set H := √(b - a) with hH
  have hH0 : 0 ≤ H := Real.sqrt_nonneg _
  set B := n * (Amax * C) with hB
  have hB0 : 0 ≤ B := by positivity
  refine ⟨L * (1 + C) + (L * (1 + C * (1 + H)) + L * B + Λ), by positivity, q + 1, ?_⟩
  intro s h x V k hs hsh hh hk i hi
  have hold := hsm s h x V k hs hsh hh hk
  set S := ∑ l, |x l| with hS
  have hS0 : 0 ≤ S := sum_nonneg fun _ _ => abs_nonneg _
  set δ := √h + S with hδ
  set v := 1 + ‖V‖ with hv
  have hsq : 0 ≤ √h := Real.sqrt_nonneg _
  have hδ0 : 0 ≤ δ := by positivity
  have hv1 : 1 ≤ v := by have := norm_nonneg V; linarith
  have hsqH : √h ≤ H := Real.sqrt_le_sqrt (by linarith [hs.1, hsh.2])
  have hδM : δ ≤ (1 + H) * (1 + S) := by nlinarith
  have hM1 : 1 ≤ 1 + S := by linarith
  have hMq : (1 + S) ^ q ≤ (1 + S) ^ (q + 1) := pow_le_pow_right₀ hM1 (by omega)
  have hMq1 : 1 ≤ (1 + S) ^ (q + 1) := one_le_pow₀ hM1
  set M := (1 + S) ^ (q + 1) with hM
  set N := ∑ l, x l • g l s V with hN
  set w := ∑ j ∈ range i, A i j • k j with hw
  have hti := sde_stage_time hs hsh hh (hc i hi).1 (hc i hi).2
  have hhh : h ≤ δ ^ 2 := by
    have := Real.sq_sqrt hh
    nlinarith
  have hw1 : ‖w‖ ≤ C * δ * M * v := (hold i hi).1.trans (by gcongr)
  have hw1' : ‖w‖ ≤ C * (1 + H) * (M * v) := by
    calc ‖w‖ ≤ C * δ * (1 + S) ^ q * v := (hold i hi).1
      _ ≤ C * ((1 + H) * (1 + S)) * (1 + S) ^ q * v := by gcongr
      _ = _ := by rw [hM]; ring
  have hvM : v ≤ M * v := le_mul_of_one_le_left (by linarith) hMq1
  have hw2 : ‖w - c i • N‖ ≤ B * δ ^ 2 * M * v := by
    have e : w - c i • N = ∑ j ∈ range i, A i j • (k j - N) := by
      simp only [smul_sub, sum_sub_distrib, ← sum_smul, hrow i hi, hw]
    rw [e]
    refine (sum_smul_le i i (hA i (by omega)) hA0 (fun j hj => (hold j (by omega)).2)).trans ?_
    have hin : (i : ℝ) ≤ n := by exact_mod_cast hi.le
    calc (i : ℝ) * (Amax * (C * δ ^ 2 * (1 + S) ^ q * v)) ≤ n * (Amax * (C * δ ^ 2 * M * v)) := by gcongr
      _ = _ := by rw [hB]; ring
  have hsqt : √|s + c i * h - s| ≤ δ := (Real.sqrt_le_sqrt hti.2).trans (by linarith)
  have e1 : ‖h • (f (s + c i * h) (V + w) - f s V)‖ ≤ L * (1 + C) * δ ^ 3 * M * v := by
    rw [norm_smul, Real.norm_of_nonneg hh]
    have h1 : ‖f (s + c i * h) (V + w) - f s V‖ ≤ L * ((1 + C) * δ * (M * v)) := by
      refine (hf s hs _ hti.1 (V + w) V).trans (mul_le_mul_of_nonneg_left ?_ hL)
      rw [show V + w - V = w from add_sub_cancel_left _ _]
      show √|s + c i * h - s| * v + ‖w‖ ≤ _
      have h3 : √|s + c i * h - s| * v ≤ δ * (M * v) := mul_le_mul hsqt hvM (by linarith) hδ0
      have h5 : (1 + C) * δ * (M * v) = δ * (M * v) + C * δ * M * v := by ring
      linarith
    calc _ ≤ δ ^ 2 * (L * ((1 + C) * δ * (M * v))) := mul_le_mul hhh h1 (norm_nonneg _) (by positivity)
      _ = _ := by ring
  have e2 : ‖∑ l, x l • (g l (s + c i * h) (V + w) - g l s V - fderiv ℝ (g l s) V (c i • N))‖
      ≤ (L * (1 + C * (1 + H)) + L * B + Λ) * δ ^ 3 * M * v := by
    have h1 : ∀ l, ‖g l (s + c i * h) (V + w) - g l s V - fderiv ℝ (g l s) V (c i • N)‖
        ≤ (L * (1 + C * (1 + H)) + L * B + Λ) * δ ^ 2 * M * v := by
      intro l
      have p1 : ‖g l (s + c i * h) (V + w) - g l s (V + w)‖ ≤ L * (1 + C * (1 + H)) * δ ^ 2 * M * v := by
        refine (hgt l s hs _ hti.1 (V + w)).trans ?_
        have q1 : 1 + ‖V + w‖ ≤ (1 + C * (1 + H)) * (M * v) := by
          have : ‖V + w‖ ≤ ‖V‖ + ‖w‖ := norm_add_le _ _
          linarith
        calc L * |s + c i * h - s| * (1 + ‖V + w‖) ≤ L * δ ^ 2 * ((1 + C * (1 + H)) * (M * v)) := by
              refine mul_le_mul (mul_le_mul_of_nonneg_left (hti.2.trans hhh) hL) q1 (by positivity) (by positivity)
          _ = _ := by ring
      have p2 : ‖g l s (V + w) - g l s (V + c i • N)‖ ≤ L * B * δ ^ 2 * M * v := by
        have := hg l s hs s hs (V + w) (V + c i • N)
        rw [sub_self, abs_zero, Real.sqrt_zero, zero_mul, zero_add, add_sub_add_left_eq_sub] at this
        calc _ ≤ L * ‖w - c i • N‖ := this
          _ ≤ L * (B * δ ^ 2 * M * v) := mul_le_mul_of_nonneg_left hw2 hL
          _ = _ := by ring
      have p3 : ‖g l s (V + c i • N) - g l s V - fderiv ℝ (g l s) V (c i • N)‖ ≤ Λ * δ ^ 2 * M * v := by
        have := (hgs l s hs).2 V (fun l' => c i * x l')
        have e : ∑ l', (c i * x l') • g l' s V = c i • N := by simp only [mul_smul, ← smul_sum, hN]
        rw [e] at this
        refine this.trans ?_
        have e' : ∑ l', |c i * x l'| ≤ δ := by
          simp only [abs_mul, ← mul_sum, ← hS]
          rw [abs_of_nonneg (hc i hi).1]
          have := (hc i hi).2
          nlinarith
        have e0 : 0 ≤ ∑ l', |c i * x l'| := sum_nonneg fun _ _ => abs_nonneg _
        calc Λ * (∑ l', |c i * x l'|) ^ 2 * v ≤ Λ * δ ^ 2 * (M * v) := by gcongr
          _ = _ := by ring
      have e : g l (s + c i * h) (V + w) - g l s V - fderiv ℝ (g l s) V (c i • N)
          = (g l (s + c i * h) (V + w) - g l s (V + w)) + (g l s (V + w) - g l s (V + c i • N))
            + (g l s (V + c i • N) - g l s V - fderiv ℝ (g l s) V (c i • N)) := by abel
      rw [e]
      calc _ ≤ L * (1 + C * (1 + H)) * δ ^ 2 * M * v + L * B * δ ^ 2 * M * v + Λ * δ ^ 2 * M * v :=
            (norm_add_le _ _).trans (add_le_add ((norm_add_le _ _).trans (add_le_add p1 p2)) p3)
        _ = _ := by ring
    calc _ ≤ S * ((L * (1 + C * (1 + H)) + L * B + Λ) * δ ^ 2 * M * v) := noise_sum_le h1
      _ ≤ δ * ((L * (1 + C * (1 + H)) + L * B + Λ) * δ ^ 2 * M * v) := by gcongr; linarith
      _ = _ := by ring
  have e3 : k i - (h • f s V + N + c i • ∑ l, x l • fderiv ℝ (g l s) V N)
      = h • (f (s + c i * h) (V + w) - f s V)
        + ∑ l, x l • (g l (s + c i * h) (V + w) - g l s V - fderiv ℝ (g l s) V (c i • N)) := by
    rw [hk i hi]
    simp only [smul_sub, sum_sub_distrib, map_smul]
    rw [smul_sum]
    simp only [smul_comm (c i)]
    rw [← hN]
    abel
  rw [e3]
  calc _ ≤ L * (1 + C) * δ ^ 3 * M * v + (L * (1 + C * (1 + H)) + L * B + Λ) * δ ^ 3 * M * v :=
        (norm_add_le _ _).trans (add_le_add e1 e2)
    _ = _ := by ring

end

end Verif
