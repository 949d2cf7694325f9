import Verif.Props.Backsolve
import Mathlib.Analysis.ODE.Gronwall
import Mathlib.Analysis.ODE.ExistUnique
import Mathlib.Analysis.Calculus.FDeriv.Prod
import Mathlib.Analysis.Asymptotics.Defs
import Mathlib.Analysis.Calculus.Deriv.Pi
import Mathlib.Analysis.Calculus.Deriv.Prod
import Mathlib.LinearAlgebra.Quotient.Basic

/-!
# C68: with exact solves, the backward pass of `BacksolveAdjoint` gives the gradient

The equation is `dy/dt = f(t, y, θ)` for arrays `y` and `θ`. The loss is any differentiable function of the saved values,
and the gradient is that with respect to the initial value and `θ`.
-/

namespace Verif.Backsolve
open Set Filter Topology Asymptotics

section
variable {S Q : Type} [Fintype S] [Fintype Q]

/-- The pairing of cotangents and tangents. -/
def dot {I : Type} [Fintype I] (a y : I → ℝ) : ℝ := ∑ i, a i * y i

/-- On bounded sets `f` is Lipschitz, with derivative `Df` and a remainder of second order (as is every function with
continuous second derivatives). -/
def SmoothOn (f : ℝ → (S → ℝ) × (Q → ℝ) → S → ℝ) (Df : ℝ → (S → ℝ) × (Q → ℝ) → (S → ℝ) × (Q → ℝ) →ₗ[ℝ] (S → ℝ))
    (I : Set ℝ) : Prop :=
  ∀ R : ℝ, ∃ K M : ℝ, 0 ≤ K ∧ 0 ≤ M ∧ ∀ t ∈ I, ∀ z z' : (S → ℝ) × (Q → ℝ), ‖z‖ ≤ R → ‖z'‖ ≤ R →
    ‖f t z' - f t z‖ ≤ K * ‖z' - z‖ ∧ ‖f t z' - f t z - Df t z (z' - z)‖ ≤ M * ‖z' - z‖ ^ 2

/-- `vjp` is the vector-Jacobian product of `vf_prod` with respect to `y` and `θ`. -/
def IsVjp (Df : ℝ → (S → ℝ) × (Q → ℝ) → (S → ℝ) × (Q → ℝ) →ₗ[ℝ] (S → ℝ)) (θ : Q → ℝ)
    (vjp : ℝ → (S → ℝ) → (Unit → ℝ) → (S → ℝ) → (S → ℝ) × (Q → ℝ)) : Prop :=
  ∀ t y c a v w, dot (vjp t y c a).1 v + dot (vjp t y c a).2 w = dot a (c () • Df t (y, θ) (v, w))

/-- The `AdjointTerm` of `ODETerm(f)`. -/
def adjTerm (f : ℝ → (S → ℝ) × (Q → ℝ) → S → ℝ) (θ : Q → ℝ)
    (vjp : ℝ → (S → ℝ) → (Unit → ℝ) → (S → ℝ) → (S → ℝ) × (Q → ℝ)) : AnyTerm ℝ ℝ ((S → ℝ) × (S → ℝ) × (Q → ℝ)) :=
  AnyTerm.adjoint (C := Unit) (fun t0 t1 _ => t1 - t0) (fun t y c => c () • f t (y, θ)) vjp

/-- The right-hand side of the adjoint equations. -/
def adjRhs (f : ℝ → (S → ℝ) × (Q → ℝ) → S → ℝ) (θ : Q → ℝ)
    (vjp : ℝ → (S → ℝ) → (Unit → ℝ) → (S → ℝ) → (S → ℝ) × (Q → ℝ)) (t : ℝ) (z : (S → ℝ) × (S → ℝ) × (Q → ℝ)) :
    (S → ℝ) × (S → ℝ) × (Q → ℝ) :=
  (adjTerm f θ vjp).term.vfProd t z (fun (_ : Unit) => (1 : ℝ))

/-- The solves follow solutions of the adjoint equations. -/
def Exact {St : Type} (rhs : ℝ → (S → ℝ) × (S → ℝ) × (Q → ℝ) → (S → ℝ) × (S → ℝ) × (Q → ℝ))
    (solve : Solve ℝ (S → ℝ) (Q → ℝ) St) (I : Set ℝ) : Prop :=
  ∀ s t z st mj, s ∈ I → t ∈ I → t ≤ s → ∃ Z : ℝ → (S → ℝ) × (S → ℝ) × (Q → ℝ), Z s = z ∧ Z t = (solve s t z st mj).1 ∧
    ∀ r ∈ Icc t s, HasDerivWithinAt Z (rhs r (Z r)) (Icc t s) r

/-- The solves that start on the trajectory `y` follow solutions of the adjoint equations. -/
def ExactAlong {St : Type} (rhs : ℝ → (S → ℝ) × (S → ℝ) × (Q → ℝ) → (S → ℝ) × (S → ℝ) × (Q → ℝ))
    (solve : Solve ℝ (S → ℝ) (Q → ℝ) St) (y : ℝ → S → ℝ) (I : Set ℝ) : Prop :=
  ∀ s t a p st mj, s ∈ I → t ∈ I → t ≤ s → ∃ Z : ℝ → (S → ℝ) × (S → ℝ) × (Q → ℝ), Z s = (y s, a, p) ∧
    Z t = (solve s t (y s, a, p) st mj).1 ∧ ∀ r ∈ Icc t s, HasDerivWithinAt Z (rhs r (Z r)) (Icc t s) r

theorem dot_add {I : Type} [Fintype I] (a b y : I → ℝ) : dot (a + b) y = dot a y + dot b y := by
  simp [dot, add_mul, Finset.sum_add_distrib]

theorem dot_sub' {I : Type} [Fintype I] (a y z : I → ℝ) : dot a (y - z) = dot a y - dot a z := by
  simp [dot, mul_sub, Finset.sum_sub_distrib]

theorem dot_smul {I : Type} [Fintype I] (a y : I → ℝ) (c : ℝ) : dot a (c • y) = c * dot a y := by
  simp [dot, Finset.mul_sum, mul_left_comm]

theorem dot_neg {I : Type} [Fintype I] (a y : I → ℝ) : dot (-a) y = -dot a y := by
  simp [dot]

theorem abs_dot_le {I : Type} [Fintype I] (a y : I → ℝ) : |dot a y| ≤ Fintype.card I * (‖a‖ * ‖y‖) := by
  unfold dot
  refine (Finset.abs_sum_le_sum_abs _ _).trans ?_
  rw [← nsmul_eq_mul, ← Finset.card_univ, ← Finset.sum_const]
  refine Finset.sum_le_sum fun i _ => ?_
  rw [abs_mul]
  exact mul_le_mul (norm_le_pi_norm a i) (norm_le_pi_norm y i) (abs_nonneg _) (norm_nonneg _)

theorem hasDerivWithinAt_dot {I : Type} [Fintype I] {a y : ℝ → I → ℝ} {a' y' : I → ℝ} {s : Set ℝ} {r : ℝ}
    (ha : HasDerivWithinAt a a' s r) (hy : HasDerivWithinAt y y' s r) :
    HasDerivWithinAt (fun r => dot (a r) (y r)) (dot a' (y r) + dot (a r) y') s r := by
  have h := HasDerivWithinAt.fun_sum (u := Finset.univ) (A := fun i r => a r i * y r i)
    (A' := fun i => a' i * y r i + a r i * y' i) (x := r) (s := s) fun i _ =>
      (hasDerivWithinAt_pi.1 ha i).mul (hasDerivWithinAt_pi.1 hy i)
  simpa [dot, Finset.sum_add_distrib] using h

theorem gronwallBound_mul (c δ K ε x : ℝ) : gronwallBound (c * δ) K (c * ε) x = c * gronwallBound δ K ε x := by
  unfold gronwallBound
  split <;> ring

/-- Solutions with values that differ by `O(ε)` differ by `O(ε)`. -/
theorem close (f : ℝ → (S → ℝ) × (Q → ℝ) → S → ℝ) (Df : ℝ → (S → ℝ) × (Q → ℝ) → (S → ℝ) × (Q → ℝ) →ₗ[ℝ] (S → ℝ))
    (a b : ℝ) (hf : SmoothOn f Df (Icc a b)) (Y : ℝ → ℝ → S → ℝ) (θ w : Q → ℝ) (v : S → ℝ)
    (hY : ∀ ε, ∀ t ∈ Icc a b, HasDerivWithinAt (Y ε) (f t (Y ε t, θ + ε • w)) (Icc a b) t)
    (hi : ∀ ε, Y ε a = Y 0 a + ε • v) (R : ℝ) (hR : ∀ᶠ ε in 𝓝 (0 : ℝ), ∀ t ∈ Icc a b, ‖Y ε t‖ ≤ R) :
    ∃ C, 0 ≤ C ∧ ∀ᶠ ε in 𝓝 (0 : ℝ), ∀ t ∈ Icc a b, ‖Y ε t - Y 0 t‖ ≤ C * |ε| := by
  have hR' : ∀ᶠ ε in 𝓝 (0 : ℝ), ‖θ + ε • w‖ ≤ ‖θ‖ + 1 := by
    have : Tendsto (fun ε : ℝ => ‖θ + ε • w‖) (𝓝 0) (𝓝 ‖θ + (0 : ℝ) • w‖) := by
      apply Continuous.tendsto; fun_prop
    rw [zero_smul, add_zero] at this
    filter_upwards [this.eventually (gt_mem_nhds (show ‖θ‖ < ‖θ‖ + 1 by linarith))] with ε h using h.le
  obtain ⟨K, M, hK, hM, hf⟩ := hf (max R (‖θ‖ + 1))
  have h0 := hR.self_of_nhds
  refine ⟨max 0 (gronwallBound ‖v‖ K (K * ‖w‖) (b - a)), le_max_left _ _, ?_⟩
  · filter_upwards [hR, hR'] with ε h1 h2 t ht
    have key := norm_le_gronwallBound_of_norm_deriv_right_le (f := fun t => Y ε t - Y 0 t)
      (f' := fun t => f t (Y ε t, θ + ε • w) - f t (Y 0 t, θ)) (δ := |ε| * ‖v‖) (K := K) (ε := |ε| * (K * ‖w‖)) (a := a) (b := b)
      ?_ ?_ ?_ ?_ t ht
    · rw [gronwallBound_mul] at key
      rw [mul_comm]
      refine key.trans (mul_le_mul_of_nonneg_left (le_max_of_le_right ?_) (abs_nonneg _))
      exact gronwallBound_mono (norm_nonneg v) (mul_nonneg hK (norm_nonneg w)) hK (sub_le_sub_right ht.2 _)
    · intro t ht
      exact ((hY ε t ht).continuousWithinAt.sub (hY 0 t ht).continuousWithinAt)
    · intro t ht
      have e := (hY ε t ⟨ht.1, ht.2.le⟩).sub (hY 0 t ⟨ht.1, ht.2.le⟩)
      rw [zero_smul, add_zero] at e
      exact e.mono_of_mem_nhdsWithin (Icc_mem_nhdsGE_of_mem ht)
    · simp only [hi ε, add_sub_cancel_left]
      rw [norm_smul, Real.norm_eq_abs]
    · intro t ht
      have ht' : t ∈ Icc a b := ⟨ht.1, ht.2.le⟩
      have := (hf t ht' (Y 0 t, θ) (Y ε t, θ + ε • w) ?_ ?_).1
      · refine this.trans ?_
        have e : ((Y ε t, θ + ε • w) - (Y 0 t, θ) : (S → ℝ) × (Q → ℝ)) = (Y ε t - Y 0 t, ε • w) := by
          ext <;> simp
        rw [e, Prod.norm_def, norm_smul, Real.norm_eq_abs]
        have : max ‖Y ε t - Y 0 t‖ (|ε| * ‖w‖) ≤ ‖Y ε t - Y 0 t‖ + |ε| * ‖w‖ :=
          max_le_add_of_nonneg (norm_nonneg _) (mul_nonneg (abs_nonneg _) (norm_nonneg _))
        nlinarith [mul_le_mul_of_nonneg_left this hK]
      · exact max_le_max (h0 t ht') (by linarith)
      · exact max_le_max (h1 t ht') h2

/-- Along an exact solve the state stays on the trajectory. -/
theorem on_trajectory (f : ℝ → (S → ℝ) × (Q → ℝ) → S → ℝ)
    (Df : ℝ → (S → ℝ) × (Q → ℝ) → (S → ℝ) × (Q → ℝ) →ₗ[ℝ] (S → ℝ)) (θ : Q → ℝ) (I : Set ℝ) (hf : SmoothOn f Df I)
    (s t : ℝ) (hI : Icc t s ⊆ I) (y y' : ℝ → S → ℝ)
    (hy : ∀ r ∈ Icc t s, HasDerivWithinAt y (f r (y r, θ)) (Icc t s) r)
    (hy' : ∀ r ∈ Icc t s, HasDerivWithinAt y' (f r (y' r, θ)) (Icc t s) r) (h : y s = y' s) : EqOn y y' (Icc t s) := by
  have c : ContinuousOn y (Icc t s) := fun r hr => (hy r hr).continuousWithinAt
  have c' : ContinuousOn y' (Icc t s) := fun r hr => (hy' r hr).continuousWithinAt
  obtain ⟨B, hB⟩ := isCompact_Icc.exists_bound_of_continuousOn c
  obtain ⟨B', hB'⟩ := isCompact_Icc.exists_bound_of_continuousOn c'
  obtain ⟨K, M, hK, -, hf⟩ := hf (max (max B B') ‖θ‖)
  have mem : ∀ r ∈ Ioc t s, Iic r ∩ Icc t s ∈ 𝓝[Iic r] r := by
    intro r hr
    refine inter_mem self_mem_nhdsWithin ?_
    have : Ioi t ∈ 𝓝[Iic r] r := nhdsWithin_le_nhds (Ioi_mem_nhds hr.1)
    filter_upwards [this, self_mem_nhdsWithin] with x h1 h2
    exact ⟨le_of_lt h1, le_trans h2 hr.2⟩
  refine ODE_solution_unique_of_mem_Icc_left (K := ⟨K, hK⟩) (v := fun r y => f r (y, θ))
    (s := fun _ => {y | ‖y‖ ≤ max B B'}) ?_ c ?_ ?_ c' ?_ ?_ h
  · intro r hr
    refine LipschitzOnWith.of_dist_le_mul fun x hx z hz => ?_
    rw [dist_eq_norm, dist_eq_norm]
    have := (hf r (hI ⟨hr.1.le, hr.2⟩) (z, θ) (x, θ) (max_le_max hz le_rfl) (max_le_max hx le_rfl)).1
    refine this.trans (le_of_eq ?_)
    congr 1
    rw [Prod.norm_def]
    simp
  · intro r hr
    have h1 := hy r ⟨hr.1.le, hr.2⟩
    exact h1.mono_of_mem_nhdsWithin (mem_of_superset (mem r hr) inter_subset_right)
  · intro r hr; exact le_max_of_le_left (hB r ⟨hr.1.le, hr.2⟩)
  · intro r hr
    have h1 := hy' r ⟨hr.1.le, hr.2⟩
    exact h1.mono_of_mem_nhdsWithin (mem_of_superset (mem r hr) inter_subset_right)
  · intro r hr; exact le_max_of_le_right (hB' r ⟨hr.1.le, hr.2⟩)

/-- What the cotangents say about a nearby solution, up to second order, is left alone by an exact solve. -/
theorem conserved (f : ℝ → (S → ℝ) × (Q → ℝ) → S → ℝ)
    (Df : ℝ → (S → ℝ) × (Q → ℝ) → (S → ℝ) × (Q → ℝ) →ₗ[ℝ] (S → ℝ))
    (a b : ℝ) (hf : SmoothOn f Df (Icc a b)) (Y : ℝ → ℝ → S → ℝ) (θ w : Q → ℝ) (v : S → ℝ)
    (vjp : ℝ → (S → ℝ) → (Unit → ℝ) → (S → ℝ) → (S → ℝ) × (Q → ℝ)) (hvjp : IsVjp Df θ vjp)
    (hY : ∀ ε, ∀ t ∈ Icc a b, HasDerivWithinAt (Y ε) (f t (Y ε t, θ + ε • w)) (Icc a b) t)
    (hi : ∀ ε, Y ε a = Y 0 a + ε • v) (R : ℝ) (hR : ∀ᶠ ε in 𝓝 (0 : ℝ), ∀ t ∈ Icc a b, ‖Y ε t‖ ≤ R)
    (s t : ℝ) (hat : a ≤ t) (hts : t ≤ s) (hsb : s ≤ b) (Z : ℝ → (S → ℝ) × (S → ℝ) × (Q → ℝ)) (hZs : (Z s).1 = Y 0 s)
    (hZ : ∀ r ∈ Icc t s, HasDerivWithinAt Z (adjRhs f θ vjp r (Z r)) (Icc t s) r) :
    (fun ε : ℝ => (dot (Z t).2.1 (Y ε t - Y 0 t) + ε * dot (Z t).2.2 w) -
      (dot (Z s).2.1 (Y ε s - Y 0 s) + ε * dot (Z s).2.2 w)) =O[𝓝 0] fun ε => ε ^ 2 := by
  have hsub : Icc t s ⊆ Icc a b := Icc_subset_Icc hat hsb
  have hY0 : ∀ ε, ∀ r ∈ Icc t s, HasDerivWithinAt (Y ε) (f r (Y ε r, θ + ε • w)) (Icc t s) r :=
    fun ε r hr => (hY ε r (hsub hr)).mono hsub
  have hrhs : ∀ r z, adjRhs f θ vjp r z = (f r (z.1, θ), vjp r z.1 (fun _ => 1) (-z.2.1)) := by
    intro r z
    show ((1 : ℝ) • f r (z.1, θ), vjp r z.1 (fun _ => 1) (-z.2.1)) = _
    rw [one_smul]
  have hZ' : ∀ r ∈ Icc t s, HasDerivWithinAt Z (f r ((Z r).1, θ), vjp r (Z r).1 (fun _ => 1) (-(Z r).2.1)) (Icc t s) r :=
    fun r hr => by rw [← hrhs]; exact hZ r hr
  have hZ1 : ∀ r ∈ Icc t s, HasDerivWithinAt (fun r => (Z r).1) (f r ((Z r).1, θ)) (Icc t s) r := fun r hr => (hZ' r hr).fst
  have hZ2 : ∀ r ∈ Icc t s, HasDerivWithinAt (fun r => (Z r).2.1) (vjp r (Z r).1 (fun _ => 1) (-(Z r).2.1)).1 (Icc t s) r :=
    fun r hr => (hZ' r hr).snd.fst
  have hZ3 : ∀ r ∈ Icc t s, HasDerivWithinAt (fun r => (Z r).2.2) (vjp r (Z r).1 (fun _ => 1) (-(Z r).2.1)).2 (Icc t s) r :=
    fun r hr => (hZ' r hr).snd.snd
  have on : EqOn (fun r => (Z r).1) (Y 0) (Icc t s) := by
    refine on_trajectory f Df θ (Icc a b) hf s t hsub _ _ hZ1 ?_ hZs
    intro r hr
    have := hY0 0 r hr
    rwa [zero_smul, add_zero] at this
  -- the bounds
  obtain ⟨C, hC, hclose⟩ := close f Df a b hf Y θ w v hY hi R hR
  have hR' : ∀ᶠ ε in 𝓝 (0 : ℝ), ‖θ + ε • w‖ ≤ ‖θ‖ + 1 := by
    have : Tendsto (fun ε : ℝ => ‖θ + ε • w‖) (𝓝 0) (𝓝 ‖θ + (0 : ℝ) • w‖) := by
      apply Continuous.tendsto; fun_prop
    rw [zero_smul, add_zero] at this
    filter_upwards [this.eventually (gt_mem_nhds (show ‖θ‖ < ‖θ‖ + 1 by linarith))] with ε h using h.le
  obtain ⟨K, M, -, hM, hf⟩ := hf (max R (‖θ‖ + 1))
  have h0 := hR.self_of_nhds
  obtain ⟨A, hA⟩ := isCompact_Icc.exists_bound_of_continuousOn
    (fun r hr => (hZ2 r hr).continuousWithinAt : ContinuousOn (fun r => (Z r).2.1) (Icc t s))
  have hA0 : 0 ≤ A := (norm_nonneg _).trans (hA t ⟨le_rfl, hts⟩)
  refine IsBigO.of_bound (Fintype.card S * (A * (M * (C + ‖w‖) ^ 2)) * (s - t)) ?_
  filter_upwards [hR, hR', hclose] with ε h1 h2 h3
  set u : ℝ → ℝ := fun r => dot (Z r).2.1 (Y ε r - Y 0 r) + ε * dot (Z r).2.2 w with hu
  set rem : ℝ → S → ℝ := fun r => f r (Y ε r, θ + ε • w) - f r (Y 0 r, θ) -
    Df r (Y 0 r, θ) (Y ε r - Y 0 r, ε • w) with hrem
  have du : ∀ r ∈ Icc t s, HasDerivWithinAt u (dot (Z r).2.1 (rem r)) (Icc t s) r := by
    intro r hr
    have d0 := hY0 0 r hr
    rw [zero_smul, add_zero] at d0
    have d1 := hasDerivWithinAt_dot (hZ2 r hr) ((hY0 ε r hr).sub d0)
    have d2 := (hasDerivWithinAt_dot (hZ3 r hr) (hasDerivWithinAt_const r (Icc t s) w)).const_mul ε
    refine (d1.add d2).congr_deriv ?_
    have e := hvjp r (Z r).1 (fun _ => 1) (-(Z r).2.1) (Y ε r - Y 0 r) (ε • w)
    have e0 : (Z r).1 = Y 0 r := on hr
    rw [one_smul, dot_neg, dot_smul] at e
    have e3 : dot (Z r).2.2 (0 : Q → ℝ) = 0 := by simp [dot]
    simp only [hrem, dot_sub', e3, Pi.sub_apply]
    rw [e0] at e ⊢
    rw [dot_sub'] at e
    linarith
  have bu : ∀ r ∈ Ico t s, ‖dot (Z r).2.1 (rem r)‖ ≤ Fintype.card S * (A * (M * (C + ‖w‖) ^ 2)) * |ε| ^ 2 := by
    intro r hr
    have hr' : r ∈ Icc t s := ⟨hr.1, hr.2.le⟩
    have q := (hf r (hsub hr') (Y 0 r, θ) (Y ε r, θ + ε • w) (max_le_max (h0 r (hsub hr')) (by linarith))
      (max_le_max (h1 r (hsub hr')) h2)).2
    have e : ((Y ε r, θ + ε • w) - (Y 0 r, θ) : (S → ℝ) × (Q → ℝ)) = (Y ε r - Y 0 r, ε • w) := by ext <;> simp
    rw [e] at q
    have n1 : ‖(Y ε r - Y 0 r, ε • w)‖ ≤ (C + ‖w‖) * |ε| := by
      rw [Prod.norm_def, norm_smul, Real.norm_eq_abs]
      refine max_le ?_ ?_
      · nlinarith [h3 r (hsub hr'), mul_nonneg (norm_nonneg w) (abs_nonneg ε)]
      · nlinarith [mul_nonneg hC (abs_nonneg ε)]
    have n2 : ‖rem r‖ ≤ M * ((C + ‖w‖) * |ε|) ^ 2 :=
      q.trans (mul_le_mul_of_nonneg_left (pow_le_pow_left₀ (norm_nonneg _) n1 2) hM)
    rw [Real.norm_eq_abs]
    refine (abs_dot_le _ _).trans ?_
    rw [mul_assoc]
    refine mul_le_mul_of_nonneg_left ?_ (Nat.cast_nonneg _)
    calc ‖(Z r).2.1‖ * ‖rem r‖ ≤ A * (M * ((C + ‖w‖) * |ε|) ^ 2) := mul_le_mul (hA r hr') n2 (norm_nonneg _) hA0
      _ = A * (M * (C + ‖w‖) ^ 2) * |ε| ^ 2 := by ring
  have fin := norm_image_sub_le_of_norm_deriv_le_segment' du bu s ⟨hts, le_rfl⟩
  rw [norm_sub_rev] at fin
  refine fin.trans (le_of_eq ?_)
  rw [norm_pow, Real.norm_eq_abs]
  ring

/-- Functions that are `O(ε²)` at 0. -/
def secondOrder : Submodule ℝ (ℝ → ℝ) where
  carrier := {h | h =O[𝓝 0] fun ε : ℝ => ε ^ 2}
  add_mem' := fun h1 h2 => IsBigO.add h1 h2
  zero_mem' := isBigO_zero _ _
  smul_mem' := fun c _ h => IsBigO.const_mul_left h c

/-- **C68.** Let the loss be a differentiable function `L` of the saved values, with gradients `gs`. If the solves of the
backward pass are exact, its result `(a, q)` is the gradient of the loss: for every family of solutions with initial values
`y0 + ε v` and parameters `θ + ε w`, the derivative of the loss at `ε = 0` is `a · v + q · w`. -/
theorem C68_gradient_along {St : Type} {n : ℕ} (hn : n ≠ 0) (f : ℝ → (S → ℝ) × (Q → ℝ) → S → ℝ)
    (Df : ℝ → (S → ℝ) × (Q → ℝ) → (S → ℝ) × (Q → ℝ) →ₗ[ℝ] (S → ℝ)) (θ : Q → ℝ)
    (vjp : ℝ → (S → ℝ) → (Unit → ℝ) → (S → ℝ) → (S → ℝ) × (Q → ℝ)) (hvjp : IsVjp Df θ vjp) (t0 last : ℝ)
    (hf : SmoothOn f Df (Icc t0 last)) (saveatT0 : Bool) (ts : Fin n → ℝ) (hmono : Monotone ts)
    (hts : ∀ i, ts i ∈ Icc t0 last) (h0 : saveatT0 = true → ts ⟨0, Nat.pos_of_ne_zero hn⟩ = t0)
    (solve : Solve ℝ (S → ℝ) (Q → ℝ) St) (y : ℝ → S → ℝ)
    (hsolve : ExactAlong (adjRhs f θ vjp) solve y (Icc t0 last)) (gs : Fin n → S → ℝ) :
    ∃ a q, backward solve saveatT0 t0 (List.ofFn ts) (List.ofFn fun i => y (ts i)) (List.ofFn gs) = some (a, q) ∧
      ∀ (v : S → ℝ) (w : Q → ℝ) (Y : ℝ → ℝ → S → ℝ),
        Y 0 = y → (∀ ε, Y ε t0 = y t0 + ε • v) →
        (∀ ε, ∀ t ∈ Icc t0 last, HasDerivWithinAt (Y ε) (f t (Y ε t, θ + ε • w)) (Icc t0 last) t) →
        (∃ R, ∀ᶠ ε in 𝓝 (0 : ℝ), ∀ t ∈ Icc t0 last, ‖Y ε t‖ ≤ R) →
        ∀ (L : (Fin n → S → ℝ) → ℝ) (L' : (Fin n → S → ℝ) →L[ℝ] ℝ), HasFDerivAt L L' (fun i => y (ts i)) →
          (∀ d, L' d = ∑ i, dot (gs i) (d i)) →
          HasDerivAt (fun ε => L fun i => Y ε (ts i)) (dot a v + dot q w) 0 := by
  set pts : List (ℝ × (S → ℝ) × (S → ℝ)) := List.ofFn fun i => (ts i, y (ts i), gs i) with hpts
  have m1 : pts.map (·.1) = List.ofFn ts := by rw [hpts, List.map_ofFn]; rfl
  have m2 : pts.map (·.2.1) = List.ofFn fun i => y (ts i) := by rw [hpts, List.map_ofFn]; rfl
  have m3 : pts.map (·.2.2) = List.ofFn gs := by rw [hpts, List.map_ofFn]; rfl
  have hne : pts ≠ [] := by
    intro h; have := congrArg List.length h; simp [hpts] at this; exact hn this
  have h0' : saveatT0 = true → (pts.map (·.1)).head? = some t0 := by
    intro h
    rw [m1]
    obtain ⟨k, rfl⟩ := Nat.exists_eq_succ_of_ne_zero hn
    simpa [List.ofFn_succ] using h0 h
  have hs : (t0 :: pts.map (·.1)).Pairwise (· ≤ ·) := by
    rw [m1, List.pairwise_cons]
    refine ⟨?_, ?_⟩
    · intro x hx
      obtain ⟨i, rfl⟩ := List.mem_ofFn.1 hx
      exact (hts i).1
    · rw [List.pairwise_ofFn]
      intro i j hij
      exact hmono hij.le
  have hy : ∀ q ∈ pts, q.2.1 = y q.1 := by
    intro q hq
    obtain ⟨i, rfl⟩ := List.mem_ofFn.1 hq
    rfl
  have hmem : ∀ q ∈ pts, q.1 ∈ Icc t0 last := by
    intro q hq
    obtain ⟨i, rfl⟩ := List.mem_ofFn.1 hq
    exact hts i
  obtain ⟨⟨a, q⟩, hr, -⟩ := backward_sum (V := PUnit) solve saveatT0 t0 pts hne h0' (fun _ _ => PUnit.unit)
    (fun _ _ => PUnit.unit) (fun _ => rfl) (fun _ _ _ _ => rfl) (fun _ _ _ _ _ _ => rfl)
  refine ⟨a, q, by rw [← m1, ← m2, ← m3]; exact hr, ?_⟩
  intro v w Y hY0 hi hY ⟨R, hR⟩ L L' hL hL'
  subst hY0
  have key := backward_sum (V := (ℝ → ℝ) ⧸ secondOrder) solve saveatT0 t0 pts hne h0'
    (fun t x => secondOrder.mkQ fun ε => dot x.1 (Y ε t - Y 0 t) + ε * dot x.2 w)
    (fun t g => secondOrder.mkQ fun ε => dot g (Y ε t - Y 0 t))
    (by
      intro t
      rw [show (fun ε : ℝ => dot ((0 : S → ℝ), (0 : Q → ℝ)).1 (Y ε t - Y 0 t) + ε * dot ((0 : S → ℝ), (0 : Q → ℝ)).2 w) = 0 by
        funext ε; simp [dot]]
      exact map_zero _)
    (by
      intro t a g p
      rw [← map_add]
      congr 1
      funext ε
      simp only [dot_add, Pi.add_apply]
      ring)
    (by
      intro v' hv' a p st mj
      obtain ⟨c1, c2, c3, c4⟩ := chain_mem (traj := Y 0) t0 pts hs hy v' hv'
      have hs' : v'.2.1 ∈ Icc t0 last := hmem _ c4
      rw [c3]
      obtain ⟨Z, z1, z2, z3⟩ := hsolve v'.2.1 v'.1 a p st mj hs' ⟨c1, c2.trans hs'.2⟩ c2
      have := conserved f Df t0 last hf Y θ w v vjp hvjp hY hi R hR v'.2.1 v'.1 c1 c2 hs'.2 Z (by rw [z1]) z3
      rw [z1, z2] at this
      exact (Submodule.Quotient.eq secondOrder).2 this)
  obtain ⟨r, k1, k2⟩ := key
  obtain rfl : r = (a, q) := Option.some.inj (k1.symm.trans hr)
  have k3 : (fun ε : ℝ => dot a (ε • v) + ε * dot q w - ∑ i, dot (gs i) (Y ε (ts i) - Y 0 (ts i))) =O[𝓝 0] fun ε => ε ^ 2 := by
    have e : (pts.map fun q => secondOrder.mkQ fun ε => dot q.2.2 (Y ε q.1 - Y 0 q.1)).sum =
        secondOrder.mkQ fun ε => ∑ i, dot (gs i) (Y ε (ts i) - Y 0 (ts i)) := by
      rw [hpts, List.map_ofFn, List.sum_ofFn]
      simp only [Function.comp_def]
      rw [← map_sum]
      congr 1
      funext ε
      simp
    rw [e] at k2
    have := (Submodule.Quotient.eq secondOrder).1 k2
    have h' : (((fun ε => dot a (Y ε t0 - Y 0 t0) + ε * dot q w) -
        fun ε => ∑ i, dot (gs i) (Y ε (ts i) - Y 0 (ts i))) : ℝ → ℝ) =O[𝓝 0] fun ε => ε ^ 2 := this
    refine h'.congr_left fun ε => ?_
    rw [Pi.sub_apply, hi ε, add_sub_cancel_left]
  -- the loss
  obtain ⟨C, hC, hclose⟩ := close f Df t0 last hf Y θ w v hY hi R hR
  have hD : (fun ε : ℝ => fun i => Y ε (ts i) - Y 0 (ts i)) =O[𝓝 0] fun ε : ℝ => ε := by
    refine IsBigO.of_bound C ?_
    filter_upwards [hclose] with ε h
    rw [pi_norm_le_iff_of_nonneg (mul_nonneg hC (norm_nonneg _))]
    intro i
    exact h (ts i) (hts i)
  have ht : Tendsto (fun ε : ℝ => fun i => Y ε (ts i)) (𝓝 0) (𝓝 fun i => Y 0 (ts i)) := by
    have := hD.trans_tendsto tendsto_id
    rw [tendsto_iff_norm_sub_tendsto_zero]
    exact tendsto_zero_iff_norm_tendsto_zero.1 this
  have l1 : (fun ε : ℝ => L (fun i => Y ε (ts i)) - L (fun i => Y 0 (ts i)) -
      L' ((fun i => Y ε (ts i)) - fun i => Y 0 (ts i))) =o[𝓝 0] fun ε : ℝ => ε :=
    (hL.isLittleO.comp_tendsto ht).trans_isBigO hD
  have l2 : (fun ε : ℝ => ε ^ 2) =o[𝓝 0] fun ε : ℝ => ε := by
    have := isLittleO_pow_pow (𝕜 := ℝ) (show 1 < 2 by norm_num)
    simpa using this
  rw [hasDerivAt_iff_isLittleO]
  have l3 := l1.sub (k3.trans_isLittleO l2)
  refine (l3.congr (fun ε => ?_) (fun ε => ?_))
  · rw [hL', dot_smul]
    simp only [Pi.sub_apply, smul_eq_mul, sub_zero]
    ring
  · simp

/-- **C68.** The same if the solves follow solutions from wherever they start. -/
theorem C68_gradient {St : Type} {n : ℕ} (hn : n ≠ 0) (f : ℝ → (S → ℝ) × (Q → ℝ) → S → ℝ)
    (Df : ℝ → (S → ℝ) × (Q → ℝ) → (S → ℝ) × (Q → ℝ) →ₗ[ℝ] (S → ℝ)) (θ : Q → ℝ)
    (vjp : ℝ → (S → ℝ) → (Unit → ℝ) → (S → ℝ) → (S → ℝ) × (Q → ℝ)) (hvjp : IsVjp Df θ vjp) (t0 last : ℝ)
    (hf : SmoothOn f Df (Icc t0 last)) (saveatT0 : Bool) (ts : Fin n → ℝ) (hmono : Monotone ts)
    (hts : ∀ i, ts i ∈ Icc t0 last) (h0 : saveatT0 = true → ts ⟨0, Nat.pos_of_ne_zero hn⟩ = t0)
    (solve : Solve ℝ (S → ℝ) (Q → ℝ) St) (hsolve : Exact (adjRhs f θ vjp) solve (Icc t0 last)) (y : ℝ → S → ℝ)
    (gs : Fin n → S → ℝ) :
    ∃ a q, backward solve saveatT0 t0 (List.ofFn ts) (List.ofFn fun i => y (ts i)) (List.ofFn gs) = some (a, q) ∧
      ∀ (v : S → ℝ) (w : Q → ℝ) (Y : ℝ → ℝ → S → ℝ),
        Y 0 = y → (∀ ε, Y ε t0 = y t0 + ε • v) →
        (∀ ε, ∀ t ∈ Icc t0 last, HasDerivWithinAt (Y ε) (f t (Y ε t, θ + ε • w)) (Icc t0 last) t) →
        (∃ R, ∀ᶠ ε in 𝓝 (0 : ℝ), ∀ t ∈ Icc t0 last, ‖Y ε t‖ ≤ R) →
        ∀ (L : (Fin n → S → ℝ) → ℝ) (L' : (Fin n → S → ℝ) →L[ℝ] ℝ), HasFDerivAt L L' (fun i => y (ts i)) →
          (∀ d, L' d = ∑ i, dot (gs i) (d i)) →
          HasDerivAt (fun ε => L fun i => Y ε (ts i)) (dot a v + dot q w) 0 :=
  C68_gradient_along hn f Df θ vjp hvjp t0 last hf saveatT0 ts hmono hts h0 solve y
    (fun s t a p st mj hs ht hts => hsolve s t (y s, a, p) st mj hs ht hts) gs

end

/-! ### Example: `dy/dt = θ y` -/

section

/-- The right-hand side. -/
def exF (_ : ℝ) (z : (Unit → ℝ) × (Unit → ℝ)) : Unit → ℝ := fun _ => z.2 () * z.1 ()

/-- Its derivative. -/
def exDf (_ : ℝ) (z : (Unit → ℝ) × (Unit → ℝ)) : (Unit → ℝ) × (Unit → ℝ) →ₗ[ℝ] (Unit → ℝ) where
  toFun d := fun _ => z.2 () * d.1 () + z.1 () * d.2 ()
  map_add' := fun a b => by funext i; simp; ring
  map_smul' := fun c a => by funext i; simp; ring

/-- Its vector-Jacobian product for `θ = 1`. -/
def exVjp (_ : ℝ) (y : Unit → ℝ) (c : Unit → ℝ) (a : Unit → ℝ) : (Unit → ℝ) × (Unit → ℝ) :=
  (fun _ => a () * c (), fun _ => a () * c () * y ())

/-- Exact solves for `θ = 1`. -/
noncomputable def exSolve : Solve ℝ (Unit → ℝ) (Unit → ℝ) Unit := fun s t z _ _ =>
  ((fun _ => z.1 () * Real.exp (t - s), fun _ => z.2.1 () * Real.exp (s - t),
    fun _ => z.2.2 () + z.2.1 () * z.1 () * (s - t)), ())

theorem norm_unit (x : Unit → ℝ) : ‖x‖ = |x ()| := by
  rw [← Real.norm_eq_abs]
  exact le_antisymm ((pi_norm_le_iff_of_nonneg (norm_nonneg _)).2 fun i => le_rfl) (norm_le_pi_norm x ())

example : SmoothOn exF exDf (Icc 0 2) := by
  intro R
  refine ⟨2 * |R|, 1, by positivity, by norm_num, fun t _ z z' hz hz' => ?_⟩
  have h1 : |z.1 ()| ≤ |R| := by rw [← norm_unit]; exact ((le_max_left _ _).trans hz).trans (le_abs_self _)
  have h2 : |z'.2 ()| ≤ |R| := by rw [← norm_unit]; exact ((le_max_right _ _).trans hz').trans (le_abs_self _)
  have d1 : |z'.1 () - z.1 ()| ≤ ‖z' - z‖ := by
    have := norm_unit (z' - z).1; rw [show |z'.1 () - z.1 ()| = ‖(z' - z).1‖ from this.symm]; exact le_max_left _ _
  have d2 : |z'.2 () - z.2 ()| ≤ ‖z' - z‖ := by
    have := norm_unit (z' - z).2; rw [show |z'.2 () - z.2 ()| = ‖(z' - z).2‖ from this.symm]; exact le_max_right _ _
  constructor
  · rw [norm_unit]
    show |z'.2 () * z'.1 () - z.2 () * z.1 ()| ≤ _
    rw [show z'.2 () * z'.1 () - z.2 () * z.1 () = z'.2 () * (z'.1 () - z.1 ()) + z.1 () * (z'.2 () - z.2 ()) by ring]
    refine (abs_add_le _ _).trans ?_
    rw [abs_mul, abs_mul]
    have := mul_le_mul h2 d1 (abs_nonneg _) (abs_nonneg _)
    have := mul_le_mul h1 d2 (abs_nonneg _) (abs_nonneg _)
    linarith
  · rw [norm_unit]
    show |z'.2 () * z'.1 () - z.2 () * z.1 () - (z.2 () * (z'.1 () - z.1 ()) + z.1 () * (z'.2 () - z.2 ()))| ≤ _
    rw [show z'.2 () * z'.1 () - z.2 () * z.1 () - (z.2 () * (z'.1 () - z.1 ()) + z.1 () * (z'.2 () - z.2 ())) =
      (z'.2 () - z.2 ()) * (z'.1 () - z.1 ()) by ring, abs_mul, one_mul, sq]
    exact mul_le_mul d2 d1 (abs_nonneg _) (norm_nonneg _)

example : IsVjp exDf (fun _ => 1) exVjp := by
  intro t y c a v w
  simp [dot, exVjp, exDf]
  ring

example : Exact (adjRhs exF (fun _ => 1) exVjp) exSolve (Icc 0 2) := by
  intro s t z st mj _ _ _
  refine ⟨fun r => (fun _ => z.1 () * Real.exp (r - s), fun _ => z.2.1 () * Real.exp (s - r),
    fun _ => z.2.2 () + z.2.1 () * z.1 () * (s - r)), ?_, rfl, fun r _ => ?_⟩
  · ext <;> simp
  · have h1 : HasDerivAt (fun r => z.1 () * Real.exp (r - s)) (z.1 () * Real.exp (r - s)) r := by
      simpa using (((hasDerivAt_id r).sub_const s).exp).const_mul (z.1 ())
    have h2 : HasDerivAt (fun r => z.2.1 () * Real.exp (s - r)) (-(z.2.1 () * Real.exp (s - r))) r := by
      simpa using (((hasDerivAt_id r).const_sub s).exp).const_mul (z.2.1 ())
    have h3 : HasDerivAt (fun r => z.2.2 () + z.2.1 () * z.1 () * (s - r)) (-(z.2.1 () * z.1 ())) r := by
      simpa using (((hasDerivAt_id r).const_sub s).const_mul (z.2.1 () * z.1 ())).const_add (z.2.2 ())
    have h := ((hasDerivAt_pi.2 fun _ : Unit => h1).prodMk
      ((hasDerivAt_pi.2 fun _ : Unit => h2).prodMk (hasDerivAt_pi.2 fun _ : Unit => h3))).hasDerivWithinAt (s := Icc t s)
    refine h.congr_deriv ?_
    show _ = ((1 : ℝ) • exF r (fun _ => z.1 () * Real.exp (r - s), fun _ => 1),
      exVjp r (fun _ => z.1 () * Real.exp (r - s)) (fun _ => 1) (-fun _ => z.2.1 () * Real.exp (s - r)))
    have e : Real.exp (s - r) * Real.exp (r - s) = 1 := by rw [← Real.exp_add]; simp
    refine Prod.ext (funext fun _ => ?_) (Prod.ext (funext fun _ => ?_) (funext fun _ => ?_))
    · simp [exF]
    · simp [exVjp]
    · simp only [exVjp, Pi.neg_apply]
      linear_combination (z.2.1 () * z.1 ()) * e

/-- The solutions for the initial values `1 + ε v` and parameters `1 + ε w`. -/
example (v w : Unit → ℝ) :
    let Y : ℝ → ℝ → Unit → ℝ := fun ε t _ => (1 + ε * v ()) * Real.exp ((1 + ε * w ()) * t)
    (∀ ε, Y ε 0 = Y 0 0 + ε • v) ∧
    (∀ ε, ∀ t ∈ Icc (0 : ℝ) 2, HasDerivWithinAt (Y ε) (exF t (Y ε t, (fun _ => 1) + ε • w)) (Icc 0 2) t) ∧
    ∃ R, ∀ᶠ ε in 𝓝 (0 : ℝ), ∀ t ∈ Icc (0 : ℝ) 2, ‖Y ε t‖ ≤ R := by
  intro Y
  refine ⟨fun ε => by funext i; simp [Y], fun ε t _ => ?_, (1 + |v ()|) * Real.exp ((1 + |w ()|) * 2), ?_⟩
  · refine HasDerivAt.hasDerivWithinAt (hasDerivAt_pi.2 fun i => ?_)
    have := (((hasDerivAt_id t).const_mul (1 + ε * w ())).exp).const_mul (1 + ε * v ())
    refine this.congr_deriv ?_
    simp [exF, Y]
    ring
  · filter_upwards [Metric.ball_mem_nhds (0 : ℝ) one_pos] with ε hε t ht
    have hε' : |ε| ≤ 1 := by simpa using (mem_ball_zero_iff.1 hε).le
    have a1 : |ε * v ()| ≤ |v ()| := by rw [abs_mul]; exact mul_le_of_le_one_left (abs_nonneg _) hε'
    have a2 : |ε * w ()| ≤ |w ()| := by rw [abs_mul]; exact mul_le_of_le_one_left (abs_nonneg _) hε'
    rw [norm_unit]
    simp only [Y]
    rw [abs_mul, Real.abs_exp]
    refine mul_le_mul ?_ (Real.exp_le_exp.2 ?_) (Real.exp_nonneg _) (by positivity)
    · exact (abs_add_le _ _).trans (by simpa using a1)
    · have b1 : 1 + ε * w () ≤ 1 + |w ()| := by linarith [le_abs_self (ε * w ())]
      have b2 : (1 + ε * w ()) * t ≤ (1 + |w ()|) * t := mul_le_mul_of_nonneg_right b1 ht.1
      have b3 : (1 + |w ()|) * t ≤ (1 + |w ()|) * 2 := mul_le_mul_of_nonneg_left ht.2 (by positivity)
      linarith

end

end Verif.Backsolve
