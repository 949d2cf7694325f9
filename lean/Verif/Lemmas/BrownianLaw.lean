import Mathlib.LinearAlgebra.BilinearForm.Basic
import Mathlib.LinearAlgebra.Finsupp.LinearCombination
import Mathlib.Probability.Distributions.Gaussian.HasGaussianLaw.Independence
import Mathlib.Probability.HasLaw

/-!
# Linear combinations of independent standard normals
-/

namespace Verif
open MeasureTheory ProbabilityTheory

noncomputable section

variable {ι : Type}

/-- The inner product of coefficients. -/
def dot : LinearMap.BilinForm ℝ (ι →₀ ℝ) := Finsupp.linearCombination ℝ (fun k => (Finsupp.lapply k : (ι →₀ ℝ) →ₗ[ℝ] ℝ))

theorem dot_apply (v w : ι →₀ ℝ) (s : Finset ι) (hs : v.support ⊆ s) : dot v w = ∑ k ∈ s, v k * w k := by
  unfold dot
  rw [Finsupp.linearCombination_apply, Finsupp.sum_of_support_subset _ hs _ (by simp)]
  simp [LinearMap.sum_apply]

theorem dot_comm (v w : ι →₀ ℝ) : dot v w = dot w v := by
  classical
  rw [dot_apply v w (v.support ∪ w.support) Finset.subset_union_left,
    dot_apply w v (v.support ∪ w.support) Finset.subset_union_right]
  exact Finset.sum_congr rfl fun _ _ => mul_comm _ _

theorem dot_single (k k' : ι) [DecidableEq ι] :
    dot (Finsupp.single k (1 : ℝ)) (Finsupp.single k' 1) = if k = k' then 1 else 0 := by
  rw [dot_apply _ _ {k} Finsupp.support_single_subset]
  simp [Finsupp.single_apply, eq_comm]

variable {Ω : Type} [MeasurableSpace Ω] {P : Measure Ω} {ξ : ι → Ω → ℝ}

/-- The linear combination of the normals. -/
def comb (ξ : ι → Ω → ℝ) (ω : Ω) : (ι →₀ ℝ) →ₗ[ℝ] ℝ := Finsupp.linearCombination ℝ (fun k => ξ k ω)

theorem comb_apply (ξ : ι → Ω → ℝ) (ω : Ω) (v : ι →₀ ℝ) (s : Finset ι) (hs : v.support ⊆ s) :
    comb ξ ω v = ∑ k : s, v k * ξ k ω := by
  unfold comb
  rw [Finsupp.linearCombination_apply, Finsupp.sum_of_support_subset _ hs _ (by simp), ← Finset.sum_coe_sort]
  simp

/-- Orthogonal combinations of independent standard normals are independent normals. -/
theorem comb_law (hind : iIndepFun ξ P) (hlaw : ∀ k, HasLaw (ξ k) (gaussianReal 0 1) P) {J : Type} [Fintype J]
    (v : J → ι →₀ ℝ) (hv : ∀ i j, i ≠ j → dot (v i) (v j) = 0) :
    iIndepFun (fun j ω => comb ξ ω (v j)) P ∧
      ∀ j, HasLaw (fun ω => comb ξ ω (v j)) (gaussianReal 0 (dot (v j) (v j)).toNNReal) P := by
  classical
  have := hind.isProbabilityMeasure
  have hg : ∀ k, HasGaussianLaw (ξ k) P := fun k => (hlaw k).hasGaussianLaw
  set s : Finset ι := Finset.univ.biUnion fun j => (v j).support with hs
  have hsub : ∀ j, (v j).support ⊆ s := fun j => Finset.subset_biUnion_of_mem (fun j => (v j).support) (Finset.mem_univ j)
  have hcomb : ∀ ω j, comb ξ ω (v j) = ∑ k : s, v j k * ξ k ω := fun ω j => comb_apply ξ ω (v j) s (hsub j)
  have hind' : iIndepFun (fun k : s => ξ k) P := hind.precomp Subtype.val_injective
  have hjoint : HasGaussianLaw (fun ω => (fun k : s => ξ k ω)) P := hind'.hasGaussianLaw fun k => hg k
  let L : (s → ℝ) →L[ℝ] (J → ℝ) :=
    ContinuousLinearMap.pi fun j => ∑ k : s, (v j k) • ContinuousLinearMap.proj k
  have hL : HasGaussianLaw (fun ω => (fun j => comb ξ ω (v j))) P := by
    have h := hjoint.map_fun L
    have e : (fun ω => L (fun k : s => ξ k ω)) = fun ω => (fun j => comb ξ ω (v j)) := by
      funext ω j
      simp [L, hcomb, ContinuousLinearMap.sum_apply]
    rwa [e] at h
  have hcov1 : ∀ k k' : s, cov[ξ k, ξ k'; P] = if k = k' then 1 else 0 := by
    intro k k'
    split
    · next h =>
      subst h
      rw [covariance_self (hg k).aemeasurable, ← variance_id_map (hg k).aemeasurable, (hlaw k).map_eq,
        variance_id_gaussianReal]
      rfl
    · next h =>
      exact (hind'.indepFun h).covariance_eq_zero (hg k).memLp_two (hg k').memLp_two
  have hcov : ∀ i j, cov[fun ω => comb ξ ω (v i), fun ω => comb ξ ω (v j); P] = dot (v i) (v j) := by
    intro i j
    simp only [hcomb]
    rw [covariance_fun_sum_fun_sum (fun k : s => (hg k).memLp_two.const_mul (v i k))
      (fun k : s => (hg k).memLp_two.const_mul (v j k))]
    simp_rw [covariance_const_mul_left, covariance_const_mul_right, hcov1]
    rw [dot_apply _ _ s (hsub i), ← Finset.sum_coe_sort s (fun k => v i k * v j k)]
    apply Finset.sum_congr rfl
    intro k _
    simp only [mul_ite, mul_one, mul_zero, Finset.sum_ite_eq, Finset.mem_univ, if_true]
  have hmean : ∀ j, ∫ ω, comb ξ ω (v j) ∂P = 0 := by
    intro j
    simp only [hcomb]
    rw [integral_finsetSum _ fun (k : s) _ => (hg k).integrable.const_mul (v j k)]
    apply Finset.sum_eq_zero
    intro k _
    rw [integral_const_mul]
    have : ∫ ω, ξ k ω ∂P = 0 := by
      have h := (hlaw k).integral_eq
      rw [integral_id_gaussianReal] at h
      simpa using h
    rw [this, mul_zero]
  constructor
  · exact hL.iIndepFun_of_covariance_eq_zero fun i j hij => by rw [hcov, hv i j hij]
  · intro j
    have hj := hL.eval j
    refine ⟨hj.aemeasurable, ?_⟩
    rw [hj.map_eq_gaussianReal, hmean, ← hcov j j, covariance_self hj.aemeasurable]

end
end Verif
