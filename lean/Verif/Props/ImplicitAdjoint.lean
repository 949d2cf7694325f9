import Mathlib.Analysis.Calculus.FDeriv.Comp
import Mathlib.Analysis.Calculus.FDeriv.Prod
import Mathlib.Analysis.Calculus.FDeriv.Add
import Mathlib.Analysis.Calculus.FDeriv.Pow
import Mathlib.Analysis.Calculus.LineDeriv.Basic
import Mathlib.Analysis.Normed.Module.FiniteDimension
import Mathlib.Analysis.InnerProductSpace.PiL2
import Mathlib.Analysis.InnerProductSpace.Projection.Basic
import Mathlib.Analysis.InnerProductSpace.Projection.FiniteDimensional
import Verif.Model.ImplicitAdjoint
import Verif.Spec.ImplicitAdjoint
import Verif.Props.SteadyState

/-!
# C89: derivatives of steady states
-/

set_option linter.unusedSectionVars false

namespace Verif
open Filter Topology Asymptotics

section
variable {E : Type} [NormedAddCommGroup E] [InnerProductSpace ℝ E]

theorem Contracting.dist_le {f : E → E} {μ : ℝ} (h : Contracting f μ) (x x' : E) :
    μ * ‖x - x'‖ ≤ ‖f x - f x'‖ := by
  rcases eq_or_lt_of_le (norm_nonneg (x - x')) with h0 | h0
  · rw [← h0, mul_zero]; exact norm_nonneg _
  · have h1 := h.inward x x'
    have h2 := abs_le.1 (abs_real_inner_le_norm (f x - f x') (x - x'))
    have h3 : (μ * ‖x - x'‖) * ‖x - x'‖ ≤ ‖f x - f x'‖ * ‖x - x'‖ := by nlinarith [h2.1]
    exact le_of_mul_le_mul_right h3 h0

theorem Contracting.attracting {f : ℝ → E → E} {μ : ℝ} {z : E} (h : ∀ t, Contracting (f t) μ) (hz : ∀ t, f t z = 0) :
    Attracting f z μ where
  pos := (h 0).pos
  steady := hz
  inward := by
    intro t x
    have := (h t).inward x z
    rwa [hz t, sub_zero] at this

/-- The derivative expands by at least `μ`. -/
theorem Contracting.deriv_lower {f : E → E} {μ : ℝ} (h : Contracting f μ) {x : E} {A : E →L[ℝ] E}
    (hA : HasFDerivAt f A x) (v : E) : μ * ‖v‖ ≤ ‖A v‖ := by
  have h1 : Tendsto (fun t : ℝ => t⁻¹ • (f (x + t • v) - f x)) (𝓝[≠] 0) (𝓝 (A v)) :=
    (hA.hasLineDerivAt v).tendsto_slope_zero
  refine ge_of_tendsto h1.norm ?_
  filter_upwards [self_mem_nhdsWithin] with t ht
  have ht' : t ≠ 0 := ht
  have h2 := h.dist_le (x + t • v) x
  rw [add_sub_cancel_left, norm_smul] at h2
  rw [norm_smul, norm_inv]
  have h3 : 0 < ‖t‖ := norm_pos_iff.2 ht'
  rw [← div_eq_inv_mul, le_div_iff₀ h3]
  linarith

theorem Contracting.deriv_surjective [FiniteDimensional ℝ E] {f : E → E} {μ : ℝ} (h : Contracting f μ) {x : E}
    {A : E →L[ℝ] E} (hA : HasFDerivAt f A x) (b : E) : ∃ v, A v = b := by
  have hinj : Function.Injective (A : E →ₗ[ℝ] E) := by
    rw [injective_iff_map_eq_zero]
    intro v hv
    have h1 := h.deriv_lower hA v
    rw [show A v = 0 from hv, norm_zero] at h1
    have h2 : ‖v‖ ≤ 0 := by
      by_contra hpos
      have := mul_pos h.pos (not_le.1 hpos)
      linarith
    exact norm_le_zero_iff.1 h2
  exact LinearMap.injective_iff_surjective.1 hinj b

theorem LeastSquares.solves {lin : (E →L[ℝ] E) → E → E} (hlin : LeastSquares lin) {A : E →L[ℝ] E} {b : E}
    (h : ∃ v, A v = b) : A (lin A b) = b := by
  obtain ⟨v, hv⟩ := h
  have := hlin A b v
  rw [hv, sub_self, norm_zero] at this
  exact sub_eq_zero.1 (norm_le_zero_iff.1 this)

variable {Θ : Type} [NormedAddCommGroup Θ] [NormedSpace ℝ Θ]

/-- Steady states are differentiable in the parameters. -/
theorem steady_hasFDerivAt {F : Θ × E → E} {z : Θ → E} {μ : ℝ} (h : ∀ θ, Contracting (fun x => F (θ, x)) μ)
    (hz : ∀ θ, F (θ, z θ) = 0) {θ : Θ} {D : Θ × E →L[ℝ] E} (hD : HasFDerivAt F D (θ, z θ)) {Z : Θ →L[ℝ] E}
    (hZ : ∀ dθ, D (dθ, Z dθ) = 0) : HasFDerivAt z Z θ := by
  have hpath : HasFDerivAt (fun θ' => (θ', z θ + Z (θ' - θ))) ((ContinuousLinearMap.id ℝ Θ).prod Z) θ := by
    refine (hasFDerivAt_id θ).prodMk ?_
    have h1 : HasFDerivAt (fun θ' => Z (θ' - θ)) Z θ := by
      have h0 : HasFDerivAt (fun θ' : Θ => θ' - θ) (ContinuousLinearMap.id ℝ Θ) θ := (hasFDerivAt_id θ).sub_const θ
      exact (Z.hasFDerivAt (x := θ - θ)).comp (f := fun θ' : Θ => θ' - θ) θ h0
    exact h1.const_add _
  have hcomp : HasFDerivAt (fun θ' => F (θ', z θ + Z (θ' - θ))) (0 : Θ →L[ℝ] E) θ := by
    have hD' : HasFDerivAt F D ((fun θ' => (θ', z θ + Z (θ' - θ))) θ) := by simpa using hD
    have := hD'.comp θ hpath
    have h0 : D.comp ((ContinuousLinearMap.id ℝ Θ).prod Z) = 0 := by
      apply ContinuousLinearMap.ext
      intro dθ
      exact hZ dθ
    rw [h0] at this
    exact this
  rw [hasFDerivAt_iff_isLittleO] at hcomp ⊢
  have hsmall : (fun θ' => F (θ', z θ + Z (θ' - θ))) =o[𝓝 θ] fun θ' => θ' - θ := by
    refine hcomp.congr_left fun θ' => ?_
    simp [hz]
  have hμ := (h θ).pos
  refine IsBigO.trans_isLittleO (g := fun θ' => F (θ', z θ + Z (θ' - θ))) ?_ hsmall
  refine IsBigO.of_bound (1 / μ) (Eventually.of_forall fun θ' => ?_)
  have h1 := (h θ').dist_le (z θ') (z θ + Z (θ' - θ))
  simp only [hz, zero_sub, norm_neg] at h1
  rw [one_div, ← div_eq_inv_mul, le_div_iff₀ hμ]
  calc ‖z θ' - z θ - Z (θ' - θ)‖ * μ = μ * ‖z θ' - (z θ + Z (θ' - θ))‖ := by rw [mul_comm, sub_sub]
    _ ≤ _ := h1

/-- **C89.** The vector field depends on parameters, and is contracting; `z θ` is its steady state. Then the steady
state is differentiable. The derivative from `ImplicitAdjoint`, for a value `y` of the solver, is that of the steady
state, with an error that is proportional to the distance of `y` from the steady state. -/
theorem C89_derivative [FiniteDimensional ℝ E] {lin : (E →L[ℝ] E) → E → E} (hlin : LeastSquares lin)
    (f : Θ → ℝ → E → E) (t : ℝ) (z : Θ → E) (μ M : ℝ)
    (hcon : ∀ θ, Contracting (f θ t) μ) (hz : ∀ θ, f θ t (z θ) = 0)
    (hdiff : Differentiable ℝ fun p : Θ × E => f p.1 t p.2) (θ : Θ) (y : E)
    (hM : ‖fderiv ℝ (fun p : Θ × E => f p.1 t p.2) (θ, y) - fderiv ℝ (fun p : Θ × E => f p.1 t p.2) (θ, z θ)‖
      ≤ M * ‖y - z θ‖) :
    ∃ Z : Θ →L[ℝ] E, HasFDerivAt z Z θ ∧
      ∀ dθ, ‖implicitJvp lin (fun θ => odeFunc (f θ)) t θ y dθ - Z dθ‖
        ≤ M / μ * (1 + ‖Z‖) * ‖y - z θ‖ * ‖dθ‖ := by
  set F : Θ × E → E := fun p => f p.1 t p.2 with hF
  have hμ := (hcon θ).pos
  have hy : ∀ x, HasFDerivAt (f θ t) ((fderiv ℝ F (θ, x)).comp (ContinuousLinearMap.inr ℝ Θ E)) x := by
    intro x
    have h1 : HasFDerivAt (fun x : E => (θ, x)) (ContinuousLinearMap.inr ℝ Θ E) x := hasFDerivAt_prodMk_right θ x
    exact (hdiff (θ, x)).hasFDerivAt.comp x h1
  have hθ : ∀ x, HasFDerivAt (fun θ => f θ t x) ((fderiv ℝ F (θ, x)).comp (ContinuousLinearMap.inl ℝ Θ E)) θ := by
    intro x
    have h1 : HasFDerivAt (fun θ : Θ => (θ, x)) (ContinuousLinearMap.inl ℝ Θ E) θ := hasFDerivAt_prodMk_left θ x
    exact HasFDerivAt.comp θ (f := fun θ => (θ, x)) (hdiff (θ, x)).hasFDerivAt h1
  -- the operator at the steady state
  set A := (fderiv ℝ F (θ, z θ)).comp (ContinuousLinearMap.inr ℝ Θ E) with hA
  have hAinj : Function.Injective (A : E →ₗ[ℝ] E) := by
    rw [injective_iff_map_eq_zero]
    intro v hv
    have h1 := (hcon θ).deriv_lower (hy (z θ)) v
    rw [show A v = 0 from hv, norm_zero] at h1
    have h2 : ‖v‖ ≤ 0 := by
      by_contra hpos
      have := mul_pos hμ (not_le.1 hpos)
      linarith
    exact norm_le_zero_iff.1 h2
  let Ae : E ≃L[ℝ] E := (LinearEquiv.ofInjectiveEndo (A : E →ₗ[ℝ] E) hAinj).toContinuousLinearEquiv
  have hAe : ∀ v, A (Ae.symm v) = v := fun v => Ae.apply_symm_apply v
  let Z : Θ →L[ℝ] E := -((Ae.symm : E →L[ℝ] E).comp ((fderiv ℝ F (θ, z θ)).comp (ContinuousLinearMap.inl ℝ Θ E)))
  have hAZ : ∀ dθ, A (Z dθ) = -(fderiv ℝ F (θ, z θ) (dθ, 0)) := by
    intro dθ
    show A (-(Ae.symm (fderiv ℝ F (θ, z θ) (dθ, 0)))) = _
    rw [map_neg, hAe]
  refine ⟨Z, steady_hasFDerivAt (F := F) hcon hz (hdiff (θ, z θ)).hasFDerivAt (fun dθ => ?_), fun dθ => ?_⟩
  · have h1 : (dθ, Z dθ) = (dθ, (0 : E)) + ((0 : Θ), Z dθ) := by simp
    rw [h1, map_add]
    have h2 : fderiv ℝ F (θ, z θ) ((0 : Θ), Z dθ) = A (Z dθ) := rfl
    rw [h2, hAZ, add_neg_cancel]
  · -- the computed derivative solves the linear system at `y`
    set B := (fderiv ℝ F (θ, y)).comp (ContinuousLinearMap.inr ℝ Θ E) with hB
    set g := implicitJvp lin (fun θ => odeFunc (f θ)) t θ y dθ with hg
    have hBg : B g = -(fderiv ℝ F (θ, y) (dθ, 0)) := by
      have e1 : fderiv ℝ (fun y => implicitVf (fun θ => odeFunc (f θ)) t θ y) y = B := (hy y).fderiv
      have e2 : fderiv ℝ (fun θ => implicitVf (fun θ => odeFunc (f θ)) t θ y) θ
          = (fderiv ℝ F (θ, y)).comp (ContinuousLinearMap.inl ℝ Θ E) := (hθ y).fderiv
      rw [hg, implicitJvp, e1, e2]
      exact hlin.solves ((hcon θ).deriv_surjective (hy y) _)
    have hlow := (hcon θ).deriv_lower (hy y) (g - Z dθ)
    have hdiffe : B (g - Z dθ) = -((fderiv ℝ F (θ, y) - fderiv ℝ F (θ, z θ)) (dθ, Z dθ)) := by
      have h1 : B (Z dθ) = fderiv ℝ F (θ, y) ((0 : Θ), Z dθ) := rfl
      have h2 : A (Z dθ) = fderiv ℝ F (θ, z θ) ((0 : Θ), Z dθ) := rfl
      have h3 := hAZ dθ
      rw [h2] at h3
      have h4 : (dθ, Z dθ) = (dθ, (0 : E)) + ((0 : Θ), Z dθ) := by simp
      rw [map_sub, hBg, h1, h4, ContinuousLinearMap.sub_apply, map_add, map_add, h3]
      abel
    have hnorm : ‖(dθ, Z dθ)‖ ≤ (1 + ‖Z‖) * ‖dθ‖ := by
      rw [Prod.norm_def]
      have h1 := Z.le_opNorm dθ
      have h2 := norm_nonneg dθ
      have h3 : 0 ≤ ‖Z‖ * ‖dθ‖ := by positivity
      refine max_le ?_ ?_
      · show ‖dθ‖ ≤ _
        linarith
      · show ‖Z dθ‖ ≤ _
        linarith
    have hup : ‖B (g - Z dθ)‖ ≤ M * ‖y - z θ‖ * ((1 + ‖Z‖) * ‖dθ‖) := by
      rw [hdiffe, norm_neg]
      refine ((fderiv ℝ F (θ, y) - fderiv ℝ F (θ, z θ)).le_opNorm _).trans ?_
      exact mul_le_mul hM hnorm (norm_nonneg _) ((ContinuousLinearMap.opNorm_nonneg _).trans hM)
    have hfin : μ * ‖g - Z dθ‖ ≤ M * ‖y - z θ‖ * ((1 + ‖Z‖) * ‖dθ‖) := hlow.trans hup
    rw [show M / μ * (1 + ‖Z‖) * ‖y - z θ‖ * ‖dθ‖ = (M * ‖y - z θ‖ * ((1 + ‖Z‖) * ‖dθ‖)) / μ by ring,
      le_div_iff₀ hμ]
    linarith

/-- **C89, with `steady_state_event`.** When a solve reports the event, the derivative from `ImplicitAdjoint` has an
error proportional to the tolerances of the event. -/
theorem C89_solve [FiniteDimensional ℝ E] {lin : (E →L[ℝ] E) → E → E} (hlin : LeastSquares lin)
    {Er D S C O F : Type} [LinearOrder F] [Zero F] (cfg : Cfg ℝ E Er D S C O F)
    (hown : cfg.OwnCodes) (a : SteadyArgs ℝ) (ctrl' : Option (AdaptiveTols ℝ)) (f : Θ → ℝ → E → E) (θ : Θ)
    (leaves : E → List ℝ) (cond : ℝ → E → Bool)
    (hc : steadyStateEvent a ctrl' (odeFunc (f θ)) leaves leaves = some cond)
    (hev : cfg.events = [.bool cond]) (hroot : cfg.rootFinder = none)
    (rtol atol c : ℝ) (norm : List ℝ → ℝ) (hrtol : a.rtol = some rtol) (hatol : a.atol = some atol)
    (hnorm : a.norm = some norm) (hpos : 0 < c) (hscale : ∀ x, norm (leaves x) = c * ‖x‖)
    (z : Θ → E) (μ M : ℝ) (hM : 0 ≤ M) (hcon : ∀ θ t, Contracting (f θ t) μ) (hz : ∀ θ t, f θ t (z θ) = 0)
    (hdiff : ∀ t, Differentiable ℝ fun p : Θ × E => f p.1 t p.2)
    (hlip : ∀ t x, ‖fderiv ℝ (fun p : Θ × E => f p.1 t p.2) (θ, x)
      - fderiv ℝ (fun p : Θ × E => f p.1 t p.2) (θ, z θ)‖ ≤ M * ‖x - z θ‖)
    (y0 : E) (tnext : ℝ) (ctrl : C) (ss : S) (mj : Bool)
    (hocc : (solve cfg y0 tnext ctrl ss mj).result = .eventOccurred) :
    ∃ Z : Θ →L[ℝ] E, HasFDerivAt z Z θ ∧
      ∀ dθ, ‖implicitJvp lin (fun θ => odeFunc (f θ)) (solve cfg y0 tnext ctrl ss mj).tfinal θ
          (solve cfg y0 tnext ctrl ss mj).yfinal dθ - Z dθ‖
        ≤ M / μ * (1 + ‖Z‖) * ((atol / c + rtol * ‖(solve cfg y0 tnext ctrl ss mj).yfinal‖) / μ) * ‖dθ‖ := by
  have hacc := C88_accurate cfg hown a ctrl' (f θ) leaves cond hc hev hroot rtol atol c norm hrtol hatol hnorm hpos
    hscale (z θ) μ (Contracting.attracting (hcon θ) (hz θ)) y0 tnext ctrl ss mj hocc
  obtain ⟨Z, hZ, hbound⟩ := C89_derivative hlin f (solve cfg y0 tnext ctrl ss mj).tfinal z μ M
    (fun θ => hcon θ _) (fun θ => hz θ _) (hdiff _) θ (solve cfg y0 tnext ctrl ss mj).yfinal (hlip _ _)
  have hμ := (hcon θ 0).pos
  refine ⟨Z, hZ, fun dθ => (hbound dθ).trans ?_⟩
  gcongr

end

/-! ### Several terms -/

/-- The equation `y' = θ - y`, with one term for each part. Its steady state is `θ`. -/
def balancedParam (θ : ℝ) : Fin 2 → ℝ → ℝ → ℝ := ![fun _ _ => θ, fun _ y => -y]

/-- `func` for these terms, with the Euclidean norm for tuples. -/
noncomputable def balancedFunc (θ : ℝ) (t y : ℝ) : EuclideanSpace ℝ (Fin 2) :=
  WithLp.toLp 2 (multiFunc (balancedParam θ) t y)

/-- **C89 is violated by implicit-explicit methods.** For `y' = θ - y`, written as a `MultiTerm` of `θ` and `-y`, the
derivative of the steady state is `1`, and `ImplicitAdjoint` gives `0`, even at the steady state itself. (This is with
the default `linear_solver`, which gives least-squares solutions of the overdetermined system.) -/
theorem C89_violated_imex {lin : (ℝ →L[ℝ] EuclideanSpace ℝ (Fin 2)) → EuclideanSpace ℝ (Fin 2) → ℝ}
    (hlin : LeastSquares lin) (t θ y : ℝ) :
    (∀ θ, ∑ p, balancedParam θ p t θ = 0) ∧ (∀ θ, Contracting (fun y => ∑ p, balancedParam θ p t y) 1) ∧
    HasDerivAt (fun θ : ℝ => θ) 1 θ ∧ implicitJvp lin balancedFunc t θ y 1 = 0 := by
  refine ⟨fun θ => by simp [balancedParam], fun θ => ⟨one_pos, fun x x' => ?_⟩, hasDerivAt_id θ, ?_⟩
  · have : (∑ p, balancedParam θ p t x) - (∑ p, balancedParam θ p t x') = -(x - x') := by
      simp [balancedParam]; ring
    rw [this, inner_neg_left, real_inner_self_eq_norm_sq, one_mul]
  · have h1 : HasFDerivAt (fun y => implicitVf balancedFunc t θ y)
        (ContinuousLinearMap.toSpanSingleton ℝ (WithLp.toLp 2 ![0, -1] : EuclideanSpace ℝ (Fin 2))) y := by
      have h0 : (fun y => implicitVf balancedFunc t θ y) = fun y =>
          (WithLp.toLp 2 ![θ, 0] : EuclideanSpace ℝ (Fin 2))
            + ContinuousLinearMap.toSpanSingleton ℝ (WithLp.toLp 2 ![0, -1] : EuclideanSpace ℝ (Fin 2)) y := by
        funext y
        ext i
        fin_cases i <;> simp [implicitVf, balancedFunc, multiFunc, balancedParam]
      rw [h0]
      exact (ContinuousLinearMap.hasFDerivAt _).const_add _
    have h2 : HasFDerivAt (fun θ => implicitVf balancedFunc t θ y)
        (ContinuousLinearMap.toSpanSingleton ℝ (WithLp.toLp 2 ![1, 0] : EuclideanSpace ℝ (Fin 2))) θ := by
      have h0 : (fun θ => implicitVf balancedFunc t θ y) = fun θ =>
          (WithLp.toLp 2 ![0, -y] : EuclideanSpace ℝ (Fin 2))
            + ContinuousLinearMap.toSpanSingleton ℝ (WithLp.toLp 2 ![1, 0] : EuclideanSpace ℝ (Fin 2)) θ := by
        funext θ
        ext i
        fin_cases i <;> simp [implicitVf, balancedFunc, multiFunc, balancedParam]
      rw [h0]
      exact (ContinuousLinearMap.hasFDerivAt _).const_add _
    unfold implicitJvp
    rw [h1.fderiv, h2.fderiv]
    set x := lin (ContinuousLinearMap.toSpanSingleton ℝ (WithLp.toLp 2 ![0, -1] : EuclideanSpace ℝ (Fin 2)))
      (-(ContinuousLinearMap.toSpanSingleton ℝ (WithLp.toLp 2 ![1, 0] : EuclideanSpace ℝ (Fin 2)) 1)) with hx
    have h3 := hlin (ContinuousLinearMap.toSpanSingleton ℝ (WithLp.toLp 2 ![0, -1] : EuclideanSpace ℝ (Fin 2)))
      (-(ContinuousLinearMap.toSpanSingleton ℝ (WithLp.toLp 2 ![1, 0] : EuclideanSpace ℝ (Fin 2)) 1)) 0
    rw [← hx] at h3
    have h4 := pow_le_pow_left₀ (norm_nonneg _) h3 2
    rw [EuclideanSpace.real_norm_sq_eq, EuclideanSpace.real_norm_sq_eq] at h4
    simp at h4
    exact h4

/-! ### Examples -/

/-- There are linear solvers that return least-squares solutions. -/
theorem exists_leastSquares (E V : Type) [NormedAddCommGroup E] [NormedSpace ℝ E] [FiniteDimensional ℝ E]
    [NormedAddCommGroup V] [InnerProductSpace ℝ V] : ∃ lin : (E →L[ℝ] V) → V → E, LeastSquares lin := by
  have h : ∀ (A : E →L[ℝ] V) (b : V), ∃ x, ∀ x', ‖A x - b‖ ≤ ‖A x' - b‖ := by
    intro A b
    let U : Submodule ℝ V := LinearMap.range (A : E →ₗ[ℝ] V)
    obtain ⟨x, hx⟩ : U.starProjection b ∈ LinearMap.range (A : E →ₗ[ℝ] V) := U.starProjection_apply_mem b
    refine ⟨x, fun x' => ?_⟩
    have hmin := U.starProjection_minimal b
    have h1 : A x = U.starProjection b := hx
    rw [h1, norm_sub_rev, norm_sub_rev (A x'), hmin]
    exact ciInf_le ⟨0, by rintro _ ⟨w, rfl⟩; exact norm_nonneg _⟩ (⟨A x', LinearMap.mem_range_self _ x'⟩ : U)
  exact ⟨fun A b => (h A b).choose, fun A b x => (h A b).choose_spec x⟩

/-- The steady state of `y' = θ^2 - y`, at which the derivative from `ImplicitAdjoint` is right. -/
example (θ y : ℝ) : ∃ lin : (ℝ →L[ℝ] ℝ) → ℝ → ℝ, LeastSquares lin ∧ ∃ Z : ℝ →L[ℝ] ℝ,
    HasFDerivAt (fun θ : ℝ => θ ^ 2) Z θ ∧
    ∀ dθ, implicitJvp lin (fun θ => odeFunc fun _ y => θ ^ 2 - y) 0 θ y dθ = Z dθ := by
  obtain ⟨lin, hlin⟩ := exists_leastSquares ℝ ℝ
  have hd : ∀ p : ℝ × ℝ, HasFDerivAt (fun p : ℝ × ℝ => p.1 ^ 2 - p.2)
      ((2 * p.1) • ContinuousLinearMap.fst ℝ ℝ ℝ - ContinuousLinearMap.snd ℝ ℝ ℝ) p := by
    intro p
    have h1 := HasFDerivAt.pow (hasFDerivAt_fst (𝕜 := ℝ) (p := p)) 2
    have h2 := h1.sub (hasFDerivAt_snd (𝕜 := ℝ) (p := p))
    refine h2.congr_fderiv ?_
    simp
  obtain ⟨Z, hZ, h⟩ := C89_derivative hlin (fun θ _ y => θ ^ 2 - y) 0 (fun θ => θ ^ 2) 1 0
    (fun θ => ⟨one_pos, fun x x' => by
      rw [show θ ^ 2 - x - (θ ^ 2 - x') = -(x - x') by ring, inner_neg_left, real_inner_self_eq_norm_sq, one_mul]⟩)
    (fun θ => sub_self _) (fun p => (hd p).differentiableAt) θ y (by
      rw [(hd _).fderiv, (hd _).fderiv]; simp)
  refine ⟨lin, hlin, Z, hZ, fun dθ => ?_⟩
  have := h dθ
  simp only [zero_div, zero_mul] at this
  exact sub_eq_zero.1 (norm_le_zero_iff.1 this)

/-- The hypothesis of `C89_violated_imex` can be met. -/
example : ∃ lin : (ℝ →L[ℝ] EuclideanSpace ℝ (Fin 2)) → EuclideanSpace ℝ (Fin 2) → ℝ, LeastSquares lin :=
  exists_leastSquares ℝ _

end Verif
