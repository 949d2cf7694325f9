import Verif.Lemmas.LocalConvergence
import Verif.Spec.SolveDerivative
import Verif.Spec.ConvergenceNear
import Mathlib.Analysis.Calculus.FDeriv.Symmetric
import Mathlib.Analysis.Calculus.FDeriv.Analytic

/-!
# Differentiating a Runge-Kutta method gives the same method for the variational equation
-/

set_option linter.unusedSectionVars false

namespace Verif
open Finset Filter Topology
open scoped ContDiff

section
variable {m : ℕ} {E J J' : Type} [NormedAddCommGroup E] [NormedSpace ℝ E] [Module ℚ E]
  (tab : Fin m → Tableau ℚ) (g : Fin m → ℝ × ℝ × E → E) (cj cj' : CalcJac) (rF rK : RootFinder E J) (nj : J)
  (rF' rK' : RootFinder (E × E) J') (nj' : J') {s : ℕ} {c : ℕ → ℚ} (θ : ℝ)

theorem exK_jvp (hok : methodOK s c tab = true) (hex : ∀ p, (tab p).implicit = false)
    (hg : ∀ p, Differentiable ℝ (g p)) (t h : ℝ) (x : ℝ → E) (v : E) (hx : HasDerivAt x v θ) :
    ∀ i < s, ∀ p, (exK tab (varField g θ) cj' rF' rK' nj' t h (x θ, v) p i).1
        = exK tab (fieldAt g θ) cj rF rK nj t h (x θ) p i ∧
      HasDerivAt (fun θ' => exK tab (fieldAt g θ') cj rF rK nj t h (x θ') p i)
        (exK tab (varField g θ) cj' rF' rK' nj' t h (x θ, v) p i).2 θ := by
  intro i
  induction i using Nat.strong_induction_on with
  | _ i ih =>
    intro hi p
    have ih' := fun j hj => ih j (mem_range.1 hj) ((mem_range.1 hj).trans hi)
    have e1 : (exPoint tab (varField g θ) cj' rF' rK' nj' t h (x θ, v) p i).2.1
        = (exPoint tab (fieldAt g θ) cj rF rK nj t h (x θ) p i).2 := by
      simp only [exPoint, Prod.fst_add, Prod.fst_sum, Prod.smul_fst]
      congr 1
      exact sum_congr rfl fun q _ => sum_congr rfl fun j hj => by rw [(ih' j hj q).1]
    have hd : HasDerivAt (fun θ' => (exPoint tab (fieldAt g θ') cj rF rK nj t h (x θ') p i).2)
        (exPoint tab (varField g θ) cj' rF' rK' nj' t h (x θ, v) p i).2.2 θ := by
      simp only [exPoint, Prod.snd_add, Prod.snd_sum, Prod.smul_snd]
      exact hx.fun_add (HasDerivAt.fun_sum fun q _ => HasDerivAt.fun_sum fun j hj =>
        ((ih' j hj q).2.const_smul ((tab q).a i j : ℝ)))
    have e0 : ∀ θ', exK tab (fieldAt g θ') cj rF rK nj t h (x θ') p i = h • g p (θ', t + ((tab p).abscissa i : ℝ) * h,
        (exPoint tab (fieldAt g θ') cj rF rK nj t h (x θ') p i).2) := fun θ' =>
      exK_eq tab (fieldAt g θ') cj rF rK nj hok hex t h (x θ') i hi p
    have e2 : exK tab (varField g θ) cj' rF' rK' nj' t h (x θ, v) p i = h • (g p (θ, t + ((tab p).abscissa i : ℝ) * h,
        (exPoint tab (fieldAt g θ) cj rF rK nj t h (x θ) p i).2),
        fderiv ℝ (g p) (θ, t + ((tab p).abscissa i : ℝ) * h, (exPoint tab (fieldAt g θ) cj rF rK nj t h (x θ) p i).2)
          (1, 0, (exPoint tab (varField g θ) cj' rF' rK' nj' t h (x θ, v) p i).2.2)) := by
      rw [exK_eq tab (varField g θ) cj' rF' rK' nj' hok hex t h (x θ, v) i hi p, ← e1]
      rfl
    refine ⟨?_, ?_⟩
    · rw [e2, e0 θ]; rfl
    · rw [e2]
      have hfun : (fun θ' => exK tab (fieldAt g θ') cj rF rK nj t h (x θ') p i) = fun θ' => h • g p (θ',
          t + ((tab p).abscissa i : ℝ) * h, (exPoint tab (fieldAt g θ') cj rF rK nj t h (x θ') p i).2) := funext e0
      rw [hfun]
      have hcurve : HasDerivAt (fun θ' => (θ', t + ((tab p).abscissa i : ℝ) * h,
          (exPoint tab (fieldAt g θ') cj rF rK nj t h (x θ') p i).2)) ((1 : ℝ), (0 : ℝ),
          (exPoint tab (varField g θ) cj' rF' rK' nj' t h (x θ, v) p i).2.2) θ :=
        (hasDerivAt_id θ).prodMk ((hasDerivAt_const θ _).prodMk hd)
      exact (((hg p _).hasFDerivAt.comp_hasDerivAt θ hcurve).const_smul h)

theorem step_jvp (hok : methodOK s c tab = true) (hex : ∀ p, (tab p).implicit = false)
    (hg : ∀ p, Differentiable ℝ (g p)) (t t' : ℝ) (x : ℝ → E) (v : E) (hx : HasDerivAt x v θ) :
    (((odeRK tab (varField g θ) cj' rF' rK' nj').step t t' (x θ, v)
        (odeRK tab (varField g θ) cj' rF' rK' nj').init false).y).1
      = ((odeRK tab (fieldAt g θ) cj rF rK nj).step t t' (x θ) (odeRK tab (fieldAt g θ) cj rF rK nj).init false).y ∧
    HasDerivAt (fun θ' => ((odeRK tab (fieldAt g θ') cj rF rK nj).step t t' (x θ')
        (odeRK tab (fieldAt g θ') cj rF rK nj).init false).y)
      (((odeRK tab (varField g θ) cj' rF' rK' nj').step t t' (x θ, v)
        (odeRK tab (varField g θ) cj' rF' rK' nj').init false).y).2 θ := by
  have e : t' = t + (t' - t) := by ring
  rw [e]
  have hj := exK_jvp tab g cj cj' rF rK nj rF' rK' nj' θ hok hex hg t (t' - t) x v hx
  have e1 := (explicit_step tab (varField g θ) cj' rF' rK' nj' hok hex t (t' - t) (x θ, v) _ false
    (validState_init tab (varField g θ) cj' rF' rK' nj' _ _ _)).1
  have e2 := fun θ' => (explicit_step tab (fieldAt g θ') cj rF rK nj hok hex t (t' - t) (x θ') _ false
    (validState_init tab (fieldAt g θ') cj rF rK nj _ _ _)).1
  rw [e1]
  refine ⟨?_, ?_⟩
  · rw [e2 θ]
    simp only [Prod.fst_add, Prod.fst_sum, Prod.smul_fst]
    congr 1
    exact sum_congr rfl fun p _ => sum_congr rfl fun i hi => by rw [(hj i (mem_range.1 hi) p).1]
  · rw [funext e2]
    simp only [Prod.snd_add, Prod.snd_sum, Prod.smul_snd]
    exact hx.fun_add (HasDerivAt.fun_sum fun p _ => HasDerivAt.fun_sum fun i hi =>
      ((hj i (mem_range.1 hi) p).2.const_smul ((tab p).bSol.getD i 0 : ℝ)))

/-- The derivative of the value along given steps is the value of the variational equation along them. -/
theorem valueAlong_jvp (hok : methodOK s c tab = true) (hex : ∀ p, (tab p).implicit = false)
    (hg : ∀ p, Differentiable ℝ (g p)) (steps : List (ℝ × ℝ)) : ∀ (x : ℝ → E) (v : E), HasDerivAt x v θ →
    (valueAlong (odeRK tab (varField g θ) cj' rF' rK' nj') steps (x θ, v)).1
      = valueAlong (odeRK tab (fieldAt g θ) cj rF rK nj) steps (x θ) ∧
    HasDerivAt (fun θ' => valueAlong (odeRK tab (fieldAt g θ') cj rF rK nj) steps (x θ'))
      (valueAlong (odeRK tab (varField g θ) cj' rF' rK' nj') steps (x θ, v)).2 θ := by
  induction steps with
  | nil => intro x v hx; exact ⟨rfl, hx⟩
  | cons p steps ih =>
    intro x v hx
    obtain ⟨h1, h2⟩ := step_jvp tab g cj cj' rF rK nj rF' rK' nj' θ hok hex hg p.1 p.2 x v hx
    have hih := ih _ _ h2
    have e : (((odeRK tab (fieldAt g θ) cj rF rK nj).step p.1 p.2 (x θ)
          (odeRK tab (fieldAt g θ) cj rF rK nj).init false).y,
        (((odeRK tab (varField g θ) cj' rF' rK' nj').step p.1 p.2 (x θ, v)
          (odeRK tab (varField g θ) cj' rF' rK' nj').init false).y).2)
        = ((odeRK tab (varField g θ) cj' rF' rK' nj').step p.1 p.2 (x θ, v)
          (odeRK tab (varField g θ) cj' rF' rK' nj').init false).y := Prod.ext h1.symm rfl
    rw [e] at hih
    exact hih
end

section
variable {m : ℕ} {E : Type} [NormedAddCommGroup E] [NormedSpace ℝ E] {g : Fin m → ℝ × ℝ × E → E} {Y : ℝ → ℝ → E}
  {θ a b : ℝ}

theorem varField_analytic [CompleteSpace E] (hg : ∀ p, AnalyticOnNhd ℝ (g p) Set.univ) (p : Fin m) :
    AnalyticOnNhd ℝ (fun x : ℝ × E × E => varField g θ p x.1 x.2) Set.univ := by
  intro x _
  have hin : AnalyticAt ℝ (fun x : ℝ × E × E => ((θ, x.1, x.2.1) : ℝ × ℝ × E)) x :=
    analyticAt_const.prod (analyticAt_fst.prod (AnalyticAt.fun_comp analyticAt_fst analyticAt_snd))
  have h1 : AnalyticAt ℝ (fun x : ℝ × E × E => g p (θ, x.1, x.2.1)) x :=
    AnalyticAt.fun_comp (g := g p) (hg p _ trivial) hin
  have h2 : AnalyticAt ℝ (fun x : ℝ × E × E => fderiv ℝ (g p) (θ, x.1, x.2.1)) x :=
    AnalyticAt.fun_comp (g := fderiv ℝ (g p)) ((hg p).fderiv _ trivial) hin
  have h3 : AnalyticAt ℝ (fun x : ℝ × E × E => ((1, 0, x.2.2) : ℝ × ℝ × E)) x :=
    analyticAt_const.prod (analyticAt_const.prod (AnalyticAt.fun_comp analyticAt_snd analyticAt_snd))
  have h4 : AnalyticAt ℝ (fun x : ℝ × E × E => fderiv ℝ (g p) (θ, x.1, x.2.1) (1, 0, x.2.2)) x :=
    AnalyticAt.fun_comp (g := fun z : ((ℝ × ℝ × E) →L[ℝ] E) × (ℝ × ℝ × E) => z.1 z.2)
      ((ContinuousLinearMap.id ℝ ((ℝ × ℝ × E) →L[ℝ] E)).analyticAt_bilinear _) (h2.prod h3)
  exact h1.prod h4

section
variable {Z : ℝ × ℝ → E} {t : ℝ}

theorem hasDerivAt_left {q r : ℝ} (hd : DifferentiableAt ℝ Z (q, r)) :
    HasDerivAt (fun q' => Z (q', r)) (fderiv ℝ Z (q, r) (1, 0)) q :=
  hd.hasFDerivAt.comp_hasDerivAt q ((hasDerivAt_id q).prodMk (hasDerivAt_const q r))

theorem hasDerivAt_right {q r : ℝ} (hd : DifferentiableAt ℝ Z (q, r)) :
    HasDerivAt (fun r' => Z (q, r')) (fderiv ℝ Z (q, r) (0, 1)) r :=
  hd.hasFDerivAt.comp_hasDerivAt r ((hasDerivAt_const r q).prodMk (hasDerivAt_id r))

/-- The derivative in time of the derivative in the parameter is the derivative in the parameter of the derivative in
time. -/
theorem mixed_derivative (hC : ContDiffAt ℝ 2 Z (θ, t)) {G : ℝ → E} {G' : E}
    (hG : ∀ᶠ q in 𝓝 θ, HasDerivAt (fun r => Z (q, r)) (G q) t) (hG' : HasDerivAt G G' θ) :
    HasDerivAt (fun r => deriv (fun q => Z (q, r)) θ) G' t := by
  have hZd : ∀ x, ContDiffAt ℝ 2 Z x → DifferentiableAt ℝ Z x := fun x hx => hx.differentiableAt (by norm_num)
  have hnear : ∀ᶠ r in 𝓝 t, ContDiffAt ℝ 2 Z (θ, r) := by
    have hc : ContinuousAt (fun r : ℝ => (θ, r)) t := by fun_prop
    exact hc.eventually (hC.eventually (by simp))
  have hnear' : ∀ᶠ q in 𝓝 θ, ContDiffAt ℝ 2 Z (q, t) := by
    have hc : ContinuousAt (fun q : ℝ => (q, t)) θ := by fun_prop
    exact hc.eventually (hC.eventually (by simp))
  have hD2 : DifferentiableAt ℝ (fderiv ℝ Z) (θ, t) :=
    (hC.fderiv_right (m := 1) (by norm_num)).differentiableAt (by norm_num)
  have h1 : HasDerivAt (fun r => fderiv ℝ Z (θ, r) (1, 0)) (fderiv ℝ (fderiv ℝ Z) (θ, t) (0, 1) (1, 0)) t := by
    have h2 := (hasDerivAt_right hD2).clm_apply (hasDerivAt_const t ((1 : ℝ), (0 : ℝ)))
    simpa only [map_zero, add_zero] using h2
  have h2 : HasDerivAt (fun q => fderiv ℝ Z (q, t) (0, 1)) (fderiv ℝ (fderiv ℝ Z) (θ, t) (1, 0) (0, 1)) θ := by
    have h2 := (hasDerivAt_left hD2).clm_apply (hasDerivAt_const θ ((0 : ℝ), (1 : ℝ)))
    simpa only [map_zero, add_zero] using h2
  have h4 : (fun q => fderiv ℝ Z (q, t) (0, 1)) =ᶠ[𝓝 θ] G := by
    filter_upwards [hnear', hG] with q hq hq'
    exact (hasDerivAt_right (hZd _ hq)).unique hq'
  have h5 := h2.unique (hG'.congr_of_eventuallyEq h4)
  have hsymm : fderiv ℝ (fderiv ℝ Z) (θ, t) (0, 1) (1, 0) = fderiv ℝ (fderiv ℝ Z) (θ, t) (1, 0) (0, 1) :=
    hC.isSymmSndFDerivAt (by simp) (0, 1) (1, 0)
  rw [hsymm, h5] at h1
  refine h1.congr_of_eventuallyEq ?_
  filter_upwards [hnear] with r hr
  exact (hasDerivAt_left (hZd _ hr)).deriv
end

/-- The derivative of a family of solutions solves the variational equation. -/
theorem SolutionFamily.near [CompleteSpace E] (hs : SolutionFamily g Y θ a b) :
    SolutionNear (varField g θ) Set.univ (fun t => (Y θ t, deriv (fun θ' => Y θ' t) θ)) a b := by
  obtain ⟨hg, hab, a', ha, b', hb, hY⟩ := hs
  refine ⟨isOpen_univ, varField_analytic hg, hab, a', ha, b', hb, fun t ht => ⟨trivial, ?_⟩⟩
  obtain ⟨hC, hsol⟩ := hY t ht
  have hw : HasDerivAt (fun q => Y q t) (deriv (fun q => Y q t) θ) θ := by
    have := hasDerivAt_left (hC.differentiableAt (by norm_num))
    rw [this.deriv]; exact this
  have h3 : HasDerivAt (fun q => ∑ p, g p (q, t, Y q t))
      (∑ p, fderiv ℝ (g p) (θ, t, Y θ t) (1, 0, deriv (fun q => Y q t) θ)) θ := by
    apply HasDerivAt.fun_sum
    intro p _
    have hc : HasDerivAt (fun q : ℝ => (q, t, Y q t)) ((1 : ℝ), (0 : ℝ), deriv (fun q => Y q t) θ) θ :=
      (hasDerivAt_id θ).prodMk ((hasDerivAt_const θ t).prodMk hw)
    exact (hg p _ trivial).differentiableAt.hasFDerivAt.comp_hasDerivAt θ hc
  have h1 := mixed_derivative hC (G := fun q => ∑ p, g p (q, t, Y q t)) hsol h3
  refine (hsol.self_of_nhds.prodMk h1).congr_deriv ?_
  apply Prod.ext
  · simp [varField, Prod.fst_sum]
  · simp [varField, Prod.snd_sum]
end

end Verif
