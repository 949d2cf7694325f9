import Verif.Lemmas.RKNear
import Verif.Spec.InexactRoot
import Verif.Props.Convergence

/-!
# C86: implicit methods whose equations are only solved up to a tolerance
-/

set_option linter.unusedSectionVars false
set_option maxRecDepth 100000

namespace Verif
open Finset Filter Topology Tab

section
variable {m : ℕ} {E J : Type} [NormedAddCommGroup E] [NormedSpace ℝ E] [Module ℚ E]
  (tab : Fin m → Tableau ℚ) (f : Fin m → ℝ → E → E)

/-- Stages that satisfy their equations up to `e`, compared with ones that satisfy them at another value. -/
theorem stages_near_exact {s : ℕ} {L : ℝ} (hL0 : 0 ≤ L)
    (hL : ∀ p t x x', ‖f p t x - f p t x'‖ ≤ L * ‖x - x'‖)
    (t h : ℝ) (hh : |h| * (L * m * s) * coefSum s tab ≤ 1 / 2) (x x' : E) (k k' : Fin m → ℕ → E) (e : ℝ)
    (hk : ∀ i < s, ∀ p, ‖k p i - stageMap tab f t h x k p i‖ ≤ e)
    (hk' : ∀ i < s, ∀ p, k' p i = stageMap tab f t h x' k' p i) :
    stageNorm s (k - k') ≤ 2 * (m * s * e) + 2 * (|h| * (L * m * s)) * ‖x - x'‖ := by
  have h1 : stageNorm s (k - k') ≤ m * s * e
      + stageNorm s (stageMap tab f t h x k - stageMap tab f t h x' k') := by
    have e1 : (m : ℝ) * s * e = ∑ p : Fin m, ∑ i ∈ range s, e := by
      simp [sum_const, card_range]; ring
    rw [e1]
    unfold stageNorm
    rw [← sum_add_distrib]
    refine sum_le_sum fun p _ => ?_
    rw [← sum_add_distrib]
    refine sum_le_sum fun i hi => ?_
    have e2 : (k - k') p i = (k p i - stageMap tab f t h x k p i)
        + (stageMap tab f t h x k - stageMap tab f t h x' k') p i := by
      simp only [Pi.sub_apply]
      rw [← hk' i (mem_range.1 hi) p]
      abel
    rw [e2]
    exact (norm_add_le _ _).trans (add_le_add_left (hk i (mem_range.1 hi) p) _)
  have h2 := stageMap_lip tab f (s := s) hL0 hL t h x x' k k'
  have h3 : |h| * (L * m * s) * coefSum s tab * stageNorm s (k - k') ≤ 1 / 2 * stageNorm s (k - k') :=
    mul_le_mul_of_nonneg_right hh (stageNorm_nonneg _ _)
  rw [mul_add, ← mul_assoc] at h2
  linarith

/-- The values obtained from them. -/
theorem values_near_exact {s : ℕ} {L : ℝ} (hL0 : 0 ≤ L)
    (hL : ∀ p t x x', ‖f p t x - f p t x'‖ ≤ L * ‖x - x'‖)
    (t h : ℝ) (hh : |h| * (L * m * s) * coefSum s tab ≤ 1 / 2) (x x' : E) (k k' : Fin m → ℕ → E) (e : ℝ)
    (hk : ∀ i < s, ∀ p, ‖k p i - stageMap tab f t h x k p i‖ ≤ e)
    (hk' : ∀ i < s, ∀ p, k' p i = stageMap tab f t h x' k' p i) :
    ‖x + ∑ p, ∑ i ∈ range s, ((tab p).bSol.getD i 0 : ℝ) • k p i
        - (x' + ∑ p, ∑ i ∈ range s, ((tab p).bSol.getD i 0 : ℝ) • k' p i)‖
      ≤ (1 + 2 * bSum s tab * (L * m * s) * |h|) * ‖x - x'‖ + 2 * bSum s tab * (m * s) * e := by
  have h2 := stages_near_exact tab f hL0 hL t h hh x x' k k' e hk hk'
  have h3 : ‖∑ p, ∑ i ∈ range s, ((tab p).bSol.getD i 0 : ℝ) • k p i
      - ∑ p, ∑ i ∈ range s, ((tab p).bSol.getD i 0 : ℝ) • k' p i‖ ≤ bSum s tab * stageNorm s (k - k') := by
    unfold bSum
    rw [← sum_sub_distrib]
    simp only [sum_mul]
    refine (norm_sum_le _ _).trans (sum_le_sum fun p _ => ?_)
    rw [← sum_sub_distrib]
    refine (norm_sum_le _ _).trans (sum_le_sum fun i hi => ?_)
    rw [← smul_sub, norm_smul, Real.norm_eq_abs]
    exact mul_le_mul_of_nonneg_left (le_stageNorm (k - k') p (mem_range.1 hi)) (abs_nonneg _)
  have h4 := mul_le_mul_of_nonneg_left h2 (bSum_nonneg tab s)
  have e1 : x + ∑ p, ∑ i ∈ range s, ((tab p).bSol.getD i 0 : ℝ) • k p i
        - (x' + ∑ p, ∑ i ∈ range s, ((tab p).bSol.getD i 0 : ℝ) • k' p i)
      = (x - x') + (∑ p, ∑ i ∈ range s, ((tab p).bSol.getD i 0 : ℝ) • k p i
        - ∑ p, ∑ i ∈ range s, ((tab p).bSol.getD i 0 : ℝ) • k' p i) := by abel
  rw [e1]
  calc _ ≤ ‖x - x'‖ + bSum s tab * (2 * (m * s * e) + 2 * (|h| * (L * m * s)) * ‖x - x'‖) :=
        (norm_add_le _ _).trans (add_le_add_right (h3.trans h4) _)
    _ = _ := by ring

variable (cj : CalcJac) (rF rK : RootFinder E J) (nj : J) {s : ℕ} {c : ℕ → ℚ}

/-- The stored vector field is that at the start of the step up to `τ`, unless it is not going to be used. -/
def ValidWithin (τ : ℝ) (t : ℝ) (x : E) (st : RK.State m E) (mj : Bool) : Prop :=
  (odeRK tab f cj rF rK nj).fsal = true → ∃ b f0, st = some (b, f0) ∧
    (b = true ∨ mj = true ∨ ∀ p, ‖f0 p - f p t x‖ ≤ τ)

theorem odeRK_fsal_iff : (odeRK tab f cj rF rK nj).fsal = true ↔ ∀ p, (tab p).fsal = true := by
  unfold RK.fsal RK.vfExpensive
  simp [odeRK, odeTerm]

/-- The equations of implicit stages are near the identity if the step is short. -/
theorem relF_nearIdentity {L : ℝ} (hL0 : 0 ≤ L) (hL : ∀ p t x x', ‖f p t x - f p t x'‖ ≤ L * ‖x - x'‖)
    (t h : ℝ) (q : ℚ) (hq : |(q : ℝ)| * |h| * L ≤ 1 / 2) (p : Fin m) (ti : ℝ) (y : E) :
    NearIdentity ((odeRK tab f cj rF rK nj).relF p t (t + h) q ti y) := by
  intro z z'
  have hc : (odeRK tab f cj rF rK nj).control t (t + h) p = h := by simp [RK.control, odeRK, odeTerm]
  have e : ∀ g, (odeRK tab f cj rF rK nj).relF p t (t + h) q ti y g = g - f p ti (y + q • (h • g)) := by
    intro g
    unfold RK.relF
    rw [hc]
    rfl
  rw [e, e]
  have e2 : z - f p ti (y + q • (h • z)) - (z' - f p ti (y + q • (h • z'))) - (z - z')
      = f p ti (y + q • (h • z')) - f p ti (y + q • (h • z)) := by abel
  rw [e2]
  refine (hL _ _ _ _).trans ?_
  have e1 : y + q • (h • z') - (y + q • (h • z)) = ((q : ℝ) * h) • (z' - z) := by
    rw [qsmul_eq, qsmul_eq, smul_sub, mul_smul, mul_smul]; abel
  rw [e1, norm_smul, Real.norm_eq_abs, abs_mul, ← mul_assoc, norm_sub_rev z' z]
  refine mul_le_mul_of_nonneg_right ?_ (norm_nonneg _)
  linarith [mul_comm L (|(q : ℝ)| * |h|)]

theorem relK_nearIdentity {L : ℝ} (hL0 : 0 ≤ L) (hL : ∀ p t x x', ‖f p t x - f p t x'‖ ≤ L * ‖x - x'‖)
    (t h : ℝ) (q : ℚ) (hq : |(q : ℝ)| * |h| * L ≤ 1 / 2) (p : Fin m) (ti : ℝ) (y : E) :
    NearIdentity ((odeRK tab f cj rF rK nj).relK p t (t + h) q ti y) := by
  intro z z'
  have hc : (odeRK tab f cj rF rK nj).control t (t + h) p = h := by simp [RK.control, odeRK, odeTerm]
  have e : ∀ g, (odeRK tab f cj rF rK nj).relK p t (t + h) q ti y g = g - h • f p ti (y + q • g) := by
    intro g
    unfold RK.relK
    rw [hc]
    rfl
  rw [e, e]
  have e2 : z - h • f p ti (y + q • z) - (z' - h • f p ti (y + q • z')) - (z - z')
      = h • (f p ti (y + q • z') - f p ti (y + q • z)) := by rw [smul_sub]; abel
  rw [e2, norm_smul, Real.norm_eq_abs]
  refine (mul_le_mul_of_nonneg_left (hL _ _ _ _) (abs_nonneg h)).trans ?_
  have e1 : y + q • z' - (y + q • z) = (q : ℝ) • (z' - z) := by
    rw [qsmul_eq, qsmul_eq, smul_sub]; abel
  rw [e1, norm_smul, Real.norm_eq_abs, norm_sub_rev z' z]
  calc |h| * (L * (|(q : ℝ)| * ‖z - z'‖)) = |(q : ℝ)| * |h| * L * ‖z - z'‖ := by ring
    _ ≤ _ := mul_le_mul_of_nonneg_right hq (norm_nonneg _)

/-- How short the steps have to be for that. -/
theorem diag_small {L : ℝ} (hL0 : 0 ≤ L) :
    ∃ δ : ℝ, 0 < δ ∧ ∀ h : ℝ, |h| ≤ δ → ∀ p i, |((tab p).d i : ℝ)| * |h| * L ≤ 1 / 2 := by
  obtain ⟨d, hd0, hd⟩ : ∃ d : ℝ, 0 ≤ d ∧ ∀ p i, |((tab p).d i : ℝ)| ≤ d := by
    refine ⟨∑ p, (((tab p).aDiagonal.getD []).map (fun x : ℚ => |(x : ℝ)|)).sum, ?_, ?_⟩
    · apply sum_nonneg; intro p _
      apply List.sum_nonneg
      intro x hx
      obtain ⟨y, -, rfl⟩ := List.mem_map.1 hx
      exact abs_nonneg _
    · intro p i
      have h1 : |((tab p).d i : ℝ)| ≤ (((tab p).aDiagonal.getD []).map (fun x : ℚ => |(x : ℝ)|)).sum := by
        unfold Tableau.d
        set l := (tab p).aDiagonal.getD [] with hl
        by_cases hi : i < l.length
        · rw [List.getD_eq_getElem (hn := hi)]
          apply List.single_le_sum
          · intro x hx
            obtain ⟨y, -, rfl⟩ := List.mem_map.1 hx
            exact abs_nonneg _
          · exact List.mem_map_of_mem (List.getElem_mem hi)
        · rw [List.getD_eq_default _ _ (not_lt.1 hi)]
          simp only [Rat.cast_zero, abs_zero]
          apply List.sum_nonneg
          intro x hx
          obtain ⟨y, -, rfl⟩ := List.mem_map.1 hx
          exact abs_nonneg _
      refine h1.trans (single_le_sum (f := fun p => (((tab p).aDiagonal.getD []).map
        (fun x : ℚ => |(x : ℝ)|)).sum) (fun q _ => ?_) (mem_univ p))
      apply List.sum_nonneg
      intro x hx
      obtain ⟨y, -, rfl⟩ := List.mem_map.1 hx
      exact abs_nonneg _
  refine ⟨1 / (1 + 2 * (d * L)), by positivity, fun h l4 p i => ?_⟩
  rw [le_div_iff₀ (by positivity)] at l4
  have h1 : |((tab p).d i : ℝ)| * |h| * L ≤ d * |h| * L := by gcongr; exact hd p i
  have h2 : |h| * (1 + 2 * (d * L)) = |h| + 2 * (d * |h| * L) := by ring
  have := abs_nonneg h
  linarith

/-- Short steps succeed, if the root finders do on equations near the identity. -/
theorem short_steps_succeed {L : ℝ} (hL0 : 0 ≤ L) (hL : ∀ p t x x', ‖f p t x - f p t x'‖ ≤ L * ‖x - x'‖)
    (hF : ∀ i rel guess jac, NearIdentity rel → (rF.find i rel guess jac).2.isOkay = true)
    (hK : ∀ i rel guess jac, NearIdentity rel → (rK.find i rel guess jac).2.isOkay = true) (h : ℝ)
    (hh : ∀ p i, |((tab p).d i : ℝ)| * |h| * L ≤ 1 / 2) (t : ℝ) (x : E) (st : RK.State m E) (mj : Bool) :
    ((odeRK tab f cj rF rK nj).step t (t + h) x st mj).result.isOkay = true := by
  apply RK.stages_okay
  · intro p i ti yp guess jac
    exact hF _ _ _ _ (relF_nearIdentity tab f cj rF rK nj hL0 hL t h _ (hh p i) p ti yp)
  · intro p i ti yp guess jac
    exact hK _ _ _ _ (relK_nearIdentity tab f cj rF rK nj hL0 hL t h _ (hh p i) p ti yp)
  · show (RK.initStage _ _ _ _ _ _).result.isOkay = true
    unfold RK.initStage
    split <;> rfl

/-- What holds for the stages of a step, if it is short enough for the implicit equations to be near the identity. -/
theorem within_ok {L : ℝ} (hL0 : 0 ≤ L) (hL : ∀ p t x x', ‖f p t x - f p t x'‖ ≤ L * ‖x - x'‖)
    (t h τ ρ : ℝ) (h0 : 0 ≤ h) (hτ : 0 ≤ τ) (hρ : ρ ≤ h)
    (hF : (∃ p, (tab p).implicit = true) → (∀ p, (tab p).fsal = true) → rF.Within τ)
    (hK : (∃ p, (tab p).implicit = true) → (¬ ∀ p, (tab p).fsal = true) → rK.Within (τ * ρ))
    (hd : ∀ p i, |((tab p).d i : ℝ)| * |h| * L ≤ 1 / 2) :
    (odeRK tab f cj rF rK nj).NearOK
      (fun p i y k => ‖k - h • f p (t + ((tab p).abscissa i : ℝ) * h) y‖ ≤ h * τ)
      (fun p i y g => ‖g - f p (t + ((tab p).abscissa i : ℝ) * h) y‖ ≤ τ) t (t + h) := by
  have hc : ∀ q : Fin m, (odeRK tab f cj rF rK nj).control t (t + h) q = h := by
    intro q; simp [RK.control, odeRK, odeTerm]
  refine ⟨?_, ?_, ?_, ?_⟩
  · intro p i y _
    rw [odeRK_stageTime]
    have e1 : ((odeRK tab f cj rF rK nj).term p).vf (t + ((tab p).abscissa i : ℝ) * h) y
        = f p (t + ((tab p).abscissa i : ℝ) * h) y := rfl
    rw [e1, sub_self, norm_zero]
    exact hτ
  · intro p i y g _ hg
    have e1 : ((odeRK tab f cj rF rK nj).term p).prod g ((odeRK tab f cj rF rK nj).control t (t + h) p)
        = h • g := by rw [hc]; rfl
    rw [e1, ← smul_sub, norm_smul, Real.norm_eq_abs, abs_of_nonneg h0]
    exact mul_le_mul_of_nonneg_left hg h0
  · intro p i y guess jac himp he hok
    have hfs : ∀ p, (tab p).fsal = true := by
      rw [← odeRK_fsal_iff tab f cj rF rK nj, RK.fsal_evalFs]; exact he
    have hn := hF ⟨p, himp⟩ hfs i _ guess jac
      (relF_nearIdentity tab f cj rF rK nj hL0 hL t h _ (hd p i) p _ y) hok
    rw [odeRK_stageTime] at hn ⊢
    exact hn
  · intro p i y guess jac himp he hok
    have hfs : ¬ ∀ p, (tab p).fsal = true := by
      rw [← odeRK_fsal_iff tab f cj rF rK nj, RK.fsal_evalFs, he]; simp
    have hn := hK ⟨p, himp⟩ hfs i _ guess jac
      (relK_nearIdentity tab f cj rF rK nj hL0 hL t h _ (hd p i) p _ y) hok
    rw [odeRK_stageTime] at hn ⊢
    have e1 : ∀ k, (odeRK tab f cj rF rK nj).relK p t (t + h) ((tab p).d i)
        (t + ((tab p).abscissa i : ℝ) * h) y k
        = k - h • f p (t + ((tab p).abscissa i : ℝ) * h) (y + (tab p).d i • k) := by
      intro k
      unfold RK.relK
      rw [hc]
      rfl
    rw [e1] at hn
    refine hn.trans ?_
    rw [mul_comm]
    exact mul_le_mul_of_nonneg_right hρ hτ

/-- The error of one step. -/
theorem within_error [CompleteSpace E] (hok : methodOK s c tab = true)
    {N M : ℕ} {ε δ' : ℚ} (hε : 0 ≤ ε) (hord : StepOrder tab N ε M δ')
    (hf : ∀ p, AnalyticOnNhd ℝ (fun x : ℝ × E => f p x.1 x.2) Set.univ)
    {L : ℝ} (hL0 : 0 ≤ L) (hL : ∀ p t x x', ‖f p t x - f p t x'‖ ≤ L * ‖x - x'‖)
    (y : ℝ → E) (hy : ∀ t, HasDerivAt y (∑ p, f p t (y t)) t) {a b D : ℝ} (hD : ElemBound f y a b N D) :
    ∃ δ A, 0 < δ ∧ 0 ≤ A ∧ ∀ (J : Type) (cj : CalcJac) (rF rK : RootFinder E J) (nj : J) (τ ρ : ℝ), 0 ≤ τ →
      ((∃ p, (tab p).implicit = true) → (∀ p, (tab p).fsal = true) → rF.Within τ) →
      ((∃ p, (tab p).implicit = true) → (¬ ∀ p, (tab p).fsal = true) → rK.Within (τ * ρ)) →
      ∀ t ∈ Set.Icc a b, ∀ h, 0 ≤ h → ρ ≤ h → h ≤ δ → ∀ x st mj,
      ValidWithin tab f cj rF rK nj τ t x st mj →
      ((odeRK tab f cj rF rK nj).step t (t + h) x st mj).result.isOkay = true →
      (∀ mj', ValidWithin tab f cj rF rK nj τ (t + h) ((odeRK tab f cj rF rK nj).step t (t + h) x st mj).y
        ((odeRK tab f cj rF rK nj).step t (t + h) x st mj).state mj') ∧
      ‖((odeRK tab f cj rF rK nj).step t (t + h) x st mj).y - y (t + h)‖
        ≤ (1 + 2 * bSum s tab * (L * m * s) * h) * ‖x - y t‖ + A * h ^ (N + 1)
          + (ε * D + 2 * bSum s tab * (m * s) * τ) * h := by
  obtain ⟨δ₁, A, hδ₁, -, hA, herr⟩ := implicit_error tab f .never (idealRoot E) (idealRoot E) () hok
    (fun _ => ⟨idealRoot_exact E, idealRoot_exact E⟩) hε hord hf hL0 hL y hy hD
  obtain ⟨δ₂, hδ₂, hsucc⟩ := ideal_succeeds_uniform (tab := tab) f .never L hL0 hL
  have hP0 : 0 ≤ L * m * s := by positivity
  obtain ⟨δ₃, hδ₃, -, hδh⟩ := small_steps hP0 (coefSum_nonneg tab s)
  obtain ⟨δ₄, hδ₄, hdh'⟩ := diag_small tab hL0
  refine ⟨min (min δ₁ δ₂) (min δ₃ (δ₄)), A, by positivity, hA, ?_⟩
  intro J cj rF rK nj τ ρ hτ hF hK t ht h h0 hρ hδ x st mj hst hokay
  have l1 : h ≤ δ₁ := hδ.trans ((min_le_left _ _).trans (min_le_left _ _))
  have l2 : h ≤ δ₂ := hδ.trans ((min_le_left _ _).trans (min_le_right _ _))
  have l3 : h ≤ δ₃ := hδ.trans ((min_le_right _ _).trans (min_le_left _ _))
  have l4 : h ≤ δ₄ := hδ.trans ((min_le_right _ _).trans (min_le_right _ _))
  have habs : |h| = h := abs_of_nonneg h0
  have hdh := hdh' h (by rw [habs]; exact l4)
  obtain ⟨hns, hwf, hfs⟩ := odeRK_WF hok f cj rF rK nj
  have hnear := within_ok tab f cj rF rK nj hL0 hL t h τ ρ h0 hτ hρ hF hK hdh
  have hst' : (odeRK tab f cj rF rK nj).NearState
      (fun p i y g => ‖g - f p (t + ((tab p).abscissa i : ℝ) * h) y‖ ≤ τ) x st mj := by
    intro hfsal
    obtain ⟨b, f0, e1, e2⟩ := hst hfsal
    refine ⟨b, f0, e1, e2.imp id (Or.imp id fun e3 p => ?_)⟩
    have e4 : (tab p).abscissa 0 = 0 := by
      have := hfs.c1 hfsal p
      exact this
    simp only [e4, Rat.cast_zero, zero_mul, add_zero]
    exact e3 p
  obtain ⟨k, hk, hyk, hlast⟩ := (odeRK tab f cj rF rK nj).step_near hwf t (t + h) hnear x st mj hst' hokay
  rw [hns] at hk hlast
  have hy1 : ((odeRK tab f cj rF rK nj).step t (t + h) x st mj).y
      = x + ∑ p, ∑ i ∈ range s, ((tab p).bSol.getD i 0 : ℝ) • k p i := by
    rw [hyk]
    unfold RK.combine
    rw [hns]
    congr 1
    apply sum_congr rfl; intro p _
    apply sum_congr rfl; intro i _
    rw [qsmul_eq]
    rfl
  refine ⟨?_, ?_⟩
  · intro mj' hfsal
    obtain ⟨f1, e1, e2⟩ := hlast hfsal
    refine ⟨false, f1, e1, Or.inr (Or.inr fun p => ?_)⟩
    have e3 : (tab p).abscissa (s - 1) = 1 := by
      have := hfs.cLast hfsal p
      rw [hns] at this
      exact this
    have := e2 p
    simp only [e3, Rat.cast_one, one_mul] at this
    exact this
  · have hs2 := hsucc h (by rw [habs]; exact l2) t (y t)
      (odeRK tab f .never (idealRoot E) (idealRoot E) ()).init false
    have hval := validState_init tab f .never (idealRoot E) (idealRoot E) () t (y t) false
    obtain ⟨k', hk', hyk'⟩ := any_step tab f .never (idealRoot E) (idealRoot E) () hok
      (fun _ => ⟨idealRoot_exact E, idealRoot_exact E⟩) t h (y t) _ false hval hs2
    have h1 := herr t ht h h0 l1 (y t) _ false hval hs2
    rw [sub_self, norm_zero, mul_zero, zero_add, hyk'] at h1
    have h2 := values_near_exact tab f hL0 hL t h (hδh h (by rw [habs]; exact l3)) x (y t) k k' (h * τ)
      (fun i hi p => hk i hi p) hk'
    rw [habs] at h2
    rw [hy1]
    refine (norm_sub_le_norm_sub_add_norm_sub _ _ _).trans ((add_le_add h2 h1).trans (le_of_eq ?_))
    ring

/-- **C86.** A Runge-Kutta solver whose implicit equations are only solved up to a tolerance. -/
theorem C86_converges {N M : ℕ} {ε δ' : ℚ} (hord : StepOrder tab N ε M δ') (hok : methodOK s c tab = true)
    (hε : 0 ≤ ε) : ConvergesWithin tab N ε := by
  have hb0 := bSum_nonneg tab s
  refine ⟨2 * bSum s tab * (m * s), by positivity, ?_⟩
  intro E _ _ _ _ f L hf y hy a b D hD
  obtain ⟨δ, A, hδ, hA, herr⟩ := within_error tab f hok hε hord hf.analytic (abs_nonneg L)
    (fun p t x x' => (hf.lipschitz p t x x').trans
      (mul_le_mul_of_nonneg_right (le_abs_self L) (norm_nonneg _))) y hy hD
  refine ⟨δ, A, hδ, hA, ?_⟩
  intro J cj rF rK nj τ ρ hτ hF hK C O F _ _ cfg hwf ha hb hsolver hctrl y0 tnext ctrl mj η hη0 hηδ hfor hall
  subst ha hb
  have hε' : (0 : ℝ) ≤ ε := by exact_mod_cast hε
  have hD0 := elemBound_nonneg hwf.le hD
  have hB0 : 0 ≤ ε * D + 2 * bSum s tab * (m * s) * τ := by positivity
  have hK0 : 0 ≤ 2 * bSum s tab * (|L| * m * s) := by positivity
  have hstep : ∀ t t' x st mj, ValidWithin tab f cj rF rK nj τ t x st mj → cfg.t0 ≤ t → t ≤ t' → t' ≤ cfg.t1 →
      (ρ ≤ t' - t ∧ t' - t ≤ δ) → (cfg.solver.step t t' x st mj).result.isOkay = true → _ :=
    fun t t' x st mj h1 h2 h3 h4 h5 h6 => herr J cj rF rK nj τ ρ hτ hF hK t ⟨h2, h3.trans h4⟩ (t' - t)
      (sub_nonneg.2 h3) h5.1 h5.2 x st mj h1 (by rw [add_sub_cancel, ← hsolver]; exact h6)
  obtain ⟨g1, g3, g2⟩ := global_error_on cfg hwf (ValidWithin tab f cj rF rK nj τ) y A
    (ε * D + 2 * bSum s tab * (m * s) * τ) (2 * bSum s tab * (|L| * m * s)) hA hB0 hK0 N
    (fun t t' => ρ ≤ t' - t ∧ t' - t ≤ δ)
    (fun t t' x st mj h1 h2 h3 h4 h5 h6 => by
      have := (hstep t t' x st mj h1 h2 h3 h4 h5 h6).1
      rw [add_sub_cancel, ← hsolver] at this
      exact this)
    (fun t t' x st mj h1 h2 h3 h4 h5 h6 => by
      have := (hstep t t' x st mj h1 h2 h3 h4 h5 h6).2
      rw [add_sub_cancel, ← hsolver] at this
      exact this)
    hctrl y0 tnext ctrl (odeRK tab f cj rF rK nj).init mj
    (fun hfs => ⟨true, fun _ => 0, by simp [RK.init, hfs], Or.inl rfl⟩) hfor (fun c hc hk => (hall c hc hk).1) η
    (fun c hc hk => ⟨(hall c hc hk).2.1, (hall c hc hk).2.2.trans hηδ⟩) (fun c hc hk => (hall c hc hk).2.2)
  have hfin : ∀ u, cfg.t0 ≤ u → u ≤ cfg.t1 → errorBound A (ε * D + 2 * bSum s tab * (m * s) * τ)
      (2 * bSum s tab * (|L| * m * s)) N η ‖y0 - y cfg.t0‖ cfg.t0 u
      ≤ Real.exp (2 * bSum s tab * (m * s) * |L| * (cfg.t1 - cfg.t0))
        * (‖y0 - y cfg.t0‖ + (cfg.t1 - cfg.t0) * (A * η ^ N + ε * D + 2 * bSum s tab * (m * s) * τ)) := by
    intro u h1 h2
    refine (errorBound_mono A _ _ hA hB0 hK0 N η _ _ _ _ hη0 (norm_nonneg _) h1 h2).trans (le_of_eq ?_)
    have e1 : 2 * bSum s tab * (|L| * m * s) * (cfg.t1 - cfg.t0)
        = 2 * bSum s tab * (m * s) * |L| * (cfg.t1 - cfg.t0) := by ring
    rw [e1]
    ring
  refine ⟨?_, ?_⟩
  · intro c hc
    obtain ⟨⟨⟨b1, b2⟩, -⟩, b3⟩ := g1 c hc
    exact b3.trans (hfin _ b1 ((hfor c hc).trans b2))
  · intro hroot
    rw [solve_yfinal, solve_tfinal, finalise_no_root cfg _ hroot]
    exact g2.trans (hfin _ g3.1 g3.2)

end

/-! ### The solvers -/

/-- **C86.** `Kvaerno3`, `Kvaerno4` and `Kvaerno5`. -/
theorem C86_kvaerno : ConvergesWithin ![Kvaerno3.tableau] 3 0 ∧ ConvergesWithin ![Kvaerno4.tableau] 4 0 ∧
    ConvergesWithin ![Kvaerno5.tableau] 5 (1 / 10 ^ 16) :=
  ⟨C86_converges (s := 4) (c := Kvaerno3.tableau.abscissa) _ C61_kvaerno3 (by decide +kernel) (le_refl _),
   C86_converges (s := 5) (c := Kvaerno4.tableau.abscissa) _ C61_kvaerno4 (by decide +kernel) (le_refl _),
   C86_converges (s := 7) (c := Kvaerno5.tableau.abscissa) _ C61_kvaerno5 (by decide +kernel) (by norm_num)⟩

/-- **C86.** The implicit-explicit `KenCarp3`, `KenCarp4`, `KenCarp5` and `Sil3`. -/
theorem C86_imex : ConvergesWithin ![KenCarp3.explicit, KenCarp3.implicit] 3 (1 / 10 ^ 25) ∧
    ConvergesWithin ![KenCarp4.explicit, KenCarp4.implicit] 4 (1 / 10 ^ 25) ∧
    ConvergesWithin ![KenCarp5.explicit, KenCarp5.implicit] 5 (4 / 10 ^ 12) ∧
    ConvergesWithin ![Sil3.explicit, Sil3.implicit] 2 0 :=
  ⟨C86_converges (s := 4) (c := KenCarp3.explicit.abscissa) _ C61_kencarp3 (by decide +kernel) (by norm_num),
   C86_converges (s := 6) (c := KenCarp4.explicit.abscissa) _ C61_kencarp4 (by decide +kernel) (by norm_num),
   C86_converges (s := 8) (c := KenCarp5.explicit.abscissa) _ C61_kencarp5 (by decide +kernel) (by norm_num),
   C86_converges (s := 4) (c := Sil3.explicit.abscissa) _ C61_sil3 (by decide +kernel) (le_refl _)⟩

/-- **C86.** The Kvaerno methods and `Sil3` solve for values of the vector field, the KenCarp methods for
increments. -/
theorem C86_modes : (∀ tab ∈ [Kvaerno3.tableau, Kvaerno4.tableau, Kvaerno5.tableau, Sil3.explicit, Sil3.implicit],
      tab.fsal = true) ∧
    (∀ tab ∈ [KenCarp3.explicit, KenCarp4.explicit, KenCarp5.explicit], tab.fsal = false) := by
  decide +kernel

/-! ### That the tolerance for increments has to be smaller the shorter the steps are -/

open Classical in
/-- A root finder that answers `v` whenever this is good enough. -/
noncomputable def lazyRoot (E : Type) [NormedAddCommGroup E] (v : E) (τ : ℝ) : RootFinder E Unit where
  init _ _ _ := ()
  find _ rel guess _ := if ‖rel v‖ ≤ τ then (v, .successful) else (guess, .other 0)

theorem lazyRoot_within (E : Type) [NormedAddCommGroup E] (v : E) (τ : ℝ) : (lazyRoot E v τ).Within τ := by
  intro i rel guess jac _ hok
  by_cases h : ‖rel v‖ ≤ τ
  · simp [lazyRoot, h]
  · simp [lazyRoot, h, Result.isOkay, Result.isSuccessful, Result.isEvent] at hok

theorem sum_getD (l : List ℚ) : ∑ i ∈ range l.length, l.getD i 0 = l.sum := by
  induction l with
  | nil => rfl
  | cons a l ih => rw [List.length_cons, sum_range_succ', List.sum_cons, ← ih, add_comm]; rfl

/-- **C86.** A method that solves for increments, applied to the equation `y' = 0` with a root finder whose residuals
are at most `τ`: however short the step, it adds the sum of the weights times `τ`. So the error after `n` steps is
proportional to `n τ`. -/
theorem C86_drift {m s : ℕ} {c : ℕ → ℚ} (tab : Fin m → Tableau ℚ) (hok : methodOK s c tab = true)
    (hfs : ¬ ∀ p, (tab p).fsal = true) (q : Fin m) (hq : (tab q).implicit = true) (cj : CalcJac) (τ : ℝ)
    (hτ : 0 ≤ τ) (t h x : ℝ) (st : RK.State m ℝ) (mj : Bool) :
    ((odeRK tab (fun _ _ _ => (0 : ℝ)) cj (lazyRoot ℝ τ τ) (lazyRoot ℝ τ τ) ()).step t (t + h) x st mj).result.isOkay
      = true ∧
    ((odeRK tab (fun _ _ _ => (0 : ℝ)) cj (lazyRoot ℝ τ τ) (lazyRoot ℝ τ τ) ()).step t (t + h) x st mj).y
      = x + ((tab q).bSol.sum : ℝ) * τ := by
  obtain ⟨hns, hwf, -⟩ := odeRK_WF hok (fun _ _ _ => (0 : ℝ)) cj (lazyRoot ℝ τ τ) (lazyRoot ℝ τ τ) ()
  set rk := odeRK tab (fun _ _ _ => (0 : ℝ)) cj (lazyRoot ℝ τ τ) (lazyRoot ℝ τ τ) () with hrk
  have hev : rk.evalFs = false := by
    rw [← RK.fsal_evalFs]
    have := (odeRK_fsal_iff tab (fun _ _ _ => (0 : ℝ)) cj (lazyRoot ℝ τ τ) (lazyRoot ℝ τ τ) ()).not.2 hfs
    simpa using this
  have hfsal : rk.fsal = false := by rw [RK.fsal_evalFs]; exact hev
  have hfind : ∀ (rel : ℝ → ℝ), (∀ z, rel z = z) → ∀ i guess jac,
      (lazyRoot ℝ τ τ).find i rel guess jac = (τ, .successful) := by
    intro rel hrel i guess jac
    simp [lazyRoot, hrel, abs_of_nonneg hτ]
  have hrelK : ∀ p q' ti y z, rk.relK p t (t + h) q' ti y z = z := by
    intro p q' ti y z
    unfold RK.relK
    simp [hrk, odeRK, odeTerm]
  have hrelF : ∀ p q' ti y z, rk.relF p t (t + h) q' ti y z = z := by
    intro p q' ti y z
    unfold RK.relF
    simp [hrk, odeRK, odeTerm]
  have hres : (rk.step t (t + h) x st mj).result.isOkay = true := by
    apply RK.stages_okay
    · intro p i ti yp guess jac
      show ((lazyRoot ℝ τ τ).find _ _ _ _).2.isOkay = true
      rw [hfind _ (hrelF p _ ti yp)]; rfl
    · intro p i ti yp guess jac
      show ((lazyRoot ℝ τ τ).find _ _ _ _).2.isOkay = true
      rw [hfind _ (hrelK p _ ti yp)]; rfl
    · show (RK.initStage _ _ _ _ _ _).result.isOkay = true
      unfold RK.initStage
      split <;> rfl
  refine ⟨hres, ?_⟩
  obtain ⟨k, hk, hy, -⟩ := rk.step_near (Q := fun p _ _ k => k = if (tab p).implicit then τ else 0)
    (QF := fun p _ _ g => (tab p).implicit = false → g = 0) hwf t (t + h)
    { vf := fun p i y _ _ => rfl
      prod := fun p i y g hp hg => by
        have hp' : (tab p).implicit = false := hp.resolve_right (by rw [hev]; simp)
        rw [hg hp', hp']
        simp [hrk, odeRK, odeTerm]
      rootF := fun p i y guess jac _ he => by rw [hev] at he; simp at he
      rootK := fun p i y guess jac hp _ _ => by
        have hp' : (tab p).implicit = true := hp
        rw [hp', if_pos rfl]
        show ((lazyRoot ℝ τ τ).find _ _ _ _).1 = τ
        rw [hfind _ (hrelK p _ _ y)] } x st mj (by intro hf; rw [hfsal] at hf; simp at hf) hres
  rw [hy]
  congr 1
  unfold RK.combine
  rw [hns] at hk ⊢
  have hone : ∀ p, p ≠ q → (tab p).implicit = false := by
    intro p hpq
    by_contra hp
    exact hpq (hwf.oneImplicit p q (Bool.eq_true_of_not_eq_false hp) hq)
  rw [sum_eq_single q (fun p _ hp => by
      apply sum_eq_zero
      intro i hi
      rw [hk i (mem_range.1 hi) p, hone p hp]
      simp) (by simp)]
  have hlen : (tab q).bSol.length = s := (methodOK_all hok q).1.bSol
  have e : ∀ i ∈ range s, ((rk.tab q).bSol.getD i 0) • k q i = ((tab q).bSol.getD i 0 : ℝ) * τ := by
    intro i hi
    rw [hk i (mem_range.1 hi) q, hq, if_pos rfl, qsmul_eq]
    rfl
  rw [sum_congr rfl e, ← sum_mul]
  congr 1
  rw [← hlen]
  have := sum_getD (tab q).bSol
  rw [← this]
  push_cast
  rfl

/-- `KenCarp4` adds `τ` in every step. -/
example (cj : CalcJac) (τ : ℝ) (hτ : 0 ≤ τ) (t h x : ℝ) (st : RK.State 2 ℝ) (mj : Bool) :
    ((odeRK ![KenCarp4.explicit, KenCarp4.implicit] (fun _ _ _ => (0 : ℝ)) cj (lazyRoot ℝ τ τ) (lazyRoot ℝ τ τ)
      ()).step t (t + h) x st mj).y = x + τ := by
  have := (C86_drift (s := 6) (c := KenCarp4.explicit.abscissa) ![KenCarp4.explicit, KenCarp4.implicit]
    (by decide +kernel) (by decide +kernel) 1 (by decide +kernel) cj τ hτ t h x st mj).2
  rw [this]
  have e : (![KenCarp4.explicit, KenCarp4.implicit] 1).bSol.sum = 1 := by decide +kernel
  rw [e, Rat.cast_one, one_mul]

/-! ### Fixed point iteration, as an example of a root finder -/

open Classical in
/-- Repeats `x - rel x` until the equation is satisfied up to `τ`. -/
noncomputable def picardRoot (E : Type) [NormedAddCommGroup E] (τ : ℝ) : RootFinder E Unit where
  init _ _ _ := ()
  find _ rel guess _ :=
    if h : ∃ n, ‖rel ((fun x => x - rel x)^[n] guess)‖ ≤ τ then
      ((fun x => x - rel x)^[Nat.find h] guess, .successful)
    else (guess, .other 0)

theorem picardRoot_within (E : Type) [NormedAddCommGroup E] (τ : ℝ) : (picardRoot E τ).Within τ := by
  classical
  intro i rel guess jac _ hok
  by_cases h : ∃ n, ‖rel ((fun x => x - rel x)^[n] guess)‖ ≤ τ
  · simp only [picardRoot, h, dif_pos]
    exact Nat.find_spec h
  · simp [picardRoot, h, Result.isOkay, Result.isSuccessful, Result.isEvent] at hok

/-- It succeeds on equations near the identity, whatever the tolerance. -/
theorem picardRoot_succeeds (E : Type) [NormedAddCommGroup E] (τ : ℝ) (hτ : 0 < τ) (i : ℕ) (rel : E → E) (guess : E)
    (jac : Unit) (hrel : NearIdentity rel) : ((picardRoot E τ).find i rel guess jac).2.isOkay = true := by
  have hstep : ∀ x, ‖rel (x - rel x)‖ ≤ 1 / 2 * ‖rel x‖ := by
    intro x
    have := hrel (x - rel x) x
    have e1 : rel (x - rel x) - rel x - (x - rel x - x) = rel (x - rel x) := by abel
    have e2 : x - rel x - x = -rel x := by abel
    rwa [e1, e2, norm_neg] at this
  have hn : ∀ n, ‖rel ((fun x => x - rel x)^[n] guess)‖ ≤ (1 / 2) ^ n * ‖rel guess‖ := by
    intro n
    induction n with
    | zero => simp
    | succ n ih =>
      rw [Function.iterate_succ_apply']
      refine (hstep _).trans ?_
      rw [pow_succ]
      linarith
  have hex : ∃ n, ‖rel ((fun x => x - rel x)^[n] guess)‖ ≤ τ := by
    obtain ⟨n, h⟩ := exists_pow_lt_of_lt_one (show (0 : ℝ) < τ / (‖rel guess‖ + 1) by positivity)
      (show (1 / 2 : ℝ) < 1 by norm_num)
    refine ⟨n, (hn n).trans ?_⟩
    have h1 : (1 / 2 : ℝ) ^ n * ‖rel guess‖ ≤ τ / (‖rel guess‖ + 1) * (‖rel guess‖ + 1) :=
      mul_le_mul h.le (by linarith) (norm_nonneg _) (by positivity)
    rwa [div_mul_cancel₀ _ (by positivity)] at h1
  simp [picardRoot, hex, Result.isOkay, Result.isSuccessful]

/-- **C86.** With fixed point iteration as the root finder, and steps that are short enough, nothing has to be assumed
about the success of the steps (for methods that solve for values of the vector field). -/
theorem C86_picard {m : ℕ} {tab : Fin m → Tableau ℚ} {N : ℕ} {ε : ℚ} (hconv : ConvergesWithin tab N ε)
    (hfs : ∀ p, (tab p).fsal = true) : ∃ κ : ℝ, 0 ≤ κ ∧ ∀ (E : Type) [NormedAddCommGroup E]
    [NormedSpace ℝ E] [Module ℚ E] [CompleteSpace E] (f : Fin m → ℝ → E → E)
    (L : ℝ) (_ : NiceODE f L) (y : ℝ → E) (_ : ∀ t, HasDerivAt y (∑ p, f p t (y t)) t) (a b D : ℝ)
    (_ : ElemBound f y a b N D),
    ∃ δ B : ℝ, 0 < δ ∧ 0 ≤ B ∧ ∀ (cj : CalcJac) (τ : ℝ) (_ : 0 < τ) (C O F : Type) [LinearOrder F] [Zero F]
      (cfg : Cfg ℝ E (Option E) (RK.Dense m E) (RK.State m E) C O F) (_ : cfg.WF)
      (_ : cfg.t0 = a) (_ : cfg.t1 = b)
      (_ : cfg.solver.step = (odeRK tab f cj (picardRoot E τ) (picardRoot E τ) ()).step)
      (_ : cfg.controller.Exact) (y0 : E) (tnext : ℝ) (ctrl : C) (mj : Bool) (η : ℝ) (_ : 0 ≤ η) (_ : η ≤ δ)
      (_ : ∀ c ∈ callLog cfg y0 tnext ctrl (odeRK tab f cj (picardRoot E τ) (picardRoot E τ) ()).init mj,
        c.solverT0 ≤ c.solverT1)
      (_ : ∀ c ∈ callLog cfg y0 tnext ctrl (odeRK tab f cj (picardRoot E τ) (picardRoot E τ) ()).init mj,
        (c.answer cfg).keep = true → c.solverT1 - c.solverT0 ≤ η) (_ : cfg.rootFinder = none),
      ‖(solve cfg y0 tnext ctrl (odeRK tab f cj (picardRoot E τ) (picardRoot E τ) ()).init mj).yfinal
        - y (solve cfg y0 tnext ctrl (odeRK tab f cj (picardRoot E τ) (picardRoot E τ) ()).init mj).tfinal‖
        ≤ Real.exp (κ * |L| * (b - a)) * (‖y0 - y a‖ + (b - a) * (B * η ^ N + ε * D + κ * τ)) := by
  obtain ⟨κ, hκ, hconv⟩ := hconv
  refine ⟨κ, hκ, ?_⟩
  intro E _ _ _ _ f L hf y hy a b D hD
  obtain ⟨δ₁, B, hδ₁, hB, hall⟩ := hconv E f L hf y hy a b D hD
  obtain ⟨δ₂, hδ₂, hsmall⟩ := diag_small tab (abs_nonneg L)
  refine ⟨min δ₁ δ₂, B, lt_min hδ₁ hδ₂, hB, ?_⟩
  intro cj τ hτ C O F _ _ cfg hwf ha hb hsolver hctrl y0 tnext ctrl mj η hη0 hηδ hfor hη hroot
  refine (hall Unit cj (picardRoot E τ) (picardRoot E τ) () τ 0 hτ.le (fun _ _ => picardRoot_within E τ)
    (fun _ h => absurd hfs h) C O F cfg hwf ha hb hsolver hctrl y0 tnext ctrl mj η hη0
    (hηδ.trans (min_le_left _ _)) hfor (fun c hc hk => ⟨?_, sub_nonneg.2 (hfor c hc), hη c hc hk⟩)).2 hroot
  have h1 := hfor c hc
  have h3 := short_steps_succeed tab f cj (picardRoot E τ) (picardRoot E τ) () (abs_nonneg L)
    (fun p t x x' => (hf.lipschitz p t x x').trans
      (mul_le_mul_of_nonneg_right (le_abs_self L) (norm_nonneg _)))
    (picardRoot_succeeds E τ hτ) (picardRoot_succeeds E τ hτ) (c.solverT1 - c.solverT0)
    (hsmall _ (by rw [abs_of_nonneg (sub_nonneg.2 h1)]; exact (hη c hc hk).trans (hηδ.trans (min_le_right _ _))))
    c.solverT0 c.solverY c.solverState c.solverMadeJump
  rw [add_sub_cancel] at h3
  rw [hsolver]
  exact h3

/-- One step of `Kvaerno3` for `y' = y`, with fixed point iteration up to `τ`. -/
example : ∃ δ B κ : ℝ, 0 < δ ∧ ∀ τ, 0 < τ → ∀ η, 0 < η → η ≤ δ →
    ∀ (cfg : Cfg ℝ ℝ (Option ℝ) (RK.Dense 1 ℝ) (RK.State 1 ℝ) (ConstState ℝ) ℝ ℝ),
      cfg = { expCfg ![Kvaerno3.tableau] 1 with
        solver := { step := (odeRK ![Kvaerno3.tableau] ![fun _ y => y] .never (picardRoot ℝ τ) (picardRoot ℝ τ)
                      ()).step,
                    interp := fun _ _ _ t => t } } → ∃ ctrl,
    ‖(solve cfg (Real.exp 0) η ctrl
        (odeRK ![Kvaerno3.tableau] ![fun _ y => y] .never (picardRoot ℝ τ) (picardRoot ℝ τ) ()).init false).yfinal
      - Real.exp (solve cfg (Real.exp 0) η ctrl
        (odeRK ![Kvaerno3.tableau] ![fun _ y => y] .never (picardRoot ℝ τ) (picardRoot ℝ τ) ()).init false).tfinal‖
      ≤ B * η ^ 3 + κ * τ := by
  obtain ⟨D, -, hD⟩ := elemBound_exists (![fun _ y => y] : Fin 1 → ℝ → ℝ → ℝ) Real.exp Real.continuous_exp
    linear_nice.analytic 0 1 3
  obtain ⟨κ, -, h⟩ := C86_picard C86_kvaerno.1 (by decide +kernel)
  obtain ⟨δ, B, hδ, -, h⟩ := h ℝ ![fun _ y => y] 1 linear_nice Real.exp exp_solves_everywhere 0 1 D hD
  refine ⟨δ, Real.exp κ * B, Real.exp κ * κ, hδ, fun τ hτ η hη hηδ cfg hcfg => ?_⟩
  refine ⟨{ completed := 1, numSteps := 2, t0 := 0, t1OrDt0 := 1 }, ?_⟩
  have hlog : ∀ c ∈ callLog cfg (Real.exp 0) η
      { completed := 1, numSteps := 2, t0 := 0, t1OrDt0 := 1 }
      (odeRK ![Kvaerno3.tableau] ![fun _ y => y] .never (picardRoot ℝ τ) (picardRoot ℝ τ) ()).init false,
      c.solverT0 = 0 ∧ c.solverT1 = min η 1 := by
    intro c hc
    rw [log_eq_history] at hc
    obtain ⟨s, hs, rfl⟩ := List.mem_map.1 hc
    have hs' : s ∈ attempts cfg 1 (initState cfg
      (Real.exp 0) η { completed := 1, numSteps := 2, t0 := 0, t1OrDt0 := 1 }
      (odeRK ![Kvaerno3.tableau] ![fun _ y => y] .never (picardRoot ℝ τ) (picardRoot ℝ τ) ()).init false).core := by
      rw [hcfg] at hs ⊢; exact hs
    simp only [attempts] at hs'
    split at hs'
    · rw [List.mem_singleton] at hs'
      subst hs'
      rw [hcfg]
      exact ⟨rfl, rfl⟩
    · simp at hs'
  have := h .never τ hτ (ConstState ℝ) ℝ ℝ cfg (by
      rw [hcfg]
      exact ⟨(expCfg_WF ![Kvaerno3.tableau] 1).le, (expCfg_WF ![Kvaerno3.tableau] 1).floor_le,
        (expCfg_WF ![Kvaerno3.tableau] 1).le_mid, (expCfg_WF ![Kvaerno3.tableau] 1).mid_le⟩)
    (by rw [hcfg]; rfl) (by rw [hcfg]; rfl) (by rw [hcfg])
    (by
      rw [hcfg]
      exact fun a b y0 y1 e st => ⟨fun _ => rfl, fun h => by simp [expCfg, constantStepSize, constAdapt] at h⟩)
    (Real.exp 0) η { completed := 1, numSteps := 2, t0 := 0, t1OrDt0 := 1 } false η hη.le hηδ
    (fun c hc => by
      obtain ⟨e1, e2⟩ := hlog c hc
      rw [e1, e2]; exact le_min hη.le (by norm_num))
    (fun c hc _ => by
      obtain ⟨e1, e2⟩ := hlog c hc
      rw [e1, e2, sub_zero]; exact min_le_left _ _) (by rw [hcfg]; rfl)
  refine this.trans (le_of_eq ?_)
  rw [sub_self, norm_zero, abs_one]
  push_cast
  ring_nf

end Verif
