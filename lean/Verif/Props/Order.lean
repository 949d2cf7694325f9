import Verif.Spec.OrderStep
import Verif.Lemmas.OrderStep

/-!
# C61: order of accuracy of the Runge-Kutta solvers

The general statements; the solvers are in `Props/OrderSolvers.lean` and the following files.
-/

set_option linter.unusedSectionVars false

namespace Verif
open Finset Asymptotics Filter Topology

section
variable {m : ℕ}

theorem implicitPart_isSome {E J : Type} [AddCommGroup E] [Module ℝ E] [Module ℚ E]
    (tab : Fin m → Tableau ℚ) (f : Fin m → ℝ → E → E) (cj : CalcJac) (rF rK : RootFinder E J) (nj : J) :
    (odeRK tab f cj rF rK nj).implicitPart.isSome = true ↔ ∃ p, (tab p).implicit = true := by
  unfold RK.implicitPart
  rw [List.find?_isSome]
  simp [odeRK]

/-- If finitely many comparisons of rational numbers succeed, the solver has that order. -/
theorem stepOrder_of_check (tab : Fin m → Tableau ℚ) (s : ℕ) (c : ℕ → ℚ) (hok : methodOK s c tab = true)
    (η : ℚ) (N : ℕ) (ε : ℚ) (hN : tabOrder s c tab η Tableau.bSol 1 ε (N + 1) = true)
    (M : ℕ) (δ : ℚ) (hM : tabOrder s c tab η Tableau.bError 0 δ (M + 1) = true) :
    StepOrder tab (N + 1) ε (M + 1) δ := by
  intro E _ _ _ J f cj rF rK nj t0 y0 G hG y hy st mj hst hroot hsucc hks
  obtain ⟨hns, hwf, hfs⟩ := odeRK_WF hok f cj rF rK nj
  obtain ⟨hm, hs⟩ := methodOK_pos hok
  set rk := odeRK tab f cj rF rK nj with hrk
  have hroot' : rk.RootExact := fun h => hroot ((implicitPart_isSome tab f cj rF rK nj).1 h)
  have hsucc' : ∀ᶠ h in 𝓝 (0 : ℝ), (rk.step t0 (t0 + h) y0 st mj).result.isOkay = true := by
    by_cases hi : ∃ p, (tab p).implicit = true
    · exact hsucc hi
    · filter_upwards with h
      rw [C41_explicit_succeeds rk (fun p => by
        by_contra hp
        exact hi ⟨p, by simpa [hrk, odeRK] using hp⟩)]
      rfl
  let k : ℝ → Fin m → ℕ → E := fun h => (rk.step t0 (t0 + h) y0 st mj).dense.ks
  have hstep : ∀ᶠ h in 𝓝 (0 : ℝ), rk.IsStages t0 (t0 + h) y0 (k h) ∧
      (rk.step t0 (t0 + h) y0 st mj).y = y0 + rk.combine Tableau.bSol (k h) ∧
      (rk.step t0 (t0 + h) y0 st mj).err = some (rk.combine Tableau.bError (k h)) := by
    filter_upwards [hsucc'] with h hh
    obtain ⟨k', h1, h2, h3, h4, -⟩ := C41_step_formula rk hwf hfs hroot' t0 (t0 + h) y0 st mj hst hh
    replace h4 : ∀ p, ∀ i < rk.numStages, k h p i = k' p i := h4
    have hcomb : ∀ b : Tableau ℚ → List ℚ, rk.combine b (k h) = rk.combine b k' := by
      intro b
      unfold RK.combine
      apply sum_congr rfl; intro p _
      apply sum_congr rfl; intro i hi
      rw [h4 p i (mem_range.1 hi)]
    refine ⟨?_, by rw [hcomb]; exact h2, by rw [hcomb]; exact h3⟩
    intro i hi p
    have e := h1 i hi p
    have hv : rk.stageValue y0 (k h) i = rk.stageValue y0 k' i := by
      unfold RK.stageValue
      congr 1
      apply sum_congr rfl; intro q _
      congr 1
      · apply sum_congr rfl; intro j hj
        rw [h4 q j ((mem_range.1 hj).trans hi)]
      · rw [h4 q i hi]
    rw [hv, h4 p i hi]
    exact e
  have hstages := hstep.mono (fun h hh => hh.1)
  have hk0 : ∀ p, ∀ i < s, Tendsto (fun h => k h p i) (𝓝 0) (𝓝 0) := by
    intro p i hi
    by_cases him : ∃ p, (tab p).implicit = true
    · exact hks him p i (by rw [(methodOK_all hok p).1.bSol]; exact hi)
    · exact stages_tendsto_explicit tab f cj rF rK nj (fun p => by
        by_contra hp
        exact him ⟨p, by simpa using hp⟩) t0 y0 (fun p => (hG p).continuousAt) k hstages i
        (by rw [← hrk, hns]; exact hi) p
  have hb := fun p => (methodOK_all hok p).1.bSol
  have hc := fun p => (methodOK_all hok p).2.1
  refine ⟨?_, fun h => rk.combine Tableau.bError (k h), hstep.mono (fun h hh => hh.2.2), ?_⟩
  · have := odeRK_near tab f cj rF rK nj hm s hb (by omega) c hc t0 y0 G hG y hy k hstages hk0
      η Tableau.bSol 1 ε N hN
    apply this.congr
    filter_upwards [hstep] with h hh
    rw [hh.2.1]
    simp only [Rat.cast_one, one_smul]
    abel
  · have := odeRK_near tab f cj rF rK nj hm s hb (by omega) c hc t0 y0 G hG y hy k hstages hk0
      η Tableau.bError 0 δ M hM
    apply this.congr
    filter_upwards with h
    simp [hrk]

/-- **C61, explicit methods.** For analytic vector fields there are no further conditions. -/
theorem StepOrder.explicit {tab : Fin m → Tableau ℚ} {N M : ℕ} (h : StepOrder tab N 0 M 0)
    (hex : ∀ p, (tab p).implicit = false)
    {E : Type} [NormedAddCommGroup E] [NormedSpace ℝ E] [Module ℚ E] {J : Type}
    (f : Fin m → ℝ → E → E) (cj : CalcJac) (rF rK : RootFinder E J) (nj : J) (t0 : ℝ) (y0 : E)
    (hf : ∀ p, AnalyticAt ℝ (fun x : ℝ × E => f p x.1 x.2) (t0, y0))
    (y : ℝ → E) (hy : SolvesODE f t0 y0 y) (st : RK.State m E) (mj : Bool)
    (hst : (odeRK tab f cj rF rK nj).ValidState t0 y0 st mj) :
    (fun h => ((odeRK tab f cj rF rK nj).step t0 (t0 + h) y0 st mj).y - y (t0 + h))
      =O[𝓝 0] (fun h : ℝ => h ^ (N + 1)) ∧
    ∃ e : ℝ → E, (∀ᶠ h in 𝓝 (0 : ℝ),
        ((odeRK tab f cj rF rK nj).step t0 (t0 + h) y0 st mj).err = some (e h)) ∧
      e =O[𝓝 0] (fun h : ℝ => h ^ (M + 1)) := by
  choose G hG using hf
  have hno : ¬ ∃ p, (tab p).implicit = true := by
    rintro ⟨p, hp⟩; rw [hex p] at hp; simp at hp
  obtain ⟨h1, e, h2, h3⟩ := h E J f cj rF rK nj t0 y0 G hG y hy st mj hst (fun hp => absurd hp hno)
    (fun hp => absurd hp hno) (fun hp => absurd hp hno)
  rw [Rat.cast_zero] at h1 h3
  exact ⟨h1.isBigO, e, h2, h3.isBigO⟩

/-- **C61, implicit methods, Lipschitz vector fields.** The stages found do tend to zero: there is only
one solution. -/
theorem stages_small {tab : Fin m → Tableau ℚ} (s : ℕ) (c : ℕ → ℚ) (hok : methodOK s c tab = true)
    {E : Type} [NormedAddCommGroup E] [NormedSpace ℝ E] [Module ℚ E] {J : Type}
    (f : Fin m → ℝ → E → E) (cj : CalcJac) (rF rK : RootFinder E J) (nj : J) (t0 : ℝ) (y0 : E)
    (hf : ∀ p, ContinuousAt (fun x : ℝ × E => f p x.1 x.2) (t0, y0))
    (L : ℝ) (hlip : ∀ p t y y', ‖f p t y - f p t y'‖ ≤ L * ‖y - y'‖)
    (st : RK.State m E) (mj : Bool) (hst : (odeRK tab f cj rF rK nj).ValidState t0 y0 st mj)
    (hroot : rF.Exact ∧ rK.Exact)
    (hsucc : ∀ᶠ h in 𝓝 (0 : ℝ),
      ((odeRK tab f cj rF rK nj).step t0 (t0 + h) y0 st mj).result.isOkay = true) (p : Fin m) (i : ℕ)
    (hi : i < s) : Tendsto
      (fun h => ((odeRK tab f cj rF rK nj).step t0 (t0 + h) y0 st mj).dense.ks p i) (𝓝 0) (𝓝 0) := by
  obtain ⟨hns, hwf, hfs⟩ := odeRK_WF hok f cj rF rK nj
  set rk := odeRK tab f cj rF rK nj with hrk
  have hstep : ∀ h, ∃ k : Fin m → ℕ → E, (rk.step t0 (t0 + h) y0 st mj).result.isOkay = true →
      rk.IsStages t0 (t0 + h) y0 k ∧
      ∀ p, ∀ i < rk.numStages, (rk.step t0 (t0 + h) y0 st mj).dense.ks p i = k p i := by
    intro h
    by_cases hh : (rk.step t0 (t0 + h) y0 st mj).result.isOkay = true
    · obtain ⟨k', h1, h2, h3, h4, -⟩ := C41_step_formula rk hwf hfs (fun _ => hroot) t0 (t0 + h) y0 st mj hst hh
      exact ⟨k', fun _ => ⟨h1, h4⟩⟩
    · exact ⟨fun _ _ => 0, fun h' => absurd h' hh⟩
  choose k hk using hstep
  have := stages_tendsto_lipschitz tab f cj rF rK nj L hlip t0 y0 hf k
    (hsucc.mono (fun h hh => (hk h hh).1)) i (by rw [← hrk, hns]; exact hi) p
  refine this.congr' ?_
  filter_upwards [hsucc] with h hh
  exact ((hk h hh).2 p i (by rw [hns]; exact hi)).symm

theorem StepOrder.lipschitz {tab : Fin m → Tableau ℚ} {N M : ℕ} {ε δ : ℚ} (h : StepOrder tab N ε M δ)
    (s : ℕ) (c : ℕ → ℚ) (hok : methodOK s c tab = true)
    {E : Type} [NormedAddCommGroup E] [NormedSpace ℝ E] [Module ℚ E] {J : Type}
    (f : Fin m → ℝ → E → E) (cj : CalcJac) (rF rK : RootFinder E J) (nj : J) (t0 : ℝ) (y0 : E)
    (G : Fin m → FormalMultilinearSeries ℝ (ℝ × E) E)
    (hG : ∀ p, HasFPowerSeriesAt (fun x : ℝ × E => f p x.1 x.2) (G p) (t0, y0))
    (L : ℝ) (hlip : ∀ p t y y', ‖f p t y - f p t y'‖ ≤ L * ‖y - y'‖)
    (y : ℝ → E) (hy : SolvesODE f t0 y0 y)
    (st : RK.State m E) (mj : Bool) (hst : (odeRK tab f cj rF rK nj).ValidState t0 y0 st mj)
    (hroot : rF.Exact ∧ rK.Exact)
    (hsucc : ∀ᶠ h in 𝓝 (0 : ℝ),
      ((odeRK tab f cj rF rK nj).step t0 (t0 + h) y0 st mj).result.isOkay = true) :
    NearOrder G N ε (fun h => ((odeRK tab f cj rF rK nj).step t0 (t0 + h) y0 st mj).y - y (t0 + h)) ∧
    ∃ e : ℝ → E, (∀ᶠ h in 𝓝 (0 : ℝ),
        ((odeRK tab f cj rF rK nj).step t0 (t0 + h) y0 st mj).err = some (e h)) ∧
      NearOrder G M δ e :=
  h E J f cj rF rK nj t0 y0 G hG y hy st mj hst (fun _ => hroot) (fun _ => hsucc)
    (fun _ p i hi => stages_small s c hok f cj rF rK nj t0 y0 (fun p => (hG p).continuousAt) L hlip st mj
      hst hroot hsucc p i (by rw [← (methodOK_all hok p).1.bSol]; exact hi))

end
end Verif
