import Verif.Spec.DenseOrder
import Verif.Lemmas.DenseCheck
import Verif.Props.Order
import Verif.Model.DenseInterp

/-!
# Local error of the dense output of a Runge-Kutta method
-/

set_option linter.unusedSectionVars false

namespace Verif
open Finset Asymptotics Filter Topology

section
variable {m : ℕ} {E : Type} [NormedAddCommGroup E] [NormedSpace ℝ E] [Module ℚ E] {J : Type}

/-- The sum of the parts with the different powers of `θ`, up to `θ^d`. -/
noncomputable def denseComb (rk : RK m ℝ ℚ E E ℝ J) (rows : Tableau ℚ → List (List ℚ)) (d : ℕ) (θ : ℝ)
    (k : Fin m → ℕ → E) : E :=
  ∑ j ∈ range d, θ ^ (j + 1) • rk.combine (rowOf rows j) k

theorem odeRK_dense_near (tab : Fin m → Tableau ℚ) (f : Fin m → ℝ → E → E) (cj : CalcJac)
    (rF rK : RootFinder E J) (nj : J) (hm : 0 < m) (s : ℕ) (hs : ∀ p, (tab p).bSol.length = s)
    (hs0 : 0 < s)
    (c : ℕ → ℚ) (hc : ∀ p, ∀ i < s, (tab p).abscissa i = c i)
    (t0 : ℝ) (y0 : E) (G : Fin m → FormalMultilinearSeries ℝ (ℝ × E) E)
    (hG : ∀ p, HasFPowerSeriesAt (fun x : ℝ × E => f p x.1 x.2) (G p) (t0, y0))
    (y : ℝ → E) (hy : SolvesODE f t0 y0 y)
    (k : ℝ → Fin m → ℕ → E)
    (hk : ∀ᶠ h in 𝓝 (0 : ℝ), (odeRK tab f cj rF rK nj).IsStages t0 (t0 + h) y0 (k h))
    (hk0 : ∀ p, ∀ i < s, Tendsto (fun h => k h p i) (𝓝 0) (𝓝 0))
    (η : ℚ) (rows : Tableau ℚ → List (List ℚ)) (d : ℕ) (ε : ℚ) (N : ℕ) (hd : N + 1 ≤ d)
    (hck : rowsOrder s c tab η rows d ε (N + 1) = true) (θ : ℝ) (hθ0 : 0 ≤ θ) (hθ1 : θ ≤ 1) :
    NearOrder G (N + 1) (d * ε)
      (fun h => denseComb (odeRK tab f cj rF rK nj) rows d θ (k h) - (y (t0 + θ * h) - y0)) := by
  set rk := odeRK tab f cj rF rK nj with hrk
  rw [rowsOrder, List.all_eq_true] at hck
  let q : ℕ → ℚ := fun j => if j = 0 then 1 else 0
  let W : ℕ → PTree (Fin (m + 1)) → ℝ := fun j t =>
    ((t.weight s (orderA s c tab) (orderB tab (rowOf rows j) (q j)) : ℚ) : ℝ)
  let α : PTree (Fin (m + 1)) → ℝ := fun t => ∑ j ∈ range d, θ ^ (j + 1) * W j t
  let β : PTree (Fin (m + 1)) → ℝ := fun t => θ ^ t.order * t.exact
  have h1 : (fun h => ∑ j ∈ range d, θ ^ (j + 1) • ((((q j : ℚ) : ℝ) * h, rk.combine (rowOf rows j) (k h))
      - bseries (autoSeries G) (N + 1) (W j) h)) =O[𝓝 0] (fun h : ℝ => h ^ (N + 2)) := by
    refine (IsBigO.sum (s := range d) (fun j _ =>
      (odeRK_expansion tab f cj rF rK nj hm s hs hs0 c hc t0 y0 G hG k hk hk0
        (rowOf rows j) (q j) N).const_smul_left (θ ^ (j + 1)))).congr_left (fun h => ?_)
    simp only [Finset.sum_apply]
    rfl
  have h2 := flow_expansion (autoSeries G) (autoSeries_has f G (t0, y0) hG) _ hy.isFlow (N + 1)
  have htend : Tendsto (fun h : ℝ => θ * h) (𝓝 0) (𝓝 0) := by
    have : Tendsto (fun h : ℝ => θ * h) (𝓝 0) (𝓝 (θ * 0)) :=
      (continuous_const.mul continuous_id).tendsto 0
    rwa [mul_zero] at this
  have h2' := h2.comp_tendsto htend
  have h2'' : (fun h : ℝ => (θ * h, y (t0 + θ * h) - y0)
      - bseries (autoSeries G) (N + 1) (fun t => t.exact) (θ * h)) =O[𝓝 0] (fun h : ℝ => h ^ (N + 2)) := by
    refine IsBigO.trans (h2'.congr_left (fun h => rfl)) ?_
    apply IsBigO.of_bound (|θ| ^ (N + 2))
    filter_upwards with h
    simp [mul_pow]
  have h3 := h1.sub h2''
  obtain ⟨D, hD, hAB⟩ := bseries_near G N α β ((d : ℝ) * ε) (by
    intro t hadm ho
    have hrow : ∀ j ∈ range d, |W j t - (if t.order = j + 1 then 1 else 0) * t.exact| ≤ (ε : ℝ) := by
      intro j hj
      have := rowOrder_sound s c tab η rows ε (N + 1) j (hck j (List.mem_range.2 (mem_range.1 hj))) t hadm ho
      rw [PTree.exact_cast]
      have h' : ((|t.weight s (orderA s c tab) (orderB tab (rowOf rows j) (if j = 0 then 1 else 0))
          - (if t.order = j + 1 then 1 else 0) * t.exact| : ℚ) : ℝ) ≤ (ε : ℝ) := by exact_mod_cast this
      push_cast at h'
      have e : (((if t.order = j + 1 then 1 else 0 : ℚ)) : ℝ) = if t.order = j + 1 then 1 else 0 := by
        split <;> simp
      rw [e] at h'
      exact h'
    have hpos : 1 ≤ t.order := by cases t; simp [PTree.order]
    have hβ : β t = ∑ j ∈ range d, θ ^ (j + 1) * ((if t.order = j + 1 then 1 else 0) * t.exact) := by
      rw [sum_eq_single (t.order - 1)]
      · have : t.order - 1 + 1 = t.order := by omega
        simp [β, this]
      · intro j _ hj
        rw [if_neg (by omega)]; simp
      · intro hj
        exact absurd (mem_range.2 (by omega)) hj
    rw [hβ]
    simp only [α]
    rw [← sum_sub_distrib]
    refine (abs_sum_le_sum_abs _ _).trans ?_
    have : ∀ j ∈ range d, |θ ^ (j + 1) * W j t
        - θ ^ (j + 1) * ((if t.order = j + 1 then 1 else 0) * t.exact)| ≤ (ε : ℝ) := by
      intro j hj
      rw [← mul_sub, abs_mul, abs_of_nonneg (by positivity)]
      refine (mul_le_of_le_one_left (abs_nonneg _) (pow_le_one₀ hθ0 hθ1)).trans (hrow j hj)
    refine (sum_le_sum this).trans ?_
    simp)
  obtain ⟨C, hC⟩ := h3.bound
  refine ⟨D, hD, C, ?_⟩
  filter_upwards [hC] with h hh
  specialize hAB h
  have hsumA : ∑ j ∈ range d, θ ^ (j + 1) • bseries (autoSeries G) (N + 1) (W j) h
      = bseries (autoSeries G) (N + 1) α h := by
    simp only [bseries, smul_sum, α]
    rw [sum_comm]
    apply sum_congr rfl
    intro t _
    rw [sum_mul, sum_smul]
    apply sum_congr rfl
    intro j _
    rw [smul_smul, mul_assoc]
  have hB : bseries (autoSeries G) (N + 1) (fun t => t.exact) (θ * h)
      = bseries (autoSeries G) (N + 1) β h := by
    simp only [bseries, β]
    apply sum_congr rfl
    intro t _
    rw [mul_pow]
    congr 1
    ring
  have hsnd : ∑ t ∈ PTree.upTo (Fin (m + 1)) (N + 1), (D t * h ^ t.order) • (t.diff (autoSeries G)).2
      = (bseries (autoSeries G) (N + 1) α h - bseries (autoSeries G) (N + 1) β h).2 := by
    rw [hAB, Prod.snd_sum]
    rfl
  rw [hsnd, ← hsumA, ← hB]
  refine le_trans (le_of_eq_of_le ?_ (norm_snd_le _)) (hh.trans ?_)
  · congr 1
    simp only [denseComb, smul_sub, sum_sub_distrib, Prod.snd_sub, Prod.snd_sum, Prod.smul_snd]
    abel
  · rw [norm_pow, Real.norm_eq_abs]

/-! ### The steps of the model -/

/-- The interpolant, as a polynomial in the fraction of the step, whose coefficients are combinations of the
stages. -/
def HasRows {m : ℕ} (tab : Fin m → Tableau ℚ) (interp : InterpRule m) (s d : ℕ)
    (rows : Tableau ℚ → List (List ℚ)) : Prop :=
  ∀ (E : Type) [AddCommGroup E] [Module ℝ E] (t0 t1 : ℝ) (D : RK.Dense m E) (t : ℝ),
    D.y1 = D.y0 + ∑ p, ∑ i ∈ range s, (((tab p).bSol.getD i 0 : ℚ) : ℝ) • D.ks p i →
    interp E t0 t1 D t = D.y0 + ∑ j ∈ range d, linearRescale t0 t t1 ^ (j + 1) •
      ∑ p, ∑ i ∈ range s, (((rowOf rows j (tab p)).getD i 0 : ℚ) : ℝ) • D.ks p i

/-- A successful step, its stages, and what is stored. -/
theorem step_stages {tab : Fin m → Tableau ℚ} {s : ℕ} {c : ℕ → ℚ} (hok : methodOK s c tab = true)
    (f : Fin m → ℝ → E → E) (cj : CalcJac) (rF rK : RootFinder E J) (nj : J) (t0 t1 : ℝ) (y0 : E)
    (st : RK.State m E) (mj : Bool) (hst : (odeRK tab f cj rF rK nj).ValidState t0 y0 st mj)
    (hroot : (∃ p, (tab p).implicit = true) → rF.Exact ∧ rK.Exact)
    (hsucc : (∃ p, (tab p).implicit = true) →
      ((odeRK tab f cj rF rK nj).step t0 t1 y0 st mj).result.isOkay = true) :
    let rk := odeRK tab f cj rF rK nj
    let D := (rk.step t0 t1 y0 st mj).dense
    rk.IsStages t0 t1 y0 D.ks ∧ D.y0 = y0 ∧ D.y1 = y0 + rk.combine Tableau.bSol D.ks
      ∧ (rk.step t0 t1 y0 st mj).y = D.y1 := by
  obtain ⟨hns, hwf, hfs⟩ := odeRK_WF hok f cj rF rK nj
  intro rk D
  have hroot' : rk.RootExact := fun h => hroot ((implicitPart_isSome tab f cj rF rK nj).1 h)
  have hh : (rk.step t0 t1 y0 st mj).result.isOkay = true := by
    by_cases hi : ∃ p, (tab p).implicit = true
    · exact hsucc hi
    · rw [C41_explicit_succeeds rk (fun p => by
        by_contra hp
        exact hi ⟨p, by simpa [rk, odeRK] using hp⟩)]
      rfl
  obtain ⟨k', h1, h2, h3, h4, h5, h6, -⟩ := C41_step_formula rk hwf hfs hroot' t0 t1 y0 st mj hst hh
  replace h4 : ∀ p, ∀ i < rk.numStages, D.ks p i = k' p i := h4
  have hcomb : ∀ b : Tableau ℚ → List ℚ, rk.combine b D.ks = rk.combine b k' := by
    intro b
    unfold RK.combine
    apply sum_congr rfl; intro p _
    apply sum_congr rfl; intro i hi
    rw [h4 p i (mem_range.1 hi)]
  refine ⟨?_, h5, by rw [hcomb, ← h2]; exact h6, h6.symm⟩
  intro i hi p
  have e := h1 i hi p
  have hv : rk.stageValue y0 D.ks i = rk.stageValue y0 k' i := by
    unfold RK.stageValue
    congr 1
    apply sum_congr rfl; intro q _
    congr 1
    · apply sum_congr rfl; intro j hj
      rw [h4 q j ((mem_range.1 hj).trans hi)]
    · rw [h4 q i hi]
  rw [hv, h4 p i hi]
  exact e

theorem odeRK_combine {tab : Fin m → Tableau ℚ} {s : ℕ} {c : ℕ → ℚ} (hok : methodOK s c tab = true)
    (f : Fin m → ℝ → E → E) (cj : CalcJac) (rF rK : RootFinder E J) (nj : J)
    (b : Tableau ℚ → List ℚ) (k : Fin m → ℕ → E) :
    (odeRK tab f cj rF rK nj).combine b k
      = ∑ p, ∑ i ∈ range s, (((b (tab p)).getD i 0 : ℚ) : ℝ) • k p i := by
  unfold RK.combine
  rw [(odeRK_WF hok f cj rF rK nj).1]
  apply sum_congr rfl; intro p _
  apply sum_congr rfl; intro i _
  rw [qsmul_eq]
  rfl

theorem linearRescale_step (t0 θ h : ℝ) (hh : h ≠ 0) : linearRescale t0 (t0 + θ * h) (t0 + h) = θ := by
  have : ¬ t0 = t0 + h := by simpa using hh
  simp [linearRescale, this, hh]

/-- If finitely many comparisons of rational numbers succeed, the interpolant has that order. -/
theorem denseOrder_of_check (tab : Fin m → Tableau ℚ) (interp : InterpRule m) (s : ℕ) (c : ℕ → ℚ)
    (hok : methodOK s c tab = true)
    (η : ℚ) (rows : Tableau ℚ → List (List ℚ)) (d : ℕ) (hrows : HasRows tab interp s d rows) (N : ℕ)
    (ε : ℚ) (hN : N + 1 ≤ d) (hck : rowsOrder s c tab η rows d ε (N + 1) = true) :
    DenseOrder tab interp (N + 1) (d * ε) := by
  intro E _ _ _ J f cj rF rK nj t0 y0 G hG y hy st mj hst hroot hsucc hks θ hθ0 hθ1
  obtain ⟨hns, hwf, hfs⟩ := odeRK_WF hok f cj rF rK nj
  obtain ⟨hm, hs⟩ := methodOK_pos hok
  set rk := odeRK tab f cj rF rK nj with hrk
  let k : ℝ → Fin m → ℕ → E := fun h => (rk.step t0 (t0 + h) y0 st mj).dense.ks
  have hstep : ∀ᶠ h in 𝓝 (0 : ℝ), rk.IsStages t0 (t0 + h) y0 (k h) ∧
      (rk.step t0 (t0 + h) y0 st mj).dense.y0 = y0 ∧
      (rk.step t0 (t0 + h) y0 st mj).dense.y1 = y0 + rk.combine Tableau.bSol (k h) := by
    have hs' : ∀ᶠ h in 𝓝 (0 : ℝ), (∃ p, (tab p).implicit = true) →
        (rk.step t0 (t0 + h) y0 st mj).result.isOkay = true := by
      by_cases hi : ∃ p, (tab p).implicit = true
      · filter_upwards [hsucc hi] with h hh _ using hh
      · filter_upwards with h hh using absurd hh hi
    filter_upwards [hs'] with h hh
    obtain ⟨a1, a2, a3, -⟩ := step_stages hok f cj rF rK nj t0 (t0 + h) y0 st mj hst hroot hh
    exact ⟨a1, a2, a3⟩
  have hstages := hstep.mono (fun h hh => hh.1)
  have hk0 : ∀ p, ∀ i < s, Tendsto (fun h => k h p i) (𝓝 0) (𝓝 0) := by
    intro p i hi
    by_cases him : ∃ p, (tab p).implicit = true
    · exact hks him p i (by rw [(methodOK_all hok p).1.bSol]; exact hi)
    · exact stages_tendsto_explicit tab f cj rF rK nj (fun p => by
        by_contra hp
        exact him ⟨p, by simpa using hp⟩) t0 y0 (fun p => (hG p).continuousAt) k hstages i
        (by rw [← hrk, hns]; exact hi) p
  have hb := fun p => (methodOK_all hok p).1.bSol
  have hc := fun p => (methodOK_all hok p).2.1
  have := odeRK_dense_near tab f cj rF rK nj hm s hb (by omega) c hc t0 y0 G hG y hy k hstages hk0
    η rows d ε N hN hck θ hθ0 hθ1
  rw [Rat.cast_mul, Rat.cast_natCast]
  apply this.congr
  filter_upwards [hstep] with h hh
  obtain ⟨b1, b2, b3⟩ := hh
  set D := (rk.step t0 (t0 + h) y0 st mj).dense with hD
  have e := hrows E t0 (t0 + h) D (t0 + θ * h) (by
    rw [b2, b3, odeRK_combine hok f cj rF rK nj])
  rw [e, b2, denseComb]
  simp only [odeRK_combine hok f cj rF rK nj]
  by_cases hh0 : h = 0
  · subst hh0
    have hz : ∀ p, ∀ i ∈ range s, D.ks p i = 0 := by
      intro p i hi
      have := odeRK_stage_eq tab f cj rF rK nj t0 0 y0 (k 0) b1 i (by rw [← hrk, hns]; exact mem_range.1 hi) p
      simpa using this
    have hz' : ∀ j, (∑ p, ∑ i ∈ range s, (((rowOf rows j (tab p)).getD i 0 : ℚ) : ℝ) • D.ks p i) = 0 := by
      intro j
      apply sum_eq_zero; intro p _
      apply sum_eq_zero; intro i hi
      rw [hz p i hi, smul_zero]
    have hz'' : ∀ j, (∑ p, ∑ i ∈ range s, (((rowOf rows j (tab p)).getD i 0 : ℚ) : ℝ) • k 0 p i) = 0 := hz'
    simp only [hz', hz'', smul_zero, sum_const_zero]
    abel
  · rw [linearRescale_step t0 θ h hh0]
    show _ = y0 + ∑ j ∈ range d, θ ^ (j + 1) • ∑ p, ∑ i ∈ range s, (((rowOf rows j (tab p)).getD i 0 : ℚ) : ℝ) • k h p i - _
    abel

end
end Verif
