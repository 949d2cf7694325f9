import Verif.Lemmas.OrderRK
import Verif.Props.RK

/-!
# Local error of a step of a Runge-Kutta method
-/

set_option linter.unusedSectionVars false

namespace Verif
open Finset Asymptotics Filter Topology

section
variable {m : ℕ} {E : Type} [NormedAddCommGroup E] [NormedSpace ℝ E] [Module ℚ E] {J : Type}

theorem NearOrder.isBigO {G : Fin m → FormalMultilinearSeries ℝ (ℝ × E) E} {N : ℕ} {err : ℝ → E}
    (h : NearOrder G N 0 err) : err =O[𝓝 0] (fun h : ℝ => h ^ (N + 1)) := by
  obtain ⟨d, hd, C, hC⟩ := h
  have hd0 : ∀ t, d t = 0 := fun t => abs_eq_zero.1 (le_antisymm (hd t) (abs_nonneg _))
  apply IsBigO.of_bound C
  filter_upwards [hC] with h hh
  rw [norm_pow, Real.norm_eq_abs]
  simpa [hd0] using hh

/-- A bound for the size of the error. -/
theorem NearOrder.bound {G : Fin m → FormalMultilinearSeries ℝ (ℝ × E) E} {N : ℕ} {ε : ℝ} {err : ℝ → E}
    (h : NearOrder G N ε err) : ∃ C : ℝ, ∀ᶠ h in 𝓝 (0 : ℝ), ‖err h‖ ≤
      ε * (∑ t ∈ PTree.upTo (Fin (m + 1)) N, |h| ^ t.order * ‖(t.diff (autoSeries G)).2‖)
        + C * |h| ^ (N + 1) := by
  obtain ⟨d, hd, C, hC⟩ := h
  refine ⟨C, ?_⟩
  filter_upwards [hC] with h hh
  set S := ∑ t ∈ PTree.upTo (Fin (m + 1)) N, (d t * h ^ t.order) • (t.diff (autoSeries G)).2 with hS
  have h1 : ‖S‖ ≤ ε * (∑ t ∈ PTree.upTo (Fin (m + 1)) N, |h| ^ t.order * ‖(t.diff (autoSeries G)).2‖) := by
    rw [hS, mul_sum]
    refine (norm_sum_le _ _).trans (sum_le_sum (fun t _ => ?_))
    rw [norm_smul, norm_mul, norm_pow, Real.norm_eq_abs, Real.norm_eq_abs, mul_assoc]
    exact mul_le_mul_of_nonneg_right (hd t) (by positivity)
  have h2 : err h = S + (err h - S) := by abel
  rw [h2]
  exact (norm_add_le _ _).trans (add_le_add h1 hh)

theorem NearOrder.congr {G : Fin m → FormalMultilinearSeries ℝ (ℝ × E) E} {N : ℕ} {ε : ℝ}
    {err err' : ℝ → E} (h : NearOrder G N ε err) (he : err =ᶠ[𝓝 0] err') : NearOrder G N ε err' := by
  obtain ⟨d, hd, C, hC⟩ := h
  refine ⟨d, hd, C, ?_⟩
  filter_upwards [hC, he] with h hh he
  rwa [← he]

/-- Series whose coefficients are close. -/
theorem bseries_near (G : Fin m → FormalMultilinearSeries ℝ (ℝ × E) E) (N : ℕ)
    (α β : PTree (Fin (m + 1)) → ℝ) (ε : ℝ)
    (hαβ : ∀ t, t.Adm (fun p => decide (p = 0)) → t.order ≤ N + 1 → |α t - β t| ≤ ε) :
    ∃ d : PTree (Fin (m + 1)) → ℝ, (∀ t, |d t| ≤ ε) ∧ ∀ h,
    bseries (autoSeries G) (N + 1) α h - bseries (autoSeries G) (N + 1) β h
      = ∑ t ∈ PTree.upTo (Fin (m + 1)) (N + 1), (d t * h ^ t.order) • t.diff (autoSeries G) := by
  classical
  have hε : 0 ≤ ε := by
    refine (abs_nonneg _).trans (hαβ (.node 0 0 Fin.elim0) ?_ ?_)
    · simp [PTree.Adm]
    · simp [PTree.order]
  refine ⟨fun t => if t.Adm (fun p => decide (p = 0)) ∧ t.order ≤ N + 1 then α t - β t else 0, ?_, ?_⟩
  · intro t
    dsimp only
    split
    · rename_i h; exact hαβ t h.1 h.2
    · simpa using hε
  · intro h
    unfold bseries
    rw [← sum_sub_distrib]
    apply sum_congr rfl
    intro t ht
    rw [← sub_smul, ← sub_mul]
    by_cases hadm : t.Adm (fun p => decide (p = 0))
    · dsimp only; rw [if_pos ⟨hadm, PTree.order_le_of_mem ht⟩]
    · rw [diff_eq_zero G t hadm]; simp

/-- Local error of the weights `b`, relative to `q` times the exact solution. -/
theorem odeRK_near (tab : Fin m → Tableau ℚ) (f : Fin m → ℝ → E → E) (cj : CalcJac)
    (rF rK : RootFinder E J) (nj : J) (hm : 0 < m) (s : ℕ) (hs : ∀ p, (tab p).bSol.length = s)
    (hs0 : 0 < s)
    (c : ℕ → ℚ) (hc : ∀ p, ∀ i < s, (tab p).abscissa i = c i)
    (t0 : ℝ) (y0 : E) (G : Fin m → FormalMultilinearSeries ℝ (ℝ × E) E)
    (hG : ∀ p, HasFPowerSeriesAt (fun x : ℝ × E => f p x.1 x.2) (G p) (t0, y0))
    (y : ℝ → E) (hy : SolvesODE f t0 y0 y)
    (k : ℝ → Fin m → ℕ → E)
    (hk : ∀ᶠ h in 𝓝 (0 : ℝ), (odeRK tab f cj rF rK nj).IsStages t0 (t0 + h) y0 (k h))
    (hk0 : ∀ p, ∀ i < s, Tendsto (fun h => k h p i) (𝓝 0) (𝓝 0))
    (η : ℚ) (b : Tableau ℚ → List ℚ) (q ε : ℚ) (N : ℕ) (hck : tabOrder s c tab η b q ε (N + 1) = true) :
    NearOrder G (N + 1) ε
      (fun h => (odeRK tab f cj rF rK nj).combine b (k h) - (q : ℝ) • (y (t0 + h) - y0)) := by
  set rk := odeRK tab f cj rF rK nj with hrk
  have h1 := odeRK_expansion tab f cj rF rK nj hm s hs hs0 c hc t0 y0 G hG k hk hk0 b q N
  have h2 := flow_expansion (autoSeries G) (autoSeries_has f G (t0, y0) hG) _ hy.isFlow (N + 1)
  have h3 := h1.sub (h2.const_smul_left (q : ℝ))
  obtain ⟨d, hd, hAB⟩ := bseries_near G N
    (fun t => ((t.weight s (orderA s c tab) (orderB tab b q) : ℚ) : ℝ)) (fun t => (q : ℝ) * t.exact) ε
    (by
      intro t hadm ho
      have := tabOrder_sound s c tab η b q ε (N + 1) hck t hadm ho
      rw [PTree.exact_cast]
      have h' : (((|t.weight s (orderA s c tab) (orderB tab b q) - q * t.exact| : ℚ)) : ℝ) ≤ (ε : ℝ) := by
        exact_mod_cast this
      push_cast at h'
      exact h')
  obtain ⟨C, hC⟩ := h3.bound
  refine ⟨d, hd, C, ?_⟩
  filter_upwards [hC] with h hh
  specialize hAB h
  set A := bseries (autoSeries G) (N + 1)
    (fun t => ((t.weight s (orderA s c tab) (orderB tab b q) : ℚ) : ℝ)) h with hA
  set B := bseries (autoSeries G) (N + 1) (fun t => t.exact) h with hB
  have hqB : (q : ℝ) • B = bseries (autoSeries G) (N + 1) (fun t => (q : ℝ) * t.exact) h := by
    rw [hB]
    unfold bseries
    rw [smul_sum]
    apply sum_congr rfl
    intro t _
    rw [smul_smul, mul_assoc]
  rw [← hqB] at hAB
  have hsnd : ∑ t ∈ PTree.upTo (Fin (m + 1)) (N + 1), (d t * h ^ t.order) • (t.diff (autoSeries G)).2
      = (A - (q : ℝ) • B).2 := by
    rw [hAB, Prod.snd_sum]
    rfl
  have e : (rk.combine b (k h) - (q : ℝ) • (y (t0 + h) - y0)) - (A - (q : ℝ) • B).2
      = (((q : ℝ) * h, rk.combine b (k h)) - A - (q : ℝ) • ((h, y (t0 + h) - y0) - B)).2 := by
    simp only [Prod.snd_sub, Prod.smul_snd, smul_sub]
    abel
  rw [hsnd, e]
  refine (norm_snd_le _).trans (hh.trans ?_)
  rw [norm_pow, Real.norm_eq_abs]

/-! ### The stages are small -/

theorem odeRK_stage_eq (tab : Fin m → Tableau ℚ) (f : Fin m → ℝ → E → E) (cj : CalcJac)
    (rF rK : RootFinder E J) (nj : J) (t0 h : ℝ) (y0 : E) (k : Fin m → ℕ → E)
    (hk : (odeRK tab f cj rF rK nj).IsStages t0 (t0 + h) y0 k) (i : ℕ)
    (hi : i < (odeRK tab f cj rF rK nj).numStages) (p : Fin m) :
    k p i = h • f p (t0 + ((tab p).abscissa i : ℝ) * h) (y0 + stageInc tab k i) := by
  have := hk i hi p
  rw [odeRK_stageTime] at this
  rw [this]
  simp [odeRK, odeTerm]
  rfl

/-- Explicit methods. -/
theorem stages_tendsto_explicit (tab : Fin m → Tableau ℚ) (f : Fin m → ℝ → E → E) (cj : CalcJac)
    (rF rK : RootFinder E J) (nj : J) (hex : ∀ p, (tab p).implicit = false)
    (t0 : ℝ) (y0 : E) (hf : ∀ p, ContinuousAt (fun x : ℝ × E => f p x.1 x.2) (t0, y0))
    (k : ℝ → Fin m → ℕ → E)
    (hk : ∀ᶠ h in 𝓝 (0 : ℝ), (odeRK tab f cj rF rK nj).IsStages t0 (t0 + h) y0 (k h)) :
    ∀ i < (odeRK tab f cj rF rK nj).numStages, ∀ p, Tendsto (fun h => k h p i) (𝓝 0) (𝓝 0) := by
  intro i
  induction i using Nat.strong_induction_on with
  | _ i ih =>
    intro hi p
    have hd : ∀ p, (tab p).d i = 0 := by
      intro p
      have := hex p
      unfold Tableau.implicit at this
      unfold Tableau.d
      cases hh : (tab p).aDiagonal with
      | none => simp
      | some d => rw [hh] at this; simp at this
    have hinc : Tendsto (fun h => stageInc tab (k h) i) (𝓝 0) (𝓝 0) := by
      unfold stageInc
      have : Tendsto (fun h => ∑ p, (∑ j ∈ range i, (tab p).a i j • k h p j + (tab p).d i • k h p i))
          (𝓝 0) (𝓝 (∑ p : Fin m, (∑ j ∈ range i, ((tab p).a i j : ℝ) • (0 : E) + 0))) := by
        apply tendsto_finsetSum; intro p _
        apply Tendsto.add
        · apply tendsto_finsetSum; intro j hj
          rw [mem_range] at hj
          simp only [qsmul_eq]
          exact (ih j hj (hj.trans hi) p).const_smul _
        · simp [hd]
      simpa using this
    have htime : Tendsto (fun h : ℝ => t0 + ((tab p).abscissa i : ℝ) * h) (𝓝 0) (𝓝 t0) := by
      have : Tendsto (fun h : ℝ => t0 + ((tab p).abscissa i : ℝ) * h) (𝓝 0)
          (𝓝 (t0 + ((tab p).abscissa i : ℝ) * 0)) :=
        (continuous_const.add (continuous_const.mul continuous_id)).tendsto 0
      simpa using this
    have hy : Tendsto (fun h => y0 + stageInc tab (k h) i) (𝓝 0) (𝓝 y0) := by
      simpa using (tendsto_const_nhds (x := y0)).add hinc
    have hF : Tendsto (fun h : ℝ => f p (t0 + ((tab p).abscissa i : ℝ) * h) (y0 + stageInc tab (k h) i))
        (𝓝 0) (𝓝 (f p t0 y0)) := (hf p).tendsto.comp (htime.prodMk_nhds hy)
    have hsm : Tendsto (fun h : ℝ => h • f p (t0 + ((tab p).abscissa i : ℝ) * h)
        (y0 + stageInc tab (k h) i)) (𝓝 0) (𝓝 ((0 : ℝ) • f p t0 y0)) := Tendsto.smul tendsto_id hF
    rw [zero_smul] at hsm
    refine hsm.congr' ?_
    filter_upwards [hk] with h hh
    exact (odeRK_stage_eq tab f cj rF rK nj t0 h y0 (k h) hh i hi p).symm

/-- Diagonally implicit methods, if the vector fields are Lipschitz. -/
theorem stages_tendsto_lipschitz (tab : Fin m → Tableau ℚ) (f : Fin m → ℝ → E → E) (cj : CalcJac)
    (rF rK : RootFinder E J) (nj : J) (L : ℝ)
    (hlip : ∀ p t y y', ‖f p t y - f p t y'‖ ≤ L * ‖y - y'‖)
    (t0 : ℝ) (y0 : E) (hf : ∀ p, ContinuousAt (fun x : ℝ × E => f p x.1 x.2) (t0, y0))
    (k : ℝ → Fin m → ℕ → E)
    (hk : ∀ᶠ h in 𝓝 (0 : ℝ), (odeRK tab f cj rF rK nj).IsStages t0 (t0 + h) y0 (k h)) :
    ∀ i < (odeRK tab f cj rF rK nj).numStages, ∀ p, Tendsto (fun h => k h p i) (𝓝 0) (𝓝 0) := by
  intro i
  induction i using Nat.strong_induction_on with
  | _ i ih =>
    intro hi
    -- the explicit part of the increment
    let x : ℝ → E := fun h => ∑ p, ∑ j ∈ range i, (tab p).a i j • k h p j
    have hx : Tendsto x (𝓝 0) (𝓝 0) := by
      have : Tendsto x (𝓝 0) (𝓝 (∑ p : Fin m, ∑ j ∈ range i, ((tab p).a i j : ℝ) • (0 : E))) := by
        apply tendsto_finsetSum; intro p _
        apply tendsto_finsetSum; intro j hj
        rw [mem_range] at hj
        simp only [qsmul_eq]
        exact (ih j hj (hj.trans hi) p).const_smul _
      simpa using this
    -- the vector fields at `y0`
    let g : Fin m → ℝ → E := fun p h => f p (t0 + ((tab p).abscissa i : ℝ) * h) y0
    have hg : ∀ p, Tendsto (g p) (𝓝 0) (𝓝 (f p t0 y0)) := by
      intro p
      have htime : Tendsto (fun h : ℝ => t0 + ((tab p).abscissa i : ℝ) * h) (𝓝 0) (𝓝 t0) := by
        have : Tendsto (fun h : ℝ => t0 + ((tab p).abscissa i : ℝ) * h) (𝓝 0)
            (𝓝 (t0 + ((tab p).abscissa i : ℝ) * 0)) :=
          (continuous_const.add (continuous_const.mul continuous_id)).tendsto 0
        simpa using this
      exact (hf p).tendsto.comp (htime.prodMk_nhds tendsto_const_nhds)
    let D : ℝ := ∑ p, ‖((tab p).d i : ℝ)‖
    have hD : 0 ≤ D := sum_nonneg (fun _ _ => norm_nonneg _)
    -- a bound for the increment
    let v : ℝ → ℝ := fun h => ‖x h‖ + |h| * ∑ p, ‖((tab p).d i : ℝ)‖ * ‖g p h‖
    have hv : Tendsto v (𝓝 0) (𝓝 0) := by
      have h1 : Tendsto (fun h : ℝ => |h|) (𝓝 0) (𝓝 0) := by
        simpa using (continuous_abs (G := ℝ)).tendsto 0
      have h2 : Tendsto (fun h : ℝ => ∑ p, ‖((tab p).d i : ℝ)‖ * ‖g p h‖) (𝓝 0)
          (𝓝 (∑ p, ‖((tab p).d i : ℝ)‖ * ‖f p t0 y0‖)) := by
        apply tendsto_finsetSum; intro p _
        exact ((hg p).norm).const_mul _
      have := hx.norm.add (h1.mul h2)
      rw [norm_zero, zero_mul, add_zero] at this
      exact this
    have hsmall : ∀ᶠ h in 𝓝 (0 : ℝ), |h| * (D * L) ≤ 1 / 2 := by
      have h1 : Tendsto (fun h : ℝ => |h| * (D * L)) (𝓝 0) (𝓝 (|0| * (D * L))) :=
        ((continuous_abs (G := ℝ)).mul continuous_const).tendsto 0
      rw [abs_zero, zero_mul] at h1
      exact h1.eventually (eventually_le_nhds (by norm_num))
    have hinc : ∀ᶠ h in 𝓝 (0 : ℝ), ‖stageInc tab (k h) i‖ ≤ 2 * v h := by
      filter_upwards [hk, hsmall] with h hh hs
      set z := stageInc tab (k h) i with hz
      have hkb : ∀ p, ‖k h p i‖ ≤ |h| * (‖g p h‖ + L * ‖z‖) := by
        intro p
        rw [odeRK_stage_eq tab f cj rF rK nj t0 h y0 (k h) hh i hi p, norm_smul, Real.norm_eq_abs, ← hz]
        apply mul_le_mul_of_nonneg_left _ (abs_nonneg h)
        have h1 := hlip p (t0 + ((tab p).abscissa i : ℝ) * h) (y0 + z) y0
        rw [add_sub_cancel_left] at h1
        calc ‖f p (t0 + ((tab p).abscissa i : ℝ) * h) (y0 + z)‖
            = ‖g p h + (f p (t0 + ((tab p).abscissa i : ℝ) * h) (y0 + z) - g p h)‖ := by
              rw [add_sub_cancel]
          _ ≤ ‖g p h‖ + L * ‖z‖ := (norm_add_le _ _).trans (add_le_add le_rfl h1)
      have hzx : z = x h + ∑ p, (tab p).d i • k h p i := by
        rw [hz, stageInc, sum_add_distrib]
      have hzb : ‖z‖ ≤ v h + |h| * (D * L) * ‖z‖ := by
        calc ‖z‖ ≤ ‖x h‖ + ‖∑ p, (tab p).d i • k h p i‖ := by rw [hzx]; exact norm_add_le _ _
          _ ≤ ‖x h‖ + ∑ p, ‖((tab p).d i : ℝ)‖ * (|h| * (‖g p h‖ + L * ‖z‖)) := by
              apply add_le_add le_rfl
              refine (norm_sum_le _ _).trans (sum_le_sum (fun p _ => ?_))
              rw [qsmul_eq, norm_smul]
              exact mul_le_mul_of_nonneg_left (hkb p) (norm_nonneg _)
          _ = v h + |h| * (D * L) * ‖z‖ := by
              simp only [v, D, sum_mul, mul_sum, add_assoc]
              congr 1
              rw [← sum_add_distrib]
              apply sum_congr rfl
              intro p _
              ring
      have : |h| * (D * L) * ‖z‖ ≤ 1 / 2 * ‖z‖ := mul_le_mul_of_nonneg_right hs (norm_nonneg _)
      linarith
    have hinc0 : Tendsto (fun h => stageInc tab (k h) i) (𝓝 0) (𝓝 0) := by
      apply squeeze_zero_norm' hinc
      simpa using hv.const_mul 2
    intro p
    have hb : ∀ᶠ h in 𝓝 (0 : ℝ), ‖k h p i‖ ≤ |h| * (‖g p h‖ + L * ‖stageInc tab (k h) i‖) := by
      filter_upwards [hk] with h hh
      rw [odeRK_stage_eq tab f cj rF rK nj t0 h y0 (k h) hh i hi p, norm_smul, Real.norm_eq_abs]
      apply mul_le_mul_of_nonneg_left _ (abs_nonneg h)
      have h1 := hlip p (t0 + ((tab p).abscissa i : ℝ) * h) (y0 + stageInc tab (k h) i) y0
      rw [add_sub_cancel_left] at h1
      calc ‖f p (t0 + ((tab p).abscissa i : ℝ) * h) (y0 + stageInc tab (k h) i)‖
          = ‖g p h + (f p (t0 + ((tab p).abscissa i : ℝ) * h) (y0 + stageInc tab (k h) i) - g p h)‖ := by
            rw [add_sub_cancel]
        _ ≤ ‖g p h‖ + L * ‖stageInc tab (k h) i‖ := (norm_add_le _ _).trans (add_le_add le_rfl h1)
    apply squeeze_zero_norm' hb
    have h1 : Tendsto (fun h : ℝ => |h|) (𝓝 0) (𝓝 0) := by
      simpa using (continuous_abs (G := ℝ)).tendsto 0
    have h2 := h1.mul ((hg p).norm.add (hinc0.norm.const_mul L))
    simpa using h2

end

/-! ### What `ButcherTableau` and `AbstractRungeKutta` check -/

/-- The shapes (113-140, 367-374), and that first-same-as-last methods start at `c = 0` and end at
`c = 1`; all tableaus have the abscissae `c`. -/
def methodOK {m : ℕ} (s : ℕ) (c : ℕ → ℚ) (tab : Fin m → Tableau ℚ) : Bool :=
  decide (0 < m) && decide (2 ≤ s) && (List.finRange m).all (fun p =>
    decide ((tab p).c.length + 1 = s) && decide ((tab p).bSol.length = s)
    && decide ((tab p).bError.length = s) && decide ((tab p).aLower.length + 1 = s)
    && (List.range (tab p).aLower.length).all (fun i => decide (((tab p).aLower.getD i []).length = i + 1))
    && decide (((tab p).aDiagonal.map List.length).getD s = s)
    && (List.range s).all (fun i => decide ((tab p).abscissa i = c i))
    && decide ((tab p).c1 = 0)
    && (!(tab p).fsal || decide ((tab p).abscissa (s - 1) = 1))
    && (List.finRange m).all (fun q => !((tab p).implicit && (tab q).implicit) || decide (p = q)))

section
variable {m : ℕ} {E : Type} [AddCommGroup E] [Module ℝ E] [Module ℚ E] {J : Type}

theorem methodOK_pos {s : ℕ} {c : ℕ → ℚ} {tab : Fin m → Tableau ℚ} (h : methodOK s c tab = true) :
    0 < m ∧ 2 ≤ s := by
  simp only [methodOK, Bool.and_eq_true, decide_eq_true_eq] at h
  exact h.1

theorem methodOK_all {s : ℕ} {c : ℕ → ℚ} {tab : Fin m → Tableau ℚ} (h : methodOK s c tab = true)
    (p : Fin m) : (tab p).Shape s ∧ (∀ i < s, (tab p).abscissa i = c i) ∧ (tab p).c1 = 0 ∧
      ((tab p).fsal = true → (tab p).abscissa (s - 1) = 1) ∧
      ∀ q, (tab p).implicit → (tab q).implicit → p = q := by
  simp only [methodOK, Bool.and_eq_true, decide_eq_true_eq, List.all_eq_true, List.mem_finRange,
    forall_const, List.mem_range, Bool.or_eq_true, Bool.not_eq_true', Bool.and_eq_false_iff] at h
  obtain ⟨⟨⟨⟨⟨⟨⟨⟨⟨h1, h2⟩, h3⟩, h4⟩, h5⟩, h6⟩, h7⟩, h8⟩, h9⟩, h10⟩ := h.2 p
  refine ⟨⟨h1, h2, h3, h4, h5, ?_⟩, h7, h8, ?_, ?_⟩
  · intro d hd
    rw [hd] at h6
    simpa using h6
  · intro hfs
    rcases h9 with h9 | h9
    · rw [h9] at hfs; simp at hfs
    · exact h9
  · intro q hp hq
    rcases h10 q with h10 | h10
    · rcases h10 with h10 | h10
      · rw [h10] at hp; simp at hp
      · rw [h10] at hq; simp at hq
    · exact h10

theorem odeRK_WF {s : ℕ} {c : ℕ → ℚ} {tab : Fin m → Tableau ℚ} (h : methodOK s c tab = true)
    (f : Fin m → ℝ → E → E) (cj : CalcJac) (rF rK : RootFinder E J) (nj : J) :
    (odeRK tab f cj rF rK nj).numStages = s ∧ (odeRK tab f cj rF rK nj).WF
      ∧ (odeRK tab f cj rF rK nj).FsalOK := by
  obtain ⟨hm, hs⟩ := methodOK_pos h
  have hns : (odeRK tab f cj rF rK nj).numStages = s := by
    unfold RK.numStages
    rw [dif_pos hm]
    exact (methodOK_all h _).1.bSol
  refine ⟨hns, ⟨hm, ?_, by rw [hns]; exact hs, ?_, ?_, ?_, ?_⟩, ⟨?_, ?_, ?_⟩⟩
  · intro p; rw [hns]; exact (methodOK_all h p).1
  · intro p q hp hq; exact (methodOK_all h p).2.2.2.2 q hp hq
  · intro p f g c; exact smul_add _ _ _
  · intro p a f c
    show c • (a • f) = a • (c • f)
    rw [← Rat.cast_smul_eq_qsmul ℝ a f, ← Rat.cast_smul_eq_qsmul ℝ a (c • f), smul_comm]
  · intro p t y c; rfl
  · intro _ p; exact (methodOK_all h p).2.2.1
  · intro hf p
    rw [hns]
    apply (methodOK_all h p).2.2.2.1
    simp only [RK.fsal, Bool.and_eq_true, List.all_eq_true] at hf
    exact hf.1 p (List.mem_finRange p)
  · intro a b
    simp [odeRK]

end
end Verif
