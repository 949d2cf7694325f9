import Verif.Lemmas.Convergence
import Mathlib.Analysis.Calculus.ContDiff.RCLike
import Mathlib.Geometry.Manifold.PartitionOfUnity

/-!
# Explicit methods near a solution, without global assumptions on the equation
-/

set_option linter.unusedSectionVars false

namespace Verif
open Finset Filter Topology
open scoped ContDiff Manifold

section
variable {m : ℕ} {E : Type} [NormedAddCommGroup E] [NormedSpace ℝ E] [Module ℚ E] {J : Type}
  (tab : Fin m → Tableau ℚ) (f : Fin m → ℝ → E → E) (cj : CalcJac) (rF rK : RootFinder E J) (nj : J)
  {s : ℕ} {c : ℕ → ℚ}

/-- The point at which stage `i` of an explicit method evaluates the `p`-th vector field. -/
noncomputable def exPoint (t h : ℝ) (x : E) (p : Fin m) (i : ℕ) : ℝ × E :=
  (t + ((tab p).abscissa i : ℝ) * h,
    x + ∑ q, ∑ j ∈ range i, ((tab q).a i j : ℝ) • exK tab f cj rF rK nj t h x q j)

theorem exK_eq (hok : methodOK s c tab = true) (hex : ∀ p, (tab p).implicit = false) (t h : ℝ) (x : E) (i : ℕ)
    (hi : i < s) (p : Fin m) : exK tab f cj rF rK nj t h x p i
      = h • f p (exPoint tab f cj rF rK nj t h x p i).1 (exPoint tab f cj rF rK nj t h x p i).2 :=
  (explicit_step tab f cj rF rK nj hok hex t h x _ false (validState_init tab f cj rF rK nj _ _ _)).2 i hi p

/-- A bound for the coefficients of the method. -/
noncomputable def aSize (s : ℕ) : ℝ :=
  1 + ∑ i ∈ range s, ((∑ q : Fin m, ∑ j ∈ range i, |((tab q).a i j : ℝ)|) + ∑ q : Fin m, |((tab q).abscissa i : ℝ)|)

theorem aSize_pos (s : ℕ) : 0 < aSize tab s := by unfold aSize; positivity

theorem aSize_a (i : ℕ) (hi : i < s) : ∑ q : Fin m, ∑ j ∈ range i, |((tab q).a i j : ℝ)| ≤ aSize tab s := by
  have h1 := single_le_sum (f := fun i => (∑ q : Fin m, ∑ j ∈ range i, |((tab q).a i j : ℝ)|)
    + ∑ q : Fin m, |((tab q).abscissa i : ℝ)|) (fun i _ => by positivity) (mem_range.2 hi)
  have h2 : (0 : ℝ) ≤ ∑ q : Fin m, |((tab q).abscissa i : ℝ)| := by positivity
  unfold aSize
  linarith

theorem aSize_c (i : ℕ) (hi : i < s) (p : Fin m) : |((tab p).abscissa i : ℝ)| ≤ aSize tab s := by
  have h1 := single_le_sum (f := fun i => (∑ q : Fin m, ∑ j ∈ range i, |((tab q).a i j : ℝ)|)
    + ∑ q : Fin m, |((tab q).abscissa i : ℝ)|) (fun i _ => by positivity) (mem_range.2 hi)
  have h2 : (0 : ℝ) ≤ ∑ q : Fin m, ∑ j ∈ range i, |((tab q).a i j : ℝ)| := by positivity
  have h3 : |((tab p).abscissa i : ℝ)| ≤ ∑ q : Fin m, |((tab q).abscissa i : ℝ)| :=
    single_le_sum (f := fun q => |((tab q).abscissa i : ℝ)|) (fun q _ => abs_nonneg _) (mem_univ p)
  unfold aSize
  linarith

/-- The stages of short steps stay near the start. -/
theorem stage_near (hok : methodOK s c tab = true) (hex : ∀ p, (tab p).implicit = false) (t : ℝ) (x0 : E) (r M : ℝ)
    (hM0 : 0 ≤ M) (hM : ∀ p, ∀ z ∈ Metric.closedBall (t, x0) r, ‖f p z.1 z.2‖ ≤ M) (h : ℝ) (h0 : 0 ≤ h)
    (hh : aSize tab s * (h * (M + 1)) ≤ r / 2) (x : E) (hx : ‖x - x0‖ ≤ r / 2) :
    ∀ i < s, ∀ p, exPoint tab f cj rF rK nj t h x p i ∈ Metric.closedBall (t, x0) r ∧
      ‖exK tab f cj rF rK nj t h x p i‖ ≤ h * M := by
  intro i
  induction i using Nat.strong_induction_on with
  | _ i ih =>
    intro hi p
    have hA := aSize_pos tab s
    have hr : 0 ≤ r / 2 := le_trans (by positivity) hh
    have hpt : exPoint tab f cj rF rK nj t h x p i ∈ Metric.closedBall (t, x0) r := by
      rw [Metric.mem_closedBall, dist_eq_norm, Prod.norm_def]
      apply max_le
      · show ‖t + ((tab p).abscissa i : ℝ) * h - t‖ ≤ r
        rw [add_sub_cancel_left, Real.norm_eq_abs, abs_mul, abs_of_nonneg h0]
        calc |((tab p).abscissa i : ℝ)| * h ≤ aSize tab s * (h * (M + 1)) := by
              apply mul_le_mul (aSize_c tab i hi p) _ h0 hA.le
              nlinarith
          _ ≤ r := by linarith
      · show ‖x + ∑ q, ∑ j ∈ range i, ((tab q).a i j : ℝ) • exK tab f cj rF rK nj t h x q j - x0‖ ≤ r
        have e : x + ∑ q, ∑ j ∈ range i, ((tab q).a i j : ℝ) • exK tab f cj rF rK nj t h x q j - x0
            = (x - x0) + ∑ q, ∑ j ∈ range i, ((tab q).a i j : ℝ) • exK tab f cj rF rK nj t h x q j := by abel
        rw [e]
        have h1 : ‖∑ q, ∑ j ∈ range i, ((tab q).a i j : ℝ) • exK tab f cj rF rK nj t h x q j‖
            ≤ (∑ q : Fin m, ∑ j ∈ range i, |((tab q).a i j : ℝ)|) * (h * M) := by
          simp only [sum_mul]
          refine (norm_sum_le _ _).trans (sum_le_sum fun q _ => ?_)
          refine (norm_sum_le _ _).trans (sum_le_sum fun j hj => ?_)
          rw [norm_smul, Real.norm_eq_abs]
          exact mul_le_mul_of_nonneg_left (ih j (mem_range.1 hj) ((mem_range.1 hj).trans hi) q).2 (abs_nonneg _)
        have h2 : (∑ q : Fin m, ∑ j ∈ range i, |((tab q).a i j : ℝ)|) * (h * M) ≤ r / 2 := by
          refine le_trans ?_ hh
          apply mul_le_mul (aSize_a tab i hi) _ (by positivity) hA.le
          nlinarith
        exact (norm_add_le _ _).trans (by linarith)
    refine ⟨hpt, ?_⟩
    rw [exK_eq tab f cj rF rK nj hok hex t h x i hi p, norm_smul, Real.norm_of_nonneg h0]
    exact mul_le_mul_of_nonneg_left (hM p _ hpt) h0

/-- Short steps depend on the initial value in a Lipschitz way. -/
theorem local_lipschitz (hok : methodOK s c tab = true) (hex : ∀ p, (tab p).implicit = false) (r M L δ : ℝ) (hM0 : 0 ≤ M)
    (hL0 : 0 ≤ L) (hδ : aSize tab s * (δ * (M + 1)) ≤ r / 2) :
    ∃ K, 0 ≤ K ∧ ∀ (t : ℝ) (x0 : E), (∀ p, ∀ z ∈ Metric.closedBall (t, x0) r, ‖f p z.1 z.2‖ ≤ M) →
      (∀ p, ∀ z ∈ Metric.closedBall (t, x0) r, ∀ z' ∈ Metric.closedBall (t, x0) r, z.1 = z'.1 →
        ‖f p z.1 z.2 - f p z'.1 z'.2‖ ≤ L * ‖z.2 - z'.2‖) →
      ∀ h, 0 ≤ h → h ≤ δ → ∀ x x', ‖x - x0‖ ≤ r / 2 → ‖x' - x0‖ ≤ r / 2 → ∀ st st' mj mj',
      (odeRK tab f cj rF rK nj).ValidState t x st mj → (odeRK tab f cj rF rK nj).ValidState t x' st' mj' →
      ‖((odeRK tab f cj rF rK nj).step t (t + h) x st mj).y
        - ((odeRK tab f cj rF rK nj).step t (t + h) x' st' mj').y‖ ≤ (1 + K * h) * ‖x - x'‖ := by
  have hst : ∀ n ≤ s, ∃ K, 0 ≤ K ∧ ∀ (t : ℝ) (x0 : E), (∀ p, ∀ z ∈ Metric.closedBall (t, x0) r, ‖f p z.1 z.2‖ ≤ M) →
      (∀ p, ∀ z ∈ Metric.closedBall (t, x0) r, ∀ z' ∈ Metric.closedBall (t, x0) r, z.1 = z'.1 →
        ‖f p z.1 z.2 - f p z'.1 z'.2‖ ≤ L * ‖z.2 - z'.2‖) → ∀ i < n, ∀ p h, 0 ≤ h → h ≤ δ →
      ∀ x x', ‖x - x0‖ ≤ r / 2 → ‖x' - x0‖ ≤ r / 2 →
      ‖exK tab f cj rF rK nj t h x p i - exK tab f cj rF rK nj t h x' p i‖ ≤ K * h * ‖x - x'‖ := by
    intro n
    induction n with
    | zero => intro _; exact ⟨0, le_rfl, fun _ _ _ _ i hi => by omega⟩
    | succ n ih =>
      intro hn
      obtain ⟨K, hK, hb⟩ := ih (by omega)
      let B : ℝ := ∑ q : Fin m, ∑ j ∈ range n, |((tab q).a n j : ℝ)|
      have hB : 0 ≤ B := by positivity
      refine ⟨max K (L * (1 + B * (K * δ))), le_max_of_le_left hK, ?_⟩
      intro t x0 hMb hLb i hi p h h0 hH x x' hx hx'
      rcases Nat.lt_succ_iff_lt_or_eq.1 hi with hi' | rfl
      · refine (hb t x0 hMb hLb i hi' p h h0 hH x x' hx hx').trans ?_
        gcongr
        exact le_max_left _ _
      have hA := aSize_pos tab s
      have hh : aSize tab s * (h * (M + 1)) ≤ r / 2 := le_trans (by gcongr) hδ
      have n1 := (stage_near tab f cj rF rK nj hok hex t x0 r M hM0 hMb h h0 hh x hx i (by omega) p).1
      have n2 := (stage_near tab f cj rF rK nj hok hex t x0 r M hM0 hMb h h0 hh x' hx' i (by omega) p).1
      rw [exK_eq tab f cj rF rK nj hok hex t h x i (by omega) p,
        exK_eq tab f cj rF rK nj hok hex t h x' i (by omega) p, ← smul_sub, norm_smul, Real.norm_of_nonneg h0]
      have h1 : ‖(exPoint tab f cj rF rK nj t h x p i).2 - (exPoint tab f cj rF rK nj t h x' p i).2‖
          ≤ (1 + B * (K * δ)) * ‖x - x'‖ := by
        have e2 : (exPoint tab f cj rF rK nj t h x p i).2 - (exPoint tab f cj rF rK nj t h x' p i).2
          = (x - x') + ∑ q, ∑ j ∈ range i, ((tab q).a i j : ℝ) •
            (exK tab f cj rF rK nj t h x q j - exK tab f cj rF rK nj t h x' q j) := by
          simp only [exPoint, smul_sub, sum_sub_distrib]; abel
        rw [e2]
        have h2 : ‖∑ q, ∑ j ∈ range i, ((tab q).a i j : ℝ) •
            (exK tab f cj rF rK nj t h x q j - exK tab f cj rF rK nj t h x' q j)‖
            ≤ B * (K * δ) * ‖x - x'‖ := by
          simp only [B, sum_mul]
          refine (norm_sum_le _ _).trans (sum_le_sum fun q _ => ?_)
          refine (norm_sum_le _ _).trans (sum_le_sum fun j hj => ?_)
          rw [norm_smul, Real.norm_eq_abs, mul_assoc]
          apply mul_le_mul_of_nonneg_left _ (abs_nonneg _)
          refine (hb t x0 hMb hLb j (mem_range.1 hj) q h h0 hH x x' hx hx').trans ?_
          gcongr
        calc _ ≤ ‖x - x'‖ + B * (K * δ) * ‖x - x'‖ := (norm_add_le _ _).trans (by gcongr)
          _ = _ := by ring
      calc h * ‖_ - _‖ ≤ h * (L * ((1 + B * (K * δ)) * ‖x - x'‖)) := by
            apply mul_le_mul_of_nonneg_left _ h0
            exact (hLb p _ n1 _ n2 rfl).trans (mul_le_mul_of_nonneg_left h1 hL0)
        _ = (L * (1 + B * (K * δ))) * h * ‖x - x'‖ := by ring
        _ ≤ _ := by
            gcongr
            exact le_max_right _ _
  obtain ⟨K, hK, hb⟩ := hst s le_rfl
  let B : ℝ := ∑ q : Fin m, ∑ j ∈ range s, |((tab q).bSol.getD j 0 : ℝ)|
  refine ⟨B * K, by positivity, ?_⟩
  intro t x0 hMb hLb h h0 hH x x' hx hx' st st' mj mj' hv hv'
  rw [(explicit_step tab f cj rF rK nj hok hex t h x st mj hv).1,
    (explicit_step tab f cj rF rK nj hok hex t h x' st' mj' hv').1]
  have e : ∀ u u' : E, x + u - (x' + u') = (x - x') + (u - u') := fun u u' => by abel
  rw [e]
  have h1 : ‖∑ p, ∑ i ∈ range s, ((tab p).bSol.getD i 0 : ℝ) • exK tab f cj rF rK nj t h x p i
      - ∑ p, ∑ i ∈ range s, ((tab p).bSol.getD i 0 : ℝ) • exK tab f cj rF rK nj t h x' p i‖
      ≤ B * (K * h * ‖x - x'‖) := by
    simp only [← sum_sub_distrib, ← smul_sub, B, sum_mul]
    refine (norm_sum_le _ _).trans (sum_le_sum fun q _ => ?_)
    refine (norm_sum_le _ _).trans (sum_le_sum fun j hj => ?_)
    rw [norm_smul, Real.norm_eq_abs]
    exact mul_le_mul_of_nonneg_left (hb t x0 hMb hLb j (mem_range.1 hj) q h h0 hH x x' hx hx') (abs_nonneg _)
  calc _ ≤ ‖x - x'‖ + B * (K * h * ‖x - x'‖) := (norm_add_le _ _).trans (by gcongr)
    _ = _ := by ring

/-- Steps see the vector fields only at the stages. -/
theorem exK_congr (hok : methodOK s c tab = true) (hex : ∀ p, (tab p).implicit = false) (g : Fin m → ℝ → E → E) (t h : ℝ)
    (x : E) (hfg : ∀ i < s, ∀ p, f p (exPoint tab f cj rF rK nj t h x p i).1 (exPoint tab f cj rF rK nj t h x p i).2
      = g p (exPoint tab f cj rF rK nj t h x p i).1 (exPoint tab f cj rF rK nj t h x p i).2) :
    ∀ i < s, ∀ p, exK tab g cj rF rK nj t h x p i = exK tab f cj rF rK nj t h x p i := by
  intro i
  induction i using Nat.strong_induction_on with
  | _ i ih =>
    intro hi p
    have e : exPoint tab g cj rF rK nj t h x p i = exPoint tab f cj rF rK nj t h x p i := by
      unfold exPoint
      congr 2
      exact sum_congr rfl fun q _ => sum_congr rfl fun j hj => by
        rw [ih j (mem_range.1 hj) ((mem_range.1 hj).trans hi) q]
    rw [exK_eq tab g cj rF rK nj hok hex t h x i hi p, exK_eq tab f cj rF rK nj hok hex t h x i hi p, e, hfg i hi p]

theorem step_congr (hok : methodOK s c tab = true) (hex : ∀ p, (tab p).implicit = false) (g : Fin m → ℝ → E → E) (t h : ℝ)
    (x : E) (hfg : ∀ i < s, ∀ p, f p (exPoint tab f cj rF rK nj t h x p i).1 (exPoint tab f cj rF rK nj t h x p i).2
      = g p (exPoint tab f cj rF rK nj t h x p i).1 (exPoint tab f cj rF rK nj t h x p i).2) :
    ((odeRK tab g cj rF rK nj).step t (t + h) x (odeRK tab g cj rF rK nj).init false).y
      = ((odeRK tab f cj rF rK nj).step t (t + h) x (odeRK tab f cj rF rK nj).init false).y := by
  rw [(explicit_step tab g cj rF rK nj hok hex t h x _ false (validState_init tab g cj rF rK nj _ _ _)).1,
    (explicit_step tab f cj rF rK nj hok hex t h x _ false (validState_init tab f cj rF rK nj _ _ _)).1]
  congr 1
  exact sum_congr rfl fun p _ => sum_congr rfl fun i hi => by
    rw [exK_congr tab f cj rF rK nj hok hex g t h x hfg i (mem_range.1 hi) p]
end

section
variable {m : ℕ} {X E : Type} [NormedAddCommGroup X] [NormedSpace ℝ X] [NormedAddCommGroup E] [NormedSpace ℝ E]

/-- Near a compact set, continuously differentiable functions are bounded and Lipschitz. -/
theorem compact_tube (g : Fin m → X → E) (U S : Set X) (hU : IsOpen U) (hS : IsCompact S) (hSU : S ⊆ U)
    (hg : ∀ p, ∀ z ∈ U, ContDiffAt ℝ 1 (g p) z) :
    ∃ r M L : ℝ, 0 < r ∧ 0 ≤ M ∧ 0 ≤ L ∧ ∀ z ∈ S, Metric.closedBall z r ⊆ U ∧
      ∀ p, (∀ w ∈ Metric.closedBall z r, ‖g p w‖ ≤ M) ∧
        ∀ w ∈ Metric.closedBall z r, ∀ w' ∈ Metric.closedBall z r, ‖g p w - g p w'‖ ≤ L * ‖w - w'‖ := by
  refine hS.induction_on (p := fun S => ∃ r M L : ℝ, 0 < r ∧ 0 ≤ M ∧ 0 ≤ L ∧ ∀ z ∈ S, Metric.closedBall z r ⊆ U ∧
      ∀ p, (∀ w ∈ Metric.closedBall z r, ‖g p w‖ ≤ M) ∧
        ∀ w ∈ Metric.closedBall z r, ∀ w' ∈ Metric.closedBall z r, ‖g p w - g p w'‖ ≤ L * ‖w - w'‖) ?_ ?_ ?_ ?_
  · exact ⟨1, 0, 0, one_pos, le_rfl, le_rfl, fun z hz => absurd hz (Set.notMem_empty z)⟩
  · rintro S S' hSS ⟨r, M, L, hr, hM, hL, h⟩
    exact ⟨r, M, L, hr, hM, hL, fun z hz => h z (hSS hz)⟩
  · rintro S S' ⟨r, M, L, hr, hM, hL, h⟩ ⟨r', M', L', hr', hM', hL', h'⟩
    refine ⟨min r r', max M M', max L L', lt_min hr hr', le_max_of_le_left hM, le_max_of_le_left hL, ?_⟩
    have key : ∀ z : X, ∀ r₁ M₁ L₁ : ℝ, min r r' ≤ r₁ → M₁ ≤ max M M' → L₁ ≤ max L L' →
        (Metric.closedBall z r₁ ⊆ U ∧ ∀ p, (∀ w ∈ Metric.closedBall z r₁, ‖g p w‖ ≤ M₁) ∧
          ∀ w ∈ Metric.closedBall z r₁, ∀ w' ∈ Metric.closedBall z r₁, ‖g p w - g p w'‖ ≤ L₁ * ‖w - w'‖) →
        Metric.closedBall z (min r r') ⊆ U ∧ ∀ p, (∀ w ∈ Metric.closedBall z (min r r'), ‖g p w‖ ≤ max M M') ∧
          ∀ w ∈ Metric.closedBall z (min r r'), ∀ w' ∈ Metric.closedBall z (min r r'),
            ‖g p w - g p w'‖ ≤ max L L' * ‖w - w'‖ := by
      intro z r₁ M₁ L₁ h1 h2 h3 ⟨h4, h5⟩
      have hsub := Metric.closedBall_subset_closedBall (x := z) h1
      refine ⟨hsub.trans h4, fun p => ⟨fun w hw => ((h5 p).1 w (hsub hw)).trans h2, fun w hw w' hw' => ?_⟩⟩
      exact ((h5 p).2 w (hsub hw) w' (hsub hw')).trans (mul_le_mul_of_nonneg_right h3 (norm_nonneg _))
    rintro z (hz | hz)
    · exact key z r M L (min_le_left _ _) (le_max_left _ _) (le_max_left _ _) (h z hz)
    · exact key z r' M' L' (min_le_right _ _) (le_max_right _ _) (le_max_right _ _) (h' z hz)
  · intro z0 hz0
    choose K t ht hK using fun p => (hg p z0 (hSU hz0)).exists_lipschitzOnWith
    have hn : U ∩ ⋂ p, t p ∈ 𝓝 z0 := inter_mem (hU.mem_nhds (hSU hz0)) (iInter_mem.2 ht)
    obtain ⟨ρ, hρ, hball⟩ := Metric.nhds_basis_closedBall.mem_iff.1 hn
    set L : ℝ := ∑ p, (K p : ℝ) with hLdef
    have hL0 : 0 ≤ L := by positivity
    have hKL : ∀ p, (K p : ℝ) ≤ L := fun p =>
      single_le_sum (f := fun p => (K p : ℝ)) (fun q _ => (K q).2) (mem_univ p)
    have hlip : ∀ p, ∀ w ∈ Metric.closedBall z0 ρ, ∀ w' ∈ Metric.closedBall z0 ρ, ‖g p w - g p w'‖ ≤ L * ‖w - w'‖ := by
      intro p w hw w' hw'
      have h1 := (hK p).dist_le_mul w (Set.mem_iInter.1 (hball hw).2 p) w' (Set.mem_iInter.1 (hball hw').2 p)
      rw [dist_eq_norm, dist_eq_norm] at h1
      exact h1.trans (mul_le_mul_of_nonneg_right (hKL p) (norm_nonneg _))
    refine ⟨Metric.ball z0 (ρ / 2), mem_nhdsWithin_of_mem_nhds (Metric.ball_mem_nhds _ (by positivity)), ρ / 2,
      ∑ p, ‖g p z0‖ + L * ρ, L, by positivity, by positivity, hL0, ?_⟩
    intro z hz
    have hsub : Metric.closedBall z (ρ / 2) ⊆ Metric.closedBall z0 ρ := by
      apply Metric.closedBall_subset_closedBall'
      have := Metric.mem_ball.1 hz
      linarith
    refine ⟨fun w hw => (hball (hsub hw)).1, fun p => ⟨fun w hw => ?_, fun w hw w' hw' =>
      hlip p w (hsub hw) w' (hsub hw')⟩⟩
    have h1 := hlip p w (hsub hw) z0 (Metric.mem_closedBall_self hρ.le)
    have h2 : ‖g p z0‖ ≤ ∑ p, ‖g p z0‖ :=
      single_le_sum (f := fun p => ‖g p z0‖) (fun q _ => norm_nonneg _) (mem_univ p)
    have h3 : ‖w - z0‖ ≤ ρ := by rw [← dist_eq_norm]; exact hsub hw
    have h4 : L * ‖w - z0‖ ≤ L * ρ := mul_le_mul_of_nonneg_left h3 hL0
    calc ‖g p w‖ = ‖(g p w - g p z0) + g p z0‖ := by rw [sub_add_cancel]
      _ ≤ ‖g p w - g p z0‖ + ‖g p z0‖ := norm_add_le _ _
      _ ≤ _ := by linarith

/-- A smooth function on an open set `U` agrees near a closed set `S ⊆ U` with one that is smooth everywhere. -/
theorem smooth_cutoff [FiniteDimensional ℝ X] (U S : Set X) (hU : IsOpen U) (hS : IsClosed S) (hSU : S ⊆ U) (g : X → E)
    (hg : ∀ z ∈ U, ContDiffAt ℝ ∞ g z) :
    ∃ g' : X → E, ContDiff ℝ ∞ g' ∧ ∀ z ∈ S, g' =ᶠ[𝓝 z] g := by
  obtain ⟨χ, h0, h1, -⟩ := exists_contMDiffMap_zero_one_nhds_of_isClosed (n := (⊤ : ℕ∞)) 𝓘(ℝ, X) (M := X)
    (s := Uᶜ) (t := S) hU.isClosed_compl hS (Set.disjoint_left.2 fun z hz hz' => hz (hSU hz'))
  have hχ : ContDiff ℝ ∞ χ := contMDiff_iff_contDiff.1 χ.contMDiff
  refine ⟨fun z => χ z • g z, ?_, ?_⟩
  · rw [contDiff_iff_contDiffAt]
    intro z
    by_cases hz : z ∈ U
    · exact hχ.contDiffAt.smul (hg z hz)
    · have : (fun z => χ z • g z) =ᶠ[𝓝 z] fun _ => 0 := by
        filter_upwards [(eventually_nhdsSet_iff_forall.1 h0) z hz] with w hw
        rw [hw, zero_smul]
      exact contDiffAt_const.congr_of_eventuallyEq this
  · intro z hz
    filter_upwards [(eventually_nhdsSet_iff_forall.1 h1) z hz] with w hw
    rw [hw, one_smul]

/-- Solutions of smooth equations are smooth. -/
theorem solution_smooth_on (F : ℝ → E → E) (U : Set (ℝ × E)) (hF : ∀ z ∈ U, ContDiffAt ℝ ∞ (fun x : ℝ × E => F x.1 x.2) z)
    (I : Set ℝ) (hI : IsOpen I) (y : ℝ → E) (hU : ∀ t ∈ I, (t, y t) ∈ U) (hy : ∀ t ∈ I, HasDerivAt y (F t (y t)) t) :
    ContDiffOn ℝ ∞ y I := by
  rw [contDiffOn_infty]
  intro n
  induction n with
  | zero => exact contDiffOn_zero.2 fun t ht => (hy t ht).continuousAt.continuousWithinAt
  | succ n ih =>
    have : ((n + 1 : ℕ) : WithTop ℕ∞) = (n : WithTop ℕ∞) + 1 := by push_cast; rfl
    rw [this, contDiffOn_succ_iff_deriv_of_isOpen hI]
    refine ⟨fun t ht => (hy t ht).differentiableAt.differentiableWithinAt, fun h => by simp at h, ?_⟩
    refine ContDiffOn.congr (f := fun t => F t (y t)) ?_ fun t ht => (hy t ht).deriv
    intro t ht
    have h1 : ContDiffAt ℝ n (fun x : ℝ × E => F x.1 x.2) (t, y t) :=
      (hF _ (hU t ht)).of_le (by exact_mod_cast le_top)
    exact h1.comp_contDiffWithinAt t (contDiffWithinAt_id.prodMk (ih t ht))
end

end Verif
