import Mathlib.Analysis.SpecialFunctions.Exp
import Mathlib.Analysis.Complex.Exponential
import Mathlib.Analysis.Calculus.ContDiff.Deriv
import Verif.Lemmas.UniformTaylor
import Verif.Lemmas.Loop
import Verif.Props.OrderIdeal
import Verif.Lemmas.ElemBound

/-!
# From the error of one step to the error of a solve
-/

set_option linter.unusedSectionVars false

namespace Verif
open Finset Filter Topology Asymptotics
open scoped ContDiff

section
variable {E : Type} [NormedAddCommGroup E] [NormedSpace ℝ E]

/-- Solutions of smooth equations are smooth. -/
theorem solution_smooth (F : ℝ → E → E) (hF : ContDiff ℝ ∞ (fun x : ℝ × E => F x.1 x.2)) (y : ℝ → E)
    (hy : ∀ t, HasDerivAt y (F t (y t)) t) : ContDiff ℝ ∞ y := by
  have hd : deriv y = fun t => F t (y t) := funext fun t => (hy t).deriv
  rw [contDiff_infty]
  intro n
  induction n with
  | zero => exact contDiff_zero.2 (continuous_iff_continuousAt.2 fun t => (hy t).continuousAt)
  | succ n ih =>
    have : ((n + 1 : ℕ) : WithTop ℕ∞) = (n : WithTop ℕ∞) + 1 := by push_cast; rfl
    rw [this, contDiff_succ_iff_deriv]
    refine ⟨fun t => (hy t).differentiableAt, fun h => by simp at h, ?_⟩
    rw [hd]
    exact (hF.of_le (by exact_mod_cast le_top)).comp (contDiff_id.prodMk ih)

variable {m : ℕ} [Module ℚ E] {J : Type}
  (tab : Fin m → Tableau ℚ) (f : Fin m → ℝ → E → E) (cj : CalcJac) (rF rK : RootFinder E J) (nj : J)

theorem d_explicit' {tab : Fin m → Tableau ℚ} (hex : ∀ p, (tab p).implicit = false) (p : Fin m) (i : ℕ) :
    (tab p).d i = 0 := (tab p).d_explicit (hex p) i

/-- The stages of an explicit method, as a function of the start, the length and the initial value. -/
noncomputable def exK (t h : ℝ) (y0 : E) : Fin m → ℕ → E :=
  ((odeRK tab f cj rF rK nj).step t (t + h) y0 (odeRK tab f cj rF rK nj).init false).dense.ks

theorem validState_init (t : ℝ) (y0 : E) (mj : Bool) :
    (odeRK tab f cj rF rK nj).ValidState t y0 (odeRK tab f cj rF rK nj).init mj := by
  intro hfs
  exact ⟨true, fun _ => 0, by simp [RK.init, hfs], Or.inl rfl⟩

variable {s : ℕ} {c : ℕ → ℚ}

theorem rootExact_of_explicit (hex : ∀ p, (tab p).implicit = false) :
    (odeRK tab f cj rF rK nj).RootExact := by
  intro h
  exfalso
  obtain ⟨p, hp⟩ := (implicitPart_isSome tab f cj rF rK nj).1 h
  rw [hex p] at hp; simp at hp

/-- A step of an explicit method, from whatever valid state. -/
theorem explicit_step (hok : methodOK s c tab = true) (hex : ∀ p, (tab p).implicit = false)
    (t h : ℝ) (y0 : E) (st : RK.State m E) (mj : Bool)
    (hst : (odeRK tab f cj rF rK nj).ValidState t y0 st mj) :
    ((odeRK tab f cj rF rK nj).step t (t + h) y0 st mj).y
        = y0 + ∑ p, ∑ i ∈ range s, ((tab p).bSol.getD i 0 : ℝ) • exK tab f cj rF rK nj t h y0 p i ∧
    (∀ i < s, ∀ p, exK tab f cj rF rK nj t h y0 p i = h • f p (t + ((tab p).abscissa i : ℝ) * h)
      (y0 + ∑ q, ∑ j ∈ range i, ((tab q).a i j : ℝ) • exK tab f cj rF rK nj t h y0 q j)) := by
  obtain ⟨hns, hwf, hfs⟩ := odeRK_WF hok f cj rF rK nj
  set rk := odeRK tab f cj rF rK nj with hrk
  have hroot : rk.RootExact := rootExact_of_explicit tab f cj rF rK nj hex
  have hexr : ∀ p, (rk.tab p).implicit = false := hex
  have hok0 : (rk.step t (t + h) y0 rk.init false).result.isOkay = true := by
    rw [C41_explicit_succeeds rk hexr]; rfl
  have hok1 : (rk.step t (t + h) y0 st mj).result.isOkay = true := by
    rw [C41_explicit_succeeds rk hexr]; rfl
  obtain ⟨k0, a1, a2, a3, a4, -⟩ := C41_step_formula rk hwf hfs hroot t (t + h) y0 rk.init false
    (validState_init tab f cj rF rK nj t y0 false) hok0
  obtain ⟨k1, b1, b2, b3, b4, -⟩ := C41_step_formula rk hwf hfs hroot t (t + h) y0 st mj hst hok1
  have huniq := C41_explicit_unique rk hexr t (t + h) y0 k0 k1 a1 b1
  have a4' : ∀ p, ∀ i < s, exK tab f cj rF rK nj t h y0 p i = k0 p i := by
    intro p i hi; exact a4 p i (by rw [hns]; exact hi)
  refine ⟨?_, ?_⟩
  · rw [b2]
    unfold RK.combine
    rw [hns]
    congr 1
    apply sum_congr rfl; intro p _
    apply sum_congr rfl; intro i hi
    have hi' := mem_range.1 hi
    rw [a4' p i hi', huniq i (by rw [hns]; exact hi') p, qsmul_eq]
    rfl
  · intro i hi p
    have hinc : stageInc tab k0 i
        = ∑ q, ∑ j ∈ range i, ((tab q).a i j : ℝ) • exK tab f cj rF rK nj t h y0 q j := by
      unfold stageInc
      apply sum_congr rfl; intro q _
      rw [d_explicit' hex q i, zero_smul, add_zero]
      apply sum_congr rfl; intro j hj
      rw [a4' q j ((mem_range.1 hj).trans hi), qsmul_eq]
    rw [a4' p i hi, odeRK_stage_eq tab f cj rF rK nj t h y0 k0 a1 i (by rw [← hrk, hns]; exact hi) p, hinc]

/-- The stages are smooth functions of the data. -/
theorem exK_smooth (hok : methodOK s c tab = true) (hex : ∀ p, (tab p).implicit = false)
    (hf : ∀ p, ContDiff ℝ ∞ (fun x : ℝ × E => f p x.1 x.2)) (y : ℝ → E) (hy : ContDiff ℝ ∞ y) :
    ∀ i < s, ∀ p, ContDiff ℝ ∞ (fun x : ℝ × ℝ => exK tab f cj rF rK nj x.1 x.2 (y x.1) p i) := by
  intro i
  induction i using Nat.strong_induction_on with
  | _ i ih =>
    intro hi p
    have e : (fun x : ℝ × ℝ => exK tab f cj rF rK nj x.1 x.2 (y x.1) p i)
        = fun x : ℝ × ℝ => x.2 • f p (x.1 + ((tab p).abscissa i : ℝ) * x.2)
      (y x.1 + ∑ q, ∑ j ∈ range i, ((tab q).a i j : ℝ) • exK tab f cj rF rK nj x.1 x.2 (y x.1) q j) := by
      funext x
      exact (explicit_step tab f cj rF rK nj hok hex x.1 x.2 (y x.1) _ false
        (validState_init tab f cj rF rK nj _ _ _)).2 i hi p
    rw [e]
    have h1 : ContDiff ℝ ∞ (fun x : ℝ × ℝ => y x.1 + ∑ q, ∑ j ∈ range i, ((tab q).a i j : ℝ) •
        exK tab f cj rF rK nj x.1 x.2 (y x.1) q j) := by
      apply (hy.comp contDiff_fst).add
      apply ContDiff.sum; intro q _
      apply ContDiff.sum; intro j hj
      exact (ih j (mem_range.1 hj) ((mem_range.1 hj).trans hi) q).const_smul _
    have h2 : ContDiff ℝ ∞ (fun x : ℝ × ℝ => x.1 + ((tab p).abscissa i : ℝ) * x.2) := by fun_prop
    exact contDiff_snd.smul ((hf p).comp (h2.prodMk h1))

/-- A smooth local error which is of the right order at every point of a compact set is so uniformly. -/
theorem nearOrder_uniform {X : Type} [NormedAddCommGroup X] [NormedSpace ℝ X] {T : Set X} (hT : IsCompact T)
    {N : ℕ} {ε : ℝ} (hε : 0 ≤ ε) {D : ℝ}
    (G : X → Fin m → FormalMultilinearSeries ℝ (ℝ × E) E)
    (hD : ∀ t ∈ T, ∑ τ ∈ PTree.upTo (Fin (m + 1)) N, ‖(τ.diff (autoSeries (G t))).2‖ ≤ D)
    (e : X → ℝ → E) (he : ContDiff ℝ ∞ (fun x : X × ℝ => e x.1 x.2))
    (hN : ∀ t ∈ T, NearOrder (G t) N ε (e t)) (H : ℝ) :
    ∃ A, 0 ≤ A ∧ ∀ t ∈ T, ∀ h, |h| ≤ H →
      ‖e t h‖ ≤ A * |h| ^ (N + 1) + ε * D * max 1 H ^ N * |h| := by
  classical
  choose! d hd C hC using hN
  let v : X → ℕ → E := fun t k => ∑ τ ∈ PTree.upTo (Fin (m + 1)) N with τ.order = k,
    d t τ • (τ.diff (autoSeries (G t))).2
  have hv : ∀ (t : X) (h : ℝ), ∑ τ ∈ PTree.upTo (Fin (m + 1)) N,
      (d t τ * h ^ τ.order) • (τ.diff (autoSeries (G t))).2 = ∑ k ∈ range (N + 1), h ^ k • v t k := by
    intro t h
    rw [← sum_fiberwise_of_maps_to (s := PTree.upTo (Fin (m + 1)) N) (t := range (N + 1))
      (g := fun τ => τ.order) (fun τ hτ => mem_range.2 (Nat.lt_succ_of_le (PTree.order_le_of_mem hτ)))]
    apply sum_congr rfl; intro k _
    simp only [v, smul_sum]
    apply sum_congr rfl; intro τ hτ
    rw [(mem_filter.1 hτ).2, smul_smul, mul_comm]
  obtain ⟨A, hA, hb⟩ := uniform_taylor hT H (N + 1) e he v (by
    intro t ht
    apply IsBigO.of_bound (C t)
    filter_upwards [hC t ht] with h hh
    rw [norm_pow, Real.norm_eq_abs, ← hv t h]
    exact hh)
  refine ⟨A, hA, fun t ht h hh => ?_⟩
  have h1 := hb t ht h hh
  rw [← hv t h] at h1
  set S := ∑ τ ∈ PTree.upTo (Fin (m + 1)) N, (d t τ * h ^ τ.order) • (τ.diff (autoSeries (G t))).2 with hS
  have hmax : (1 : ℝ) ≤ max 1 H := le_max_left _ _
  have h2 : ‖S‖ ≤ ε * D * max 1 H ^ N * |h| := by
    calc ‖S‖ ≤ ∑ τ ∈ PTree.upTo (Fin (m + 1)) N,
          (ε * (max 1 H ^ N * |h|)) * ‖(τ.diff (autoSeries (G t))).2‖ := by
          refine (norm_sum_le _ _).trans (sum_le_sum fun τ hτ => ?_)
          rw [norm_smul, norm_mul, norm_pow, Real.norm_eq_abs, Real.norm_eq_abs]
          apply mul_le_mul_of_nonneg_right _ (norm_nonneg _)
          apply mul_le_mul (hd t ht τ) _ (by positivity) hε
          have h0 : 1 ≤ τ.order := by
            cases τ; simp only [PTree.order]; omega
          have hle := PTree.order_le_of_mem hτ
          obtain ⟨j, hj⟩ : ∃ j, τ.order = j + 1 := ⟨τ.order - 1, by omega⟩
          rw [hj, pow_succ]
          apply mul_le_mul_of_nonneg_right _ (abs_nonneg _)
          calc |h| ^ j ≤ max 1 H ^ j := pow_le_pow_left₀ (abs_nonneg _) (hh.trans (le_max_right _ _)) _
            _ ≤ max 1 H ^ N := pow_le_pow_right₀ hmax (by omega)
      _ = (ε * (max 1 H ^ N * |h|)) * ∑ τ ∈ PTree.upTo (Fin (m + 1)) N,
          ‖(τ.diff (autoSeries (G t))).2‖ := by rw [mul_sum]
      _ ≤ (ε * (max 1 H ^ N * |h|)) * D := by
          apply mul_le_mul_of_nonneg_left (hD t ht); positivity
      _ = _ := by ring
  have e3 : e t h = (e t h - S) + S := by abel
  rw [e3]
  exact (norm_add_le _ _).trans (add_le_add h1 h2)

/-- The local error of an explicit method is bounded uniformly along a solution. -/
theorem explicit_local_uniform_on (hok : methodOK s c tab = true) (hex : ∀ p, (tab p).implicit = false)
    {N M : ℕ} {ε δ' : ℚ} (hε : 0 ≤ ε) (hord : StepOrder tab N ε M δ')
    (hfs : ∀ p, ContDiff ℝ ∞ (fun x : ℝ × E => f p x.1 x.2)) (y : ℝ → E) (hys : ContDiff ℝ ∞ y) {a b D : ℝ}
    (hy : ∀ t ∈ Set.Icc a b, ∀ᶠ r in 𝓝 t, HasDerivAt y (∑ p, f p r (y r)) r) (hD : ElemBound f y a b N D)
    (H : ℝ) :
    ∃ A, 0 ≤ A ∧ ∀ t ∈ Set.Icc a b, ∀ h, |h| ≤ H → ∀ st mj,
      (odeRK tab f cj rF rK nj).ValidState t (y t) st mj →
      ‖((odeRK tab f cj rF rK nj).step t (t + h) (y t) st mj).y - y (t + h)‖
        ≤ A * |h| ^ (N + 1) + ε * D * max 1 H ^ N * |h| := by
  let e : ℝ → ℝ → E := fun t h =>
    ((odeRK tab f cj rF rK nj).step t (t + h) (y t) (odeRK tab f cj rF rK nj).init false).y - y (t + h)
  have hv : ∀ t h st mj, (odeRK tab f cj rF rK nj).ValidState t (y t) st mj →
      ((odeRK tab f cj rF rK nj).step t (t + h) (y t) st mj).y - y (t + h) = e t h := by
    intro t h st mj hst
    simp only [e]
    rw [(explicit_step tab f cj rF rK nj hok hex t h (y t) st mj hst).1,
      (explicit_step tab f cj rF rK nj hok hex t h (y t) _ false (validState_init tab f cj rF rK nj _ _ _)).1]
  have hsm : ContDiff ℝ ∞ (fun x : ℝ × ℝ => e x.1 x.2) := by
    have e1 : (fun x : ℝ × ℝ => e x.1 x.2) = fun x : ℝ × ℝ => y x.1 + ∑ p, ∑ i ∈ range s,
        ((tab p).bSol.getD i 0 : ℝ) • exK tab f cj rF rK nj x.1 x.2 (y x.1) p i - y (x.1 + x.2) := by
      funext x
      simp only [e]
      rw [(explicit_step tab f cj rF rK nj hok hex x.1 x.2 (y x.1) _ false
        (validState_init tab f cj rF rK nj _ _ _)).1]
    rw [e1]
    apply ContDiff.sub
    · apply (hys.comp contDiff_fst).add
      apply ContDiff.sum; intro p _
      apply ContDiff.sum; intro i hi
      exact (exK_smooth tab f cj rF rK nj hok hex hfs y hys i (mem_range.1 hi) p).const_smul _
    · exact hys.comp (contDiff_fst.add contDiff_snd)
  obtain ⟨G, hG⟩ := hD
  have hno : ¬ ∃ p, (tab p).implicit = true := by
    rintro ⟨p, hp⟩; rw [hex p] at hp; simp at hp
  have hpt : ∀ t ∈ Set.Icc a b, NearOrder (G t) N ε (e t) := by
    intro t ht
    exact (hord E J f cj rF rK nj t (y t) (G t) (hG t ht).1 y ⟨rfl, hy t ht⟩ _ false
      (validState_init tab f cj rF rK nj _ _ _) (fun hp => absurd hp hno) (fun hp => absurd hp hno)
      (fun hp => absurd hp hno)).1
  obtain ⟨A, hA, hb⟩ := nearOrder_uniform isCompact_Icc (ε := (ε : ℝ)) (by exact_mod_cast hε) G
    (fun t ht => (hG t ht).2) e hsm hpt H
  exact ⟨A, hA, fun t ht h hh st mj hst => by rw [hv t h st mj hst]; exact hb t ht h hh⟩

theorem explicit_local_uniform (hok : methodOK s c tab = true) (hex : ∀ p, (tab p).implicit = false)
    {N M : ℕ} {ε δ' : ℚ} (hε : 0 ≤ ε) (hord : StepOrder tab N ε M δ')
    (hf : ∀ p, AnalyticOnNhd ℝ (fun x : ℝ × E => f p x.1 x.2) Set.univ)
    (y : ℝ → E) (hy : ∀ t, HasDerivAt y (∑ p, f p t (y t)) t) {a b D : ℝ} (hD : ElemBound f y a b N D)
    (H : ℝ) :
    ∃ A, 0 ≤ A ∧ ∀ t ∈ Set.Icc a b, ∀ h, |h| ≤ H → ∀ st mj,
      (odeRK tab f cj rF rK nj).ValidState t (y t) st mj →
      ‖((odeRK tab f cj rF rK nj).step t (t + h) (y t) st mj).y - y (t + h)‖
        ≤ A * |h| ^ (N + 1) + ε * D * max 1 H ^ N * |h| := by
  have hfs : ∀ p, ContDiff ℝ ∞ (fun x : ℝ × E => f p x.1 x.2) := fun p => (hf p).contDiff
  exact explicit_local_uniform_on tab f cj rF rK nj hok hex hε hord hfs y
    (solution_smooth (fun t x => ∑ p, f p t x) (ContDiff.sum fun p _ => hfs p) y hy)
    (fun t _ => Eventually.of_forall hy) hD H

/-- An explicit method depends on the initial value in a Lipschitz way. -/
theorem explicit_lipschitz (hok : methodOK s c tab = true) (hex : ∀ p, (tab p).implicit = false)
    (L : ℝ) (hL : ∀ p t x x', ‖f p t x - f p t x'‖ ≤ L * ‖x - x'‖) (H : ℝ) :
    ∃ K, 0 ≤ K ∧ ∀ t h, 0 ≤ h → h ≤ H → ∀ x x' st st' mj mj',
      (odeRK tab f cj rF rK nj).ValidState t x st mj → (odeRK tab f cj rF rK nj).ValidState t x' st' mj' →
      ‖((odeRK tab f cj rF rK nj).step t (t + h) x st mj).y
        - ((odeRK tab f cj rF rK nj).step t (t + h) x' st' mj').y‖ ≤ (1 + K * h) * ‖x - x'‖ := by
  have hL' : ∀ p t x x', ‖f p t x - f p t x'‖ ≤ |L| * ‖x - x'‖ := fun p t x x' =>
    (hL p t x x').trans (mul_le_mul_of_nonneg_right (le_abs_self L) (norm_nonneg _))
  have hst : ∀ n ≤ s, ∃ K, 0 ≤ K ∧ ∀ i < n, ∀ p t h, 0 ≤ h → h ≤ H → ∀ x x',
      ‖exK tab f cj rF rK nj t h x p i - exK tab f cj rF rK nj t h x' p i‖ ≤ K * h * ‖x - x'‖ := by
    intro n
    induction n with
    | zero => intro _; exact ⟨0, le_rfl, fun i hi => by omega⟩
    | succ n ih =>
      intro hn
      obtain ⟨K, hK, hb⟩ := ih (by omega)
      let B : ℝ := ∑ q : Fin m, ∑ j ∈ range n, |((tab q).a n j : ℝ)|
      have hB : 0 ≤ B := by positivity
      refine ⟨max K (|L| * (1 + B * (K * |H|))), le_max_of_le_left hK, ?_⟩
      intro i hi p t h h0 hH x x'
      rcases Nat.lt_succ_iff_lt_or_eq.1 hi with hi' | rfl
      · refine (hb i hi' p t h h0 hH x x').trans ?_
        gcongr
        exact le_max_left _ _
      have e := fun x => (explicit_step tab f cj rF rK nj hok hex t h x _ false
        (validState_init tab f cj rF rK nj _ _ _)).2 i (by omega) p
      rw [e x, e x', ← smul_sub, norm_smul, Real.norm_of_nonneg h0]
      have h1 : ‖(x + ∑ q, ∑ j ∈ range i, ((tab q).a i j : ℝ) • exK tab f cj rF rK nj t h x q j)
          - (x' + ∑ q, ∑ j ∈ range i, ((tab q).a i j : ℝ) • exK tab f cj rF rK nj t h x' q j)‖
          ≤ (1 + B * (K * |H|)) * ‖x - x'‖ := by
        have e2 : (x + ∑ q, ∑ j ∈ range i, ((tab q).a i j : ℝ) • exK tab f cj rF rK nj t h x q j)
          - (x' + ∑ q, ∑ j ∈ range i, ((tab q).a i j : ℝ) • exK tab f cj rF rK nj t h x' q j)
          = (x - x') + ∑ q, ∑ j ∈ range i, ((tab q).a i j : ℝ) •
            (exK tab f cj rF rK nj t h x q j - exK tab f cj rF rK nj t h x' q j) := by
          simp only [smul_sub, sum_sub_distrib]; abel
        rw [e2]
        have h2 : ‖∑ q, ∑ j ∈ range i, ((tab q).a i j : ℝ) •
            (exK tab f cj rF rK nj t h x q j - exK tab f cj rF rK nj t h x' q j)‖
            ≤ B * (K * |H|) * ‖x - x'‖ := by
          simp only [B, sum_mul]
          refine (norm_sum_le _ _).trans (sum_le_sum fun q _ => ?_)
          refine (norm_sum_le _ _).trans (sum_le_sum fun j hj => ?_)
          rw [norm_smul, Real.norm_eq_abs, mul_assoc]
          apply mul_le_mul_of_nonneg_left _ (abs_nonneg _)
          refine (hb j (mem_range.1 hj) q t h h0 hH x x').trans ?_
          gcongr
          exact hH.trans (le_abs_self H)
        calc _ ≤ ‖x - x'‖ + B * (K * |H|) * ‖x - x'‖ := (norm_add_le _ _).trans (by gcongr)
          _ = _ := by ring
      calc h * ‖_ - _‖ ≤ h * (|L| * ((1 + B * (K * |H|)) * ‖x - x'‖)) := by
            apply mul_le_mul_of_nonneg_left _ h0
            exact (hL' _ _ _ _).trans (mul_le_mul_of_nonneg_left h1 (abs_nonneg _))
        _ = (|L| * (1 + B * (K * |H|))) * h * ‖x - x'‖ := by ring
        _ ≤ _ := by
            gcongr
            exact le_max_right _ _
  obtain ⟨K, hK, hb⟩ := hst s le_rfl
  let B : ℝ := ∑ q : Fin m, ∑ j ∈ range s, |((tab q).bSol.getD j 0 : ℝ)|
  refine ⟨B * K, by positivity, ?_⟩
  intro t h h0 hH x x' st st' mj mj' hv hv'
  rw [(explicit_step tab f cj rF rK nj hok hex t h x st mj hv).1,
    (explicit_step tab f cj rF rK nj hok hex t h x' st' mj' hv').1]
  have e2 : (x + ∑ p, ∑ i ∈ range s, ((tab p).bSol.getD i 0 : ℝ) • exK tab f cj rF rK nj t h x p i)
      - (x' + ∑ p, ∑ i ∈ range s, ((tab p).bSol.getD i 0 : ℝ) • exK tab f cj rF rK nj t h x' p i)
      = (x - x') + ∑ q, ∑ j ∈ range s, ((tab q).bSol.getD j 0 : ℝ) •
            (exK tab f cj rF rK nj t h x q j - exK tab f cj rF rK nj t h x' q j) := by
    simp only [smul_sub, sum_sub_distrib]; abel
  rw [e2]
  have h2 : ‖∑ q, ∑ j ∈ range s, ((tab q).bSol.getD j 0 : ℝ) •
      (exK tab f cj rF rK nj t h x q j - exK tab f cj rF rK nj t h x' q j)‖ ≤ B * (K * h * ‖x - x'‖) := by
    simp only [B, sum_mul]
    refine (norm_sum_le _ _).trans (sum_le_sum fun q _ => ?_)
    refine (norm_sum_le _ _).trans (sum_le_sum fun j hj => ?_)
    rw [norm_smul, Real.norm_eq_abs]
    exact mul_le_mul_of_nonneg_left (hb j (mem_range.1 hj) q t h h0 hH x x') (abs_nonneg _)
  calc _ ≤ ‖x - x'‖ + B * (K * h * ‖x - x'‖) := (norm_add_le _ _).trans (by gcongr)
    _ = _ := by ring

end
end Verif
