import Verif.Spec.Quadrature
import Verif.Props.OrderIdeal
import Verif.Model.Tableaus
import Mathlib.Data.Nat.Factorial.Basic
import Mathlib.Tactic.ComputeDegree

/-!
# C42: polynomials are integrated exactly, and the linear test equation is as it should be
-/

set_option linter.unusedSectionVars false
set_option maxRecDepth 100000

namespace Verif
open Polynomial Finset Tab

/-! ### Quadrature -/

/-- `|sum_i b_i c_i^k - 1/(k+1)| ≤ ε` for all `k < n` and all tableaus. -/
def quadOK {m : ℕ} (s : ℕ) (c : ℕ → ℚ) (tab : Fin m → Tableau ℚ) (n : ℕ) (ε : ℚ) : Bool :=
  (List.finRange m).all fun p => (List.range n).all fun k =>
    decide (qabs (ldot (tab p).bSol ((List.range s).map fun i => c i ^ k) - 1 / (k + 1)) ≤ ε)

theorem quadOK_sound {m : ℕ} {s : ℕ} {c : ℕ → ℚ} {tab : Fin m → Tableau ℚ} {n : ℕ} {ε : ℚ}
    (h : quadOK s c tab n ε = true) (p : Fin m) (k : ℕ) (hk : k < n) :
    |∑ i ∈ range s, (((tab p).bSol.getD i 0 : ℚ) : ℝ) * (c i : ℝ) ^ k - 1 / ((k : ℝ) + 1)| ≤ (ε : ℝ) := by
  simp only [quadOK, List.all_eq_true, List.mem_finRange, forall_const, List.mem_range,
    decide_eq_true_eq] at h
  have h1 := h p k hk
  rw [qabs_eq, ldot_eq _ _ s (by simp)] at h1
  have h2 : ∑ i ∈ range s, (tab p).bSol.getD i 0 * ((List.range s).map fun i => c i ^ k).getD i 0
      = ∑ i ∈ range s, (tab p).bSol.getD i 0 * c i ^ k := by
    apply sum_congr rfl
    intro i hi
    congr 1
    rw [List.getD_eq_getElem (hn := by simpa using hi)]
    simp
  rw [h2] at h1
  have h3 : ((|∑ i ∈ range s, (tab p).bSol.getD i 0 * c i ^ k - 1 / ((k : ℚ) + 1)| : ℚ) : ℝ) ≤ (ε : ℝ) := by
    exact_mod_cast h1
  push_cast at h3
  exact h3

/-- A quadrature rule that is right for powers is right for polynomials. -/
theorem quad_poly (s n : ℕ) (b c : ℕ → ℝ) (ε : ℝ)
    (hb : ∀ k < n, |∑ i ∈ range s, b i * c i ^ k - 1 / ((k : ℝ) + 1)| ≤ ε) (P Q : ℝ[X])
    (hQ : derivative Q = P) (hP : P.natDegree < n) (t0 h : ℝ) :
    |∑ i ∈ range s, b i * (h * P.eval (t0 + c i * h)) - (Q.eval (t0 + h) - Q.eval t0)|
      ≤ ε * ∑ k ∈ range n, |(taylor t0 P).coeff k| * |h| ^ (k + 1) := by
  have hev : ∀ (R : ℝ[X]) x, R.eval (t0 + x) = (taylor t0 R).eval x := by
    intro R x; rw [taylor_eval, add_comm]
  have hPd : (taylor t0 P).natDegree < n := by rwa [natDegree_taylor]
  have hQd : (taylor t0 Q).natDegree < n + 1 := by
    rw [natDegree_taylor]
    have := natDegree_derivative Q
    rw [hQ] at this
    omega
  have hcoef : ∀ k, (taylor t0 P).coeff k = (taylor t0 Q).coeff (k + 1) * ((k : ℝ) + 1) := by
    intro k
    rw [← hQ, ← coeff_derivative]
    congr 1
    rw [taylor_apply, taylor_apply, derivative_comp]
    simp
  have h0 : Q.eval t0 = (taylor t0 Q).coeff 0 := by
    rw [coeff_zero_eq_eval_zero, taylor_eval, zero_add]
  have hQh : Q.eval (t0 + h) - Q.eval t0
      = ∑ k ∈ range n, (taylor t0 P).coeff k * h ^ (k + 1) * (1 / ((k : ℝ) + 1)) := by
    rw [hev, h0, eval_eq_sum_range' hQd, sum_range_succ']
    simp only [pow_zero, mul_one, add_sub_cancel_right]
    apply sum_congr rfl
    intro k _
    rw [hcoef]
    have : ((k : ℝ) + 1) ≠ 0 := by positivity
    field_simp
  have hsum : ∑ i ∈ range s, b i * (h * P.eval (t0 + c i * h))
      = ∑ k ∈ range n, (taylor t0 P).coeff k * h ^ (k + 1) * ∑ i ∈ range s, b i * c i ^ k := by
    simp only [hev, eval_eq_sum_range' hPd, mul_sum]
    rw [sum_comm]
    apply sum_congr rfl; intro k _
    apply sum_congr rfl; intro i _
    rw [mul_pow]; ring
  rw [hsum, hQh, ← sum_sub_distrib, mul_sum]
  refine (abs_sum_le_sum_abs _ _).trans (sum_le_sum (fun k hk => ?_))
  rw [← mul_sub, abs_mul, abs_mul, abs_pow]
  calc _ ≤ |(taylor t0 P).coeff k| * |h| ^ (k + 1) * ε :=
        mul_le_mul_of_nonneg_left (hb k (mem_range.1 hk)) (by positivity)
    _ = _ := by ring

/-- **C42.** -/
theorem integratesPoly_of_check {m : ℕ} (tab : Fin m → Tableau ℚ) (s : ℕ) (c : ℕ → ℚ)
    (hok : methodOK s c tab = true) (n : ℕ) (ε : ℚ) (hq : quadOK s c tab n ε = true) :
    IntegratesPoly tab n ε := by
  intro J P Q hPQ hdeg cj rF rK nj hroot t0 h y0 st mj hst hsucc
  obtain ⟨hns, hwf, hfs⟩ := odeRK_WF hok (fun p t (_ : ℝ) => (P p).eval t) cj rF rK nj
  set rk := odeRK tab (fun p t _ => (P p).eval t) cj rF rK nj with hrk
  have hroot' : rk.RootExact := fun hi => hroot ((implicitPart_isSome tab _ cj rF rK nj).1 hi)
  obtain ⟨k, h1, h2, -⟩ := C41_step_formula rk hwf hfs hroot' t0 (t0 + h) y0 st mj hst hsucc
  rw [h2]
  have hk : ∀ p, ∀ i < s, k p i = h * (P p).eval (t0 + (c i : ℝ) * h) := by
    intro p i hi
    have := odeRK_stage_eq tab (fun p t (_ : ℝ) => (P p).eval t) cj rF rK nj t0 h y0 k h1 i
      (by rw [← hrk, hns]; exact hi) p
    rw [this, (methodOK_all hok p).2.1 i hi]
    rfl
  have e : y0 + rk.combine Tableau.bSol k - (y0 + ∑ p, ((Q p).eval (t0 + h) - (Q p).eval t0))
      = ∑ p, (∑ i ∈ range s, ((tab p).bSol.getD i 0 : ℝ) * (h * (P p).eval (t0 + (c i : ℝ) * h))
          - ((Q p).eval (t0 + h) - (Q p).eval t0)) := by
    rw [add_sub_add_left_eq_sub]
    unfold RK.combine
    rw [hns, ← sum_sub_distrib (fun p => ∑ i ∈ range s, (rk.tab p).bSol.getD i 0 • k p i)]
    apply sum_congr rfl; intro p _
    congr 1
    apply sum_congr rfl; intro i hi
    rw [hk p i (mem_range.1 hi), qsmul_eq]
    rfl
  rw [e, mul_sum]
  refine (abs_sum_le_sum_abs _ _).trans (sum_le_sum (fun p _ => ?_))
  exact quad_poly s n _ _ ε (fun k hk => quadOK_sound hq p k hk) (P p) (Q p) (hPQ p) (hdeg p) t0 h

/-! ### The linear test equation -/

/-- `A^k 1` -/
def tallVec (A : List (List ℚ)) (s : ℕ) : ℕ → List ℚ
  | 0 => List.replicate s 1
  | k + 1 => A.map fun row => ldot row (tallVec A s k)

/-- The coefficients of the stability function. -/
def stabCoeff (tab : Tableau ℚ) (s : ℕ) : ℕ → ℚ
  | 0 => 1
  | k + 1 => ldot tab.bSol (tallVec (tab.matrix s) s k)

def stabOK (tab : Tableau ℚ) (s n : ℕ) (ε : ℚ) : Bool :=
  (List.range (n + 1)).all fun k => decide (qabs (stabCoeff tab s k - 1 / (k.factorial : ℚ)) ≤ ε)

theorem tallVec_length (tab : Tableau ℚ) (s k : ℕ) : (tallVec (tab.matrix s) s k).length = s := by
  cases k <;> simp [tallVec, Tableau.matrix]

theorem tallVec_succ (tab : Tableau ℚ) (s k i : ℕ) (hi : i < s) :
    (tallVec (tab.matrix s) s (k + 1)).getD i 0
      = ∑ j ∈ range s, tab.full i j * (tallVec (tab.matrix s) s k).getD j 0 := by
  rw [tallVec, List.getD_eq_getElem (hn := by simpa [Tableau.matrix] using hi), List.getElem_map,
    ldot_eq _ _ s (tallVec_length tab s k)]
  apply sum_congr rfl
  intro j hj
  congr 1
  rw [mem_range] at hj
  simp [Tableau.matrix, List.getD, hj]

/-- Explicit methods: `A` is nilpotent. -/
theorem tallVec_zero (tab : Tableau ℚ) (s : ℕ) (hex : tab.implicit = false) (k : ℕ) :
    ∀ i < s, i < k → (tallVec (tab.matrix s) s k).getD i 0 = 0 := by
  induction k with
  | zero => intro i _ h; omega
  | succ k ih =>
    intro i hi hik
    rw [tallVec_succ tab s k i hi]
    apply sum_eq_zero
    intro j hj
    rw [mem_range] at hj
    by_cases hji : j < i
    · rw [ih j hj (by omega), mul_zero]
    · have : tab.full i j = 0 := by
        unfold Tableau.full
        rw [if_neg hji]
        split
        · unfold Tableau.implicit at hex
          unfold Tableau.d
          cases hh : tab.aDiagonal with
          | none => simp
          | some d => rw [hh] at hex; simp at hex
        · rfl
      rw [this, zero_mul]

theorem amplifies_of_check (tab : Tableau ℚ) (s : ℕ) (hok : methodOK s tab.abscissa ![tab] = true)
    (hex : tab.implicit = false) (n : ℕ) (ε : ℚ) (hq : stabOK tab s n ε = true) :
    AmplifiesLikeExp tab n ε := by
  refine ⟨stabCoeff tab s, ?_, ?_⟩
  · intro k hk
    simp only [stabOK, List.all_eq_true, List.mem_range, decide_eq_true_eq] at hq
    rw [← qabs_eq]
    exact hq k (by omega)
  intro E _ _ _ J lam cj rF rK nj t0 h y0 st mj hst
  obtain ⟨hns, hwf, hfs⟩ := odeRK_WF hok (![fun _ y => lam • y] : Fin 1 → ℝ → E → E) cj rF rK nj
  set rk := odeRK ![tab] (![fun _ y => lam • y] : Fin 1 → ℝ → E → E) cj rF rK nj with hrk
  have hexp : ∀ p, (rk.tab p).implicit = false := by
    intro p; fin_cases p; exact hex
  have hsucc : (rk.step t0 (t0 + h) y0 st mj).result.isOkay = true := by
    rw [C41_explicit_succeeds rk hexp]; rfl
  have hroot' : rk.RootExact := by
    intro hi
    obtain ⟨p, hp⟩ := (implicitPart_isSome ![tab] _ cj rF rK nj).1 hi
    exact absurd hp (by rw [show (![tab] p) = rk.tab p from rfl, hexp p]; simp)
  obtain ⟨k, h1, h2, -⟩ := C41_step_formula rk hwf hfs hroot' t0 (t0 + h) y0 st mj hst hsucc
  have hlen : tab.bSol.length = s := (methodOK_all hok 0).1.bSol
  set w : ℕ → ℕ → ℝ := fun l i => (((tallVec (tab.matrix s) s l).getD i 0 : ℚ) : ℝ) with hw
  -- the stages
  let k' : Fin 1 → ℕ → E := fun _ i => (∑ l ∈ range s, (h * lam) ^ (l + 1) * w l i) • y0
  have hk' : rk.IsStages t0 (t0 + h) y0 k' := by
    intro i hi p
    rw [hns] at hi
    obtain rfl : p = 0 := Subsingleton.elim _ _
    have hval : rk.stageValue y0 k' i = y0 + ∑ j ∈ range s, (tab.full i j : ℝ) • k' 0 j := by
      unfold RK.stageValue
      congr 1
      rw [Fin.sum_univ_one]
      have hd : (rk.tab 0).d i = 0 := by
        have := hexp 0
        unfold Tableau.implicit at this
        unfold Tableau.d
        cases hh : (rk.tab 0).aDiagonal with
        | none => simp
        | some d => rw [hh] at this; simp at this
      rw [hd, zero_smul, add_zero]
      have hsub : ∑ j ∈ range s, (tab.full i j : ℝ) • k' 0 j
          = ∑ j ∈ range i, (tab.full i j : ℝ) • k' 0 j := by
        symm
        apply sum_subset
        · intro x hx; simp only [mem_range] at hx ⊢; omega
        · intro x _ hx
          simp only [mem_range, not_lt] at hx
          have : tab.full i x = 0 := by
            unfold Tableau.full
            rw [if_neg (by omega)]
            split
            · exact hd
            · rfl
          rw [this]; simp
      rw [hsub]
      apply sum_congr rfl
      intro j hj
      rw [mem_range] at hj
      rw [Tableau.full, if_pos hj, Rat.cast_smul_eq_qsmul]
      rfl
    show k' 0 i = (t0 + h - t0) • (lam • rk.stageValue y0 k' i)
    rw [hval, add_sub_cancel_left, smul_smul]
    simp only [k', smul_smul, ← sum_smul]
    have hone : y0 = (1 : ℝ) • y0 := (one_smul ℝ y0).symm
    conv_rhs => rw [hone]
    rw [smul_smul, mul_one, ← add_smul, smul_smul]
    congr 1
    have hsw : ∑ j ∈ range s, (tab.full i j : ℝ) * ∑ l ∈ range s, (h * lam) ^ (l + 1) * w l j
        = ∑ l ∈ range s, (h * lam) ^ (l + 1) * w (l + 1) i := by
      simp only [mul_sum]
      rw [sum_comm]
      apply sum_congr rfl
      intro l _
      have : w (l + 1) i = ∑ j ∈ range s, (tab.full i j : ℝ) * w l j := by
        simp only [hw]
        rw [tallVec_succ tab s l i hi]
        push_cast
        rfl
      rw [this, mul_sum]
      apply sum_congr rfl
      intro j _
      ring
    rw [hsw]
    obtain ⟨s', rfl⟩ : ∃ s', s = s' + 1 := ⟨s - 1, by omega⟩
    rw [sum_range_succ']
    have hlast : w (s' + 1) i = 0 := by
      simp only [hw]
      rw [tallVec_zero tab (s' + 1) hex (s' + 1) i hi hi]
      simp
    have h0 : w 0 i = 1 := by
      simp only [hw, tallVec]
      rw [List.getD_eq_getElem (hn := by simpa using hi)]
      simp
    rw [h0, sum_range_succ _ s', hlast, mul_zero, add_zero, mul_add, mul_sum, add_comm]
    congr 1
    · ring
    · apply sum_congr rfl
      intro l _
      ring
  have huniq := C41_explicit_unique rk hexp t0 (t0 + h) y0 k k' h1 hk'
  rw [h2, hlen]
  unfold RK.combine
  rw [hns, Fin.sum_univ_one]
  have e : ∑ i ∈ range s, ((rk.tab 0).bSol.getD i 0) • k 0 i
      = (∑ l ∈ range s, (stabCoeff tab s (l + 1) : ℝ) * (h * lam) ^ (l + 1)) • y0 := by
    have e1 : ∀ i ∈ range s, ((rk.tab 0).bSol.getD i 0) • k 0 i
        = ((tab.bSol.getD i 0 : ℝ) * ∑ l ∈ range s, (h * lam) ^ (l + 1) * w l i) • y0 := by
      intro i hi
      rw [huniq i (by rw [hns]; exact mem_range.1 hi) 0, ← Rat.cast_smul_eq_qsmul ℝ, ← smul_smul]
      rfl
    rw [sum_congr rfl e1, ← sum_smul]
    congr 1
    simp only [mul_sum]
    rw [sum_comm]
    apply sum_congr rfl
    intro l _
    rw [stabCoeff, ldot_eq _ _ s (tallVec_length tab s l)]
    push_cast
    rw [sum_mul]
    apply sum_congr rfl
    intro i _
    simp only [hw]
    ring
  rw [e, sum_range_succ', stabCoeff]
  rw [add_smul]
  simp [add_comm]

def consistentOK (tab : Tableau ℚ) (ε : ℚ) : Bool :=
  ((List.range tab.c.length).all fun i => decide (|(tab.aLower.getD i []).sum
      + (tab.aDiagonal.getD []).getD (i + 1) 0 - tab.c.getD i 0| ≤ ε))
    && decide (|tab.bSol.sum - 1| ≤ ε) && decide (|tab.bError.sum| ≤ ε)

theorem consistent_of_check (tab : Tableau ℚ) (ε : ℚ) (h : consistentOK tab ε = true) :
    tab.Consistent ε := by
  simp only [consistentOK, Bool.and_eq_true, List.all_eq_true, List.mem_range, decide_eq_true_eq] at h
  exact ⟨h.1.1, h.1.2, h.2⟩

/-! ### The solvers -/

/-- **C42.** -/
theorem C42_heun : IntegratesPoly ![Heun.tableau] 2 0 ∧ AmplifiesLikeExp Heun.tableau 2 0 ∧
    Heun.tableau.Consistent 0 :=
  ⟨integratesPoly_of_check _ 2 Heun.tableau.abscissa (by decide +kernel) 2 0 (by decide +kernel),
    amplifies_of_check _ 2 (by decide +kernel) (by decide +kernel) 2 0 (by decide +kernel),
    consistent_of_check _ _ (by decide +kernel)⟩

/-- **C42.** -/
theorem C42_midpoint : IntegratesPoly ![Midpoint.tableau] 2 0 ∧ AmplifiesLikeExp Midpoint.tableau 2 0 ∧
    Midpoint.tableau.Consistent 0 :=
  ⟨integratesPoly_of_check _ 2 Midpoint.tableau.abscissa (by decide +kernel) 2 0 (by decide +kernel),
    amplifies_of_check _ 2 (by decide +kernel) (by decide +kernel) 2 0 (by decide +kernel),
    consistent_of_check _ _ (by decide +kernel)⟩

/-- **C42.** -/
theorem C42_ralston : IntegratesPoly ![Ralston.tableau] 2 0 ∧ AmplifiesLikeExp Ralston.tableau 2 0 ∧
    Ralston.tableau.Consistent 0 :=
  ⟨integratesPoly_of_check _ 2 Ralston.tableau.abscissa (by decide +kernel) 2 0 (by decide +kernel),
    amplifies_of_check _ 2 (by decide +kernel) (by decide +kernel) 2 0 (by decide +kernel),
    consistent_of_check _ _ (by decide +kernel)⟩

/-- **C42.** -/
theorem C42_bosh3 : IntegratesPoly ![Bosh3.tableau] 3 0 ∧ AmplifiesLikeExp Bosh3.tableau 3 0 ∧
    Bosh3.tableau.Consistent 0 :=
  ⟨integratesPoly_of_check _ 4 Bosh3.tableau.abscissa (by decide +kernel) 3 0 (by decide +kernel),
    amplifies_of_check _ 4 (by decide +kernel) (by decide +kernel) 3 0 (by decide +kernel),
    consistent_of_check _ _ (by decide +kernel)⟩

/-- **C42.** -/
theorem C42_dopri5 : IntegratesPoly ![Dopri5.tableau] 5 0 ∧ AmplifiesLikeExp Dopri5.tableau 5 0 ∧
    Dopri5.tableau.Consistent 0 :=
  ⟨integratesPoly_of_check _ 7 Dopri5.tableau.abscissa (by decide +kernel) 5 0 (by decide +kernel),
    amplifies_of_check _ 7 (by decide +kernel) (by decide +kernel) 5 0 (by decide +kernel),
    consistent_of_check _ _ (by decide +kernel)⟩

/-- **C42.** -/
theorem C42_tsit5 : IntegratesPoly ![Tsit5.tableau] 5 (1 / 10 ^ 82) ∧
    AmplifiesLikeExp Tsit5.tableau 5 (1 / 10 ^ 82) ∧ Tsit5.tableau.Consistent (1 / 10 ^ 14) :=
  ⟨integratesPoly_of_check _ 7 Tsit5.tableau.abscissa (by decide +kernel) 5 _ (by decide +kernel),
    amplifies_of_check _ 7 (by decide +kernel) (by decide +kernel) 5 _ (by decide +kernel),
    consistent_of_check _ _ (by decide +kernel)⟩

/-- **C42.** -/
theorem C42_dopri8 : IntegratesPoly ![Dopri8.tableau] 8 (1 / 10 ^ 16) ∧
    AmplifiesLikeExp Dopri8.tableau 8 (1 / 10 ^ 16) ∧ Dopri8.tableau.Consistent (1 / 10 ^ 16) :=
  ⟨integratesPoly_of_check _ 14 Dopri8.tableau.abscissa (by decide +kernel) 8 _ (by decide +kernel),
    amplifies_of_check _ 14 (by decide +kernel) (by decide +kernel) 8 _ (by decide +kernel),
    consistent_of_check _ _ (by decide +kernel)⟩

/-- **C42**, for the implicit methods. -/
theorem C42_implicit : IntegratesPoly ![Kvaerno3.tableau] 3 0 ∧ Kvaerno3.tableau.Consistent 0 ∧
    IntegratesPoly ![Kvaerno4.tableau] 4 0 ∧ Kvaerno4.tableau.Consistent 0 ∧
    IntegratesPoly ![Kvaerno5.tableau] 5 (1 / 10 ^ 16) ∧ Kvaerno5.tableau.Consistent (1 / 10 ^ 16) :=
  ⟨integratesPoly_of_check _ 4 Kvaerno3.tableau.abscissa (by decide +kernel) 3 0 (by decide +kernel),
    consistent_of_check _ _ (by decide +kernel),
    integratesPoly_of_check _ 5 Kvaerno4.tableau.abscissa (by decide +kernel) 4 0 (by decide +kernel),
    consistent_of_check _ _ (by decide +kernel),
    integratesPoly_of_check _ 7 Kvaerno5.tableau.abscissa (by decide +kernel) 5 _ (by decide +kernel),
    consistent_of_check _ _ (by decide +kernel)⟩

/-- **C42**, for the implicit-explicit methods. -/
theorem C42_imex :
    IntegratesPoly ![KenCarp3.explicit, KenCarp3.implicit] 3 (1 / 10 ^ 25) ∧
    IntegratesPoly ![KenCarp4.explicit, KenCarp4.implicit] 4 (1 / 10 ^ 25) ∧
    IntegratesPoly ![KenCarp5.explicit, KenCarp5.implicit] 5 (1 / 10 ^ 22) ∧
    IntegratesPoly ![Sil3.explicit, Sil3.implicit] 2 0 ∧
    KenCarp3.explicit.Consistent (1 / 10 ^ 24) ∧ KenCarp3.implicit.Consistent (1 / 10 ^ 24) ∧
    KenCarp4.explicit.Consistent (1 / 10 ^ 24) ∧ KenCarp4.implicit.Consistent (1 / 10 ^ 24) ∧
    KenCarp5.explicit.Consistent (3 / 10 ^ 12) ∧ KenCarp5.implicit.Consistent (3 / 10 ^ 12) ∧
    Sil3.explicit.Consistent 0 ∧ Sil3.implicit.Consistent 0 :=
  ⟨integratesPoly_of_check _ 4 KenCarp3.explicit.abscissa (by decide +kernel) 3 _ (by decide +kernel),
    integratesPoly_of_check _ 6 KenCarp4.explicit.abscissa (by decide +kernel) 4 _ (by decide +kernel),
    integratesPoly_of_check _ 8 KenCarp5.explicit.abscissa (by decide +kernel) 5 _ (by decide +kernel),
    integratesPoly_of_check _ 4 Sil3.explicit.abscissa (by decide +kernel) 2 _ (by decide +kernel),
    consistent_of_check _ _ (by decide +kernel), consistent_of_check _ _ (by decide +kernel),
    consistent_of_check _ _ (by decide +kernel), consistent_of_check _ _ (by decide +kernel),
    consistent_of_check _ _ (by decide +kernel), consistent_of_check _ _ (by decide +kernel),
    consistent_of_check _ _ (by decide +kernel), consistent_of_check _ _ (by decide +kernel)⟩

/-! ### Sil3 is not of third order in its explicit term

The docstring of `Sil3` (`sil3.py:59`) says "3rd order in the explicit (ERK) term". This holds for linear
problems with constant coefficients, but not in general. -/

/-- For `y' = t^2` as the explicit term, and no implicit term, a step from `t = 0` is off by `h^3 / 18`. -/
theorem C42_sil3_explicit_violated {J : Type} (cj : CalcJac) (rF rK : RootFinder ℝ J) (nj : J)
    (hF : rF.Exact) (hK : rK.Exact) (h y0 : ℝ) (st : RK.State 2 ℝ) (mj : Bool)
    (hst : (odeRK ![Sil3.explicit, Sil3.implicit] ![fun t _ => t ^ 2, fun _ _ => 0] cj rF rK nj).ValidState
      0 y0 st mj)
    (hok : ((odeRK ![Sil3.explicit, Sil3.implicit] ![fun t _ => t ^ 2, fun _ _ => 0] cj rF rK nj).step
      0 (0 + h) y0 st mj).result.isOkay = true) :
    ((odeRK ![Sil3.explicit, Sil3.implicit] ![fun t _ => t ^ 2, fun _ _ => 0] cj rF rK nj).step
      0 (0 + h) y0 st mj).y - (y0 + h ^ 3 / 3) = h ^ 3 / 18 := by
  obtain ⟨hns, hwf, hfs⟩ := odeRK_WF (s := 4) (c := Sil3.explicit.abscissa)
    (tab := ![Sil3.explicit, Sil3.implicit]) (by decide +kernel)
    (![fun t _ => t ^ 2, fun _ _ => 0] : Fin 2 → ℝ → ℝ → ℝ) cj rF rK nj
  set rk := odeRK ![Sil3.explicit, Sil3.implicit] (![fun t _ => t ^ 2, fun _ _ => 0] : Fin 2 → ℝ → ℝ → ℝ)
    cj rF rK nj with hrk
  obtain ⟨k, h1, h2, -⟩ := C41_step_formula rk hwf hfs (fun _ => ⟨hF, hK⟩) 0 (0 + h) y0 st mj hst hok
  rw [h2]
  have hk : ∀ i < 4, ∀ p, k p i = h • ((![fun t _ => t ^ 2, fun _ _ => 0] : Fin 2 → ℝ → ℝ → ℝ) p)
      (0 + ((![Sil3.explicit, Sil3.implicit] p).abscissa i : ℝ) * h)
      (y0 + stageInc ![Sil3.explicit, Sil3.implicit] k i) := by
    intro i hi p
    exact odeRK_stage_eq _ _ cj rF rK nj 0 h y0 k h1 i (by rw [← hrk, hns]; exact hi) p
  have hq : ldot Sil3.explicit.bSol ((List.range 4).map fun i => Sil3.explicit.abscissa i ^ 2) = 7 / 18 := by
    decide +kernel
  rw [ldot_eq _ _ 4 (by simp)] at hq
  have hq' : ((∑ i ∈ range 4, Sil3.explicit.bSol.getD i 0 *
      ((List.range 4).map fun i => Sil3.explicit.abscissa i ^ 2).getD i 0 : ℚ) : ℝ) = 7 / 18 := by
    rw [hq]; norm_num
  unfold RK.combine
  rw [hns, Fin.sum_univ_two]
  have z : ∑ i ∈ range 4, ((rk.tab 1).bSol.getD i 0) • k 1 i = 0 := by
    apply sum_eq_zero
    intro i hi
    rw [hk i (mem_range.1 hi) 1]
    simp
  have e : ∑ i ∈ range 4, ((rk.tab 0).bSol.getD i 0) • k 0 i = 7 / 18 * h ^ 3 := by
    rw [← hq']
    push_cast
    rw [sum_mul]
    apply sum_congr rfl
    intro i hi
    rw [hk i (mem_range.1 hi) 0, qsmul_eq]
    rw [List.getD_eq_getElem (l := List.map _ _) (hn := by simpa using hi)]
    simp only [List.getElem_map, List.getElem_range, smul_eq_mul, Matrix.cons_val_zero, zero_add]
    push_cast
    show ((Sil3.explicit.bSol.getD i 0 : ℚ) : ℝ) * _ = _
    ring
  rw [z, e]
  ring

/-! ### The hypotheses can be met -/

/-- `y' = 1 + 3 t^2` from any state and any step, with `Bosh3`. -/
example (t0 h y0 : ℝ) (nj : Unit) (rF rK : RootFinder ℝ Unit) :
    ((odeRK ![Bosh3.tableau] (fun _ t _ => 1 + 3 * t ^ 2) .everyStage rF rK nj).step t0 (t0 + h) y0
      (some (true, fun _ => 0)) false).y = y0 + ((t0 + h) + (t0 + h) ^ 3 - (t0 + t0 ^ 3)) := by
  have hP : (fun (_ : Fin 1) (t : ℝ) (_ : ℝ) => 1 + 3 * t ^ 2)
      = fun p t _ => ((fun _ => 1 + C 3 * X ^ 2 : Fin 1 → ℝ[X]) p).eval t := by
    funext p t y; simp
  have hB : Bosh3.tableau.implicit = false := by decide +kernel
  have := C42_bosh3.1 Unit (fun _ => 1 + C 3 * X ^ 2) (fun _ => X + X ^ 3)
    (fun p => by
      have : (C 3 : ℝ[X]) = C 2 + 1 := by rw [← C_1, ← C_add]; norm_num
      simp [this]) (fun p => by
      have : (1 + C 3 * X ^ 2 : ℝ[X]).natDegree ≤ 2 := by compute_degree
      simpa using Nat.lt_succ_of_le this) .everyStage rF rK nj
    (by rintro ⟨p, hp⟩; fin_cases p; exact absurd hp (by simp [hB])) t0 h y0
    (some (true, fun _ => 0)) false (fun _ => ⟨true, fun _ => 0, rfl, Or.inl rfl⟩) (by
      rw [C41_explicit_succeeds _ (by intro p; fin_cases p; exact hB)]; rfl)
  rw [← hP] at this
  simp only [Rat.cast_zero, zero_mul, abs_nonpos_iff, sub_eq_zero] at this
  rw [this]
  simp

/-- `y' = 3 y` with `Heun`: `y` is multiplied by `1 + 3h + (3h)^2 / 2 + r (3h)^3`, and `r` does not matter. -/
example : ∃ r : ℕ → ℚ, r 0 = 1 ∧ r 1 = 1 ∧ r 2 = 1 / 2 ∧ ∀ (h y0 : ℝ) (rF rK : RootFinder ℝ Unit),
    ((odeRK ![Heun.tableau] ![fun _ y => (3 : ℝ) • y] .everyStage rF rK ()).step 0 (0 + h) y0
      (some (true, fun _ => 0)) false).y
        = (∑ k ∈ range (Heun.tableau.bSol.length + 1), (r k : ℝ) * (h * 3) ^ k) • y0 := by
  obtain ⟨r, h1, h2⟩ := C42_heun.2.1
  refine ⟨r, ?_, ?_, ?_, fun h y0 rF rK => h2 ℝ Unit 3 .everyStage rF rK () 0 h y0 _ _
    (fun _ => ⟨true, fun _ => 0, rfl, Or.inl rfl⟩)⟩
  · have := h1 0 (by omega); simpa [sub_eq_zero] using this
  · have := h1 1 (by omega); simpa [sub_eq_zero] using this
  · have := h1 2 (by omega); simpa [sub_eq_zero] using this

/-- Arbitrarily small steps for which the violation above is seen. -/
example (y0 : ℝ) : ∃ h : ℝ, h ≠ 0 ∧
    ((odeRK ![Sil3.explicit, Sil3.implicit] ![fun t _ => t ^ 2, fun _ _ => 0] .everyStage (idealRoot ℝ)
      (idealRoot ℝ) ()).step 0 (0 + h) y0 (some (true, fun _ => 0)) false).y ≠ y0 + h ^ 3 / 3 := by
  have := ideal_succeeds (tab := ![Sil3.explicit, Sil3.implicit])
    (![fun t _ => t ^ 2, fun _ _ => 0] : Fin 2 → ℝ → ℝ → ℝ) .everyStage 0 y0 0 le_rfl
    (by intro p t y y'; fin_cases p <;> simp) (some (true, fun _ => 0)) false
  obtain ⟨r, hr, hball⟩ := Metric.eventually_nhds_iff.1 this
  refine ⟨r / 2, by positivity, fun he => ?_⟩
  have h1 := C42_sil3_explicit_violated .everyStage (idealRoot ℝ) (idealRoot ℝ) () (idealRoot_exact ℝ)
    (idealRoot_exact ℝ) (r / 2) y0 (some (true, fun _ => 0)) false
    (fun _ => ⟨true, fun _ => 0, rfl, Or.inl rfl⟩)
    (hball (by rw [Real.dist_eq, sub_zero, abs_of_pos (by positivity)]; linarith))
  rw [he, sub_self] at h1
  have : 0 < (r / 2) ^ 3 / 18 := by positivity
  linarith

end Verif
