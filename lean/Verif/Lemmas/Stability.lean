import Verif.Lemmas.OrderRK
import Mathlib.Analysis.Complex.PhragmenLindelof
import Mathlib.Tactic.Positivity
import Mathlib.Tactic.Linarith

/-!
# The stability function of a diagonally implicit Runge-Kutta method

On `y' = λ y` a step of length `h` multiplies `y` by `P(hλ) / Q(hλ)` with polynomials `P`, `Q` that are computed from the
tableau. Polynomials are lists of coefficients, so that the kernel can compute with them.
-/

set_option linter.unusedSectionVars false

namespace Verif.Stab
open Finset

/-! ### Polynomials -/

section
variable {R : Type} [Field R] [CharZero R]

def peval : List ℚ → R → R
  | [], _ => 0
  | a :: l, z => (a : R) + z * peval l z

def padd : List ℚ → List ℚ → List ℚ
  | [], m => m
  | a :: l, [] => a :: l
  | a :: l, b :: m => (a + b) :: padd l m

def psmul (c : ℚ) (l : List ℚ) : List ℚ := l.map (c * ·)

def pmul : List ℚ → List ℚ → List ℚ
  | [], _ => []
  | a :: l, m => padd (psmul a m) (0 :: pmul l m)

/-- Without the zeros at the end. -/
def ptrim : List ℚ → List ℚ
  | [] => []
  | a :: l => if a = 0 ∧ ptrim l = [] then [] else a :: ptrim l

theorem peval_padd (l m : List ℚ) (z : R) : peval (padd l m) z = peval l z + peval m z := by
  induction l generalizing m with
  | nil => simp [padd, peval]
  | cons a l ih =>
    cases m with
    | nil => simp [padd, peval]
    | cons b m => simp only [padd, peval, ih]; push_cast; ring

theorem peval_psmul (c : ℚ) (l : List ℚ) (z : R) : peval (psmul c l) z = c * peval l z := by
  induction l with
  | nil => simp [psmul, peval]
  | cons a l ih =>
    have : psmul c (a :: l) = (c * a) :: psmul c l := rfl
    rw [this]; simp only [peval, ih]; push_cast; ring

theorem peval_pmul (l m : List ℚ) (z : R) : peval (pmul l m) z = peval l z * peval m z := by
  induction l with
  | nil => simp [pmul, peval]
  | cons a l ih =>
    simp only [pmul, peval_padd, peval_psmul, peval, ih]; push_cast; ring

theorem peval_ptrim (l : List ℚ) (z : R) : peval (ptrim l) z = peval l z := by
  induction l with
  | nil => rfl
  | cons a l ih =>
    unfold ptrim
    split_ifs with h
    · have h0 : peval l z = 0 := by rw [← ih, h.2]; rfl
      simp only [peval, h0, h.1]; simp
    · simp only [peval, ih]

end

/-! ### The stages -/

/-- `∑ a_j N_j`. -/
def pdot : List ℚ → List (List ℚ) → List ℚ
  | a :: as, n :: ns => padd (psmul a n) (pdot as ns)
  | _, _ => []

/-- The values at the first `i` stages, as polynomials over a common denominator. -/
def stages (t : Tableau ℚ) : ℕ → List (List ℚ) × List ℚ
  | 0 => ([], [1])
  | i + 1 =>
    let r := stages t i
    (r.1.map (pmul [1, -t.d i]) ++ [padd r.2 (0 :: pdot ((List.range i).map (t.a i)) r.1)], pmul [1, -t.d i] r.2)

/-- The denominator `Q` of the stability function. -/
def den (t : Tableau ℚ) (s : ℕ) : List ℚ := (stages t s).2

/-- Its numerator `P`. -/
def num (t : Tableau ℚ) (s : ℕ) : List ℚ :=
  padd (stages t s).2 (0 :: pdot ((List.range s).map fun i => t.bSol.getD i 0) (stages t s).1)

theorem pdot_eval (D x z : ℂ) (as : List ℚ) (ys : List ℂ) (ns : List (List ℚ))
    (h : List.Forall₂ (fun y n => D * y = peval n z * x) ys ns) :
    peval (pdot as ns) z * x = D * (List.zipWith (fun (a : ℚ) y => (a : ℂ) * y) as ys).sum := by
  induction as generalizing ys ns with
  | nil => simp [pdot, peval]
  | cons a as ih =>
    cases h with
    | nil => simp [pdot, peval]
    | cons h hs =>
      simp only [pdot, List.zipWith_cons_cons, List.sum_cons, peval_padd, peval_psmul]
      rw [add_mul, ih _ _ hs, mul_assoc, ← h]
      ring

theorem zip_range_sum (a : ℕ → ℚ) (Y : ℕ → ℂ) (i : ℕ) :
    (List.zipWith (fun (a : ℚ) y => (a : ℂ) * y) ((List.range i).map a) ((List.range i).map Y)).sum
      = ∑ j ∈ range i, (a j : ℂ) * Y j := by
  rw [List.zipWith_map, List.zipWith_self]
  induction i with
  | zero => simp
  | succ i ih => rw [List.range_succ, List.map_append, List.sum_append, ih, sum_range_succ]; simp

variable {t : Tableau ℚ} {s : ℕ}

theorem stages_eval {x z : ℂ} {Y : ℕ → ℂ}
    (hY : ∀ i < s, Y i = x + z * (∑ j ∈ range i, (t.a i j : ℂ) * Y j + (t.d i : ℂ) * Y i)) (i : ℕ) (hi : i ≤ s) :
    List.Forall₂ (fun y n => peval (stages t i).2 z * y = peval n z * x) ((List.range i).map Y) (stages t i).1 := by
  induction i with
  | zero => simp [stages]
  | succ i ih =>
    have h := ih (by omega)
    have e : peval (stages t (i + 1)).2 z = (1 - t.d i * z) * peval (stages t i).2 z := by
      simp only [stages, peval_pmul, peval]; push_cast; ring
    rw [List.range_succ, List.map_append]
    refine List.rel_append ?_ (List.Forall₂.cons ?_ List.Forall₂.nil)
    · rw [e]
      show List.Forall₂ _ _ ((stages t i).1.map _)
      rw [List.forall₂_map_right_iff]
      refine h.imp fun y n hyn => ?_
      rw [peval_pmul, mul_assoc, hyn]
      simp only [peval]; push_cast; ring
    · rw [e, peval_padd]
      have h1 := pdot_eval (peval (stages t i).2 z) x z ((List.range i).map (t.a i)) _ _ h
      rw [zip_range_sum] at h1
      have h2 : (1 - t.d i * z) * Y i = x + z * ∑ j ∈ range i, (t.a i j : ℂ) * Y j := by
        linear_combination hY i (by omega)
      simp only [peval]
      push_cast
      linear_combination peval (stages t i).2 z * h2 - z * h1

/-- A step multiplies by `P / Q`. -/
theorem step_eval {x z : ℂ} {Y : ℕ → ℂ}
    (hY : ∀ i < s, Y i = x + z * (∑ j ∈ range i, (t.a i j : ℂ) * Y j + (t.d i : ℂ) * Y i)) :
    peval (den t s) z * (x + z * ∑ i ∈ range s, ((t.bSol.getD i 0 : ℚ) : ℂ) * Y i) = peval (num t s) z * x := by
  have h := pdot_eval (peval (stages t s).2 z) x z ((List.range s).map fun i => t.bSol.getD i 0) _ _ (stages_eval hY s le_rfl)
  rw [zip_range_sum] at h
  unfold num den
  rw [peval_padd]
  simp only [peval]
  push_cast
  linear_combination -z * h

theorem den_eval (z : ℂ) (s : ℕ) : peval (den t s) z = ∏ i ∈ range s, (1 - (t.d i : ℂ) * z) := by
  induction s with
  | zero => simp [den, stages, peval]
  | succ s ih =>
    rw [prod_range_succ, ← ih]
    simp only [den, stages, peval_pmul, peval]; push_cast; ring

/-! ### Bounds -/

theorem factor_bounds {γ : ℚ} (hγ : 0 ≤ γ) {z : ℂ} (hz : z.re ≤ 0) :
    1 ≤ ‖1 - (γ : ℂ) * z‖ ∧ (γ : ℝ) * ‖z‖ ≤ ‖1 - (γ : ℂ) * z‖ := by
  have hγ' : (0 : ℝ) ≤ γ := by exact_mod_cast hγ
  have e : ‖1 - (γ : ℂ) * z‖ ^ 2 = 1 - 2 * γ * z.re + (γ * ‖z‖) ^ 2 := by
    rw [mul_pow, Complex.sq_norm, Complex.sq_norm, Complex.normSq_apply, Complex.normSq_apply]
    simp [Complex.mul_re, Complex.mul_im]
    ring
  have h1 : 0 ≤ -(2 * γ * z.re) := by nlinarith
  have h0 := norm_nonneg z
  constructor
  · refine (sq_le_sq₀ zero_le_one (norm_nonneg _)).1 ?_
    rw [e]; nlinarith [sq_nonneg (γ * ‖z‖)]
  · refine (sq_le_sq₀ (by positivity) (norm_nonneg _)).1 ?_
    rw [e]; linarith

/-- The number of implicit stages. -/
def impl (t : Tableau ℚ) (s : ℕ) : ℕ := ((List.range s).filter fun i => decide (t.d i ≠ 0)).length

theorem impl_succ (s : ℕ) : impl t (s + 1) = impl t s + if t.d s ≠ 0 then 1 else 0 := by
  unfold impl
  rw [List.range_succ, List.filter_append, List.length_append]
  congr 1
  by_cases h : t.d s = 0 <;> simp [h]

theorem den_lower (hd : ∀ i < s, 0 ≤ t.d i) :
    ∃ c : ℝ, 0 < c ∧ ∀ z : ℂ, z.re ≤ 0 → c * (1 + ‖z‖) ^ impl t s ≤ ‖peval (den t s) z‖ := by
  simp only [den_eval]
  induction s with
  | zero => exact ⟨1, one_pos, fun z _ => by simp [impl]⟩
  | succ s ih =>
    obtain ⟨c, hc, h⟩ := ih fun i hi => hd i (by omega)
    have hγ := hd s (by omega)
    by_cases h0 : t.d s = 0
    · refine ⟨c, hc, fun z hz => ?_⟩
      rw [impl_succ, prod_range_succ, norm_mul, h0]
      simpa using h z hz
    · have hp : (0 : ℝ) < t.d s := by exact_mod_cast lt_of_le_of_ne hγ (Ne.symm h0)
      refine ⟨c * (min 1 (t.d s : ℝ) / 2), by positivity, fun z hz => ?_⟩
      rw [impl_succ, if_pos h0, prod_range_succ, norm_mul, pow_succ]
      obtain ⟨h1, h2⟩ := factor_bounds hγ hz
      have h3 : min 1 (t.d s : ℝ) / 2 * (1 + ‖z‖) ≤ ‖1 - (t.d s : ℂ) * z‖ := by
        have a1 := min_le_left 1 (t.d s : ℝ)
        have a2 := min_le_right 1 (t.d s : ℝ)
        have := mul_le_mul_of_nonneg_right a2 (norm_nonneg z)
        linarith
      calc c * (min 1 (t.d s : ℝ) / 2) * ((1 + ‖z‖) ^ impl t s * (1 + ‖z‖))
          = (c * (1 + ‖z‖) ^ impl t s) * (min 1 (t.d s : ℝ) / 2 * (1 + ‖z‖)) := by ring
        _ ≤ _ := mul_le_mul (h z hz) h3 (by positivity) (norm_nonneg _)

theorem peval_bound (l : List ℚ) (k : ℕ) (hl : l.length ≤ k + 1) :
    ∃ B : ℝ, 0 ≤ B ∧ ∀ z : ℂ, ‖peval l z‖ ≤ B * (1 + ‖z‖) ^ k := by
  induction l generalizing k with
  | nil => exact ⟨0, le_rfl, fun z => by simp [peval]⟩
  | cons a l ih =>
    rcases k with _ | k
    · have : l = [] := by
        rw [← List.length_eq_zero_iff]; simpa using hl
      subst this
      exact ⟨‖(a : ℂ)‖, norm_nonneg _, fun z => by simp [peval]⟩
    · obtain ⟨B, hB, h⟩ := ih k (by simpa using hl)
      refine ⟨‖(a : ℂ)‖ + B, by positivity, fun z => ?_⟩
      have h1 : 1 ≤ 1 + ‖z‖ := by linarith [norm_nonneg z]
      have h2 : 1 ≤ (1 + ‖z‖) ^ (k + 1) := one_le_pow₀ h1
      calc ‖peval (a :: l) z‖ ≤ ‖(a : ℂ)‖ + ‖z‖ * ‖peval l z‖ := by
            rw [← norm_mul]; exact norm_add_le _ _
        _ ≤ ‖(a : ℂ)‖ * (1 + ‖z‖) ^ (k + 1) + (1 + ‖z‖) * (B * (1 + ‖z‖) ^ k) := by
            gcongr
            · exact le_mul_of_one_le_right (norm_nonneg _) h2
            · linarith
            · exact h z
        _ = _ := by ring

/-- If the degree is right then a polynomial over the denominator is bounded in the left half-plane. -/
theorem quot_bound (hd : ∀ i < s, 0 ≤ t.d i) (l : List ℚ) (k : ℕ) (hl : (ptrim l).length ≤ k + 1) :
    ∃ B : ℝ, 0 ≤ B ∧ ∀ z : ℂ, z.re ≤ 0 →
      ‖peval l z / peval (den t s) z‖ * (1 + ‖z‖) ^ impl t s ≤ B * (1 + ‖z‖) ^ k := by
  obtain ⟨c, hc, h1⟩ := den_lower hd
  obtain ⟨B, hB, h2⟩ := peval_bound (ptrim l) k hl
  refine ⟨B / c, by positivity, fun z hz => ?_⟩
  have hp : 0 < (1 + ‖z‖) ^ impl t s := by positivity
  have hq : 0 < ‖peval (den t s) z‖ := lt_of_lt_of_le (by positivity) (h1 z hz)
  have h3 := h2 z
  rw [peval_ptrim] at h3
  rw [norm_div, div_mul_eq_mul_div, div_le_iff₀ hq, div_mul_eq_mul_div, div_mul_eq_mul_div, le_div_iff₀ hc]
  calc ‖peval l z‖ * (1 + ‖z‖) ^ impl t s * c = ‖peval l z‖ * (c * (1 + ‖z‖) ^ impl t s) := by ring
    _ ≤ (B * (1 + ‖z‖) ^ k) * ‖peval (den t s) z‖ := mul_le_mul h3 (h1 z hz) (by positivity) (by positivity)

/-! ### On the imaginary axis -/

/-- `p(i y) = e(y²) + i y o(y²)`. -/
def evenOdd : List ℚ → List ℚ × List ℚ
  | [] => ([], [])
  | a :: l => (a :: psmul (-1) (evenOdd l).2, (evenOdd l).1)

/-- `|p(i y)|²` as a polynomial in `y²`. -/
def modSq (l : List ℚ) : List ℚ :=
  padd (pmul (evenOdd l).1 (evenOdd l).1) (0 :: pmul (evenOdd l).2 (evenOdd l).2)

theorem evenOdd_eval (l : List ℚ) (y : ℝ) :
    peval l ((y : ℂ) * Complex.I)
      = ((peval (evenOdd l).1 (y ^ 2) : ℝ) : ℂ) + (y * peval (evenOdd l).2 (y ^ 2) : ℝ) * Complex.I := by
  induction l with
  | nil => simp [peval, evenOdd]
  | cons a l ih =>
    simp only [peval, evenOdd, ih, peval_psmul]
    push_cast
    linear_combination (y ^ 2 * (peval (evenOdd l).2 (y ^ 2) : ℝ) : ℂ) * Complex.I_sq

theorem modSq_eval (l : List ℚ) (y : ℝ) : ‖peval l ((y : ℂ) * Complex.I)‖ ^ 2 = peval (modSq l) (y ^ 2) := by
  rw [evenOdd_eval, Complex.sq_norm, Complex.normSq_add_mul_I]
  simp only [modSq, peval_padd, peval_pmul, peval]
  push_cast; ring

/-- A sufficient condition for a polynomial to be nonnegative at nonnegative numbers: the coefficients are nonnegative, except
that the second nonzero one may be negative with `b² ≤ 4 a c`. -/
def posCheck : List ℚ → Bool
  | a :: b :: c :: l => if a = 0 then posCheck (b :: c :: l)
      else decide (0 ≤ a) && decide (0 ≤ c) && (decide (0 ≤ b) || decide (b ^ 2 ≤ 4 * a * c)) && l.all fun x => decide (0 ≤ x)
  | l => l.all fun x => decide (0 ≤ x)

theorem peval_nonneg_of_all (l : List ℚ) (h : l.all (fun x => decide (0 ≤ x)) = true) (w : ℝ) (hw : 0 ≤ w) : 0 ≤ peval l w := by
  induction l with
  | nil => simp [peval]
  | cons a l ih =>
    simp only [List.all_cons, Bool.and_eq_true, decide_eq_true_eq] at h
    have : (0 : ℝ) ≤ a := by exact_mod_cast h.1
    have := ih h.2
    simp only [peval]; positivity

theorem posCheck_sound (l : List ℚ) (h : posCheck l = true) (w : ℝ) (hw : 0 ≤ w) : 0 ≤ peval l w := by
  induction l with
  | nil => simp [peval]
  | cons a l ih =>
    rcases l with _ | ⟨b, _ | ⟨c, l⟩⟩
    · exact peval_nonneg_of_all _ h w hw
    · exact peval_nonneg_of_all _ h w hw
    · unfold posCheck at h
      split_ifs at h with ha
      · have := ih h
        simp only [peval, ha] at this ⊢
        push_cast; nlinarith
      · simp only [Bool.and_eq_true, Bool.or_eq_true, decide_eq_true_eq] at h
        obtain ⟨⟨⟨h1, h2⟩, h3⟩, h4⟩ := h
        have a1 : (0 : ℝ) < a := by exact_mod_cast lt_of_le_of_ne h1 (Ne.symm ha)
        have a2 : (0 : ℝ) ≤ c := by exact_mod_cast h2
        have a4 := peval_nonneg_of_all l h4 w hw
        have key : 0 ≤ (a : ℝ) + w * (b + w * c) := by
          rcases h3 with h3 | h3
          · have : (0 : ℝ) ≤ b := by exact_mod_cast h3
            positivity
          · have h5 : (b : ℝ) ^ 2 ≤ 4 * a * c := by exact_mod_cast h3
            have h6 : 0 ≤ 4 * a * (a + w * (b + w * c) : ℝ) := by
              have : 4 * a * (a + w * (b + w * c) : ℝ) = (2 * a + b * w) ^ 2 + (4 * a * c - b ^ 2) * w ^ 2 := by ring
              rw [this]
              have := mul_nonneg (sub_nonneg.2 h5) (sq_nonneg w)
              positivity
            exact nonneg_of_mul_nonneg_right h6 (by positivity)
        simp only [peval]
        have : (a : ℝ) + w * (b + w * (c + w * peval l w)) = a + w * (b + w * c) + w ^ 3 * peval l w := by ring
        rw [this]; positivity

/-! ### Stability -/

/-- The tableau is stable up to `ε`: the diagonal is nonnegative, the degrees fit, and `|P|² ≤ (1 + ε) |Q|²` on the imaginary
axis. -/
def stable (t : Tableau ℚ) (s : ℕ) (ε : ℚ) : Bool :=
  (List.range s).all (fun i => decide (0 ≤ t.d i)) && decide ((ptrim (num t s)).length ≤ impl t s + 1) &&
    posCheck (padd (psmul (1 + ε) (modSq (den t s))) (psmul (-1) (modSq (num t s))))

/-- The limit of `P / Q` at infinity is `r`. -/
def limit (t : Tableau ℚ) (s : ℕ) (r : ℚ) : Bool :=
  decide (0 < impl t s) && decide ((ptrim (padd (num t s) (psmul (-r) (den t s)))).length ≤ impl t s)

variable {ε : ℚ}

theorem stable_diag (h : stable t s ε = true) : ∀ i < s, 0 ≤ t.d i := by
  simp only [stable, Bool.and_eq_true, List.all_eq_true, List.mem_range, decide_eq_true_eq] at h
  exact h.1.1

theorem den_ne_zero (hd : ∀ i < s, 0 ≤ t.d i) {z : ℂ} (hz : z.re ≤ 0) : peval (den t s) z ≠ 0 := by
  obtain ⟨c, hc, h⟩ := den_lower hd
  have := h z hz
  intro h0
  rw [h0, norm_zero] at this
  have : 0 < c * (1 + ‖z‖) ^ impl t s := by positivity
  linarith

theorem peval_differentiable (l : List ℚ) : Differentiable ℂ fun z : ℂ => peval l z := by
  induction l with
  | nil => exact differentiable_const _
  | cons a l ih => exact (differentiable_const _).add (differentiable_id.mul ih)

/-- The stability function is at most `1 + ε` in the left half-plane. -/
theorem stable_bound (h : stable t s ε = true) (hε : 0 ≤ ε) {z : ℂ} (hz : z.re ≤ 0) :
    ‖peval (num t s) z / peval (den t s) z‖ ≤ 1 + ε := by
  have hd := stable_diag h
  simp only [stable, Bool.and_eq_true, decide_eq_true_eq] at h
  obtain ⟨⟨-, hdeg⟩, hpos⟩ := h
  have hε' : (0 : ℝ) ≤ ε := by exact_mod_cast hε
  obtain ⟨B, hB, hb⟩ := quot_bound hd (num t s) (impl t s) hdeg
  have hb' : ∀ z : ℂ, z.re ≤ 0 → ‖peval (num t s) z / peval (den t s) z‖ ≤ B := fun z hz =>
    le_of_mul_le_mul_right (hb z hz) (by positivity)
  have main := PhragmenLindelof.right_half_plane_of_bounded_on_real (C := 1 + (ε : ℝ)) (z := -z)
    (f := fun w : ℂ => peval (num t s) (-w) / peval (den t s) (-w)) ?_ ?_ ?_ ?_ ?_
  · simpa using main
  · have hcl : closure {z : ℂ | 0 < z.re} = {z : ℂ | 0 ≤ z.re} := Complex.closure_setOfPred_lt_re 0
    refine DifferentiableOn.diffContOnCl ?_
    rw [hcl]
    intro w hw
    have hw' : (-w).re ≤ 0 := by simpa using hw
    have hdiff : ∀ l : List ℚ, DifferentiableAt ℂ (fun w : ℂ => peval l (-w)) w := fun l =>
      ((peval_differentiable l).comp differentiable_neg).differentiableAt
    exact (DifferentiableAt.fun_div (hdiff (num t s)) (hdiff (den t s)) (den_ne_zero hd hw')).differentiableWithinAt
  · refine ⟨0, by norm_num, 0, Asymptotics.IsBigO.of_bound B ?_⟩
    refine Filter.eventually_inf_principal.2 (Filter.Eventually.of_forall fun w hw => ?_)
    simp only [zero_mul, Real.exp_zero, norm_one, mul_one]
    refine hb' (-w) ?_
    simpa using le_of_lt hw
  · refine ⟨B, ?_⟩
    simp only [Filter.eventually_map]
    filter_upwards [Filter.eventually_ge_atTop 0] with x hx
    exact hb' _ (by simpa using hx)
  · intro x
    have hre : (-((x : ℂ) * Complex.I)) = ((-x : ℝ) : ℂ) * Complex.I := by push_cast; ring
    rw [hre, norm_div]
    set w : ℂ := ((-x : ℝ) : ℂ) * Complex.I with hw
    have hwre : w.re ≤ 0 := by simp [hw]
    have hq : 0 < ‖peval (den t s) w‖ := norm_pos_iff.2 (den_ne_zero hd hwre)
    have h1 := posCheck_sound _ hpos ((-x) ^ 2) (sq_nonneg _)
    rw [peval_padd, peval_psmul, peval_psmul, ← modSq_eval, ← modSq_eval] at h1
    push_cast at h1
    rw [div_le_iff₀ hq]
    refine (sq_le_sq₀ (norm_nonneg _) (by positivity)).1 ?_
    have h2 : (1 + (ε : ℝ)) ≤ (1 + ε) ^ 2 := by nlinarith
    have h3 := mul_le_mul_of_nonneg_right h2 (sq_nonneg ‖peval (den t s) w‖)
    rw [mul_pow]
    have e : ((-x : ℝ) : ℂ) = -(x : ℂ) := by push_cast; rfl
    simp only [hw, e] at h1 h3 ⊢
    linarith
  · simpa using hz

/-- Far away the stability function is close to its limit. -/
theorem limit_bound (hd : ∀ i < s, 0 ≤ t.d i) {r : ℚ} (h : limit t s r = true) :
    ∃ B : ℝ, 0 ≤ B ∧ ∀ z : ℂ, z.re ≤ 0 → ‖peval (num t s) z / peval (den t s) z - r‖ ≤ B / (1 + ‖z‖) := by
  simp only [limit, Bool.and_eq_true, decide_eq_true_eq] at h
  obtain ⟨hi, hl⟩ := h
  obtain ⟨n, hn⟩ : ∃ n, impl t s = n + 1 := ⟨impl t s - 1, by omega⟩
  obtain ⟨B, hB, hb⟩ := quot_bound hd (padd (num t s) (psmul (-r) (den t s))) n (by omega)
  refine ⟨B, hB, fun z hz => ?_⟩
  have h1 := hb z hz
  have hq := den_ne_zero hd hz
  have e : peval (num t s) z / peval (den t s) z - r
      = peval (padd (num t s) (psmul (-r) (den t s))) z / peval (den t s) z := by
    rw [peval_padd, peval_psmul]
    push_cast
    field_simp
    ring
  rw [e, le_div_iff₀ (by positivity)]
  rw [hn, pow_succ, ← mul_assoc, mul_right_comm] at h1
  exact le_of_mul_le_mul_right h1 (by positivity)

end Verif.Stab
