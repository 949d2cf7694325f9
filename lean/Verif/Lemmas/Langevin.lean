import Verif.Model.Langevin
import Mathlib.Analysis.Complex.Exponential

/-!
# Estimates for the coefficients of the Langevin solvers
-/

namespace Verif
open Finset

theorem abs_le_of_two {x a b A B C : ℝ} (h : x = a + b) (ha : |a| ≤ A) (hb : |b| ≤ B) (hC : A + B ≤ C) :
    |x| ≤ C := by
  rw [h]; exact (abs_add_le _ _).trans ((add_le_add ha hb).trans hC)

theorem exp_rem (x : ℝ) (hx : |x| ≤ 1) :
    |Real.exp (-x) - (1 - x + x ^ 2 / 2 - x ^ 3 / 6 + x ^ 4 / 24 - x ^ 5 / 120)| ≤ |x| ^ 6 / 100 := by
  have h := Real.exp_bound (x := -x) (by rwa [abs_neg]) (n := 6) (by norm_num)
  simp only [sum_range_succ, sum_range_zero, Nat.factorial, abs_neg] at h
  norm_num at h
  have := pow_nonneg (abs_nonneg x) 6
  refine le_trans (le_of_eq ?_) (h.trans (by linarith))
  congr 1; ring

theorem exp_rem7 (x : ℝ) (hx : |x| ≤ 1) :
    |Real.exp (-x) - (1 - x + x ^ 2 / 2 - x ^ 3 / 6 + x ^ 4 / 24 - x ^ 5 / 120 + x ^ 6 / 720)|
      ≤ |x| ^ 7 / 4000 := by
  have h := Real.exp_bound (x := -x) (by rwa [abs_neg]) (n := 7) (by norm_num)
  simp only [sum_range_succ, sum_range_zero, Nat.factorial, abs_neg] at h
  norm_num at h
  have := pow_nonneg (abs_nonneg x) 7
  refine le_trans (le_of_eq ?_) (h.trans (by linarith))
  congr 1; ring

theorem exp_rem8 (x : ℝ) (hx : |x| ≤ 1) :
    |Real.exp (-x) - (1 - x + x ^ 2 / 2 - x ^ 3 / 6 + x ^ 4 / 24 - x ^ 5 / 120 + x ^ 6 / 720
      - x ^ 7 / 5040)| ≤ |x| ^ 8 / 30000 := by
  have h := Real.exp_bound (x := -x) (by rwa [abs_neg]) (n := 8) (by norm_num)
  simp only [sum_range_succ, sum_range_zero, Nat.factorial, abs_neg] at h
  norm_num at h
  have := pow_nonneg (abs_nonneg x) 8
  refine le_trans (le_of_eq ?_) (h.trans (by linarith))
  congr 1; ring

theorem exp_rem9 (x : ℝ) (hx : |x| ≤ 1) :
    |Real.exp (-x) - (1 - x + x ^ 2 / 2 - x ^ 3 / 6 + x ^ 4 / 24 - x ^ 5 / 120 + x ^ 6 / 720
      - x ^ 7 / 5040 + x ^ 8 / 40320)| ≤ |x| ^ 9 / 300000 := by
  have h := Real.exp_bound (x := -x) (by rwa [abs_neg]) (n := 9) (by norm_num)
  simp only [sum_range_succ, sum_range_zero, Nat.factorial, abs_neg] at h
  norm_num at h
  have := pow_nonneg (abs_nonneg x) 9
  refine le_trans (le_of_eq ?_) (h.trans (by linarith))
  congr 1; ring

theorem b_rem (x : ℝ) (hx : |x| ≤ 1) :
    |Real.exp (-x) + x - 1 - (x ^ 2 / 2 - x ^ 3 / 6 + x ^ 4 / 24 - x ^ 5 / 120 + x ^ 6 / 720)|
      ≤ |x| ^ 7 / 100 := by
  have h := exp_rem7 x hx
  have := pow_nonneg (abs_nonneg x) 7
  refine le_trans (le_of_eq ?_) (h.trans (by linarith))
  congr 1; ring

theorem aa_rem (x : ℝ) (hx : |x| ≤ 1) :
    |1 - Real.exp (-x) - (x - x ^ 2 / 2 + x ^ 3 / 6 - x ^ 4 / 24 + x ^ 5 / 120 - x ^ 6 / 720)|
      ≤ |x| ^ 7 / 100 := by
  have h := exp_rem7 x hx
  have := pow_nonneg (abs_nonneg x) 7
  refine le_trans (le_of_eq ?_) (h.trans (by linarith))
  rw [← abs_neg]
  congr 1; ring

theorem a_rem (x : ℝ) (hx : |x| ≤ 1) :
    |1 - Real.exp (-x) - (x - x ^ 2 / 2 + x ^ 3 / 6 - x ^ 4 / 24 + x ^ 5 / 120)| ≤ |x| ^ 6 / 100 := by
  have h := exp_rem x hx
  refine le_trans (le_of_eq ?_) h
  rw [← abs_neg]
  congr 1; ring

theorem chh_rem (x : ℝ) (hx : |x| ≤ 1) :
    |6 * (Real.exp (-x) * (x + 2) + x - 2)
      - (x ^ 3 - x ^ 4 / 2 + 3 * x ^ 5 / 20 - x ^ 6 / 30 + x ^ 7 / 168)| ≤ |x| ^ 8 / 100 := by
  have h := exp_rem8 x hx
  set r := Real.exp (-x) - (1 - x + x ^ 2 / 2 - x ^ 3 / 6 + x ^ 4 / 24 - x ^ 5 / 120 + x ^ 6 / 720
      - x ^ 7 / 5040) with hr
  have hE : Real.exp (-x) = r + (1 - x + x ^ 2 / 2 - x ^ 3 / 6 + x ^ 4 / 24 - x ^ 5 / 120 + x ^ 6 / 720
      - x ^ 7 / 5040) := by rw [hr]; ring
  have h3 : |6 * (x + 2)| ≤ 18 := by
    rw [abs_le] at hx ⊢; constructor <;> linarith [hx.1, hx.2]
  refine abs_le_of_two (a := 6 * (x + 2) * r) (b := -(6 / 5040) * x ^ 8) (A := 18 * (|x| ^ 8 / 30000))
    (B := 6 / 5040 * |x| ^ 8) ?_ ?_ ?_ ?_
  · rw [hE]; ring
  · rw [abs_mul]; exact mul_le_mul h3 h (abs_nonneg _) (by norm_num)
  · rw [abs_mul, abs_neg, abs_pow]; norm_num
  · have := pow_nonneg (abs_nonneg x) 8
    linarith

theorem ckk_rem (x : ℝ) (hx : |x| ≤ 1) :
    |60 * (Real.exp (-x) * (x * (x + 6) + 12) - x * (x - 6) - 12)
      - (-x ^ 5 + x ^ 6 / 2 - x ^ 7 / 7 + 5 * x ^ 8 / 168)| ≤ |x| ^ 9 / 100 := by
  have h := exp_rem9 x hx
  set r := Real.exp (-x) - (1 - x + x ^ 2 / 2 - x ^ 3 / 6 + x ^ 4 / 24 - x ^ 5 / 120 + x ^ 6 / 720
      - x ^ 7 / 5040 + x ^ 8 / 40320) with hr
  have hE : Real.exp (-x) = r + (1 - x + x ^ 2 / 2 - x ^ 3 / 6 + x ^ 4 / 24 - x ^ 5 / 120 + x ^ 6 / 720
      - x ^ 7 / 5040 + x ^ 8 / 40320) := by rw [hr]; ring
  obtain ⟨hx1, hx2⟩ := abs_le.1 hx
  have h3 : |60 * (x * (x + 6) + 12)| ≤ 1140 := by
    rw [abs_le]; constructor <;> nlinarith
  have h4 : |60 * (6 / 40320 - 1 / 5040) + 60 * x / 40320| ≤ 60 * (2 / 40320) + 60 / 40320 := by
    rw [abs_le]; constructor <;> linarith
  refine abs_le_of_two (a := 60 * (x * (x + 6) + 12) * r)
    (b := (60 * (6 / 40320 - 1 / 5040) + 60 * x / 40320) * x ^ 9) (A := 1140 * (|x| ^ 9 / 300000))
    (B := (60 * (2 / 40320) + 60 / 40320) * |x| ^ 9) ?_ ?_ ?_ ?_
  · rw [hE]; ring
  · rw [abs_mul]; exact mul_le_mul h3 h (abs_nonneg _) (by norm_num)
  · rw [abs_mul, abs_pow]
    exact mul_le_mul_of_nonneg_right h4 (by positivity)
  · have := pow_nonneg (abs_nonneg x) 9
    linarith

/-- Dividing by `x^j * c`. -/
theorem div_bound (num tay x c : ℝ) (j : ℕ) (hx : x ≠ 0) (hc : c ≠ 0) (y : ℝ)
    (h : |num - tay| ≤ |x| ^ (6 + j) / 100) (hy : y * (x ^ j * c) = tay) :
    |num / (x ^ j * c) - y| ≤ |x| ^ 6 / 100 / |c| := by
  have hxc : x ^ j * c ≠ 0 := mul_ne_zero (pow_ne_zero _ hx) hc
  have e : num / (x ^ j * c) - y = (num - tay) / (x ^ j * c) := by
    rw [← hy]; field_simp
  rw [e, abs_div, abs_mul, abs_pow, div_le_iff₀ (by positivity)]
  refine h.trans (le_of_eq ?_)
  have : |c| ≠ 0 := abs_ne_zero.2 hc
  field_simp
  ring

end Verif
