import Verif.Lemmas.Langevin

/-!
# C71: the Taylor expansions of the coefficients of the Langevin solvers
-/

namespace Verif

/-- `t` is the Taylor polynomial of fifth degree, and `x` the value, of something without unit (`scale = 1`)
or something that is a time (`scale = |c|`, the friction): they differ by a hundredth of `|c h|^6`. -/
def TaylorClose (h c scale t x : ℝ) : Prop := |x - t| ≤ |c * h| ^ 6 / 100 / scale

theorem polyval6 (p5 p4 p3 p2 p1 p0 h : ℝ) : polyvalH [p5, p4, p3, p2, p1, p0] h
    = p5 * h ^ 5 + p4 * h ^ 4 + p3 * h ^ 3 + p2 * h ^ 2 + p1 * h + p0 := by
  simp only [polyvalH, List.foldl_cons, List.foldl_nil]; ring

section
variable (h c lr : ℝ)

theorem beta_close (hs : |c * h * lr| ≤ 1) (hlr : |lr| ≤ 1) (t : ℝ)
    (ht : t = 1 - c * h * lr + (c * h * lr) ^ 2 / 2 - (c * h * lr) ^ 3 / 6 + (c * h * lr) ^ 4 / 24
      - (c * h * lr) ^ 5 / 120) :
    TaylorClose h c 1 t (Real.exp (-(c * h * lr))) := by
  unfold TaylorClose
  rw [ht, div_one]
  refine (exp_rem _ hs).trans ?_
  rw [abs_mul (c * h), mul_pow]
  have h1 : |lr| ^ 6 ≤ 1 := pow_le_one₀ (abs_nonneg _) hlr
  have := mul_le_mul_of_nonneg_left h1 (by positivity : 0 ≤ |c * h| ^ 6)
  linarith

theorem a_close (hc : c ≠ 0) (hs : |c * h * lr| ≤ 1) (hlr : |lr| ≤ 1) (t : ℝ)
    (ht : t * c = c * h * lr - (c * h * lr) ^ 2 / 2 + (c * h * lr) ^ 3 / 6 - (c * h * lr) ^ 4 / 24
      + (c * h * lr) ^ 5 / 120) :
    TaylorClose h c |c| t ((1 - Real.exp (-(c * h * lr))) / c) := by
  unfold TaylorClose
  have e : (1 - Real.exp (-(c * h * lr))) / c - t = (1 - Real.exp (-(c * h * lr)) - t * c) / c := by
    field_simp
  rw [e, abs_div, ht]
  gcongr
  refine (a_rem _ hs).trans ?_
  rw [abs_mul (c * h), mul_pow]
  have h1 : |lr| ^ 6 ≤ 1 := pow_le_one₀ (abs_nonneg _) hlr
  have := mul_le_mul_of_nonneg_left h1 (by positivity : 0 ≤ |c * h| ^ 6)
  linarith

/-- `x` is `(exp(-c h lr) + c h lr - 1) / (c^2 h)`, written in any way. -/
theorem b_close (hc : c ≠ 0) (hh : h ≠ 0) (hs : |c * h * lr| ≤ 1) (hlr : |lr| ≤ 1) (t x : ℝ)
    (hx : x * (c ^ 2 * h) = Real.exp (-(c * h * lr)) + c * h * lr - 1)
    (ht : t * (c ^ 2 * h) = (c * h * lr) ^ 2 / 2 - (c * h * lr) ^ 3 / 6 + (c * h * lr) ^ 4 / 24
      - (c * h * lr) ^ 5 / 120 + (c * h * lr) ^ 6 / 720) :
    TaylorClose h c |c| t x := by
  unfold TaylorClose
  have hp : 0 < |c ^ 2 * h| := abs_pos.2 (mul_ne_zero (pow_ne_zero _ hc) hh)
  have e : |x - t| * |c ^ 2 * h|
      = |Real.exp (-(c * h * lr)) + c * h * lr - 1 - ((c * h * lr) ^ 2 / 2 - (c * h * lr) ^ 3 / 6
        + (c * h * lr) ^ 4 / 24 - (c * h * lr) ^ 5 / 120 + (c * h * lr) ^ 6 / 720)| := by
    rw [← abs_mul, ← hx, ← ht]; congr 1; ring
  rw [← mul_le_mul_iff_of_pos_right hp, e]
  refine (b_rem _ hs).trans ?_
  rw [abs_mul (c * h), mul_pow]
  have h1 : |lr| ^ 7 ≤ 1 := pow_le_one₀ (abs_nonneg _) hlr
  have h2 := mul_le_mul_of_nonneg_left h1 (by positivity : 0 ≤ |c * h| ^ 7)
  have h3 : |c * h| ^ 6 / 100 / |c| * |c ^ 2 * h| = |c * h| ^ 7 / 100 := by
    have : |c| ≠ 0 := abs_ne_zero.2 hc
    rw [abs_mul, abs_mul, abs_pow]
    field_simp
  rw [h3]
  linarith

theorem aa_close (hc : c ≠ 0) (hh : h ≠ 0) (hs : |c * h| ≤ 1) (t x : ℝ)
    (hx : x * (c * h) = 1 - Real.exp (-(c * h)))
    (ht : t * (c * h) = c * h - (c * h) ^ 2 / 2 + (c * h) ^ 3 / 6 - (c * h) ^ 4 / 24 + (c * h) ^ 5 / 120
      - (c * h) ^ 6 / 720) :
    TaylorClose h c 1 t x := by
  unfold TaylorClose
  have hp : 0 < |c * h| := abs_pos.2 (mul_ne_zero hc hh)
  have e : |x - t| * |c * h| = |1 - Real.exp (-(c * h)) - (c * h - (c * h) ^ 2 / 2 + (c * h) ^ 3 / 6
      - (c * h) ^ 4 / 24 + (c * h) ^ 5 / 120 - (c * h) ^ 6 / 720)| := by
    rw [← abs_mul, ← hx, ← ht]; congr 1; ring
  rw [← mul_le_mul_iff_of_pos_right hp, e, div_one]
  exact (aa_rem _ hs).trans (le_of_eq (by ring))

theorem chh_close (hc : c ≠ 0) (hh : h ≠ 0) (hs : |c * h| ≤ 1) :
    TaylorClose h c |c| (polyvalH (alignTay c).chh h)
      (6 * (Real.exp (-(c * h)) * (c * h + 2) + c * h - 2) / ((c * h) ^ 2 * c)) := by
  refine div_bound _ _ (c * h) c 2 (mul_ne_zero hc hh) hc _ (chh_rem _ hs) ?_
  simp only [alignTay]; rw [polyval6]; ring

theorem ckk_close (hc : c ≠ 0) (hh : h ≠ 0) (hs : |c * h| ≤ 1) :
    TaylorClose h c |c| (polyvalH (shouldTay c).ckk h)
      (60 * (Real.exp (-(c * h)) * (c * h * (c * h + 6) + 12) - c * h * (c * h - 6) - 12)
        / ((c * h) ^ 3 * c)) := by
  refine div_bound _ _ (c * h) c 3 (mul_ne_zero hc hh) hc _ (ckk_rem _ hs) ?_
  simp only [shouldTay]; rw [polyval6]; ring

variable {h c}

/-- **C71.** `ALIGN`. -/
theorem C71_align (hc : c ≠ 0) (hh : h ≠ 0) (hs : |c * h| ≤ 1) :
    TaylorClose h c 1 (alignEval h (alignTay c)).beta (alignDirect h c).beta ∧
    TaylorClose h c |c| (alignEval h (alignTay c)).a1 (alignDirect h c).a1 ∧
    TaylorClose h c |c| (alignEval h (alignTay c)).b1 (alignDirect h c).b1 ∧
    TaylorClose h c 1 (alignEval h (alignTay c)).aa (alignDirect h c).aa ∧
    TaylorClose h c |c| (alignEval h (alignTay c)).chh (alignDirect h c).chh := by
  have hs1 : |c * h * 1| ≤ 1 := by rwa [mul_one]
  have h1 : |(1 : ℝ)| ≤ 1 := by norm_num
  refine ⟨?_, ?_, ?_, ?_, ?_⟩
  · have := beta_close h c 1 hs1 h1 (polyvalH (alignTay c).beta h)
      (by simp only [alignTay]; rw [polyval6]; ring)
    rwa [mul_one] at this
  · have := a_close h c 1 hc hs1 h1 (polyvalH (alignTay c).a1 h)
      (by simp only [alignTay]; rw [polyval6]; ring)
    rwa [mul_one] at this
  · refine b_close h c 1 hc hh hs1 h1 _ _ ?_ ?_
    · simp only [alignDirect, mul_one]; field_simp
    · simp only [alignEval, alignTay]; rw [polyval6]; ring
  · refine aa_close h c hc hh hs _ _ ?_ ?_
    · simp only [alignDirect]; field_simp
    · simp only [alignEval, alignTay]; rw [polyval6]; ring
  · exact chh_close h c hc hh hs

/-- **C71.** `ShOULD`. -/
theorem C71_should (hc : c ≠ 0) (hh : h ≠ 0) (hs : |c * h| ≤ 1) :
    (TaylorClose h c 1 (shouldEval h (shouldTay c)).betaHalf (shouldDirect h c).betaHalf ∧
    TaylorClose h c |c| (shouldEval h (shouldTay c)).aHalf (shouldDirect h c).aHalf ∧
    TaylorClose h c |c| (shouldEval h (shouldTay c)).bHalf (shouldDirect h c).bHalf) ∧
    (TaylorClose h c 1 (shouldEval h (shouldTay c)).beta1 (shouldDirect h c).beta1 ∧
    TaylorClose h c |c| (shouldEval h (shouldTay c)).a1 (shouldDirect h c).a1 ∧
    TaylorClose h c |c| (shouldEval h (shouldTay c)).b1 (shouldDirect h c).b1) ∧
    TaylorClose h c 1 (shouldEval h (shouldTay c)).aa (shouldDirect h c).aa ∧
    TaylorClose h c |c| (shouldEval h (shouldTay c)).chh (shouldDirect h c).chh ∧
    TaylorClose h c |c| (shouldEval h (shouldTay c)).ckk (shouldDirect h c).ckk := by
  have hs2 : |c * h * (1 / 2)| ≤ 1 := by
    rw [abs_mul, abs_of_pos (by norm_num : (0 : ℝ) < 1 / 2)]; linarith [abs_nonneg (c * h)]
  have h2 : |(1 / 2 : ℝ)| ≤ 1 := by rw [abs_of_pos] <;> norm_num
  have e2 : -(c * h) / 2 = -(c * h * (1 / 2)) := by ring
  refine ⟨⟨?_, ?_, ?_⟩, ⟨?_, ?_, ?_⟩, ?_, ?_, ?_⟩
  · have := beta_close h c (1 / 2) hs2 h2 (polyvalH (shouldTay c).betaHalf h)
      (by simp only [shouldTay]; rw [polyval6]; ring)
    rwa [← e2] at this
  · have := a_close h c (1 / 2) hc hs2 h2 (polyvalH (shouldTay c).aHalf h)
      (by simp only [shouldTay]; rw [polyval6]; ring)
    rwa [← e2] at this
  · refine b_close h c (1 / 2) hc hh hs2 h2 _ _ ?_ ?_
    · simp only [shouldDirect]; rw [e2]; field_simp
    · simp only [shouldEval, shouldTay]; rw [polyval6]; ring
  · exact (C71_align hc hh hs).1
  · exact (C71_align hc hh hs).2.1
  · have := (C71_align hc hh hs).2.2.1
    simp only [alignDirect] at this
    simp only [shouldDirect]
    rw [mul_comm (c * h) c]
    exact this
  · exact (C71_align hc hh hs).2.2.2.1
  · exact (C71_align hc hh hs).2.2.2.2
  · have := ckk_close h c hc hh hs
    simp only [shouldDirect]
    have e3 : (c * h) ^ 2 * (c * h) * c = (c * h) ^ 3 * c := by ring
    rw [e3]
    exact this

theorem quicL_abs : |quicL| ≤ 1 := by
  have h1 := Real.sqrt_nonneg 3
  have h2 : Real.sqrt 3 ≤ 2 := by rw [Real.sqrt_le_left (by norm_num)]; norm_num
  unfold quicL
  rw [abs_le]; constructor <;> linarith

theorem quicR_abs : |quicR| ≤ 1 := by
  have h1 := Real.sqrt_nonneg 3
  have h2 : Real.sqrt 3 ≤ 2 := by rw [Real.sqrt_le_left (by norm_num)]; norm_num
  unfold quicR
  rw [abs_le]; constructor <;> linarith

/-- **C71.** `QUICSORT`. -/
theorem C71_quicsort (hc : c ≠ 0) (hh : h ≠ 0) (hs : |c * h| ≤ 1) :
    (TaylorClose h c 1 (quicsortEval h (quicsortTay c)).beta.l (quicsortDirect h c).beta.l ∧
    TaylorClose h c 1 (quicsortEval h (quicsortTay c)).beta.r (quicsortDirect h c).beta.r ∧
    TaylorClose h c 1 (quicsortEval h (quicsortTay c)).beta.one (quicsortDirect h c).beta.one) ∧
    (TaylorClose h c |c| (quicsortEval h (quicsortTay c)).a.l (quicsortDirect h c).a.l ∧
    TaylorClose h c |c| (quicsortEval h (quicsortTay c)).a.r (quicsortDirect h c).a.r ∧
    TaylorClose h c |c| (quicsortEval h (quicsortTay c)).a.one (quicsortDirect h c).a.one) ∧
    (TaylorClose h c |c| (quicsortEval h (quicsortTay c)).b.l (quicsortDirect h c).b.l ∧
    TaylorClose h c |c| (quicsortEval h (quicsortTay c)).b.r (quicsortDirect h c).b.r ∧
    TaylorClose h c |c| (quicsortEval h (quicsortTay c)).b.one (quicsortDirect h c).b.one) ∧
    TaylorClose h c |c| (quicsortEval h (quicsortTay c)).aThird (quicsortDirect h c).aThird ∧
    TaylorClose h c 1 (quicsortEval h (quicsortTay c)).aDivH (quicsortDirect h c).aDivH := by
  have hsl : ∀ lr : ℝ, |lr| ≤ 1 → |c * h * lr| ≤ 1 := fun lr hl => by
    rw [abs_mul]; exact mul_le_one₀ hs (abs_nonneg _) hl
  have hβ : ∀ lr : ℝ, |lr| ≤ 1 → TaylorClose h c 1
      (polyvalH (List.zipWith (· * ·) (quicPows lr) [-(c ^ 2 * c * c * c) / 120, c ^ 2 * c * c / 24,
        -(c ^ 2 * c) / 6, c ^ 2 / 2, -c, 1]) h) (Real.exp (-(c * h * lr))) := fun lr hl => by
    refine beta_close h c lr (hsl lr hl) hl _ ?_
    simp only [quicPows, List.zipWith_cons_cons, List.zipWith_nil_left]
    rw [polyval6]; ring
  have ha : ∀ lr : ℝ, |lr| ≤ 1 → TaylorClose h c |c|
      (polyvalH (List.zipWith (· * ·) (quicPows lr) [c ^ 2 * c * c / 120, -(c ^ 2 * c) / 24, c ^ 2 / 6,
        -c / 2, 1, 0]) h) ((1 - Real.exp (-(c * h * lr))) / c) := fun lr hl => by
    refine a_close h c lr hc (hsl lr hl) hl _ ?_
    simp only [quicPows, List.zipWith_cons_cons, List.zipWith_nil_left]
    rw [polyval6]; ring
  have hb : ∀ lr : ℝ, |lr| ≤ 1 → TaylorClose h c |c|
      (polyvalH (List.zipWith (· * ·) ((quicPows lr).map (· * lr)) [c ^ 2 * c * c / 720,
        -(c ^ 2 * c) / 120, c ^ 2 / 24, -c / 6, 1 / 2, 0]) h)
      ((Real.exp (-(c * h * lr)) + c * h * lr - 1) / (c ^ 2 * h)) := fun lr hl => by
    refine b_close h c lr hc hh (hsl lr hl) hl _ _ (by field_simp) ?_
    simp only [quicPows, List.map_cons, List.map_nil, List.zipWith_cons_cons, List.zipWith_nil_left]
    rw [polyval6]; ring
  have h1 : |(1 : ℝ)| ≤ 1 := by norm_num
  have h3 : |(1 / 3 : ℝ)| ≤ 1 := by rw [abs_of_pos] <;> norm_num
  refine ⟨⟨hβ _ quicL_abs, hβ _ quicR_abs, hβ 1 h1⟩, ⟨ha _ quicL_abs, ha _ quicR_abs, ha 1 h1⟩,
    ⟨hb _ quicL_abs, hb _ quicR_abs, hb 1 h1⟩, ?_, ?_⟩
  · have := a_close h c (1 / 3) hc (hsl _ h3) h3 (polyvalH (quicsortTay c).aThird h)
      (by simp only [quicsortTay]; rw [polyval6]; ring)
    have e3 : -(c * h * (1 / 3)) = -(c * h) / 3 := by ring
    rwa [e3] at this
  · refine aa_close h c hc hh hs _ _ ?_ ?_
    · simp only [quicsortDirect]; field_simp
    · simp only [quicsortEval, quicsortTay]; rw [polyval6]; ring

end

/-- With the default `taylor_threshold=0.1`, at which the choice changes: the two differ by at most `1e-8`
(here for `gamma = 2`, `h = 0.05`). -/
example : |(alignDirect (1 / 20) 2).b1 - (alignEval (1 / 20) (alignTay 2)).b1| ≤ 1 / 10 ^ 8 := by
  refine (C71_align (h := 1 / 20) (c := 2) (by norm_num) (by norm_num) ?_).2.2.1.trans ?_
  · rw [abs_of_pos] <;> norm_num
  · rw [abs_of_pos (by norm_num : (0 : ℝ) < 2 * (1 / 20)), abs_of_pos (by norm_num : (0 : ℝ) < 2)]; norm_num

end Verif
