import Verif.Lemmas.DenseRows
import Verif.Props.OrderIdeal

/-!
# C75: order of accuracy of dense output and of `SaveAt(ts=...)`

`DenseOrder tab interp N ε`: the local error at any fraction of the step is `O(h^(N+1))`, up to `ε`.
-/

set_option maxRecDepth 100000

namespace Verif
open Tab Finset Filter Topology Asymptotics

/-- **C75.** `Heun` (documented: 2nd order). -/
theorem C75_heun : DenseOrder ![Heun.tableau] (fun _ _ _ => hermiteInterp 2) 2 0 := by
  simpa using denseOrder_of_check _ _ 2 Heun.tableau.abscissa (by decide +kernel) 0 _ 3
    (hermite_hasRows _ 2 (by norm_num)) 1 0 (by norm_num) (by decide +kernel)

/-- **C75.** `Midpoint` (documented: 2nd order). -/
theorem C75_midpoint : DenseOrder ![Midpoint.tableau] (fun _ _ _ => hermiteInterp 2) 1 0 := by
  simpa using denseOrder_of_check _ _ 2 Midpoint.tableau.abscissa (by decide +kernel) 0 _ 3
    (hermite_hasRows _ 2 (by norm_num)) 0 0 (by norm_num) (by decide +kernel)

/-- **C75.** `Ralston` (documented: 2nd order). -/
theorem C75_ralston : DenseOrder ![Ralston.tableau] (fun _ _ _ => hermiteInterp 2) 1 0 := by
  simpa using denseOrder_of_check _ _ 2 Ralston.tableau.abscissa (by decide +kernel) 0 _ 3
    (hermite_hasRows _ 2 (by norm_num)) 0 0 (by norm_num) (by decide +kernel)

/-- **C75.** `Bosh3` (documented: 3rd order). -/
theorem C75_bosh3 : DenseOrder ![Bosh3.tableau] (fun _ _ _ => hermiteInterp 4) 3 0 := by
  simpa using denseOrder_of_check _ _ 4 Bosh3.tableau.abscissa (by decide +kernel) 0 _ 3
    (hermite_hasRows _ 4 (by norm_num)) 2 0 (by norm_num) (by decide +kernel)

/-- **C75.** `Dopri5` (documented: 5th order). -/
theorem C75_dopri5 : DenseOrder ![Dopri5.tableau] (fun _ _ _ => dopri5Interp) 4 0 := by
  simpa using denseOrder_of_check _ _ 7 Dopri5.tableau.abscissa (by decide +kernel) 0 _ 4
    (dopri5_hasRows _) 3 0 (by norm_num) (by decide +kernel)

/-- **C75.** `Tsit5` (documented: 5th order). -/
theorem C75_tsit5 : DenseOrder ![Tsit5.tableau] (fun _ _ _ => tsit5Interp) 4 (4 * (1 / 10 ^ 16)) :=
  denseOrder_of_check _ _ 7 Tsit5.tableau.abscissa (by decide +kernel) 0 _ 4
    (tsit5_hasRows _) 3 (1 / 10 ^ 16) (by norm_num) (by decide +kernel)

/-- **C75.** `Kvaerno3` (documented: 3rd order). -/
theorem C75_kvaerno3 : DenseOrder ![Kvaerno3.tableau] (fun _ _ _ => hermiteInterp 4) 3 0 := by
  simpa using denseOrder_of_check _ _ 4 Kvaerno3.tableau.abscissa (by decide +kernel) 0 _ 3
    (hermite_hasRows _ 4 (by norm_num)) 2 0 (by norm_num) (by decide +kernel)

/-- **C75.** `Kvaerno4` (documented: 3rd order). -/
theorem C75_kvaerno4 : DenseOrder ![Kvaerno4.tableau] (fun _ _ _ => hermiteInterp 5) 3 0 := by
  simpa using denseOrder_of_check _ _ 5 Kvaerno4.tableau.abscissa (by decide +kernel) 0 _ 3
    (hermite_hasRows _ 5 (by norm_num)) 2 0 (by norm_num) (by decide +kernel)

/-- **C75.** `Kvaerno5` (documented: 3rd order). -/
theorem C75_kvaerno5 :
    DenseOrder ![Kvaerno5.tableau] (fun _ _ _ => hermiteInterp 7) 3 (3 * (1 / 10 ^ 16)) :=
  denseOrder_of_check _ _ 7 Kvaerno5.tableau.abscissa (by decide +kernel) 0 _ 3
    (hermite_hasRows _ 7 (by norm_num)) 2 (1 / 10 ^ 16) (by norm_num) (by decide +kernel)

/-- **C75.** `Sil3` (documented: 2nd order). -/
theorem C75_sil3 : DenseOrder ![Sil3.explicit, Sil3.implicit] (fun _ _ _ => sil3Interp) 2 0 := by
  simpa using denseOrder_of_check _ _ 4 Sil3.explicit.abscissa (by decide +kernel) 0 _ 3
    (sil3_hasRows _) 1 0 (by norm_num) (by decide +kernel)

/-- **C75.** `KenCarp3` (documented: 2nd order). -/
theorem C75_kencarp3 : DenseOrder ![KenCarp3.explicit, KenCarp3.implicit]
    (fun _ _ _ => kencarpInterp kencarp3Coeffs) 2 (2 * (1 / 10 ^ 19)) :=
  denseOrder_of_check _ _ 4 KenCarp3.explicit.abscissa (by decide +kernel) 0 _ 2
    (kencarp_hasRows _ _ 4 2 rfl (by decide)) 1 (1 / 10 ^ 19) (by norm_num) (by decide +kernel)

/-- **C75.** `KenCarp4` (documented: 3rd order). -/
theorem C75_kencarp4 : DenseOrder ![KenCarp4.explicit, KenCarp4.implicit]
    (fun _ _ _ => kencarpInterp kencarp4Coeffs) 3 (3 * (1 / 10 ^ 19)) :=
  denseOrder_of_check _ _ 6 KenCarp4.explicit.abscissa (by decide +kernel) 0 _ 3
    (kencarp_hasRows _ _ 6 3 rfl (by decide)) 2 (1 / 10 ^ 19) (by norm_num) (by decide +kernel)

/-- **C75.** `KenCarp5` (documented: 3rd order). -/
theorem C75_kencarp5 : DenseOrder ![KenCarp5.explicit, KenCarp5.implicit]
    (fun _ _ _ => kencarpInterp kencarp5Coeffs) 3 (3 * (1 / 10 ^ 10)) :=
  denseOrder_of_check _ _ 8 KenCarp5.explicit.abscissa (by decide +kernel) 0 _ 3
    (kencarp_hasRows _ _ 8 3 rfl (by decide)) 2 (1 / 10 ^ 10) (by norm_num) (by decide +kernel)

/-- **C75, partial.** `Dopri8` (documented: 8th order). Missing: this is only a local error `O(h^6)`; see
`C75_dopri8_not_8th`. -/
theorem C75_dopri8_partial : DenseOrder ![Dopri8.tableau] (fun _ _ _ => dopri8Interp) 5 (6 * (1 / 10 ^ 14)) :=
  denseOrder_of_check _ _ 14 Dopri8.tableau.abscissa (by decide +kernel) (1 / 10 ^ 16) _ 6
    (dopri8_hasRows _) 4 (1 / 10 ^ 14) (by norm_num) (by decide +kernel)

/-! ### The orders are not larger -/

/-- The term with index `0` is `t^n`, the others are zero. -/
def powerField (m n : ℕ) : Fin m → ℝ → ℝ → ℝ := fun p t _ => if (p : ℕ) = 0 then t ^ n else 0

/-- For `y' = t^n`, `y(0) = 0`, the value interpolated half way is wrong by exactly `κ h^(n+1)`, for every
successful step from `0` to `h`. -/
def HalfwayError {m : ℕ} (tab : Fin m → Tableau ℚ) (interp : InterpRule m) (n : ℕ) (κ : ℚ) : Prop :=
  ∀ (J : Type) (cj : CalcJac) (rF rK : RootFinder ℝ J) (nj : J)
    (_ : (∃ p, (tab p).implicit = true) → rF.Exact ∧ rK.Exact) (h : ℝ) (_ : h ≠ 0) (st : RK.State m ℝ) (mj : Bool)
    (_ : (odeRK tab (powerField m n) cj rF rK nj).ValidState 0 0 st mj)
    (_ : ((odeRK tab (powerField m n) cj rF rK nj).step 0 h 0 st mj).result.isOkay = true),
    interp ℝ 0 h ((odeRK tab (powerField m n) cj rF rK nj).step 0 h 0 st mj).dense (h / 2)
      - (h / 2) ^ (n + 1) / (n + 1) = (κ : ℝ) * h ^ (n + 1)

/-- The number `κ`. -/
def halfwayDefect (s : ℕ) (c : ℕ → ℚ) (rows : List (List ℚ)) (d n : ℕ) : ℚ :=
  ∑ j ∈ range d, (1 / 2) ^ (j + 1) * ∑ i ∈ range s, (rows.getD j []).getD i 0 * c i ^ n
    - (1 / 2) ^ (n + 1) / (n + 1)

theorem halfwayError_of_rows {m : ℕ} (tab : Fin (m + 1) → Tableau ℚ) (interp : InterpRule (m + 1)) (s : ℕ)
    (c : ℕ → ℚ) (hok : methodOK s c tab = true) (rows : Tableau ℚ → List (List ℚ)) (d : ℕ)
    (hrows : HasRows tab interp s d rows) (n : ℕ) :
    HalfwayError tab interp n (halfwayDefect s c (rows (tab 0)) d n) := by
  intro J cj rF rK nj hroot h hh st mj hst hsucc
  obtain ⟨hns, hwf, hfs⟩ := odeRK_WF hok (powerField (m + 1) n) cj rF rK nj
  obtain ⟨a1, a2, a3, -⟩ := step_stages hok (powerField (m + 1) n) cj rF rK nj 0 h 0 st mj hst hroot
    (fun _ => hsucc)
  set rk := odeRK tab (powerField (m + 1) n) cj rF rK nj with hrk
  set D := (rk.step 0 h 0 st mj).dense with hD
  have hk : ∀ p, ∀ i < s, D.ks p i = if (p : ℕ) = 0 then h * ((c i : ℝ) * h) ^ n else 0 := by
    intro p i hi
    have := odeRK_stage_eq tab (powerField (m + 1) n) cj rF rK nj 0 h 0 D.ks (by simpa using a1) i
      (by rw [← hrk, hns]; exact hi) p
    rw [this, (methodOK_all hok p).2.1 i hi]
    simp only [powerField, zero_add, smul_eq_mul]
    split <;> simp
  rw [hrows ℝ 0 h D (h / 2) (by rw [a2, a3, odeRK_combine hok (powerField (m + 1) n) cj rF rK nj]), a2]
  have hθ : linearRescale 0 (h / 2) h = 1 / 2 := by
    have h1 : ¬ (0 : ℝ) = h := fun e => hh e.symm
    simp [linearRescale, h1]
    field_simp
  rw [hθ]
  have hin : ∀ j, (∑ p, ∑ i ∈ range s, (((rowOf rows j (tab p)).getD i 0 : ℚ) : ℝ) • D.ks p i)
      = h ^ (n + 1) * ∑ i ∈ range s, ((((rows (tab 0)).getD j []).getD i 0 : ℚ) : ℝ) * (c i : ℝ) ^ n := by
    intro j
    rw [Fin.sum_univ_succ]
    have h0 : (∑ p : Fin m, ∑ i ∈ range s, (((rowOf rows j (tab p.succ)).getD i 0 : ℚ) : ℝ) • D.ks p.succ i)
        = 0 := by
      apply sum_eq_zero; intro p _
      apply sum_eq_zero; intro i hi
      rw [hk _ i (mem_range.1 hi)]
      simp
    rw [h0, add_zero, mul_sum]
    apply sum_congr rfl
    intro i hi
    rw [hk _ i (mem_range.1 hi)]
    simp only [Fin.val_zero, if_true, smul_eq_mul, rowOf]
    rw [mul_pow, pow_succ]
    ring
  simp only [hin]
  simp only [halfwayDefect, smul_eq_mul]
  push_cast
  rw [sub_mul, sum_mul]
  congr 1
  · rw [zero_add]
    apply sum_congr rfl
    intro j _
    ring
  · rw [div_pow, div_pow, one_pow]
    ring

/-- An error that is exactly `κ h^(n+1)` is not `O(h^(n+2))`. -/
theorem not_isBigO_of_exact {err : ℝ → ℝ} {κ : ℝ} (hκ : κ ≠ 0) (n : ℕ)
    (he : ∀ᶠ h in 𝓝[≠] (0 : ℝ), err h = κ * h ^ (n + 1)) :
    ¬ err =O[𝓝[≠] 0] (fun h : ℝ => h ^ (n + 2)) := by
  intro hO
  obtain ⟨C, hC⟩ := hO.bound
  have h1 : ∀ᶠ h in 𝓝[≠] (0 : ℝ), |κ| ≤ C * |h| := by
    filter_upwards [he, hC, self_mem_nhdsWithin] with h h1 h2 h3
    have h3' : h ≠ 0 := h3
    rw [h1, norm_mul, norm_pow, norm_pow, Real.norm_eq_abs, Real.norm_eq_abs, pow_succ |h| (n + 1)] at h2
    have hp : 0 < |h| ^ (n + 1) := by positivity
    have : |κ| * |h| ^ (n + 1) ≤ (C * |h|) * |h| ^ (n + 1) := by linarith
    exact le_of_mul_le_mul_right this hp
  have h2 : Tendsto (fun h : ℝ => C * |h|) (𝓝[≠] 0) (𝓝 0) := by
    have : Tendsto (fun h : ℝ => C * |h|) (𝓝 0) (𝓝 (C * |0|)) :=
      (continuous_const.mul continuous_abs).tendsto 0
    rw [abs_zero, mul_zero] at this
    exact this.mono_left nhdsWithin_le_nhds
  have := ge_of_tendsto h2 h1
  exact absurd (le_antisymm this (abs_nonneg κ)) (by simpa using hκ)

/-- **C75, sharpness.** `Kvaerno5`: for `y' = t^3` the error half way is at least `h^4 / 65`. -/
theorem C75_kvaerno5_sharp : ∃ κ : ℚ, 1 / 65 ≤ |κ| ∧
    HalfwayError ![Kvaerno5.tableau] (fun _ _ _ => hermiteInterp 7) 3 κ :=
  ⟨_, by decide +kernel, halfwayError_of_rows _ _ 7 Kvaerno5.tableau.abscissa (by decide +kernel) _ 3
    (hermite_hasRows _ 7 (by norm_num)) 3⟩

/-- **C75, sharpness.** `KenCarp5`: for `y' = t^3` the error half way is of size `h^4`. -/
theorem C75_kencarp5_sharp : ∃ κ : ℚ, 1 / 1000 ≤ |κ| ∧
    HalfwayError ![KenCarp5.explicit, KenCarp5.implicit] (fun _ _ _ => kencarpInterp kencarp5Coeffs) 3 κ :=
  ⟨_, by decide +kernel, halfwayError_of_rows _ _ 8 KenCarp5.explicit.abscissa (by decide +kernel) _ 3
    (kencarp_hasRows _ _ 8 3 rfl (by decide)) 3⟩

/-- **C75, sharpness.** `Dopri8`: for `y' = t^5` the error half way is of size `h^6`. -/
theorem C75_dopri8_sharp : ∃ κ : ℚ, 4 / 10 ^ 6 ≤ |κ| ∧
    HalfwayError ![Dopri8.tableau] (fun _ _ _ => dopri8Interp) 5 κ :=
  ⟨_, by decide +kernel, halfwayError_of_rows _ _ 14 Dopri8.tableau.abscissa (by decide +kernel) _ 6
    (dopri8_hasRows _) 5⟩

/-- **C75, negation for `Dopri8`.** The documentation says that `Dopri8` uses 8th order interpolation. But a
first step from `0` to `h` for `y' = t^5` has an error half way that is not even `O(h^7)`. -/
theorem C75_dopri8_not_8th {J : Type} (cj : CalcJac) (rF rK : RootFinder ℝ J) (nj : J) :
    ¬ (fun h => dopri8Interp 0 h
        ((odeRK ![Dopri8.tableau] (powerField 1 5) cj rF rK nj).step 0 h 0
          (odeRK ![Dopri8.tableau] (powerField 1 5) cj rF rK nj).init false).dense (h / 2)
        - (h / 2) ^ 6 / 6) =O[𝓝[≠] 0] (fun h : ℝ => h ^ 7) := by
  obtain ⟨κ, hκ, hex⟩ := C75_dopri8_sharp
  have hκ0 : (κ : ℝ) ≠ 0 := by
    intro h0
    have h1 : κ = 0 := by exact_mod_cast h0
    rw [h1, abs_zero] at hκ
    norm_num at hκ
  refine not_isBigO_of_exact hκ0 5 ?_
  filter_upwards [self_mem_nhdsWithin] with h hh
  have hno : ¬ ∃ p, ((![Dopri8.tableau] : Fin 1 → Tableau ℚ) p).implicit = true := by decide +kernel
  have := hex J cj rF rK nj (fun h => absurd h hno) h hh
    (odeRK ![Dopri8.tableau] (powerField 1 5) cj rF rK nj).init false
    (by intro hf; exact ⟨true, fun _ => 0, by simp [RK.init, hf], Or.inl rfl⟩)
    (by rw [C41_explicit_succeeds _ (fun p => by
          by_contra hp
          exact hno ⟨p, by simpa [odeRK] using hp⟩)]; rfl)
  norm_num at this ⊢
  exact this

/-! ### Hypotheses -/

section
variable {m : ℕ} {E : Type} [NormedAddCommGroup E] [NormedSpace ℝ E] [Module ℚ E]

/-- **C75, explicit methods.** For analytic vector fields there are no further conditions. -/
theorem DenseOrder.explicit {tab : Fin m → Tableau ℚ} {interp : InterpRule m} {N : ℕ}
    (h : DenseOrder tab interp N 0) (hex : ∀ p, (tab p).implicit = false) {J : Type}
    (f : Fin m → ℝ → E → E) (cj : CalcJac) (rF rK : RootFinder E J) (nj : J) (t0 : ℝ) (y0 : E)
    (hf : ∀ p, AnalyticAt ℝ (fun x : ℝ × E => f p x.1 x.2) (t0, y0))
    (y : ℝ → E) (hy : SolvesODE f t0 y0 y) (st : RK.State m E) (mj : Bool)
    (hst : (odeRK tab f cj rF rK nj).ValidState t0 y0 st mj) (θ : ℝ) (hθ0 : 0 ≤ θ) (hθ1 : θ ≤ 1) :
    (fun h => interp E t0 (t0 + h) ((odeRK tab f cj rF rK nj).step t0 (t0 + h) y0 st mj).dense (t0 + θ * h)
        - y (t0 + θ * h)) =O[𝓝 0] (fun h : ℝ => h ^ (N + 1)) := by
  choose G hG using hf
  have hno : ¬ ∃ p, (tab p).implicit = true := by
    rintro ⟨p, hp⟩; rw [hex p] at hp; simp at hp
  have h1 := h E J f cj rF rK nj t0 y0 G hG y hy st mj hst (fun hp => absurd hp hno)
    (fun hp => absurd hp hno) (fun hp => absurd hp hno) θ hθ0 hθ1
  rw [Rat.cast_zero] at h1
  exact h1.isBigO

/-- **C75, implicit methods.** With an ideal root finder: Lipschitz continuous analytic vector fields on
Banach spaces. -/
theorem C75_ideal [CompleteSpace E] {tab : Fin m → Tableau ℚ} {interp : InterpRule m} {N : ℕ} {ε : ℚ}
    (h : DenseOrder tab interp N ε) (s : ℕ) (c : ℕ → ℚ) (hok : methodOK s c tab = true)
    (f : Fin m → ℝ → E → E) (cj : CalcJac) (t0 : ℝ) (y0 : E)
    (G : Fin m → FormalMultilinearSeries ℝ (ℝ × E) E)
    (hG : ∀ p, HasFPowerSeriesAt (fun x : ℝ × E => f p x.1 x.2) (G p) (t0, y0))
    (L : ℝ) (hL : 0 ≤ L) (hlip : ∀ p t y y', ‖f p t y - f p t y'‖ ≤ L * ‖y - y'‖)
    (y : ℝ → E) (hy : SolvesODE f t0 y0 y) (θ : ℝ) (hθ0 : 0 ≤ θ) (hθ1 : θ ≤ 1) :
    NearOrder G N ε (fun h => interp E t0 (t0 + h)
      ((odeRK tab f cj (idealRoot E) (idealRoot E) ()).step t0 (t0 + h) y0
        (odeRK tab f cj (idealRoot E) (idealRoot E) ()).init false).dense (t0 + θ * h) - y (t0 + θ * h)) := by
  have hv : (odeRK tab f cj (idealRoot E) (idealRoot E) ()).ValidState t0 y0
      (odeRK tab f cj (idealRoot E) (idealRoot E) ()).init false := by
    intro hf
    exact ⟨true, fun _ => 0, by simp [RK.init, hf], Or.inl rfl⟩
  have hsucc := ideal_succeeds (tab := tab) f cj t0 y0 L hL hlip
    (odeRK tab f cj (idealRoot E) (idealRoot E) ()).init false
  exact h E Unit f cj (idealRoot E) (idealRoot E) () t0 y0 G hG y hy _ false hv
    (fun _ => ⟨idealRoot_exact E, idealRoot_exact E⟩) (fun _ => hsucc)
    (fun _ p i hi => stages_small s c hok f cj (idealRoot E) (idealRoot E) () t0 y0
      (fun p => (hG p).continuousAt) L hlip _ false hv ⟨idealRoot_exact E, idealRoot_exact E⟩ hsucc p i
      (by rw [← (methodOK_all hok p).1.bSol]; exact hi)) θ hθ0 hθ1

end

/-- A third of a step of `Dopri5` for `y' = y`. -/
example : (fun h => dopri5Interp 0 (0 + h)
    ((odeRK ![Dopri5.tableau] ![fun _ y => y] .never (idealRoot ℝ) (idealRoot ℝ) ()).step
      0 (0 + h) 1 (some (true, fun _ => 0)) false).dense (0 + 1 / 3 * h) - Real.exp (0 + 1 / 3 * h))
    =O[𝓝 0] (fun h : ℝ => h ^ 5) :=
  C75_dopri5.explicit (by decide +kernel) ![fun _ y => y] .never (idealRoot ℝ) (idealRoot ℝ) () 0 1
    (fun p => linear_analytic p _) Real.exp exp_solves (some (true, fun _ => 0)) false
    (fun _ => ⟨true, fun _ => 0, rfl, Or.inl rfl⟩) (1 / 3) (by norm_num) (by norm_num)

/-- A third of a step of `Kvaerno3` for `y' = y`. -/
example : (fun h => hermiteInterp 4 0 (0 + h)
    ((odeRK ![Kvaerno3.tableau] ![fun _ y => y] .secondStage (idealRoot ℝ) (idealRoot ℝ) ()).step 0 (0 + h) 1
    (odeRK ![Kvaerno3.tableau] ![fun _ y => y] .secondStage (idealRoot ℝ) (idealRoot ℝ) ()).init
    false).dense (0 + 1 / 3 * h) - Real.exp (0 + 1 / 3 * h)) =O[𝓝 0] (fun h : ℝ => h ^ 4) := by
  have hG : ∀ p, ∃ G, HasFPowerSeriesAt (fun x : ℝ × ℝ => (![fun _ y => y] : Fin 1 → ℝ → ℝ → ℝ) p x.1 x.2)
      G (0, 1) := fun p => linear_analytic p _
  choose G hG using hG
  have := C75_ideal C75_kvaerno3 4 Kvaerno3.tableau.abscissa (by decide +kernel) ![fun _ y => y]
    .secondStage 0 1 G hG 1 zero_le_one (by intro p t y y'; fin_cases p; simp) Real.exp exp_solves
    (1 / 3) (by norm_num) (by norm_num)
  rw [Rat.cast_zero] at this
  exact this.isBigO

end Verif
