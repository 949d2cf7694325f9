import Verif.Lemmas.Cde
import Verif.Lemmas.SdeRKStep
import Verif.Lemmas.AcceptedInv
import Mathlib.Analysis.Calculus.Deriv.Abs

/-!
# C87: explicit Runge-Kutta methods for controlled differential equations
-/

set_option linter.unusedSectionVars false
set_option maxRecDepth 100000

namespace Verif
open Set Finset Tab

/-! ### Time as one of the controls -/

section
variable {E : Type} [NormedAddCommGroup E] [NormedSpace ℝ E] {d : ℕ}
  {f : ℝ → E → E} {g : Fin d → ℝ → E → E} {x x' : ℝ → Fin d → ℝ} {a b L M : ℝ} {y : ℝ → E}

/-- All vector fields. -/
def allFields (f : ℝ → E → E) (g : Fin d → ℝ → E → E) : Option (Fin d) → ℝ → E → E
  | none => f
  | some j => g j

/-- All controls. -/
def allControls (x : ℝ → Fin d → ℝ) (t : ℝ) : Option (Fin d) → ℝ
  | none => t
  | some j => x t j

/-- Their speeds. -/
def allSpeeds (x' : ℝ → Fin d → ℝ) (t : ℝ) : Option (Fin d) → ℝ
  | none => 1
  | some j => x' t j

theorem controlled (hab : a ≤ b) (hf : LipschitzField f a b L) (hg : ∀ j, LipschitzField (g j) a b L)
    (hx : ControlPath x x' a b M) (hy : ControlledSolution f g x' a b y) :
    Controlled (allFields f g) (allControls x) (allSpeeds x') y a b |L| (|M| + 1) where
  le := hab
  L0 := abs_nonneg _
  M0 := by positivity
  field l := by
    have key : ∀ φ : ℝ → E → E, LipschitzField φ a b L → LipschitzField φ a b |L| := fun φ hφ =>
      ⟨fun t ht x x' => (hφ.space t ht x x').trans (mul_le_mul_of_nonneg_right (le_abs_self L) (norm_nonneg _)),
       fun s hs t ht x => (hφ.time s hs t ht x).trans
        (mul_le_mul_of_nonneg_right (mul_le_mul_of_nonneg_right (le_abs_self L) (abs_nonneg _))
          (by have := norm_nonneg x; linarith))⟩
    cases l with
    | none => exact key f hf
    | some j => exact key (g j) (hg j)
  wcont l := by
    cases l with
    | none => exact continuousOn_id
    | some j => exact hx.cont j
  speed t ht l := by
    cases l with
    | none => exact hasDerivWithinAt_id t _
    | some j => exact hx.speed t ht j
  bound t ht l := by
    cases l with
    | none =>
      show |(1 : ℝ)| ≤ |M| + 1
      rw [abs_one]; linarith [abs_nonneg M]
    | some j => exact (hx.bound t ht j).trans (by linarith [le_abs_self M])
  ycont := hy.cont
  solves t ht := by
    have := hy.solves t ht
    rw [Fintype.sum_option]
    show HasDerivWithinAt y ((1 : ℝ) • f t (y t) + ∑ j, x' t j • g j t (y t)) (Ici t) t
    rw [one_smul]
    exact this

theorem SdeStages.ctrl {A : ℕ → ℕ → ℝ} {c : ℕ → ℝ} {n : ℕ} {s t : ℝ} {V : E} {k : ℕ → E}
    (h : SdeStages A c n f g s (t - s) (x t - x s) V k) :
    CtrlStages A c n (allFields f g) s (t - s) (fun l => allControls x t l - allControls x s l) V k := by
  intro i hi
  rw [h i hi, Fintype.sum_option]
  rfl

end

/-! ### Convergence -/

/-- The conditions on a tableau for order 1, up to `ε`. -/
structure CdeTableau (tab : Tableau ℚ) (n : ℕ) (ε : ℚ) : Prop where
  nonneg : ∀ i < n, 0 ≤ tab.abscissa i
  le_one : ∀ i < n, tab.abscissa i ≤ 1
  first : |∑ i ∈ range n, tab.bSol.getD i 0 - 1| ≤ ε

/-- Those for order 2. -/
structure CdeTableauTwo (tab : Tableau ℚ) (n : ℕ) (ε : ℚ) : Prop extends CdeTableau tab n ε where
  row : ∀ i < n, |∑ j ∈ range i, tab.a i j - tab.abscissa i| ≤ ε
  second : |∑ i ∈ range n, tab.bSol.getD i 0 * tab.abscissa i - 1 / 2| ≤ ε

theorem CdeTableau.eps_nonneg {tab : Tableau ℚ} {n : ℕ} {ε : ℚ} (h : CdeTableau tab n ε) : 0 ≤ ε :=
  (abs_nonneg _).trans h.first

section
variable {E : Type} [NormedAddCommGroup E] [NormedSpace ℝ E] [Module ℚ E] {d : ℕ} {tab : Tableau ℚ}
  {n : ℕ} {c : ℕ → ℚ} {f : ℝ → E → E} {g : Fin d → ℝ → E → E} {x x' : ℝ → Fin d → ℝ} {a b L M : ℝ} {y : ℝ → E}

theorem abs_entry_le (tab : Tableau ℚ) (n : ℕ) : ∀ i < n, ∀ j < i,
    |(tab.a i j : ℝ)| ≤ ∑ i ∈ range n, ∑ j ∈ range i, |(tab.a i j : ℝ)| := fun i hi _ hj =>
  (single_le_sum (f := fun j => |(tab.a i j : ℝ)|) (fun _ _ => abs_nonneg _) (Finset.mem_range.2 hj)).trans
    (single_le_sum (f := fun i => ∑ j ∈ range i, |(tab.a i j : ℝ)|) (fun _ _ => sum_nonneg fun _ _ => abs_nonneg _)
      (Finset.mem_range.2 hi))

theorem cast_abs_le {p q : ℚ} (h : |p| ≤ q) : |(p : ℝ)| ≤ q := by exact_mod_cast h

/-- From the error of single steps to that of solves. -/
theorem cde_of_step (hok : methodOK n c ![tab] = true) (hex : tab.implicit = false)
    (hC : Controlled (allFields f g) (allControls x) (allSpeeds x') y a b L M)
    (hc : ∀ i < n, 0 ≤ tab.abscissa i ∧ tab.abscissa i ≤ 1) (N : ℕ) {ε : ℝ} (hε : 0 ≤ ε)
    (hstep : ∃ C, 0 ≤ C ∧ ∀ s t k, a ≤ s → s ≤ t → t ≤ b →
      CtrlStages (fun i j => (tab.a i j : ℝ)) (fun i => (tab.abscissa i : ℝ)) n (allFields f g) s (t - s)
        (fun l => allControls x t l - allControls x s l) (y s) k →
      ‖y s + ∑ i ∈ range n, (tab.bSol.getD i 0 : ℝ) • k i - y t‖ ≤ C * (t - s) ^ (N + 1) + ε * C * (t - s)) :
    ∃ K, 0 ≤ K ∧ CdeErrorAtMost tab f g x a b y (fun e η => K * (e + η ^ N + ε)) := by
  obtain ⟨C, hC0, hstep⟩ := hstep
  have hA0 : 0 ≤ ∑ i ∈ range n, ∑ j ∈ range i, |(tab.a i j : ℝ)| :=
    sum_nonneg fun _ _ => sum_nonneg fun _ _ => abs_nonneg _
  have hcc : ∀ i < n, 0 ≤ (tab.abscissa i : ℝ) ∧ (tab.abscissa i : ℝ) ≤ 1 := fun i hi => by
    have := hc i hi; exact ⟨by exact_mod_cast this.1, by exact_mod_cast this.2⟩
  obtain ⟨P, hP0, hlip⟩ := stages_lip (A := fun i j => (tab.a i j : ℝ)) (c := fun i => (tab.abscissa i : ℝ)) hC.L0 hC.M0
    hC.field (abs_entry_le tab n) hA0 hcc
  set B := ∑ i ∈ range n, |(tab.bSol.getD i 0 : ℝ)| with hB
  have hB0 : 0 ≤ B := sum_nonneg fun _ _ => abs_nonneg _
  have hab : 0 ≤ b - a := sub_nonneg.2 hC.le
  refine ⟨Real.exp (B * P * (b - a)) * (1 + (b - a) * C), by positivity, ?_⟩
  intro J cj rF rK nj Ct O F _ _ cfg hwf h0 h1 hsolver hctrl y0 tnext ctrl mj η hη0 hfor hη
  subst h0 h1
  have hacc : cfg.solver.Accurate (fun t v st mj => (sdeRK tab f g x cj rF rK nj).ValidState t v st mj) y cfg.t0 cfg.t1
      η C (ε * C) (B * P) N := by
    refine ⟨?_, ?_⟩
    · intro t t' v st mj hv _ _ _ _ mj'
      rw [hsolver]
      exact (sdeRK_step f g x cj rF rK nj hok hex t t' v st mj hv).2 mj'
    · intro t t' v st mj hv h1 h2 h3 _ _
      rw [hsolver]
      obtain ⟨⟨k, hk, hyk⟩, -⟩ := sdeRK_step f g x cj rF rK nj hok hex t t' v st mj hv
      obtain ⟨⟨k', hk', -⟩, -⟩ := sdeRK_step f g x cj rF rK nj hok hex t t' (y t) _ false
        (sdeRK_valid_init f g x cj rF rK nj t (y t) false)
      have e1 := hstep t t' k' h1 h2 h3 hk'.ctrl
      have e2 := hlip t (t' - t) _ v (y t) k k' h1 (by linarith) (sub_nonneg.2 h2) (hC.incr h1 h2 h3) hk.ctrl hk'.ctrl
      have e3 : ‖∑ i ∈ range n, (tab.bSol.getD i 0 : ℝ) • (k i - k' i)‖ ≤ B * (P * (t' - t) * ‖v - y t‖) := by
        refine (norm_sum_le _ _).trans ?_
        rw [hB, sum_mul]
        refine sum_le_sum fun i hi => ?_
        rw [norm_smul, Real.norm_eq_abs]
        exact mul_le_mul_of_nonneg_left (e2 i (Finset.mem_range.1 hi)) (abs_nonneg _)
      rw [hyk]
      have e : v + ∑ i ∈ range n, (tab.bSol.getD i 0 : ℝ) • k i - y t'
          = (v - y t) + ∑ i ∈ range n, (tab.bSol.getD i 0 : ℝ) • (k i - k' i)
            + (y t + ∑ i ∈ range n, (tab.bSol.getD i 0 : ℝ) • k' i - y t') := by
        simp only [smul_sub, sum_sub_distrib]; abel
      rw [e]
      refine (norm_add_le _ _).trans ((add_le_add ((norm_add_le _ _).trans (add_le_add le_rfl e3)) e1).trans ?_)
      exact le_of_eq (by ring)
  have hBP : 0 ≤ B * P := by positivity
  have hεC : 0 ≤ ε * C := by positivity
  obtain ⟨g1, g3, g2⟩ := global_error cfg hwf _ y η C (ε * C) (B * P) hC0 hεC hBP N hacc hctrl y0 tnext ctrl _ mj
    (sdeRK_valid_init f g x cj rF rK nj cfg.t0 y0 mj) hfor (fun c _ _ => by
      rw [hsolver, C41_explicit_succeeds _ (fun _ => hex)]; rfl) η le_rfl hη
  have hfin : ∀ u, cfg.t0 ≤ u → u ≤ cfg.t1 → errorBound C (ε * C) (B * P) N η ‖y0 - y cfg.t0‖ cfg.t0 u
      ≤ Real.exp (B * P * (cfg.t1 - cfg.t0)) * (1 + (cfg.t1 - cfg.t0) * C) * (‖y0 - y cfg.t0‖ + η ^ N + ε) := by
    intro u h1 h2
    refine (errorBound_mono C _ _ hC0 hεC hBP N η _ _ _ _ hη0 (norm_nonneg _) h1 h2).trans ?_
    rw [mul_assoc (Real.exp _)]
    refine mul_le_mul_of_nonneg_left ?_ (Real.exp_pos _).le
    have q1 : 0 ≤ (cfg.t1 - cfg.t0) * C * ‖y0 - y cfg.t0‖ := by positivity
    have q2 : 0 ≤ η ^ N + ε := by positivity
    calc _ = ‖y0 - y cfg.t0‖ + (cfg.t1 - cfg.t0) * C * (η ^ N + ε) := by ring
      _ ≤ ‖y0 - y cfg.t0‖ + (cfg.t1 - cfg.t0) * C * (η ^ N + ε) + (cfg.t1 - cfg.t0) * C * ‖y0 - y cfg.t0‖
          + (η ^ N + ε) := by linarith
      _ = _ := by ring
  refine ⟨?_, ?_⟩
  · intro c hc
    obtain ⟨⟨⟨b1, b2⟩, -⟩, b3⟩ := g1 c hc
    exact b3.trans (hfin _ b1 ((hfor c hc).trans b2))
  · intro hroot
    rw [solve_yfinal, solve_tfinal, finalise_no_root cfg _ hroot]
    exact g2.trans (hfin _ g3.1 g3.2)

end

/-- **C87.** Every consistent explicit Runge-Kutta method converges with order 1. -/
theorem C87_first (tab : Tableau ℚ) (n : ℕ) (c : ℕ → ℚ) (ε : ℚ) (hok : methodOK n c ![tab] = true)
    (hex : tab.implicit = false) (h : CdeTableau tab n ε) : CdeFirstOrder tab ε := by
  intro E _ _ _ d f g x x' a b L M y hab hf hg hx hy
  have hC := controlled hab hf hg hx hy
  have hA0 : 0 ≤ ∑ i ∈ range n, ∑ j ∈ range i, |(tab.a i j : ℝ)| :=
    sum_nonneg fun _ _ => sum_nonneg fun _ _ => abs_nonneg _
  have hcc : ∀ i < n, 0 ≤ (tab.abscissa i : ℝ) ∧ (tab.abscissa i : ℝ) ≤ 1 := fun i hi =>
    ⟨by exact_mod_cast h.nonneg i hi, by exact_mod_cast h.le_one i hi⟩
  have hb : |∑ i ∈ range n, (tab.bSol.getD i 0 : ℝ) - 1| ≤ (ε : ℝ) := by
    have := cast_abs_le h.first; push_cast at this; exact this
  have hε : (0 : ℝ) ≤ ε := by exact_mod_cast h.eps_nonneg
  obtain ⟨K, hK, hKe⟩ := cde_of_step hok hex hC (fun i hi => ⟨h.nonneg i hi, h.le_one i hi⟩) 1 hε
    (hC.step_first (abs_entry_le tab n) hA0 hcc hb)
  refine ⟨K, hK, ?_⟩
  simp only [pow_one] at hKe
  exact hKe

/-- **C87.** Every explicit Runge-Kutta method with the usual two conditions for order 2 converges with order 2. -/
theorem C87_second (tab : Tableau ℚ) (n : ℕ) (c : ℕ → ℚ) (ε : ℚ) (hok : methodOK n c ![tab] = true)
    (hex : tab.implicit = false) (h : CdeTableauTwo tab n ε) : CdeSecondOrder tab ε := by
  intro E _ _ _ d f g x x' a b L M y hab hf hg hf2 hg2 hx hx2 hy
  have hC := controlled hab hf hg hx hy
  have hA0 : 0 ≤ ∑ i ∈ range n, ∑ j ∈ range i, |(tab.a i j : ℝ)| :=
    sum_nonneg fun _ _ => sum_nonneg fun _ _ => abs_nonneg _
  have hcc : ∀ i < n, 0 ≤ (tab.abscissa i : ℝ) ∧ (tab.abscissa i : ℝ) ≤ 1 := fun i hi =>
    ⟨by exact_mod_cast h.nonneg i hi, by exact_mod_cast h.le_one i hi⟩
  have hb : |∑ i ∈ range n, (tab.bSol.getD i 0 : ℝ) - 1| ≤ (ε : ℝ) := by
    have := cast_abs_le h.first; push_cast at this; exact this
  have hb2 : |∑ i ∈ range n, (tab.bSol.getD i 0 : ℝ) * (tab.abscissa i : ℝ) - 1 / 2| ≤ (ε : ℝ) := by
    have := cast_abs_le h.second; push_cast at this; exact this
  have hrow : ∀ i < n, |∑ j ∈ range i, (tab.a i j : ℝ) - (tab.abscissa i : ℝ)| ≤ (ε : ℝ) := fun i hi => by
    have := cast_abs_le (h.row i hi); push_cast at this; exact this
  have hε : (0 : ℝ) ≤ ε := by exact_mod_cast h.eps_nonneg
  have hsp : ∀ s ∈ Ico a b, ∀ t ∈ Ico a b, ∀ l, |allSpeeds x' t l - allSpeeds x' s l| ≤ (|M| + 1) * |t - s| := by
    intro s hs t ht l
    cases l with
    | none =>
      show |(1 : ℝ) - 1| ≤ _
      rw [sub_self, abs_zero]; positivity
    | some j => exact (hx2 s hs t ht j).trans (mul_le_mul_of_nonneg_right (by linarith [le_abs_self M]) (abs_nonneg _))
  exact cde_of_step hok hex hC (fun i hi => ⟨h.nonneg i hi, h.le_one i hi⟩) 2 hε
    (hC.step_second hsp (fun l => by cases l with | none => exact hf2 | some j => exact hg2 j) (abs_entry_le tab n)
      hA0 hcc hrow hb hb2)

/-! ### The solvers -/

/-- **C87.** `Heun`, `Midpoint`, `Ralston`, `Bosh3` and `Dopri5`. -/
theorem C87_exact : CdeSecondOrder Heun.tableau 0 ∧ CdeSecondOrder Midpoint.tableau 0 ∧
    CdeSecondOrder Ralston.tableau 0 ∧ CdeSecondOrder Bosh3.tableau 0 ∧ CdeSecondOrder Dopri5.tableau 0 :=
  ⟨C87_second _ 2 Heun.tableau.abscissa 0 (by decide +kernel) rfl
    ⟨⟨by decide +kernel, by decide +kernel, by decide +kernel⟩, by decide +kernel, by decide +kernel⟩,
   C87_second _ 2 Midpoint.tableau.abscissa 0 (by decide +kernel) rfl
    ⟨⟨by decide +kernel, by decide +kernel, by decide +kernel⟩, by decide +kernel, by decide +kernel⟩,
   C87_second _ 2 Ralston.tableau.abscissa 0 (by decide +kernel) rfl
    ⟨⟨by decide +kernel, by decide +kernel, by decide +kernel⟩, by decide +kernel, by decide +kernel⟩,
   C87_second _ 4 Bosh3.tableau.abscissa 0 (by decide +kernel) rfl
    ⟨⟨by decide +kernel, by decide +kernel, by decide +kernel⟩, by decide +kernel, by decide +kernel⟩,
   C87_second _ 7 Dopri5.tableau.abscissa 0 (by decide +kernel) rfl
    ⟨⟨by decide +kernel, by decide +kernel, by decide +kernel⟩, by decide +kernel, by decide +kernel⟩⟩

/-- **C87.** `Tsit5` and `Dopri8`, whose coefficients are decimals. -/
theorem C87_decimal : CdeSecondOrder Tsit5.tableau (1 / 10 ^ 14) ∧ CdeSecondOrder Dopri8.tableau (1 / 10 ^ 14) :=
  ⟨C87_second _ 7 Tsit5.tableau.abscissa _ (by decide +kernel) rfl
    ⟨⟨by decide +kernel, by decide +kernel, by decide +kernel⟩, by decide +kernel, by decide +kernel⟩,
   C87_second _ 14 Dopri8.tableau.abscissa _ (by decide +kernel) rfl
    ⟨⟨by decide +kernel, by decide +kernel, by decide +kernel⟩, by decide +kernel, by decide +kernel⟩⟩

/-- **C87.** The first order, for controls with corners, of the same solvers. -/
theorem C87_corners : CdeFirstOrder Heun.tableau 0 ∧ CdeFirstOrder Midpoint.tableau 0 ∧
    CdeFirstOrder Ralston.tableau 0 ∧ CdeFirstOrder Bosh3.tableau 0 ∧ CdeFirstOrder Dopri5.tableau 0 ∧
    CdeFirstOrder Tsit5.tableau (1 / 10 ^ 14) ∧ CdeFirstOrder Dopri8.tableau (1 / 10 ^ 14) :=
  ⟨C87_first _ 2 Heun.tableau.abscissa 0 (by decide +kernel) rfl
    ⟨by decide +kernel, by decide +kernel, by decide +kernel⟩,
   C87_first _ 2 Midpoint.tableau.abscissa 0 (by decide +kernel) rfl
    ⟨by decide +kernel, by decide +kernel, by decide +kernel⟩,
   C87_first _ 2 Ralston.tableau.abscissa 0 (by decide +kernel) rfl
    ⟨by decide +kernel, by decide +kernel, by decide +kernel⟩,
   C87_first _ 4 Bosh3.tableau.abscissa 0 (by decide +kernel) rfl
    ⟨by decide +kernel, by decide +kernel, by decide +kernel⟩,
   C87_first _ 7 Dopri5.tableau.abscissa 0 (by decide +kernel) rfl
    ⟨by decide +kernel, by decide +kernel, by decide +kernel⟩,
   C87_first _ 7 Tsit5.tableau.abscissa _ (by decide +kernel) rfl
    ⟨by decide +kernel, by decide +kernel, by decide +kernel⟩,
   C87_first _ 14 Dopri8.tableau.abscissa _ (by decide +kernel) rfl
    ⟨by decide +kernel, by decide +kernel, by decide +kernel⟩⟩

/-! ### That the order is not higher than 2, whatever the order of the tableau -/

/-- `d(u, v) = (dx₀, u dx₁)`. -/
def areaField : Fin 2 → ℝ → ℝ × ℝ → ℝ × ℝ
  | 0, _, _ => (1, 0)
  | 1, _, p => (0, p.1)

/-- `x(t) = (t, t²)`. -/
def areaPath (t : ℝ) : Fin 2 → ℝ
  | 0 => t
  | 1 => t ^ 2

/-- The speed of `areaPath`. -/
def areaSpeed (t : ℝ) : Fin 2 → ℝ
  | 0 => 1
  | 1 => 2 * t

/-- The solution. -/
noncomputable def areaSolution (t : ℝ) : ℝ × ℝ := (t, 2 / 3 * t ^ 3)

theorem area_lipschitz (j : Fin 2) (b : ℝ) : LipschitzField (areaField j) 0 b 1 := by
  refine ⟨fun t _ p p' => ?_, fun s _ t _ p => ?_⟩
  · fin_cases j
    · show ‖((1 : ℝ), (0 : ℝ)) - (1, 0)‖ ≤ _
      rw [sub_self, norm_zero]; positivity
    · show ‖((0 : ℝ), p.1) - (0, p'.1)‖ ≤ _
      rw [Prod.mk_sub_mk, Prod.norm_def, one_mul, sub_self, norm_zero]
      exact max_le (norm_nonneg _) (norm_fst_le (p - p'))
  · have : areaField j t p - areaField j s p = 0 := by fin_cases j <;> exact sub_self _
    rw [this, norm_zero]; positivity

theorem area_smooth (j : Fin 2) : ContDiff ℝ 2 (fun p : ℝ × ℝ × ℝ => areaField j p.1 p.2) := by
  fin_cases j
  · exact contDiff_const
  · exact contDiff_const.prodMk (contDiff_fst.comp contDiff_snd)

theorem area_path (b : ℝ) : ControlPath areaPath areaSpeed 0 b (2 + 2 * |b|) := by
  refine ⟨fun j => ?_, fun t _ j => ?_, fun t ht j => ?_⟩
  · fin_cases j
    · exact continuousOn_id
    · exact (continuous_pow 2).continuousOn
  · fin_cases j
    · exact hasDerivWithinAt_id t _
    · have := (hasDerivAt_sub_sq 0 t).hasDerivWithinAt (s := Ici t)
      simp only [sub_zero] at this
      exact this
  · have h1 : |t| ≤ |b| := by rw [abs_of_nonneg ht.1]; exact ht.2.le.trans (le_abs_self b)
    fin_cases j
    · show |(1 : ℝ)| ≤ _
      rw [abs_one]; linarith [abs_nonneg b]
    · show |2 * t| ≤ _
      rw [abs_mul, abs_two]; linarith

theorem area_speed (b : ℝ) : ∀ s ∈ Ico 0 b, ∀ t ∈ Ico 0 b, ∀ j,
    |areaSpeed t j - areaSpeed s j| ≤ (2 + 2 * |b|) * |t - s| := by
  intro s _ t _ j
  have h0 : 0 ≤ 2 * |b| * |t - s| := by positivity
  fin_cases j
  · show |(1 : ℝ) - 1| ≤ _
    rw [sub_self, abs_zero]; positivity
  · show |2 * t - 2 * s| ≤ _
    rw [← mul_sub, abs_mul, abs_two, add_mul]; linarith

theorem area_solution (b : ℝ) : ControlledSolution (fun _ _ => 0) areaField areaSpeed 0 b areaSolution := by
  refine ⟨?_, fun t _ => ?_⟩
  · unfold areaSolution; fun_prop
  · have h1 : HasDerivAt areaSolution (1, 2 / 3 * (3 * t ^ 2)) t := by
      have h3 := (hasDerivAt_sub_cube 0 t).const_mul (2 / 3 : ℝ)
      simp only [sub_zero] at h3
      exact (hasDerivAt_id t).prodMk h3
    have e : (0 : ℝ × ℝ) + ∑ j, areaSpeed t j • areaField j t (areaSolution t) = (1, 2 / 3 * (3 * t ^ 2)) := by
      rw [Fin.sum_univ_two]
      show (0 : ℝ × ℝ) + ((1 : ℝ) • ((1 : ℝ), (0 : ℝ)) + (2 * t) • ((0 : ℝ), t)) = _
      ext
      · simp
      · simp; ring
    show HasDerivWithinAt areaSolution ((0 : ℝ × ℝ) + ∑ j, areaSpeed t j • areaField j t (areaSolution t)) _ t
    rw [e]
    exact h1.hasDerivWithinAt

/-- A step for this equation. -/
theorem area_step {tab : Tableau ℚ} {n : ℕ} {c : ℕ → ℚ} {J : Type} (hok : methodOK n c ![tab] = true)
    (hex : tab.implicit = false) (h : CdeTableauTwo tab n 0) (cj : CalcJac)
    (rF : RootFinder ((ℝ × ℝ) × (Fin 2 → ℝ × ℝ)) J) (rK : RootFinder (ℝ × ℝ) J) (nj : J) (s t : ℝ) (p : ℝ × ℝ)
    (st : RK.State 1 ((ℝ × ℝ) × (Fin 2 → ℝ × ℝ))) (mj : Bool)
    (hst : (sdeRK tab (fun _ _ => 0) areaField areaPath cj rF rK nj).ValidState s p st mj) :
    ((sdeRK tab (fun _ _ => 0) areaField areaPath cj rF rK nj).step s t p st mj).y
      = (p.1 + (t - s), p.2 + (t ^ 2 - s ^ 2) * (p.1 + (t - s) / 2)) := by
  obtain ⟨⟨k, hk, hy⟩, -⟩ := sdeRK_step (fun _ _ => 0) areaField areaPath cj rF rK nj hok hex s t p st mj hst
  have hz : ∀ q : ℚ, |q| ≤ 0 → q = 0 := fun q hq => abs_eq_zero.1 (le_antisymm hq (abs_nonneg _))
  have hb : ∑ i ∈ range n, (tab.bSol.getD i 0 : ℝ) = 1 := by
    have := sub_eq_zero.1 (hz _ h.first); exact_mod_cast this
  have hb2 : ∑ i ∈ range n, (tab.bSol.getD i 0 : ℝ) * (tab.abscissa i : ℝ) = 1 / 2 := by
    have := congrArg (fun q : ℚ => (q : ℝ)) (sub_eq_zero.1 (hz _ h.second)); push_cast at this; exact this
  have hrow : ∀ i < n, ∑ j ∈ range i, (tab.a i j : ℝ) = (tab.abscissa i : ℝ) := fun i hi => by
    have := sub_eq_zero.1 (hz _ (h.row i hi)); exact_mod_cast this
  have hkf : ∀ i < n, k i = (t - s, (t ^ 2 - s ^ 2) * (p.1 + ∑ j ∈ range i, (tab.a i j : ℝ) * (k j).1)) := by
    intro i hi
    rw [hk i hi, smul_zero, zero_add, Fin.sum_univ_two]
    set z := p + ∑ j ∈ range i, (tab.a i j : ℝ) • k j with hz
    have hz1 : z.1 = p.1 + ∑ j ∈ range i, (tab.a i j : ℝ) * (k j).1 := by
      rw [hz, Prod.fst_add, Prod.fst_sum]
      rfl
    show (t - s) • ((1 : ℝ), (0 : ℝ)) + (t ^ 2 - s ^ 2) • ((0 : ℝ), z.1) = _
    rw [hz1]
    ext
    · simp
    · simp
  have hks : ∀ i < n, k i = (t - s, (t ^ 2 - s ^ 2) * (p.1 + (tab.abscissa i : ℝ) * (t - s))) := by
    intro i hi
    rw [hkf i hi]
    congr 3
    rw [← hrow i hi, sum_mul]
    refine sum_congr rfl fun j hj => ?_
    rw [hkf j ((Finset.mem_range.1 hj).trans hi)]
  rw [hy]
  ext
  · rw [Prod.fst_add, Prod.fst_sum]
    show p.1 + ∑ i ∈ range n, (tab.bSol.getD i 0 : ℝ) * (k i).1 = p.1 + (t - s)
    rw [sum_congr rfl fun i hi => by rw [hks i (Finset.mem_range.1 hi)], ← sum_mul, hb, one_mul]
  · rw [Prod.snd_add, Prod.snd_sum]
    show p.2 + ∑ i ∈ range n, (tab.bSol.getD i 0 : ℝ) * (k i).2 = p.2 + (t ^ 2 - s ^ 2) * (p.1 + (t - s) / 2)
    have e : ∀ i ∈ range n, (tab.bSol.getD i 0 : ℝ) * (k i).2
        = (t ^ 2 - s ^ 2) * (p.1 * (tab.bSol.getD i 0 : ℝ)
          + (t - s) * ((tab.bSol.getD i 0 : ℝ) * (tab.abscissa i : ℝ))) := fun i hi => by
      rw [hks i (Finset.mem_range.1 hi)]; ring
    rw [sum_congr rfl e, ← mul_sum, sum_add_distrib, ← mul_sum, ← mul_sum, hb, hb2]
    ring

/-- **C87.** Explicit Runge-Kutta methods see only the increments of the control. If two controls matter, this limits
the order to 2, whatever the order of the tableau: for `d(u, v) = (dx₀, u dx₁)` and `x(t) = (t, t²)`, started at the
exact value, the error at time `t` is at least `ρ² t / 6` if no accepted step is shorter than `ρ`. -/
theorem C87_not_third {tab : Tableau ℚ} {n : ℕ} {c : ℕ → ℚ} {J : Type} (hok : methodOK n c ![tab] = true)
    (hex : tab.implicit = false) (h : CdeTableauTwo tab n 0) (cj : CalcJac)
    (rF : RootFinder ((ℝ × ℝ) × (Fin 2 → ℝ × ℝ)) J) (rK : RootFinder (ℝ × ℝ) J) (nj : J)
    {C O F : Type} [LinearOrder F] [Zero F]
    (cfg : Cfg ℝ (ℝ × ℝ) (Option (ℝ × ℝ)) (RK.Dense 1 (ℝ × ℝ)) (RK.State 1 ((ℝ × ℝ) × (Fin 2 → ℝ × ℝ))) C O F)
    (hwf : cfg.WF) (h0 : cfg.t0 = 0)
    (hsolver : cfg.solver.step = (sdeRK tab (fun _ _ => 0) areaField areaPath cj rF rK nj).step)
    (hctrl : cfg.controller.Exact) (tnext : ℝ) (ctrl : C) (mj : Bool) (ρ : ℝ) (hρ : 0 ≤ ρ)
    (hfor : ∀ c ∈ callLog cfg (0, 0) tnext ctrl (sdeRK tab (fun _ _ => 0) areaField areaPath cj rF rK nj).init mj,
      c.solverT0 ≤ c.solverT1)
    (hsteps : ∀ c ∈ callLog cfg (0, 0) tnext ctrl (sdeRK tab (fun _ _ => 0) areaField areaPath cj rF rK nj).init mj,
      (c.answer cfg).keep = true → ρ ≤ c.solverT1 - c.solverT0) (hroot : cfg.rootFinder = none) :
    ρ ^ 2 / 6 * (solve cfg (0, 0) tnext ctrl (sdeRK tab (fun _ _ => 0) areaField areaPath cj rF rK nj).init mj).tfinal
      ≤ ‖(solve cfg (0, 0) tnext ctrl (sdeRK tab (fun _ _ => 0) areaField areaPath cj rF rK nj).init mj).yfinal
        - areaSolution (solve cfg (0, 0) tnext ctrl
          (sdeRK tab (fun _ _ => 0) areaField areaPath cj rF rK nj).init mj).tfinal‖ := by
  obtain ⟨-, -, hv, h1, h2⟩ := accepted_inv cfg hwf
    (fun t p st mj => (sdeRK tab (fun _ _ => 0) areaField areaPath cj rF rK nj).ValidState t p st mj ∧ p.1 = t ∧
      ρ ^ 2 / 6 * t ≤ 2 / 3 * t ^ 3 - p.2) (fun t t' => ρ ≤ t' - t)
    (by
      rintro t t' p st mj ⟨hv, hp1, hp2⟩ _ htt _ hρt mj'
      rw [hsolver]
      refine ⟨(sdeRK_step _ areaField areaPath cj rF rK nj hok hex t t' p st mj hv).2 mj', ?_⟩
      rw [area_step hok hex h cj rF rK nj t t' p st mj hv]
      refine ⟨by simp only; rw [hp1]; ring, ?_⟩
      simp only
      rw [hp1]
      have hh : 0 ≤ t' - t := sub_nonneg.2 htt
      have hsq : ρ ^ 2 ≤ (t' - t) ^ 2 := pow_le_pow_left₀ hρ hρt 2
      have h3 : ρ ^ 2 * (t' - t) ≤ (t' - t) ^ 2 * (t' - t) := mul_le_mul_of_nonneg_right hsq hh
      have e : 2 / 3 * t' ^ 3 - (p.2 + (t' ^ 2 - t ^ 2) * (t + (t' - t) / 2))
          = (2 / 3 * t ^ 3 - p.2) + (t' - t) ^ 2 * (t' - t) / 6 := by ring
      rw [e]
      linarith)
    hctrl (0, 0) tnext ctrl _ mj ⟨sdeRK_valid_init _ areaField areaPath cj rF rK nj cfg.t0 (0, 0) mj, by rw [h0],
      by rw [h0]; simp⟩ hfor hsteps
  rw [solve_yfinal, solve_tfinal, finalise_no_root cfg _ hroot]
  generalize (solve cfg (0, 0) tnext ctrl (sdeRK tab (fun _ _ => 0) areaField areaPath cj rF rK nj).init mj).core = r
    at h2 ⊢
  refine h2.trans ((le_abs_self _).trans ?_)
  rw [abs_sub_comm]
  exact norm_snd_le (r.y - areaSolution r.tprev)

/-- The hypotheses of the convergence theorem are met by this equation, so the order is 2 exactly. -/
example : ∃ K, 0 ≤ K ∧ CdeErrorAtMost Dopri5.tableau (fun _ _ => 0) areaField areaPath 0 1 areaSolution
    (fun e η => K * (e + η ^ 2 + 0)) := by
  have := C87_exact.2.2.2.2 (ℝ × ℝ) 2 (fun _ _ => 0) areaField areaPath areaSpeed 0 1 1 (2 + 2 * |1|) areaSolution
    zero_le_one ⟨fun t _ p p' => by rw [sub_self, norm_zero]; positivity,
      fun s _ t _ p => by rw [sub_self, norm_zero]; positivity⟩ (fun j => area_lipschitz j 1) contDiff_const area_smooth
    (area_path 1) (area_speed 1) (area_solution 1)
  rw [Rat.cast_zero] at this
  exact this

/-- The hypotheses for controls with corners are met, for example, by `dy = y d|t|`. -/
example : ∃ K, 0 ≤ K ∧ CdeErrorAtMost (d := 1) Heun.tableau (fun _ _ => 0) (fun _ _ (p : ℝ) => p) (fun t _ => |t|) (-1) 1
    (fun t => Real.exp |t|) (fun e η => K * (e + η + 0)) := by
  have hder : ∀ t : ℝ, HasDerivWithinAt (fun u : ℝ => |u|) (if t < 0 then -1 else 1) (Ici t) t := by
    intro t
    split_ifs with ht
    · exact (hasDerivAt_abs_neg ht).hasDerivWithinAt
    · refine (hasDerivWithinAt_id t _).congr (fun u hu => ?_) ?_
      · exact abs_of_nonneg ((not_lt.1 ht).trans hu)
      · exact abs_of_nonneg (not_lt.1 ht)
  have := C87_corners.1 ℝ 1 (fun _ _ => 0) (fun _ _ (p : ℝ) => p) (fun t _ => |t|) (fun t _ => if t < 0 then -1 else 1)
    (-1) 1 1 1 (fun t => Real.exp |t|) (by norm_num)
    ⟨fun t _ p p' => by rw [sub_self, norm_zero]; positivity, fun s _ t _ p => by rw [sub_self, norm_zero]; positivity⟩
    (fun j => ⟨fun t _ p p' => by rw [one_mul], fun s _ t _ p => by rw [sub_self, norm_zero]; positivity⟩)
    ⟨fun j => continuous_abs.continuousOn, fun t _ j => hder t, fun t _ j => by split_ifs <;> simp⟩
    ⟨(Real.continuous_exp.comp continuous_abs).continuousOn, fun t _ => by
      have := (hder t).exp
      refine this.congr_deriv ?_
      simp [mul_comm]⟩
  rw [Rat.cast_zero] at this
  exact this

end Verif
