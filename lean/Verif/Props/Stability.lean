import Verif.Spec.Stability
import Verif.Lemmas.Stability
import Verif.Props.Convergence
import Verif.Props.OtherSolvers

/-!
# C103: stability of the implicit solvers
-/

set_option linter.unusedSectionVars false
set_option maxRecDepth 100000

namespace Verif
open Finset Stab Tab

section
variable {m : ℕ} {E J : Type} [NormedAddCommGroup E] [NormedSpace ℝ E] [Module ℚ E]
  {tab : Fin m → Tableau ℚ} {s : ℕ} {c : ℕ → ℚ} {p : Fin m}

/-- What a step does to a mode. -/
theorem mode_step (hok : methodOK s c tab = true) {f : Fin m → ℝ → E → E} {cj : CalcJac} {rF rK : RootFinder E J} {nj : J}
    (hroot : (odeRK tab f cj rF rK nj).RootExact) {ℓ : E →ₗ[ℝ] ℂ} {lam : ℂ} (hm : IsMode f p ℓ lam) (t t' : ℝ) (x : E)
    (st : RK.State m E) (mj : Bool) (hst : (odeRK tab f cj rF rK nj).ValidState t x st mj)
    (hokay : ((odeRK tab f cj rF rK nj).step t t' x st mj).result.isOkay = true) :
    peval (den (tab p) s) ((t' - t : ℝ) * lam) * ℓ ((odeRK tab f cj rF rK nj).step t t' x st mj).y
      = peval (num (tab p) s) ((t' - t : ℝ) * lam) * ℓ x := by
  obtain ⟨h, rfl⟩ : ∃ h, t' = t + h := ⟨t' - t, by ring⟩
  obtain ⟨k, hk, hy⟩ := any_step tab f cj rF rK nj hok hroot t h x st mj hst hokay
  have hz : ∀ i < s, ∀ q, q ≠ p → ℓ (k q i) = 0 := by
    intro i hi q hq
    rw [hk i hi q]
    show ℓ (h • f q _ _) = 0
    rw [map_smul, hm.others q hq, smul_zero]
  set Y : ℕ → ℂ := fun i => ℓ (x + stageInc tab k i) with hY
  have hp : ∀ i < s, ℓ (k p i) = (h : ℂ) * lam * Y i := by
    intro i hi
    rw [hk i hi p]
    show ℓ (h • f p _ _) = _
    rw [map_smul, hm.rate, Complex.real_smul, mul_assoc]
  have hinc : ∀ i < s, ℓ (stageInc tab k i)
      = (h : ℂ) * lam * (∑ j ∈ range i, ((tab p).a i j : ℂ) * Y j + ((tab p).d i : ℂ) * Y i) := by
    intro i hi
    unfold stageInc
    rw [map_sum, sum_eq_single p]
    · rw [map_add, map_sum, mul_add, mul_sum]
      congr 1
      · refine sum_congr rfl fun j hj => ?_
        rw [qsmul_eq, map_smul, hp j (by have := mem_range.1 hj; omega), Complex.real_smul]
        push_cast; ring
      · rw [qsmul_eq, map_smul, hp i hi, Complex.real_smul]
        push_cast; ring
    · intro q _ hq
      rw [map_add, map_sum, qsmul_eq, map_smul, hz i hi q hq, smul_zero, add_zero]
      refine sum_eq_zero fun j hj => ?_
      rw [qsmul_eq, map_smul, hz j (by have := mem_range.1 hj; omega) q hq, smul_zero]
    · intro h; exact absurd (mem_univ p) h
  have h1 := step_eval (t := tab p) (s := s) (x := ℓ x) (z := (h : ℂ) * lam) (Y := Y) (fun i hi => by
    conv_lhs => rw [hY]
    dsimp only
    rw [map_add, hinc i hi])
  have h2 : ℓ (((odeRK tab f cj rF rK nj).step t (t + h) x st mj).y)
      = ℓ x + (h : ℂ) * lam * ∑ i ∈ range s, (((tab p).bSol.getD i 0 : ℚ) : ℂ) * Y i := by
    rw [hy, map_add, map_sum, sum_eq_single p, map_sum, mul_sum]
    · congr 1
      refine sum_congr rfl fun i hi => ?_
      rw [map_smul, hp i (mem_range.1 hi), Complex.real_smul]
      push_cast; ring
    · intro q _ hq
      rw [map_sum]
      refine sum_eq_zero fun i hi => ?_
      rw [map_smul, hz i (mem_range.1 hi) q hq, smul_zero]
    · intro h; exact absurd (mem_univ p) h
  rw [h2, add_sub_cancel_left, h1]

end

section
variable {E Er D S C O F : Type} [LinearOrder F] [Zero F]

/-- A quantity that grows by a factor of at most `q` in every accepted step. -/
theorem history_bound (cfg : Cfg ℝ E Er D S C O F) (g : E → ℝ) (q : ℝ) (hq : 0 ≤ q) (y0 : E) (tnext : ℝ) (ctrl : C) (ss : S)
    (mj : Bool)
    (hstep : ∀ s ∈ history cfg y0 tnext ctrl ss mj, accepted cfg s = true → g (solverOut cfg s).y ≤ q * g s.y) :
    (∀ s ∈ history cfg y0 tnext ctrl ss mj, g s.y ≤ q ^ s.numAccepted * g y0) ∧
    g (solve cfg y0 tnext ctrl ss mj).core.y ≤ q ^ (solve cfg y0 tnext ctrl ss mj).core.numAccepted * g y0 := by
  have hmain := run_inv cfg (fun s => g s.y ≤ q ^ s.numAccepted * g y0) cfg.maxSteps (initState cfg y0 tnext ctrl ss mj).core
    (by show g y0 ≤ q ^ 0 * g y0; simp) (by
      intro s hs _ h
      have e1 : (coreBody cfg s).1.y = if accepted cfg s then (solverOut cfg s).y else s.y := rfl
      have e2 : (coreBody cfg s).1.numAccepted = s.numAccepted + if accepted cfg s then 1 else 0 := rfl
      rw [e1, e2]
      cases hk : accepted cfg s with
      | true =>
        simp only [if_true]
        refine (hstep s hs hk).trans ?_
        rw [pow_succ, mul_right_comm, mul_comm]
        exact mul_le_mul_of_nonneg_right h hq
      | false => simpa using h)
  rw [solve_core]
  exact hmain

end

section
variable {m : ℕ} {tab : Fin m → Tableau ℚ} {s : ℕ} {c : ℕ → ℚ} {p : Fin m}

/-- A statement about single steps of a mode gives one about all solves. -/
theorem everyStiffSolve_step (hok : methodOK s c tab = true) (hd : ∀ i < s, 0 ≤ (tab p).d i)
    {Pr : ∀ {E C O F : Type} [NormedAddCommGroup E] [NormedSpace ℝ E] [LinearOrder F] [Zero F] (_ : E →ₗ[ℝ] ℂ) (_ : ℂ)
      (_ : Cfg ℝ E (Option E) (RK.Dense m E) (RK.State m E) C O F) (_ : E) (_ : ℝ) (_ : C) (_ : RK.State m E) (_ : Bool), Prop}
    (hPr : ∀ {E C O F : Type} [NormedAddCommGroup E] [NormedSpace ℝ E] [LinearOrder F] [Zero F] (ℓ : E →ₗ[ℝ] ℂ) (lam : ℂ)
      (cfg : Cfg ℝ E (Option E) (RK.Dense m E) (RK.State m E) C O F) (y0 : E) (tnext : ℝ) (ctrl : C) (ss : RK.State m E)
      (mj : Bool), lam.re ≤ 0 → (∀ s' ∈ history cfg y0 tnext ctrl ss mj, accepted cfg s' = true → s'.tprev ≤ s'.tnext ∧
        ℓ (solverOut cfg s').y = peval (num (tab p) s) ((s'.tnext - s'.tprev : ℝ) * lam)
          / peval (den (tab p) s) ((s'.tnext - s'.tprev : ℝ) * lam) * ℓ s'.y) →
      Pr ℓ lam cfg y0 tnext ctrl ss mj) : EveryStiffSolve tab p Pr := by
  intro E J _ _ _ f cj rF rK nj hex ℓ lam hm hre C O F _ _ cfg hwf hsolver hctrl y0 tnext ctrl mj hfor hokay
  refine hPr ℓ lam cfg y0 tnext ctrl _ mj hre fun s' hs' hacc => ?_
  have hroot : (odeRK tab f cj rF rK nj).RootExact := fun _ => hex
  have hinv := (solve_invariant cfg hwf hctrl y0 tnext ctrl (odeRK tab f cj rF rK nj).init mj
    (fun t y st => ∀ j, (odeRK tab f cj rF rK nj).ValidState t y st j)
    (fun j => validState_init tab f cj rF rK nj _ _ j) hfor (fun c' hc' hk _ _ hI j => by
      have ho := hokay c' hc' hk
      rw [hsolver] at ho ⊢
      exact valid_after hok f cj rF rK nj hroot _ _ _ _ _ (hI _) ho j)).1
  rw [log_eq_history] at hinv hfor hokay
  have hmem := List.mem_map_of_mem (f := expectedCall cfg) hs'
  have hle : s'.tprev ≤ s'.tnext := hfor _ hmem
  refine ⟨hle, ?_⟩
  have ho := hokay _ hmem hacc
  have hv := (hinv _ hmem).2 s'.madeJump
  have h1 := mode_step hok hroot hm s'.tprev s'.tnext s'.y s'.solverState s'.madeJump hv (by
    rw [hsolver] at ho; exact ho)
  have hz : (((s'.tnext - s'.tprev : ℝ) : ℂ) * lam).re ≤ 0 := by
    rw [Complex.re_ofReal_mul]
    exact mul_nonpos_of_nonneg_of_nonpos (sub_nonneg.2 hle) hre
  have hne := den_ne_zero hd hz
  have e : solverOut cfg s' = (odeRK tab f cj rF rK nj).step s'.tprev s'.tnext s'.y s'.solverState s'.madeJump := by
    unfold solverOut; rw [hsolver]
  rw [e, div_mul_eq_mul_div, eq_div_iff hne, ← h1, mul_comm]

/-- **C103.** A-stability, from a condition on the tableau that can be computed. -/
theorem C103_aStable (hok : methodOK s c tab = true) {ε : ℚ} (hε : 0 ≤ ε) (h : stable (tab p) s ε = true) : AStable tab p ε := by
  refine everyStiffSolve_step hok (stable_diag h) fun {E C O F} _ _ _ _ ℓ lam cfg y0 tnext ctrl ss mj hre hs => ?_
  have hε' : (0 : ℝ) ≤ ε := by exact_mod_cast hε
  obtain ⟨h1, h2⟩ := history_bound cfg (fun y => ‖ℓ y‖) (1 + ε) (by positivity) y0 tnext ctrl ss mj (fun s' hs' hacc => by
    obtain ⟨hle, e⟩ := hs s' hs' hacc
    show ‖ℓ (solverOut cfg s').y‖ ≤ _
    rw [e, norm_mul]
    refine mul_le_mul_of_nonneg_right (stable_bound h hε ?_) (norm_nonneg _)
    rw [Complex.re_ofReal_mul]
    exact mul_nonpos_of_nonneg_of_nonpos (sub_nonneg.2 hle) hre)
  refine ⟨h1, fun hroot => ?_⟩
  have hyf : (solve cfg y0 tnext ctrl ss mj).yfinal = (solve cfg y0 tnext ctrl ss mj).core.y := by
    rw [solve_yfinal, finalise_no_root cfg _ hroot, solve_core]
  rw [hyf]
  exact h2

/-- **C103.** L-stability, from a condition on the tableau that can be computed. -/
theorem C103_lStable (hok : methodOK s c tab = true) {ε : ℚ} (h : stable (tab p) s ε = true) {r : ℚ}
    (hr : limit (tab p) s r = true) : LStable tab p r := by
  obtain ⟨B, hB, hb⟩ := limit_bound (stable_diag h) hr
  refine ⟨B, hB, everyStiffSolve_step hok (stable_diag h) fun {E C O F} _ _ _ _ ℓ lam cfg y0 tnext ctrl ss mj hre hs => ?_⟩
  intro s' hs' hacc
  obtain ⟨hle, e⟩ := hs s' hs' hacc
  have hz : (((s'.tnext - s'.tprev : ℝ) : ℂ) * lam).re ≤ 0 := by
    rw [Complex.re_ofReal_mul]
    exact mul_nonpos_of_nonneg_of_nonpos (sub_nonneg.2 hle) hre
  have h1 := hb _ hz
  rw [norm_mul, Complex.norm_real, Real.norm_eq_abs, abs_of_nonneg (sub_nonneg.2 hle)] at h1
  show ‖ℓ (solverOut cfg s').y - _‖ ≤ _
  rw [e, ← sub_mul, norm_mul]
  exact mul_le_mul_of_nonneg_right h1 (norm_nonneg _)

end

/-- **C103.** `Kvaerno3`, `Kvaerno4` and `Kvaerno5` are A-stable, with the coefficients as they are in the code. -/
theorem C103_kvaerno : AStable ![Kvaerno3.tableau] 0 0 ∧ AStable ![Kvaerno4.tableau] 0 0 ∧ AStable ![Kvaerno5.tableau] 0 0 :=
  ⟨C103_aStable (s := 4) (c := Kvaerno3.tableau.abscissa) (by decide +kernel) le_rfl (by decide +kernel),
   C103_aStable (s := 5) (c := Kvaerno4.tableau.abscissa) (by decide +kernel) le_rfl (by decide +kernel),
   C103_aStable (s := 7) (c := Kvaerno5.tableau.abscissa) (by decide +kernel) le_rfl (by decide +kernel)⟩

/-- **C103.** For the implicit term, `KenCarp4` and `Sil3` are A-stable, and `KenCarp3` and `KenCarp5` up to the rounding of their
coefficients. -/
theorem C103_imex : AStable ![KenCarp3.explicit, KenCarp3.implicit] 1 (1 / 10 ^ 25) ∧
    AStable ![KenCarp4.explicit, KenCarp4.implicit] 1 0 ∧ AStable ![KenCarp5.explicit, KenCarp5.implicit] 1 (1 / 10 ^ 10) ∧
    AStable ![Sil3.explicit, Sil3.implicit] 1 0 :=
  ⟨C103_aStable (s := 4) (c := KenCarp3.explicit.abscissa) (by decide +kernel) (by norm_num) (by decide +kernel),
   C103_aStable (s := 6) (c := KenCarp4.explicit.abscissa) (by decide +kernel) le_rfl (by decide +kernel),
   C103_aStable (s := 8) (c := KenCarp5.explicit.abscissa) (by decide +kernel) (by norm_num) (by decide +kernel),
   C103_aStable (s := 4) (c := Sil3.explicit.abscissa) (by decide +kernel) le_rfl (by decide +kernel)⟩


/-- The limit of the stability function at infinity. -/
def limitOf (t : Tableau ℚ) (s : ℕ) : ℚ := (num t s).getD (impl t s) 0 / (den t s).getD (impl t s) 0

/-- **C103.** `KenCarp4` and `Sil3` are L-stable for the implicit term. -/
theorem C103_lStable_imex : LStable ![KenCarp4.explicit, KenCarp4.implicit] 1 0 ∧
    LStable ![Sil3.explicit, Sil3.implicit] 1 0 :=
  ⟨C103_lStable (s := 6) (c := KenCarp4.explicit.abscissa) (ε := 0) (by decide +kernel) (by decide +kernel) (by decide +kernel),
   C103_lStable (s := 4) (c := Sil3.explicit.abscissa) (ε := 0) (by decide +kernel) (by decide +kernel) (by decide +kernel)⟩

/-- **C103.** The other solvers are L-stable only up to the rounding of their coefficients: very stiff modes are multiplied by
a number that is tiny but not zero. -/
theorem C103_lStable_partial :
    (∃ r : ℚ, r ≠ 0 ∧ |r| ≤ 1 / 10 ^ 10 ∧ LStable ![Kvaerno3.tableau] 0 r) ∧
    (∃ r : ℚ, r ≠ 0 ∧ |r| ≤ 1 / 10 ^ 10 ∧ LStable ![Kvaerno4.tableau] 0 r) ∧
    (∃ r : ℚ, r ≠ 0 ∧ |r| ≤ 1 / 10 ^ 15 ∧ LStable ![Kvaerno5.tableau] 0 r) ∧
    (∃ r : ℚ, r ≠ 0 ∧ |r| ≤ 1 / 10 ^ 26 ∧ LStable ![KenCarp3.explicit, KenCarp3.implicit] 1 r) ∧
    (∃ r : ℚ, r ≠ 0 ∧ |r| ≤ 1 / 10 ^ 10 ∧ LStable ![KenCarp5.explicit, KenCarp5.implicit] 1 r) :=
  ⟨⟨limitOf Kvaerno3.tableau 4, by decide +kernel, by decide +kernel,
      C103_lStable (s := 4) (c := Kvaerno3.tableau.abscissa) (ε := 0) (by decide +kernel) (by decide +kernel) (by decide +kernel)⟩,
   ⟨limitOf Kvaerno4.tableau 5, by decide +kernel, by decide +kernel,
      C103_lStable (s := 5) (c := Kvaerno4.tableau.abscissa) (ε := 0) (by decide +kernel) (by decide +kernel) (by decide +kernel)⟩,
   ⟨limitOf Kvaerno5.tableau 7, by decide +kernel, by decide +kernel,
      C103_lStable (s := 7) (c := Kvaerno5.tableau.abscissa) (ε := 0) (by decide +kernel) (by decide +kernel) (by decide +kernel)⟩,
   ⟨limitOf KenCarp3.implicit 4, by decide +kernel, by decide +kernel,
      C103_lStable (s := 4) (c := KenCarp3.explicit.abscissa) (ε := 1 / 10 ^ 25) (by decide +kernel) (by decide +kernel)
        (by decide +kernel)⟩,
   ⟨limitOf KenCarp5.implicit 8, by decide +kernel, by decide +kernel,
      C103_lStable (s := 8) (c := KenCarp5.explicit.abscissa) (ε := 1 / 10 ^ 10) (by decide +kernel) (by decide +kernel)
        (by decide +kernel)⟩⟩

/-! ### Explicit methods -/

theorem peval_ratCast (l : List ℚ) (z : ℚ) : peval l (z : ℂ) = ((peval l z : ℚ) : ℂ) := by
  induction l with
  | nil => simp [peval]
  | cons a l ih => simp only [peval, ih]; push_cast; rfl

theorem blowsUp_of {m : ℕ} {tab : Fin m → Tableau ℚ} {s : ℕ} {c : ℕ → ℚ} {p : Fin m} (hok : methodOK s c tab = true)
    (hd : ∀ i < s, 0 ≤ (tab p).d i) {z : ℂ} {q : ℝ} (hq : 0 ≤ q)
    (h : q ≤ ‖peval (num (tab p) s) z / peval (den (tab p) s) z‖) : BlowsUp tab p z q := by
  refine everyStiffSolve_step hok hd fun {E C O F} _ _ _ _ ℓ lam cfg y0 tnext ctrl ss mj hre hs => ?_
  intro hlen
  obtain ⟨h1, h2⟩ := run_inv cfg (fun s' => q ^ s'.numAccepted * ‖ℓ y0‖ ≤ ‖ℓ s'.y‖) cfg.maxSteps
    (initState cfg y0 tnext ctrl ss mj).core (by show q ^ 0 * ‖ℓ y0‖ ≤ ‖ℓ y0‖; simp) (by
      intro s' hs' _ hI
      have e1 : (coreBody cfg s').1.y = if accepted cfg s' then (solverOut cfg s').y else s'.y := rfl
      have e2 : (coreBody cfg s').1.numAccepted = s'.numAccepted + if accepted cfg s' then 1 else 0 := rfl
      rw [e1, e2]
      cases hk : accepted cfg s' with
      | true =>
        simp only [if_true]
        rw [(hs s' hs' hk).2, norm_mul, hlen s' hs' hk, pow_succ, mul_right_comm, mul_comm]
        exact mul_le_mul h hI (by positivity) (norm_nonneg _)
      | false => simpa using hI)
  refine ⟨h1, fun hr => ?_⟩
  rw [solve_yfinal, finalise_no_root cfg _ hr, solve_core]
  exact h2

theorem blowsUp_rat {m : ℕ} {tab : Fin m → Tableau ℚ} {s : ℕ} {c : ℕ → ℚ} {p : Fin m} (hok : methodOK s c tab = true)
    (hd : ∀ i < s, 0 ≤ (tab p).d i)
    (h : 13 ≤ |peval (num (tab p) s) (-10 : ℚ) / peval (den (tab p) s) (-10)|) : BlowsUp tab p (-10) 13 := by
  refine blowsUp_of hok hd (by norm_num) ?_
  have e : (-10 : ℂ) = ((-10 : ℚ) : ℂ) := by norm_num
  rw [e, peval_ratCast, peval_ratCast, ← Rat.cast_div, ← Complex.ofReal_ratCast, Complex.norm_real, Real.norm_eq_abs,
    ← Rat.cast_abs]
  exact_mod_cast h

/-- **C103.** The explicit solvers are not stable for stiff equations: with steps ten times the time constant of a mode, the
mode grows by a factor of at least 13 in every step, although it decays in the exact solution. -/
theorem C103_explicit : BlowsUp ![Heun.tableau] 0 (-10) 13 ∧ BlowsUp ![Midpoint.tableau] 0 (-10) 13 ∧
    BlowsUp ![Ralston.tableau] 0 (-10) 13 ∧ BlowsUp ![Bosh3.tableau] 0 (-10) 13 ∧ BlowsUp ![Tsit5.tableau] 0 (-10) 13 ∧
    BlowsUp ![Dopri5.tableau] 0 (-10) 13 ∧ BlowsUp ![Dopri8.tableau] 0 (-10) 13 :=
  ⟨blowsUp_rat (s := 2) (c := Heun.tableau.abscissa) (by decide +kernel) (by decide +kernel) (by decide +kernel),
   blowsUp_rat (s := 2) (c := Midpoint.tableau.abscissa) (by decide +kernel) (by decide +kernel) (by decide +kernel),
   blowsUp_rat (s := 2) (c := Ralston.tableau.abscissa) (by decide +kernel) (by decide +kernel) (by decide +kernel),
   blowsUp_rat (s := 4) (c := Bosh3.tableau.abscissa) (by decide +kernel) (by decide +kernel) (by decide +kernel),
   blowsUp_rat (s := 7) (c := Tsit5.tableau.abscissa) (by decide +kernel) (by decide +kernel) (by decide +kernel),
   blowsUp_rat (s := 7) (c := Dopri5.tableau.abscissa) (by decide +kernel) (by decide +kernel) (by decide +kernel),
   blowsUp_rat (s := 14) (c := Dopri8.tableau.abscissa) (by decide +kernel) (by decide +kernel) (by decide +kernel)⟩

theorem peval_ratCast_real (l : List ℚ) (z : ℚ) : peval l (z : ℝ) = ((peval l z : ℚ) : ℝ) := by
  induction l with
  | nil => simp [peval]
  | cons a l ih => simp only [peval, ih]; push_cast; rfl

theorem blowsUp_axis {m : ℕ} {tab : Fin m → Tableau ℚ} {s : ℕ} {c : ℕ → ℚ} {p : Fin m} (hok : methodOK s c tab = true)
    (hd : ∀ i < s, 0 ≤ (tab p).d i) (y : ℚ)
    (h : peval (modSq (den (tab p) s)) (y ^ 2) < peval (modSq (num (tab p) s)) (y ^ 2)) :
    ∃ q > 1, BlowsUp tab p ((y : ℝ) * Complex.I) q := by
  refine ⟨_, ?_, blowsUp_of hok hd (norm_nonneg _) le_rfl⟩
  have h1 : ‖peval (den (tab p) s) (((y : ℝ) : ℂ) * Complex.I)‖ ^ 2 < ‖peval (num (tab p) s) (((y : ℝ) : ℂ) * Complex.I)‖ ^ 2 := by
    rw [modSq_eval, modSq_eval, ← Rat.cast_pow, peval_ratCast_real, peval_ratCast_real]
    exact_mod_cast h
  have h2 := den_ne_zero (s := s) hd (z := ((y : ℝ) : ℂ) * Complex.I) (by simp)
  rw [gt_iff_lt, norm_div, one_lt_div (norm_pos_iff.2 h2)]
  exact lt_of_pow_lt_pow_left₀ 2 (norm_nonneg _) h1

/-- **C103.** `KenCarp3` and `KenCarp5` are not A-stable: because of the rounding of their coefficients there are oscillations that
grow (very slowly) when they are integrated with constant steps. -/
theorem C103_kencarp_grow : (∃ q > 1, BlowsUp ![KenCarp3.explicit, KenCarp3.implicit] 1 (((1 / 10 ^ 14 : ℚ) : ℝ) * Complex.I) q) ∧
    (∃ q > 1, BlowsUp ![KenCarp5.explicit, KenCarp5.implicit] 1 (((1 / 10 ^ 7 : ℚ) : ℝ) * Complex.I) q) :=
  ⟨blowsUp_axis (s := 4) (c := KenCarp3.explicit.abscissa) (by decide +kernel) (by decide +kernel) _ (by decide +kernel),
   blowsUp_axis (s := 8) (c := KenCarp5.explicit.abscissa) (by decide +kernel) (by decide +kernel) _ (by decide +kernel)⟩

/-! ### ImplicitEuler -/

section
variable {E : Type} [NormedAddCommGroup E]

/-- **C103, `ImplicitEuler`**: A-stable and L-stable. -/
theorem C103_implicitEuler [NormedSpace ℝ E] {f : ℝ → E → E} {ℓ : E →ₗ[ℝ] ℂ} {lam : ℂ} (hm : ∀ t y, ℓ (f t y) = lam * ℓ y)
    (hre : lam.re ≤ 0) (root : (E → E) → E → E × Result)
    (hroot : ∀ rel guess, (root rel guess).2.isOkay = true → rel (root rel guess).1 = 0)
    (interp : LocalLin ℝ E) {C O F : Type} [LinearOrder F] [Zero F] (cfg : Cfg ℝ E E (E × E) Unit C O F)
    (hsolver : cfg.solver.step = (implicitEuler ℝ (odeTerm f) root interp).step) (y0 : E) (tnext : ℝ) (ctrl : C) (mj : Bool)
    (hfor : ∀ s ∈ history cfg y0 tnext ctrl () mj, s.tprev ≤ s.tnext)
    (hokay : ∀ s ∈ history cfg y0 tnext ctrl () mj, accepted cfg s = true →
      (cfg.solver.step s.tprev s.tnext s.y s.solverState s.madeJump).result.isOkay = true) :
    (∀ s ∈ history cfg y0 tnext ctrl () mj, ‖ℓ s.y‖ ≤ ‖ℓ y0‖) ∧
    (∀ s ∈ history cfg y0 tnext ctrl () mj, accepted cfg s = true → (s.tnext - s.tprev) * ‖lam‖ *
      ‖ℓ (cfg.solver.step s.tprev s.tnext s.y s.solverState s.madeJump).y‖ ≤ ‖ℓ s.y‖) ∧
    (cfg.rootFinder = none → ‖ℓ (solve cfg y0 tnext ctrl () mj).yfinal‖ ≤ ‖ℓ y0‖) := by
  have key : ∀ s ∈ history cfg y0 tnext ctrl () mj, accepted cfg s = true →
      ‖1 - ((s.tnext - s.tprev : ℝ) : ℂ) * lam‖ * ‖ℓ (solverOut cfg s).y‖ = ‖ℓ s.y‖ := by
    intro s hs hk
    have ho := hokay s hs hk
    have e : solverOut cfg s = (implicitEuler ℝ (odeTerm f) root interp).step s.tprev s.tnext s.y () s.madeJump := by
      unfold solverOut; rw [hsolver]
    have h1 := (C78_implicit_euler_step (odeTerm f) root hroot interp s.tprev s.tnext s.y s.madeJump _ e.symm).1 ho
    have h2 : (solverOut cfg s).y = s.y + (s.tnext - s.tprev) • f s.tnext (solverOut cfg s).y := h1
    have h3 := congrArg ℓ h2
    rw [map_add, map_smul, hm, Complex.real_smul] at h3
    rw [← norm_mul]
    congr 1
    rw [sub_mul, one_mul, mul_assoc, sub_eq_iff_eq_add]
    exact h3
  have hz : ∀ s ∈ history cfg y0 tnext ctrl () mj, (((s.tnext - s.tprev : ℝ) : ℂ) * lam).re ≤ 0 := by
    intro s hs
    rw [Complex.re_ofReal_mul]
    exact mul_nonpos_of_nonneg_of_nonpos (sub_nonneg.2 (hfor s hs)) hre
  have hone : ∀ z : ℂ, z.re ≤ 0 → 1 ≤ ‖1 - z‖ ∧ ‖z‖ ≤ ‖1 - z‖ := by
    intro z hz
    refine ⟨le_trans ?_ (Complex.re_le_norm _), ?_⟩
    · simp; linarith
    · rw [← sq_le_sq₀ (norm_nonneg _) (norm_nonneg _), ← Complex.normSq_eq_norm_sq, ← Complex.normSq_eq_norm_sq,
        Complex.normSq_apply, Complex.normSq_apply]
      simp
      nlinarith
  obtain ⟨h1, h2⟩ := history_bound cfg (fun y => ‖ℓ y‖) 1 zero_le_one y0 tnext ctrl () mj (fun s hs hk => by
    rw [one_mul, ← key s hs hk]
    exact le_mul_of_one_le_left (norm_nonneg _) (hone _ (hz s hs)).1)
  simp only [one_pow, one_mul] at h1 h2
  refine ⟨h1, fun s hs hk => ?_, fun hr => ?_⟩
  · rw [← key s hs hk]
    refine mul_le_mul_of_nonneg_right ?_ (norm_nonneg _)
    have := (hone _ (hz s hs)).2
    rwa [norm_mul, Complex.norm_real, Real.norm_eq_abs, abs_of_nonneg (sub_nonneg.2 (hfor s hs))] at this
  · rw [solve_yfinal, finalise_no_root cfg _ hr]
    exact h2

open scoped InnerProductSpace in
/-- **C103, `ImplicitEuler`**: B-stable. If the equation brings solutions closer to each other, so do steps of any length, at a
rate that is the better the longer the step. -/
theorem C103_implicitEuler_contractive [InnerProductSpace ℝ E] {f : ℝ → E → E} {μ : ℝ}
    (hμ : ∀ t x x', ⟪f t x - f t x', x - x'⟫_ℝ ≤ -μ * ‖x - x'‖ ^ 2) (root : (E → E) → E → E × Result)
    (hroot : ∀ rel guess, (root rel guess).2.isOkay = true → rel (root rel guess).1 = 0)
    (interp : LocalLin ℝ E) (t0 t1 : ℝ) (ht : t0 ≤ t1) (x x' : E) (mj mj' : Bool)
    (ho : ((implicitEuler ℝ (odeTerm f) root interp).step t0 t1 x () mj).result.isOkay = true)
    (ho' : ((implicitEuler ℝ (odeTerm f) root interp).step t0 t1 x' () mj').result.isOkay = true) :
    (1 + (t1 - t0) * μ) * ‖((implicitEuler ℝ (odeTerm f) root interp).step t0 t1 x () mj).y
      - ((implicitEuler ℝ (odeTerm f) root interp).step t0 t1 x' () mj').y‖ ≤ ‖x - x'‖ := by
  have h1 := (C78_implicit_euler_step (odeTerm f) root hroot interp t0 t1 x mj _ rfl).1 ho
  have h2 := (C78_implicit_euler_step (odeTerm f) root hroot interp t0 t1 x' mj' _ rfl).1 ho'
  set y := ((implicitEuler ℝ (odeTerm f) root interp).step t0 t1 x () mj).y
  set y' := ((implicitEuler ℝ (odeTerm f) root interp).step t0 t1 x' () mj').y
  have h1' : y = x + (t1 - t0) • f t1 y := h1
  have h2' : y' = x' + (t1 - t0) • f t1 y' := h2
  have e : x - x' = (y - y') - (t1 - t0) • (f t1 y - f t1 y') := by
    have a := eq_sub_of_add_eq h1'.symm
    have b := eq_sub_of_add_eq h2'.symm
    rw [a, b, smul_sub]; abel
  have h3 : ⟪x - x', y - y'⟫_ℝ ≤ ‖x - x'‖ * ‖y - y'‖ := real_inner_le_norm _ _
  rw [e, inner_sub_left, real_inner_self_eq_norm_sq, real_inner_smul_left, ← e] at h3
  have h4 := mul_le_mul_of_nonneg_left (hμ t1 y y') (sub_nonneg.2 ht)
  rcases (norm_nonneg (y - y')).eq_or_lt with h0 | h0
  · rw [← h0, mul_zero]; exact norm_nonneg _
  · refine le_of_mul_le_mul_right ?_ h0
    nlinarith

/-- **C103, `ImplicitEuler`**: solves of such equations never move away from an equilibrium. -/
theorem C103_implicitEuler_equilibrium [InnerProductSpace ℝ E] {f : ℝ → E → E}
    (hμ : ∀ t x x', inner ℝ (f t x - f t x') (x - x') ≤ 0) (xs : E) (hxs : ∀ t, f t xs = 0)
    (root : (E → E) → E → E × Result)
    (hroot : ∀ rel guess, (root rel guess).2.isOkay = true → rel (root rel guess).1 = 0)
    (interp : LocalLin ℝ E) {C O F : Type} [LinearOrder F] [Zero F] (cfg : Cfg ℝ E E (E × E) Unit C O F)
    (hsolver : cfg.solver.step = (implicitEuler ℝ (odeTerm f) root interp).step) (y0 : E) (tnext : ℝ) (ctrl : C) (mj : Bool)
    (hfor : ∀ s ∈ history cfg y0 tnext ctrl () mj, s.tprev ≤ s.tnext)
    (hokay : ∀ s ∈ history cfg y0 tnext ctrl () mj, accepted cfg s = true →
      (cfg.solver.step s.tprev s.tnext s.y s.solverState s.madeJump).result.isOkay = true) :
    (∀ s ∈ history cfg y0 tnext ctrl () mj, ‖s.y - xs‖ ≤ ‖y0 - xs‖) ∧
    (cfg.rootFinder = none → ‖(solve cfg y0 tnext ctrl () mj).yfinal - xs‖ ≤ ‖y0 - xs‖) := by
  obtain ⟨h1, h2⟩ := history_bound cfg (fun y => ‖y - xs‖) 1 zero_le_one y0 tnext ctrl () mj (fun s hs hk => by
    rw [one_mul]
    have ho := hokay s hs hk
    have e : solverOut cfg s = (implicitEuler ℝ (odeTerm f) root interp).step s.tprev s.tnext s.y () s.madeJump := by
      unfold solverOut; rw [hsolver]
    have h1 := (C78_implicit_euler_step (odeTerm f) root hroot interp s.tprev s.tnext s.y s.madeJump _ e.symm).1 ho
    have h2 : (solverOut cfg s).y = s.y + (s.tnext - s.tprev) • f s.tnext (solverOut cfg s).y := h1
    set y := (solverOut cfg s).y
    have e : s.y - xs = (y - xs) - (s.tnext - s.tprev) • (f s.tnext y - f s.tnext xs) := by
      rw [eq_sub_of_add_eq h2.symm, hxs, sub_zero]; abel
    have h3 : inner ℝ (s.y - xs) (y - xs) ≤ ‖s.y - xs‖ * ‖y - xs‖ := real_inner_le_norm _ _
    rw [e, inner_sub_left, real_inner_self_eq_norm_sq, real_inner_smul_left, ← e] at h3
    have h4 := mul_nonpos_of_nonneg_of_nonpos (sub_nonneg.2 (hfor s hs)) (hμ s.tnext y xs)
    rcases (norm_nonneg (y - xs)).eq_or_lt with h0 | h0
    · rw [← h0]; exact norm_nonneg _
    · refine le_of_mul_le_mul_right ?_ h0
      nlinarith)
  simp only [one_pow, one_mul] at h1 h2
  refine ⟨h1, fun hr => ?_⟩
  rw [solve_yfinal, finalise_no_root cfg _ hr]
  exact h2

end


/-! ### `y' = λ y` -/

/-- For `y' = λ y` with `λ ≤ 0` there is a root in every stage of every step, however long. -/
theorem decay_succeeds {tab : Fin 1 → Tableau ℚ} (hd : ∀ i, 0 ≤ (tab 0).diagAt i) (cj : CalcJac) (lam : ℝ) (hlam : lam ≤ 0)
    (t0 t1 : ℝ) (ht : t0 ≤ t1) (y0 : ℝ) (st : RK.State 1 ℝ) (mj : Bool) :
    ((odeRK tab ![fun _ x => lam * x] cj (idealRoot ℝ) (idealRoot ℝ) ()).step t0 t1 y0 st mj).result.isOkay = true := by
  have hne : ∀ i, 1 - ((tab 0).diagAt i : ℝ) * ((t1 - t0) * lam) ≠ 0 := by
    intro i
    have h1 : (0 : ℝ) ≤ (tab 0).diagAt i := by exact_mod_cast hd i
    have h2 := mul_nonpos_of_nonneg_of_nonpos h1 (mul_nonpos_of_nonneg_of_nonpos (sub_nonneg.2 ht) hlam)
    linarith
  apply RK.stages_okay
  · intro p i ti yp guess jac
    apply idealRoot_okay
    obtain rfl : p = 0 := Subsingleton.elim _ _
    have hw := hne i
    set w := 1 - ((tab 0).diagAt i : ℝ) * ((t1 - t0) * lam) with hwd
    refine ⟨lam * yp / w, ?_⟩
    show lam * yp / w - lam * (yp + (tab 0).diagAt i • ((t1 - t0) • (lam * yp / w))) = 0
    rw [qsmul_eq, smul_eq_mul, smul_eq_mul]
    calc _ = lam * yp / w * w - lam * yp := by rw [hwd]; ring
      _ = 0 := by rw [div_mul_cancel₀ _ hw, sub_self]
  · intro p i ti yp guess jac
    apply idealRoot_okay
    obtain rfl : p = 0 := Subsingleton.elim _ _
    have hw := hne i
    set w := 1 - ((tab 0).diagAt i : ℝ) * ((t1 - t0) * lam) with hwd
    refine ⟨(t1 - t0) * (lam * yp) / w, ?_⟩
    show (t1 - t0) * (lam * yp) / w - (t1 - t0) • (lam * (yp + (tab 0).diagAt i • ((t1 - t0) * (lam * yp) / w))) = 0
    rw [qsmul_eq, smul_eq_mul, smul_eq_mul]
    calc _ = (t1 - t0) * (lam * yp) / w * w - (t1 - t0) * (lam * yp) := by rw [hwd]; ring
      _ = 0 := by rw [div_mul_cancel₀ _ hw, sub_self]
  · show (RK.initStage _ _ _ _ _ _).result.isOkay = true
    unfold RK.initStage
    split <;> rfl

theorem decay_mode (lam : ℝ) : IsMode (![fun _ x => lam * x] : Fin 1 → ℝ → ℝ → ℝ) 0 Complex.ofRealLI.toLinearMap lam where
  rate t y := by simp
  others q hq := absurd (Subsingleton.elim q 0) hq

theorem one_log {E Er D S C : Type} [NormedAddCommGroup E] [NormedSpace ℝ E] (sv : Solver ℝ E Er D S) (k : Controller ℝ E Er C)
    (dflt : D) (y0 : E) (ctrl : C) (ss : S) :
    ∀ s ∈ history (unitCfg sv k dflt 1) y0 1 ctrl ss false, s.tprev = 0 ∧ s.tnext = 1 := by
  intro s hs
  have hs' : s ∈ attempts (unitCfg sv k dflt 1) 1 (initState (unitCfg sv k dflt 1) y0 1 ctrl ss false).core := hs
  simp only [attempts] at hs'
  split at hs'
  · rw [List.mem_singleton] at hs'
    subst hs'
    exact ⟨rfl, min_self _⟩
  · simp at hs'

/-- One step of `Kvaerno5` over `[0, 1]` for `y' = λ y`, `λ ≤ 0` as large as one likes. -/
example (lam : ℝ) (hlam : lam ≤ 0) (y0 : ℝ) (ctrl : ConstState ℝ) (interp) (dflt) :
    |(solve (unitCfg ⟨(odeRK ![Kvaerno5.tableau] ![fun _ x => lam * x] .never (idealRoot ℝ) (idealRoot ℝ) ()).step, interp⟩
      constantStepSize dflt 1) y0 1 ctrl
      (odeRK ![Kvaerno5.tableau] ![fun _ x => lam * x] .never (idealRoot ℝ) (idealRoot ℝ) ()).init false).yfinal| ≤ |y0| := by
  set cfg := unitCfg ⟨(odeRK ![Kvaerno5.tableau] ![fun _ x => lam * x] .never (idealRoot ℝ) (idealRoot ℝ) ()).step, interp⟩
      constantStepSize dflt 1 with hcfg
  have hlog := one_log (cfg.solver) constantStepSize dflt y0 ctrl
    (odeRK ![Kvaerno5.tableau] ![fun _ x => lam * x] .never (idealRoot ℝ) (idealRoot ℝ) ()).init
  have hd : ∀ i, 0 ≤ ((![Kvaerno5.tableau] : Fin 1 → Tableau ℚ) 0).diagAt i := by
    intro i
    by_cases hi : i < 8
    · revert i; decide +kernel
    · show 0 ≤ (Kvaerno5.tableau.aDiagonal.getD []).getD i 0
      rw [List.getD_eq_default]
      have : (Kvaerno5.tableau.aDiagonal.getD []).length ≤ 8 := by decide +kernel
      omega
  have := (C103_kvaerno.2.2 ℝ Unit ![fun _ x => lam * x] .never (idealRoot ℝ) (idealRoot ℝ) ()
    ⟨idealRoot_exact ℝ, idealRoot_exact ℝ⟩ Complex.ofRealLI.toLinearMap lam (decay_mode lam) (by simpa using hlam)
    (ConstState ℝ) ℝ ℝ cfg (unitCfg_WF _ _ _ _) rfl
    (fun a b y0 y1 e st => ⟨fun _ => rfl, fun h => by simp [hcfg, unitCfg, constantStepSize, constAdapt] at h⟩)
    y0 1 ctrl false
    (fun c hc => by
      rw [log_eq_history] at hc
      obtain ⟨s, hs, rfl⟩ := List.mem_map.1 hc
      show s.tprev ≤ s.tnext
      rw [(hlog s hs).1, (hlog s hs).2]; norm_num)
    (fun c hc _ => by
      rw [log_eq_history] at hc
      obtain ⟨s, hs, rfl⟩ := List.mem_map.1 hc
      exact decay_succeeds hd _ lam hlam _ _ (by
        show s.tprev ≤ s.tnext
        rw [(hlog s hs).1, (hlog s hs).2]; norm_num) _ _ _)).2 rfl
  simpa using this

/-- One step of `Heun` over `[0, 1]` for `y' = -10 y`. -/
example (y0 : ℝ) (ctrl : ConstState ℝ) (interp) (dflt) :
    let sol := solve (unitCfg ⟨(odeRK ![Heun.tableau] ![fun _ x => (-10 : ℝ) * x] .never (idealRoot ℝ) (idealRoot ℝ) ()).step,
      interp⟩ constantStepSize dflt 1) y0 1 ctrl
      (odeRK ![Heun.tableau] ![fun _ x => (-10 : ℝ) * x] .never (idealRoot ℝ) (idealRoot ℝ) ()).init false
    13 ^ sol.core.numAccepted * |y0| ≤ |sol.yfinal| := by
  set cfg := unitCfg ⟨(odeRK ![Heun.tableau] ![fun _ x => (-10 : ℝ) * x] .never (idealRoot ℝ) (idealRoot ℝ) ()).step,
      interp⟩ constantStepSize dflt 1 with hcfg
  have hexp : ∀ p, ((![Heun.tableau] : Fin 1 → Tableau ℚ) p).implicit = false := by decide +kernel
  have hlog := one_log (cfg.solver) constantStepSize dflt y0 ctrl
    (odeRK ![Heun.tableau] ![fun _ x => (-10 : ℝ) * x] .never (idealRoot ℝ) (idealRoot ℝ) ()).init
  have := (C103_explicit.1 ℝ Unit ![fun _ x => (-10 : ℝ) * x] .never (idealRoot ℝ) (idealRoot ℝ) ()
    ⟨idealRoot_exact ℝ, idealRoot_exact ℝ⟩ Complex.ofRealLI.toLinearMap (-10 : ℝ) (decay_mode (-10)) (by simp)
    (ConstState ℝ) ℝ ℝ cfg (unitCfg_WF _ _ _ _) rfl
    (fun a b y0 y1 e st => ⟨fun _ => rfl, fun h => by simp [hcfg, unitCfg, constantStepSize, constAdapt] at h⟩)
    y0 1 ctrl false
    (fun c hc => by
      rw [log_eq_history] at hc
      obtain ⟨s, hs, rfl⟩ := List.mem_map.1 hc
      show s.tprev ≤ s.tnext
      rw [(hlog s hs).1, (hlog s hs).2]; norm_num)
    (fun c hc _ => by
      show ((odeRK ![Heun.tableau] ![fun _ x => (-10 : ℝ) * x] .never (idealRoot ℝ) (idealRoot ℝ) ()).step _ _ _ _
        _).result.isOkay = true
      rw [C41_explicit_succeeds _ hexp]; rfl)
    (fun s hs _ => by rw [(hlog s hs).1, (hlog s hs).2]; norm_num)).2 rfl
  simpa using this

theorem decay_implicitEuler (interp : LocalLin ℝ ℝ) (lam : ℝ) (hlam : lam ≤ 0) (t0 t1 : ℝ) (ht : t0 ≤ t1) (x : ℝ) (mj : Bool) :
    ((implicitEuler ℝ (odeTerm fun _ x => lam * x) anyRoot interp).step t0 t1 x () mj).result.isOkay = true := by
  have hw : 1 - (t1 - t0) * lam ≠ 0 := by
    have := mul_nonpos_of_nonneg_of_nonpos (sub_nonneg.2 ht) hlam
    linarith
  set w := 1 - (t1 - t0) * lam with hwd
  show (anyRoot _ _).2.isOkay = true
  unfold anyRoot
  rw [dif_pos]
  · rfl
  · refine ⟨(t1 - t0) * (lam * x) / w, ?_⟩
    show (t1 - t0) • (lam * (x + (t1 - t0) * (lam * x) / w)) - (t1 - t0) * (lam * x) / w = 0
    rw [smul_eq_mul]
    calc _ = (t1 - t0) * (lam * x) - (t1 - t0) * (lam * x) / w * w := by rw [hwd]; ring
      _ = 0 := by rw [div_mul_cancel₀ _ hw, sub_self]

/-- One step of `ImplicitEuler` over `[0, 1]` for `y' = λ y`, `λ ≤ 0` as large as one likes: the result is at most
`y0 / (1 + |λ|)`, and does not move away from the equilibrium `0`. -/
example (lam : ℝ) (hlam : lam ≤ 0) (y0 : ℝ) (ctrl : ConstState ℝ) (interp : LocalLin ℝ ℝ) :
    |(solve (unitCfg (implicitEuler ℝ (odeTerm fun _ x => lam * x) anyRoot interp) constantStepSize (0, 0) 1) y0 1 ctrl ()
      false).yfinal| ≤ |y0| ∧
    (1 + (1 - 0) * -lam) * ‖((implicitEuler ℝ (odeTerm fun _ x => lam * x) anyRoot interp).step 0 1 y0 () false).y
      - ((implicitEuler ℝ (odeTerm fun _ x => lam * x) anyRoot interp).step 0 1 0 () false).y‖ ≤ ‖y0 - 0‖ ∧
    ‖(solve (unitCfg (implicitEuler ℝ (odeTerm fun _ x => lam * x) anyRoot interp) constantStepSize (0, 0) 1) y0 1 ctrl ()
      false).yfinal - 0‖ ≤ ‖y0 - 0‖ := by
  have hlog := one_log (implicitEuler ℝ (odeTerm fun _ x => lam * x) anyRoot interp) constantStepSize (0, 0) y0 ctrl ()
  have hf : ∀ s ∈ history (unitCfg (implicitEuler ℝ (odeTerm fun _ x => lam * x) anyRoot interp) constantStepSize (0, 0) 1) y0 1
      ctrl () false, s.tprev ≤ s.tnext := fun s hs => by rw [(hlog s hs).1, (hlog s hs).2]; norm_num
  refine ⟨?_, ?_, ?_⟩
  · have := (C103_implicitEuler (f := fun _ x => lam * x) (ℓ := Complex.ofRealLI.toLinearMap) (lam := lam) (fun t y => by simp)
      (by simpa using hlam) anyRoot anyRoot_exact interp
      (unitCfg (implicitEuler ℝ (odeTerm fun _ x => lam * x) anyRoot interp) constantStepSize (0, 0) 1) rfl y0 1 ctrl false hf
      (fun s hs _ => decay_implicitEuler interp lam hlam _ _ (hf s hs) _ _)).2.2 rfl
    simpa using this
  · refine C103_implicitEuler_contractive (f := fun _ x => lam * x) (μ := -lam) (fun t x x' => le_of_eq ?_) anyRoot anyRoot_exact
      interp 0 1 (by norm_num) y0 0 false false (decay_implicitEuler interp lam hlam _ _ (by norm_num) _ _)
      (decay_implicitEuler interp lam hlam _ _ (by norm_num) _ _)
    rw [Real.norm_eq_abs, sq_abs]
    simp
    ring
  · exact (C103_implicitEuler_equilibrium (f := fun _ x => lam * x) (fun t x x' => by
        have : inner ℝ (lam * x - lam * x') (x - x') = lam * (x - x') ^ 2 := by simp; ring
        rw [this]; exact mul_nonpos_of_nonpos_of_nonneg hlam (sq_nonneg _)) 0 (fun t => by simp) anyRoot anyRoot_exact interp
      (unitCfg (implicitEuler ℝ (odeTerm fun _ x => lam * x) anyRoot interp) constantStepSize (0, 0) 1) rfl y0 1 ctrl false hf
      (fun s hs _ => decay_implicitEuler interp lam hlam _ _ (hf s hs) _ _)).2 rfl

end Verif
