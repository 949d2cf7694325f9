import Verif.Spec.DenseConvergence
import Verif.Lemmas.DenseConvergence
import Verif.Props.Convergence
import Verif.Props.Save
import Verif.Props.Dense

/-!
# C76: the values returned by `SaveAt(ts=...)` and by dense output converge
-/

set_option linter.unusedSectionVars false
set_option maxRecDepth 100000

namespace Verif
open Finset Filter Topology Tab

section
variable {E Er D S C O F : Type} [NormedAddCommGroup E] [NormedSpace ℝ E] [LinearOrder F] [Zero F]

/-- The step that is responsible for the time `t` contains it. -/
theorem covering_contains (cfg : Cfg ℝ E Er D S C O F) (y0 : E) (tnext : ℝ) (ctrl : C) (ss : S) (mj : Bool)
    (hhist : ∀ s ∈ history cfg y0 tnext ctrl ss mj, (adaptOut cfg s).Exact s.tprev s.tnext ∧
      s.tprev ≤ s.tnext ∧ s.tnext ≤ cfg.t1) (t : ℝ) (ht : cfg.t0 ≤ t) (p : Piece ℝ E D)
    (hp : firstCovering (pieces cfg y0 tnext ctrl ss mj) t = some p) :
    p.t0 ≤ t ∧ t ≤ p.t1 ∧ p ∈ pieces cfg y0 tnext ctrl ss mj := by
  obtain ⟨-, p2⟩ := piecesFrom_sorted cfg cfg.maxSteps (initState cfg y0 tnext ctrl ss mj).core hhist
  have p3 := piecesFrom_chain cfg cfg.maxSteps (initState cfg y0 tnext ctrl ss mj).core
    (fun s hs => ⟨(hhist s hs).1.2, le_trans (hhist s hs).2.1 (hhist s hs).2.2⟩)
  rw [← pieces_eq] at p2 p3
  unfold firstCovering at hp
  obtain ⟨h1, i, hi, h2, h3⟩ := List.find?_eq_some_iff_getElem.1 hp
  have hmem := List.mem_of_find?_eq_some hp
  refine ⟨?_, of_decide_eq_true h1, hmem⟩
  have h4 := p3 i p (by rw [List.getElem?_eq_getElem hi, h2])
  cases i with
  | zero =>
    have : cfg.t0 = p.t0 := Option.some.inj h4
    rw [← this]; exact ht
  | succ j =>
    have hj : j < (pieces cfg y0 tnext ctrl ss mj).length := by omega
    rw [List.getElem?_cons_succ, List.getElem?_map, List.getElem?_eq_getElem hj] at h4
    have h5 : ((pieces cfg y0 tnext ctrl ss mj)[j]).reached = p.t0 := by simpa using h4
    rw [← h5, (p2 _ (List.getElem_mem hj)).2]
    have h6 := h3 j (by omega)
    simp only [Bool.not_eq_true', decide_eq_false_iff_not, not_le] at h6
    exact h6.le

/-- **C76, any one-step method.** -/
theorem saved_error (cfg : Cfg ℝ E Er D S C O F) (hwf : cfg.WF) (V : ℝ → E → S → Bool → Prop) (y : ℝ → E)
    (δ A B K A' B' K' : ℝ) (hA : 0 ≤ A) (hB : 0 ≤ B) (hK : 0 ≤ K) (hA' : 0 ≤ A') (hB' : 0 ≤ B') (hK' : 0 ≤ K')
    (N N' : ℕ) (hacc : cfg.solver.Accurate V y cfg.t0 cfg.t1 δ A B K N)
    (hden : cfg.solver.DenseAccurate V y cfg.t0 cfg.t1 δ A' B' K' N')
    (hctrl : cfg.controller.Exact) (y0 : E) (tnext : ℝ) (ctrl : C) (ss : S) (mj : Bool)
    (hV : V cfg.t0 y0 ss mj)
    (hfor : ∀ c ∈ callLog cfg y0 tnext ctrl ss mj, c.solverT0 ≤ c.solverT1)
    (hok : ∀ c ∈ callLog cfg y0 tnext ctrl ss mj, (c.answer cfg).keep = true →
      (cfg.solver.step c.solverT0 c.solverT1 c.solverY c.solverState c.solverMadeJump).result.isOkay = true)
    (η : ℝ) (hη0 : 0 ≤ η) (hηδ : η ≤ δ)
    (hη : ∀ c ∈ callLog cfg y0 tnext ctrl ss mj, (c.answer cfg).keep = true →
      c.solverT1 - c.solverT0 ≤ η) (t : ℝ) (ht : cfg.t0 ≤ t) (p : Piece ℝ E D)
    (hp : firstCovering (pieces cfg y0 tnext ctrl ss mj) t = some p) :
    ‖p.eval cfg.solver t - y t‖
      ≤ Real.exp ((K + K') * (cfg.t1 - cfg.t0))
          * (‖y0 - y cfg.t0‖ + (cfg.t1 - cfg.t0) * (A * η ^ N + B))
        + A' * η ^ (N' + 1) + B' * η := by
  obtain ⟨g1, -, -⟩ := global_error cfg hwf V y δ A B K hA hB hK N hacc hctrl y0 tnext ctrl ss mj hV hfor hok η
    hηδ hη
  rw [log_eq_history] at hfor hok hη g1
  have hhist : ∀ s ∈ history cfg y0 tnext ctrl ss mj, (adaptOut cfg s).Exact s.tprev s.tnext ∧
      s.tprev ≤ s.tnext ∧ s.tnext ≤ cfg.t1 := fun s hs =>
    ⟨hctrl _ _ _ _ _ _, hfor _ (List.mem_map_of_mem hs), (g1 _ (List.mem_map_of_mem hs)).1.1.2⟩
  obtain ⟨h1, h2, h3⟩ := covering_contains cfg y0 tnext ctrl ss mj hhist t ht p hp
  obtain ⟨s, hs, rfl⟩ := List.mem_map.1 h3
  obtain ⟨hs, hk⟩ := List.mem_filter.1 hs
  obtain ⟨⟨⟨b1, b2⟩, b3⟩, b4⟩ := g1 _ (List.mem_map_of_mem hs)
  have b5 : s.tprev ≤ s.tnext := hfor _ (List.mem_map_of_mem hs)
  have b6 : s.tnext - s.tprev ≤ η := hη _ (List.mem_map_of_mem hs) hk
  have b7 := hok _ (List.mem_map_of_mem hs) hk
  replace b1 : cfg.t0 ≤ s.tprev := b1
  replace b2 : s.tnext ≤ cfg.t1 := b2
  have main := hden s.tprev s.tnext s.y s.solverState s.madeJump b3 b1 b5 b2 (b6.trans hηδ) b7 t h1 h2
  refine le_trans main ?_
  have c1 := errorBound_mono A B K hA hB hK N η ‖y0 - y cfg.t0‖ cfg.t0 s.tprev cfg.t1 hη0 (norm_nonneg _)
    b1 (b5.trans b2)
  have c2 : ‖s.y - y s.tprev‖ ≤ _ := le_trans b4 c1
  set Γ := ‖y0 - y cfg.t0‖ + (cfg.t1 - cfg.t0) * (A * η ^ N + B) with hΓ
  have hh : 0 ≤ s.tnext - s.tprev := sub_nonneg.2 b5
  have c3 : 1 + K' * (s.tnext - s.tprev) ≤ Real.exp (K' * (cfg.t1 - cfg.t0)) := by
    have e1 := Real.add_one_le_exp (K' * (s.tnext - s.tprev))
    have e2 : Real.exp (K' * (s.tnext - s.tprev)) ≤ Real.exp (K' * (cfg.t1 - cfg.t0)) :=
      Real.exp_le_exp.2 (mul_le_mul_of_nonneg_left (by linarith) hK')
    linarith
  have c4 : (1 + K' * (s.tnext - s.tprev)) * ‖s.y - y s.tprev‖
      ≤ Real.exp ((K + K') * (cfg.t1 - cfg.t0)) * Γ := by
    calc _ ≤ Real.exp (K' * (cfg.t1 - cfg.t0)) * (Real.exp (K * (cfg.t1 - cfg.t0)) * Γ) :=
          mul_le_mul c3 c2 (norm_nonneg _) (Real.exp_pos _).le
      _ = _ := by rw [← mul_assoc, ← Real.exp_add]; congr 2; ring
  have c5 : A' * (s.tnext - s.tprev) ^ (N' + 1) ≤ A' * η ^ (N' + 1) :=
    mul_le_mul_of_nonneg_left (pow_le_pow_left₀ hh b6 _) hA'
  have c6 : B' * (s.tnext - s.tprev) ≤ B' * η := mul_le_mul_of_nonneg_left b6 hB'
  linarith

end

section
variable {m : ℕ} {tab : Fin m → Tableau ℚ} {s : ℕ} {c : ℕ → ℚ} {N M N' : ℕ} {ε δ' ε' : ℚ}

theorem ElemBound.mono {E : Type} [NormedAddCommGroup E] [NormedSpace ℝ E] {f : Fin m → ℝ → E → E} {y : ℝ → E}
    {a b D : ℝ} (h : ElemBound f y a b N D) (hN : N' ≤ N) : ElemBound f y a b N' D := by
  obtain ⟨G, hG⟩ := h
  refine ⟨G, fun t ht => ⟨(hG t ht).1, le_trans ?_ (hG t ht).2⟩⟩
  apply sum_le_sum_of_subset_of_nonneg
  · intro τ hτ
    exact PTree.mem_upTo τ N ((PTree.order_le_of_mem hτ).trans hN)
  · intro _ _ _; exact norm_nonneg _

theorem any_denseAccurate {E J : Type} [NormedAddCommGroup E] [NormedSpace ℝ E] [Module ℚ E] [CompleteSpace E]
    (hok : methodOK s c tab = true) {interp : InterpRule m} {rows : Tableau ℚ → List (List ℚ)} {d : ℕ}
    (hrows : HasRows tab interp s d rows) (hε' : 0 ≤ ε') (hden : DenseOrder tab interp N' ε')
    (f : Fin m → ℝ → E → E) (cj : CalcJac)
    (rF rK : RootFinder E J) (nj : J) (hroot : (odeRK tab f cj rF rK nj).RootExact)
    (L : ℝ) (hf : NiceODE f L)
    (y : ℝ → E) (hy : ∀ t, HasDerivAt y (∑ p, f p t (y t)) t) (a b D : ℝ) (hD : ElemBound f y a b N' D) :
    ∃ δ A, 0 < δ ∧ 0 ≤ A ∧ Solver.DenseAccurate
      { step := (odeRK tab f cj rF rK nj).step, interp := interp E }
      (odeRK tab f cj rF rK nj).ValidState y a b δ A (ε' * D) (4 * rowSum s d rows tab * (m * s) * |L|) N' := by
  obtain ⟨δ, A, hδ, hA, herr⟩ := dense_error tab f cj rF rK nj hok hroot hrows hε' hden hf.analytic
    (abs_nonneg L) (fun p t x x' => (hf.lipschitz p t x x').trans
      (mul_le_mul_of_nonneg_right (le_abs_self L) (norm_nonneg _))) y hy hD
  refine ⟨δ, A, hδ, hA, ?_⟩
  intro t t' x st mj hst hat htt htb hδt hokay τ hτ0 hτ1
  obtain ⟨h, rfl⟩ : ∃ h, t' = t + h := ⟨t' - t, by ring⟩
  have hh : 0 ≤ h := by linarith
  obtain ⟨θ, hθ, rfl⟩ : ∃ θ ∈ Set.Icc (0 : ℝ) 1, τ = t + θ * h := by
    rcases hh.eq_or_lt with rfl | hpos
    · exact ⟨0, ⟨le_refl _, zero_le_one⟩, by linarith⟩
    · refine ⟨(τ - t) / h, ⟨div_nonneg (by linarith) hh, ?_⟩, ?_⟩
      · rw [div_le_one hpos]; linarith
      · field_simp; ring
  rw [add_sub_cancel_left] at hδt ⊢
  refine (herr t ⟨hat, htt.trans htb⟩ h hh hδt θ hθ x st mj hst hokay).trans (le_of_eq ?_)
  ring

/-- **C76.** A Runge-Kutta solver of order `N` with interpolation of order `N'`. -/
theorem C76_converges (hord : StepOrder tab N ε M δ') (hok : methodOK s c tab = true) (hε : 0 ≤ ε)
    {interp : InterpRule m} {rows : Tableau ℚ → List (List ℚ)} {d : ℕ} (hrows : HasRows tab interp s d rows)
    (hden : DenseOrder tab interp N' ε') (hε' : 0 ≤ ε') (hN : N' ≤ N) :
    DenseConverges tab interp N N' ε ε' := by
  have hb0 := bSum_nonneg tab s
  have hr0 := rowSum_nonneg tab s d rows
  refine ⟨4 * bSum s tab * (m * s) + 4 * rowSum s d rows tab * (m * s), by positivity, ?_⟩
  intro E J _ _ _ _ f cj rF rK nj hroot L hf y hy a b D hD
  have hroot' : (odeRK tab f cj rF rK nj).RootExact := fun h =>
    hroot ((implicitPart_isSome tab f cj rF rK nj).1 h)
  obtain ⟨δ₁, A, hδ₁, hA, hacc⟩ := any_accurate hok hε hord f cj rF rK nj hroot' L hf y hy a b D hD
  obtain ⟨δ₂, A', hδ₂, hA', hdacc⟩ := any_denseAccurate hok hrows hε' hden f cj rF rK nj hroot' L hf y hy a b D
    (hD.mono hN)
  refine ⟨min δ₁ δ₂, max A A', lt_min hδ₁ hδ₂, hA.trans (le_max_left _ _), ?_⟩
  intro C O F _ _ cfg hwf ha hb hstep hinterp hctrl y0 tnext ctrl mj η hη0 hηδ hfor hall
  subst ha hb
  have hsolver : cfg.solver = { step := (odeRK tab f cj rF rK nj).step, interp := interp E } := by
    rw [← hstep, ← hinterp]
  have hD0 := elemBound_nonneg hwf.le hD
  have hacc' : cfg.solver.Accurate (odeRK tab f cj rF rK nj).ValidState y cfg.t0 cfg.t1 (min δ₁ δ₂) A (ε * D)
      (4 * bSum s tab * (m * s) * |L|) N := by
    rw [hsolver]
    exact ⟨(hacc _).valid, fun t t' x st mj h1 h2 h3 h4 h5 h6 =>
      (hacc _).error t t' x st mj h1 h2 h3 h4 (h5.trans (min_le_left _ _)) h6⟩
  have hdacc' : cfg.solver.DenseAccurate (odeRK tab f cj rF rK nj).ValidState y cfg.t0 cfg.t1 (min δ₁ δ₂) A'
      (ε' * D) (4 * rowSum s d rows tab * (m * s) * |L|) N' := by
    rw [hsolver]
    exact fun t t' x st mj h1 h2 h3 h4 h5 h6 =>
      hdacc t t' x st mj h1 h2 h3 h4 (h5.trans (min_le_right _ _)) h6
  have hεR : (0 : ℝ) ≤ ε := by exact_mod_cast hε
  have hεR' : (0 : ℝ) ≤ ε' := by exact_mod_cast hε'
  have main : ∀ t, cfg.t0 ≤ t → ∀ p,
      firstCovering (pieces cfg y0 tnext ctrl (odeRK tab f cj rF rK nj).init mj) t = some p →
      ‖p.eval cfg.solver t - y t‖ ≤ Real.exp ((4 * bSum s tab * (m * s) + 4 * rowSum s d rows tab * (m * s)) * |L|
          * (cfg.t1 - cfg.t0)) * (‖y0 - y cfg.t0‖ + (cfg.t1 - cfg.t0) * (max A A' * η ^ N + ε * D))
        + max A A' * η ^ (N' + 1) + ε' * D * η := by
    intro t ht p hp
    refine (saved_error cfg hwf _ y (min δ₁ δ₂) A (ε * D) _ A' (ε' * D) _ hA (by positivity) (by positivity) hA'
      (by positivity) (by positivity) N N' hacc' hdacc' hctrl y0 tnext ctrl _ mj
      (validState_init tab f cj rF rK nj _ _ _) hfor (fun c hc hk => (hall c hc hk).1) η hη0 hηδ
      (fun c hc hk => (hall c hc hk).2) t ht p hp).trans ?_
    have hle : 0 ≤ cfg.t1 - cfg.t0 := sub_nonneg.2 hwf.le
    rw [add_mul (4 * bSum s tab * (m * s)) (4 * rowSum s d rows tab * (m * s)) |L|]
    gcongr
    · exact le_max_left _ _
    · exact le_max_right _ _
  refine ⟨?_, ?_⟩
  · intro ts fn hne hsort hrange hsubs hab hrf hst hsucc
    obtain ⟨cover, h1, h2⟩ := C07_saveat_ts cfg hwf hrf hst hab ts fn hne hsubs hsort
      (fun t ht => (hrange t ht).2) y0 tnext ctrl _ mj (fun c _ => hctrl _ _ _ _ _ _) hsucc
    exact ⟨fun t => (cover t).eval cfg.solver t, h2, fun t ht => main t (hrange t ht).1 _ (h1 t ht)⟩
  · intro hd hpos t ht0 ht1
    have hhist : ∀ s ∈ history cfg y0 tnext ctrl (odeRK tab f cj rF rK nj).init mj,
        (adaptOut cfg s).Exact s.tprev s.tnext ∧ s.tprev ≤ s.tnext ∧ s.tnext ≤ cfg.t1 := by
      intro s hs
      refine ⟨hctrl _ _ _ _ _ _, ?_, (history_le cfg hwf y0 tnext ctrl _ mj s hs).2⟩
      rw [log_eq_history] at hfor
      exact hfor _ (List.mem_map_of_mem hs)
    obtain ⟨p, hp, hv⟩ := (dense_value cfg hd y0 tnext ctrl _ mj hhist hpos t).1 ht0 ht1
    exact ⟨_, hv, main t ht0 p hp⟩

end

/-! ### The solvers -/

/-- **C76.** `Heun`, `Midpoint` and `Ralston`: all values converge with order 2. -/
theorem C76_order2 : DenseConverges ![Heun.tableau] (fun _ _ _ => hermiteInterp 2) 2 2 0 0 ∧
    DenseConverges ![Midpoint.tableau] (fun _ _ _ => hermiteInterp 2) 2 1 0 0 ∧
    DenseConverges ![Ralston.tableau] (fun _ _ _ => hermiteInterp 2) 2 1 0 0 :=
  ⟨C76_converges (s := 2) (c := Heun.tableau.abscissa) C61_heun (by decide +kernel) (le_refl _)
    (hermite_hasRows _ 2 (by norm_num)) C75_heun (le_refl _) (by norm_num),
   C76_converges (s := 2) (c := Midpoint.tableau.abscissa) C61_midpoint (by decide +kernel) (le_refl _)
    (hermite_hasRows _ 2 (by norm_num)) C75_midpoint (le_refl _) (by norm_num),
   C76_converges (s := 2) (c := Ralston.tableau.abscissa) C61_ralston (by decide +kernel) (le_refl _)
    (hermite_hasRows _ 2 (by norm_num)) C75_ralston (le_refl _) (by norm_num)⟩

/-- **C76.** `Bosh3`: all values converge with order 3. -/
theorem C76_bosh3 : DenseConverges ![Bosh3.tableau] (fun _ _ _ => hermiteInterp 4) 3 3 0 0 :=
  C76_converges (s := 4) (c := Bosh3.tableau.abscissa) C61_bosh3 (by decide +kernel) (le_refl _)
    (hermite_hasRows _ 4 (by norm_num)) C75_bosh3 (le_refl _) (by norm_num)

/-- **C76.** `Dopri5`: all values converge with order 5. -/
theorem C76_dopri5 : DenseConverges ![Dopri5.tableau] (fun _ _ _ => dopri5Interp) 5 4 0 0 :=
  C76_converges (s := 7) (c := Dopri5.tableau.abscissa) C61_dopri5 (by decide +kernel) (le_refl _)
    (dopri5_hasRows _) C75_dopri5 (le_refl _) (by norm_num)

/-- **C76.** `Tsit5`: all values converge with order 5. -/
theorem C76_tsit5 :
    DenseConverges ![Tsit5.tableau] (fun _ _ _ => tsit5Interp) 5 4 (1 / 10 ^ 82) (4 * (1 / 10 ^ 16)) :=
  C76_converges (s := 7) (c := Tsit5.tableau.abscissa) C61_tsit5 (by decide +kernel) (by norm_num)
    (tsit5_hasRows _) C75_tsit5 (by norm_num) (by norm_num)

/-- **C76.** `Kvaerno3`, `Kvaerno4` and `Kvaerno5`: all values converge with orders 3, 4 and 4. -/
theorem C76_kvaerno : DenseConverges ![Kvaerno3.tableau] (fun _ _ _ => hermiteInterp 4) 3 3 0 0 ∧
    DenseConverges ![Kvaerno4.tableau] (fun _ _ _ => hermiteInterp 5) 4 3 0 0 ∧
    DenseConverges ![Kvaerno5.tableau] (fun _ _ _ => hermiteInterp 7) 5 3 (1 / 10 ^ 16) (3 * (1 / 10 ^ 16)) :=
  ⟨C76_converges (s := 4) (c := Kvaerno3.tableau.abscissa) C61_kvaerno3 (by decide +kernel) (le_refl _)
    (hermite_hasRows _ 4 (by norm_num)) C75_kvaerno3 (le_refl _) (by norm_num),
   C76_converges (s := 5) (c := Kvaerno4.tableau.abscissa) C61_kvaerno4 (by decide +kernel) (le_refl _)
    (hermite_hasRows _ 5 (by norm_num)) C75_kvaerno4 (le_refl _) (by norm_num),
   C76_converges (s := 7) (c := Kvaerno5.tableau.abscissa) C61_kvaerno5 (by decide +kernel) (by norm_num)
    (hermite_hasRows _ 7 (by norm_num)) C75_kvaerno5 (by norm_num) (by norm_num)⟩

/-- **C76.** `KenCarp3`, `KenCarp4`, `KenCarp5` and `Sil3`: all values converge with orders 3, 4, 4 and 2. -/
theorem C76_imex :
    DenseConverges ![KenCarp3.explicit, KenCarp3.implicit] (fun _ _ _ => kencarpInterp kencarp3Coeffs) 3 2
      (1 / 10 ^ 25) (2 * (1 / 10 ^ 19)) ∧
    DenseConverges ![KenCarp4.explicit, KenCarp4.implicit] (fun _ _ _ => kencarpInterp kencarp4Coeffs) 4 3
      (1 / 10 ^ 25) (3 * (1 / 10 ^ 19)) ∧
    DenseConverges ![KenCarp5.explicit, KenCarp5.implicit] (fun _ _ _ => kencarpInterp kencarp5Coeffs) 5 3
      (4 / 10 ^ 12) (3 * (1 / 10 ^ 10)) ∧
    DenseConverges ![Sil3.explicit, Sil3.implicit] (fun _ _ _ => sil3Interp) 2 2 0 0 :=
  ⟨C76_converges (s := 4) (c := KenCarp3.explicit.abscissa) C61_kencarp3 (by decide +kernel) (by norm_num)
    (kencarp_hasRows _ _ 4 2 rfl (by decide)) C75_kencarp3 (by norm_num) (by norm_num),
   C76_converges (s := 6) (c := KenCarp4.explicit.abscissa) C61_kencarp4 (by decide +kernel) (by norm_num)
    (kencarp_hasRows _ _ 6 3 rfl (by decide)) C75_kencarp4 (by norm_num) (by norm_num),
   C76_converges (s := 8) (c := KenCarp5.explicit.abscissa) C61_kencarp5 (by decide +kernel) (by norm_num)
    (kencarp_hasRows _ _ 8 3 rfl (by decide)) C75_kencarp5 (by norm_num) (by norm_num),
   C76_converges (s := 4) (c := Sil3.explicit.abscissa) C61_sil3 (by decide +kernel) (le_refl _)
    (sil3_hasRows _) C75_sil3 (le_refl _) (by norm_num)⟩

/-- **C76, partial.** `Dopri8`: all values converge with order 6. Missing: order 8, which is what the states of
the solve have; see `C76_dopri8_not_8th`. -/
theorem C76_dopri8_partial :
    DenseConverges ![Dopri8.tableau] (fun _ _ _ => dopri8Interp) 8 5 (1 / 10 ^ 16) (6 * (1 / 10 ^ 14)) :=
  C76_converges (s := 14) (c := Dopri8.tableau.abscissa) C61_dopri8 (by decide +kernel) (by norm_num)
    (dopri8_hasRows _) C75_dopri8_partial (by norm_num) (by norm_num)

/-! ### Constant steps -/

section
variable {m : ℕ} {E J : Type} [NormedAddCommGroup E] [NormedSpace ℝ E] [Module ℚ E] {tab : Fin m → Tableau ℚ}
  {N N' : ℕ}

/-- **C76, constant steps.** With `ConstantStepSize`, an explicit method and `SaveAt(ts=ts)`, started on the
solution: the solve succeeds, and the error of each of the values saved is at most a constant times `dt0^k`, where
`k` is the smaller one of `N` and `N' + 1`. -/
theorem C76_constant [CompleteSpace E] {interp : InterpRule m} (hconv : DenseConverges tab interp N N' 0 0)
    (hex : ∀ p, (tab p).implicit = false)
    (f : Fin m → ℝ → E → E) (cj : CalcJac) (rF rK : RootFinder E J) (nj : J)
    (L : ℝ) (hf : NiceODE f L) (y : ℝ → E) (hy : ∀ t, HasDerivAt y (∑ p, f p t (y t)) t) (a b : ℝ) :
    ∃ δ B : ℝ, 0 < δ ∧ ∀ (O F : Type) [LinearOrder F] [Zero F]
      (cfg : Cfg ℝ E (Option E) (RK.Dense m E) (RK.State m E) (ConstState ℝ) O F) (_ : cfg.WF)
      (_ : cfg.t0 = a) (_ : cfg.t1 = b) (_ : a < b)
      (_ : cfg.solver.step = (odeRK tab f cj rF rK nj).step) (_ : cfg.solver.interp = interp E)
      (_ : cfg.controller = constantStepSize) (_ : cfg.events = []) (_ : cfg.rootFinder = none)
      (dt0 : ℝ) (_ : 0 < dt0) (_ : dt0 ≤ δ) (tnext : ℝ) (ctrl : ConstState ℝ) (mj : Bool)
      (_ : constInit id a (some b) (some dt0) = some (tnext, ctrl))
      (_ : b - (b - a) / (⌈(b - a) / dt0⌉ : Int) ≤ cfg.floor)
      (_ : ⌈(b - a) / dt0⌉ ≤ cfg.maxSteps)
      (ts : List ℝ) (fn : ℝ → E → O) (_ : ts ≠ []) (_ : ts.Pairwise (· ≤ ·)) (_ : ∀ t ∈ ts, a ≤ t ∧ t ≤ b)
      (_ : cfg.subs = [{ t0 := false, t1 := false, ts := ts, steps := 0, fn := fn }]),
      (solve cfg (y a) tnext ctrl (odeRK tab f cj rF rK nj).init mj).result = .successful ∧
      ∃ v : ℝ → E,
        (solve cfg (y a) tnext ctrl (odeRK tab f cj rF rK nj).init mj).saves.map (·.buf)
          = [ts.map fun t => .val t (fn t (v t))] ∧
        ∀ t ∈ ts, ‖v t - y t‖ ≤ B * dt0 ^ min N (N' + 1) := by
  obtain ⟨κ, -, hconv⟩ := hconv
  obtain ⟨D, -, hD⟩ := elemBound_exists f y
    (continuous_iff_continuousAt.2 fun t => (hy t).continuousAt) hf.analytic a b N
  obtain ⟨δ, B, hδ, hB, hall⟩ := hconv E J f cj rF rK nj
    (fun ⟨p, hp⟩ => by rw [hex p] at hp; simp at hp) L hf y hy a b D hD
  refine ⟨min δ 1, Real.exp (κ * |L| * (b - a)) * ((b - a) * B) + B, lt_min hδ one_pos, ?_⟩
  intro O F _ _ cfg hwf ha hb hab hstep hinterp hctrl hev hroot dt0 hdt hdδ tnext ctrl mj hinit hfl hmax
    ts fn hne hsort hrange hsubs
  subst ha hb
  obtain ⟨n, p, hn, hlog, hp0, hpn, hlt, hle, -, -, -, htf, hres, -, -, -⟩ :=
    C22_constant_steps cfg id dt0 (y cfg.t0) (odeRK tab f cj rF rK nj).init mj tnext ctrl hinit hab hdt
      (le_refl _) (fun h => h) hctrl hev
      (fun a b y s j => by rw [hstep, C41_explicit_succeeds _ hex]) hwf.floor_le hfl hmax
  have hmem : ∀ c ∈ callLog cfg (y cfg.t0) tnext ctrl (odeRK tab f cj rF rK nj).init mj,
      ∃ k < n, c.solverT0 = p k ∧ c.solverT1 = p (k + 1) := by
    intro c hc
    have h1 : (c.solverT0, c.solverT1) ∈ (List.range n).map (fun j => (p j, p (j + 1))) := by
      rw [← hlog]; exact List.mem_map_of_mem hc
    obtain ⟨k, hk, he⟩ := List.mem_map.1 h1
    have he' := Prod.mk.inj he
    exact ⟨k, List.mem_range.1 hk, he'.1.symm, he'.2.symm⟩
  have hexact : cfg.controller.Exact := by
    rw [hctrl]
    intro a b y0 y1 e st
    exact ⟨fun _ => rfl, fun h => by simp [constantStepSize, constAdapt] at h⟩
  refine ⟨hres, ?_⟩
  obtain ⟨v, hv1, hv2⟩ := (hall _ O F cfg hwf rfl rfl hstep hinterp hexact (y cfg.t0) tnext ctrl mj dt0 hdt.le
    (hdδ.trans (min_le_left _ _))
    (fun c hc => by
      obtain ⟨k, hk, e1, e2⟩ := hmem c hc
      rw [e1, e2]; exact (hlt k hk).le)
    (fun c hc _ => by
      refine ⟨by rw [hstep, C41_explicit_succeeds _ hex]; rfl, ?_⟩
      obtain ⟨k, hk, e1, e2⟩ := hmem c hc
      rw [e1, e2]
      have := hle k hk
      simpa using this)).1 ts fn hne hsort hrange hsubs hab hroot (by rw [hctrl]; rfl) hres
  refine ⟨v, hv1, fun t ht => (hv2 t ht).trans ?_⟩
  have h1 : dt0 ≤ 1 := hdδ.trans (min_le_right _ _)
  have h2 : dt0 ^ N ≤ dt0 ^ min N (N' + 1) := pow_le_pow_of_le_one hdt.le h1 (min_le_left _ _)
  have h3 : dt0 ^ (N' + 1) ≤ dt0 ^ min N (N' + 1) := pow_le_pow_of_le_one hdt.le h1 (min_le_right _ _)
  have hba : 0 ≤ cfg.t1 - cfg.t0 := sub_nonneg.2 hwf.le
  rw [sub_self, norm_zero, Rat.cast_zero]
  calc _ = Real.exp (κ * |L| * (cfg.t1 - cfg.t0)) * ((cfg.t1 - cfg.t0) * B) * dt0 ^ N + B * dt0 ^ (N' + 1) := by
        ring
    _ ≤ Real.exp (κ * |L| * (cfg.t1 - cfg.t0)) * ((cfg.t1 - cfg.t0) * B) * dt0 ^ min N (N' + 1)
        + B * dt0 ^ min N (N' + 1) := by gcongr
    _ = _ := by ring

end

/-- `n` steps of `Dopri5` for `y' = y` on `[0, 1]`, with three values saved. -/
noncomputable def expTsCfg (n : ℕ) :
    Cfg ℝ ℝ (Option ℝ) (RK.Dense 1 ℝ) (RK.State 1 ℝ) (ConstState ℝ) ℝ ℝ :=
  { expCfg ![Dopri5.tableau] n with
    solver := { step := (odeRK ![Dopri5.tableau] ![fun _ y => y] .never (idealRoot ℝ) (idealRoot ℝ) ()).step,
                interp := dopri5Interp }
    subs := [{ t0 := false, t1 := false, ts := [1 / 3, 2 / 3, 1], steps := 0, fn := fun _ y => y }] }

theorem expTsCfg_WF (n : ℕ) : (expTsCfg n).WF where
  le := by norm_num [expTsCfg, expCfg]
  floor_le := by norm_num [expTsCfg, expCfg]
  le_mid := by intro a h; simp only [expTsCfg, expCfg] at *; linarith
  mid_le := by intro a h; simp only [expTsCfg, expCfg] at *; linarith

/-- With `n` steps of `Dopri5`, the values of `e^t` at `1/3`, `2/3` and `1` come out with errors of at most a
constant over `n^5`. -/
example : ∃ B : ℝ, ∃ n₀ : ℕ, ∀ n : ℕ, n₀ ≤ n → ∃ tnext ctrl,
    constInit id (0 : ℝ) (some 1) (some (1 / n)) = some (tnext, ctrl) ∧
    ∃ v : ℝ → ℝ, (solve (expTsCfg n) (Real.exp 0) tnext ctrl
      (odeRK ![Dopri5.tableau] ![fun _ y => y] .never (idealRoot ℝ) (idealRoot ℝ) ()).init false).saves.map (·.buf)
        = [[.val (1 / 3) (v (1 / 3)), .val (2 / 3) (v (2 / 3)), .val 1 (v 1)]] ∧
      ∀ t ∈ [(1 / 3 : ℝ), 2 / 3, 1], ‖v t - Real.exp t‖ ≤ B * (1 / n) ^ 5 := by
  obtain ⟨δ, B, hδ, hB⟩ := C76_constant C76_dopri5
    (by decide +kernel) ![fun _ y => y] .never (idealRoot ℝ) (idealRoot ℝ) () 1 linear_nice Real.exp
    exp_solves_everywhere 0 1
  obtain ⟨n₀, hn₀⟩ := exists_nat_gt (1 / δ)
  refine ⟨B, n₀, fun n hnn => ?_⟩
  have hn1 : 1 / δ < n := hn₀.trans_le (by exact_mod_cast hnn)
  have hn' : (0 : ℝ) < n := lt_trans (by positivity) hn1
  have hc : ⌈((1 : ℝ) - 0) / (1 / n)⌉ = (n : ℤ) := by
    have : ((1 : ℝ) - 0) / (1 / n) = n := by field_simp; ring
    rw [this]; exact Int.ceil_natCast n
  refine ⟨_, _, rfl, ?_⟩
  obtain ⟨-, v, h1, h2⟩ := hB ℝ ℝ (expTsCfg n) (expTsCfg_WF n) rfl rfl (by norm_num) rfl rfl rfl rfl rfl (1 / n)
    (by positivity) (by rw [div_le_iff₀ hn']; rw [div_lt_iff₀ hδ] at hn1; linarith) _ _ false rfl (by
      rw [hc]
      have : (0 : ℝ) ≤ (1 - 0) / ((n : ℤ) : ℝ) := by rw [Int.cast_natCast, sub_zero]; positivity
      show (1 : ℝ) - _ ≤ 1
      linarith) (by rw [hc]; exact le_refl _) [1 / 3, 2 / 3, 1] (fun _ y => y) (by simp) (by norm_num)
    (by norm_num) rfl
  exact ⟨v, h1, h2⟩

/-! ### `Dopri8` -/

section
variable {T Y Er D S C O F : Type} [LinearOrder T] [LinearOrder F] [Zero F]

/-- If the first step is accepted, it is responsible for all times up to its end. -/
theorem first_step_covers (cfg : Cfg T Y Er D S C O F) (y0 : Y) (tnext : T) (ctrl : C) (ss : S) (mj : Bool)
    (hmax : 0 < cfg.maxSteps) (hlt : cfg.t0 < cfg.t1) (hst : cfg.controller.stepTo = none) (hev : cfg.events = [])
    (hacc : accepted cfg (initState cfg y0 tnext ctrl ss mj).core = true) (t : T) (ht : t ≤ min tnext cfg.t1) :
    firstCovering (pieces cfg y0 tnext ctrl ss mj) t
      = some (piece cfg (initState cfg y0 tnext ctrl ss mj).core) := by
  have hc : condFun cfg (initState cfg y0 tnext ctrl ss mj).core = true := by
    simp [condFun, hst, initState, hev, firstTrue, Result.where', Result.isSuccessful, hlt]
  obtain ⟨k, hk⟩ : ∃ k, cfg.maxSteps = k + 1 := ⟨cfg.maxSteps - 1, by omega⟩
  have : pieces cfg y0 tnext ctrl ss mj = piece cfg (initState cfg y0 tnext ctrl ss mj).core
      :: piecesFrom cfg k (coreBody cfg (initState cfg y0 tnext ctrl ss mj).core).1 := by
    simp [pieces, piecesFrom, history, hk, attempts, hc, hacc]
  rw [this, firstCovering, List.find?_cons_of_pos]
  exact decide_eq_true ht

end

/-- `n` steps of `Dopri8` for `y' = t^5` on `[0, 1]`, with the value in the middle of the first step saved. -/
noncomputable def powCfg (n : ℕ) :
    Cfg ℝ ℝ (Option ℝ) (RK.Dense 1 ℝ) (RK.State 1 ℝ) (ConstState ℝ) ℝ ℝ where
  solver := { step := (odeRK ![Dopri8.tableau] (powerField 1 5) .never (idealRoot ℝ) (idealRoot ℝ) ()).step,
              interp := dopri8Interp }
  controller := constantStepSize
  cleanErr := id
  events := []
  rootFinder := none
  dist := fun a b => a - b
  dummyDense := ((odeRK ![Dopri8.tableau] (powerField 1 5) .never (idealRoot ℝ) (idealRoot ℝ) ()).step 0 0 0
    (odeRK ![Dopri8.tableau] (powerField 1 5) .never (idealRoot ℝ) (idealRoot ℝ) ()).init false).dense
  t0 := 0
  t1 := 1
  floor := 1
  mid := fun a b => (a + b) / 2
  subs := [{ t0 := false, t1 := false, ts := [1 / n / 2], steps := 0, fn := fun _ y => y }]
  dense := false
  maxSteps := n

theorem powCfg_WF (n : ℕ) : (powCfg n).WF where
  le := by norm_num [powCfg]
  floor_le := by norm_num [powCfg]
  le_mid := by intro a h; simp only [powCfg] at *; linarith
  mid_le := by intro a h; simp only [powCfg] at *; linarith

/-- **C76, negation for `Dopri8`.** For `y' = t^5`, `y(0) = 0`, solved with `n` equal steps on `[0, 1]`, the error
of the value saved in the middle of the first step is at least `4/10^6 * (1/n)^6`, for every `n`. So these values do
not converge with the order 8 of the solver. -/
theorem C76_dopri8_not_8th (n : ℕ) (hn : 0 < n) : ∃ tnext ctrl v,
    constInit id (0 : ℝ) (some 1) (some (1 / n)) = some (tnext, ctrl) ∧
    (solve (powCfg n) 0 tnext ctrl (odeRK ![Dopri8.tableau] (powerField 1 5) .never (idealRoot ℝ) (idealRoot ℝ)
      ()).init false).result = .successful ∧
    (solve (powCfg n) 0 tnext ctrl (odeRK ![Dopri8.tableau] (powerField 1 5) .never (idealRoot ℝ) (idealRoot ℝ)
      ()).init false).saves.map (·.buf) = [[.val (1 / n / 2 : ℝ) v]] ∧
    4 / 10 ^ 6 * (1 / n) ^ 6 ≤ ‖v - (1 / n / 2 : ℝ) ^ 6 / 6‖ := by
  obtain ⟨κ, hκ, hex⟩ := C75_dopri8_sharp
  have hn' : (0 : ℝ) < n := by exact_mod_cast hn
  have hd : (0 : ℝ) < 1 / n := by positivity
  have hd1 : (1 : ℝ) / n ≤ 1 := by
    rw [div_le_one hn']; exact_mod_cast hn
  have hno : ∀ p, ((![Dopri8.tableau] : Fin 1 → Tableau ℚ) p).implicit = false := by decide +kernel
  have hc : ⌈((1 : ℝ) - 0) / (1 / n)⌉ = (n : ℤ) := by
    have : ((1 : ℝ) - 0) / (1 / n) = n := by field_simp; ring
    rw [this]; exact Int.ceil_natCast n
  set rk := odeRK ![Dopri8.tableau] (powerField 1 5) .never (idealRoot ℝ) (idealRoot ℝ) () with hrk
  have hokay : ∀ a b y s j, (rk.step a b y s j).result = .successful := fun a b y s j => by
    rw [hrk, C41_explicit_succeeds _ hno]
  refine ⟨0 + 1 / n, _, dopri8Interp (0 : ℝ) (1 / n) (rk.step 0 (1 / n) 0 rk.init false).dense (1 / n / 2), rfl, ?_⟩
  obtain ⟨k, p, hk, hlog, hp0, hpn, hlt, hle, -, -, -, htf, hres, -, -, -⟩ :=
    C22_constant_steps (powCfg n) id (1 / n) 0 rk.init false (0 + 1 / n) _ rfl (by norm_num [powCfg]) hd
      (le_refl _) (fun h => h) rfl rfl hokay (powCfg_WF n).floor_le (by
        show (1 : ℝ) - (1 - 0) / ((⌈((1 : ℝ) - 0) / (1 / n)⌉ : ℤ) : ℝ) ≤ 1
        rw [hc]
        have : (0 : ℝ) ≤ (1 - 0) / ((n : ℤ) : ℝ) := by rw [Int.cast_natCast, sub_zero]; positivity
        linarith) (by
        show ⌈((1 : ℝ) - 0) / (1 / n)⌉ ≤ (n : ℤ)
        rw [hc])
  refine ⟨hres, ?_, ?_⟩
  · obtain ⟨cover, h1, h2⟩ := C07_saveat_ts (powCfg n) (powCfg_WF n) rfl rfl (by norm_num [powCfg])
      [1 / n / 2] (fun _ y => y) (by simp) rfl (by simp) (by
        intro t ht
        rw [List.mem_singleton] at ht
        subst ht
        show (1 : ℝ) / n / 2 ≤ 1
        linarith) 0 (0 + 1 / n) _ rk.init false (fun c _ => ⟨fun _ => rfl, fun h => by
          simp [CallLog.answer, powCfg, constantStepSize, constAdapt] at h⟩) hres
    have h3 := fun ctrl => first_step_covers (powCfg n) 0 (0 + 1 / n) ctrl rk.init false hn (by norm_num [powCfg]) rfl rfl rfl
      (1 / n / 2) (le_min (by linarith) (by show (1 : ℝ) / n / 2 ≤ 1; linarith))
    refine h2.trans ?_
    have h4 := (h1 (1 / n / 2) (by simp)).symm.trans (h3 _)
    rw [Option.some.injEq] at h4
    rw [List.map_singleton, h4]
    have h5 : min (0 + 1 / (n : ℝ)) 1 = 1 / n := by rw [zero_add]; exact min_eq_left hd1
    show [[Slot.val (1 / (n : ℝ) / 2) (dopri8Interp 0 (min (0 + 1 / (n : ℝ)) 1)
      (rk.step 0 (min (0 + 1 / (n : ℝ)) 1) 0 rk.init false).dense (1 / n / 2))]] = _
    rw [h5]
  · have h6 := hex Unit .never (idealRoot ℝ) (idealRoot ℝ) () (fun ⟨p, hp⟩ => by rw [hno p] at hp; simp at hp)
      (1 / n) hd.ne' rk.init false (validState_init _ _ _ _ _ _ _ _ _) (by rw [← hrk, hokay]; rfl)
    norm_num only [Nat.cast_ofNat] at h6
    rw [show ((1 : ℝ) / n / 2) ^ 6 / 6 = ((1 : ℝ) / n / 2) ^ 6 / 6 from rfl, h6, norm_mul, norm_pow,
      Real.norm_eq_abs, Real.norm_eq_abs, abs_of_pos hd]
    have h7 : (4 / 10 ^ 6 : ℝ) ≤ |(κ : ℝ)| := by
      have : ((4 / 10 ^ 6 : ℚ) : ℝ) ≤ ((|κ| : ℚ) : ℝ) := Rat.cast_le.2 hκ
      push_cast at this
      exact this
    exact mul_le_mul_of_nonneg_right h7 (by positivity)

end Verif
