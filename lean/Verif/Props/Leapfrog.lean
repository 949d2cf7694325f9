import Verif.Props.ReversibleHeun

/-!
# C78: LeapfrogMidpoint

The documentation says second order. That is so if the steps have (nearly) the same length; in general the order
is 1 only.
-/

set_option linter.unusedSectionVars false

namespace Verif
open Set

section
variable {E : Type} [NormedAddCommGroup E] [NormedSpace ℝ E] {f : ℝ → E → E} {y G : ℝ → E} {a b L M M₂ M₃ : ℝ}

/-- The error of the method through a potential `P t s`, where `t` is the current and `s` the previous time, that
bounds the sum of the local errors. `Q` is what is known about the times. -/
theorem leapfrog_potential (hL : 0 ≤ L) (hlip : ∀ t x x', ‖f t x - f t x'‖ ≤ L * ‖x - x'‖)
    (interp : LocalLin ℝ E) {C O F : Type} [LinearOrder F] [Zero F] (cfg : Cfg ℝ E Unit (E × E) (ℝ × E) C O F)
    (hwf : cfg.WF) (hsv : cfg.solver.step = (leapfrog (odeTerm f) interp).step) (hctrl : cfg.controller.Exact)
    (y0 : E) (tnext : ℝ) (ctrl : C) (mj : Bool)
    (hfor : ∀ c ∈ callLog cfg y0 tnext ctrl (leapfrogInit cfg.t0 y0) mj, c.solverT0 ≤ c.solverT1)
    (Q : ℝ → ℝ → Prop) (P : ℝ → ℝ → ℝ) (hQ0 : Q cfg.t0 cfg.t0) (hP0 : 0 ≤ P cfg.t0 cfg.t0)
    (hstep : ∀ c ∈ callLog cfg y0 tnext ctrl (leapfrogInit cfg.t0 y0) mj, (c.answer cfg).keep = true →
      cfg.t0 ≤ c.solverState.1 → c.solverState.1 ≤ c.solverT0 → c.solverT1 ≤ cfg.t1 →
      Q c.solverT0 c.solverState.1 → Q c.solverT1 c.solverT0 ∧
      ‖y c.solverT1 - y c.solverState.1 - (c.solverT1 - c.solverState.1) • f c.solverT0 (y c.solverT0)‖
        ≤ P c.solverT1 c.solverT0 - P c.solverT0 c.solverState.1) :
    (∀ c ∈ callLog cfg y0 tnext ctrl (leapfrogInit cfg.t0 y0) mj,
      c.solverT0 ∈ Icc cfg.t0 cfg.t1 ∧ c.solverState.1 ∈ Icc cfg.t0 cfg.t1 ∧
      ‖c.solverY - y c.solverT0‖ ≤ Real.exp (2 * L * (cfg.t1 - cfg.t0))
        * (‖y0 - y cfg.t0‖ + P c.solverT0 c.solverState.1)) ∧
    (cfg.rootFinder = none → ∃ s ∈ Icc cfg.t0 cfg.t1,
      (solve cfg y0 tnext ctrl (leapfrogInit cfg.t0 y0) mj).tfinal ∈ Icc cfg.t0 cfg.t1 ∧
      ‖(solve cfg y0 tnext ctrl (leapfrogInit cfg.t0 y0) mj).yfinal
        - y (solve cfg y0 tnext ctrl (leapfrogInit cfg.t0 y0) mj).tfinal‖
      ≤ Real.exp (2 * L * (cfg.t1 - cfg.t0))
        * (‖y0 - y cfg.t0‖ + P (solve cfg y0 tnext ctrl (leapfrogInit cfg.t0 y0) mj).tfinal s)) := by
  set e := ‖y0 - y cfg.t0‖ with he
  have he0 : 0 ≤ e := norm_nonneg _
  have hfinish : ∀ t s w, cfg.t0 ≤ s → s ≤ t → t ≤ cfg.t1 → 0 ≤ P t s →
      w ≤ Real.exp (L * ((t - cfg.t0) + (s - cfg.t0))) * (e + P t s) →
      w ≤ Real.exp (2 * L * (cfg.t1 - cfg.t0)) * (e + P t s) := by
    intro t s w h1 h2 h3 h4 h5
    refine h5.trans (mul_le_mul_of_nonneg_right (Real.exp_le_exp.2 ?_) (by positivity))
    have : L * ((t - cfg.t0) + (s - cfg.t0)) ≤ L * (2 * (cfg.t1 - cfg.t0)) :=
      mul_le_mul_of_nonneg_left (by linarith) hL
    linarith
  have hmain := solve_invariant cfg hwf hctrl y0 tnext ctrl (leapfrogInit cfg.t0 y0) mj
    (fun t x st => (cfg.t0 ≤ st.1 ∧ st.1 ≤ t ∧ Q t st.1 ∧ 0 ≤ P t st.1) ∧
      ‖x - y t‖ ≤ Real.exp (L * ((t - cfg.t0) + (st.1 - cfg.t0))) * (e + P t st.1) ∧
      ‖st.2 - y st.1‖ ≤ Real.exp (L * ((t - cfg.t0) + (st.1 - cfg.t0))) * (e + P t st.1))
    (by
      refine ⟨⟨le_refl _, le_refl _, hQ0, hP0⟩, ?_⟩
      simp only [leapfrogInit, sub_self, add_zero, mul_zero, Real.exp_zero, one_mul]
      constructor <;> linarith)
    hfor ?_
  · obtain ⟨hall, hends, hfin, hfin1, -⟩ := hmain
    refine ⟨?_, ?_⟩
    · intro c hc
      obtain ⟨⟨b1, b2⟩, ⟨i1, i2, -, i4⟩, b3, -⟩ := hall c hc
      have b4 := (hfor c hc).trans b2
      exact ⟨⟨b1, b4⟩, ⟨i1, i2.trans b4⟩, hfinish _ _ _ i1 i2 b4 i4 b3⟩
    · intro hroot
      rw [solve_yfinal, solve_tfinal, finalise_no_root cfg _ hroot]
      exact ⟨_, ⟨hfin.1, hfin.2.1.trans hends.2⟩, hends, hfinish _ _ _ hfin.1 hfin.2.1 hends.2 hfin.2.2.2 hfin1⟩
  · rintro c hc hk hc0 hc1 ⟨⟨i1, i2, i3, i4⟩, hx, hs⟩
    have hfw := hfor c hc
    obtain ⟨hQ', hτ⟩ := hstep c hc hk i1 i2 hc1 i3
    rw [hsv]
    generalize c.solverT0 = t at *
    generalize c.solverT1 = t' at *
    generalize c.solverY = x at *
    generalize c.solverState = st at *
    obtain ⟨s, xm⟩ := st
    dsimp only at *
    have hd : 0 ≤ t' - s := by linarith
    have hP' : P t s ≤ P t' t := by linarith [norm_nonneg (y t' - y s - (t' - s) • f t (y t))]
    set W := Real.exp (L * ((t - cfg.t0) + (s - cfg.t0))) * (e + P t s) with hW
    have hW0 : 0 ≤ W := by positivity
    have hexp : Real.exp (L * ((t' - cfg.t0) + (t - cfg.t0)))
        = Real.exp (L * (t' - s)) * Real.exp (L * ((t - cfg.t0) + (s - cfg.t0))) := by
      rw [← Real.exp_add]; congr 1; ring
    have h1 : 1 + L * (t' - s) ≤ Real.exp (L * (t' - s)) := by
      have := Real.add_one_le_exp (L * (t' - s)); linarith
    have hone : (1 : ℝ) ≤ Real.exp (L * ((t' - cfg.t0) + (t - cfg.t0))) :=
      Real.one_le_exp (mul_nonneg hL (by linarith))
    have hmono : (1 + L * (t' - s)) * W + (P t' t - P t s)
        ≤ Real.exp (L * ((t' - cfg.t0) + (t - cfg.t0))) * (e + P t' t) := by
      have h2 : (1 + L * (t' - s)) * W ≤ Real.exp (L * ((t' - cfg.t0) + (t - cfg.t0))) * (e + P t s) := by
        rw [hexp, mul_assoc]; exact mul_le_mul_of_nonneg_right h1 hW0
      have h3 : (P t' t - P t s) ≤ Real.exp (L * ((t' - cfg.t0) + (t - cfg.t0))) * (P t' t - P t s) :=
        le_mul_of_one_le_left (by linarith) hone
      calc _ ≤ _ := add_le_add h2 h3
        _ = _ := by ring
    refine ⟨⟨hc0, hfw, hQ', i4.trans hP'⟩, ?_, ?_⟩
    · refine le_trans ?_ hmono
      have e1 : ((leapfrog (odeTerm f) interp).step t t' x (s, xm) c.solverMadeJump).y - y t'
          = (xm - y s) + (t' - s) • (f t x - f t (y t)) - (y t' - y s - (t' - s) • f t (y t)) := by
        show xm + (t' - s) • f t x - y t' = _
        module
      rw [e1]
      have h2 : ‖(t' - s) • (f t x - f t (y t))‖ ≤ (t' - s) * (L * W) := by
        rw [norm_smul, Real.norm_eq_abs, abs_of_nonneg hd]
        exact mul_le_mul_of_nonneg_left ((hlip _ _ _).trans (mul_le_mul_of_nonneg_left hx hL)) hd
      have h3 := norm_sub_le ((xm - y s) + (t' - s) • (f t x - f t (y t))) (y t' - y s - (t' - s) • f t (y t))
      have h4 := norm_add_le (xm - y s) ((t' - s) • (f t x - f t (y t)))
      have h5 : (1 + L * (t' - s)) * W = W + (t' - s) * (L * W) := by ring
      rw [h5]
      linarith
    · refine hx.trans (le_trans ?_ hmono)
      have h5 : (1 + L * (t' - s)) * W = W + L * (t' - s) * W := by ring
      have h6 : 0 ≤ L * (t' - s) * W := by positivity
      rw [h5]; linarith

/-- **C78, LeapfrogMidpoint.** With any steps, first order. -/
theorem C78_leapfrog_first_order (h : LipschitzSolution f y a b L M) (interp : LocalLin ℝ E) (δ : ℝ) :
    ErrorAtMost (leapfrog (odeTerm f) interp) leapfrogInit y a b δ
      (fun e η => Real.exp (2 * L * (b - a)) * (e + 2 * (b - a) * (M * η))) := by
  intro C O F _ _ cfg hwf ha hb hsv hctrl y0 tnext ctrl mj η hη0 hηδ hfor hok
  subst ha hb
  have hM := h.M_nonneg
  obtain ⟨g1, g2⟩ := leapfrog_potential h.L_nonneg h.lipschitz interp cfg hwf hsv hctrl y0 tnext ctrl mj
    (fun c hc => (hfor c hc).1) (y := y) (fun t s => t - s ≤ η)
    (fun t s => M * η * ((t - cfg.t0) + (s - cfg.t0))) (by simpa using hη0) (by simp) (by
      intro c hc hk h1 h2 h3 hq
      have hfw := (hfor c hc).1
      have hlen := (hok c hc hk).2
      refine ⟨hlen, ?_⟩
      generalize c.solverT0 = t at *
      generalize c.solverT1 = t' at *
      generalize c.solverState.1 = s at *
      have ht : t ∈ Icc cfg.t0 cfg.t1 := ⟨h1.trans h2, hfw.trans h3⟩
      have ht' : t' ∈ Icc cfg.t0 cfg.t1 := ⟨ht.1.trans hfw, h3⟩
      have hs : s ∈ Icc cfg.t0 cfg.t1 := ⟨h1, h2.trans ht.2⟩
      have k1 := taylor_one h.solves h.deriv_lipschitz hM ht' ht left_mem_uIcc
      have k2 := taylor_one h.solves h.deriv_lipschitz hM hs ht left_mem_uIcc
      rw [abs_of_nonneg (sub_nonneg.2 hfw)] at k1
      rw [abs_of_nonpos (sub_nonpos.2 h2)] at k2
      have e : y t' - y s - (t' - s) • f t (y t)
          = (y t' - y t - (t' - t) • f t (y t)) - (y s - y t - (s - t) • f t (y t)) := by module
      rw [e]
      refine (norm_sub_le _ _).trans ((add_le_add k1 k2).trans ?_)
      have u1 : (t' - t) ^ 2 ≤ η * (t' - t) := by
        rw [sq]; exact mul_le_mul_of_nonneg_right hlen (sub_nonneg.2 hfw)
      have u2 : (-(s - t)) ^ 2 ≤ η * (t - s) := by
        have : (-(s - t)) ^ 2 = (t - s) * (t - s) := by ring
        rw [this]; exact mul_le_mul_of_nonneg_right hq (sub_nonneg.2 h2)
      calc _ ≤ M * (η * (t' - t)) + M * (η * (t - s)) :=
            add_le_add (mul_le_mul_of_nonneg_left u1 hM) (mul_le_mul_of_nonneg_left u2 hM)
        _ = _ := by ring)
  have hfin : ∀ t s, t ∈ Icc cfg.t0 cfg.t1 → s ∈ Icc cfg.t0 cfg.t1 →
      Real.exp (2 * L * (cfg.t1 - cfg.t0)) * (‖y0 - y cfg.t0‖ + M * η * ((t - cfg.t0) + (s - cfg.t0)))
      ≤ Real.exp (2 * L * (cfg.t1 - cfg.t0)) * (‖y0 - y cfg.t0‖ + 2 * (cfg.t1 - cfg.t0) * (M * η)) := by
    intro t s ht hs
    apply mul_le_mul_of_nonneg_left _ (Real.exp_nonneg _)
    have : M * η * ((t - cfg.t0) + (s - cfg.t0)) ≤ M * η * (2 * (cfg.t1 - cfg.t0)) :=
      mul_le_mul_of_nonneg_left (by linarith [ht.2, hs.2]) (by positivity)
    linarith
  refine ⟨fun c hc => ?_, fun hr => ?_⟩
  · obtain ⟨h1, h2, h3⟩ := g1 c hc
    exact h3.trans (hfin _ _ h1 h2)
  · obtain ⟨s, h2, h1, h3⟩ := g2 hr
    exact h3.trans (hfin _ _ h1 h2)

/-- The local error when the steps before and after `t` have different lengths. -/
theorem leapfrog_local (hy : ∀ t, HasDerivAt y (f t (y t)) t) (hF : ∀ t, HasDerivAt (fun t => f t (y t)) (G t) t)
    (hG : ∀ s ∈ Icc a b, ∀ t ∈ Icc a b, ‖G s - G t‖ ≤ M₃ * |s - t|) (hM₃ : 0 ≤ M₃)
    (hM₂ : ∀ t ∈ Icc a b, ‖G t‖ ≤ M₂) {s t t' η : ℝ} (hs : a ≤ s) (hst : s ≤ t) (htt : t ≤ t') (htb : t' ≤ b)
    (h0 : t - s ≤ η) (h1 : t' - t ≤ η) :
    ‖y t' - y s - (t' - s) • f t (y t)‖ ≤ M₂ * η * |(t' - t) - (t - s)| + M₃ * η ^ 2 * (t' - s) := by
  have ht : t ∈ Icc a b := ⟨hs.trans hst, htt.trans htb⟩
  have ht' : t' ∈ Icc a b := ⟨ht.1.trans htt, htb⟩
  have hs' : s ∈ Icc a b := ⟨hs, hst.trans ht.2⟩
  have k1 := taylor_two hy hF hG hM₃ ht' ht
  have k2 := taylor_two hy hF hG hM₃ hs' ht
  rw [abs_of_nonneg (sub_nonneg.2 htt)] at k1
  rw [abs_of_nonpos (sub_nonpos.2 hst)] at k2
  have hη : 0 ≤ η := (sub_nonneg.2 hst).trans h0
  have hM₂0 : 0 ≤ M₂ := (norm_nonneg _).trans (hM₂ t ht)
  have e : y t' - y s - (t' - s) • f t (y t)
      = (y t' - y t - (t' - t) • f t (y t) - ((t' - t) ^ 2 / 2) • G t)
        - (y s - y t - (s - t) • f t (y t) - ((s - t) ^ 2 / 2) • G t)
        + (((t' - t) - (t - s)) * (t' - s) / 2) • G t := by module
  rw [e]
  have k3 : ‖(((t' - t) - (t - s)) * (t' - s) / 2) • G t‖ ≤ M₂ * η * |(t' - t) - (t - s)| := by
    rw [norm_smul, Real.norm_eq_abs, abs_div, abs_mul, abs_two, abs_of_nonneg (by linarith : 0 ≤ t' - s)]
    have : |(t' - t) - (t - s)| * (t' - s) / 2 ≤ |(t' - t) - (t - s)| * η := by
      have := mul_le_mul_of_nonneg_left (by linarith : t' - s ≤ 2 * η) (abs_nonneg ((t' - t) - (t - s)))
      linarith
    calc _ ≤ (|(t' - t) - (t - s)| * η) * M₂ :=
          mul_le_mul this (hM₂ t ht) (norm_nonneg _) (by positivity)
      _ = _ := by ring
  have u1 : (t' - t) ^ 3 ≤ η ^ 2 * (t' - t) := by
    have := mul_le_mul_of_nonneg_right (pow_le_pow_left₀ (sub_nonneg.2 htt) h1 2) (sub_nonneg.2 htt)
    calc _ = (t' - t) ^ 2 * (t' - t) := by ring
      _ ≤ _ := this
  have u2 : (-(s - t)) ^ 3 ≤ η ^ 2 * (t - s) := by
    have := mul_le_mul_of_nonneg_right (pow_le_pow_left₀ (sub_nonneg.2 hst) h0 2) (sub_nonneg.2 hst)
    calc _ = (t - s) ^ 2 * (t - s) := by ring
      _ ≤ _ := this
  refine (norm_add_le _ _).trans ((add_le_add ((norm_sub_le _ _).trans (add_le_add k1 k2)) k3).trans ?_)
  have v1 := mul_le_mul_of_nonneg_left u1 hM₃
  have v2 := mul_le_mul_of_nonneg_left u2 hM₃
  linarith

/-- By how much the lengths of the accepted steps vary in total: the sum of the changes of the length from one step to
the next, starting from 0. The solver state contains the time before the current one. -/
noncomputable def stepVariation {Er D Y C O F : Type} [LinearOrder F] [Zero F] (cfg : Cfg ℝ Y Er D (ℝ × Y) C O F)
    (log : List (CallLog ℝ Y Er (ℝ × Y) C)) : ℝ :=
  (log.map fun c => if (c.answer cfg).keep = true
    then |(c.solverT1 - c.solverT0) - (c.solverT0 - c.solverState.1)| else 0).sum

theorem sum_map_le {α : Type} (l : List α) (u v : α → ℝ) (h : ∀ x ∈ l, u x ≤ v x) :
    (l.map u).sum ≤ (l.map v).sum := by
  induction l with
  | nil => simp
  | cons x l ih =>
    simp only [List.map_cons, List.sum_cons]
    exact add_le_add (h x (by simp)) (ih fun x hx => h x (by simp [hx]))

theorem sum_map_add_le {α : Type} (l : List α) (u v : α → ℝ) (h : ∀ x ∈ l, u x ≤ v x) (c : α) (hc : c ∈ l)
    (r : ℝ) (hr : u c + r ≤ v c) : (l.map u).sum + r ≤ (l.map v).sum := by
  induction l with
  | nil => simp at hc
  | cons x l ih =>
    simp only [List.map_cons, List.sum_cons]
    rcases List.mem_cons.1 hc with rfl | hc
    · have := sum_map_le l u v fun x hx => h x (by simp [hx])
      linarith
    · have h1 := ih (fun x hx => h x (by simp [hx])) hc
      have h2 := h x (by simp)
      linarith

/-- **C78, LeapfrogMidpoint.** Second order up to the variation of the lengths of the steps. -/
theorem C78_leapfrog_partial (hL : 0 ≤ L) (hlip : ∀ t x x', ‖f t x - f t x'‖ ≤ L * ‖x - x'‖)
    (hy : ∀ t, HasDerivAt y (f t (y t)) t) (hF : ∀ t, HasDerivAt (fun t => f t (y t)) (G t) t)
    (hG : ∀ s ∈ Icc a b, ∀ t ∈ Icc a b, ‖G s - G t‖ ≤ M₃ * |s - t|) (hM₃ : 0 ≤ M₃)
    (hM₂ : ∀ t ∈ Icc a b, ‖G t‖ ≤ M₂) (interp : LocalLin ℝ E)
    {C O F : Type} [LinearOrder F] [Zero F] (cfg : Cfg ℝ E Unit (E × E) (ℝ × E) C O F)
    (hwf : cfg.WF) (ha : cfg.t0 = a) (hb : cfg.t1 = b)
    (hsv : cfg.solver.step = (leapfrog (odeTerm f) interp).step) (hctrl : cfg.controller.Exact)
    (y0 : E) (tnext : ℝ) (ctrl : C) (mj : Bool) (η : ℝ) (hη0 : 0 ≤ η)
    (hfor : ∀ c ∈ callLog cfg y0 tnext ctrl (leapfrogInit a y0) mj, c.solverT0 < c.solverT1)
    (hη : ∀ c ∈ callLog cfg y0 tnext ctrl (leapfrogInit a y0) mj, (c.answer cfg).keep = true →
      c.solverT1 - c.solverT0 ≤ η) :
    (∀ c ∈ callLog cfg y0 tnext ctrl (leapfrogInit a y0) mj, ‖c.solverY - y c.solverT0‖
      ≤ Real.exp (2 * L * (b - a)) * (‖y0 - y a‖
        + M₂ * η * stepVariation cfg (callLog cfg y0 tnext ctrl (leapfrogInit a y0) mj)
        + 2 * (b - a) * (M₃ * η ^ 2))) ∧
    (cfg.rootFinder = none → ‖(solve cfg y0 tnext ctrl (leapfrogInit a y0) mj).yfinal
        - y (solve cfg y0 tnext ctrl (leapfrogInit a y0) mj).tfinal‖
      ≤ Real.exp (2 * L * (b - a)) * (‖y0 - y a‖
        + M₂ * η * stepVariation cfg (callLog cfg y0 tnext ctrl (leapfrogInit a y0) mj)
        + 2 * (b - a) * (M₃ * η ^ 2))) := by
  subst ha hb
  have hM₂0 : 0 ≤ M₂ := (norm_nonneg _).trans (hM₂ cfg.t0 ⟨le_refl _, hwf.le⟩)
  set log := callLog cfg y0 tnext ctrl (leapfrogInit cfg.t0 y0) mj with hlog
  -- the variation up to time `t`
  set v : CallLog ℝ E Unit (ℝ × E) C → ℝ := fun c => if (c.answer cfg).keep = true
    then |(c.solverT1 - c.solverT0) - (c.solverT0 - c.solverState.1)| else 0 with hv
  have hv0 : ∀ c, 0 ≤ v c := fun c => by simp only [hv]; split <;> positivity
  set ω : ℝ → ℝ := fun t => (log.map fun c => if c.solverT1 ≤ t then v c else 0).sum with hω
  have hω0 : ∀ t, 0 ≤ ω t := fun t => List.sum_nonneg (by
    intro x hx
    obtain ⟨c, -, rfl⟩ := List.mem_map.1 hx
    split
    · exact hv0 c
    · exact le_refl _)
  have hωle : ∀ t, ω t ≤ stepVariation cfg log := fun t => sum_map_le _ _ _ (by
    intro c _
    show (if c.solverT1 ≤ t then v c else 0) ≤ v c
    split
    · exact le_refl _
    · exact hv0 c)
  obtain ⟨g1, g2⟩ := leapfrog_potential hL hlip interp cfg hwf hsv hctrl y0 tnext ctrl mj
    (fun c hc => (hfor c hc).le) (y := y) (fun t s => t - s ≤ η)
    (fun t s => M₂ * η * ω t + M₃ * η ^ 2 * ((t - cfg.t0) + (s - cfg.t0))) (by simpa using hη0)
    (by
      have := hω0 cfg.t0
      simp only [sub_self, add_zero, mul_zero]
      positivity)
    (by
      intro c hc hk h1 h2 h3 hq
      have hlen := hη c hc hk
      refine ⟨hlen, ?_⟩
      refine (leapfrog_local hy hF hG hM₃ hM₂ h1 h2 (hfor c hc).le h3 hq hlen).trans ?_
      have hinc : ω c.solverT0 + v c ≤ ω c.solverT1 := by
        refine sum_map_add_le log _ _ ?_ c hc (v c) ?_
        · intro x _
          by_cases hx : x.solverT1 ≤ c.solverT0
          · rw [if_pos hx, if_pos (hx.trans (hfor c hc).le)]
          · rw [if_neg hx]; split
            · exact hv0 x
            · exact le_refl _
        · rw [if_neg (not_le.2 (hfor c hc)), if_pos (le_refl _), zero_add]
      have hvc : v c = |(c.solverT1 - c.solverT0) - (c.solverT0 - c.solverState.1)| := by
        simp only [hv]; rw [if_pos hk]
      rw [hvc] at hinc
      have := mul_le_mul_of_nonneg_left hinc (by positivity : 0 ≤ M₂ * η)
      linarith)
  have hfin : ∀ t s, t ∈ Icc cfg.t0 cfg.t1 → s ∈ Icc cfg.t0 cfg.t1 →
      Real.exp (2 * L * (cfg.t1 - cfg.t0))
        * (‖y0 - y cfg.t0‖ + (M₂ * η * ω t + M₃ * η ^ 2 * ((t - cfg.t0) + (s - cfg.t0))))
      ≤ Real.exp (2 * L * (cfg.t1 - cfg.t0))
        * (‖y0 - y cfg.t0‖ + M₂ * η * stepVariation cfg log + 2 * (cfg.t1 - cfg.t0) * (M₃ * η ^ 2)) := by
    intro t s ht hs
    apply mul_le_mul_of_nonneg_left _ (Real.exp_nonneg _)
    have h1 : M₃ * η ^ 2 * ((t - cfg.t0) + (s - cfg.t0)) ≤ M₃ * η ^ 2 * (2 * (cfg.t1 - cfg.t0)) :=
      mul_le_mul_of_nonneg_left (by linarith [ht.2, hs.2]) (by positivity)
    have h2 := mul_le_mul_of_nonneg_left (hωle t) (by positivity : 0 ≤ M₂ * η)
    linarith
  refine ⟨fun c hc => ?_, fun hr => ?_⟩
  · obtain ⟨h1, h2, h3⟩ := g1 c hc
    exact h3.trans (hfin _ _ h1 h2)
  · obtain ⟨s, h2, h1, h3⟩ := g2 hr
    exact h3.trans (hfin _ _ h1 h2)

/-- **C78, LeapfrogMidpoint with constant steps.** Second order: the solve succeeds, ends at `t1`, and the error is
at most a constant times `dt0^2`. (The first two steps of ConstantStepSize differ in length from the others, see
C21; that does no harm.) -/
theorem C78_leapfrog_constant (hL : 0 ≤ L) (hlip : ∀ t x x', ‖f t x - f t x'‖ ≤ L * ‖x - x'‖)
    (hy : ∀ t, HasDerivAt y (f t (y t)) t) (hy3 : ContDiff ℝ 3 y) (a b : ℝ) :
    ∃ B, ∀ (interp : LocalLin ℝ E) (O F : Type) [LinearOrder F] [Zero F]
      (cfg : Cfg ℝ E Unit (E × E) (ℝ × E) (ConstState ℝ) O F) (_ : cfg.WF)
      (_ : cfg.t0 = a) (_ : cfg.t1 = b) (_ : a < b)
      (_ : cfg.solver.step = (leapfrog (odeTerm f) interp).step)
      (_ : cfg.controller = constantStepSize) (_ : cfg.events = []) (_ : cfg.rootFinder = none)
      (dt0 : ℝ) (_ : 0 < dt0) (tnext : ℝ) (ctrl : ConstState ℝ) (mj : Bool)
      (_ : constInit id a (some b) (some dt0) = some (tnext, ctrl))
      (_ : b - (b - a) / (⌈(b - a) / dt0⌉ : Int) ≤ cfg.floor)
      (_ : ⌈(b - a) / dt0⌉ ≤ cfg.maxSteps),
      (solve cfg (y a) tnext ctrl (leapfrogInit a (y a)) mj).result = .successful ∧
      (solve cfg (y a) tnext ctrl (leapfrogInit a (y a)) mj).tfinal = b ∧
      ‖(solve cfg (y a) tnext ctrl (leapfrogInit a (y a)) mj).yfinal - y b‖ ≤ B * dt0 ^ 2 := by
  obtain ⟨G, R, M₂, M₃, hR, hs⟩ := SmoothSolution.exists hy hy3 a b
  have hGc : ContinuousOn G (Icc a b) := by
    refine LipschitzOnWith.continuousOn (K := M₃.toNNReal) ?_
    refine LipschitzOnWith.of_dist_le_mul fun s hs' t ht' => ?_
    rw [dist_eq_norm, Real.dist_eq, Real.coe_toNNReal _ hs.M₃_nonneg]
    exact hs.lip₂ s hs' t ht'
  obtain ⟨M₂', hM₂'⟩ := (isCompact_Icc (a := a) (b := b)).exists_bound_of_continuousOn hGc
  refine ⟨Real.exp (2 * L * (b - a)) * (3 * M₂' + 2 * (b - a) * M₃), ?_⟩
  intro interp O F _ _ cfg hwf ha hb hab hsv hctrl hev hroot dt0 hdt tnext ctrl mj hinit hfl hmax
  subst ha hb
  have hM₂0 : 0 ≤ M₂' := (norm_nonneg _).trans (hM₂' cfg.t0 ⟨le_refl _, hab.le⟩)
  have hM₃ := hs.M₃_nonneg
  have hokay : ∀ a b y s j, (cfg.solver.step a b y s j).result = .successful := by
    intro a b y s j; rw [hsv]; rfl
  obtain ⟨n, p, hn, hlog, hp0, hpn, hlt, hle, heq, -, -, htf, hres, -, -, -⟩ :=
    C22_constant_steps cfg id dt0 (y cfg.t0) (leapfrogInit cfg.t0 (y cfg.t0)) mj tnext ctrl hinit hab hdt
      (le_refl _) (fun h => h) hctrl hev hokay hwf.floor_le hfl hmax
  have hle' : ∀ k < n, p (k + 1) - p k ≤ dt0 := fun k hk => by simpa using hle k hk
  have hmem : ∀ c ∈ callLog cfg (y cfg.t0) tnext ctrl (leapfrogInit cfg.t0 (y cfg.t0)) mj,
      ∃ k < n, c.solverT0 = p k ∧ c.solverT1 = p (k + 1) := by
    intro c hc
    have h1 : (c.solverT0, c.solverT1) ∈ (List.range n).map (fun j => (p j, p (j + 1))) := by
      rw [← hlog]; exact List.mem_map_of_mem hc
    obtain ⟨k, hk, he⟩ := List.mem_map.1 h1
    have he' := Prod.mk.inj he
    exact ⟨k, List.mem_range.1 hk, he'.1.symm, he'.2.symm⟩
  have hstrict : ∀ j k, j < k → k ≤ n → p j < p k := by
    intro j k hjk hkn
    induction k, hjk using Nat.le_induction with
    | base => exact hlt j (by omega)
    | succ k hk ih => exact (ih (by omega)).trans (hlt k (by omega))
  have hinj : ∀ j k, j ≤ n → k ≤ n → p j = p k → j = k := by
    intro j k hj hk he
    rcases lt_trichotomy j k with h | h | h
    · exact absurd he (hstrict j k h hk).ne
    · exact h
    · exact absurd he (hstrict k j h hj).ne'
  have hexact : cfg.controller.Exact := by
    rw [hctrl]
    intro a b y0 y1 e st
    exact ⟨fun _ => rfl, fun h => by simp [constantStepSize, constAdapt] at h⟩
  -- at most three changes of the length of the step, by at most `dt0` each
  set ω : ℝ → ℝ := fun t => ((List.range 3).map fun k => if p (k + 1) ≤ t then dt0 else 0).sum with hω
  have hω0 : ∀ t, 0 ≤ ω t := fun t => List.sum_nonneg (by
    intro x hx
    obtain ⟨c, -, rfl⟩ := List.mem_map.1 hx
    split <;> positivity)
  have hω3 : ∀ t, ω t ≤ 3 * dt0 := fun t => by
    refine (sum_map_le _ _ (fun _ => dt0) ?_).trans ?_
    · intro k _; split
      · exact le_refl _
      · exact hdt.le
    · simp only [List.map_const', List.sum_replicate, List.length_range]
      rw [nsmul_eq_mul]; norm_num
  obtain ⟨-, g2⟩ := leapfrog_potential hL hlip interp cfg hwf hsv hexact (y cfg.t0) tnext ctrl mj
    (fun c hc => by
      obtain ⟨k, hk, e1, e2⟩ := hmem c hc
      rw [e1, e2]; exact (hlt k hk).le) (y := y)
    (fun t s => ∀ k ≤ n, t = p k → s = p (k - 1))
    (fun t s => M₂' * dt0 * ω t + M₃ * dt0 ^ 2 * ((t - cfg.t0) + (s - cfg.t0)))
    (by
      intro k hk he
      have : k = 0 := hinj k 0 hk (by omega) (by rw [hp0]; exact he.symm)
      subst this; exact he)
    (by
      have := hω0 cfg.t0
      simp only [sub_self, add_zero, mul_zero]
      positivity)
    (by
      intro c hc hk h1 h2 h3 hq
      obtain ⟨k, hkn, e1, e2⟩ := hmem c hc
      have hs1 := hq k hkn.le e1
      refine ⟨fun j hj hj' => ?_, ?_⟩
      · have : j = k + 1 := hinj j (k + 1) hj hkn (by rw [← hj', e2])
        subst this
        rw [e1, Nat.add_sub_cancel]
      · have hk1 : p k - p (k - 1) ≤ dt0 := by
          rcases Nat.eq_zero_or_pos k with rfl | hkp
          · simp [hdt.le]
          · have := hle' (k - 1) (by omega)
            rwa [Nat.sub_add_cancel hkp] at this
        have hk0 : 0 ≤ p k - p (k - 1) := by
          rcases Nat.eq_zero_or_pos k with rfl | hkp
          · simp
          · exact (sub_pos.2 (hstrict _ _ (by omega) hkn.le)).le
        rw [hs1] at h1 h2 ⊢
        rw [e1] at h2 ⊢
        rw [e2] at h3 ⊢
        refine (leapfrog_local hs.solves hs.second hs.lip₂ hM₃ hM₂' h1 h2 (hlt k hkn).le h3 hk1
          (hle' k hkn)).trans ?_
        have hinc : ω (p k) + |p (k + 1) - p k - (p k - p (k - 1))| ≤ ω (p (k + 1)) := by
          have hmono : ∀ x ∈ List.range 3, (if p (x + 1) ≤ p k then dt0 else 0)
              ≤ if p (x + 1) ≤ p (k + 1) then dt0 else 0 := by
            intro x _
            by_cases hx : p (x + 1) ≤ p k
            · rw [if_pos hx, if_pos (hx.trans (hlt k hkn).le)]
            · rw [if_neg hx]; split <;> positivity
          by_cases hk3 : k < 3
          · have hd : |p (k + 1) - p k - (p k - p (k - 1))| ≤ dt0 := by
              rw [abs_le]
              have := hle' k hkn
              have := (hlt k hkn).le
              constructor <;> linarith
            have := sum_map_add_le (List.range 3) _ _ hmono k (List.mem_range.2 hk3) dt0 (by
              rw [if_neg (not_le.2 (hlt k hkn)), if_pos (le_refl _), zero_add])
            linarith
          · have hz : p (k + 1) - p k - (p k - p (k - 1)) = 0 := by
              have h5 := heq k (by omega) hkn
              have h6 := heq (k - 1) (by omega) (by omega)
              rw [Nat.sub_add_cancel (by omega : 1 ≤ k)] at h6
              rw [h5, h6, sub_self]
            rw [hz, abs_zero, add_zero]
            exact sum_map_le _ _ _ hmono
        have := mul_le_mul_of_nonneg_left hinc (by positivity : 0 ≤ M₂' * dt0)
        linarith)
  obtain ⟨s, hs1, hs2, hs3⟩ := g2 hroot
  rw [sub_self, norm_zero, zero_add, htf] at hs3
  refine ⟨hres, htf, hs3.trans ?_⟩
  rw [mul_assoc (Real.exp _)]
  apply mul_le_mul_of_nonneg_left _ (Real.exp_nonneg _)
  have h1 := mul_le_mul_of_nonneg_left (hω3 cfg.t1) (by positivity : 0 ≤ M₂' * dt0)
  have h2 : M₃ * dt0 ^ 2 * ((cfg.t1 - cfg.t0) + (s - cfg.t0)) ≤ M₃ * dt0 ^ 2 * (2 * (cfg.t1 - cfg.t0)) :=
    mul_le_mul_of_nonneg_left (by linarith [hs1.2]) (by positivity)
  calc _ ≤ M₂' * dt0 * (3 * dt0) + M₃ * dt0 ^ 2 * (2 * (cfg.t1 - cfg.t0)) := add_le_add h1 h2
    _ = _ := by ring

/-- Euler's number, by leapfrog with `n` constant steps: the error is at most a constant over `n^2`. -/
example : ∃ B : ℝ, ∀ (interp : LocalLin ℝ ℝ) (n : ℕ), 0 < n → ∃ tnext ctrl,
    constInit id (0 : ℝ) (some 1) (some (1 / n)) = some (tnext, ctrl) ∧
    ‖(solve (unitCfg (leapfrog (odeTerm fun _ x : ℝ => x) interp) constantStepSize (0, 0) n) (Real.exp 0)
      tnext ctrl (leapfrogInit 0 (Real.exp 0)) false).yfinal - Real.exp 1‖ ≤ B * (1 / n) ^ 2 := by
  obtain ⟨B, hB⟩ := C78_leapfrog_constant (f := fun _ x : ℝ => x) zero_le_one (fun _ x x' => by rw [one_mul])
    Real.hasDerivAt_exp Real.contDiff_exp 0 1
  refine ⟨B, fun interp n hn => ⟨_, _, rfl, ?_⟩⟩
  have hn' : (0 : ℝ) < n := by exact_mod_cast hn
  refine (hB interp ℝ ℝ (unitCfg (leapfrog (odeTerm fun _ x : ℝ => x) interp) constantStepSize (0, 0) n)
    (unitCfg_WF _ _ _ _) rfl rfl (by norm_num) rfl rfl rfl rfl (1 / n) (by positivity) _ _ false rfl ?_ ?_).2.2
  · rw [unit_ceil n hn]
    have : (0 : ℝ) ≤ (1 - 0) / ((n : ℤ) : ℝ) := by rw [Int.cast_natCast, sub_zero]; positivity
    show (1 : ℝ) - _ ≤ 1
    linarith
  · rw [unit_ceil n hn]; exact le_refl _

/-! ### With unequal steps the order is one -/

/-- Steps of alternating lengths: `2h`, `h`, `2h`, `h`, ... with `h = 1 / (3n)`. -/
noncomputable def zigzag (n k : ℕ) : ℝ := ((3 * (k / 2) + 2 * (k % 2) : ℕ) : ℝ) * (1 / (3 * n))

/-- `StepTo(ts=...)` with these steps. -/
noncomputable def zigzags (n : ℕ) : List ℝ := (List.range (2 * n + 1)).map (zigzag n)

/-- `y' = 2t` by leapfrog with these steps. -/
noncomputable def zigzagCfg (interp : LocalLin ℝ ℝ) (n : ℕ) : Cfg ℝ ℝ Unit (ℝ × ℝ) (ℝ × ℝ) Nat ℝ ℝ :=
  unitCfg (leapfrog (odeTerm fun t _ => 2 * t) interp) (stepTo (zigzags n) 0) (0, 0) (2 * n)

theorem zigzags_valid (n : ℕ) (hn : 0 < n) : stepToValid (zigzags n) = true := by
  have hn' : (0 : ℝ) < n := by exact_mod_cast hn
  unfold stepToValid
  rw [Bool.and_eq_true, decide_eq_true_iff]
  refine ⟨by simp [zigzags]; omega, ?_⟩
  rw [List.all_eq_true]
  intro x hx
  obtain ⟨i, hi, rfl⟩ := List.mem_iff_getElem.1 hx
  simp only [zigzags, List.getElem_zipWith, List.getElem_map, List.getElem_range, List.getElem_tail, id,
    decide_eq_true_eq, zigzag]
  have h1 : 3 * (i / 2) + 2 * (i % 2) < 3 * ((i + 1) / 2) + 2 * ((i + 1) % 2) := by omega
  have h2 : (0 : ℝ) < 1 / (3 * n) := by positivity
  exact mul_lt_mul_of_pos_right (by exact_mod_cast h1) h2

theorem zigzags_init (n : ℕ) (hn : 0 < n) :
    stepToInit (zigzags n) 0 1 false = some (zigzag n 1, 2) := by
  have hn' : (0 : ℝ) < n := by exact_mod_cast hn
  have h0 : (zigzags n).head? = some 0 := by
    rw [List.head?_eq_getElem?]; simp [zigzags, zigzag]
  have h1 : (zigzags n).getLast? = some 1 := by
    rw [List.getLast?_eq_getElem?]
    simp only [zigzags, List.length_map, List.length_range, Nat.add_sub_cancel]
    rw [List.getElem?_eq_getElem (by simp)]
    simp only [List.getElem_map, List.getElem_range, zigzag, Option.some.injEq]
    rw [Nat.mul_div_cancel_left _ two_pos, Nat.mul_mod_right]
    push_cast
    field_simp
    ring
  have h2 : (zigzags n)[1]? = some (zigzag n 1) := by
    rw [List.getElem?_eq_getElem (by simp [zigzags]; omega)]
    simp [zigzags]
  unfold stepToInit
  rw [if_neg (by simp), if_neg (by simp [h0, h1]), h2]

/-- The values that leapfrog computes. -/
theorem zigzag_run (interp : LocalLin ℝ ℝ) (n : ℕ) (hn : 0 < n) (mj : Bool) :
    (∀ c ∈ callLog (zigzagCfg interp n) 0 (zigzag n 1) 2 (leapfrogInit 0 0) mj,
      ∃ k < 2 * n, c.solverT0 = zigzag n k ∧ c.solverT1 = zigzag n (k + 1)) ∧
    (solve (zigzagCfg interp n) 0 (zigzag n 1) 2 (leapfrogInit 0 0) mj).result = .successful ∧
    (solve (zigzagCfg interp n) 0 (zigzag n 1) 2 (leapfrogInit 0 0) mj).tfinal = 1 ∧
    (solve (zigzagCfg interp n) 0 (zigzag n 1) 2 (leapfrogInit 0 0) mj).yfinal = 1 + 1 / (3 * n) := by
  have hn' : (0 : ℝ) < n := by exact_mod_cast hn
  have hz1 : ∀ k, k ≤ 2 * n → zigzag n k ≤ 1 := by
    intro k hk
    have : 3 * (k / 2) + 2 * (k % 2) ≤ 3 * n := by omega
    unfold zigzag
    rw [mul_one_div, div_le_one (by positivity)]
    exact_mod_cast this
  obtain ⟨hlog, htf, hres, -, -⟩ := C23_stepTo (zigzags n) 0 (zigzagCfg interp n) 0 (leapfrogInit 0 0) mj
    (zigzag n 1) 2 (zigzags_valid n hn) (zigzags_init n hn) rfl rfl (fun _ _ _ _ _ => rfl)
    (by
      intro i hi _
      have : i < 2 * n + 1 := by simpa [zigzags] using hi
      simp only [zigzags, List.getElem_map, List.getElem_range]
      exact hz1 i (by omega))
    (by simp [zigzags, zigzagCfg, unitCfg])
  have hmem : ∀ c ∈ callLog (zigzagCfg interp n) 0 (zigzag n 1) 2 (leapfrogInit 0 0) mj,
      ∃ k < 2 * n, c.solverT0 = zigzag n k ∧ c.solverT1 = zigzag n (k + 1) := by
    intro c hc
    have h1 : (c.solverT0, c.solverT1) ∈ (zigzags n).zip (zigzags n).tail := by
      rw [← hlog]; exact List.mem_map_of_mem hc
    obtain ⟨k, hk, he⟩ := List.mem_iff_getElem.1 h1
    have hk' : k < 2 * n := by simp [zigzags] at hk; omega
    simp only [zigzags, List.getElem_zip, List.getElem_map, List.getElem_range, List.getElem_tail] at he
    have he' := Prod.mk.inj he
    exact ⟨k, hk', he'.1.symm, he'.2.symm⟩
  refine ⟨hmem, hres, htf, ?_⟩
  set h : ℝ := 1 / (3 * n) with hh
  have hh0 : 0 < h := by positivity
  have hinj : ∀ i j : ℕ, (i : ℝ) * h = j * h → i = j := fun i j he => by
    exact_mod_cast mul_right_cancel₀ hh0.ne' he
  have hexact : (zigzagCfg interp n).controller.Exact := by
    intro a b y0 y1 e st
    exact ⟨fun _ => rfl, fun h => by simp [zigzagCfg, unitCfg, stepTo] at h⟩
  have hmono : ∀ k, zigzag n k ≤ zigzag n (k + 1) := by
    intro k
    have h1 : 3 * (k / 2) + 2 * (k % 2) ≤ 3 * ((k + 1) / 2) + 2 * ((k + 1) % 2) := by omega
    unfold zigzag
    exact mul_le_mul_of_nonneg_right (by exact_mod_cast h1) hh0.le
  have hsy : ∀ t t' x st mj, ((zigzagCfg interp n).solver.step t t' x st mj).y
      = st.2 + (t' - st.1) * (2 * t) := fun _ _ _ _ _ => rfl
  have hss : ∀ t t' x st mj, ((zigzagCfg interp n).solver.step t t' x st mj).state = (t, x) :=
    fun _ _ _ _ _ => rfl
  obtain ⟨-, -, hfin⟩ := solve_invariant (zigzagCfg interp n) (unitCfg_WF _ _ _ _) hexact 0 (zigzag n 1) 2
    (leapfrogInit 0 0) mj
    (fun t x st =>
      (∃ j : ℕ, t = ((3 * j : ℕ) : ℝ) * h ∧ x = h ^ 2 * (9 * j ^ 2 + 3 * j) ∧
        ((j = 0 ∧ st = (0, 0)) ∨ (1 ≤ j ∧ st = ((3 * j - 1) * h, h ^ 2 * (9 * j ^ 2 - 9 * j))))) ∨
      (∃ j : ℕ, t = ((3 * j + 2 : ℕ) : ℝ) * h ∧ x = h ^ 2 * (9 * j ^ 2 + 9 * j) ∧
        st = (3 * j * h, h ^ 2 * (9 * j ^ 2 + 3 * j))))
    (Or.inl ⟨0, by simp [zigzagCfg, unitCfg], by simp, Or.inl ⟨rfl, rfl⟩⟩)
    (fun c hc => by
      obtain ⟨k, -, e1, e2⟩ := hmem c hc
      rw [e1, e2]; exact hmono k)
    (by
      intro c hc _ _ _ hI
      obtain ⟨k, -, e1, e2⟩ := hmem c hc
      rw [hsy, hss]
      rw [e1] at hI ⊢
      rw [e2]
      generalize c.solverY = x at *
      generalize c.solverState = st at *
      rcases hI with ⟨j, ht, hx, hst⟩ | ⟨j, ht, hx, hst⟩
      · have hk := hinj _ _ ht
        have hk2 : 3 * ((k + 1) / 2) + 2 * ((k + 1) % 2) = 3 * j + 2 := by omega
        refine Or.inr ⟨j, by unfold zigzag; rw [hk2], ?_, ?_⟩
        · rw [show zigzag n (k + 1) = ((3 * j + 2 : ℕ) : ℝ) * h by unfold zigzag; rw [hk2], ht]
          rcases hst with ⟨rfl, rfl⟩ | ⟨-, rfl⟩
          · simp
          · push_cast
            ring
        · rw [ht, hx]; push_cast; rfl
      · have hk := hinj _ _ ht
        have hk2 : 3 * ((k + 1) / 2) + 2 * ((k + 1) % 2) = 3 * (j + 1) := by omega
        refine Or.inl ⟨j + 1, by unfold zigzag; rw [hk2], ?_, Or.inr ⟨by omega, ?_⟩⟩
        · rw [show zigzag n (k + 1) = ((3 * (j + 1) : ℕ) : ℝ) * h by unfold zigzag; rw [hk2], ht, hst]
          push_cast
          ring
        · rw [ht, hx]; push_cast
          exact Prod.ext (by dsimp only; ring) (by dsimp only; ring))
  rw [solve_tfinal, finalise_no_root _ _ rfl] at htf
  rw [solve_yfinal, finalise_no_root _ _ rfl]
  have htf' : (solve (zigzagCfg interp n) 0 (zigzag n 1) 2 (leapfrogInit 0 0) mj).core.tprev = 1 := htf
  have h3 : (1 : ℝ) = ((3 * n : ℕ) : ℝ) * h := by rw [hh]; push_cast; field_simp
  rw [htf'] at hfin
  show (solve (zigzagCfg interp n) 0 (zigzag n 1) 2 (leapfrogInit 0 0) mj).core.y = _
  rcases hfin with ⟨j, ht, hx, -⟩ | ⟨j, ht, -, -⟩
  · have : 3 * n = 3 * j := hinj _ _ (by rw [← h3, ht])
    have : j = n := by omega
    subst this
    rw [hx, hh]
    field_simp
    ring
  · have : 3 * n = 3 * j + 2 := hinj _ _ (by rw [← h3, ht])
    omega

/-- **C78 is violated by LeapfrogMidpoint with unequal steps**, even for `y' = 2t`: `StepTo` with steps of
alternating lengths `2h` and `h` ends with the error `h`. So the documented order of 2 does not hold. -/
theorem C78_violated_leapfrog (interp : LocalLin ℝ ℝ) :
    (∀ n : ℕ, 0 < n →
      stepToInit (zigzags n) 0 1 false = some (zigzag n 1, 2) ∧
      (∀ k, zigzag n (k + 1) - zigzag n k ≤ 2 * (1 / (3 * n))) ∧
      (solve (zigzagCfg interp n) 0 (zigzag n 1) 2 (leapfrogInit 0 0) false).result = .successful ∧
      (solve (zigzagCfg interp n) 0 (zigzag n 1) 2 (leapfrogInit 0 0) false).tfinal = 1 ∧
      (solve (zigzagCfg interp n) 0 (zigzag n 1) 2 (leapfrogInit 0 0) false).yfinal = 1 ^ 2 + 1 / (3 * n)) ∧
    (∀ t : ℝ, HasDerivAt (fun t : ℝ => t ^ 2) (2 * t) t) ∧
    ¬ ∃ δ K B : ℝ, 0 < δ ∧ ErrorAtMost (leapfrog (odeTerm fun t _ : ℝ => 2 * t) interp) leapfrogInit
      (fun t => t ^ 2) 0 1 δ (fun e η => K * (e + B * η ^ 2)) := by
  have hlen : ∀ n : ℕ, ∀ k, zigzag n (k + 1) - zigzag n k ≤ 2 * (1 / (3 * n)) := by
    intro n k
    have h1 : 3 * ((k + 1) / 2) + 2 * ((k + 1) % 2) ≤ 3 * (k / 2) + 2 * (k % 2) + 2 := by omega
    have h2 : ((3 * ((k + 1) / 2) + 2 * ((k + 1) % 2) : ℕ) : ℝ) ≤ ((3 * (k / 2) + 2 * (k % 2) + 2 : ℕ) : ℝ) := by
      exact_mod_cast h1
    have h3 : (0 : ℝ) ≤ 1 / (3 * n) := by positivity
    have h4 := mul_le_mul_of_nonneg_right h2 h3
    unfold zigzag
    rw [Nat.cast_add _ 2, add_mul] at h4
    push_cast at h4 ⊢
    linarith
  refine ⟨?_, ?_, ?_⟩
  · intro n hn
    obtain ⟨-, h2, h3, h4⟩ := zigzag_run interp n hn false
    exact ⟨zigzags_init n hn, hlen n, h2, h3, by rw [h4]; norm_num⟩
  · intro t
    simpa using hasDerivAt_pow 2 t
  · rintro ⟨δ, K, B, hδ, h⟩
    obtain ⟨n, hn⟩ := exists_nat_gt (max (1 / δ) (2 * (K * B)))
    have hn0 : (0 : ℝ) < n := lt_of_le_of_lt (le_trans (by positivity) (le_max_left _ _)) hn
    have hn1 : 0 < n := by exact_mod_cast hn0
    have hnδ : 1 / δ < n := lt_of_le_of_lt (le_max_left _ _) hn
    have hnK : 2 * (K * B) < n := lt_of_le_of_lt (le_max_right _ _) hn
    obtain ⟨hmem, -, htf, hy⟩ := zigzag_run interp n hn1 false
    have hηδ : 2 * (1 / (3 * (n : ℝ))) ≤ δ := by
      rw [div_lt_iff₀ hδ] at hnδ
      rw [← mul_div_assoc, div_le_iff₀ (by positivity)]
      nlinarith
    have := (h Nat ℝ ℝ (zigzagCfg interp n) (unitCfg_WF _ _ _ _) rfl rfl rfl
      (by
        intro a b y0 y1 e st
        exact ⟨fun _ => rfl, fun h => by simp [zigzagCfg, unitCfg, stepTo] at h⟩)
      0 (zigzag n 1) 2 false (2 * (1 / (3 * n))) (by positivity) hηδ
      (fun c hc => by
        obtain ⟨k, -, e1, e2⟩ := hmem c hc
        refine ⟨?_, ?_⟩
        · rw [e1, e2]
          have h1 : 3 * (k / 2) + 2 * (k % 2) ≤ 3 * ((k + 1) / 2) + 2 * ((k + 1) % 2) := by omega
          unfold zigzag
          exact mul_le_mul_of_nonneg_right (by exact_mod_cast h1) (by positivity)
        · rw [log_eq_history] at hc
          obtain ⟨s, hs, rfl⟩ := List.mem_map.1 hc
          refine (run_inv (zigzagCfg interp n) (fun s => s.madeJump = false) _ _ rfl ?_).1 s hs
          intro s' _ _ h'
          show (if accepted (zigzagCfg interp n) s' then false else s'.madeJump) = false
          split
          · rfl
          · exact h')
      (fun c hc _ => by
        obtain ⟨k, -, e1, e2⟩ := hmem c hc
        refine ⟨rfl, ?_⟩
        rw [e1, e2]; exact hlen n k)).2 rfl
    rw [htf, hy] at this
    have h5 : ‖(0 : ℝ) - (0 : ℝ) ^ 2‖ = 0 := by norm_num
    rw [h5] at this
    dsimp only at this
    rw [zero_add, one_pow, add_sub_cancel_left, Real.norm_eq_abs, abs_of_nonneg (by positivity)] at this
    have h6 : (1 : ℝ) / (3 * n) = 1 / (3 * n) ^ 2 * (3 * n) := by field_simp
    have h7 : K * (B * (2 * (1 / (3 * (n : ℝ)))) ^ 2) = 1 / (3 * n) ^ 2 * (4 * (K * B)) := by ring
    rw [h7] at this
    have this := h6.symm.trans_le this
    have := le_of_mul_le_mul_left this (by positivity)
    linarith

end
end Verif
