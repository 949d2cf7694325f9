import Verif.Spec.AdaptiveFinish
import Verif.Props.AdaptiveFinish
import Verif.Props.Convergence
import Mathlib.Analysis.SpecialFunctions.Pow.Real

/-!
# Adaptive solves with explicit Runge-Kutta methods finish
-/

set_option linter.unusedSectionVars false

namespace Verif
open Finset

/-! ### The controller -/

section
variable {K : Type} [Field K] [LinearOrder K] [IsStrictOrderedRing K]
variable {Y Er D S O F : Type} [LinearOrder F] [Zero F]

theorem adaptScaled_t0 (p : Pid K) (t0 t1 x : XVal K) (s : PidState K) :
    (p.adaptScaled t0 t1 x s).t0 = if (p.adaptScaled t0 t1 x s).keep then t1 else t0 := rfl

theorem pidWith_exact (p : Pid K) (scaled : Y → Y → Er → XVal K) : (pidWith p scaled).Exact := by
  intro a b y0 y1 e st
  refine ⟨fun h => ?_, fun h => ?_⟩
  · have h' : (p.adaptScaled (.fin a) (.fin b) (scaled y0 y1 e) st).keep = true := h
    show ((p.adaptScaled (.fin a) (.fin b) (scaled y0 y1 e) st).t0).toK a = b
    rw [adaptScaled_t0, h']; rfl
  · have h' : (p.adaptScaled (.fin a) (.fin b) (scaled y0 y1 e) st).keep = false := h
    show ((p.adaptScaled (.fin a) (.fin b) (scaled y0 y1 e) st).t0).toK a = a
    rw [adaptScaled_t0, h']; rfl

/-- The calls of the solver go forward in time. -/
theorem pidWith_forward (p : Pid K) (hp : p.Valid) (hmin : p.dtmin = none)
    (hmax : ∀ M, p.dtmax = some M → 0 ≤ M) (scaled : Y → Y → Er → XVal K)
    (cfg : Cfg K Y Er D S (PidState K) O F) (hwf : cfg.WF)
    (hc : cfg.controller = pidWith p scaled) (y0 : Y) (dt0 tnext : K) (ctrl : PidState K)
    (hdt : 0 ≤ dt0) (hinit : p.init (.fin cfg.t0) (.fin dt0) = (.fin tnext, ctrl)) (ss : S) (mj : Bool)
    (hx : ∀ c ∈ callLog cfg y0 tnext ctrl ss mj, (scaled c.ctrlY0 c.ctrlY1 c.ctrlErr).IsErr) :
    ∀ c ∈ callLog cfg y0 tnext ctrl ss mj, cfg.t0 ≤ c.solverT0 ∧ c.solverT0 ≤ c.solverT1 ∧ c.solverT1 ≤ cfg.t1 := by
  obtain ⟨ht, rfl⟩ : cfg.t0 ≤ tnext ∧ ctrl = .fresh := by
    unfold Pid.init at hinit
    rw [hmin] at hinit
    simp only at hinit
    have h1 := congrArg Prod.fst hinit
    have h2 := congrArg Prod.snd hinit
    refine ⟨?_, h2.symm⟩
    cases hM : p.dtmax with
    | none =>
      rw [hM] at h1
      simp only [XVal.add] at h1
      have := XVal.fin.inj h1
      linarith
    | some M =>
      rw [hM] at h1
      simp only [XVal.min_fin, XVal.add] at h1
      have := XVal.fin.inj h1
      have := le_min hdt (hmax M hM)
      linarith
  have hstep : ∀ (s : Core K Y D S (PidState K) F), s.ctrlState.Good → s.tprev ≤ s.tnext →
      (scaled s.y (solverOut cfg s).y (cfg.cleanErr (solverOut cfg s).err)).IsErr →
      (adaptOut cfg s).tprev ≤ (adaptOut cfg s).tnext ∧ (adaptOut cfg s).state.Good := by
    intro s hg hle hxs
    obtain ⟨f, d, r, hr, hk, _, h1, h2, h3, h4, h5, h6, _, hgood⟩ :=
      adapt_cases p hp s.ctrlState hg s.tprev s.tnext _ hxs
    have hf : 0 < f := by
      rcases Bool.eq_false_or_eq_true r.keep with h | h
      · exact lt_of_lt_of_le one_pos (h1 h).1
      · exact lt_of_lt_of_le hp.factormin_pos (h2 h).1
    have hd : 0 ≤ d := by
      rcases h5 with h | ⟨_, _, h⟩
      · have h0 : 0 ≤ (s.tnext - s.tprev) * f := mul_nonneg (by linarith) hf.le
        rw [h]
        unfold clampDt
        rw [hmin]
        cases hM : p.dtmax with
        | none => exact h0
        | some M => exact le_min h0 (hmax M hM)
      · rw [hmin] at h; cases h
    have hao : adaptOut cfg s =
        { keep := r.keep, tprev := if r.keep then s.tnext else s.tprev,
          tnext := (if r.keep then s.tnext else s.tprev) + d, madeJump := false, state := r.state,
          result := r.result } := by
      have e : adaptOut cfg s = (pidWith p scaled).adapt s.tprev s.tnext s.y (solverOut cfg s).y
          (cfg.cleanErr (solverOut cfg s).err) s.ctrlState := by
        rw [← hc]; rfl
      rw [e]
      simp only [pidWith]
      rw [hr, h3, h4]
      rfl
    rw [hao]
    exact ⟨by simp only; linarith, hgood⟩
  have hE : ∀ s : Core K Y D S (PidState K) F, (adaptOut cfg s).Exact s.tprev s.tnext := by
    intro s
    have := pidWith_exact p scaled s.tprev s.tnext s.y (solverOut cfg s).y
      (cfg.cleanErr (solverOut cfg s).err) s.ctrlState
    rw [← hc] at this
    exact this
  rw [log_eq] at hx ⊢
  have hall := (run_inv cfg (fun s => s.ctrlState.Good ∧ s.tprev ≤ s.tnext ∧ s.tnext ≤ cfg.t1 ∧ cfg.t0 ≤ s.tprev)
    cfg.maxSteps (initState cfg y0 tnext .fresh ss mj).core
    ⟨fresh_good, le_min ht hwf.le, min_le_right _ _, le_refl _⟩ (by
      intro s hs _ hI
      obtain ⟨hF, hG⟩ := hstep s hI.1 hI.2.1 (hx (expectedCall cfg s) (List.mem_map.2 ⟨s, hs, rfl⟩))
      have hpt : (adaptOut cfg s).tprev ≤ cfg.t1 := by
        rcases Bool.eq_false_or_eq_true (adaptOut cfg s).keep with h | h
        · rw [(hE s).1 h]; exact hI.2.2.1
        · rw [(hE s).2 h]; exact le_trans hI.2.1 hI.2.2.1
      have hp0 : cfg.t0 ≤ (adaptOut cfg s).tprev := by
        rcases Bool.eq_false_or_eq_true (adaptOut cfg s).keep with h | h
        · rw [(hE s).1 h]; exact hI.2.2.2.trans hI.2.1
        · rw [(hE s).2 h]; exact hI.2.2.2
      refine ⟨hG, ?_, ?_, le_min hp0 hwf.le⟩
      · show min (adaptOut cfg s).tprev cfg.t1 ≤ clipToEnd cfg.mid (min (adaptOut cfg s).tprev cfg.t1)
          (adaptOut cfg s).tnext cfg.t1 cfg.floor (adaptOut cfg s).keep
        rw [min_eq_left hpt]
        unfold clipToEnd
        simp only
        split
        · split
          · exact hpt
          · exact hwf.le_mid _ hpt
        · exact hF
      · show clipToEnd cfg.mid (min (adaptOut cfg s).tprev cfg.t1)
          (adaptOut cfg s).tnext cfg.t1 cfg.floor (adaptOut cfg s).keep ≤ cfg.t1
        rw [min_eq_left hpt]
        unfold clipToEnd
        simp only
        split
        · split
          · exact le_refl _
          · exact hwf.mid_le _ hpt
        · rename_i h; exact (not_lt.1 h).trans hwf.floor_le)).1
  intro c hcm
  obtain ⟨s, hs, rfl⟩ := List.mem_map.1 hcm
  exact ⟨(hall s hs).2.2.2, (hall s hs).2.1, (hall s hs).2.2.1⟩

end

/-! ### Norms -/

section
variable {K : Type} [Field K] [LinearOrder K] [IsStrictOrderedRing K] {d : ℕ}

theorem scaledVec_some (p : Pid K) (hatol : 0 < p.atol) (hrtol : 0 ≤ p.rtol) (y0 y1 e : Fin d → K) :
    p.scaledVec y0 y1 (some e) = p.norm
      [(List.ofFn fun i => e i / (p.atol + p.rtol * max |y0 i| |y1 i|)).map XVal.fin] := by
  have h := scaledError_eq p hatol hrtol [List.ofFn fun i => (y0 i, some (y1 i), e i)]
  have e0 : treeY0 [List.ofFn fun i => (y0 i, some (y1 i), e i)] = vecTree y0 := by
    simp only [treeY0, vecTree, List.map_cons, List.map_nil, List.map_ofFn]; rfl
  have e1 : treeY1 [List.ofFn fun i => (y0 i, some (y1 i), e i)] = vecTree y1 := by
    simp only [treeY1, vecTree, List.map_cons, List.map_nil, List.map_ofFn]; rfl
  have e2 : treeErr [List.ofFn fun i => (y0 i, some (y1 i), e i)] = errTree d (some e) := by
    simp only [treeErr, errTree, vecTree, List.map_cons, List.map_nil, List.map_ofFn]; rfl
  have e3 : specScaled p (List.ofFn fun i => (y0 i, some (y1 i), e i))
      = List.ofFn fun i => e i / (p.atol + p.rtol * max |y0 i| |y1 i|) := by
    unfold specScaled
    rw [if_neg, List.map_ofFn]
    · rfl
    · rintro ⟨c, hc, h⟩
      obtain ⟨i, rfl⟩ := (List.mem_ofFn' _ _).1 hc
      cases h
  rw [e0, e1, e2] at h
  unfold Pid.scaledVec
  rw [h, List.map_cons, List.map_nil, e3]

theorem linf_belowMax : NormBelowMax (linf : XTree K → XVal K) := by
  intro t v hv ht
  have key : ∀ (l : List K) (w : K), 0 ≤ w → w ≤ v → (∀ x ∈ l, |x| ≤ v) →
      ∃ w', 0 ≤ w' ∧ w' ≤ v ∧
        (l.map XVal.fin).foldl (fun a x => XVal.max a x.abs) (.fin w) = .fin w' := by
    intro l
    induction l with
    | nil => intro w h0 h1 _; exact ⟨w, h0, h1, rfl⟩
    | cons x l ih =>
      intro w h0 h1 hl
      simp only [List.map_cons, List.foldl_cons]
      rw [XVal.abs_fin, XVal.max_fin]
      exact ih _ (le_max_of_le_left h0) (max_le h1 (hl x (by simp))) fun y hy => hl y (by simp [hy])
  have e : (t.map fun l => l.map XVal.fin).flatMap id = (t.flatMap id).map XVal.fin := by
    rw [List.flatMap_map, List.map_flatMap]; rfl
  unfold linf
  rw [e]
  refine key _ 0 le_rfl hv fun x hx => ?_
  obtain ⟨l, hl, hxl⟩ := List.mem_flatMap.1 hx
  exact ht l hl x hxl

end

theorem rmsNorm_belowMax : NormBelowMax rmsNorm := by
  intro t v hv ht
  have e : (t.map fun l => l.map XVal.fin).flatMap id = (t.flatMap id).map XVal.fin := by
    rw [List.flatMap_map, List.map_flatMap]; rfl
  have hl : ∀ x ∈ t.flatMap id, |x| ≤ v := by
    intro x hx
    obtain ⟨l, hl, hxl⟩ := List.mem_flatMap.1 hx
    exact ht l hl x hxl
  generalize t.flatMap id = l at e hl
  unfold rmsNorm
  simp only [e]
  have h1 : (l.map XVal.fin).any XVal.isNan = false := by
    rw [List.any_eq_false]; intro x hx; obtain ⟨y, _, rfl⟩ := List.mem_map.1 hx; simp [XVal.isNan]
  have h2 : (l.map XVal.fin).any XVal.isInf = false := by
    rw [List.any_eq_false]; intro x hx; obtain ⟨y, _, rfl⟩ := List.mem_map.1 hx; simp [XVal.isInf]
  rw [h1, h2]
  refine ⟨_, Real.sqrt_nonneg _, ?_, rfl⟩
  rw [List.map_map, List.length_map]
  have e3 : (l.map ((fun x : XVal ℝ => x.toK 0 ^ 2) ∘ XVal.fin)).sum ≤ l.length * v ^ 2 := by
    clear e h1 h2
    induction l with
    | nil => simp
    | cons x l ih =>
      have h4 : x ^ 2 ≤ v ^ 2 := by rw [← sq_abs]; exact pow_le_pow_left₀ (abs_nonneg _) (hl x (by simp)) 2
      have h5 := ih fun y hy => hl y (by simp [hy])
      simp only [List.map_cons, List.sum_cons, Function.comp, XVal.toK, List.length_cons] at h5 ⊢
      push_cast
      linarith
  apply Real.sqrt_le_iff.2 ⟨hv, ?_⟩
  rcases Nat.eq_zero_or_pos l.length with h | h
  · rw [h]; simp; positivity
  · rw [div_le_iff₀ (by exact_mod_cast h)]; linarith

/-! ### The solve -/

section
variable {d : ℕ} {D S O F : Type} [LinearOrder F] [Zero F]

theorem scaledVec_le (p : Pid ℝ) (hatol : 0 < p.atol) (hrtol : 0 ≤ p.rtol) (hnorm : NormBelowMax p.norm)
    (y0 y1 e : Fin d → ℝ) :
    ∃ w, 0 ≤ w ∧ w ≤ ‖e‖ / p.atol ∧ p.scaledVec y0 y1 (some e) = .fin w := by
  rw [scaledVec_some p hatol hrtol]
  refine hnorm [_] _ (by positivity) ?_
  intro l hl x hx
  rw [List.mem_singleton.1 hl] at hx
  obtain ⟨i, rfl⟩ := (List.mem_ofFn' _ _).1 hx
  have h0 : 0 ≤ p.rtol * max |y0 i| |y1 i| := mul_nonneg hrtol (le_max_of_le_left (abs_nonneg _))
  rw [abs_div, abs_of_pos (by linarith : 0 < p.atol + p.rtol * max |y0 i| |y1 i|)]
  exact div_le_div₀ (norm_nonneg _) (norm_le_pi_norm e i) hatol (by linarith)

/-- **C82.** Any tame one-step method with `PIDController`. -/
theorem C82_tame (a b : ℝ) (hab : a ≤ b) (C R : ℝ) (hC : 0 ≤ C) (hR : 0 ≤ R) (p : Pid ℝ) (hp : p.Valid) (hmin : p.dtmin = none)
    (hmax : ∀ M, p.dtmax = some M → 0 < M) (hatol : 0 < p.atol) (hrtol : 0 ≤ p.rtol)
    (hnorm : NormBelowMax p.norm) (dt0 : ℝ) (hdt0 : 0 < dt0) :
    ∃ (H : ℝ) (M : ℕ), 0 < H ∧
      ∀ (D S O F : Type) [LinearOrder F] [Zero F] (cfg : Cfg ℝ (Fin d → ℝ) (Option (Fin d → ℝ)) D S (PidState ℝ) O F)
      (V : ℝ → (Fin d → ℝ) → S → Bool → Prop) (_ : cfg.WF) (_ : cfg.t0 = a) (_ : cfg.t1 = b)
      (_ : cfg.solver.Tame V a b C) (_ : cfg.controller = pidWith p p.scaledVec)
      (_ : ∀ e, cfg.cleanErr (some e) = some e) (_ : ∀ t, cfg.mid t b = (t + b) / 2) (_ : b - cfg.floor ≤ H)
      (_ : cfg.events = []) (_ : cfg.rootFinder = none) (_ : M ≤ cfg.maxSteps)
      (y0 : Fin d → ℝ) (_ : ‖y0‖ ≤ R) (tnext : ℝ) (ctrl : PidState ℝ)
      (_ : p.init (.fin a) (.fin dt0) = (.fin tnext, ctrl)) (ss : S) (mj : Bool) (_ : V a y0 ss mj),
      (solve cfg y0 tnext ctrl ss mj).result = .successful ∧ (solve cfg y0 tnext ctrl ss mj).tfinal = b ∧
      (callLog cfg y0 tnext ctrl ss mj).length ≤ M := by
  -- the values stay bounded by `R'`
  obtain ⟨R', hR'⟩ : ∃ R', R' = Real.exp (C * (b - a)) * (R + C * (b - a)) := ⟨_, rfl⟩
  have hba : 0 ≤ b - a := sub_nonneg.2 hab
  have hR'0 : 0 ≤ R' := by rw [hR']; positivity
  obtain ⟨H, hH⟩ : ∃ H, H = p.atol / (2 * (C + 1) * (1 + R')) := ⟨_, rfl⟩
  have hH0 : 0 < H := by rw [hH]; positivity
  have hHatol : C * H * (1 + R') / p.atol < 1 := by
    have h1 : C * H * (1 + R') / p.atol = C / (2 * (C + 1)) := by
      rw [hH]; field_simp
    rw [h1, div_lt_one (by positivity)]; linarith
  obtain ⟨δ, hδ⟩ : ∃ δ, δ = min (min dt0 (match p.dtmax with | some M => M | none => dt0))
    (min (H * p.factormin) (H / 2)) := ⟨_, rfl⟩
  have hδ0 : 0 < δ := by
    rw [hδ]
    refine lt_min (lt_min hdt0 ?_) (lt_min (mul_pos hH0 hp.factormin_pos) (by linarith))
    cases hM : p.dtmax with
    | none => exact hdt0
    | some M => exact hmax M hM
  have hδ1 : δ ≤ dt0 := by rw [hδ]; exact (min_le_left _ _).trans (min_le_left _ _)
  have hδ2 : ∀ M, p.dtmax = some M → δ ≤ M := by
    intro M hM
    rw [hδ, hM]; exact (min_le_left _ _).trans (min_le_right _ _)
  have hδ3 : δ ≤ H * p.factormin := by rw [hδ]; exact (min_le_right _ _).trans (min_le_left _ _)
  have hδ4 : δ ≤ H / 2 := by rw [hδ]; exact (min_le_right _ _).trans (min_le_right _ _)
  obtain ⟨A, hA⟩ := exists_nat_ge ((b - a) / δ)
  have hA' : b - a ≤ A * δ := (div_le_iff₀ hδ0).1 hA
  have hq1 : max p.safety (1 / 2) < 1 := max_lt hp.safety_lt (by norm_num)
  have hq0 : 0 ≤ max p.safety (1 / 2) := le_trans (by norm_num) (le_max_right _ _)
  obtain ⟨N, hN⟩ := exists_pow_lt_of_lt_one (div_pos hH0 (by linarith : 0 < b - a + 1)) hq1
  have hN' : max p.safety (1 / 2) ^ N * (b - a) ≤ H := by
    have h1 := (lt_div_iff₀ (by linarith : 0 < b - a + 1)).1 hN
    have h2 : 0 ≤ max p.safety (1 / 2) ^ N := pow_nonneg hq0 N
    nlinarith
  refine ⟨H, A * (N + 1), hH0, ?_⟩
  intro D S O F _ _ cfg V hwf ha hb htame hc hclean hmid hfl hev hroot hsteps y0 hy0 tnext ctrl hinit ss mj hV
  subst ha hb
  -- all scaled errors are numbers
  have herr : ∀ c ∈ callLog cfg y0 tnext ctrl ss mj, c.ctrlY0 = c.solverY ∧
      c.ctrlErr = cfg.cleanErr (cfg.solver.step c.solverT0 c.solverT1 c.solverY c.solverState c.solverMadeJump).err ∧
      c.ctrlY1 = (cfg.solver.step c.solverT0 c.solverT1 c.solverY c.solverState c.solverMadeJump).y := by
    intro c hcm
    rw [log_eq] at hcm
    obtain ⟨s, _, rfl⟩ := List.mem_map.1 hcm
    exact ⟨rfl, rfl, rfl⟩
  have hx : ∀ c ∈ callLog cfg y0 tnext ctrl ss mj, (p.scaledVec c.ctrlY0 c.ctrlY1 c.ctrlErr).IsErr := by
    intro c hcm
    rw [(herr c hcm).2.1]
    obtain ⟨e, he⟩ := Option.ne_none_iff_exists'.1
      (htame.ok c.solverT0 c.solverT1 c.solverY c.solverState c.solverMadeJump).2
    rw [he, hclean]
    obtain ⟨w, h0, _, hw⟩ := scaledVec_le p hatol hrtol hnorm c.ctrlY0 c.ctrlY1 e
    rw [hw]
    exact Or.inr ⟨w, h0, rfl⟩
  have hfor' := pidWith_forward p hp hmin (fun M hM => (hmax M hM).le) p.scaledVec cfg hwf hc y0 dt0 tnext ctrl hdt0.le hinit
    ss mj hx
  have hfor := fun c hcm => (hfor' c hcm).2.1
  -- the values are bounded
  have hacc : cfg.solver.Accurate V (fun _ => (0 : Fin d → ℝ)) cfg.t0 cfg.t1 (cfg.t1 - cfg.t0) C 0 C 0 :=
    { valid := fun t t' x st mj hv h1 h2 h3 _ => htame.valid t t' x st mj hv h1 h2 h3
      error := fun t t' x st mj hv h1 h2 h3 _ _ => by
        have h4 := htame.growth t t' x st mj hv h1 h2 h3
        have h5 := norm_add_le ((cfg.solver.step t t' x st mj).y - x) x
        rw [sub_add_cancel] at h5
        rw [sub_zero, sub_zero]
        rw [zero_add, pow_one, zero_mul, add_zero]
        linarith }
  have hbd := (global_error cfg hwf V (fun _ => 0) (cfg.t1 - cfg.t0) C 0 C hC le_rfl hC 0 hacc
    (by rw [hc]; exact pidWith_exact p _) y0 tnext ctrl ss mj hV hfor
    (fun c _ _ => by rw [(htame.ok _ _ _ _ _).1]; rfl) (cfg.t1 - cfg.t0) le_rfl
    (fun c hcm _ => by
      obtain ⟨h1, -, h2⟩ := hfor' c hcm
      linarith)).1
  have hsmall : ∀ c ∈ callLog cfg y0 tnext ctrl ss mj, c.solverT1 - c.solverT0 ≤ H →
      (p.scaledVec c.ctrlY0 c.ctrlY1 c.ctrlErr).lt (.fin 1) = true := by
    intro c hcm hlen
    obtain ⟨⟨⟨h1, h2⟩, h3⟩, h4⟩ := hbd c hcm
    obtain ⟨e, he, hle⟩ := htame.err _ _ _ _ _ h3 h1 (hfor c hcm) h2
    rw [(herr c hcm).2.1, he, hclean]
    obtain ⟨w, h0, hw1, hw⟩ := scaledVec_le p hatol hrtol hnorm c.ctrlY0 c.ctrlY1 e
    rw [hw]
    have hT : c.solverT0 ≤ cfg.t1 := (hfor c hcm).trans h2
    have hy : ‖c.solverY‖ ≤ R' := by
      rw [sub_zero, sub_zero] at h4
      refine h4.trans ?_
      unfold errorBound
      rw [hR', pow_zero, mul_one, add_zero]
      have : 0 ≤ c.solverT0 - cfg.t0 := sub_nonneg.2 h1
      gcongr
    have h5 : ‖e‖ ≤ C * H * (1 + R') := hle.trans (by
      have : 0 ≤ c.solverT1 - c.solverT0 := sub_nonneg.2 (hfor c hcm)
      gcongr)
    have h6 : w < 1 := lt_of_le_of_lt (hw1.trans (div_le_div_of_nonneg_right h5 hatol.le)) hHatol
    simpa [XVal.lt] using h6
  exact C82_finishes p hp hmin p.scaledVec cfg hc hmid hwf.le hwf.floor_le hev hroot y0 dt0 tnext ctrl hinit ss mj H δ hfl
    hδ0 hδ1 hδ2 hδ3 hδ4 hx hsmall (fun c _ _ => (htame.ok _ _ _ _ _).1) A N hA' hN' hsteps

end
/-! ### Explicit Runge-Kutta methods -/

section
variable {m s : ℕ} {c : ℕ → ℚ} {d : ℕ} {J : Type}

/-- The error estimate of an explicit method. -/
theorem explicit_err {E : Type} [NormedAddCommGroup E] [NormedSpace ℝ E] [Module ℚ E] (tab : Fin m → Tableau ℚ)
    (hok : methodOK s c tab = true) (hex : ∀ p, (tab p).implicit = false)
    (f : Fin m → ℝ → E → E) (cj : CalcJac) (rF rK : RootFinder E J) (nj : J)
    (t h : ℝ) (y0 : E) (st : RK.State m E) (mj : Bool)
    (hst : (odeRK tab f cj rF rK nj).ValidState t y0 st mj) :
    ((odeRK tab f cj rF rK nj).step t (t + h) y0 st mj).err
        = some (∑ p, ∑ i ∈ range s, ((tab p).bError.getD i 0 : ℝ) • exK tab f cj rF rK nj t h y0 p i) := by
  obtain ⟨hns, hwf, hfs⟩ := odeRK_WF hok f cj rF rK nj
  set rk := odeRK tab f cj rF rK nj with hrk
  have hroot : rk.RootExact := rootExact_of_explicit tab f cj rF rK nj hex
  have hexr : ∀ p, (rk.tab p).implicit = false := hex
  have hok0 : (rk.step t (t + h) y0 rk.init false).result.isOkay = true := by
    rw [C41_explicit_succeeds rk hexr]; rfl
  have hok1 : (rk.step t (t + h) y0 st mj).result.isOkay = true := by
    rw [C41_explicit_succeeds rk hexr]; rfl
  obtain ⟨k0, a1, a2, a3, a4, -⟩ := C41_step_formula rk hwf hfs hroot t (t + h) y0 rk.init false
    (validState_init tab f cj rF rK nj t y0 false) hok0
  obtain ⟨k1, b1, b2, b3, b4, -⟩ := C41_step_formula rk hwf hfs hroot t (t + h) y0 st mj hst hok1
  have huniq := C41_explicit_unique rk hexr t (t + h) y0 k0 k1 a1 b1
  have a4' : ∀ p, ∀ i < s, exK tab f cj rF rK nj t h y0 p i = k0 p i := by
    intro p i hi; exact a4 p i (by rw [hns]; exact hi)
  rw [b3]
  unfold RK.combine
  rw [hns]
  congr 1
  apply sum_congr rfl; intro p _
  apply sum_congr rfl; intro i hi
  have hi' := mem_range.1 hi
  rw [a4' p i hi', huniq i (by rw [hns]; exact hi') p, qsmul_eq]
  rfl

/-- The stages of an explicit method grow at most linearly. -/
theorem exK_bound {E : Type} [NormedAddCommGroup E] [NormedSpace ℝ E] [Module ℚ E] (tab : Fin m → Tableau ℚ)
    (hok : methodOK s c tab = true) (hex : ∀ p, (tab p).implicit = false)
    (f : Fin m → ℝ → E → E) (cj : CalcJac) (rF rK : RootFinder E J) (nj : J)
    (L : ℝ) (hL : ∀ p t x x', ‖f p t x - f p t x'‖ ≤ L * ‖x - x'‖)
    (hcont : ∀ p, Continuous fun t => f p t 0) (a b : ℝ) :
    ∀ n ≤ s, ∃ C, 0 ≤ C ∧ ∀ i < n, ∀ p, ∀ t ∈ Set.Icc a b, ∀ h, 0 ≤ h → h ≤ b - a → ∀ x,
      ‖exK tab f cj rF rK nj t h x p i‖ ≤ C * h * (1 + ‖x‖) := by
  intro n
  induction n with
  | zero => intro _; exact ⟨0, le_rfl, fun i hi => by omega⟩
  | succ n ih =>
    intro hn
    obtain ⟨C, hC, hb⟩ := ih (by omega)
    -- the field at zero, at the times of this stage
    obtain ⟨G, hG0, hG⟩ : ∃ G, 0 ≤ G ∧ ∀ p, ∀ t ∈ Set.Icc a b, ∀ h ∈ Set.Icc 0 (b - a),
        ‖f p (t + ((tab p).abscissa n : ℝ) * h) 0‖ ≤ G := by
      have h1 : ∀ p, ∃ G, ∀ x ∈ Set.Icc a b ×ˢ Set.Icc 0 (b - a),
          ‖f p (x.1 + ((tab p).abscissa n : ℝ) * x.2) 0‖ ≤ G := by
        intro p
        refine (isCompact_Icc.prod isCompact_Icc).exists_bound_of_continuousOn ?_
        exact ((hcont p).comp (by fun_prop : Continuous fun x : ℝ × ℝ =>
          x.1 + ((tab p).abscissa n : ℝ) * x.2)).continuousOn
      choose G hG using h1
      refine ⟨∑ p, |G p|, sum_nonneg fun _ _ => abs_nonneg _, fun p t ht h hh => ?_⟩
      exact (hG p (t, h) ⟨ht, hh⟩).trans ((le_abs_self _).trans
        (single_le_sum (f := fun p => |G p|) (fun _ _ => abs_nonneg _) (mem_univ p)))
    let B : ℝ := ∑ q : Fin m, ∑ j ∈ range n, |((tab q).a n j : ℝ)|
    have hB : 0 ≤ B := by positivity
    refine ⟨max C (G + |L| * (1 + B * (C * |b - a|))), le_max_of_le_left hC, ?_⟩
    intro i hi p t ht h h0 hH x
    have hx : 0 ≤ ‖x‖ := norm_nonneg x
    rcases Nat.lt_succ_iff_lt_or_eq.1 hi with hi' | rfl
    · refine (hb i hi' p t ht h h0 hH x).trans ?_
      gcongr
      exact le_max_left _ _
    have e := (explicit_step tab f cj rF rK nj hok hex t h x _ false
      (validState_init tab f cj rF rK nj _ _ _)).2 i (by omega) p
    rw [e, norm_smul, Real.norm_of_nonneg h0]
    set z := x + ∑ q, ∑ j ∈ range i, ((tab q).a i j : ℝ) • exK tab f cj rF rK nj t h x q j with hz
    have h1 : ‖z‖ ≤ (1 + B * (C * |b - a|)) * (1 + ‖x‖) := by
      have h2 : ‖∑ q, ∑ j ∈ range i, ((tab q).a i j : ℝ) • exK tab f cj rF rK nj t h x q j‖
          ≤ B * (C * |b - a| * (1 + ‖x‖)) := by
        simp only [B, sum_mul]
        refine (norm_sum_le _ _).trans (sum_le_sum fun q _ => ?_)
        refine (norm_sum_le _ _).trans (sum_le_sum fun j hj => ?_)
        rw [norm_smul, Real.norm_eq_abs]
        apply mul_le_mul_of_nonneg_left _ (abs_nonneg _)
        refine (hb j (mem_range.1 hj) q t ht h h0 hH x).trans ?_
        gcongr
        exact hH.trans (le_abs_self _)
      calc ‖z‖ ≤ ‖x‖ + B * (C * |b - a| * (1 + ‖x‖)) := (norm_add_le _ _).trans (by gcongr)
        _ ≤ _ := by linarith
    have h2 : ‖f p (t + ((tab p).abscissa i : ℝ) * h) z‖ ≤ (G + |L| * (1 + B * (C * |b - a|))) * (1 + ‖x‖) := by
      have h3 := hL p (t + ((tab p).abscissa i : ℝ) * h) z 0
      rw [sub_zero] at h3
      have h4 := norm_add_le (f p (t + ((tab p).abscissa i : ℝ) * h) z - f p (t + ((tab p).abscissa i : ℝ) * h) 0)
        (f p (t + ((tab p).abscissa i : ℝ) * h) 0)
      rw [sub_add_cancel] at h4
      have h5 := hG p t ht h ⟨h0, hH⟩
      have h6 : L * ‖z‖ ≤ |L| * ((1 + B * (C * |b - a|)) * (1 + ‖x‖)) :=
        mul_le_mul (le_abs_self L) h1 (norm_nonneg _) (abs_nonneg _)
      have h7 : G ≤ G * (1 + ‖x‖) := le_mul_of_one_le_right hG0 (by linarith)
      calc _ ≤ L * ‖z‖ + G := by linarith
        _ ≤ |L| * ((1 + B * (C * |b - a|)) * (1 + ‖x‖)) + G * (1 + ‖x‖) := add_le_add h6 h7
        _ = _ := by ring
    calc _ ≤ h * ((G + |L| * (1 + B * (C * |b - a|))) * (1 + ‖x‖)) := mul_le_mul_of_nonneg_left h2 h0
      _ = (G + |L| * (1 + B * (C * |b - a|))) * h * (1 + ‖x‖) := by ring
      _ ≤ _ := by
        gcongr
        exact le_max_right _ _

theorem explicit_tame (tab : Fin m → Tableau ℚ)
    (hok : methodOK s c tab = true) (hex : ∀ p, (tab p).implicit = false)
    (f : Fin m → ℝ → (Fin d → ℝ) → Fin d → ℝ) (cj : CalcJac) (rF rK : RootFinder (Fin d → ℝ) J) (nj : J)
    (L : ℝ) (hL : ∀ p t x x', ‖f p t x - f p t x'‖ ≤ L * ‖x - x'‖)
    (hcont : ∀ p, Continuous fun t => f p t 0) (a b : ℝ) :
    ∃ C, 0 ≤ C ∧ ∀ interp, Solver.Tame { step := (odeRK tab f cj rF rK nj).step, interp := interp }
      (odeRK tab f cj rF rK nj).ValidState a b C := by
  obtain ⟨K, hK, hb⟩ := exK_bound tab hok hex f cj rF rK nj L hL hcont a b s le_rfl
  have hsum : ∀ (w : Tableau ℚ → List ℚ), ∀ t ∈ Set.Icc a b, ∀ h, 0 ≤ h → h ≤ b - a → ∀ x,
      ‖∑ p, ∑ i ∈ range s, ((w (tab p)).getD i 0 : ℝ) • exK tab f cj rF rK nj t h x p i‖
      ≤ (∑ p, ∑ i ∈ range s, |((w (tab p)).getD i 0 : ℝ)|) * K * h * (1 + ‖x‖) := by
    intro w t ht h h0 hH x
    rw [mul_assoc, mul_assoc, ← mul_assoc K]
    simp only [sum_mul]
    refine (norm_sum_le _ _).trans (sum_le_sum fun q _ => ?_)
    refine (norm_sum_le _ _).trans (sum_le_sum fun j hj => ?_)
    rw [norm_smul, Real.norm_eq_abs]
    exact mul_le_mul_of_nonneg_left (hb j (mem_range.1 hj) q t ht h h0 hH x) (abs_nonneg _)
  set B1 : ℝ := ∑ p, ∑ i ∈ range s, |(((tab p).bSol).getD i 0 : ℝ)| with hB1
  set B2 : ℝ := ∑ p, ∑ i ∈ range s, |(((tab p).bError).getD i 0 : ℝ)| with hB2
  have hB1' : 0 ≤ B1 := by positivity
  have hB2' : 0 ≤ B2 := by positivity
  have hres : ∀ t t' x st mj, ((odeRK tab f cj rF rK nj).step t t' x st mj).result = .successful := by
    intro t t' x st mj
    exact C41_explicit_succeeds _ hex _ _ _ _ _
  refine ⟨B1 * K + B2 * K, by positivity, fun interp => ⟨?_, ?_, ?_, ?_⟩⟩
  · intro t t' x st mj
    refine ⟨hres t t' x st mj, ?_⟩
    have e : ((odeRK tab f cj rF rK nj).step t t' x st mj).err
        = if ((odeRK tab f cj rF rK nj).step t t' x st mj).result.isOkay then
          some (∑ p, treeDot ((odeRK tab f cj rF rK nj).tab p).bError
            (((odeRK tab f cj rF rK nj).step t t' x st mj).dense.ks p)) else none := rfl
    show ((odeRK tab f cj rF rK nj).step t t' x st mj).err ≠ none
    rw [e, hres, if_pos (show Result.successful.isOkay = true from rfl)]
    exact Option.some_ne_none _
  · intro t t' x st mj hst _ _ _ mj'
    exact valid_after hok f cj rF rK nj (rootExact_of_explicit tab f cj rF rK nj hex) t t' x st mj hst
      (by rw [hres]; rfl) mj'
  · intro t t' x st mj hst h1 h2 h3
    have e := (explicit_step tab f cj rF rK nj hok hex t (t' - t) x st mj hst).1
    rw [add_sub_cancel] at e
    show ‖((odeRK tab f cj rF rK nj).step t t' x st mj).y - x‖ ≤ _
    rw [e, add_sub_cancel_left]
    have hh : 0 ≤ t' - t := sub_nonneg.2 h2
    refine (hsum Tableau.bSol t ⟨h1, h2.trans h3⟩ (t' - t) hh (by linarith) x).trans ?_
    have : 0 ≤ B2 * K * (t' - t) * (1 + ‖x‖) := by positivity
    linarith
  · intro t t' x st mj hst h1 h2 h3
    have e := explicit_err tab hok hex f cj rF rK nj t (t' - t) x st mj hst
    rw [add_sub_cancel] at e
    refine ⟨_, e, ?_⟩
    have hh : 0 ≤ t' - t := sub_nonneg.2 h2
    refine (hsum Tableau.bError t ⟨h1, h2.trans h3⟩ (t' - t) hh (by linarith) x).trans ?_
    have : 0 ≤ B1 * K * (t' - t) * (1 + ‖x‖) := by positivity
    linarith

/-- **C82.** Every explicit Runge-Kutta method with `PIDController`. -/
theorem C82_explicit (tab : Fin m → Tableau ℚ) (hok : methodOK s c tab = true) (hex : ∀ p, (tab p).implicit = false) :
    AdaptiveFinishes tab := by
  intro d J f cj rF rK nj L hL hcont a b hab R p hp hmin hmax hatol hrtol hnorm dt0 hdt0
  obtain ⟨C, hC, htame⟩ := explicit_tame tab hok hex f cj rF rK nj L hL hcont a b
  obtain ⟨H, M, hH, hmain⟩ := C82_tame (d := d) a b hab C (max R 0) hC (le_max_right _ _) p hp hmin hmax hatol hrtol hnorm
    dt0 hdt0
  refine ⟨H, M, hH, ?_⟩
  intro O F _ _ cfg hwf ha hb hsolver hc hclean hmid hfl hev hroot hsteps y0 hy0 tnext ctrl hinit mj
  have ht := htame cfg.solver.interp
  rw [← hsolver] at ht
  exact hmain _ _ O F cfg _ hwf ha hb ht hc hclean hmid hfl hev hroot hsteps y0 (hy0.trans (le_max_left _ _)) tnext ctrl
    hinit _ mj (validState_init tab f cj rF rK nj _ _ _)

end
/-- **C82.** The explicit solvers of the library that estimate errors. -/
theorem C82_solvers : AdaptiveFinishes ![Tab.Heun.tableau] ∧ AdaptiveFinishes ![Tab.Midpoint.tableau] ∧
    AdaptiveFinishes ![Tab.Ralston.tableau] ∧ AdaptiveFinishes ![Tab.Bosh3.tableau] ∧
    AdaptiveFinishes ![Tab.Dopri5.tableau] ∧ AdaptiveFinishes ![Tab.Tsit5.tableau] ∧
    AdaptiveFinishes ![Tab.Dopri8.tableau] :=
  ⟨C82_explicit (s := 2) (c := Tab.Heun.tableau.abscissa) _ (by decide +kernel) (by decide +kernel),
   C82_explicit (s := 2) (c := Tab.Midpoint.tableau.abscissa) _ (by decide +kernel) (by decide +kernel),
   C82_explicit (s := 2) (c := Tab.Ralston.tableau.abscissa) _ (by decide +kernel) (by decide +kernel),
   C82_explicit (s := 4) (c := Tab.Bosh3.tableau.abscissa) _ (by decide +kernel) (by decide +kernel),
   C82_explicit (s := 7) (c := Tab.Dopri5.tableau.abscissa) _ (by decide +kernel) (by decide +kernel),
   C82_explicit (s := 7) (c := Tab.Tsit5.tableau.abscissa) _ (by decide +kernel) (by decide +kernel),
   C82_explicit (s := 14) (c := Tab.Dopri8.tableau.abscissa) _ (by decide +kernel) (by decide +kernel)⟩

/-! ### An example -/

/-- The defaults of `PIDController`, with `rtol = 1e-3`, `atol = 1e-6`, for a method of order 5. -/
noncomputable def pidDefault : Pid ℝ :=
  { rtol := 1 / 1000, atol := 1 / 1000000, norm := rmsNorm, rpow := fun b c => b ^ c, pcoeff := 0, icoeff := 1,
    dcoeff := 0, dtmin := none, dtmax := none, forceDtmin := true, factormin := 1 / 5, factormax := 10, safety := 9 / 10,
    order := 5 }

theorem pidDefault_valid : pidDefault.Valid where
  rpow_pos := fun _ _ hb => Real.rpow_pos_of_pos hb _
  factormin_pos := by norm_num [pidDefault]
  factormin_le := by norm_num [pidDefault]
  safety_lt := by norm_num [pidDefault]
  le_factormax := by norm_num [pidDefault]

/-- The oscillator `x' = v, v' = -x`. -/
def oscillator : Fin 1 → ℝ → (Fin 2 → ℝ) → Fin 2 → ℝ := ![fun _ y => ![y 1, -y 0]]

theorem oscillator_lipschitz (p : Fin 1) (t : ℝ) (x x' : Fin 2 → ℝ) :
    ‖oscillator p t x - oscillator p t x'‖ ≤ 1 * ‖x - x'‖ := by
  fin_cases p
  rw [one_mul]
  refine (pi_norm_le_iff_of_nonneg (norm_nonneg _)).2 fun i => ?_
  fin_cases i
  · exact norm_le_pi_norm (x - x') 1
  · have h := norm_le_pi_norm (x - x') 0
    have e : (oscillator 0 t x - oscillator 0 t x') 1 = -((x - x') 0) := by
      simp [oscillator]; ring
    show ‖(oscillator 0 t x - oscillator 0 t x') 1‖ ≤ _
    rw [e, norm_neg]; exact h

noncomputable def oscillatorRK : RK 1 ℝ ℚ (Fin 2 → ℝ) (Fin 2 → ℝ) ℝ Unit :=
  odeRK ![Tab.Dopri5.tableau] oscillator .never (idealRoot _) (idealRoot _) ()

/-- The oscillator from 0 to `b`. -/
noncomputable def oscillatorCfg (b : ℝ) (n : ℕ) :
    Cfg ℝ (Fin 2 → ℝ) (Option (Fin 2 → ℝ)) (RK.Dense 1 (Fin 2 → ℝ)) (RK.State 1 (Fin 2 → ℝ)) (PidState ℝ) ℝ ℝ where
  solver := { step := oscillatorRK.step, interp := fun _ _ _ _ => 0 }
  controller := pidWith pidDefault pidDefault.scaledVec
  cleanErr := id
  events := []
  rootFinder := none
  dist := fun a b => a - b
  dummyDense := (oscillatorRK.step 0 0 0 oscillatorRK.init false).dense
  t0 := 0
  t1 := b
  floor := b
  mid := fun a b => (a + b) / 2
  subs := []
  dense := false
  maxSteps := n

/-- `Dopri5` with the default controller gets to the end of any interval, if it is given enough steps. -/
example (b : ℝ) (hb : 0 ≤ b) : ∃ M : ℕ, ∀ n ≥ M, ∀ y0, ‖y0‖ ≤ 1 →
    (solve (oscillatorCfg b n) y0 (1 / 100) .fresh oscillatorRK.init false).result = .successful ∧
    (solve (oscillatorCfg b n) y0 (1 / 100) .fresh oscillatorRK.init false).tfinal = b := by
  obtain ⟨H, M, hH, h⟩ := C82_solvers.2.2.2.2.1 2 Unit oscillator .never (idealRoot (Fin 2 → ℝ)) (idealRoot (Fin 2 → ℝ)) () 1
    oscillator_lipschitz (fun p => by fin_cases p; simp only [oscillator]; exact continuous_const) 0 b hb 1 pidDefault
    pidDefault_valid rfl (fun M hM => by cases hM) (by norm_num [pidDefault]) (by norm_num [pidDefault])
    rmsNorm_belowMax (1 / 100) (by norm_num)
  refine ⟨M, fun n hn y0 hy0 => ?_⟩
  have := h ℝ ℝ (oscillatorCfg b n)
    { le := hb, floor_le := le_refl b,
      le_mid := fun a (h : a ≤ b) => show a ≤ (a + b) / 2 by linarith
      mid_le := fun a (h : a ≤ b) => show (a + b) / 2 ≤ b by linarith } rfl rfl rfl rfl (fun _ => rfl) (fun _ => rfl)
    (by show b - b ≤ H; linarith) rfl rfl hn y0 hy0 (1 / 100) .fresh (by
      show (XVal.fin ((0 : ℝ) + 1 / 100), PidState.fresh) = _
      rw [zero_add]) false
  exact ⟨this.1, this.2.1⟩

/-! ### The last 100 units before `t1`: why the hypothesis on the floor is there -/

/-- `y' = 1`, with an error estimate of four times the length of the step: steps shorter than `1/4` are good enough. The
solve is from 0 to 1, all of which is beyond the floor. -/
def stuckCfg (n : ℕ) : Cfg ℚ ℚ ℚ ℚ Unit (PidState ℚ) ℚ ℚ where
  solver := { step := fun t t' y _ _ => { y := y + (t' - t), err := 4 * (t' - t), dense := 0, state := (),
                                          result := .successful },
              interp := fun _ _ _ t => t }
  controller := pidWith (pidQ none) fun _ _ e => .fin |e|
  cleanErr := id
  events := []
  rootFinder := none
  dist := fun a b => a - b
  dummyDense := 0
  t0 := 0
  t1 := 1
  floor := 0
  mid := fun a b => (a + b) / 2
  subs := []
  dense := false
  maxSteps := n

/-- **C82**, the exception: between the floor (100 floating point numbers before `t1`) and `t1` a rejected step is always
retried with half of what remains, however small a step the controller asks for. If that step is rejected as well, the
solve repeats it until `max_steps`. -/
theorem C82_floor_stuck (n : ℕ) :
    (solve (stuckCfg n) 0 1 .fresh () false).result = .maxStepsReached ∧
    (∀ c ∈ callLog (stuckCfg n) 0 1 .fresh () false,
      (c.solverT0, c.solverT1) = (0, 1) ∨ (c.solverT0, c.solverT1) = (0, 1 / 2)) ∧
    (pidQ none).init (.fin 0) (.fin 1) = (.fin 1, .fresh) := by
  have hrun := run_inv (stuckCfg n) (fun s => s.ctrlState.Good ∧ s.tprev = 0 ∧ (s.tnext = 1 ∨ s.tnext = 1 / 2) ∧
      s.result = .successful) n (initState (stuckCfg n) 0 1 .fresh () false).core
    ⟨fresh_good, rfl, Or.inl (show min (1 : ℚ) 1 = 1 from min_self 1), rfl⟩ (by
      rintro s - - ⟨hg, h0, h1, hres⟩
      have herr : 1 ≤ 4 * (s.tnext - s.tprev) := by
        rw [h0]; rcases h1 with h | h <;> rw [h] <;> norm_num
      have hpos : 0 < s.tnext - s.tprev := by linarith
      have hx : (XVal.fin |4 * (s.tnext - s.tprev)|).IsErr := Or.inr ⟨_, abs_nonneg _, rfl⟩
      obtain ⟨f, d, r, hr, hk, _, hf1, hf2, h3, h4, h5, _, h6, hgood⟩ :=
        adapt_cases (pidQ none) (pidQ_valid none) s.ctrlState hg s.tprev s.tnext _ hx
      have hkeep : r.keep = false := by
        rw [hk]
        unfold Pid.keep
        have : ¬ |4 * (s.tnext - s.tprev)| < 1 := not_lt.2 (herr.trans (le_abs_self _))
        show (XVal.fin |4 * (s.tnext - s.tprev)|).lt (.fin 1) = false
        show decide (|4 * (s.tnext - s.tprev)| < 1) = false
        exact decide_eq_false this
      rw [hkeep] at h3 h4
      simp only [Bool.false_eq_true, if_false] at h3 h4
      have hd : 0 < d := by
        have hf : 0 < f := lt_of_lt_of_le (by norm_num [pidQ]) (hf2 hkeep).1
        rcases h5 with h | ⟨_, _, h⟩
        · have e : clampDt (pidQ none) ((s.tnext - s.tprev) * f) = (s.tnext - s.tprev) * f := rfl
          rw [h, e]; exact mul_pos hpos hf
        · cases h
      have hao : adaptOut (stuckCfg n) s =
          { keep := false, tprev := s.tprev, tnext := s.tprev + d, madeJump := false, state := r.state,
            result := r.result } := by
        have e : adaptOut (stuckCfg n) s = (pidWith (pidQ none) fun _ _ e => .fin |e|).adapt s.tprev s.tnext s.y
            (s.y + (s.tnext - s.tprev)) (4 * (s.tnext - s.tprev)) s.ctrlState := rfl
        rw [e]
        simp only [pidWith]
        rw [hr, h3, h4, hkeep]
        rfl
      have b1 : (coreBody (stuckCfg n) s).1.tprev = min (adaptOut (stuckCfg n) s).tprev 1 := rfl
      have b2 : (coreBody (stuckCfg n) s).1.tnext = clipToEnd (stuckCfg n).mid (min (adaptOut (stuckCfg n) s).tprev 1)
        (adaptOut (stuckCfg n) s).tnext 1 0 (adaptOut (stuckCfg n) s).keep := rfl
      have b3 : (coreBody (stuckCfg n) s).1.ctrlState = (adaptOut (stuckCfg n) s).state := rfl
      have b4 : (coreBody (stuckCfg n) s).1.result = Result.where' (Result.where' s.result.isOkay
          (Result.where' (adaptOut (stuckCfg n) s).keep .successful .successful) s.result).isOkay
          (adaptOut (stuckCfg n) s).result
          (Result.where' s.result.isOkay
            (Result.where' (adaptOut (stuckCfg n) s).keep .successful .successful) s.result) := rfl
      rw [hao] at b1 b2 b3 b4
      simp only at b1 b2 b3 b4
      rw [b1, b2, b3, b4, hres, h0]
      refine ⟨hgood, by norm_num, Or.inr ?_, ?_⟩
      · unfold clipToEnd
        rw [h0] at *
        rw [min_eq_left (by norm_num : (0 : ℚ) ≤ 1)]
        simp only [Bool.false_eq_true, if_false]
        rw [if_pos (by linarith)]
        norm_num [stuckCfg]
      · exact (h6 rfl).1)
  refine ⟨?_, ?_, by decide +kernel⟩
  · obtain ⟨-, h0, -, hres⟩ := hrun.2
    have hcond : condFun (stuckCfg n) (coreRun (stuckCfg n) n (initState (stuckCfg n) 0 1 .fresh () false).core) = true := by
      unfold condFun
      rw [hres, h0]
      show (decide ((0 : ℚ) < 1) && Result.successful.isSuccessful) = true
      decide +kernel
    have e := solve_result (stuckCfg n) 0 1 .fresh () false
    rw [e, finalise_no_root _ _ rfl, solve_core]
    exact if_pos hcond
  · intro c hc
    rw [log_eq] at hc
    obtain ⟨s, hs, rfl⟩ := List.mem_map.1 hc
    obtain ⟨-, h0, h1, -⟩ := hrun.1 s hs
    show (s.tprev, s.tnext) = (0, 1) ∨ (s.tprev, s.tnext) = (0, 1 / 2)
    rw [h0]
    rcases h1 with h | h <;> rw [h] <;> simp

end Verif
