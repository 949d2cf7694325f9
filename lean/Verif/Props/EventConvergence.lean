import Verif.Spec.EventConvergence
import Verif.Props.DenseConvergence
import Verif.Props.EventPrefix
import Mathlib.Analysis.SpecialFunctions.Log.Basic
import Mathlib.Analysis.Complex.ExponentialBounds

/-!
# C85: event times converge
-/

set_option linter.unusedSectionVars false
set_option maxRecDepth 100000

namespace Verif
open Finset Filter Topology Tab

section
variable {T Y Er D S C O F : Type} [LinearOrder T] [LinearOrder F] [Zero F]

/-- After an attempt, there is another one, or the loop is over. -/
theorem attempts_next (cfg : Cfg T Y Er D S C O F) (n : Nat) (s₀ s : Core T Y D S C F)
    (hs : s ∈ attempts cfg n s₀) :
    (coreBody cfg s).1 ∈ attempts cfg n s₀ ∨ (coreBody cfg s).1 = coreRun cfg n s₀ := by
  induction n generalizing s₀ with
  | zero => simp [attempts] at hs
  | succ n ih =>
    by_cases hc : condFun cfg s₀ = true
    · simp only [attempts, coreRun, hc, if_true, List.mem_cons] at hs ⊢
      rcases hs with rfl | hs
      · cases n with
        | zero => right; rfl
        | succ n =>
          by_cases hc' : condFun cfg (coreBody cfg s).1 = true
          · left; right; simp [attempts, hc']
          · right; simp [coreRun, hc']
      · rcases ih _ hs with h | h
        · exact .inl (.inr h)
        · exact .inr h
    · simp [attempts, hc] at hs

theorem attempts_first (cfg : Cfg T Y Er D S C O F) (n : Nat) (s₀ : Core T Y D S C F) :
    s₀ ∈ attempts cfg n s₀ ∨ s₀ = coreRun cfg n s₀ := by
  cases n with
  | zero => right; rfl
  | succ n =>
    by_cases hc : condFun cfg s₀ = true
    · left; simp [attempts, hc]
    · right; simp [coreRun, hc]

end

/-! ### One crossing -/

/-- Values of the condition before the event. -/
def BeforeCrossing (up : Bool) (dir : Option Bool) (v : ℝ) : Prop :=
  match dir with
  | some true => v ≤ 0
  | some false => 0 < v
  | none => if up then v < 0 else 0 < v

theorem beforeCrossing_sign {up : Bool} {dir : Option Bool} (hd : dir ≠ some (!up)) {v : ℝ}
    (h : BeforeCrossing up dir v) : (if up then v else -v) ≤ 0 := by
  rcases dir with _ | _ | _ <;> rcases up with _ | _ <;>
    simp_all [BeforeCrossing] <;> linarith

theorem beforeCrossing_of_sign {up : Bool} {dir : Option Bool} (hd : dir ≠ some (!up)) {v : ℝ}
    (h : (if up then v else -v) < 0) : BeforeCrossing up dir v := by
  rcases dir with _ | _ | _ <;> rcases up with _ | _ <;>
    simp_all [BeforeCrossing] <;> linarith

theorem beforeCrossing_next {up : Bool} {dir : Option Bool} {v w : ℝ}
    (h : BeforeCrossing up dir v) (hc : ¬ Crosses dir v w) : BeforeCrossing up dir w := by
  rcases dir with _ | _ | _
  · simp only [Crosses, not_not] at hc
    rcases up with _ | _ <;> simp only [BeforeCrossing, if_true, Bool.false_eq_true, if_false] at h ⊢ <;>
      rcases hc with hc | hc | hc <;> linarith
  · simp only [Crosses, BeforeCrossing] at *
    by_contra hw
    exact hc ⟨h, not_lt.1 hw⟩
  · simp only [Crosses, BeforeCrossing] at *
    by_contra hw
    exact hc ⟨h, not_le.1 hw⟩

theorem crossing_sign {up : Bool} {dir : Option Bool} (hd : dir ≠ some (!up)) {v w : ℝ}
    (h : BeforeCrossing up dir v) (hc : Crosses dir v w) : 0 ≤ if up then w else -w := by
  by_contra hw
  have := beforeCrossing_of_sign hd (not_le.1 hw)
  rcases dir with _ | _ | _
  · rcases up with _ | _ <;> simp only [BeforeCrossing, Crosses, if_true, Bool.false_eq_true, if_false] at * <;>
      apply hc <;> tauto
  · simp only [Crosses, BeforeCrossing] at *; linarith
  · simp only [Crosses, BeforeCrossing] at *; linarith

theorem not_crosses_same (dir : Option Bool) (v : ℝ) : ¬ Crosses dir v v := by
  rcases dir with _ | _ | _
  · simp only [Crosses, not_not]
    rcases lt_trichotomy v 0 with h | h | h
    · right; left; exact ⟨h, h⟩
    · right; right; exact ⟨h, h⟩
    · left; exact ⟨h, h⟩
  · simp only [Crosses]; intro h; linarith
  · simp only [Crosses]; intro h; linarith

section
variable {E Er D S C O : Type} [NormedAddCommGroup E] [NormedSpace ℝ E]

theorem CrossesAt.near {c : ℝ → E → ℝ} {y : ℝ → E} {a b : ℝ} {up : Bool} {τ σ ρ Λ r : ℝ}
    (h : CrossesAt c y a b up τ σ ρ Λ r) {e : ℝ} (her : e ≤ r) {t : ℝ} (ht : t ∈ Set.Icc a b) {x : E}
    (hx : ‖x - y t‖ ≤ e) :
    |(if up then c t x else - c t x) - (if up then c t (y t) else - c t (y t))| ≤ Λ * e := by
  have h1 := (h.lipschitz t ht x (hx.trans her)).trans (mul_le_mul_of_nonneg_left hx h.nonneg)
  rcases up with _ | _
  · simp only [Bool.false_eq_true, if_false]
    rw [show - c t x - - c t (y t) = -(c t x - c t (y t)) by ring, abs_neg]
    exact h1
  · simpa using h1

/-- Where the computed condition is at most zero, the time is not much later than the crossing. -/
theorem CrossesAt.upper {c : ℝ → E → ℝ} {y : ℝ → E} {a b : ℝ} {up : Bool} {τ σ ρ Λ r : ℝ}
    (h : CrossesAt c y a b up τ σ ρ Λ r) {e : ℝ} (he : 0 ≤ e) (her : e ≤ r) {t : ℝ} (ht : t ∈ Set.Icc a b) {x : E}
    (hx : ‖x - y t‖ ≤ e) (hρ : t ≤ τ + ρ) {κ : ℝ} (hκ : 0 ≤ κ) (hc : (if up then c t x else - c t x) ≤ κ) :
    t ≤ τ + (Λ * e + κ) / σ := by
  have h0 : 0 ≤ (Λ * e + κ) / σ := div_nonneg (add_nonneg (mul_nonneg h.nonneg he) hκ) h.slope.le
  rcases le_total t τ with hle | hle
  · linarith
  · have h1 := (abs_le.1 (h.near her ht hx)).1
    have h2 := h.after t ⟨hle, ht.2⟩ hρ
    have h3 : t - τ ≤ (Λ * e + κ) / σ := by
      rw [le_div_iff₀ h.slope]; linarith [mul_comm σ (t - τ)]
    linarith

/-- Where the computed condition is at least zero, the time is not much earlier than the crossing. -/
theorem CrossesAt.lower {c : ℝ → E → ℝ} {y : ℝ → E} {a b : ℝ} {up : Bool} {τ σ ρ Λ r : ℝ}
    (h : CrossesAt c y a b up τ σ ρ Λ r) {e : ℝ} (he : 0 ≤ e) (her : e ≤ r) {t : ℝ} (ht : t ∈ Set.Icc a b) {x : E}
    (hx : ‖x - y t‖ ≤ e) {κ : ℝ} (hκ : 0 ≤ κ) (hc : -κ ≤ (if up then c t x else - c t x)) :
    τ - (Λ * e + κ) / σ ≤ t := by
  have h0 : 0 ≤ (Λ * e + κ) / σ := div_nonneg (add_nonneg (mul_nonneg h.nonneg he) hκ) h.slope.le
  rcases le_total τ t with hle | hle
  · linarith
  · have h1 := (abs_le.1 (h.near her ht hx)).2
    have h2 := h.before t ⟨ht.1, hle⟩
    have h3 : τ - t ≤ (Λ * e + κ) / σ := by
      rw [le_div_iff₀ h.slope]; linarith [mul_comm σ (τ - t)]
    linarith

/-- **C85, any one-step method.** States and interpolated values have errors of at most `e`. -/
theorem event_error (cfg : Cfg ℝ E Er D S C O ℝ) (hwf : cfg.WF) (hown : cfg.OwnCodes)
    (hst : cfg.controller.stepTo = none) (y : ℝ → E) (y0 : E) (tnext : ℝ) (ctrl : C) (ss : S) (mj : Bool)
    (e η : ℝ) (hη : 0 ≤ η)
    (H : ∀ s ∈ history cfg y0 tnext ctrl ss mj, (cfg.t0 ≤ s.tprev ∧ s.tprev ≤ s.tnext ∧ s.tnext ≤ cfg.t1) ∧
      (adaptOut cfg s).Exact s.tprev s.tnext ∧ ‖s.y - y s.tprev‖ ≤ e ∧
      (accepted cfg s = true → s.tnext - s.tprev ≤ η ∧ ∀ t, s.tprev ≤ t → t ≤ s.tnext →
        ‖cfg.solver.interp s.tprev s.tnext (solverOut cfg s).dense t - y t‖ ≤ e))
    (Hf : (cfg.t0 ≤ (solve cfg y0 tnext ctrl ss mj).core.tprev ∧
        (solve cfg y0 tnext ctrl ss mj).core.tprev ≤ cfg.t1) ∧
      ‖(solve cfg y0 tnext ctrl ss mj).core.y - y (solve cfg y0 tnext ctrl ss mj).core.tprev‖ ≤ e)
    (c : ℝ → E → ℝ) (dir : Option Bool) (hev : cfg.events = [.flt c dir])
    (up : Bool) (hd : dir ≠ some (!up)) (τ σ ρ Λ r : ℝ) (hcr : CrossesAt c y cfg.t0 cfg.t1 up τ σ ρ Λ r)
    (her : e ≤ r) (hρ : Λ * e / σ + η ≤ ρ) (ha : Λ * e / σ < τ - cfg.t0) (hb : Λ * e / σ < cfg.t1 - τ) :
    (solve cfg y0 tnext ctrl ss mj).result ≠ .successful ∧
    ((solve cfg y0 tnext ctrl ss mj).result = .eventOccurred →
      (cfg.rootFinder = none →
        τ - Λ * e / σ ≤ (solve cfg y0 tnext ctrl ss mj).tfinal ∧
        (solve cfg y0 tnext ctrl ss mj).tfinal ≤ τ + Λ * e / σ + η ∧
        ‖(solve cfg y0 tnext ctrl ss mj).yfinal - y (solve cfg y0 tnext ctrl ss mj).tfinal‖ ≤ e) ∧
      ∀ find tolT tolF, cfg.rootFinder = some find → FindsRoot find tolT tolF →
        |(solve cfg y0 tnext ctrl ss mj).tfinal - τ| ≤ Λ * e / σ + tolF / σ + tolT ∧
        ‖(solve cfg y0 tnext ctrl ss mj).yfinal - y (solve cfg y0 tnext ctrl ss mj).tfinal‖ ≤ e) := by
  have he0 : 0 ≤ e := (norm_nonneg _).trans Hf.2
  have hΛ0 : 0 ≤ Λ * e / σ := div_nonneg (mul_nonneg hcr.nonneg he0) hcr.slope.le
  -- the states
  have good : ∀ s, (s ∈ history cfg y0 tnext ctrl ss mj ∨ s = (solve cfg y0 tnext ctrl ss mj).core) →
      s.tprev ∈ Set.Icc cfg.t0 cfg.t1 ∧ ‖s.y - y s.tprev‖ ≤ e := by
    rintro s (hs | rfl)
    · obtain ⟨⟨h1, h2, h3⟩, -, h4, -⟩ := H s hs
      exact ⟨⟨h1, h2.trans h3⟩, h4⟩
    · exact ⟨Hf.1, Hf.2⟩
  have ginit := good (initState cfg y0 tnext ctrl ss mj).core (by
    rw [solve_core]; exact attempts_first cfg cfg.maxSteps _)
  have gnext : ∀ s ∈ history cfg y0 tnext ctrl ss mj, nextT cfg s ∈ Set.Icc cfg.t0 cfg.t1 ∧
      ‖nextY cfg s - y (nextT cfg s)‖ ≤ e := fun s hs =>
    good (coreBody cfg s).1 (by rw [solve_core]; exact attempts_next cfg cfg.maxSteps _ s hs)
  have hT : ∀ s ∈ history cfg y0 tnext ctrl ss mj,
      (accepted cfg s = true → nextT cfg s = s.tnext ∧ nextY cfg s = (solverOut cfg s).y) ∧
      (accepted cfg s = false → nextT cfg s = s.tprev ∧ nextY cfg s = s.y) := by
    intro s hs
    obtain ⟨⟨h1, h2, h3⟩, h4, -, -⟩ := H s hs
    have e1 : nextT cfg s = min (adaptOut cfg s).tprev cfg.t1 := rfl
    have e2 : nextY cfg s = if accepted cfg s then (solverOut cfg s).y else s.y := rfl
    refine ⟨fun hk => ⟨?_, by rw [e2, hk]; rfl⟩, fun hk => ⟨?_, by rw [e2, hk]; rfl⟩⟩
    · rw [e1, h4.1 hk, min_eq_left h3]
    · rw [e1, h4.2 hk, min_eq_left (h2.trans h3)]
  have hstep : ∀ s ∈ history cfg y0 tnext ctrl ss mj, nextT cfg s ≤ s.tprev + η := by
    intro s hs
    cases hk : accepted cfg s with
    | true => rw [((hT s hs).1 hk).1]; linarith [((H s hs).2.2.2 hk).1]
    | false => rw [((hT s hs).2 hk).1]; linarith
  obtain ⟨t15, -, r15⟩ := C15_stops_at_first_trigger cfg hown y0 tnext ctrl ss mj
  -- until the event
  have inv := run_inv cfg (fun s => s.result.isSuccessful = true →
      BeforeCrossing up dir (c s.tprev s.y) ∧ s.tprev ≤ τ + Λ * e / σ) cfg.maxSteps
    (initState cfg y0 tnext ctrl ss mj).core (by
      intro _
      refine ⟨beforeCrossing_of_sign hd ?_, ?_⟩
      · by_contra hneg
        have := hcr.lower he0 her ginit.1 ginit.2 (le_refl 0) (by rw [neg_zero]; exact not_lt.1 hneg)
        rw [add_zero] at this
        have h2 : (initState cfg y0 tnext ctrl ss mj).core.tprev = cfg.t0 := rfl
        rw [h2] at this
        linarith
      · have h2 : (initState cfg y0 tnext ctrl ss mj).core.tprev = cfg.t0 := rfl
        rw [h2]; linarith [hcr.mem.1]) (by
      intro s hs hcond hP hres
      obtain ⟨hP1, hP2⟩ := hP (condFun_succ cfg s hcond)
      have hnot : ¬ Crosses dir (c s.tprev s.y) (c (nextT cfg s) (nextY cfg s)) := by
        intro hx
        have h1 := (t15 s hs 0 (.flt c dir) (by rw [hev]; rfl)).2 hx
        have h2 : (triggered cfg s).any id = true :=
          List.any_eq_true.2 ⟨true, List.mem_of_getElem? h1, rfl⟩
        rw [coreBody_result cfg s (condFun_succ cfg s hcond), h2, if_pos rfl] at hres
        exact absurd hres (by simp [Result.isSuccessful])
      have hnew := beforeCrossing_next hP1 hnot
      refine ⟨hnew, ?_⟩
      have := hcr.upper he0 her (gnext s hs).1 (gnext s hs).2 (by linarith [hstep s hs]) (le_refl 0)
        (beforeCrossing_sign hd hnew)
      rwa [add_zero] at this)
  have hresult : (solve cfg y0 tnext ctrl ss mj).result
      = if condFun cfg (solve cfg y0 tnext ctrl ss mj).core then .maxStepsReached
        else (finalise cfg (solve cfg y0 tnext ctrl ss mj).core).2.2 := rfl
  have htf : (solve cfg y0 tnext ctrl ss mj).tfinal = (finalise cfg (solve cfg y0 tnext ctrl ss mj).core).1 := rfl
  have hyf : (solve cfg y0 tnext ctrl ss mj).yfinal = (finalise cfg (solve cfg y0 tnext ctrl ss mj).core).2.1 := rfl
  refine ⟨?_, ?_⟩
  · intro hsucc
    have h1 := ((C03_result_classification cfg hwf hown hst y0 tnext ctrl ss mj).1 hsucc).2
    have hcond : condFun cfg (solve cfg y0 tnext ctrl ss mj).core = false := by
      unfold condFun; rw [hst, h1]; simp
    rw [hresult, hcond, if_neg (by simp)] at hsucc
    have hcore : (solve cfg y0 tnext ctrl ss mj).core.result = .successful := by
      unfold finalise at hsucc
      cases hrf : cfg.rootFinder with
      | none => rw [hrf] at hsucc; exact hsucc
      | some find =>
        rw [hrf] at hsucc
        dsimp only at hsucc
        split at hsucc
        · dsimp only at hsucc
          split at hsucc
          · exact hsucc
          · rename_i r hr
            exact absurd hsucc (hown.root find (by rw [hrf]; rfl) _ _ _ r hr).2.2
        · exact hsucc
    rw [solve_core] at h1 hcore
    have := (inv.2 (by rw [hcore]; rfl)).2
    rw [h1] at this
    linarith
  · intro hocc
    have hlast := r15 hocc
    cases hl : (history cfg y0 tnext ctrl ss mj).getLast? with
    | none =>
      rw [hl] at hlast
      obtain ⟨ev, hmem, hi⟩ := hlast
      rw [hev, List.mem_singleton] at hmem
      subst hmem
      exact absurd hi (by simp [EventCond.initMask])
    | some s =>
      rw [hl] at hlast
      obtain ⟨ev, hmem, hx⟩ := hlast
      rw [hev, List.mem_singleton] at hmem
      subst hmem
      replace hx : Crosses dir (c s.tprev s.y) (c (nextT cfg s) (nextY cfg s)) := hx
      have hs : s ∈ history cfg y0 tnext ctrl ss mj := List.mem_of_getLast? hl
      have hcore : (solve cfg y0 tnext ctrl ss mj).core = (coreBody cfg s).1 := by
        rw [solve_core, coreRun_eq_last]
        unfold history at hl
        rw [hl]
      have hacc : accepted cfg s = true := by
        by_contra hk
        have := (hT s hs).2 (by simpa using hk)
        rw [this.1, this.2] at hx
        exact not_crosses_same dir _ hx
      have hcond := attempts_cond _ _ _ _ hs
      obtain ⟨hP1, hP2⟩ := inv.1 s hs (condFun_succ cfg s hcond)
      obtain ⟨⟨h1, h2, h3⟩, -, -, h4⟩ := H s hs
      obtain ⟨h5, h6⟩ := h4 hacc
      have e1 := ((hT s hs).1 hacc).1
      have hmask : (coreBody cfg s).1.evMask = [true] := by
        have hlen : (triggered cfg s).length ≤ 1 := by
          show (List.zipWith _ cfg.events s.evVals).length ≤ 1
          rw [List.length_zipWith, hev]
          exact min_le_left _ _
        have hget := (t15 s hs 0 (.flt c dir) (by rw [hev]; rfl)).2 hx
        rw [coreBody_mask]
        rcases htr : triggered cfg s with _ | ⟨b, _ | ⟨b', l⟩⟩
        · rw [htr] at hget; simp at hget
        · rw [htr] at hget
          have : b = true := by simpa using hget
          rw [this]; rfl
        · rw [htr] at hlen; simp at hlen
      rw [hresult] at hocc
      split at hocc
      · exact absurd hocc (by simp)
      rw [htf, hyf]
      rw [hcore] at hocc ⊢
      have hyend : ‖nextY cfg s - y (nextT cfg s)‖ ≤ e := (gnext s hs).2
      unfold finalise at hocc ⊢
      cases hrf : cfg.rootFinder with
      | none =>
        refine ⟨fun _ => ⟨?_, ?_, hyend⟩, fun find tolT tolF hf => by simp at hf⟩
        · have := hcr.lower he0 her (gnext s hs).1 (gnext s hs).2 (le_refl 0) (by
            rw [neg_zero]; exact crossing_sign hd hP1 hx)
          rwa [add_zero] at this
        · show nextT cfg s ≤ _
          linarith [hstep s hs]
      | some find =>
        rw [hrf] at hocc
        dsimp only at hocc ⊢
        rw [hmask] at hocc ⊢
        simp only [List.any_cons, id, List.any_nil, Bool.or_false, if_true] at hocc ⊢
        have hn : ¬ (coreBody cfg s).1.numSteps = 0 := by
          show ¬ s.numSteps + 1 = 0
          omega
        rw [if_neg hn]
        have hgfun : toRootFind cfg (coreBody cfg s).1 true
            = fun t => [c t (cfg.solver.interp s.tprev s.tnext (solverOut cfg s).dense t)] := by
          funext t
          unfold toRootFind
          rw [hmask, hev]
          rfl
        have e2 : (coreBody cfg s).1.evTprev = s.tprev := rfl
        have e3 : (coreBody cfg s).1.evTnext = s.tnext := rfl
        have e4 : (coreBody cfg s).1.evDense = (solverOut cfg s).dense := rfl
        rw [hgfun, e2, e3] at hocc ⊢
        rw [e4]
        have hnone : (find (fun t => [c t (cfg.solver.interp s.tprev s.tnext (solverOut cfg s).dense t)])
            s.tprev s.tnext).2 = none := by
          split at hocc
          · assumption
          · rename_i r' hr
            exact absurd hocc (hown.root find (by rw [hrf]; rfl) _ _ _ r' hr).2.1
        refine ⟨fun h => by simp at h, fun find' tolT tolF hf hsound => ?_⟩
        obtain rfl : find = find' := Option.some.inj hf
        obtain ⟨⟨g1, g2⟩, t', ⟨g3, g4⟩, g5, g6⟩ := hsound _ s.tprev s.tnext h2 hnone
        refine ⟨?_, h6 _ g1 g2⟩
        have g7 := g6 _ (List.mem_singleton.2 rfl)
        have hF : 0 ≤ tolF := (abs_nonneg _).trans g7
        have g8 : |if up then c t' (cfg.solver.interp s.tprev s.tnext (solverOut cfg s).dense t')
            else - c t' (cfg.solver.interp s.tprev s.tnext (solverOut cfg s).dense t')| ≤ tolF := by
          rcases up with _ | _
          · simpa using g7
          · simpa using g7
        have k1 := hcr.upper he0 her ⟨h1.trans g3, g4.trans h3⟩ (h6 t' g3 g4) (by linarith) hF (abs_le.1 g8).2
        have k2 := hcr.lower he0 her ⟨h1.trans g3, g4.trans h3⟩ (h6 t' g3 g4) hF (abs_le.1 g8).1
        rw [add_div] at k1 k2
        obtain ⟨m1, m2⟩ := abs_le.1 g5
        exact abs_le.2 ⟨by linarith, by linarith⟩

end

section
variable {m : ℕ} {tab : Fin m → Tableau ℚ} {s : ℕ} {c : ℕ → ℚ} {N M N' : ℕ} {ε δ' ε' : ℚ}

/-- **C85.** A Runge-Kutta solver of order `N` with interpolation of order `N'`. -/
theorem C85_converges (hord : StepOrder tab N ε M δ') (hok : methodOK s c tab = true) (hε : 0 ≤ ε)
    {interp : InterpRule m} {rows : Tableau ℚ → List (List ℚ)} {d : ℕ} (hrows : HasRows tab interp s d rows)
    (hden : DenseOrder tab interp N' ε') (hε' : 0 ≤ ε') (hN : N' ≤ N) :
    EventConverges tab interp N N' ε ε' := by
  have hb0 := bSum_nonneg tab s
  have hr0 := rowSum_nonneg tab s d rows
  refine ⟨4 * bSum s tab * (m * s) + 4 * rowSum s d rows tab * (m * s), by positivity, ?_⟩
  intro E J _ _ _ _ f cj rF rK nj hroot L hf y hy a b D hD
  have hroot' : (odeRK tab f cj rF rK nj).RootExact := fun h =>
    hroot ((implicitPart_isSome tab f cj rF rK nj).1 h)
  obtain ⟨δ₁, A, hδ₁, hA, hacc⟩ := any_accurate hok hε hord f cj rF rK nj hroot' L hf y hy a b D hD
  obtain ⟨δ₂, A', hδ₂, hA', hdacc⟩ := any_denseAccurate hok hrows hε' hden f cj rF rK nj hroot' L hf y hy a b D
    (hD.mono hN)
  refine ⟨min δ₁ δ₂, max A A', lt_min hδ₁ hδ₂, hA.trans (le_max_left _ _), ?_⟩
  intro C O cfg hwf ha hb hstep hinterp hown hctrl hst y0 tnext ctrl mj η hη0 hηδ hfor hall cond dir hev up hd τ σ ρ
    Λ r hcr e he her hρ hτa hτb
  subst ha hb
  have hsolver : cfg.solver = { step := (odeRK tab f cj rF rK nj).step, interp := interp E } := by
    rw [← hstep, ← hinterp]
  have hD0 := elemBound_nonneg hwf.le hD
  have hεR : (0 : ℝ) ≤ ε := by exact_mod_cast hε
  have hεR' : (0 : ℝ) ≤ ε' := by exact_mod_cast hε'
  have hle : 0 ≤ cfg.t1 - cfg.t0 := sub_nonneg.2 hwf.le
  have hacc' : cfg.solver.Accurate (odeRK tab f cj rF rK nj).ValidState y cfg.t0 cfg.t1 (min δ₁ δ₂) A (ε * D)
      (4 * bSum s tab * (m * s) * |L|) N := by
    rw [hsolver]
    exact ⟨(hacc _).valid, fun t t' x st mj h1 h2 h3 h4 h5 h6 =>
      (hacc _).error t t' x st mj h1 h2 h3 h4 (h5.trans (min_le_left _ _)) h6⟩
  have hdacc' : cfg.solver.DenseAccurate (odeRK tab f cj rF rK nj).ValidState y cfg.t0 cfg.t1 (min δ₁ δ₂) A'
      (ε' * D) (4 * rowSum s d rows tab * (m * s) * |L|) N' := by
    rw [hsolver]
    exact fun t t' x st mj h1 h2 h3 h4 h5 h6 =>
      hdacc t t' x st mj h1 h2 h3 h4 (h5.trans (min_le_right _ _)) h6
  obtain ⟨g1, g2, g3⟩ := global_error cfg hwf (odeRK tab f cj rF rK nj).ValidState y (min δ₁ δ₂) A (ε * D)
    (4 * bSum s tab * (m * s) * |L|) hA (by positivity) (by positivity) N hacc' hctrl y0 tnext ctrl
    (odeRK tab f cj rF rK nj).init mj (validState_init tab f cj rF rK nj _ _ _) hfor
    (fun c hc hk => (hall c hc hk).1) η hηδ (fun c hc hk => (hall c hc hk).2)
  set K := 4 * bSum s tab * (m * s) * |L| with hK
  set K' := 4 * rowSum s d rows tab * (m * s) * |L| with hK'
  have hK0 : 0 ≤ K := by rw [hK]; positivity
  have hK0' : 0 ≤ K' := by rw [hK']; positivity
  have hexp : (4 * bSum s tab * (m * s) + 4 * rowSum s d rows tab * (m * s)) * |L| * (cfg.t1 - cfg.t0)
      = (K + K') * (cfg.t1 - cfg.t0) := by rw [hK, hK']; ring
  rw [hexp] at he
  set Γ := ‖y0 - y cfg.t0‖ + (cfg.t1 - cfg.t0) * (max A A' * η ^ N + ε * D) with hΓ
  have hΓ0 : 0 ≤ Γ := by
    have : 0 ≤ max A A' := hA.trans (le_max_left _ _)
    rw [hΓ]; positivity
  -- the errors of the states
  have hstates : ∀ (t : ℝ) (x : E), cfg.t0 ≤ t → t ≤ cfg.t1 →
      ‖x - y t‖ ≤ errorBound A (ε * D) K N η ‖y0 - y cfg.t0‖ cfg.t0 t →
      ‖x - y t‖ ≤ Real.exp (K * (cfg.t1 - cfg.t0)) * Γ := by
    intro t x h1 h2 h3
    refine h3.trans ((errorBound_mono A (ε * D) K hA (by positivity) hK0 N η ‖y0 - y cfg.t0‖ cfg.t0 t cfg.t1 hη0
      (norm_nonneg _) h1 h2).trans ?_)
    refine mul_le_mul_of_nonneg_left ?_ (Real.exp_pos _).le
    rw [hΓ]
    gcongr
    exact le_max_left _ _
  have hsmall : Real.exp (K * (cfg.t1 - cfg.t0)) * Γ ≤ e := by
    have h1 : Real.exp (K * (cfg.t1 - cfg.t0)) ≤ Real.exp ((K + K') * (cfg.t1 - cfg.t0)) :=
      Real.exp_le_exp.2 (mul_le_mul_of_nonneg_right (by linarith) hle)
    have h2 := mul_le_mul_of_nonneg_right h1 hΓ0
    have h3 : 0 ≤ max A A' * η ^ (N' + 1) + ε' * D * η := by
      have : 0 ≤ max A A' := hA.trans (le_max_left _ _)
      positivity
    linarith
  rw [log_eq_history] at hfor hall g1
  refine event_error cfg hwf hown hst y y0 tnext ctrl _ mj e η hη0 ?_
    ⟨g2, (hstates _ _ g2.1 g2.2 g3).trans hsmall⟩ cond dir hev up hd τ σ ρ Λ r hcr her hρ hτa hτb
  intro s' hs
  obtain ⟨⟨⟨b1, b2⟩, b3⟩, b4⟩ := g1 _ (List.mem_map_of_mem hs)
  have b5 : s'.tprev ≤ s'.tnext := hfor _ (List.mem_map_of_mem hs)
  replace b1 : cfg.t0 ≤ s'.tprev := b1
  replace b2 : s'.tnext ≤ cfg.t1 := b2
  have b6 := hstates s'.tprev s'.y b1 (b5.trans b2) b4
  refine ⟨⟨b1, b5, b2⟩, hctrl _ _ _ _ _ _, b6.trans hsmall, fun hk => ?_⟩
  obtain ⟨b7, b8⟩ := hall _ (List.mem_map_of_mem hs) hk
  replace b8 : s'.tnext - s'.tprev ≤ η := b8
  refine ⟨b8, fun t ht0 ht1 => ?_⟩
  refine (hdacc' s'.tprev s'.tnext s'.y s'.solverState s'.madeJump b3 b1 b5 b2 (b8.trans hηδ) b7 t ht0 ht1).trans ?_
  have hh : 0 ≤ s'.tnext - s'.tprev := sub_nonneg.2 b5
  have c3 : 1 + K' * (s'.tnext - s'.tprev) ≤ Real.exp (K' * (cfg.t1 - cfg.t0)) := by
    have e1 := Real.add_one_le_exp (K' * (s'.tnext - s'.tprev))
    have e2 : Real.exp (K' * (s'.tnext - s'.tprev)) ≤ Real.exp (K' * (cfg.t1 - cfg.t0)) :=
      Real.exp_le_exp.2 (mul_le_mul_of_nonneg_left (by linarith) hK0')
    linarith
  have c4 : (1 + K' * (s'.tnext - s'.tprev)) * ‖s'.y - y s'.tprev‖
      ≤ Real.exp ((K + K') * (cfg.t1 - cfg.t0)) * Γ := by
    calc _ ≤ Real.exp (K' * (cfg.t1 - cfg.t0)) * (Real.exp (K * (cfg.t1 - cfg.t0)) * Γ) :=
          mul_le_mul c3 b6 (norm_nonneg _) (Real.exp_pos _).le
      _ = _ := by rw [← mul_assoc, ← Real.exp_add]; congr 2; ring
  have c5 : A' * (s'.tnext - s'.tprev) ^ (N' + 1) ≤ max A A' * η ^ (N' + 1) :=
    mul_le_mul (le_max_right _ _) (pow_le_pow_left₀ hh b8 _) (pow_nonneg hh _) (hA.trans (le_max_left _ _))
  have c6 : ε' * D * (s'.tnext - s'.tprev) ≤ ε' * D * η :=
    mul_le_mul_of_nonneg_left b8 (by positivity)
  show (1 + K' * (s'.tnext - s'.tprev)) * ‖s'.y - y s'.tprev‖ + A' * (s'.tnext - s'.tprev) ^ (N' + 1)
    + ε' * D * (s'.tnext - s'.tprev) ≤ e
  linarith

end

/-! ### The solvers -/

/-- **C85.** `Heun`, `Midpoint` and `Ralston`. -/
theorem C85_order2 : EventConverges ![Heun.tableau] (fun _ _ _ => hermiteInterp 2) 2 2 0 0 ∧
    EventConverges ![Midpoint.tableau] (fun _ _ _ => hermiteInterp 2) 2 1 0 0 ∧
    EventConverges ![Ralston.tableau] (fun _ _ _ => hermiteInterp 2) 2 1 0 0 :=
  ⟨C85_converges (s := 2) (c := Heun.tableau.abscissa) C61_heun (by decide +kernel) (le_refl _)
    (hermite_hasRows _ 2 (by norm_num)) C75_heun (le_refl _) (by norm_num),
   C85_converges (s := 2) (c := Midpoint.tableau.abscissa) C61_midpoint (by decide +kernel) (le_refl _)
    (hermite_hasRows _ 2 (by norm_num)) C75_midpoint (le_refl _) (by norm_num),
   C85_converges (s := 2) (c := Ralston.tableau.abscissa) C61_ralston (by decide +kernel) (le_refl _)
    (hermite_hasRows _ 2 (by norm_num)) C75_ralston (le_refl _) (by norm_num)⟩

/-- **C85.** `Bosh3`. -/
theorem C85_bosh3 : EventConverges ![Bosh3.tableau] (fun _ _ _ => hermiteInterp 4) 3 3 0 0 :=
  C85_converges (s := 4) (c := Bosh3.tableau.abscissa) C61_bosh3 (by decide +kernel) (le_refl _)
    (hermite_hasRows _ 4 (by norm_num)) C75_bosh3 (le_refl _) (by norm_num)

/-- **C85.** `Dopri5`. -/
theorem C85_dopri5 : EventConverges ![Dopri5.tableau] (fun _ _ _ => dopri5Interp) 5 4 0 0 :=
  C85_converges (s := 7) (c := Dopri5.tableau.abscissa) C61_dopri5 (by decide +kernel) (le_refl _)
    (dopri5_hasRows _) C75_dopri5 (le_refl _) (by norm_num)

/-- **C85.** `Tsit5`. -/
theorem C85_tsit5 :
    EventConverges ![Tsit5.tableau] (fun _ _ _ => tsit5Interp) 5 4 (1 / 10 ^ 82) (4 * (1 / 10 ^ 16)) :=
  C85_converges (s := 7) (c := Tsit5.tableau.abscissa) C61_tsit5 (by decide +kernel) (by norm_num)
    (tsit5_hasRows _) C75_tsit5 (by norm_num) (by norm_num)

/-- **C85.** `Dopri8`; see `C76_dopri8_not_8th` for the order of its interpolation. -/
theorem C85_dopri8 :
    EventConverges ![Dopri8.tableau] (fun _ _ _ => dopri8Interp) 8 5 (1 / 10 ^ 16) (6 * (1 / 10 ^ 14)) :=
  C85_converges (s := 14) (c := Dopri8.tableau.abscissa) C61_dopri8 (by decide +kernel) (by norm_num)
    (dopri8_hasRows _) C75_dopri8_partial (by norm_num) (by norm_num)

/-- **C85.** `Kvaerno3`, `Kvaerno4` and `Kvaerno5`. -/
theorem C85_kvaerno : EventConverges ![Kvaerno3.tableau] (fun _ _ _ => hermiteInterp 4) 3 3 0 0 ∧
    EventConverges ![Kvaerno4.tableau] (fun _ _ _ => hermiteInterp 5) 4 3 0 0 ∧
    EventConverges ![Kvaerno5.tableau] (fun _ _ _ => hermiteInterp 7) 5 3 (1 / 10 ^ 16) (3 * (1 / 10 ^ 16)) :=
  ⟨C85_converges (s := 4) (c := Kvaerno3.tableau.abscissa) C61_kvaerno3 (by decide +kernel) (le_refl _)
    (hermite_hasRows _ 4 (by norm_num)) C75_kvaerno3 (le_refl _) (by norm_num),
   C85_converges (s := 5) (c := Kvaerno4.tableau.abscissa) C61_kvaerno4 (by decide +kernel) (le_refl _)
    (hermite_hasRows _ 5 (by norm_num)) C75_kvaerno4 (le_refl _) (by norm_num),
   C85_converges (s := 7) (c := Kvaerno5.tableau.abscissa) C61_kvaerno5 (by decide +kernel) (by norm_num)
    (hermite_hasRows _ 7 (by norm_num)) C75_kvaerno5 (by norm_num) (by norm_num)⟩

/-- **C85.** `KenCarp3`, `KenCarp4`, `KenCarp5` and `Sil3`. -/
theorem C85_imex :
    EventConverges ![KenCarp3.explicit, KenCarp3.implicit] (fun _ _ _ => kencarpInterp kencarp3Coeffs) 3 2
      (1 / 10 ^ 25) (2 * (1 / 10 ^ 19)) ∧
    EventConverges ![KenCarp4.explicit, KenCarp4.implicit] (fun _ _ _ => kencarpInterp kencarp4Coeffs) 4 3
      (1 / 10 ^ 25) (3 * (1 / 10 ^ 19)) ∧
    EventConverges ![KenCarp5.explicit, KenCarp5.implicit] (fun _ _ _ => kencarpInterp kencarp5Coeffs) 5 3
      (4 / 10 ^ 12) (3 * (1 / 10 ^ 10)) ∧
    EventConverges ![Sil3.explicit, Sil3.implicit] (fun _ _ _ => sil3Interp) 2 2 0 0 :=
  ⟨C85_converges (s := 4) (c := KenCarp3.explicit.abscissa) C61_kencarp3 (by decide +kernel) (by norm_num)
    (kencarp_hasRows _ _ 4 2 rfl (by decide)) C75_kencarp3 (by norm_num) (by norm_num),
   C85_converges (s := 6) (c := KenCarp4.explicit.abscissa) C61_kencarp4 (by decide +kernel) (by norm_num)
    (kencarp_hasRows _ _ 6 3 rfl (by decide)) C75_kencarp4 (by norm_num) (by norm_num),
   C85_converges (s := 8) (c := KenCarp5.explicit.abscissa) C61_kencarp5 (by decide +kernel) (by norm_num)
    (kencarp_hasRows _ _ 8 3 rfl (by decide)) C75_kencarp5 (by norm_num) (by norm_num),
   C85_converges (s := 4) (c := Sil3.explicit.abscissa) C61_sil3 (by decide +kernel) (le_refl _)
    (sil3_hasRows _) C75_sil3 (le_refl _) (by norm_num)⟩

/-! ### Constant steps -/

section
variable {m : ℕ} {E J : Type} [NormedAddCommGroup E] [NormedSpace ℝ E] [Module ℚ E] {tab : Fin m → Tableau ℚ}
  {N N' : ℕ}

/-- **C85, constant steps.** With `ConstantStepSize`, an explicit method, started on the solution, and a condition
that the solution crosses between `a` and `b`: if `dt0` is small enough, the event is reported (or the root finder
fails). Its time is wrong by at most about `dt0` without root finder; with a root finder, by at most a constant
times `dt0^k`, where `k` is the smaller one of `N` and `N' + 1`, plus what the tolerances of the root finder account
for. -/
theorem C85_constant [CompleteSpace E] {interp : InterpRule m} (hconv : EventConverges tab interp N N' 0 0)
    (hN : 1 ≤ N) (hex : ∀ p, (tab p).implicit = false)
    (f : Fin m → ℝ → E → E) (cj : CalcJac) (rF rK : RootFinder E J) (nj : J)
    (L : ℝ) (hf : NiceODE f L) (y : ℝ → E) (hy : ∀ t, HasDerivAt y (∑ p, f p t (y t)) t) (a b : ℝ)
    (c : ℝ → E → ℝ) (up : Bool) (τ σ ρ Λ r : ℝ) (hcr : CrossesAt c y a b up τ σ ρ Λ r) (ha : a < τ) (hb : τ < b)
    (hρ : 0 < ρ) (hr : 0 < r) :
    ∃ δ B : ℝ, 0 < δ ∧ ∀ (O : Type)
      (cfg : Cfg ℝ E (Option E) (RK.Dense m E) (RK.State m E) (ConstState ℝ) O ℝ) (_ : cfg.WF) (_ : cfg.OwnCodes)
      (_ : cfg.t0 = a) (_ : cfg.t1 = b)
      (_ : cfg.solver.step = (odeRK tab f cj rF rK nj).step) (_ : cfg.solver.interp = interp E)
      (_ : cfg.controller = constantStepSize)
      (dir : Option Bool) (_ : dir ≠ some (!up)) (_ : cfg.events = [.flt c dir])
      (dt0 : ℝ) (_ : 0 < dt0) (_ : dt0 ≤ δ) (tnext : ℝ) (ctrl : ConstState ℝ) (mj : Bool)
      (_ : constInit id a (some b) (some dt0) = some (tnext, ctrl))
      (_ : b - (b - a) / (⌈(b - a) / dt0⌉ : Int) ≤ cfg.floor)
      (_ : ⌈(b - a) / dt0⌉ ≤ cfg.maxSteps),
      let out := solve cfg (y a) tnext ctrl (odeRK tab f cj rF rK nj).init mj
      (cfg.rootFinder = none → out.result = .eventOccurred ∧ τ - B * dt0 ^ min N (N' + 1) ≤ out.tfinal ∧
        out.tfinal ≤ τ + B * dt0 ^ min N (N' + 1) + dt0 ∧ ‖out.yfinal - y out.tfinal‖ ≤ B * dt0 ^ min N (N' + 1)) ∧
      ∀ find, cfg.rootFinder = some find →
        (out.result = .eventOccurred ∨ ∃ G lo hi, (find G lo hi).2 = some out.result) ∧
        ∀ tolT tolF, FindsRoot find tolT tolF → out.result = .eventOccurred →
          |out.tfinal - τ| ≤ B * dt0 ^ min N (N' + 1) + tolF / σ + tolT ∧
          ‖out.yfinal - y out.tfinal‖ ≤ B * dt0 ^ min N (N' + 1) := by
  obtain ⟨κ, -, hconv⟩ := hconv
  obtain ⟨D, -, hD⟩ := elemBound_exists f y
    (continuous_iff_continuousAt.2 fun t => (hy t).continuousAt) hf.analytic a b N
  obtain ⟨δ, B, hδ, hB, hall⟩ := hconv E J f cj rF rK nj
    (fun ⟨p, hp⟩ => by rw [hex p] at hp; simp at hp) L hf y hy a b D hD
  have hσ := hcr.slope
  have hΛ := hcr.nonneg
  have hba : 0 ≤ b - a := by linarith
  set B' := Real.exp (κ * |L| * (b - a)) * ((b - a) * B) + B with hB'
  have hB0 : 0 ≤ B' := by rw [hB']; positivity
  set q := Λ * B' / σ with hq
  have hq0 : 0 ≤ q := by rw [hq]; positivity
  set μ := min r (min ρ (min (τ - a) (b - τ))) with hμ
  have hμ0 : 0 < μ := by
    rw [hμ]; exact lt_min hr (lt_min hρ (lt_min (by linarith) (by linarith)))
  have hden : 0 < B' + q + 2 := by linarith
  refine ⟨min δ (min 1 (μ / (B' + q + 2))), max B' q, lt_min hδ (lt_min one_pos (div_pos hμ0 hden)), ?_⟩
  intro O cfg hwf hown hcfa hcfb hstep hinterp hctrl dir hd hev dt0 hdt hdδ tnext ctrl mj hinit hfl hmax
  subst hcfa hcfb
  obtain ⟨n, p, hn, hlog, hp0, hpn, hlt, hle, -, -, -, htf, hres, -, -, -⟩ :=
    C22_constant_steps (noEvents cfg) id dt0 (y cfg.t0) (odeRK tab f cj rF rK nj).init mj tnext ctrl hinit
      (show cfg.t0 < cfg.t1 by linarith) hdt (le_refl _) (fun h => h) hctrl rfl
      (fun a b y s j => by
        show (cfg.solver.step a b y s j).result = _
        rw [hstep, C41_explicit_succeeds _ hex]) hwf.floor_le hfl hmax
  have hmem : ∀ c ∈ callLog cfg (y cfg.t0) tnext ctrl (odeRK tab f cj rF rK nj).init mj,
      ∃ k < n, c.solverT0 = p k ∧ c.solverT1 = p (k + 1) := by
    intro c hc
    have h1 : (c.solverT0, c.solverT1) ∈ (List.range n).map (fun j => (p j, p (j + 1))) := by
      rw [← hlog]
      exact List.mem_map_of_mem ((C84_same_steps cfg _ _ _ _ _).subset hc)
    obtain ⟨k, hk, he⟩ := List.mem_map.1 h1
    have he' := Prod.mk.inj he
    exact ⟨k, List.mem_range.1 hk, he'.1.symm, he'.2.symm⟩
  have hexact : cfg.controller.Exact := by
    rw [hctrl]
    intro a b y0 y1 e st
    exact ⟨fun _ => rfl, fun h => by simp [constantStepSize, constAdapt] at h⟩
  have hst : cfg.controller.stepTo = none := by rw [hctrl]; rfl
  have h1 : dt0 ≤ 1 := hdδ.trans ((min_le_right _ _).trans (min_le_left _ _))
  have hμd : (B' + q + 2) * dt0 ≤ μ := by
    have := hdδ.trans ((min_le_right _ _).trans (min_le_right _ _))
    rw [le_div_iff₀ hden] at this
    linarith
  -- the size of the errors
  set k := min N (N' + 1) with hk
  have hk1 : dt0 ^ k ≤ dt0 := by
    have : dt0 ^ k ≤ dt0 ^ 1 := pow_le_pow_of_le_one hdt.le h1 (le_min hN (by omega))
    simpa using this
  have hk0 : 0 ≤ dt0 ^ k := pow_nonneg hdt.le _
  obtain ⟨e, he⟩ : ∃ e, e = Real.exp (κ * |L| * (cfg.t1 - cfg.t0)) * (‖y cfg.t0 - y cfg.t0‖ + (cfg.t1 - cfg.t0)
      * (B * dt0 ^ N + ((0 : ℚ) : ℝ) * D)) + B * dt0 ^ (N' + 1) + ((0 : ℚ) : ℝ) * D * dt0 := ⟨_, rfl⟩
  have hek : e ≤ B' * dt0 ^ k := by
    have h2 : dt0 ^ N ≤ dt0 ^ k := pow_le_pow_of_le_one hdt.le h1 (min_le_left _ _)
    have h3 : dt0 ^ (N' + 1) ≤ dt0 ^ k := pow_le_pow_of_le_one hdt.le h1 (min_le_right _ _)
    rw [he, sub_self, norm_zero, Rat.cast_zero]
    calc _ = Real.exp (κ * |L| * (cfg.t1 - cfg.t0)) * ((cfg.t1 - cfg.t0) * B) * dt0 ^ N + B * dt0 ^ (N' + 1) := by
          ring
      _ ≤ Real.exp (κ * |L| * (cfg.t1 - cfg.t0)) * ((cfg.t1 - cfg.t0) * B) * dt0 ^ k + B * dt0 ^ k := by gcongr
      _ = B' * dt0 ^ k := by rw [hB']; ring
  have heq : Λ * e / σ ≤ q * dt0 ^ k := by
    rw [hq, div_mul_eq_mul_div]
    apply div_le_div_of_nonneg_right _ hσ.le
    calc Λ * e ≤ Λ * (B' * dt0 ^ k) := mul_le_mul_of_nonneg_left hek hΛ
      _ = _ := by ring
  have hs1 : B' * dt0 ^ k ≤ B' * dt0 := mul_le_mul_of_nonneg_left hk1 hB0
  have hs2 : q * dt0 ^ k ≤ q * dt0 := mul_le_mul_of_nonneg_left hk1 hq0
  have hs3 : 0 ≤ B' * dt0 := mul_nonneg hB0 hdt.le
  have hs4 : 0 ≤ q * dt0 := mul_nonneg hq0 hdt.le
  have hm1 : μ ≤ r := min_le_left _ _
  have hm2 : μ ≤ ρ := (min_le_right _ _).trans (min_le_left _ _)
  have hm3 : μ ≤ τ - cfg.t0 := (min_le_right _ _).trans ((min_le_right _ _).trans (min_le_left _ _))
  have hm4 : μ ≤ cfg.t1 - τ := (min_le_right _ _).trans ((min_le_right _ _).trans (min_le_right _ _))
  have hexpand : (B' + q + 2) * dt0 = B' * dt0 + q * dt0 + 2 * dt0 := by ring
  rw [hexpand] at hμd
  obtain ⟨r1, r2⟩ := hall _ O cfg hwf rfl rfl hstep hinterp hown hexact hst (y cfg.t0) tnext ctrl mj dt0 hdt.le
    (hdδ.trans (min_le_left _ _))
    (fun c hc => by
      obtain ⟨k, hk, e1, e2⟩ := hmem c hc
      rw [e1, e2]; exact (hlt k hk).le)
    (fun c hc _ => by
      refine ⟨by rw [hstep, C41_explicit_succeeds _ hex]; rfl, ?_⟩
      obtain ⟨k, hk, e1, e2⟩ := hmem c hc
      rw [e1, e2]
      have := hle k hk
      simpa using this) c dir hev up hd τ σ ρ Λ r hcr e he (by linarith) (by linarith) (by linarith) (by linarith)
  -- the event is not missed
  have hocc : (solve cfg (y cfg.t0) tnext ctrl (odeRK tab f cj rF rK nj).init mj).core.result = .eventOccurred := by
    rw [(core_result_classification cfg hown _ _ _ _ _).2]
    by_contra hno
    apply r1
    rw [(C84_no_event cfg _ _ _ _ _ ?_).2.2.1]
    · exact hres
    · intro b hb
      by_contra hb'
      exact hno (List.any_eq_true.2 ⟨b, hb, by simpa using hb'⟩)
  have hcond : condFun cfg (solve cfg (y cfg.t0) tnext ctrl (odeRK tab f cj rF rK nj).init mj).core = false := by
    unfold condFun; rw [hocc]; simp [Result.isSuccessful]
  have hresult : (solve cfg (y cfg.t0) tnext ctrl (odeRK tab f cj rF rK nj).init mj).result
      = (finalise cfg (solve cfg (y cfg.t0) tnext ctrl (odeRK tab f cj rF rK nj).init mj).core).2.2 := by
    show (if condFun cfg (solve cfg (y cfg.t0) tnext ctrl (odeRK tab f cj rF rK nj).init mj).core then _ else _) = _
    rw [hcond]; rfl
  have hmax1 : B' * dt0 ^ k ≤ max B' q * dt0 ^ k := mul_le_mul_of_nonneg_right (le_max_left _ _) hk0
  have hmax2 : q * dt0 ^ k ≤ max B' q * dt0 ^ k := mul_le_mul_of_nonneg_right (le_max_right _ _) hk0
  refine ⟨fun hrf => ?_, fun find hrf => ⟨?_, ?_⟩⟩
  · have hr1 : (solve cfg (y cfg.t0) tnext ctrl (odeRK tab f cj rF rK nj).init mj).result = .eventOccurred := by
      rw [hresult]; unfold finalise; rw [hrf]; exact hocc
    obtain ⟨u1, u2, u3⟩ := (r2 hr1).1 hrf
    exact ⟨hr1, by linarith, by linarith, by linarith⟩
  · rw [hresult]
    unfold finalise
    rw [hrf]
    dsimp only
    split
    · dsimp only
      split
      · left; exact hocc
      · rename_i r' hr'
        right; exact ⟨_, _, _, hr'⟩
    · left; exact hocc
  · intro tolT tolF hsound hr1
    obtain ⟨u1, u2⟩ := (r2 hr1).2 find tolT tolF hrf hsound
    exact ⟨by linarith, by linarith⟩

end

/-! ### An example -/

/-- An ideal root finder: it finds an exact root in the bracket if there is one. -/
noncomputable def idealEventRoot (G : ℝ → List ℝ) (lo hi : ℝ) : ℝ × Option Result :=
  open Classical in
  if h : ∃ t, (lo ≤ t ∧ t ≤ hi) ∧ ∀ v ∈ G t, v = 0 then (h.choose, none)
  else (hi, some .internalError)

theorem idealEventRoot_finds : FindsRoot idealEventRoot 0 0 := by
  intro G lo hi hle hnone
  unfold idealEventRoot at hnone ⊢
  split at hnone
  · rename_i h
    rw [dif_pos h]
    exact ⟨h.choose_spec.1, h.choose, h.choose_spec.1, by simp, fun v hv => by rw [h.choose_spec.2 v hv]; simp⟩
  · simp at hnone

/-- `n` steps of `Dopri5` for `y' = y` on `[0, 1]`, with an event when `y` reaches `2`. -/
noncomputable def expEventCfg (n : ℕ) (find : Option ((ℝ → List ℝ) → ℝ → ℝ → ℝ × Option Result)) :
    Cfg ℝ ℝ (Option ℝ) (RK.Dense 1 ℝ) (RK.State 1 ℝ) (ConstState ℝ) ℝ ℝ :=
  { expTsCfg n with
    subs := []
    events := [.flt (fun _ y => y - 2) (some true)]
    rootFinder := find }

theorem expEventCfg_WF (n : ℕ) (find) : (expEventCfg n find).WF where
  le := by norm_num [expEventCfg, expTsCfg, expCfg]
  floor_le := by norm_num [expEventCfg, expTsCfg, expCfg]
  le_mid := by intro a h; simp only [expEventCfg, expTsCfg, expCfg] at *; linarith
  mid_le := by intro a h; simp only [expEventCfg, expTsCfg, expCfg] at *; linarith

theorem expEventCfg_own (n : ℕ) (find) (hfind : find = none ∨ find = some idealEventRoot) :
    (expEventCfg n find).OwnCodes where
  solver := by
    intro a b y s j
    have : ((expEventCfg n find).solver.step a b y s j).result = .successful :=
      C41_explicit_succeeds _ (by decide +kernel) _ _ _ _ _
    rw [this]; simp
  controller := by intro a b y y' e c; simp [expEventCfg, expTsCfg, expCfg, constantStepSize, constAdapt]
  root := by
    intro f hf g a b r hr
    have hf' : find = some f := hf
    have : f = idealEventRoot := by
      rcases hfind with h | h <;> rw [h] at hf'
      · simp at hf'
      · exact (Option.some.inj hf').symm
    subst this
    unfold idealEventRoot at hr
    split at hr
    · simp at hr
    · have : r = .internalError := (Option.some.inj hr).symm
      subst this; simp

/-- `e^t` crosses `2` at `log 2`. -/
theorem exp_crosses : CrossesAt (fun _ y => y - 2) Real.exp 0 1 true (Real.log 2) 1 1 1 1 where
  mem := ⟨Real.log_nonneg (by norm_num), by
    have := Real.log_two_lt_d9; linarith⟩
  slope := one_pos
  nonneg := zero_le_one
  lipschitz := by
    intro t _ x _
    rw [Real.norm_eq_abs, one_mul]
    apply le_of_eq
    congr 1
    ring
  before := by
    intro t ht
    have hlog : Real.log 2 < 1 := by have := Real.log_two_lt_d9; linarith
    have h0 : 0 ≤ Real.log 2 - t := sub_nonneg.2 ht.2
    have h1 := Real.add_one_le_exp (Real.log 2 - t)
    have h2 : Real.exp t * Real.exp (Real.log 2 - t) = 2 := by
      rw [← Real.exp_add, add_sub_cancel, Real.exp_log (by norm_num)]
    have h3 := Real.exp_pos t
    have h4 : Real.exp t * (Real.log 2 - t + 1) ≤ 2 :=
      (mul_le_mul_of_nonneg_left h1 h3.le).trans_eq h2
    have h5 : 1 ≤ Real.exp t := Real.one_le_exp ht.1
    simp only [if_true]
    nlinarith
  after := by
    intro t ht _
    have h1 := Real.add_one_le_exp (t - Real.log 2)
    have h2 : Real.exp t = 2 * Real.exp (t - Real.log 2) := by
      rw [Real.exp_sub, Real.exp_log (by norm_num)]; ring
    simp only [if_true]
    rw [h2]
    linarith [ht.1]

/-- The time at which `e^t` reaches `2`, computed with `n` steps of `Dopri5`, is wrong by at most a constant over
`n^5`, and by about the size of a step without root finder. -/
example : ∃ B : ℝ, ∃ n₀ : ℕ, ∀ n : ℕ, n₀ ≤ n → ∃ tnext ctrl,
    constInit id (0 : ℝ) (some 1) (some (1 / n)) = some (tnext, ctrl) ∧
    ((solve (expEventCfg n (some idealEventRoot)) (Real.exp 0) tnext ctrl
      (odeRK ![Dopri5.tableau] ![fun _ y => y] .never (idealRoot ℝ) (idealRoot ℝ) ()).init false).result
        = .eventOccurred →
    |(solve (expEventCfg n (some idealEventRoot)) (Real.exp 0) tnext ctrl
      (odeRK ![Dopri5.tableau] ![fun _ y => y] .never (idealRoot ℝ) (idealRoot ℝ) ()).init false).tfinal
        - Real.log 2| ≤ B * (1 / n) ^ 5) ∧
    (solve (expEventCfg n none) (Real.exp 0) tnext ctrl
      (odeRK ![Dopri5.tableau] ![fun _ y => y] .never (idealRoot ℝ) (idealRoot ℝ) ()).init false).result
        = .eventOccurred ∧
    (solve (expEventCfg n none) (Real.exp 0) tnext ctrl
      (odeRK ![Dopri5.tableau] ![fun _ y => y] .never (idealRoot ℝ) (idealRoot ℝ) ()).init false).tfinal
        ≤ Real.log 2 + B * (1 / n) ^ 5 + 1 / n := by
  obtain ⟨δ, B, hδ, hB⟩ := C85_constant C85_dopri5 (by norm_num)
    (by decide +kernel) ![fun _ y => y] .never (idealRoot ℝ) (idealRoot ℝ) () 1 linear_nice Real.exp
    exp_solves_everywhere 0 1 _ _ _ _ _ _ _ exp_crosses (Real.log_pos (by norm_num))
    (by have := Real.log_two_lt_d9; linarith) one_pos one_pos
  obtain ⟨n₀, hn₀⟩ := exists_nat_gt (1 / δ)
  refine ⟨B, n₀, fun n hnn => ?_⟩
  have hn1 : 1 / δ < n := hn₀.trans_le (by exact_mod_cast hnn)
  have hn' : (0 : ℝ) < n := lt_trans (by positivity) hn1
  have hc : ⌈((1 : ℝ) - 0) / (1 / n)⌉ = (n : ℤ) := by
    have : ((1 : ℝ) - 0) / (1 / n) = n := by field_simp; ring
    rw [this]; exact Int.ceil_natCast n
  refine ⟨_, _, rfl, ?_⟩
  have main := fun find hfind => hB ℝ (expEventCfg n find) (expEventCfg_WF n find) (expEventCfg_own n find hfind) rfl rfl
    rfl rfl rfl (some true) (by simp) rfl
    (1 / n) (by positivity) (by rw [div_le_iff₀ hn']; rw [div_lt_iff₀ hδ] at hn1; linarith) _ _ false rfl (by
      rw [hc]
      have : (0 : ℝ) ≤ (1 - 0) / ((n : ℤ) : ℝ) := by rw [Int.cast_natCast, sub_zero]; positivity
      show (1 : ℝ) - _ ≤ 1
      linarith) (by rw [hc]; exact le_refl _)
  refine ⟨fun hocc => ?_, ?_⟩
  · have h1 := (((main (some idealEventRoot) (.inr rfl)).2 idealEventRoot rfl).2 0 0 idealEventRoot_finds hocc).1
    rw [zero_div, add_zero, add_zero] at h1
    exact h1
  · obtain ⟨h1, -, h2, -⟩ := (main none (.inl rfl)).1 rfl
    exact ⟨h1, h2⟩

end Verif
