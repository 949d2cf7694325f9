import Verif.Model.PidWith
import Verif.Props.Pid

/-!
# Adaptive solves finish
-/

set_option linter.unusedSectionVars false

namespace Verif

variable {K : Type} [Field K] [LinearOrder K] [IsStrictOrderedRing K]
variable {Y Er D S O F : Type} [LinearOrder F] [Zero F]

/-- What holds whenever the loop condition is evaluated. `j` counts the rejections since the last accepted step. -/
def FinishInv (p : Pid K) (cfg : Cfg K Y Er D S (PidState K) O F) (δ : K) (A N : ℕ) (s : Core K Y D S (PidState K) F) :
    Prop :=
  s.ctrlState.Good ∧ cfg.t0 ≤ s.tprev ∧ s.tprev ≤ cfg.t1 ∧ s.tnext ≤ cfg.t1 ∧ s.result = .successful ∧
  s.numSteps ≤ A * (N + 1) ∧
  (s.tprev < cfg.t1 → s.tprev < s.tnext ∧ (δ ≤ s.tnext - s.tprev ∨ s.tnext = cfg.t1) ∧
    cfg.t0 + s.numAccepted * δ ≤ s.tprev ∧
    ∃ j, s.numSteps ≤ s.numAccepted * (N + 1) + j ∧ j ≤ N ∧
      s.tnext - s.tprev ≤ max p.safety (1 / 2) ^ j * (cfg.t1 - cfg.t0) ∧
      (s.tnext ≤ cfg.floor ∨ s.tnext = cfg.t1 ∨ j = 0 ∨ s.tnext = (s.tprev + cfg.t1) / 2))

theorem finish_step (p : Pid K) (hp : p.Valid) (hmin : p.dtmin = none) (scaled : Y → Y → Er → XVal K)
    (cfg : Cfg K Y Er D S (PidState K) O F) (hc : cfg.controller = pidWith p scaled)
    (hmid : ∀ a, cfg.mid a cfg.t1 = (a + cfg.t1) / 2) (hfl : cfg.floor ≤ cfg.t1)
    (hev : cfg.events = []) {H δ : K} (hH : cfg.t1 - cfg.floor ≤ H) (hδ0 : 0 < δ)
    (hδmax : ∀ M, p.dtmax = some M → δ ≤ M) (hδH : δ ≤ H * p.factormin) (hδH2 : δ ≤ H / 2)
    (A N : ℕ) (hA : cfg.t1 - cfg.t0 ≤ A * δ) (hN : max p.safety (1 / 2) ^ N * (cfg.t1 - cfg.t0) ≤ H)
    (s : Core K Y D S (PidState K) F) (hcond : condFun cfg s = true)
    (hx : (scaled s.y (solverOut cfg s).y (cfg.cleanErr (solverOut cfg s).err)).IsErr)
    (hsmall : s.tnext - s.tprev ≤ H →
      (scaled s.y (solverOut cfg s).y (cfg.cleanErr (solverOut cfg s).err)).lt (.fin 1) = true)
    (hok : (adaptOut cfg s).keep = true → (solverOut cfg s).result = .successful)
    (hI : FinishInv p cfg δ A N s) : FinishInv p cfg δ A N (coreBody cfg s).1 := by
  obtain ⟨hg, h0, h1, h1n, hres, -, hrun⟩ := hI
  have hlt : s.tprev < cfg.t1 := by
    unfold condFun at hcond
    rw [hc] at hcond
    simp only [pidWith, Bool.and_eq_true, decide_eq_true_eq] at hcond
    exact hcond.1
  obtain ⟨hpos, hlow, hacc, j, hj, hjN, hup, hwhere⟩ := hrun hlt
  obtain ⟨f, d, r, hr, hk, _, hf1, hf2, h3, h4, h5, _, h6, hgood⟩ :=
    adapt_cases p hp s.ctrlState hg s.tprev s.tnext _ hx
  have hao : adaptOut cfg s =
      { keep := r.keep, tprev := if r.keep then s.tnext else s.tprev,
        tnext := (if r.keep then s.tnext else s.tprev) + d, madeJump := false, state := r.state,
        result := r.result } := by
    have e : adaptOut cfg s = (pidWith p scaled).adapt s.tprev s.tnext s.y (solverOut cfg s).y
        (cfg.cleanErr (solverOut cfg s).err) s.ctrlState := by
      rw [← hc]; rfl
    rw [e]
    simp only [pidWith]
    rw [hr, h3, h4]
    rfl
  have hd : d = clampDt p ((s.tnext - s.tprev) * f) := by
    rcases h5 with h | ⟨_, _, h⟩
    · exact h
    · rw [hmin] at h; cases h
  have hdle : d ≤ (s.tnext - s.tprev) * f := by
    rw [hd]; unfold clampDt; rw [hmin]
    cases p.dtmax with
    | none => exact le_refl _
    | some M => exact min_le_left _ _
  have hdge : δ ≤ (s.tnext - s.tprev) * f → δ ≤ d := by
    intro h
    rw [hd]; unfold clampDt; rw [hmin]
    cases hM : p.dtmax with
    | none => exact h
    | some M => exact le_min h (hδmax M hM)
  -- at most `A - 1` steps have been accepted
  have hAcc : s.numAccepted < A := by
    by_contra hcon
    have hge : (A : K) ≤ s.numAccepted := by exact_mod_cast not_lt.1 hcon
    have := mul_le_mul_of_nonneg_right hge hδ0.le
    linarith
  have hsteps : s.numSteps + 1 ≤ A * (N + 1) := by
    have h7 : (s.numAccepted + 1) * (N + 1) ≤ A * (N + 1) := Nat.mul_le_mul_right _ hAcc
    have h8 : (s.numAccepted + 1) * (N + 1) = s.numAccepted * (N + 1) + (N + 1) := by ring
    omega
  have b1 : (coreBody cfg s).1.tprev = min (adaptOut cfg s).tprev cfg.t1 := rfl
  have b2 : (coreBody cfg s).1.tnext = clipToEnd cfg.mid (min (adaptOut cfg s).tprev cfg.t1)
      (adaptOut cfg s).tnext cfg.t1 cfg.floor (adaptOut cfg s).keep := rfl
  have b3 : (coreBody cfg s).1.ctrlState = (adaptOut cfg s).state := rfl
  have b4 : (coreBody cfg s).1.numSteps = s.numSteps + 1 := rfl
  have b5 : (coreBody cfg s).1.numAccepted
      = s.numAccepted + (if (adaptOut cfg s).keep then 1 else 0) := rfl
  have b6 : (coreBody cfg s).1.result = .successful := by
    have e : (coreBody cfg s).1.result = Result.where' (firstTrue false
        (List.zipWith (fun e old => EventCond.triggers e old (min (adaptOut cfg s).tprev cfg.t1)
          (if (adaptOut cfg s).keep then (solverOut cfg s).y else s.y)) cfg.events s.evVals)).2 .eventOccurred
        (Result.where' (Result.where' s.result.isOkay
          (Result.where' (adaptOut cfg s).keep (solverOut cfg s).result .successful) s.result).isOkay
          (adaptOut cfg s).result
          (Result.where' s.result.isOkay
            (Result.where' (adaptOut cfg s).keep (solverOut cfg s).result .successful) s.result)) := rfl
    rw [e, hev, hres]
    have e2 : Result.where' (adaptOut cfg s).keep (solverOut cfg s).result .successful = .successful := by
      unfold Result.where'
      split
      · rename_i hk; exact hok hk
      · rfl
    rw [e2, hao]
    simp only [List.zipWith_nil_left, firstTrue]
    exact (h6 hmin).1
  rw [hao] at b1 b2 b3 b5
  simp only at b1 b2 b3 b5
  unfold FinishInv
  rw [b3, b4, b5, b6]
  rcases Bool.eq_false_or_eq_true r.keep with hkeep | hkeep
  · -- accepted
    simp only [hkeep, if_true] at b1 b2 ⊢
    rw [min_eq_left h1n] at b1 b2
    rw [b1, b2]
    unfold clipToEnd
    simp only [if_true]
    refine ⟨hgood, by linarith, h1n, ?_, trivial, hsteps, fun hlt' => ?_⟩
    · split
      · exact le_refl _
      · rename_i h; exact (not_lt.1 h).trans hfl
    have hδ1 : δ ≤ s.tnext - s.tprev := by
      rcases hlow with h | h
      · exact h
      · exact absurd h hlt'.ne
    have hδd : δ ≤ d := hdge (hδ1.trans (le_mul_of_one_le_right (by linarith) (hf1 hkeep).1))
    refine ⟨?_, ?_, ?_, 0, ?_, Nat.zero_le _, ?_, ?_⟩
    · split <;> linarith
    · split
      · right; rfl
      · left; linarith
    · push_cast; linarith
    · have h8 : (s.numAccepted + 1) * (N + 1) = s.numAccepted * (N + 1) + (N + 1) := by ring
      omega
    · rw [pow_zero, one_mul]
      split
      · linarith
      · rename_i h; linarith [not_lt.1 h]
    · right; right; left; rfl
  · -- rejected
    simp only [hkeep, if_false, Bool.false_eq_true] at b1 b2 ⊢
    rw [min_eq_left h1] at b1 b2
    rw [b1, b2]
    unfold clipToEnd
    simp only [if_false, Bool.false_eq_true, hmid]
    have hbig : H < s.tnext - s.tprev := by
      by_contra hcon
      have h7 := hsmall (not_lt.1 hcon)
      rw [hk] at hkeep
      unfold Pid.keep at hkeep
      rw [hmin] at hkeep
      simp only [h7, Bool.true_eq_false] at hkeep
    have hH0 : 0 < H := by
      have : 0 ≤ cfg.t1 - cfg.floor := by linarith
      linarith
    have hjlt : j < N := by
      refine lt_of_le_of_ne hjN fun h => ?_
      rw [h] at hup
      linarith
    have hfpos : 0 < f := lt_of_lt_of_le hp.factormin_pos (hf2 hkeep).1
    have hδd : δ ≤ d := hdge (hδH.trans (mul_le_mul hbig.le (hf2 hkeep).1 hp.factormin_pos.le (by linarith)))
    have hds : d ≤ (s.tnext - s.tprev) * p.safety :=
      hdle.trans (mul_le_mul_of_nonneg_left (hf2 hkeep).2 (by linarith))
    have hds' : d < s.tnext - s.tprev :=
      lt_of_le_of_lt hds (mul_lt_of_lt_one_right (by linarith) hp.safety_lt)
    have hq0 : 0 ≤ max p.safety (1 / 2) := le_trans (by norm_num) (le_max_right _ _)
    have hT : 0 ≤ cfg.t1 - cfg.t0 := by linarith
    refine ⟨hgood, h0, h1, ?_, trivial, hsteps, fun _ => ⟨?_, ?_, ?_, j + 1, ?_, hjlt, ?_, ?_⟩⟩
    · split
      · linarith
      · linarith
    · split <;> linarith
    · left
      split <;> linarith
    · push_cast; linarith
    · rw [add_zero]; omega
    · split
      · rename_i hclip
        -- the step was cut to half of what remains
        have hcase : s.tnext = cfg.t1 ∨ j = 0 := by
          rcases hwhere with h | h | h | h
          · exfalso; linarith
          · left; exact h
          · right; exact h
          · exfalso
            have : s.tnext ≤ cfg.floor := by
              have : cfg.t1 - s.tnext = s.tnext - s.tprev := by rw [h]; ring
              linarith
            linarith
        rcases hcase with h | h
        · calc (s.tprev + cfg.t1) / 2 - s.tprev = (1 / 2) * (s.tnext - s.tprev) := by rw [h]; ring
            _ ≤ max p.safety (1 / 2) * (s.tnext - s.tprev) :=
              mul_le_mul_of_nonneg_right (le_max_right _ _) (by linarith)
            _ ≤ max p.safety (1 / 2) * (max p.safety (1 / 2) ^ j * (cfg.t1 - cfg.t0)) :=
              mul_le_mul_of_nonneg_left hup hq0
            _ = _ := by ring
        · subst h
          calc (s.tprev + cfg.t1) / 2 - s.tprev = (1 / 2) * (cfg.t1 - s.tprev) := by ring
            _ ≤ max p.safety (1 / 2) * (cfg.t1 - cfg.t0) :=
              mul_le_mul (le_max_right _ _) (by linarith) (by linarith) hq0
            _ = _ := by ring
      · calc s.tprev + d - s.tprev = d := by ring
          _ ≤ (s.tnext - s.tprev) * p.safety := hds
          _ ≤ (s.tnext - s.tprev) * max p.safety (1 / 2) :=
            mul_le_mul_of_nonneg_left (le_max_left _ _) (by linarith)
          _ ≤ (max p.safety (1 / 2) ^ j * (cfg.t1 - cfg.t0)) * max p.safety (1 / 2) :=
            mul_le_mul_of_nonneg_right hup hq0
          _ = _ := by ring
    · split
      · right; right; right; rfl
      · rename_i h; left; exact not_lt.1 h

/-- **C82.** An adaptive solve finishes: if the scaled error of steps of length at most `H` is below one, no matter
what happens on longer steps, then after at most `A * (N + 1)` steps the time is `t1`, where `A δ ≥ t1 - t0` and
`max safety (1/2) ^ N * (t1 - t0) ≤ H`, `δ` being the least of the first step, `dtmax`, `H / 2` and
`factormin * H`. -/
theorem C82_finishes (p : Pid K) (hp : p.Valid) (hmin : p.dtmin = none) (scaled : Y → Y → Er → XVal K)
    (cfg : Cfg K Y Er D S (PidState K) O F) (hc : cfg.controller = pidWith p scaled)
    (hmid : ∀ a, cfg.mid a cfg.t1 = (a + cfg.t1) / 2) (hle : cfg.t0 ≤ cfg.t1) (hfl : cfg.floor ≤ cfg.t1)
    (hev : cfg.events = []) (hroot : cfg.rootFinder = none) (y0 : Y) (dt0 tnext : K) (ctrl : PidState K)
    (hinit : p.init (.fin cfg.t0) (.fin dt0) = (.fin tnext, ctrl)) (ss : S) (mj : Bool) (H δ : K)
    (hH : cfg.t1 - cfg.floor ≤ H) (hδ0 : 0 < δ) (hδ : δ ≤ dt0) (hδmax : ∀ M, p.dtmax = some M → δ ≤ M)
    (hδH : δ ≤ H * p.factormin) (hδH2 : δ ≤ H / 2)
    (hx : ∀ c ∈ callLog cfg y0 tnext ctrl ss mj, (scaled c.ctrlY0 c.ctrlY1 c.ctrlErr).IsErr)
    (hsmall : ∀ c ∈ callLog cfg y0 tnext ctrl ss mj, c.solverT1 - c.solverT0 ≤ H →
      (scaled c.ctrlY0 c.ctrlY1 c.ctrlErr).lt (.fin 1) = true)
    (hok : ∀ c ∈ callLog cfg y0 tnext ctrl ss mj, (c.answer cfg).keep = true →
      (cfg.solver.step c.solverT0 c.solverT1 c.solverY c.solverState c.solverMadeJump).result = .successful)
    (A N : ℕ) (hA : cfg.t1 - cfg.t0 ≤ A * δ) (hN : max p.safety (1 / 2) ^ N * (cfg.t1 - cfg.t0) ≤ H)
    (hsteps : A * (N + 1) ≤ cfg.maxSteps) :
    (solve cfg y0 tnext ctrl ss mj).result = .successful ∧ (solve cfg y0 tnext ctrl ss mj).tfinal = cfg.t1 ∧
    (callLog cfg y0 tnext ctrl ss mj).length ≤ A * (N + 1) := by
  obtain ⟨hsz, rfl⟩ : δ ≤ tnext - cfg.t0 ∧ ctrl = .fresh := by
    unfold Pid.init at hinit
    rw [hmin] at hinit
    simp only at hinit
    have h1 := congrArg Prod.fst hinit
    have h2 := congrArg Prod.snd hinit
    refine ⟨?_, h2.symm⟩
    cases hM : p.dtmax with
    | none =>
      rw [hM] at h1
      simp only [XVal.add] at h1
      have := XVal.fin.inj h1
      linarith
    | some M =>
      rw [hM] at h1
      simp only [XVal.min_fin, XVal.add] at h1
      have := XVal.fin.inj h1
      have := le_min hδ (hδmax M hM)
      linarith
  have hinv0 : FinishInv p cfg δ A N (initState cfg y0 tnext .fresh ss mj).core := by
    refine ⟨fresh_good, le_refl _, hle, min_le_right _ _, ?_, Nat.zero_le _, fun hlt => ⟨?_, ?_, ?_, 0, Nat.zero_le _,
      Nat.zero_le _, ?_, Or.inr (Or.inr (Or.inl rfl))⟩⟩
    · show Result.where' (firstTrue false (cfg.events.map (fun e => e.initMask cfg.t0 y0))).2 _ _ = _
      rw [hev]; rfl
    · show cfg.t0 < min tnext cfg.t1
      exact lt_min (by linarith) hlt
    · show δ ≤ min tnext cfg.t1 - cfg.t0 ∨ min tnext cfg.t1 = cfg.t1
      rcases le_total tnext cfg.t1 with h | h
      · left; rw [min_eq_left h]; exact hsz
      · right; exact min_eq_right h
    · show cfg.t0 + ((0 : ℕ) : K) * δ ≤ cfg.t0
      simp
    · show min tnext cfg.t1 - cfg.t0 ≤ _
      rw [pow_zero, one_mul]
      linarith [min_le_right tnext cfg.t1]
  rw [log_eq] at hx hsmall hok ⊢
  have hfin := (run_inv cfg (FinishInv p cfg δ A N) cfg.maxSteps (initState cfg y0 tnext .fresh ss mj).core hinv0 (by
    intro s hs hcond hI
    have hmem : expectedCall cfg s ∈ (history cfg y0 tnext .fresh ss mj).map (expectedCall cfg) :=
      List.mem_map.2 ⟨s, hs, rfl⟩
    exact finish_step p hp hmin scaled cfg hc hmid hfl hev hH hδ0 hδmax hδH hδH2 A N hA hN s hcond
      (hx _ hmem) (hsmall _ hmem) (hok _ hmem) hI)).2
  obtain ⟨-, h0, h1, h1n, hres, hn, hrun⟩ := hfin
  have hcount := (coreRun_counts cfg cfg.maxSteps (initState cfg y0 tnext .fresh ss mj).core).1
  have hz : (initState cfg y0 tnext .fresh ss mj).core.numSteps = 0 := rfl
  rw [hz, Nat.zero_add] at hcount
  have hlen : (history cfg y0 tnext .fresh ss mj).length ≤ A * (N + 1) := by
    have : (history cfg y0 tnext .fresh ss mj).length
      = (coreRun cfg cfg.maxSteps (initState cfg y0 tnext .fresh ss mj).core).numSteps := hcount.symm
    omega
  have hdone : (coreRun cfg cfg.maxSteps (initState cfg y0 tnext .fresh ss mj).core).tprev = cfg.t1 := by
    by_contra hne
    have hlt := lt_of_le_of_ne h1 hne
    have hcond : condFun cfg (coreRun cfg cfg.maxSteps (initState cfg y0 tnext .fresh ss mj).core) = true := by
      unfold condFun
      rw [hc, hres]
      simp only [pidWith, hlt, decide_true, Result.isSuccessful, beq_self_eq_true, Bool.and_true]
    have heq := attempts_length_eq cfg _ _ hcond
    obtain ⟨_, _, hacc, j, hj, hjN, _⟩ := hrun hlt
    have hAcc : (coreRun cfg cfg.maxSteps (initState cfg y0 tnext .fresh ss mj).core).numAccepted < A := by
      by_contra hcon
      have hge : (A : K) ≤ (coreRun cfg cfg.maxSteps (initState cfg y0 tnext .fresh ss mj).core).numAccepted := by
        exact_mod_cast not_lt.1 hcon
      have := mul_le_mul_of_nonneg_right hge hδ0.le
      linarith
    have h7 := Nat.mul_le_mul_right (N + 1) hAcc
    have h8 : ((coreRun cfg cfg.maxSteps (initState cfg y0 tnext .fresh ss mj).core).numAccepted).succ * (N + 1)
      = (coreRun cfg cfg.maxSteps (initState cfg y0 tnext .fresh ss mj).core).numAccepted * (N + 1) + (N + 1) := by
      rw [Nat.succ_mul]
    omega
  refine ⟨?_, ?_, by rwa [List.length_map]⟩
  · rw [solve_result, finalise_no_root cfg _ hroot, solve_core, if_neg, hres]
    unfold condFun
    rw [hc, hdone]
    simp [pidWith]
  · rw [solve_tfinal, finalise_no_root cfg _ hroot, solve_core, hdone]

end Verif
