import Verif.Spec.DenseEnds
import Verif.Lemmas.DenseRows
import Verif.Model.Solvers
import Verif.Props.Dense
import Verif.Props.Save
import Verif.Props.LocalInterp
import Verif.Model.SRK
import Verif.Model.Langevin
import Verif.Model.Constant

/-!
# C77: dense output and `SaveAt(ts=...)` join up with the states of the solve
-/

set_option linter.unusedSectionVars false
set_option maxRecDepth 100000

namespace Verif
open Finset

/-! ### Whole solves -/

section
variable {T Y E D S C O F : Type} [LinearOrder T] [LinearOrder F] [Zero F]

theorem piecesFrom_joined (cfg : Cfg T Y E D S C O F) (hj : cfg.solver.Joins) (n : Nat)
    (s : Core T Y D S C F) (h : ∀ s' ∈ attempts cfg n s, accepted cfg s' = true → s'.tprev ≠ s'.tnext) :
    ∀ (i : Nat) (p : Piece T Y D), (piecesFrom cfg n s)[i]? = some p →
      (s.y :: (piecesFrom cfg n s).map (·.y))[i]? = some (p.eval cfg.solver p.t0) ∧
      p.eval cfg.solver p.t1 = p.y := by
  induction n generalizing s with
  | zero => simp [piecesFrom, attempts]
  | succ n ih =>
    by_cases hc : condFun cfg s = true
    · simp only [attempts, hc, if_true, List.mem_cons, forall_eq_or_imp] at h
      have hi := ih (coreBody cfg s).1 h.2
      have e1 : (coreBody cfg s).1.y = if accepted cfg s then (solverOut cfg s).y else s.y := rfl
      cases ha : accepted cfg s with
      | true =>
        have hp : piecesFrom cfg (n + 1) s = piece cfg s :: piecesFrom cfg n (coreBody cfg s).1 := by
          simp [piecesFrom, attempts, hc, ha]
        rw [hp]
        rw [ha, if_pos rfl] at e1
        have hjs := hj s.tprev s.tnext s.y s.solverState s.madeJump (h.1 ha)
        intro i p hip
        cases i with
        | zero =>
          simp only [List.getElem?_cons_zero, Option.some.injEq] at hip ⊢
          rw [← hip]
          exact ⟨hjs.1.symm, hjs.2⟩
        | succ i =>
          rw [List.getElem?_cons_succ] at hip
          rw [List.map_cons, List.getElem?_cons_succ]
          have := hi i p hip
          rw [e1] at this
          exact this
      | false =>
        have hp : piecesFrom cfg (n + 1) s = piecesFrom cfg n (coreBody cfg s).1 := by
          simp [piecesFrom, attempts, hc, ha]
        rw [hp]
        rw [ha] at e1
        rw [e1] at hi
        exact hi
    · have hc' : condFun cfg s = false := by simpa using hc
      simp [piecesFrom, attempts, hc']

/-- **C77.** In every solve, the interpolation over each accepted step starts at the value that the previous
accepted step returned (the first one: at `y0`), and ends at the value that the step itself returned. So
dense output is continuous, and does not depend at the ends of the steps on which of the two neighbouring
steps is used. -/
theorem C77_joined (cfg : Cfg T Y E D S C O F) (hj : cfg.solver.Joins) (y0 : Y) (tnext : T) (ctrl : C)
    (ss : S) (mj : Bool)
    (hne : ∀ c ∈ callLog cfg y0 tnext ctrl ss mj, (c.answer cfg).keep = true → c.solverT0 ≠ c.solverT1)
    (i : Nat) (p : Piece T Y D) (hp : (pieces cfg y0 tnext ctrl ss mj)[i]? = some p) :
    (y0 :: (pieces cfg y0 tnext ctrl ss mj).map (·.y))[i]? = some (p.eval cfg.solver p.t0) ∧
    p.eval cfg.solver p.t1 = p.y := by
  rw [log_eq] at hne
  rw [pieces_eq] at hp ⊢
  exact piecesFrom_joined cfg hj cfg.maxSteps (initState cfg y0 tnext ctrl ss mj).core
    (fun s hs ha => hne _ (List.mem_map_of_mem hs) ha) i p hp

/-- **C77.** The first accepted step that reaches the final time is the last one, and its interpolation gives
the final value there. -/
theorem C77_final (cfg : Cfg T Y E D S C O F) (hwf : cfg.WF) (hj : cfg.solver.Joins)
    (y0 : Y) (tnext : T) (ctrl : C) (ss : S) (mj : Bool) (htn : cfg.t0 ≤ tnext)
    (hc : ∀ c ∈ callLog cfg y0 tnext ctrl ss mj, (c.answer cfg).Forward c.ctrlT0 c.ctrlT1 ∧
      (c.answer cfg).Exact c.ctrlT0 c.ctrlT1)
    (hne : ∀ c ∈ callLog cfg y0 tnext ctrl ss mj, (c.answer cfg).keep = true → c.solverT0 ≠ c.solverT1)
    (p : Piece T Y D) (hp : firstCovering (pieces cfg y0 tnext ctrl ss mj)
      (solve cfg y0 tnext ctrl ss mj).core.tprev = some p) :
    p.eval cfg.solver (solve cfg y0 tnext ctrl ss mj).core.tprev = (solve cfg y0 tnext ctrl ss mj).core.y := by
  have hj' := C77_joined cfg hj y0 tnext ctrl ss mj hne
  have hf1 := C01_time_forward cfg hwf y0 tnext ctrl ss mj htn (fun c hcm => (hc c hcm).1)
  rw [log_eq] at hc hf1 hne
  have hhist : ∀ s ∈ history cfg y0 tnext ctrl ss mj, (adaptOut cfg s).Exact s.tprev s.tnext ∧
      s.tprev ≤ s.tnext ∧ s.tnext ≤ cfg.t1 := by
    intro s hs
    refine ⟨(hc _ (List.mem_map_of_mem hs)).2, ?_⟩
    exact (hf1.1 _ (List.mem_map_of_mem hs)).2
  have hpne : ∀ q ∈ pieces cfg y0 tnext ctrl ss mj, q.t0 < q.t1 := by
    intro q hq
    unfold pieces at hq
    obtain ⟨s, hs, rfl⟩ := List.mem_map.1 hq
    obtain ⟨hs1, hs2⟩ := List.mem_filter.1 hs
    exact lt_of_le_of_ne (hhist s hs1).2.1 (hne _ (List.mem_map_of_mem hs1) hs2)
  obtain ⟨p1, p2⟩ := piecesFrom_sorted cfg cfg.maxSteps (initState cfg y0 tnext ctrl ss mj).core hhist
  have p3 := piecesFrom_chain cfg cfg.maxSteps (initState cfg y0 tnext ctrl ss mj).core
    (fun s hs => ⟨(hhist s hs).1.2, le_trans (hhist s hs).2.1 (hhist s hs).2.2⟩)
  have p4 := last_piece_final cfg cfg.maxSteps (initState cfg y0 tnext ctrl ss mj).core
    (fun s hs => (hhist s hs).1.2) (fun s hs => le_trans (hhist s hs).2.1 (hhist s hs).2.2)
  rw [← pieces_eq] at p1 p2 p3 p4
  rw [← solve_core] at p4
  generalize hps : pieces cfg y0 tnext ctrl ss mj = ps at *
  rw [firstCovering, List.find?_eq_some_iff_getElem] at hp
  obtain ⟨hcov, i, hi, hpi, -⟩ := hp
  rw [decide_eq_true_eq] at hcov
  have hpos : 0 < ps.length := by omega
  have hlast : ps.getLast? = some (ps[ps.length - 1]) := by
    rw [List.getLast?_eq_getElem?, List.getElem?_eq_getElem (by omega)]
  rw [hlast] at p4
  simp only at p4
  have hreach := (p2 _ (List.getElem_mem (by omega : ps.length - 1 < ps.length))).2
  have hi' : i = ps.length - 1 := by
    by_contra hne'
    have hlt : i + 1 < ps.length := by omega
    have hle : ps[i].t1 ≤ ps[ps.length - 1].t1 := by
      exact List.pairwise_iff_getElem.1 p1 i (ps.length - 1) hi (by omega) (by omega)
    have hnext : ps[i + 1].t1 ≤ ps[ps.length - 1].t1 := by
      rcases Nat.lt_or_ge (i + 1) (ps.length - 1) with h | h
      · exact List.pairwise_iff_getElem.1 p1 (i + 1) (ps.length - 1) hlt (by omega) h
      · have : i + 1 = ps.length - 1 := by omega
        simp only [this]; exact le_refl _
    have hch := p3 (i + 1) ps[i + 1] (List.getElem?_eq_getElem hlt)
    rw [List.getElem?_cons_succ, List.getElem?_map, List.getElem?_eq_getElem hi, Option.map_some,
      Option.some.injEq, (p2 _ (List.getElem_mem hi)).2] at hch
    have h1 := hpne _ (List.getElem_mem hlt)
    rw [← hch, hpi] at h1
    rw [p4.1, hreach] at hcov
    exact absurd (lt_of_le_of_lt hcov (lt_of_lt_of_le h1 hnext)) (lt_irrefl _)
  subst hi'
  have := (hj' (ps.length - 1) p (by rw [List.getElem?_eq_getElem hi, hpi])).2
  rw [p4.1, p4.2, hreach, hpi]
  exact this

/-- **C77.** Dense output at the final time is the final value. -/
theorem C77_dense_final (cfg : Cfg T Y E D S C O F) (hwf : cfg.WF) (hd : cfg.dense = true)
    (hj : cfg.solver.Joins) (hroot : cfg.rootFinder = none)
    (y0 : Y) (tnext : T) (ctrl : C) (ss : S) (mj : Bool) (htn : cfg.t0 ≤ tnext)
    (hc : ∀ c ∈ callLog cfg y0 tnext ctrl ss mj, (c.answer cfg).Forward c.ctrlT0 c.ctrlT1 ∧
      (c.answer cfg).Exact c.ctrlT0 c.ctrlT1)
    (hne : ∀ c ∈ callLog cfg y0 tnext ctrl ss mj, (c.answer cfg).keep = true → c.solverT0 ≠ c.solverT1)
    (hpos : 0 < (solve cfg y0 tnext ctrl ss mj).core.numAccepted) :
    (denseOf cfg y0 (solve cfg y0 tnext ctrl ss mj)).evaluate (solve cfg y0 tnext ctrl ss mj).tfinal true
      = some (solve cfg y0 tnext ctrl ss mj).yfinal := by
  have hfin := finalise_no_root cfg (solve cfg y0 tnext ctrl ss mj).core hroot
  rw [solve_tfinal, solve_yfinal, hfin]
  have hf1 := C01_time_forward cfg hwf y0 tnext ctrl ss mj htn (fun c hcm => (hc c hcm).1)
  have hge : cfg.t0 ≤ (solve cfg y0 tnext ctrl ss mj).core.tprev := by
    have hhist : ∀ s ∈ history cfg y0 tnext ctrl ss mj, cfg.t0 ≤ s.tprev ∧ (adaptOut cfg s).Exact s.tprev s.tnext ∧
        s.tprev ≤ s.tnext ∧ s.tnext ≤ cfg.t1 := by
      intro s hs
      rw [log_eq] at hc hf1
      have h1 := hf1.1 _ (List.mem_map_of_mem hs)
      exact ⟨h1.1, (hc _ (List.mem_map_of_mem hs)).2, h1.2⟩
    have p4 := last_piece_final cfg cfg.maxSteps (initState cfg y0 tnext ctrl ss mj).core
      (fun s hs => (hhist s hs).2.1.2) (fun s hs => le_trans (hhist s hs).2.2.1 (hhist s hs).2.2.2)
    obtain ⟨-, p2⟩ := piecesFrom_sorted cfg cfg.maxSteps (initState cfg y0 tnext ctrl ss mj).core
      (fun s hs => (hhist s hs).2)
    rw [← pieces_eq] at p4 p2
    rw [← solve_core] at p4
    have hpl := (pieces_length cfg y0 tnext ctrl ss mj).1
    rw [← hpl] at hpos
    cases hgl : (pieces cfg y0 tnext ctrl ss mj).getLast? with
    | none => rw [List.getLast?_eq_none_iff] at hgl; rw [hgl] at hpos; simp at hpos
    | some q =>
      rw [hgl] at p4
      have hq := List.mem_of_getLast? hgl
      rw [p4.1, (p2 q hq).2]
      unfold pieces at hq
      obtain ⟨s, hs, rfl⟩ := List.mem_map.1 hq
      have := hhist s (List.mem_filter.1 hs).1
      exact this.1.trans this.2.2.1
  obtain ⟨p, hp, he⟩ := (C13_dense_value cfg hwf hd y0 tnext ctrl ss mj htn hc hpos
    (solve cfg y0 tnext ctrl ss mj).core.tprev).1 hge le_rfl
  rw [he, C77_final cfg hwf hj y0 tnext ctrl ss mj htn hc hne p hp]

/-- **C77.** With `SaveAt(ts=...)`, the value saved at the end `t1` of the solve is that of `SaveAt(t1=True)`. -/
theorem C77_ts_final (cfg : Cfg T Y E D S C O F) (hwf : cfg.WF) (hroot : cfg.rootFinder = none)
    (hst : cfg.controller.stepTo = none) (hj : cfg.solver.Joins)
    (hlt : cfg.t0 < cfg.t1) (ts : List T) (fn : T → Y → O) (hts : cfg.t1 ∈ ts)
    (hsub : cfg.subs = [{ t0 := false, t1 := false, ts := ts, steps := 0, fn := fn }])
    (hsort : ts.Pairwise (· ≤ ·)) (hrange : ∀ t ∈ ts, t ≤ cfg.t1)
    (y0 : Y) (tnext : T) (ctrl : C) (ss : S) (mj : Bool) (htn : cfg.t0 ≤ tnext)
    (hc : ∀ c ∈ callLog cfg y0 tnext ctrl ss mj, (c.answer cfg).Forward c.ctrlT0 c.ctrlT1 ∧
      (c.answer cfg).Exact c.ctrlT0 c.ctrlT1)
    (hne : ∀ c ∈ callLog cfg y0 tnext ctrl ss mj, (c.answer cfg).keep = true → c.solverT0 ≠ c.solverT1)
    (hsucc : (solve cfg y0 tnext ctrl ss mj).result = .successful) :
    ∃ out : T → O, out cfg.t1 = fn cfg.t1 (solve cfg y0 tnext ctrl ss mj).yfinal ∧
      (solve cfg y0 tnext ctrl ss mj).saves.map (·.buf) = [ts.map (fun t => .val t (out t))] := by
  obtain ⟨cover, h1, h2⟩ := C07_saveat_ts cfg hwf hroot hst hlt ts fn (List.ne_nil_of_mem hts) hsub hsort hrange
    y0 tnext ctrl ss mj (fun c hcm => (hc c hcm).2) hsucc
  refine ⟨fun t => fn t ((cover t).eval cfg.solver t), ?_, h2⟩
  have htf : (solve cfg y0 tnext ctrl ss mj).core.tprev = cfg.t1 := by
    have hres := solve_result cfg y0 tnext ctrl ss mj
    rw [hsucc] at hres
    have hc : condFun cfg (solve cfg y0 tnext ctrl ss mj).core = false := by
      cases h : condFun cfg (solve cfg y0 tnext ctrl ss mj).core with
      | false => rfl
      | true => rw [h] at hres; simp at hres
    rw [hc, finalise_no_root cfg _ hroot] at hres
    simp only [Bool.false_eq_true, if_false] at hres
    have : ¬ (solve cfg y0 tnext ctrl ss mj).core.tprev < cfg.t1 := by
      simpa [condFun, hst, ← hres, Result.isSuccessful] using hc
    refine le_antisymm ?_ (not_lt.1 this)
    rw [solve_core]
    exact (run_inv cfg (fun s => s.tprev ≤ cfg.t1) cfg.maxSteps _ hwf.le
      (fun s _ _ _ => min_le_right _ _)).2
  have hp := h1 _ hts
  have hfin := finalise_no_root cfg (solve cfg y0 tnext ctrl ss mj).core hroot
  rw [solve_yfinal, hfin]
  have := C77_final cfg hwf hj y0 tnext ctrl ss mj htn hc hne (cover cfg.t1) (by rw [htf]; exact hp)
  rw [htf] at this
  simp only [this]

end

/-! ### Which solvers join up -/

section
variable {K Y VF Ct J : Type} [Field K] [DecidableEq K] [AddCommGroup Y] [Module K Y]

/-- A solver with linear interpolation between the value it started from and the value it returned. -/
theorem joins_linear {Er S : Type} (sv : Solver K Y Er (Y × Y) S) (hi : sv.interp = localLinearInterp)
    (hd : ∀ t0 t1 y0 st mj, (sv.step t0 t1 y0 st mj).dense = (y0, (sv.step t0 t1 y0 st mj).y)) : sv.Joins := by
  intro t0 t1 y0 st mj hne
  rw [hi, hd]
  have := C39_linear (LocalLinear.mk t0 t1 y0 (sv.step t0 t1 y0 st mj).y) hne
  exact ⟨this.1, this.2.1⟩

/-- **C77.** Euler's method. -/
theorem C77_euler (term : Term K Y VF Ct) : (euler term localLinearInterp).Joins :=
  joins_linear _ rfl fun _ _ _ _ _ => rfl

/-- **C77.** Leapfrog/midpoint. -/
theorem C77_leapfrog (term : Term K Y VF Ct) : (leapfrog term localLinearInterp).Joins :=
  joins_linear _ rfl fun _ _ _ _ _ => rfl

/-- **C77.** Semi-implicit Euler. -/
theorem C77_semi_implicit_euler {Y₁ Y₂ C₁ C₂ : Type} [AddCommGroup Y₁] [AddCommGroup Y₂] [Module K Y₁] [Module K Y₂]
    (term1 : K → Y₂ → C₁ → Y₁) (contr1 : K → K → C₁) (term2 : K → Y₁ → C₂ → Y₂) (contr2 : K → K → C₂) :
    (semiImplicitEuler term1 contr1 term2 contr2 localLinearInterp).Joins :=
  joins_linear _ rfl fun _ _ _ _ _ => rfl

/-- **C77.** Implicit Euler, whatever the root finder returns. -/
theorem C77_implicit_euler (term : Term K Y VF Ct) (root : (Y → Y) → Y → Y × Result) :
    (implicitEuler K term root localLinearInterp).Joins :=
  joins_linear _ rfl fun _ _ _ _ _ => rfl

/-- **C77.** Reversible Heun. -/
theorem C77_reversible_heun [AddCommGroup VF] (term : Term K Y VF Ct) :
    (reversibleHeun K term localLinearInterp).Joins :=
  joins_linear _ rfl fun _ _ _ _ _ => rfl

/-- **C77.** Euler-Heun. -/
theorem C77_euler_heun {VF' Ct' : Type} (drift : Term K Y VF Ct) (diffusion : Term K Y VF' Ct') :
    (eulerHeun K drift diffusion localLinearInterp).Joins :=
  joins_linear _ rfl fun _ _ _ _ _ => rfl

variable {K' : Type} [Field K'] [DecidableEq K'] [AddCommGroup VF] [Module K' Y] [Module K' VF]

/-- **C77.** Hermite interpolation: Heun, Midpoint, Ralston, Bosh3, Kvaerno3, Kvaerno4, Kvaerno5, and any other
Runge-Kutta solver, with any stages, whether or not a root finder succeeded. -/
theorem C77_hermite (rk : RK 1 K K' Y VF Ct J) (s : ℕ) : (rk.solver (hermiteInterp s)).Joins := by
  intro t0 t1 y0 st mj hne
  have := C39_hermite_ends t0 t1 hne y0 (rk.step t0 t1 y0 st mj).y
    ((stageList s ((rk.step t0 t1 y0 st mj).dense.ks 0)).headD 0)
    ((stageList s ((rk.step t0 t1 y0 st mj).dense.ks 0)).getLastD 0)
  exact this

/-- **C77.** Sil3. -/
theorem C77_sil3 (rk : RK 2 K K' Y VF Ct J) : (rk.solver sil3Interp).Joins := by
  intro t0 t1 y0 st mj hne
  exact C39_hermite_ends t0 t1 hne y0 (rk.step t0 t1 y0 st mj).y _ _

/-- **C77.** Dopri5. -/
theorem C77_dopri5 [CharZero K] (rk : RK 1 K K' Y VF Ct J) :
    (rk.solver dopri5Interp).Joins := by
  intro t0 t1 y0 st mj hne
  have := C39_quartic_ends (dopri5CMid.map fun q : ℚ => (q : K)) t0 t1 hne y0 (rk.step t0 t1 y0 st mj).y
    (stageList 7 ((rk.step t0 t1 y0 st mj).dense.ks 0))
  exact ⟨this.1, this.2.1⟩

end

section
variable {K Y VF Ct : Type} [Field K] [DecidableEq K] [AddCommGroup Y] [Module K Y] [AddCommGroup VF] [Module K VF]
  [AddCommGroup Ct] [Module K Ct]

/-- **C77.** The stochastic Runge-Kutta solvers: SEA, SRA1, ShARK, SlowRK, SPaRK, GeneralShARK. -/
theorem C77_srk (tab : STableau K) (ofTime : K → Ct) (leafW : Ct → Ct) (leafLevy : Nat → Ct → Ct) (dummy : Y × Y)
    (terms : Fin 2 → Term K Y VF Ct) :
    Solver.Joins (Er := Option Y) (S := Unit)
      { step := (srkClass tab ofTime leafW leafLevy localLinearInterp dummy).step terms
        interp := (srkClass (VF := VF) tab ofTime leafW leafLevy localLinearInterp dummy).interp } :=
  joins_linear _ rfl fun _ _ _ _ _ => rfl

end

/-- **C77.** The underdamped Langevin solvers (ALIGN, ShOULD, QUICSORT): whenever a step can be made. -/
theorem C77_langevin {d : ℕ} {Co : Type} (sv : LangevinSolver Co) (T : LangevinTerms d) (t0 t1 : ℝ)
    (y0 : RVec d × RVec d) (st : LangevinState d Co) (mj : Option Bool) (hne : t0 ≠ t1)
    (o) (ho : sv.tracedStep T t0 t1 y0 st mj = some o) :
    localLinearInterp t0 t1 o.dense t0 = y0 ∧ localLinearInterp t0 t1 o.dense t1 = o.y := by
  obtain ⟨p, -, rfl⟩ := Option.map_eq_some_iff.1 ho
  have key : ∀ y1 : RVec d × RVec d, localLinearInterp t0 t1 (y0, y1) t0 = y0 ∧
      localLinearInterp t0 t1 (y0, y1) t1 = y1 := fun y1 =>
    ⟨(C39_linear (LocalLinear.mk t0 t1 y0 y1) hne).1, (C39_linear (LocalLinear.mk t0 t1 y0 y1) hne).2.1⟩
  exact key _

section
variable {T E VF VF' Ct Ct' : Type} [NormedAddCommGroup E] [NormedSpace ℝ E]

/-- **C77.** Milstein's method (Stratonovich). -/
theorem C77_stratonovich_milstein (drift : Term ℝ E VF Ct) (diffusion : Term ℝ E VF' Ct') :
    (stratonovichMilstein drift diffusion localLinearInterp).Joins :=
  joins_linear _ rfl fun _ _ _ _ _ => rfl

/-- **C77.** Milstein's method (Itô). -/
theorem C77_ito_milstein [NormedAddCommGroup VF'] [NormedSpace ℝ VF'] {d : ℕ} (drift : Term ℝ E VF ℝ)
    (diffusion : Term ℝ E VF' (Fin d → ℝ)) :
    (itoMilstein drift diffusion localLinearInterp).Joins :=
  joins_linear _ rfl fun _ _ _ _ _ => rfl

end

/-! ### The interpolations with tabulated coefficients -/

/-- The coefficients of the interpolation at the end of the step add up to those of the step. -/
def rowsEnd {m : ℕ} (tab : Fin m → Tableau ℚ) (s d : ℕ) (rows : Tableau ℚ → List (List ℚ)) (ε : ℚ) : Bool :=
  decide (∀ p : Fin m, ∀ i ∈ range s,
    |∑ j ∈ range d, (rowOf rows j (tab p)).getD i 0 - (tab p).bSol.getD i 0| ≤ ε)

theorem joinsUpTo_of_rows {m : ℕ} (tab : Fin m → Tableau ℚ) (interp : InterpRule m) (s : ℕ) (c : ℕ → ℚ)
    (hok : methodOK s c tab = true) (d : ℕ) (rows : Tableau ℚ → List (List ℚ))
    (hr : HasRows tab interp s d rows) (ε : ℚ) (hck : rowsEnd tab s d rows ε = true) :
    JoinsUpTo tab interp s ε := by
  intro E _ _ _ J f cj rF rK nj t0 t1 y0 st mj hne hst hroot hsucc
  obtain ⟨-, h2, h3, h4⟩ := step_stages hok f cj rF rK nj t0 t1 y0 st mj hst hroot (fun _ => hsucc)
  rw [odeRK_combine hok] at h3
  rw [h4]
  generalize ((odeRK tab f cj rF rK nj).step t0 t1 y0 st mj).dense = D at *
  have hD : D.y1 = D.y0 + ∑ p, ∑ i ∈ range s, (((tab p).bSol.getD i 0 : ℚ) : ℝ) • D.ks p i := by
    rw [h2]; exact h3
  constructor
  · rw [hr E t0 t1 D t0 hD, linearRescale_start, h2]
    simp
  · rw [hr E t0 t1 D t1 hD, linearRescale_end t0 t1 hne, hD]
    have e : D.y0 + ∑ j ∈ range d, (1 : ℝ) ^ (j + 1) •
          ∑ p, ∑ i ∈ range s, (((rowOf rows j (tab p)).getD i 0 : ℚ) : ℝ) • D.ks p i
        - (D.y0 + ∑ p, ∑ i ∈ range s, (((tab p).bSol.getD i 0 : ℚ) : ℝ) • D.ks p i)
        = ∑ p, ∑ i ∈ range s, ((∑ j ∈ range d, (rowOf rows j (tab p)).getD i 0 - (tab p).bSol.getD i 0 : ℚ) : ℝ)
            • D.ks p i := by
      simp only [one_pow, one_smul, Rat.cast_sub, Rat.cast_sum, sub_smul, sum_smul, sum_sub_distrib]
      rw [sum_comm]
      have : ∀ p : Fin m, ∑ j ∈ range d, ∑ i ∈ range s, (((rowOf rows j (tab p)).getD i 0 : ℚ) : ℝ) • D.ks p i
          = ∑ i ∈ range s, ∑ j ∈ range d, (((rowOf rows j (tab p)).getD i 0 : ℚ) : ℝ) • D.ks p i :=
        fun p => sum_comm
      simp only [this]
      abel
    rw [e, mul_sum]
    refine (norm_sum_le _ _).trans (sum_le_sum fun p _ => ?_)
    rw [mul_sum]
    refine (norm_sum_le _ _).trans (sum_le_sum fun i hi => ?_)
    rw [norm_smul]
    refine mul_le_mul_of_nonneg_right ?_ (norm_nonneg _)
    have := of_decide_eq_true hck p i hi
    rw [Real.norm_eq_abs]
    exact_mod_cast this

section
open Tab

/-- **C77.** Tsit5, up to rounding of its coefficients. -/
theorem C77_tsit5 : JoinsUpTo ![Tsit5.tableau] (fun _ _ _ => tsit5Interp) 7 (3 / 10 ^ 17) :=
  joinsUpTo_of_rows _ _ 7 Tsit5.tableau.abscissa (by decide +kernel) 4 _ (tsit5_hasRows _) _ (by decide +kernel)

/-- **C77.** Dopri8, up to rounding of its coefficients. -/
theorem C77_dopri8 : JoinsUpTo ![Dopri8.tableau] (fun _ _ _ => dopri8Interp) 14 (1 / 10 ^ 12) :=
  joinsUpTo_of_rows _ _ 14 Dopri8.tableau.abscissa (by decide +kernel) 6 _ (dopri8_hasRows _) _ (by decide +kernel)

/-- **C77.** KenCarp3, up to rounding of its coefficients. -/
theorem C77_kencarp3 : JoinsUpTo ![KenCarp3.explicit, KenCarp3.implicit]
    (fun _ _ _ => kencarpInterp kencarp3Coeffs) 4 (1 / 10 ^ 19) :=
  joinsUpTo_of_rows _ _ 4 KenCarp3.explicit.abscissa (by decide +kernel) 2 _
    (kencarp_hasRows _ _ 4 2 rfl (by decide)) _ (by decide +kernel)

/-- **C77.** KenCarp4, up to rounding of its coefficients. -/
theorem C77_kencarp4 : JoinsUpTo ![KenCarp4.explicit, KenCarp4.implicit]
    (fun _ _ _ => kencarpInterp kencarp4Coeffs) 6 (1 / 10 ^ 19) :=
  joinsUpTo_of_rows _ _ 6 KenCarp4.explicit.abscissa (by decide +kernel) 3 _
    (kencarp_hasRows _ _ 6 3 rfl (by decide)) _ (by decide +kernel)

/-- **C77.** KenCarp5, up to rounding of its coefficients. -/
theorem C77_kencarp5 : JoinsUpTo ![KenCarp5.explicit, KenCarp5.implicit]
    (fun _ _ _ => kencarpInterp kencarp5Coeffs) 8 (1 / 10 ^ 19) :=
  joinsUpTo_of_rows _ _ 8 KenCarp5.explicit.abscissa (by decide +kernel) 3 _
    (kencarp_hasRows _ _ 8 3 rfl (by decide)) _ (by decide +kernel)

end

/-! ### `HalfSolver` does not join up -/

/-- The equation `y' = y`. -/
def growthTerm : Term ℚ ℚ ℚ ℚ :=
  { vf := fun _ y => y, contr := fun a b => b - a, prod := fun v c => v * c, vfProd := fun _ y c => y * c }

/-- One step of size 1 of `HalfSolver(Euler())`, with `SaveAt(ts=[1.0])`. -/
def halfCfg : Cfg ℚ ℚ ℚ (ℚ × ℚ) Unit (ConstState ℚ) ℚ ℚ :=
  { solver := halfSolver (fun a b => a + (b - a) / 2) (fun a b => |a - b|) (euler growthTerm localLinearInterp)
    controller := constantStepSize, cleanErr := id, events := []
    rootFinder := none, dist := fun a b => a - b, dummyDense := (0, 0), t0 := 0, t1 := 1, floor := 1
    mid := fun a b => (a + b) / 2
    subs := [{ t0 := false, t1 := false, ts := [1], steps := 0, fn := fun _ y => y }]
    dense := true, maxSteps := 2 }

/-- **C77, negation.** `HalfSolver` returns the value of the two half steps, but interpolates over the full
step: the value saved at the final time (and the dense output there) is not the final value. -/
theorem C77_half_solver_not :
    (solve halfCfg 1 1 ⟨1, 1, 0, 1⟩ () false).result = .successful ∧
    (solve halfCfg 1 1 ⟨1, 1, 0, 1⟩ () false).tfinal = 1 ∧
    (solve halfCfg 1 1 ⟨1, 1, 0, 1⟩ () false).yfinal = 9 / 4 ∧
    (solve halfCfg 1 1 ⟨1, 1, 0, 1⟩ () false).saves.map (·.buf) = [[.val 1 2]] ∧
    (denseOf halfCfg 1 (solve halfCfg 1 1 ⟨1, 1, 0, 1⟩ () false)).evaluate 1 true = some 2 ∧
    ¬ halfCfg.solver.Joins := by
  refine ⟨by decide +kernel, by decide +kernel, by decide +kernel, by decide +kernel, by decide +kernel, ?_⟩
  intro h
  have := (h 0 1 1 () false (by norm_num)).2
  revert this
  decide +kernel

/-- `C77_dense_final`, `C77_ts_final`: several steps, some of them rejected. -/
example : toySolver.Joins ∧ (∀ c ∈ callLog toyDenseCfg 100 3 0 0 false,
      (c.answer toyDenseCfg).Forward c.ctrlT0 c.ctrlT1 ∧ (c.answer toyDenseCfg).Exact c.ctrlT0 c.ctrlT1) ∧
    (∀ c ∈ callLog toyDenseCfg 100 3 0 0 false, (c.answer toyDenseCfg).keep = true → c.solverT0 ≠ c.solverT1) ∧
    (solve toyDenseCfg 100 3 0 0 false).tfinal = 7 ∧
    (denseOf toyDenseCfg 100 (solve toyDenseCfg 100 3 0 0 false)).evaluate 7 true = some 107 := by
  refine ⟨fun a b y _ _ _ => ⟨by simp [toySolver], rfl⟩, ?_⟩
  unfold AdaptOut.Forward AdaptOut.Exact
  decide

end Verif
