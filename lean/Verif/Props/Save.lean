import Verif.Lemmas.Output
import Verif.Spec.Toy

/-!
# Properties of saved output: C07-C12, C19
-/

set_option linter.unusedSectionVars false

namespace Verif

variable {T Y E D S C O F : Type} [LinearOrder T] [LinearOrder F] [Zero F]

/-! ## C09: saved output is exactly the predicted sequence, padded -/

/-- The final write, without event root finder. -/
theorem saveT1_spec (cfg : Cfg T Y E D S C O F) (hroot : cfg.rootFinder = none)
    (sub : SubSaveAt T Y O) (hcap : 1 ≤ allocSize cfg.maxSteps sub) (k : Nat) (tf : T) (yf : Y)
    (es : List (T × O)) (sv : SaveState T O) (h : Rep (allocSize cfg.maxSteps sub) es sv)
    (hroom : sub.t1 = true ∧ ¬ (sub.steps ≠ 0 ∧ sub.steps ∣ k) →
      es.length + 1 ≤ allocSize cfg.maxSteps sub) :
    (saveT1 cfg k tf yf sub sv).buf = padded (allocSize cfg.maxSteps sub)
      (es ++ (if sub.t1 = true ∧ ¬ (sub.steps ≠ 0 ∧ sub.steps ∣ k) then [(tf, sub.fn tf yf)]
        else [])) := by
  have hfalse : (save tf yf sub.fn sv 1 false).buf = padded (allocSize cfg.maxSteps sub) es := by
    apply save_false_buf _ _ h.1
    rw [padded_length _ _ h.2.2]; exact hcap
  have hfalse' : sv.buf = padded (allocSize cfg.maxSteps sub) es := h.1
  unfold saveT1
  rw [hroot]
  dsimp only
  by_cases hp : sub.t1 = true ∧ ¬ (sub.steps ≠ 0 ∧ sub.steps ∣ k)
  · obtain ⟨hp1, hp2⟩ := hp
    have hpred : (sub.t1 && !(if sub.steps = 0 then false else if sub.steps = 1 then true
        else decide (k % sub.steps = 0))) = true := by
      rw [hp1]
      by_cases h0 : sub.steps = 0
      · simp [h0]
      · have hnd : ¬ sub.steps ∣ k := fun hd => hp2 ⟨h0, hd⟩
        have h1 : ¬ sub.steps = 1 := fun h1 => hnd (h1 ▸ Nat.one_dvd k)
        simp only [h0, h1, if_false, Bool.true_and, Bool.not_eq_true', decide_eq_false_iff_not]
        exact fun hm => hnd (Nat.dvd_of_mod_eq_zero hm)
    rw [hpred, if_pos (c := sub.t1 = true ∧ _) ⟨hp1, hp2⟩]
    simp only [Bool.true_or, if_true]
    have := rep_save h 1 (hroom ⟨hp1, hp2⟩) tf yf sub.fn
    simpa using this.1
  · have hpred : (sub.t1 && !(if sub.steps = 0 then false else if sub.steps = 1 then true
        else decide (k % sub.steps = 0))) = false := by
      cases ht : sub.t1 with
      | false => rfl
      | true =>
        have hd : sub.steps ≠ 0 ∧ sub.steps ∣ k := by
          by_contra hd; exact hp ⟨ht, hd⟩
        rw [if_neg hd.1]
        by_cases h1 : sub.steps = 1
        · simp [h1]
        · simp [h1, Nat.mod_eq_zero_of_dvd hd.2]
    rw [hpred, if_neg hp, List.append_nil]
    simp only [Bool.false_or]
    split
    · exact hfalse
    · exact hfalse'

/-- Without event root finder and with `t0 < t1`, the buffer of every `SubSaveAt` is the predicted
sequence of entries followed only by padding, whatever the solver, the controller, the accept/reject
history and the requested combination; and the predicted sequence fits in the allocated size.
(`hcap` excludes buffers of size zero, for which JAX raises a shape error when tracing `_save`:
e.g. `SaveAt(steps=5)` with `max_steps=4`.) -/
theorem C09_output_refines (cfg : Cfg T Y E D S C O F) (hroot : cfg.rootFinder = none)
    (hlt : cfg.t0 ≠ cfg.t1) (hcap : ∀ sub ∈ cfg.subs, 1 ≤ allocSize cfg.maxSteps sub)
    (y0 : Y) (tnext : T) (ctrl : C) (ss : S) (mj : Bool) :
    let out := solve cfg y0 tnext ctrl ss mj
    let es := fun sub => expectedEntries cfg.solver sub cfg.t0 y0 (pieces cfg y0 tnext ctrl ss mj)
      out.tfinal out.yfinal
    out.saves.map (·.buf) = cfg.subs.map (fun sub => padded (allocSize cfg.maxSteps sub) (es sub)) ∧
    ∀ sub ∈ cfg.subs, (es sub).length ≤ allocSize cfg.maxSteps sub := by
  dsimp only
  have hlen : ∀ sub : SubSaveAt T Y O, (expectedEntries cfg.solver sub cfg.t0 y0 (pieces cfg y0 tnext ctrl ss mj)
      (solve cfg y0 tnext ctrl ss mj).tfinal (solve cfg y0 tnext ctrl ss mj).yfinal).length
      ≤ allocSize cfg.maxSteps sub := fun sub =>
    expectedEntries_length cfg.solver sub cfg.t0 y0 _ _ _ _
      (pieces_length cfg y0 tnext ctrl ss mj).2
  refine ⟨?_, fun sub _ => hlen sub⟩
  rw [solve_saves, List.map_map]
  apply List.map_congr_left
  intro sub hsub
  simp only [Function.comp, saveIfT0EqT1, if_neg hlt]
  have hr := subLoop_rep cfg y0 tnext ctrl ss mj sub
  rw [hroot]
  dsimp only
  rw [← (pieces_length cfg y0 tnext ctrl ss mj).1]
  rw [saveT1_spec cfg hroot sub (hcap sub hsub) _ _ _ _ _ hr]
  · rfl
  · intro hp
    have := hlen sub
    unfold expectedEntries at this
    rw [if_pos hp] at this
    simpa [loopEntries, Nat.add_assoc] using this

/-- Non-vacuity: `t0`, `t1`, repeated `ts` and `steps=2` together, with rejected steps; the buffer has
16 slots of which 8 are used. -/
example : toyCfg.rootFinder = none ∧ toyCfg.t0 ≠ toyCfg.t1 ∧
    (∀ sub ∈ toyCfg.subs, 1 ≤ allocSize toyCfg.maxSteps sub) ∧
    (solve toyCfg 100 3 0 0 false).saves.map (·.buf) = [[.val 0 100, .val 0 100, .val 1 111,
      .val 1 111, .val 3 133, .val 3 133, .val 7 177, .val 7 177, .empty, .empty, .empty, .empty,
      .empty, .empty, .empty, .empty]] := by decide

/-- The entries of a padded buffer. -/
theorem entriesOf_padded (size : Nat) (es : List (T × O)) : entriesOf (padded size es) = es := by
  unfold padded
  rw [entriesOf_append, entriesOf_val, entriesOf_pad, List.append_nil]
  intro x hx; left; exact List.eq_of_mem_replicate hx

/-! ## C07: `SaveAt(ts=...)` -/

theorem stepEntries_ts (sv : Solver T Y E D S) (sub : SubSaveAt T Y O) (hst : sub.steps = 0)
    (ps : List (Piece T Y D)) (k : Nat) (rest : List T) (hsort : rest.Pairwise (· ≤ ·)) :
    stepEntries sv sub ps k rest = rest.filterMap (fun t =>
      (firstCovering ps t).map (fun p => (t, sub.fn t (p.eval sv t)))) := by
  induction ps generalizing k rest with
  | nil =>
    simp [stepEntries, firstCovering]
  | cons p ps ih =>
    have hcond : ¬ (sub.steps ≠ 0 ∧ sub.steps ∣ k + 1) := fun h => h.1 hst
    simp only [stepEntries, if_neg hcond, List.append_nil]
    have hd : (rest.dropWhile (· ≤ p.t1)).Pairwise (· ≤ ·) :=
      hsort.sublist (List.dropWhile_sublist _)
    rw [ih _ _ hd]
    conv_rhs => rw [← List.takeWhile_append_dropWhile (p := fun t => decide (t ≤ p.t1)) (l := rest)]
    rw [List.filterMap_append]
    congr 1
    · rw [← List.filterMap_eq_map]
      apply List.filterMap_congr
      intro t ht
      have : t ≤ p.t1 := by simpa using List.mem_takeWhile_imp ht
      simp [firstCovering, this]
    · apply List.filterMap_congr
      intro t ht
      have hgt : p.t1 < t := by
        clear ih hd
        induction rest with
        | nil => simp at ht
        | cons x rest ihr =>
          rw [List.pairwise_cons] at hsort
          by_cases hx : x ≤ p.t1
          · rw [List.dropWhile_cons_of_pos (by simpa using hx)] at ht
            exact ihr hsort.2 ht
          · rw [List.dropWhile_cons_of_neg (by simpa using hx)] at ht
            rcases List.mem_cons.1 ht with rfl | ht
            · exact not_le.1 hx
            · exact lt_of_lt_of_le (not_le.1 hx) (hsort.1 t ht)
      simp [firstCovering, not_le.2 hgt]

/-- For a solve ending in any way, `SaveAt(ts=ts)` records, in order, each requested time that some
accepted step reached, with `fn` of the interpolation over the first such step. -/
theorem C07_saveat_ts_any_end (cfg : Cfg T Y E D S C O F) (hroot : cfg.rootFinder = none)
    (hlt : cfg.t0 ≠ cfg.t1) (ts : List T) (fn : T → Y → O) (hne : ts ≠ [])
    (hsub : cfg.subs = [{ t0 := false, t1 := false, ts := ts, steps := 0, fn := fn }])
    (hsort : ts.Pairwise (· ≤ ·)) (y0 : Y) (tnext : T) (ctrl : C) (ss : S) (mj : Bool) :
    (solve cfg y0 tnext ctrl ss mj).saves.map (·.buf) = [padded ts.length (ts.filterMap (fun t =>
      (firstCovering (pieces cfg y0 tnext ctrl ss mj) t).map
        (fun p => (t, fn t (p.eval cfg.solver t)))))] := by
  have hcap : ∀ sub ∈ cfg.subs, 1 ≤ allocSize cfg.maxSteps sub := by
    rw [hsub]
    intro sub hs
    rw [List.mem_singleton] at hs
    subst hs
    have : 0 < ts.length := List.length_pos_iff.2 hne
    simp [allocSize]; omega
  have h := (C09_output_refines cfg hroot hlt hcap y0 tnext ctrl ss mj).1
  rw [h, hsub]
  simp only [List.map_cons, List.map_nil, expectedEntries, allocSize, Bool.false_eq_true, if_false,
    ne_eq, not_true_eq_false, false_and, List.nil_append, List.append_nil]
  rw [stepEntries_ts _ _ rfl _ _ _ hsort]
  simp

/-- Some accepted step reaches the final time, if any time was covered at all. -/
theorem reached_final (cfg : Cfg T Y E D S C O F) (n : Nat) (s : Core T Y D S C F)
    (hex : ∀ s' ∈ attempts cfg n s, (adaptOut cfg s').Exact s'.tprev s'.tnext)
    (hle : ∀ s' ∈ attempts cfg n s, s'.tprev ≤ cfg.t1 ∧ s'.tnext ≤ cfg.t1) :
    (coreRun cfg n s).tprev = s.tprev ∨
      ∃ p ∈ piecesFrom cfg n s, p.t1 = (coreRun cfg n s).tprev := by
  induction n generalizing s with
  | zero => left; rfl
  | succ n ih =>
    by_cases hc : condFun cfg s = true
    · simp only [attempts, hc, if_true, List.mem_cons, forall_eq_or_imp] at hex hle
      have hr : coreRun cfg (n + 1) s = coreRun cfg n (coreBody cfg s).1 := by simp [coreRun, hc]
      rw [hr]
      have hmem : ∀ p ∈ piecesFrom cfg n (coreBody cfg s).1, p ∈ piecesFrom cfg (n + 1) s := by
        intro p hp
        simp only [piecesFrom, attempts, hc, if_true, List.filter_cons]
        split
        · exact List.mem_cons_of_mem _ hp
        · exact hp
      rcases ih (coreBody cfg s).1 hex.2 hle.2 with h | ⟨p, hp, h⟩
      · have hnt : (coreBody cfg s).1.tprev = min (adaptOut cfg s).tprev cfg.t1 := rfl
        cases ha : accepted cfg s with
        | true =>
          right
          refine ⟨piece cfg s, ?_, ?_⟩
          · simp [piecesFrom, attempts, hc, ha]
          · rw [h, hnt, hex.1.1 ha, min_eq_left hle.1.2]; rfl
        | false =>
          left
          rw [h, hnt, hex.1.2 ha, min_eq_left hle.1.1]
      · right; exact ⟨p, hmem p hp, h⟩
    · left
      have hc' : condFun cfg s = false := by simpa using hc
      simp [coreRun, hc']

theorem history_le (cfg : Cfg T Y E D S C O F) (hwf : cfg.WF) (y0 : Y) (tnext : T) (ctrl : C)
    (ss : S) (mj : Bool) :
    ∀ s ∈ history cfg y0 tnext ctrl ss mj, s.tprev ≤ cfg.t1 ∧ s.tnext ≤ cfg.t1 := by
  refine (run_inv cfg (fun s => s.tprev ≤ cfg.t1 ∧ s.tnext ≤ cfg.t1) cfg.maxSteps
    (initState cfg y0 tnext ctrl ss mj).core ⟨hwf.le, min_le_right _ _⟩ ?_).1
  intro s _ _ _
  refine ⟨min_le_right _ _, ?_⟩
  change clipToEnd cfg.mid (min (adaptOut cfg s).tprev cfg.t1)
        (adaptOut cfg s).tnext cfg.t1 cfg.floor (adaptOut cfg s).keep ≤ _
  unfold clipToEnd
  dsimp only
  split
  · split
    · exact le_refl _
    · exact hwf.mid_le _ (min_le_right _ _)
  · rename_i hcl; exact le_trans (not_lt.1 hcl) hwf.floor_le

/-- A successful solve with `SaveAt(ts=ts)`: every requested time is reached, and the output is exactly
`ts` in order, with no padding, each with `fn` of the interpolation over the first accepted step whose
end is not before that time. -/
theorem C07_saveat_ts (cfg : Cfg T Y E D S C O F) (hwf : cfg.WF) (hroot : cfg.rootFinder = none)
    (hst : cfg.controller.stepTo = none)
    (hlt : cfg.t0 < cfg.t1) (ts : List T) (fn : T → Y → O) (hne : ts ≠ [])
    (hsub : cfg.subs = [{ t0 := false, t1 := false, ts := ts, steps := 0, fn := fn }])
    (hsort : ts.Pairwise (· ≤ ·)) (hrange : ∀ t ∈ ts, t ≤ cfg.t1)
    (y0 : Y) (tnext : T) (ctrl : C) (ss : S) (mj : Bool)
    (hex : ∀ c ∈ callLog cfg y0 tnext ctrl ss mj, (c.answer cfg).Exact c.ctrlT0 c.ctrlT1)
    (hsucc : (solve cfg y0 tnext ctrl ss mj).result = .successful) :
    ∃ cover : T → Piece T Y D,
      (∀ t ∈ ts, firstCovering (pieces cfg y0 tnext ctrl ss mj) t = some (cover t)) ∧
      (solve cfg y0 tnext ctrl ss mj).saves.map (·.buf)
        = [ts.map (fun t => .val t (fn t ((cover t).eval cfg.solver t)))] := by
  have hany := C07_saveat_ts_any_end cfg hroot (ne_of_lt hlt) ts fn hne hsub hsort y0 tnext ctrl ss mj
  rw [log_eq] at hex
  have hex' : ∀ s ∈ history cfg y0 tnext ctrl ss mj, (adaptOut cfg s).Exact s.tprev s.tnext :=
    fun s hs => hex _ (List.mem_map_of_mem hs)
  have htf : (solve cfg y0 tnext ctrl ss mj).core.tprev = cfg.t1 := by
    have hres := solve_result cfg y0 tnext ctrl ss mj
    rw [hsucc] at hres
    have hc : condFun cfg (solve cfg y0 tnext ctrl ss mj).core = false := by
      cases h : condFun cfg (solve cfg y0 tnext ctrl ss mj).core with
      | false => rfl
      | true => rw [h] at hres; simp at hres
    rw [hc, finalise_no_root cfg _ hroot] at hres
    simp only [Bool.false_eq_true, if_false] at hres
    have : ¬ (solve cfg y0 tnext ctrl ss mj).core.tprev < cfg.t1 := by
      simpa [condFun, hst, ← hres, Result.isSuccessful] using hc
    refine le_antisymm ?_ (not_lt.1 this)
    rw [solve_core]
    exact (run_inv cfg (fun s => s.tprev ≤ cfg.t1) cfg.maxSteps _ hwf.le
      (fun s _ _ _ => min_le_right _ _)).2
  have hp : ∃ p ∈ pieces cfg y0 tnext ctrl ss mj, p.t1 = cfg.t1 := by
    rcases reached_final cfg cfg.maxSteps (initState cfg y0 tnext ctrl ss mj).core hex'
      (history_le cfg hwf y0 tnext ctrl ss mj) with h | ⟨p, hp, h⟩
    · rw [← solve_core, htf] at h
      exact absurd h.symm (ne_of_lt hlt)
    · rw [← solve_core, htf] at h; exact ⟨p, hp, h⟩
  obtain ⟨p, hp, hpt⟩ := hp
  have hcov : ∀ t ∈ ts, ∃ q, firstCovering (pieces cfg y0 tnext ctrl ss mj) t = some q := by
    intro t ht
    have : (firstCovering (pieces cfg y0 tnext ctrl ss mj) t).isSome = true := by
      unfold firstCovering
      rw [List.find?_isSome]
      exact ⟨p, hp, by simpa [hpt] using hrange t ht⟩
    exact Option.isSome_iff_exists.1 this
  refine ⟨fun t => ((firstCovering (pieces cfg y0 tnext ctrl ss mj) t).getD p), ?_, ?_⟩
  · intro t ht
    obtain ⟨q, hq⟩ := hcov t ht
    simp [hq]
  · rw [hany]
    have hfm : ts.filterMap (fun t => (firstCovering (pieces cfg y0 tnext ctrl ss mj) t).map
        (fun p => (t, fn t (p.eval cfg.solver t))))
        = ts.map (fun t => (t, fn t (((firstCovering (pieces cfg y0 tnext ctrl ss mj) t).getD p).eval
            cfg.solver t))) := by
      rw [← List.filterMap_eq_map]
      apply List.filterMap_congr
      intro t ht
      obtain ⟨q, hq⟩ := hcov t ht
      simp [hq]
    rw [hfm]
    simp [padded, Function.comp_def]

def toyTsCfg : Cfg Int Int Int Int Int Int Int Int :=
  { toyCfg with subs := [{ t0 := false, t1 := false, ts := [0, 1, 1, 3, 4, 7], steps := 0,
                           fn := fun t y => 10 * t + y }] }

example : (∀ c ∈ callLog toyTsCfg 100 3 0 0 false, (c.answer toyTsCfg).Exact c.ctrlT0 c.ctrlT1) ∧
    (solve toyTsCfg 100 3 0 0 false).result = .successful ∧
    (solve toyTsCfg 100 3 0 0 false).saves.map (·.buf)
      = [[.val 0 100, .val 1 111, .val 1 111, .val 3 133, .val 4 144, .val 7 177]] := by
  unfold AdaptOut.Exact; decide

/-! ## C08: `SaveAt(steps=n)` -/

theorem stepEntries_steps (sv : Solver T Y E D S) (sub : SubSaveAt T Y O) (hst : sub.steps ≠ 0)
    (ps : List (Piece T Y D)) (j k : Nat) :
    (stepEntries sv sub ps j [])[k]? =
      (ps[(j / sub.steps + k + 1) * sub.steps - j - 1]?).map
        (fun p => (p.reached, sub.fn p.reached p.y)) := by
  have hpos : 0 < sub.steps := Nat.pos_of_ne_zero hst
  induction ps generalizing j k with
  | nil => simp [stepEntries]
  | cons p ps ih =>
    have h1 : j / sub.steps * sub.steps ≤ j := Nat.div_mul_le_self _ _
    have h2 : j < (j / sub.steps + 1) * sub.steps := by
      have := Nat.lt_div_mul_add (a := j) hpos
      rw [Nat.add_mul, Nat.one_mul]; exact this
    simp only [stepEntries, List.takeWhile_nil, List.map_nil, List.nil_append, List.dropWhile_nil]
    by_cases hd : sub.steps ∣ j + 1
    · have hdiv : (j + 1) / sub.steps = j / sub.steps + 1 := by rw [Nat.succ_div, if_pos hd]
      have hmul : (j / sub.steps + 1) * sub.steps = j + 1 := by
        rw [← hdiv]; exact Nat.div_mul_cancel hd
      rw [if_pos ⟨hst, hd⟩, List.singleton_append]
      cases k with
      | zero =>
        have : (j / sub.steps + 0 + 1) * sub.steps - j - 1 = 0 := by
          rw [Nat.add_zero, hmul]; omega
        rw [this]; rfl
      | succ k =>
        rw [List.getElem?_cons_succ, ih, hdiv]
        have e : (j / sub.steps + (k + 1) + 1) * sub.steps - j - 1
            = ((j / sub.steps + 1 + k + 1) * sub.steps - (j + 1) - 1) + 1 := by
          have : (j / sub.steps + (k + 1) + 1) * sub.steps
              = (j / sub.steps + 1) * sub.steps + (k + 1) * sub.steps := by
            rw [← Nat.add_mul]; congr 1; omega
          have e' : (j / sub.steps + 1 + k + 1) * sub.steps
              = (j / sub.steps + 1) * sub.steps + (k + 1) * sub.steps := by
            rw [← Nat.add_mul]; congr 1
          have hk : 1 ≤ (k + 1) * sub.steps := Nat.mul_pos (Nat.succ_pos k) hpos
          rw [this, e', hmul]; omega
        rw [e, List.getElem?_cons_succ]
    · have hdiv : (j + 1) / sub.steps = j / sub.steps := by rw [Nat.succ_div, if_neg hd]; rfl
      have hne : (j / sub.steps + 1) * sub.steps ≠ j + 1 := by
        intro h; exact hd ⟨_, by rw [Nat.mul_comm]; exact h.symm⟩
      rw [if_neg (fun h => hd h.2), List.nil_append, ih, hdiv]
      have e : (j / sub.steps + k + 1) * sub.steps - j - 1
          = ((j / sub.steps + k + 1) * sub.steps - (j + 1) - 1) + 1 := by
        have : (j / sub.steps + k + 1) * sub.steps
            = (j / sub.steps + 1) * sub.steps + k * sub.steps := by
          rw [← Nat.add_mul]; congr 1; omega
        omega
      conv_rhs => rw [e, List.getElem?_cons_succ]

/-- With `SaveAt(steps=n)`, entry number `k` (from 0) is the time and value after accepted step number
`(k+1) n` (from 1), there is an entry exactly when that step exists, and everything else is
padding. -/
theorem C08_saveat_steps (cfg : Cfg T Y E D S C O F) (hroot : cfg.rootFinder = none)
    (hlt : cfg.t0 ≠ cfg.t1) (n : Nat) (hn : 1 ≤ n) (hcap : n ≤ cfg.maxSteps) (fn : T → Y → O)
    (hsub : cfg.subs = [{ t0 := false, t1 := false, ts := [], steps := n, fn := fn }])
    (y0 : Y) (tnext : T) (ctrl : C) (ss : S) (mj : Bool) :
    ∃ es : List (T × O),
      (solve cfg y0 tnext ctrl ss mj).saves.map (·.buf) = [padded (cfg.maxSteps / n) es] ∧
      ∀ k, es[k]? = ((pieces cfg y0 tnext ctrl ss mj)[(k + 1) * n - 1]?).map
        (fun p => (p.reached, fn p.reached p.y)) := by
  have hcap : ∀ sub ∈ cfg.subs, 1 ≤ allocSize cfg.maxSteps sub := by
    rw [hsub]
    intro sub hs
    rw [List.mem_singleton] at hs
    subst hs
    have h0 : n ≠ 0 := by omega
    simp only [allocSize, Bool.false_eq_true, if_false, List.length_nil, ne_eq, h0,
      not_false_eq_true, if_true, false_and]
    have := Nat.div_pos hcap (by omega : 0 < n)
    omega
  have h := (C09_output_refines cfg hroot hlt hcap y0 tnext ctrl ss mj).1
  have h0 : n ≠ 0 := by omega
  refine ⟨stepEntries cfg.solver { t0 := false, t1 := false, ts := [], steps := n, fn := fn }
    (pieces cfg y0 tnext ctrl ss mj) 0 [], ?_, ?_⟩
  · rw [h, hsub]
    simp only [List.map_cons, List.map_nil, expectedEntries, allocSize, Bool.false_eq_true, if_false,
      ne_eq, h0, not_false_eq_true, false_and, List.nil_append, List.append_nil, if_true,
      List.length_nil, Nat.zero_add, Nat.add_zero]
  · intro k
    rw [stepEntries_steps _ _ h0]
    simp

example : (solve (toyCfg.reSave
      [{ toySub with t0 := false, t1 := false, ts := [], steps := 3 }] false) 100 3 0 0 false).saves.map (·.buf)
    = [[.val 5 155, .empty, .empty, .empty, .empty, .empty]] := by decide

/-! ## C10: `SaveAt(t1=True)` always saves the final value

False of the code when no step is accepted and `steps ≠ 0`. -/

/-- Witness: `t0 == t1` with `SaveAt(t1=True, steps=True)` saves nothing at all. -/
theorem C10_violated :
    ∃ (cfg : Cfg Int Int Int Int Int Int Int Int) (sub : SubSaveAt Int Int Int),
      cfg.t0 = cfg.t1 ∧ cfg.subs = [sub] ∧ sub.t1 = true ∧
      (solve cfg 100 3 0 0 false).result = .successful ∧
      (solve cfg 100 3 0 0 false).saves.map (fun s => entriesOf s.buf) = [[]] :=
  ⟨{ toyCfg with t1 := 0, subs := [{ toySub with t0 := false, ts := [], steps := 1 }] }, _, rfl, rfl, rfl, by decide, by decide⟩

/-- The last accepted step's value is the final value. -/
theorem last_piece_final (cfg : Cfg T Y E D S C O F) (n : Nat) (s : Core T Y D S C F)
    (hrej : ∀ s' ∈ attempts cfg n s, accepted cfg s' = false → (adaptOut cfg s').tprev = s'.tprev)
    (hle : ∀ s' ∈ attempts cfg n s, s'.tprev ≤ cfg.t1) :
    match (piecesFrom cfg n s).getLast? with
    | none => (coreRun cfg n s).tprev = s.tprev ∧ (coreRun cfg n s).y = s.y
    | some p => (coreRun cfg n s).tprev = p.reached ∧ (coreRun cfg n s).y = p.y := by
  induction n generalizing s with
  | zero => simp [piecesFrom, attempts, coreRun]
  | succ n ih =>
    by_cases hc : condFun cfg s = true
    · simp only [attempts, hc, if_true, List.mem_cons, forall_eq_or_imp] at hrej hle
      have hr : coreRun cfg (n + 1) s = coreRun cfg n (coreBody cfg s).1 := by simp [coreRun, hc]
      rw [hr]
      have hi := ih (coreBody cfg s).1 hrej.2 hle.2
      have e1 : (coreBody cfg s).1.tprev = min (adaptOut cfg s).tprev cfg.t1 := rfl
      have e2 : (coreBody cfg s).1.y = if accepted cfg s then (solverOut cfg s).y else s.y := rfl
      cases ha : accepted cfg s with
      | true =>
        have hp : piecesFrom cfg (n + 1) s = piece cfg s :: piecesFrom cfg n (coreBody cfg s).1 := by
          simp [piecesFrom, attempts, hc, ha]
        rw [hp]
        cases hl : piecesFrom cfg n (coreBody cfg s).1 with
        | nil =>
          rw [hl] at hi
          simp only [List.getLast?_nil] at hi
          rw [hi.1, hi.2, e1, e2, ha]
          simp [piece]
        | cons a l =>
          rw [hl] at hi
          rw [List.getLast?_cons_cons]
          exact hi
      | false =>
        have hp : piecesFrom cfg (n + 1) s = piecesFrom cfg n (coreBody cfg s).1 := by
          simp [piecesFrom, attempts, hc, ha]
        rw [hp]
        rw [e1, e2, ha, hrej.1 ha, min_eq_left hle.1] at hi
        exact hi
    · have hc' : condFun cfg s = false := by simpa using hc
      simp [piecesFrom, attempts, coreRun, hc']

theorem stepEntries_getLast (sv : Solver T Y E D S) (sub : SubSaveAt T Y O) (hst : sub.steps ≠ 0)
    (ps : List (Piece T Y D)) (k : Nat) (rest : List T) (p : Piece T Y D)
    (hl : ps.getLast? = some p) (hd : sub.steps ∣ k + ps.length) :
    (stepEntries sv sub ps k rest).getLast? = some (p.reached, sub.fn p.reached p.y) := by
  induction ps generalizing k rest with
  | nil => simp at hl
  | cons q ps ih =>
    simp only [stepEntries]
    cases ps with
    | nil =>
      have hq : q = p := by simpa using hl
      subst hq
      rw [if_pos ⟨hst, by simpa using hd⟩]
      simp [stepEntries]
    | cons a l =>
      rw [List.getLast?_cons_cons] at hl
      have := ih (k + 1) (rest.dropWhile (· ≤ q.t1)) hl (by
        have e : k + 1 + (a :: l).length = k + (q :: a :: l).length := by simp; omega
        rw [e]; exact hd)
      rw [List.getLast?_append, this]; simp

/-- What does hold: with `t1=True` (no event root finder), if `steps == 0` or at least one step was
accepted, the last entry of the output is the final time and `fn` of the final value.
Missing: zero accepted steps with `steps ≠ 0`, where the code saves nothing. -/
theorem C10_final_value_saved_partial (cfg : Cfg T Y E D S C O F) (hwf : cfg.WF)
    (hroot : cfg.rootFinder = none)
    (hlt : cfg.t0 ≠ cfg.t1) (hcap : ∀ sub ∈ cfg.subs, 1 ≤ allocSize cfg.maxSteps sub)
    (y0 : Y) (tnext : T) (ctrl : C) (ss : S) (mj : Bool)
    (hrej : ∀ c ∈ callLog cfg y0 tnext ctrl ss mj, (c.answer cfg).keep = false →
      (c.answer cfg).tprev = c.ctrlT0)
    (i : Nat) (sub : SubSaveAt T Y O) (hi : cfg.subs[i]? = some sub) (ht1 : sub.t1 = true)
    (hst : sub.steps = 0 ∨ 1 ≤ (solve cfg y0 tnext ctrl ss mj).core.numAccepted) :
    let out := solve cfg y0 tnext ctrl ss mj
    ∃ sv, out.saves[i]? = some sv ∧
      (entriesOf sv.buf).getLast? = some (out.tfinal, sub.fn out.tfinal out.yfinal) := by
  dsimp only
  have h := (C09_output_refines cfg hroot hlt hcap y0 tnext ctrl ss mj).1
  have hbuf := congrArg (fun l => l[i]?) h
  simp only [List.getElem?_map, hi, Option.map_some] at hbuf
  cases hs : (solve cfg y0 tnext ctrl ss mj).saves[i]? with
  | none => rw [hs] at hbuf; simp at hbuf
  | some sv =>
    rw [hs] at hbuf
    simp only [Option.map_some, Option.some.injEq] at hbuf
    refine ⟨sv, rfl, ?_⟩
    rw [hbuf, entriesOf_padded]
    unfold expectedEntries
    by_cases hd : sub.steps ≠ 0 ∧ sub.steps ∣ (pieces cfg y0 tnext ctrl ss mj).length
    · rw [if_neg (c := sub.t1 = true ∧ ¬ (sub.steps ≠ 0 ∧ _)) (fun hh => hh.2 hd), List.append_nil]
      have hpos : 1 ≤ (pieces cfg y0 tnext ctrl ss mj).length := by
        rw [(pieces_length cfg y0 tnext ctrl ss mj).1]
        rcases hst with h0 | h0
        · exact absurd h0 hd.1
        · exact h0
      rw [log_eq] at hrej
      have hfin := last_piece_final cfg cfg.maxSteps (initState cfg y0 tnext ctrl ss mj).core
        (fun s hs ha => hrej _ (List.mem_map_of_mem hs) ha)
        (fun s hs => (history_le cfg hwf y0 tnext ctrl ss mj s hs).1)
      rw [← pieces_eq, ← solve_core] at hfin
      cases hl : (pieces cfg y0 tnext ctrl ss mj).getLast? with
      | none =>
        rw [List.getLast?_eq_none_iff] at hl
        rw [hl] at hpos; simp at hpos
      | some p =>
        rw [hl] at hfin
        simp only at hfin
        rw [List.getLast?_append, stepEntries_getLast cfg.solver sub hd.1 _ 0 _ p hl (by
          rw [Nat.zero_add]; exact hd.2)]
        rw [solve_tfinal, solve_yfinal, finalise_no_root cfg _ hroot]
        simp [hfin.1, hfin.2]
    · rw [if_pos (c := sub.t1 = true ∧ _) ⟨ht1, hd⟩]
      simp

example : (∀ c ∈ callLog toyCfg 100 3 0 0 false, (c.answer toyCfg).keep = false →
      (c.answer toyCfg).tprev = c.ctrlT0) ∧
    1 ≤ (solve toyCfg 100 3 0 0 false).core.numAccepted ∧ toySub.t1 = true ∧ toySub.steps = 2 := by
  decide

/-! ## C11: what is saved never influences the solve -/

theorem coreRun_reSave {O' : Type} (cfg : Cfg T Y E D S C O F) (subs : List (SubSaveAt T Y O'))
    (dense : Bool) (n : Nat) (s : Core T Y D S C F) :
    coreRun (cfg.reSave subs dense) n s = coreRun cfg n s := by
  induction n generalizing s with
  | zero => rfl
  | succ n ih =>
    have hc : condFun (cfg.reSave subs dense) s = condFun cfg s := rfl
    have hb : (coreBody (cfg.reSave subs dense) s).1 = (coreBody cfg s).1 := rfl
    unfold coreRun
    by_cases h : condFun cfg s = true
    · rw [if_pos (hc.trans h), if_pos h, hb, ih]
    · rw [if_neg (fun h' => h (hc.symm.trans h')), if_neg h]

theorem attempts_reSave {O' : Type} (cfg : Cfg T Y E D S C O F) (subs : List (SubSaveAt T Y O'))
    (dense : Bool) (n : Nat) (s : Core T Y D S C F) :
    attempts (cfg.reSave subs dense) n s = attempts cfg n s := by
  induction n generalizing s with
  | zero => rfl
  | succ n ih =>
    have hc : condFun (cfg.reSave subs dense) s = condFun cfg s := rfl
    have hb : (coreBody (cfg.reSave subs dense) s).1 = (coreBody cfg s).1 := rfl
    unfold attempts
    by_cases h : condFun cfg s = true
    · rw [if_pos (hc.trans h), if_pos h, hb, ih]
    · rw [if_neg (fun h' => h (hc.symm.trans h')), if_neg h]

/-- Replacing the output request changes neither the evolving state (which contains the value,
statistics, solver and controller state), nor the final time, value or result. -/
theorem C11_saving_does_not_influence {O' : Type} (cfg : Cfg T Y E D S C O F)
    (subs : List (SubSaveAt T Y O')) (dense : Bool) (y0 : Y) (tnext : T) (ctrl : C) (ss : S)
    (mj : Bool) :
    let out := solve cfg y0 tnext ctrl ss mj
    let out' := solve (cfg.reSave subs dense) y0 tnext ctrl ss mj
    out'.core = out.core ∧ out'.tfinal = out.tfinal ∧ out'.yfinal = out.yfinal ∧
    out'.result = out.result := by
  dsimp only
  have hcore : (solve (cfg.reSave subs dense) y0 tnext ctrl ss mj).core
      = (solve cfg y0 tnext ctrl ss mj).core := by
    rw [solve_core, solve_core]
    exact coreRun_reSave cfg subs dense _ _
  refine ⟨hcore, ?_, ?_, ?_⟩
  · rw [solve_tfinal, solve_tfinal, hcore]; rfl
  · rw [solve_yfinal, solve_yfinal, hcore]; rfl
  · rw [solve_result, solve_result, hcore]; rfl

/-- The output of a `SubSaveAt` is the output it would have had alone. -/
theorem C11_subs_independent (cfg : Cfg T Y E D S C O F) (y0 : Y) (tnext : T) (ctrl : C) (ss : S)
    (mj : Bool) :
    (solve cfg y0 tnext ctrl ss mj).saves = cfg.subs.flatMap (fun sub =>
      (solve (cfg.reSave [sub] false) y0 tnext ctrl ss mj).saves) := by
  have h1 : ∀ sub : SubSaveAt T Y O, (solve (cfg.reSave [sub] false) y0 tnext ctrl ss mj).saves
      = [saveT1 cfg (solve cfg y0 tnext ctrl ss mj).core.numAccepted
        (solve cfg y0 tnext ctrl ss mj).tfinal (solve cfg y0 tnext ctrl ss mj).yfinal sub
        (saveIfT0EqT1 cfg (solve cfg y0 tnext ctrl ss mj).yfinal sub
          (match cfg.rootFinder with
           | none => subLoop cfg y0 tnext ctrl ss mj sub
           | some _ => unsave (solve cfg y0 tnext ctrl ss mj).tfinal
              (subLoop cfg y0 tnext ctrl ss mj sub)))] := by
    intro sub
    obtain ⟨hc, ht, hy, -⟩ := C11_saving_does_not_influence cfg [sub] false y0 tnext ctrl ss mj
    rw [solve_saves, hc, ht, hy]
    have hsl : subLoop (cfg.reSave [sub] false) y0 tnext ctrl ss mj sub
        = subLoop cfg y0 tnext ctrl ss mj sub := by
      unfold subLoop history
      have : (initState (cfg.reSave [sub] false) y0 tnext ctrl ss mj).core
        = (initState cfg y0 tnext ctrl ss mj).core := rfl
      rw [this]
      have ha := attempts_reSave cfg [sub] false cfg.maxSteps
        (initState cfg y0 tnext ctrl ss mj).core
      change List.foldl (subBody cfg sub) _ (attempts (cfg.reSave [sub] false) cfg.maxSteps _) = _
      rw [ha]; rfl
    change [saveT1 cfg _ _ _ sub (saveIfT0EqT1 cfg _ sub
      (match cfg.rootFinder with
       | none => subLoop (cfg.reSave [sub] false) y0 tnext ctrl ss mj sub
       | some _ => unsave (solve cfg y0 tnext ctrl ss mj).tfinal
          (subLoop (cfg.reSave [sub] false) y0 tnext ctrl ss mj sub)))] = _
    rw [hsl]
  rw [solve_saves]
  simp only [h1]
  rw [← List.map_eq_flatMap]
  cases cfg.rootFinder <;> rfl

example : (solve (toyCfg.reSave ([] : List (SubSaveAt Int Int Int)) false) 100 3 0 0 false).yfinal
    = 107 ∧ (solve toyCfg 100 3 0 0 false).yfinal = 107 := by decide

/-! ## C12: raising `max_steps` does not change a solve that finished -/

/-- If a solve did not run out of steps, then with any larger `max_steps` the evolving state, final
time, value and result are the same. -/
theorem C12_max_steps_monotone (cfg : Cfg T Y E D S C O F) (m : Nat) (hm : cfg.maxSteps ≤ m)
    (y0 : Y) (tnext : T) (ctrl : C) (ss : S) (mj : Bool)
    (hfin : (solve cfg y0 tnext ctrl ss mj).result ≠ .maxStepsReached) :
    let out := solve cfg y0 tnext ctrl ss mj
    let out' := solve { cfg with maxSteps := m } y0 tnext ctrl ss mj
    out'.core = out.core ∧ out'.tfinal = out.tfinal ∧ out'.yfinal = out.yfinal ∧
    out'.result = out.result ∧
    pieces { cfg with maxSteps := m } y0 tnext ctrl ss mj = pieces cfg y0 tnext ctrl ss mj := by
  dsimp only
  have hc : condFun cfg (coreRun cfg cfg.maxSteps (initState cfg y0 tnext ctrl ss mj).core)
      = false := by
    rw [solve_result, solve_core] at hfin
    cases h : condFun cfg (coreRun cfg cfg.maxSteps (initState cfg y0 tnext ctrl ss mj).core) with
    | false => rfl
    | true => rw [h] at hfin; simp at hfin
  obtain ⟨k, rfl⟩ := Nat.exists_eq_add_of_le hm
  have hrun : ∀ n s, coreRun { cfg with maxSteps := cfg.maxSteps + k } n s = coreRun cfg n s := by
    intro n
    induction n with
    | zero => intro s; rfl
    | succ n ih => intro s; unfold coreRun; rw [ih]; rfl
  have hatt : ∀ n s, attempts { cfg with maxSteps := cfg.maxSteps + k } n s = attempts cfg n s := by
    intro n
    induction n with
    | zero => intro s; rfl
    | succ n ih => intro s; unfold attempts; rw [ih]; rfl
  have hcore : (solve { cfg with maxSteps := cfg.maxSteps + k } y0 tnext ctrl ss mj).core
      = (solve cfg y0 tnext ctrl ss mj).core := by
    rw [solve_core, solve_core]
    change coreRun { cfg with maxSteps := cfg.maxSteps + k } (cfg.maxSteps + k)
      (initState cfg y0 tnext ctrl ss mj).core = _
    rw [hrun, coreRun_add _ _ _ _ hc]
  refine ⟨hcore, ?_, ?_, ?_, ?_⟩
  · rw [solve_tfinal, solve_tfinal, hcore]; rfl
  · rw [solve_yfinal, solve_yfinal, hcore]; rfl
  · rw [solve_result, solve_result, hcore]; rfl
  · unfold pieces history
    change ((attempts { cfg with maxSteps := cfg.maxSteps + k } (cfg.maxSteps + k)
      (initState cfg y0 tnext ctrl ss mj).core).filter _).map _ = _
    rw [hatt, attempts_add _ _ _ _ hc]; rfl

/-- ... and the saved entries are the same too (the padding is longer). -/
theorem C12_max_steps_entries (cfg : Cfg T Y E D S C O F) (m : Nat) (hm : cfg.maxSteps ≤ m)
    (hroot : cfg.rootFinder = none) (hlt : cfg.t0 ≠ cfg.t1)
    (hcap : ∀ sub ∈ cfg.subs, 1 ≤ allocSize cfg.maxSteps sub)
    (hcap' : ∀ sub ∈ cfg.subs, 1 ≤ allocSize m sub)
    (y0 : Y) (tnext : T) (ctrl : C) (ss : S) (mj : Bool)
    (hfin : (solve cfg y0 tnext ctrl ss mj).result ≠ .maxStepsReached) :
    (solve { cfg with maxSteps := m } y0 tnext ctrl ss mj).saves.map (fun s => entriesOf s.buf)
      = (solve cfg y0 tnext ctrl ss mj).saves.map (fun s => entriesOf s.buf) := by
  obtain ⟨-, ht, hy, -, hp⟩ := C12_max_steps_monotone cfg m hm y0 tnext ctrl ss mj hfin
  have h1 := (C09_output_refines cfg hroot hlt hcap y0 tnext ctrl ss mj).1
  have h2 := (C09_output_refines { cfg with maxSteps := m } hroot hlt hcap' y0 tnext ctrl ss mj).1
  have g1 := congrArg (List.map entriesOf) h1
  have g2 := congrArg (List.map entriesOf) h2
  rw [List.map_map] at g1 g2
  change List.map (fun s : SaveState T O => entriesOf s.buf) _ = _ at g1
  change List.map (fun s : SaveState T O => entriesOf s.buf) _ = _ at g2
  rw [g1, g2, ht, hy, hp, List.map_map, List.map_map]
  apply List.map_congr_left
  intro sub _
  simp only [Function.comp, entriesOf_padded]

example : (solve { toyCfg with maxSteps := 6 } 100 3 0 0 false).result ≠ .maxStepsReached ∧
    (solve { toyCfg with maxSteps := 6 } 100 3 0 0 false).saves.map (fun s => entriesOf s.buf)
      = (solve toyCfg 100 3 0 0 false).saves.map (fun s => entriesOf s.buf) := by decide

/-! ## C19: empty time intervals -/

/-- If `t0 == t1`: the solver is never called, the final time and value are the initial ones, the
result is `successful` unless a boolean event is true initially, and the saved entries are: the `t0`
entry, one entry per requested time, all equal to `(t0, fn t0 y0)`, and the `t1` entry if requested
and `steps == 0`. -/
theorem C19_empty_interval (cfg : Cfg T Y E D S C O F) (hroot : cfg.rootFinder = none)
    (hst : cfg.controller.stepTo = none) (h01 : cfg.t0 = cfg.t1)
    (hcap : ∀ sub ∈ cfg.subs, 1 ≤ allocSize cfg.maxSteps sub)
    (y0 : Y) (tnext : T) (ctrl : C) (ss : S) (mj : Bool) :
    let out := solve cfg y0 tnext ctrl ss mj
    callLog cfg y0 tnext ctrl ss mj = [] ∧ out.core.numSteps = 0 ∧
    out.tfinal = cfg.t0 ∧ out.yfinal = y0 ∧
    ((∀ e ∈ cfg.events, e.initMask cfg.t0 y0 = false) → out.result = .successful) ∧
    out.saves.map (·.buf) = cfg.subs.map (fun sub => padded (allocSize cfg.maxSteps sub)
      (List.replicate ((if sub.t0 then 1 else 0) + sub.ts.length
        + (if sub.t1 ∧ sub.steps = 0 then 1 else 0)) (cfg.t0, sub.fn cfg.t0 y0))) := by
  dsimp only
  have hc : condFun cfg (initState cfg y0 tnext ctrl ss mj).core = false := by
    have : (initState cfg y0 tnext ctrl ss mj).core.tprev = cfg.t0 := rfl
    simp [condFun, hst, this, h01]
  have hrun : ∀ n, coreRun cfg n (initState cfg y0 tnext ctrl ss mj).core
      = (initState cfg y0 tnext ctrl ss mj).core := by
    intro n; cases n <;> simp [coreRun, hc]
  have hatt : history cfg y0 tnext ctrl ss mj = [] := by
    unfold history
    cases cfg.maxSteps <;> simp [attempts, hc]
  have hcore : (solve cfg y0 tnext ctrl ss mj).core = (initState cfg y0 tnext ctrl ss mj).core := by
    rw [solve_core, hrun]
  have htf : (solve cfg y0 tnext ctrl ss mj).tfinal = cfg.t0 := by
    rw [solve_tfinal, hcore, finalise_no_root cfg _ hroot]; rfl
  have hyf : (solve cfg y0 tnext ctrl ss mj).yfinal = y0 := by
    rw [solve_yfinal, hcore, finalise_no_root cfg _ hroot]; rfl
  refine ⟨by rw [log_eq, hatt]; rfl, by rw [hcore]; rfl, htf, hyf, ?_, ?_⟩
  · intro hev
    rw [solve_result, hcore, hc, finalise_no_root cfg _ hroot]
    have e1 : (initState cfg y0 tnext ctrl ss mj).core.result = Result.where'
      (firstTrue false (cfg.events.map (fun e => e.initMask cfg.t0 y0))).2 .eventOccurred
      .successful := rfl
    have : (cfg.events.map (fun e => e.initMask cfg.t0 y0)).any id = false := by
      simpa using hev
    simp only [Bool.false_eq_true, if_false, e1, firstTrue_snd, this, Bool.or_false, Result.where']
  · rw [solve_saves, List.map_map]
    apply List.map_congr_left
    intro sub hsub
    simp only [Function.comp, hroot]
    rw [hcore, htf, hyf]
    have hna : (initState cfg y0 tnext ctrl ss mj).core.numAccepted = 0 := rfl
    rw [hna]
    have hps : pieces cfg y0 tnext ctrl ss mj = [] := by simp [pieces, hatt]
    have hr := subLoop_rep cfg y0 tnext ctrl ss mj sub
    rw [hps] at hr
    have hle : loopEntries cfg y0 ([] : List (Piece T Y D)) sub
        = List.replicate (if sub.t0 then 1 else 0) (cfg.t0, sub.fn cfg.t0 y0) := by
      unfold loopEntries stepEntries
      cases sub.t0 <;> rfl
    rw [hle] at hr
    have hsz : (if sub.t0 then 1 else 0) + sub.ts.length
        + (if sub.t1 ∧ sub.steps = 0 then 1 else 0) ≤ allocSize cfg.maxSteps sub := by
      unfold allocSize
      by_cases ha : sub.t1 = true ∧ sub.steps = 0
      · have hb : sub.t1 = true ∧ (sub.steps = 0 ∨ cfg.maxSteps % sub.steps ≠ 0) :=
          ⟨ha.1, Or.inl ha.2⟩
        rw [if_pos ha, if_pos hb]; omega
      · rw [if_neg ha]; omega
    have hr2 : Rep (allocSize cfg.maxSteps sub)
        (List.replicate ((if sub.t0 then 1 else 0) + sub.ts.length) (cfg.t0, sub.fn cfg.t0 y0))
        (saveIfT0EqT1 cfg y0 sub (subLoop cfg y0 tnext ctrl ss mj sub)) := by
      unfold saveIfT0EqT1
      rw [if_pos h01]
      by_cases hts : sub.ts = []
      · rw [if_neg (c := sub.ts ≠ []) (fun h => h hts)]
        simpa [hts] using hr
      · rw [if_pos hts]
        have := rep_save hr sub.ts.length (by rw [List.length_replicate]; omega) cfg.t0 y0 sub.fn
        rwa [List.replicate_append_replicate] at this
    have hiff : (sub.t1 = true ∧ ¬ (sub.steps ≠ 0 ∧ sub.steps ∣ 0)) ↔
        (sub.t1 = true ∧ sub.steps = 0) := by simp
    rw [saveT1_spec cfg hroot sub (hcap sub hsub) 0 _ _ _ _ hr2]
    · congr 1
      by_cases ha : sub.t1 = true ∧ sub.steps = 0
      · rw [if_pos (hiff.2 ha), if_pos ha, List.replicate_succ']
      · rw [if_neg (fun h => ha (hiff.1 h)), if_neg ha, List.append_nil, Nat.add_zero]
    · intro hp
      rw [if_pos (hiff.1 hp)] at hsz
      rw [List.length_replicate]; omega

example : (solve { toyCfg with t1 := 0, subs := [{ toySub with ts := [0, 0], steps := 0 }] }
      100 3 0 0 false).saves.map (·.buf) = [[.val 0 100, .val 0 100, .val 0 100, .val 0 100]] := by
  decide

end Verif
