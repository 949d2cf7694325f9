import Verif.Model.Constant
import Verif.Lemmas.Grid
import Mathlib.Tactic.FieldSimp
import Mathlib.Tactic.Linarith
import Mathlib.Tactic.Positivity
import Mathlib.Tactic.Ring
import Mathlib.Tactic.IntervalCases
import Mathlib.Algebra.Order.Field.Rat
import Mathlib.Data.Rat.Floor

/-!
# C21-C23: ConstantStepSize and StepTo, run in the loop

The intervals an observer sees the solver being stepped over are
`(callLog ...).map (fun c => (c.solverT0, c.solverT1))`.
-/

set_option linter.unusedSectionVars false

namespace Verif

section const
variable {K Y E D S O F : Type} [Field K] [LinearOrder K] [IsStrictOrderedRing K] [FloorRing K]
  [LinearOrder F] [Zero F]

/-- The times visited: `t0`, `t0 + dt0` (or `t1`), and then `t0 + (t1 - t0) * k / n`. -/
def constPoint (t0 t1 dt0 : K) (n : Nat) (k : Nat) : K :=
  if k = 0 then t0 else if k = 1 then min (t0 + dt0) t1 else t0 + (t1 - t0) * ((k : K) / (n : K))

theorem constPoint_le (t0 t1 dt0 : K) (n k : Nat) (h : t0 ≤ t1) (hk : k ≤ n) :
    constPoint t0 t1 dt0 n k ≤ t1 := by
  unfold constPoint
  split
  · exact h
  split
  · exact min_le_right _ _
  · have hn : (0 : K) < n := by exact_mod_cast (by omega : 0 < n)
    have : (k : K) / n ≤ 1 := by
      rw [div_le_one hn]; exact_mod_cast hk
    nlinarith [sub_nonneg.2 h]

theorem constPoint_last (t0 t1 dt0 : K) (n : Nat) (hn : 0 < n) (h1 : n = 1 → t1 ≤ t0 + dt0) :
    constPoint t0 t1 dt0 n n = t1 := by
  unfold constPoint
  rw [if_neg (by omega)]
  split
  · exact min_eq_right (h1 ‹_›)
  · have hn' : (n : K) ≠ 0 := by exact_mod_cast (by omega : n ≠ 0)
    rw [div_self hn']; ring

/-- Facts on the number of steps. -/
theorem ceil_facts (L d : K) (hd : 0 < d) (hL : 0 < L) :
    ∃ n : Nat, ⌈L / d⌉ = (n : Int) ∧ 0 < n ∧ L ≤ n * d ∧ ((n : K) - 1) * d < L := by
  have h0 : 0 < ⌈L / d⌉ := Int.ceil_pos.2 (div_pos hL hd)
  refine ⟨⌈L / d⌉.toNat, by omega, by omega, ?_, ?_⟩
  · have h1 := Int.le_ceil (L / d)
    have h2 : ((⌈L / d⌉.toNat : Nat) : K) = ((⌈L / d⌉ : Int) : K) := by
      have : ((⌈L / d⌉.toNat : Nat) : Int) = ⌈L / d⌉ := by omega
      exact_mod_cast this
    rw [h2]
    exact (div_le_iff₀ hd).1 h1
  · have h1 := Int.ceil_lt_add_one (L / d)
    have h2 : ((⌈L / d⌉.toNat : Nat) : K) = ((⌈L / d⌉ : Int) : K) := by
      have : ((⌈L / d⌉.toNat : Nat) : Int) = ⌈L / d⌉ := by omega
      exact_mod_cast this
    rw [h2, ← lt_div_iff₀ hd]
    linarith

theorem const_onGrid (cfg : Cfg K Y E D S (ConstState K) O F) (dt0 : K) (n : Nat)
    (hlt : cfg.t0 < cfg.t1) (hn : 0 < n)
    (h1 : n = 1 → cfg.t1 ≤ cfg.t0 + dt0) (hdt : 0 < dt0)
    (hstrict : ∀ k, k < n → constPoint cfg.t0 cfg.t1 dt0 n k < cfg.t1)
    (hc : cfg.controller = constantStepSize) (hev : cfg.events = [])
    (hok : ∀ a b y s j, (cfg.solver.step a b y s j).result = .successful)
    (hfloor : cfg.floor ≤ cfg.t1)
    (hfl : cfg.t1 - (cfg.t1 - cfg.t0) / n ≤ cfg.floor) :
    OnGrid cfg n (constPoint cfg.t0 cfg.t1 dt0 n)
      (fun j => { completed := j + 1, numSteps := n, t0 := cfg.t0, t1OrDt0 := cfg.t1 }) where
  le j hj := constPoint_le _ _ _ _ _ hlt.le hj
  adapt j hj y y' e := by
    rw [hc]
    refine ⟨_, rfl, ?_⟩
    intro hj2
    have hn' : (0 : K) < n := by exact_mod_cast hn
    have hge : (n : Int) ≥ 0 := by omega
    simp only [hge, if_true]
    by_cases hlast : j + 2 = n
    · have e1 : ((j : Int) + 1 + 1 = n) := by omega
      have e2 : constPoint cfg.t0 cfg.t1 dt0 n (j + 2) = cfg.t1 := by
        rw [hlast]; exact constPoint_last _ _ _ _ hn h1
      rw [e2, if_pos e1]
      unfold clipToEnd
      simp only [if_true]
      split <;> rfl
    · have e1 : ¬ ((j : Int) + 1 + 1 = n) := by omega
      have e2 : constPoint cfg.t0 cfg.t1 dt0 n (j + 2)
          = cfg.t0 + (cfg.t1 - cfg.t0) * (((j + 2 : Nat) : K) / (n : K)) := by
        unfold constPoint
        rw [if_neg (by omega), if_neg (by omega)]
      rw [e2, if_neg e1]
      have e3 : (((j : Int) + 1 + 1 : Int) : K) = ((j + 2 : Nat) : K) := by push_cast; ring
      have e4 : ((n : Int) : K) = (n : K) := by push_cast; rfl
      rw [e3, e4]
      unfold clipToEnd
      have hle : cfg.t0 + (cfg.t1 - cfg.t0) * (((j + 2 : Nat) : K) / (n : K)) ≤ cfg.floor := by
        refine le_trans ?_ hfl
        have hjn : ((j + 2 : Nat) : K) + 1 ≤ n := by exact_mod_cast (by omega : j + 2 + 1 ≤ n)
        have : ((j + 2 : Nat) : K) / n ≤ 1 - 1 / n := by
          rw [div_le_iff₀ hn', sub_mul, one_div, inv_mul_cancel₀ hn'.ne']
          linarith
        have h2 : (cfg.t1 - cfg.t0) * (((j + 2 : Nat) : K) / n)
            ≤ (cfg.t1 - cfg.t0) * (1 - 1 / n) :=
          mul_le_mul_of_nonneg_left this (by linarith)
        have h3 : (cfg.t1 - cfg.t0) * (1 - 1 / n) = (cfg.t1 - cfg.t0) - (cfg.t1 - cfg.t0) / n := by
          ring
        linarith
      rw [if_neg (not_lt.2 hle)]
  cond j hj s hs _ hr := by
    have : condFun cfg s = decide (s.tprev < cfg.t1) := by
      unfold condFun
      rw [hc, hr]
      simp [constantStepSize, Result.isSuccessful]
    rw [this, decide_eq_true_iff, hs]
    constructor
    · intro h
      by_contra hh
      have : j = n := by omega
      subst this
      rw [constPoint_last _ _ _ _ hn h1] at h
      exact lt_irrefl _ h
    · exact hstrict j
  events := hev
  okay := hok

/-- **C22.** With ConstantStepSize, for all times `t0 < t1` and `dt0 > 0`, the solver is stepped over
exactly `n = ⌈(t1 - t0) / dt0⌉` consecutive intervals from `t0` to `t1`, each of positive length at
most `dt0`, every one accepted; the solve is successful and ends at `t1`.

`up` is `nextafter`. In exact arithmetic `up dt0 = dt0` and the hypotheses on `up` are trivial; they
are kept general to record what rounding up of `dt0` does: `n` uses `up dt0`, the second step may
exceed `up dt0` by `up dt0 - dt0`. -/
theorem C22_constant_steps (cfg : Cfg K Y E D S (ConstState K) O F) (up : K → K) (dt0 : K)
    (y0 : Y) (ss : S) (mj : Bool) (tnext : K) (ctrl : ConstState K)
    (hinit : constInit up cfg.t0 (some cfg.t1) (some dt0) = some (tnext, ctrl))
    (hlt : cfg.t0 < cfg.t1) (hdt : 0 < dt0)
    (hup : dt0 ≤ up dt0) (hup1 : cfg.t1 - cfg.t0 ≤ up dt0 → cfg.t1 - cfg.t0 ≤ dt0)
    (hc : cfg.controller = constantStepSize) (hev : cfg.events = [])
    (hok : ∀ a b y s j, (cfg.solver.step a b y s j).result = .successful)
    (hfloor : cfg.floor ≤ cfg.t1)
    (hfl : cfg.t1 - (cfg.t1 - cfg.t0) / (⌈(cfg.t1 - cfg.t0) / up dt0⌉ : Int) ≤ cfg.floor)
    (hmax : ⌈(cfg.t1 - cfg.t0) / up dt0⌉ ≤ cfg.maxSteps) :
    ∃ (n : Nat) (p : Nat → K), (n : Int) = ⌈(cfg.t1 - cfg.t0) / up dt0⌉ ∧
      (callLog cfg y0 tnext ctrl ss mj).map (fun c => (c.solverT0, c.solverT1))
        = (List.range n).map (fun j => (p j, p (j + 1))) ∧
      p 0 = cfg.t0 ∧ p n = cfg.t1 ∧
      (∀ k, k < n → p k < p (k + 1)) ∧
      (∀ k, k < n → p (k + 1) - p k ≤ up dt0 + (up dt0 - dt0)) ∧
      (∀ k, 2 ≤ k → k < n → p (k + 1) - p k = (cfg.t1 - cfg.t0) / n) ∧
      p 1 = min (cfg.t0 + dt0) cfg.t1 ∧
      (∀ k, 2 ≤ k → k ≤ n → p k = cfg.t0 + (cfg.t1 - cfg.t0) * k / n) ∧
      (solve cfg y0 tnext ctrl ss mj).tfinal = cfg.t1 ∧
      (solve cfg y0 tnext ctrl ss mj).result = .successful ∧
      (solve cfg y0 tnext ctrl ss mj).core.numSteps = n ∧
      (solve cfg y0 tnext ctrl ss mj).core.numAccepted = n ∧
      (solve cfg y0 tnext ctrl ss mj).core.numRejected = 0 := by
  obtain ⟨n, hn, hn0, hle, hgt⟩ := ceil_facts (cfg.t1 - cfg.t0) (up dt0) (lt_of_lt_of_le hdt hup)
    (sub_pos.2 hlt)
  rw [hn] at hfl hmax ⊢
  have hn' : (0 : K) < n := by exact_mod_cast hn0
  have hL : 0 < cfg.t1 - cfg.t0 := sub_pos.2 hlt
  have h1 : n = 1 → cfg.t1 ≤ cfg.t0 + dt0 := by
    intro h; subst h
    have := hup1 (by simpa using hle)
    linarith
  have h2 : 2 ≤ n → cfg.t0 + dt0 < cfg.t1 := by
    intro h
    have h' : (2 : K) ≤ n := by exact_mod_cast h
    nlinarith
  simp only [constInit, Option.some.injEq, Prod.mk.injEq] at hinit
  obtain ⟨rfl, rfl⟩ := hinit
  have hlast := constPoint_last cfg.t0 cfg.t1 dt0 n hn0 h1
  have hsucc : ∀ k, k < n → constPoint cfg.t0 cfg.t1 dt0 n k < constPoint cfg.t0 cfg.t1 dt0 n (k + 1)
      ∧ constPoint cfg.t0 cfg.t1 dt0 n (k + 1) - constPoint cfg.t0 cfg.t1 dt0 n k
        ≤ up dt0 + (up dt0 - dt0)
      ∧ (2 ≤ k → constPoint cfg.t0 cfg.t1 dt0 n (k + 1) - constPoint cfg.t0 cfg.t1 dt0 n k
        = (cfg.t1 - cfg.t0) / n) := by
    intro k hk
    have hLn : (cfg.t1 - cfg.t0) / n ≤ up dt0 := by rw [div_le_iff₀ hn']; linarith
    rcases Nat.lt_or_ge k 1 with hk0 | hk1
    · obtain rfl : k = 0 := by omega
      refine ⟨?_, ?_, by omega⟩
      · simp only [constPoint]
        simp only [if_true]
        exact lt_min (by linarith) hlt
      · simp only [constPoint]
        simp only [if_true]
        have := min_le_left (cfg.t0 + dt0) cfg.t1
        simp only [Nat.zero_add]
        rw [if_neg one_ne_zero]
        linarith
    rcases Nat.lt_or_ge k 2 with hk2 | hk2
    · obtain rfl : k = 1 := by omega
      have hmin : min (cfg.t0 + dt0) cfg.t1 = cfg.t0 + dt0 := min_eq_left (h2 (by omega)).le
      have e1 : constPoint cfg.t0 cfg.t1 dt0 n 1 = cfg.t0 + dt0 := by
        unfold constPoint
        rw [if_neg (by omega), if_pos rfl, hmin]
      have e2 : constPoint cfg.t0 cfg.t1 dt0 n (1 + 1) = cfg.t0 + 2 * ((cfg.t1 - cfg.t0) / n) := by
        unfold constPoint
        rw [if_neg (by omega), if_neg (by omega)]
        push_cast; ring
      rw [e1, e2]
      have h' : (2 : K) ≤ n := by exact_mod_cast hk
      have hgt' : dt0 < 2 * ((cfg.t1 - cfg.t0) / n) := by
        rw [← mul_div_assoc, lt_div_iff₀ hn']
        nlinarith
      exact ⟨by linarith, by linarith, by omega⟩
    · have e1 : constPoint cfg.t0 cfg.t1 dt0 n k = cfg.t0 + (cfg.t1 - cfg.t0) * ((k : K) / n) := by
        unfold constPoint
        rw [if_neg (by omega), if_neg (by omega)]
      have e2 : constPoint cfg.t0 cfg.t1 dt0 n (k + 1)
          = cfg.t0 + (cfg.t1 - cfg.t0) * (((k + 1 : Nat) : K) / n) := by
        unfold constPoint
        rw [if_neg (by omega), if_neg (by omega)]
      have e3 : constPoint cfg.t0 cfg.t1 dt0 n (k + 1) - constPoint cfg.t0 cfg.t1 dt0 n k
          = (cfg.t1 - cfg.t0) / n := by
        rw [e1, e2]; push_cast; field_simp; ring
      have hpos : 0 < (cfg.t1 - cfg.t0) / n := div_pos hL hn'
      exact ⟨by linarith, by linarith, fun _ => e3⟩
  have hmono : ∀ i k, k + i = n → 0 < i → constPoint cfg.t0 cfg.t1 dt0 n k < cfg.t1 := by
    intro i
    induction i with
    | zero => intro k _ h; exact absurd h (lt_irrefl _)
    | succ i ih =>
      intro k hk _
      refine lt_of_lt_of_le (hsucc k (by omega)).1 ?_
      exact constPoint_le _ _ _ _ _ hlt.le (by omega)
  have hgrid := const_onGrid cfg dt0 n hlt hn0 h1 hdt
    (fun k hk => hmono (n - k) k (by omega) (by omega)) hc hev hok hfloor (by exact_mod_cast hfl)
  obtain ⟨g1, g2, g3, g4, g5, g6⟩ := grid_solve cfg n _ _ hgrid (by exact_mod_cast hmax) y0
    (cfg.t0 + dt0) ss mj (by simp [constPoint]) (fun _ => by simp [constPoint])
  have est : (⟨1, ⌈(cfg.t1 - cfg.t0) / up dt0⌉, cfg.t0, cfg.t1⟩ : ConstState K)
      = ⟨((0 : Nat) : Int) + 1, (n : Int), cfg.t0, cfg.t1⟩ := by rw [hn]; simp
  rw [est]
  refine ⟨n, constPoint cfg.t0 cfg.t1 dt0 n, rfl, g1, by simp [constPoint], hlast,
    fun k hk => (hsucc k hk).1, fun k hk => (hsucc k hk).2.1, fun k h hk => (hsucc k hk).2.2 h,
    by simp [constPoint], ?_, by rw [g2, hlast], g3, g4, g5, g6⟩
  intro k hk _
  unfold constPoint
  rw [if_neg (by omega), if_neg (by omega), mul_div_assoc]

/-- **C21, partial.** When `dt0` divides the interval, `t1 - t0 = n * dt0`, ConstantStepSize steps over
exactly `[t0 + k * dt0, t0 + (k + 1) * dt0]`, `k = 0, ..., n - 1`.
Missing: other `dt0`, for which the claim is false (`C21_violated`); C22 gives the steps then. -/
theorem C21_equal_steps_partial (cfg : Cfg K Y E D S (ConstState K) O F) (dt0 : K) (n : Nat)
    (y0 : Y) (ss : S) (mj : Bool) (tnext : K) (ctrl : ConstState K)
    (hinit : constInit id cfg.t0 (some cfg.t1) (some dt0) = some (tnext, ctrl))
    (hn : 0 < n) (hdt : 0 < dt0) (hdiv : cfg.t1 - cfg.t0 = n * dt0)
    (hc : cfg.controller = constantStepSize) (hev : cfg.events = [])
    (hok : ∀ a b y s j, (cfg.solver.step a b y s j).result = .successful)
    (hfloor : cfg.floor ≤ cfg.t1) (hfl : cfg.t1 - dt0 ≤ cfg.floor) (hmax : n ≤ cfg.maxSteps) :
    (callLog cfg y0 tnext ctrl ss mj).map (fun c => (c.solverT0, c.solverT1))
        = (List.range n).map (fun j : Nat => (cfg.t0 + (j : K) * dt0, cfg.t0 + ((j : K) + 1) * dt0)) ∧
      (solve cfg y0 tnext ctrl ss mj).tfinal = cfg.t1 ∧
      (solve cfg y0 tnext ctrl ss mj).result = .successful := by
  have hn' : (0 : K) < n := by exact_mod_cast hn
  have hceil : ⌈(cfg.t1 - cfg.t0) / id dt0⌉ = (n : Int) := by
    rw [hdiv, id, mul_div_assoc, div_self hdt.ne', mul_one]
    exact Int.ceil_natCast n
  have hlt : cfg.t0 < cfg.t1 := by
    have : 0 < (n : K) * dt0 := mul_pos hn' hdt
    linarith
  have hLn : (cfg.t1 - cfg.t0) / (n : K) = dt0 := by rw [hdiv]; field_simp
  obtain ⟨m, p, hm, g1, p0, pn, _, _, _, p1, pk, g2, g3, _⟩ := C22_constant_steps cfg id dt0 y0 ss mj
    tnext ctrl hinit hlt hdt (le_refl _) (fun h => h) hc hev hok hfloor
    (by rw [hceil]; push_cast; rw [hLn]; exact hfl) (by rw [hceil]; exact_mod_cast hmax)
  have hmn : m = n := by rw [hceil] at hm; exact_mod_cast hm
  subst hmn
  have hp : ∀ k, k ≤ m → p k = cfg.t0 + (k : K) * dt0 := by
    intro k hk
    rcases Nat.lt_or_ge k 1 with h | h
    · obtain rfl : k = 0 := by omega
      rw [p0]; simp
    rcases Nat.lt_or_ge k 2 with h2 | h2
    · obtain rfl : k = 1 := by omega
      rw [p1, min_eq_left]
      · simp
      · have : (1 : K) ≤ m := by exact_mod_cast hk
        nlinarith
    · rw [pk k h2 hk]
      have : (cfg.t1 - cfg.t0) * k / m = (k : K) * ((cfg.t1 - cfg.t0) / m) := by ring
      rw [this, hLn]
  refine ⟨?_, g2, g3⟩
  rw [g1]
  apply List.map_congr_left
  intro j hj
  have hj' : j < m := List.mem_range.1 hj
  rw [hp j hj'.le, hp (j + 1) hj']
  push_cast
  rfl

/-- ConstantStepSize with an infinite end time: every step has size `dt0` (controller level). -/
theorem C21_infinite_end (up : K → K) (t0 dt0 tnext : K) (ctrl : ConstState K)
    (hinit : constInit up t0 none (some dt0) = some (tnext, ctrl)) :
    tnext = t0 + dt0 ∧
    ∀ (m : Nat) (st : Nat → K × K × ConstState K), st 0 = (t0, tnext, ctrl) →
      (∀ k, st (k + 1) = ((constAdapt (st k).2.1 (st k).2.2).tprev,
        (constAdapt (st k).2.1 (st k).2.2).tnext, (constAdapt (st k).2.1 (st k).2.2).state)) →
      (st m).1 = t0 + m * dt0 ∧ (st m).2.1 = t0 + (m + 1) * dt0 := by
  simp only [constInit, Option.some.injEq, Prod.mk.injEq] at hinit
  obtain ⟨rfl, rfl⟩ := hinit
  refine ⟨rfl, ?_⟩
  intro m st h0 hs
  suffices h : (st m).1 = t0 + m * dt0 ∧ (st m).2.1 = t0 + (m + 1) * dt0 ∧
      (st m).2.2.numSteps = -1 ∧ (st m).2.2.t1OrDt0 = dt0 from ⟨h.1, h.2.1⟩
  induction m with
  | zero => rw [h0]; simp
  | succ m ih =>
    obtain ⟨i1, i2, i3, i4⟩ := ih
    rw [hs m]
    refine ⟨?_, ?_, ?_, ?_⟩
    · simp only [constAdapt]; rw [i2]; push_cast; ring
    · simp only [constAdapt]
      rw [i3, if_neg (by decide), i2, i4]; push_cast; ring
    · exact i3
    · exact i4
end const

/-- The configuration used in the examples: `dy/dt = 1` from 0 to 1 over the rationals. -/
def constCfg (C : Type) (ctrl : Controller ℚ ℚ ℚ C) : Cfg ℚ ℚ ℚ ℚ Int C ℚ ℚ :=
  { solver := { step := fun a b y s _ => { y := y + (b - a), err := 0, dense := y, state := s + 1,
                                           result := .successful },
                interp := fun a _ d t => d + (t - a) },
    controller := ctrl, cleanErr := id, events := [], rootFinder := none, dist := fun a b => a - b,
    dummyDense := 0, t0 := 0, t1 := 1, floor := 99 / 100, mid := fun a b => (a + b) / 2, subs := [],
    dense := false, maxSteps := 20 }

/-- **C21 is false of the code.** From 0 to 1 with `dt0 = 2/5` the steps are `[0, 2/5]`,
`[2/5, 2/3]`, `[2/3, 1]`: the second step is neither `dt0` long nor the last. -/
theorem C21_violated :
    ∃ tnext ctrl, constInit id (0 : ℚ) (some 1) (some (2 / 5)) = some (tnext, ctrl) ∧
      (callLog (constCfg _ constantStepSize) 0 tnext ctrl 0 false).map
        (fun c => (c.solverT0, c.solverT1)) = [(0, 2 / 5), (2 / 5, 2 / 3), (2 / 3, 1)] := by
  have hceil : ⌈((1 : ℚ) - 0) / id (2 / 5)⌉ = (3 : Int) := by
    rw [Int.ceil_eq_iff]; norm_num
  refine ⟨0 + 2 / 5, ⟨1, 3, 0, 1⟩, ?_, ?_⟩
  · simp only [constInit]
    rw [hceil]
  · obtain ⟨m, p, hm, g1, p0, pn, _, _, _, p1, pk, _⟩ :=
      C22_constant_steps (constCfg _ constantStepSize) id (2 / 5) 0 0 false (0 + 2 / 5) ⟨1, 3, 0, 1⟩
        (by simp only [constInit, constCfg]; rw [hceil]) (by norm_num [constCfg]) (by norm_num)
        (le_refl _) (fun h => h) rfl rfl (fun _ _ _ _ _ => rfl) (by norm_num [constCfg])
        (by simp only [constCfg]; rw [hceil]; norm_num)
        (by simp only [constCfg]; rw [hceil]; norm_num)
    have hm3 : m = 3 := by
      simp only [constCfg] at hm; rw [hceil] at hm; exact_mod_cast hm
    subst hm3
    rw [g1]
    have e2 := pk 2 (le_refl _) (by omega)
    have e0 : p 0 = 0 := p0
    have e1 : p 1 = 2 / 5 := by rw [p1]; norm_num [constCfg]
    have e2' : p 2 = 2 / 3 := by rw [e2]; norm_num [constCfg]
    have e3 : p 3 = 1 := pn
    simp [List.range_succ, e0, e1, e2', e3]

/-- The hypotheses of C22 and of C21's partial theorem are met with `dt0 = 1/4`. -/
example : ∃ tnext ctrl, constInit id (0 : ℚ) (some 1) (some (1 / 4)) = some (tnext, ctrl) ∧
      (callLog (constCfg _ constantStepSize) 0 tnext ctrl 0 false).map
        (fun c => (c.solverT0, c.solverT1))
        = [(0, 1 / 4), (1 / 4, 1 / 2), (1 / 2, 3 / 4), (3 / 4, 1)] := by
  refine ⟨_, _, rfl, ?_⟩
  refine (C21_equal_steps_partial (constCfg _ constantStepSize) (1 / 4) 4 0 0 false _ _ rfl
    (by norm_num) (by norm_num) (by norm_num [constCfg]) rfl rfl (fun _ _ _ _ _ => rfl)
    (by norm_num [constCfg]) (by norm_num [constCfg]) (by norm_num [constCfg])).1.trans ?_
  norm_num [List.range_succ, constCfg]

section stepto
variable {T Y E D S O F : Type} [LinearOrder T] [LinearOrder F] [Zero F]

theorem stepToValid_pairwise (ts : List T) (h : stepToValid ts = true) :
    2 ≤ ts.length ∧ ∀ i j (hj : j < ts.length) (hij : i < j), ts[i] < ts[j] := by
  unfold stepToValid at h
  rw [Bool.and_eq_true, decide_eq_true_iff] at h
  refine ⟨h.1, ?_⟩
  have hadj : ∀ i (hi : i + 1 < ts.length), ts[i] < ts[i + 1] := by
    intro i hi
    have h2 := List.all_eq_true.1 h.2 (decide (ts[i] < ts[i + 1])) (by
      rw [List.mem_iff_getElem]
      refine ⟨i, by simp; omega, ?_⟩
      simp)
    simpa using h2
  intro i j hj hij
  induction j with
  | zero => omega
  | succ j ih =>
    rcases Nat.lt_or_ge i j with h' | h'
    · exact lt_trans (ih (by omega) h') (hadj j hj)
    · obtain rfl : i = j := by omega
      exact hadj i hj

/-- **C23.** With StepTo, for any strictly increasing list of at least two times from `t0` to `t1`
whose interior points are not in the clipping zone just below `t1`: the solver is stepped over exactly
the consecutive intervals of the list, the solve succeeds and ends at `t1`. -/
theorem C23_stepTo (ts : List T) (dflt : T) (cfg : Cfg T Y E D S Nat O F) (y0 : Y) (ss : S) (mj : Bool)
    (tnext : T) (ctrl : Nat) (hvalid : stepToValid ts = true)
    (hinit : stepToInit ts cfg.t0 cfg.t1 false = some (tnext, ctrl))
    (hc : cfg.controller = stepTo ts dflt) (hev : cfg.events = [])
    (hok : ∀ a b y s j, (cfg.solver.step a b y s j).result = .successful)
    (hfl : ∀ i (hi : i < ts.length), i + 1 < ts.length → ts[i] ≤ cfg.floor)
    (hmax : ts.length ≤ cfg.maxSteps + 1) :
    (callLog cfg y0 tnext ctrl ss mj).map (fun c => (c.solverT0, c.solverT1)) = ts.zip ts.tail ∧
      (solve cfg y0 tnext ctrl ss mj).tfinal = cfg.t1 ∧
      (solve cfg y0 tnext ctrl ss mj).result = .successful ∧
      (solve cfg y0 tnext ctrl ss mj).core.numSteps + 1 = ts.length ∧
      (solve cfg y0 tnext ctrl ss mj).core.numRejected = 0 := by
  obtain ⟨hlen, hpw⟩ := stepToValid_pairwise ts hvalid
  unfold stepToInit at hinit
  simp only [Bool.false_eq_true, if_false] at hinit
  split at hinit
  · exact absurd hinit (by simp)
  rename_i hends
  rw [not_or, not_not, not_not] at hends
  have hl : ts.getLast? = some (ts[ts.length - 1]'(by omega)) := by
    rw [List.getLast?_eq_getElem?, List.getElem?_eq_getElem (by omega)]
  have h0 : ts.head? = some (ts[0]'(by omega)) := by
    rw [List.head?_eq_getElem?, List.getElem?_eq_getElem (by omega)]
  have hlast : ts[ts.length - 1]'(by omega) = cfg.t1 := by
    have := hends.2; rw [hl] at this; exact Option.some.inj this
  have hfirst : ts[0]'(by omega) = cfg.t0 := by
    have := hends.1; rw [h0] at this; exact Option.some.inj this
  rw [List.getElem?_eq_getElem (by omega : 1 < ts.length)] at hinit
  simp only [Option.some.injEq, Prod.mk.injEq] at hinit
  obtain ⟨rfl, rfl⟩ := hinit
  have hget : ∀ k (hk : k < ts.length), (ts[k]?).getD dflt = ts[k] := by
    intro k hk; rw [List.getElem?_eq_getElem hk]; rfl
  have hle : ∀ k (hk : k < ts.length), ts[k] ≤ cfg.t1 := by
    intro k hk
    rw [← hlast]
    rcases Nat.lt_or_ge k (ts.length - 1) with h | h
    · exact (hpw k (ts.length - 1) (by omega) h).le
    · have : k = ts.length - 1 := by omega
      subst this; exact le_refl _
  have hgrid : OnGrid cfg (ts.length - 1) (fun k => (ts[k]?).getD dflt) (fun k => k + 2) := by
    refine ⟨?_, ?_, ?_, hev, hok⟩
    · intro j hj
      rw [hget j (by omega)]
      exact hle j (by omega)
    · intro j hj y y' e
      rw [hc]
      refine ⟨_, rfl, ?_⟩
      intro hj2
      rw [Nat.min_eq_left (by omega)]
      unfold clipToEnd
      simp only [if_true]
      split
      · rename_i hclip
        rw [hget (j + 2) (by omega)] at hclip ⊢
        by_cases hh : j + 2 + 1 < ts.length
        · exact absurd (hfl (j + 2) (by omega) hh) (not_le.2 hclip)
        · rw [← hlast]
          have : j + 2 = ts.length - 1 := by omega
          simp only [this]
      · rfl
    · intro j hj s _ hs hr
      have : condFun cfg s = decide (s.numSteps < ts.length - 1) := by
        unfold condFun
        rw [hc, hr]
        simp [stepTo, Result.isSuccessful]
      rw [this, decide_eq_true_iff, hs]
  obtain ⟨g1, g2, g3, g4, g5, g6⟩ := grid_solve cfg (ts.length - 1) _ _ hgrid (by omega) y0 ts[1] ss mj
    (by rw [hget 0 (by omega)]; exact hfirst)
    (fun _ => by rw [hget 1 (by omega)]; exact min_eq_left (hle 1 (by omega)))
  refine ⟨?_, ?_, g3, by rw [g4]; omega, g6⟩
  · rw [g1]
    apply List.ext_getElem
    · simp
    · intro i h1 h2
      simp only [List.length_map, List.length_range] at h1
      simp only [List.getElem_map, List.getElem_range, List.getElem_zip, List.getElem_tail]
      rw [hget i (by omega), hget (i + 1) (by omega)]
  · rw [g2, hget (ts.length - 1) (by omega)]; exact hlast
end stepto

example : ∃ tnext ctrl, stepToInit [(0 : ℚ), 1 / 3, 1 / 2, 1] 0 1 false = some (tnext, ctrl) ∧
      (callLog (constCfg _ (stepTo [(0 : ℚ), 1 / 3, 1 / 2, 1] 0)) 0 tnext ctrl 0 false).map
        (fun c => (c.solverT0, c.solverT1))
        = [(0, 1 / 3), (1 / 3, 1 / 2), (1 / 2, 1)] := by
  refine ⟨1 / 3, 2, by decide +kernel, ?_⟩
  refine (C23_stepTo [(0 : ℚ), 1 / 3, 1 / 2, 1] 0 (constCfg _ (stepTo [(0 : ℚ), 1 / 3, 1 / 2, 1] 0))
    0 0 false _ _ (by decide +kernel) (by decide +kernel) rfl rfl (fun _ _ _ _ _ => rfl) ?_
    (by decide)).1
  intro i hi h
  simp only [List.length_cons, List.length_nil] at hi h
  interval_cases i <;> first | (norm_num [constCfg]; done) | omega

end Verif
