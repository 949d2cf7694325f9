import Verif.Props.BacksolveConvergence
import Verif.Props.Resume

/-!
# C98: the steps of the backward pass of `BacksolveAdjoint` with `ConstantStepSize`

The state of the step size controller is handed from one solve of the backward pass to the next
(`/repo/diffrax/_adjoint.py` 630-660). That of `ConstantStepSize` is about the interval of the first of these solves
(`/repo/diffrax/_step_size_controller/constant.py` 41-55), which is the one at the end of the interval of integration. When a
state is passed, the first step goes to `t0 + dt0` (`/repo/diffrax/_integrate.py` 1256-1264).
-/

set_option linter.unusedSectionVars false
set_option maxRecDepth 100000

namespace Verif

section
variable {K Y E D S O F : Type} [Field K] [LinearOrder K] [IsStrictOrderedRing K] [FloorRing K] [LinearOrder F] [Zero F]

/-- The times of `N` steps: the first step has the size `dt0`, the following ones end at multiples of `d`. -/
def backGrid (a d dt0 : K) (c N j : ℕ) : K := if j = 1 ∧ 1 < N then a + c * d + dt0 else a + (c + j : ℕ) * d

/-- The state of `ConstantStepSize` after `c` steps, if the first solve was from `a` with `M` steps of size `d`. -/
def backState (a d : K) (M c : ℕ) : ConstState K :=
  { completed := (c : ℤ) + 1, numSteps := M, t0 := a, t1OrDt0 := a + M * d }

theorem backGrid_grid (cfg : Cfg K Y E D S (ConstState K) O F) (hc : cfg.controller = constantStepSize)
    (hev : cfg.events = []) (hok : ∀ a b y s j, (cfg.solver.step a b y s j).result = .successful)
    (a d dt0 : K) (hd : 0 < d) (c M N : ℕ) (hM : 0 < M) (hN : 0 < N) (ht1 : cfg.t1 = a + (c + N : ℕ) * d)
    (hfl : cfg.t1 - d ≤ cfg.floor) (hdt : 1 < N → dt0 < 2 * d) :
    OnGrid cfg N (backGrid a d dt0 c N) (fun j => backState a d M (c + j)) where
  le j hj := by
    unfold backGrid
    rw [ht1]
    split
    · rename_i h
      have h2 := hdt h.2
      have : ((c : ℕ) : K) + 2 ≤ (c + N : ℕ) := by exact_mod_cast (by omega : c + 2 ≤ c + N)
      nlinarith
    · have : ((c + j : ℕ) : K) ≤ (c + N : ℕ) := by exact_mod_cast Nat.add_le_add_left hj c
      nlinarith
  adapt j hj y y' e := by
    rw [hc]
    have hM' : (M : K) ≠ 0 := by exact_mod_cast hM.ne'
    have hnext : (constAdapt (backGrid a d dt0 c N (j + 1)) (backState a d M (c + j))).tnext = a + ((c + (j + 2) : ℕ) : K) * d := by
      unfold constAdapt backState
      have hge : (M : ℤ) ≥ 0 := by omega
      simp only [hge, if_true]
      split
      · rename_i e
        have : M = c + (j + 2) := by omega
        rw [this]
      · push_cast
        field_simp
        ring
    refine ⟨a + ((c + (j + 2) : ℕ) : K) * d, ?_, fun hj2 => ?_⟩
    · rw [← hnext]
      show constAdapt _ _ = _
      unfold constAdapt backState
      simp only [AdaptOut.mk.injEq, ConstState.mk.injEq, true_and, and_true]
      push_cast
      ring
    · have e2 : backGrid a d dt0 c N (j + 2) = a + ((c + (j + 2) : ℕ) : K) * d := by
        unfold backGrid
        rw [if_neg (by omega)]
      rw [e2]
      unfold clipToEnd
      simp only [if_true]
      split
      · rename_i hclip
        rcases Nat.lt_or_ge (j + 2) N with hl | hl
        · exfalso
          have h1 : ((c + (j + 2) : ℕ) : K) + 1 ≤ (c + N : ℕ) := by exact_mod_cast (by omega : c + (j + 2) + 1 ≤ c + N)
          rw [ht1] at hfl
          nlinarith
        · have : N = j + 2 := by omega
          rw [ht1, this]
      · rfl
  cond j hj s hs _ hr := by
    have : condFun cfg s = decide (s.tprev < cfg.t1) := by
      unfold condFun
      rw [hc, hr]
      simp [constantStepSize, Result.isSuccessful]
    rw [this, decide_eq_true_iff, hs, ht1]
    unfold backGrid
    constructor
    · intro h
      by_contra hh
      obtain rfl : j = N := by omega
      rw [if_neg (by omega)] at h
      exact lt_irrefl _ h
    · intro h
      split
      · rename_i h1
        have h2 := hdt h1.2
        have : ((c : ℕ) : K) + 2 ≤ (c + N : ℕ) := by exact_mod_cast (by omega : c + 2 ≤ c + N)
        nlinarith
      · have : ((c + j : ℕ) : K) + 1 ≤ (c + N : ℕ) := by exact_mod_cast (by omega : c + j + 1 ≤ c + N)
        nlinarith
  events := hev
  okay := hok

/-- The steps are forwards and at most `dt0` long. -/
theorem backGrid_step (a d dt0 : K) (hd : 0 < d) (hdd : d ≤ dt0) (c N j : ℕ) (hdt : 1 < N → dt0 < 2 * d) :
    backGrid a d dt0 c N j < backGrid a d dt0 c N (j + 1) ∧
      backGrid a d dt0 c N (j + 1) - backGrid a d dt0 c N j ≤ dt0 := by
  unfold backGrid
  by_cases hN : 1 < N
  · have h2 := hdt hN
    rcases j with _ | _ | j
    · simp [hN]
      linarith
    · simp [hN]
      constructor <;> nlinarith
    · have e1 : ¬ (j + 1 + 1 = 1 ∧ 1 < N) := by omega
      have e2 : ¬ (j + 1 + 1 + 1 = 1 ∧ 1 < N) := by omega
      rw [if_neg e1, if_neg e2]
      push_cast
      constructor <;> nlinarith
  · rw [if_neg (by tauto), if_neg (by tauto)]
    push_cast
    constructor <;> nlinarith

end

namespace Backsolve
open Set Tab

section
variable {E O F : Type} [LinearOrder F] [Zero F]

/-- The solves of the backward pass use `ConstantStepSize`, with `dt0` for a solve forwards in time. The state of the
controller is that of the solve before, except for the first one. -/
structure Settings.Constant (u : Settings E (ConstState ℝ) O F) (dt0 : ℝ) : Prop where
  controller : ∀ s t, (u.cfg s t).controller = constantStepSize
  events : ∀ s t, (u.cfg s t).events = []
  fresh : ∀ s t z, constInit id (-s) (some (-t)) (some dt0) = some (u.start s t z none)
  resumed : ∀ s t z c, u.start s t z (some c) = (-s + dt0, c)

/-- Between the consecutive times `a < b` there are `⌈(b - a) / dt0⌉` steps of the size `d`, as many as are allowed, and `d` is
longer than the tolerance with which a solve is considered finished. -/
def Even (u : Settings E (ConstState ℝ) O F) (dt0 d a b : ℝ) : Prop :=
  a < b ∧ b - a = ⌈(b - a) / dt0⌉ * d ∧ ⌈(b - a) / dt0⌉ ≤ (u.cfg b a).maxSteps ∧ -a - d ≤ (u.cfg b a).floor

/-- A solve of the backward pass makes its steps as it would on its own: it reaches its end with `⌈(s - t) / dt0⌉` steps, which
are in the right direction and at most `dt0` long. -/
structure Settings.Like (u : Settings E (ConstState ℝ) O F) (init : RK.State 1 E) (dt0 : ℝ) (s t : ℝ) (z : E)
    (st : Option (RK.State 1 E × ConstState ℝ)) (mj : Bool) : Prop where
  fine : u.Fine init dt0 s t z st mj
  count : ((callLog (u.cfg s t) z (u.start s t z (st.map (·.2))).1 (u.start s t z (st.map (·.2))).2
    (startState init st) mj).length : ℤ) = ⌈(s - t) / dt0⌉

theorem even_steps {u : Settings E (ConstState ℝ) O F} {dt0 d a b : ℝ} (hdt : 0 < dt0) (h : Even u dt0 d a b) :
    ∃ N : ℕ, 0 < N ∧ ⌈(b - a) / dt0⌉ = N ∧ b - a = N * d ∧ 0 < d ∧ d ≤ dt0 ∧ (1 < N → dt0 < 2 * d) ∧
      N ≤ (u.cfg b a).maxSteps := by
  obtain ⟨h1, h2, h3, -⟩ := h
  have hpos : 0 < ⌈(b - a) / dt0⌉ := Int.ceil_pos.2 (div_pos (by linarith) hdt)
  obtain ⟨N, hN⟩ := Int.eq_ofNat_of_zero_le hpos.le
  rw [hN] at h2 h3 hpos
  simp only [Int.cast_natCast] at h2
  have hN0 : 0 < N := by exact_mod_cast hpos
  have hNr : (0 : ℝ) < N := by exact_mod_cast hN0
  have hd : 0 < d := by
    have : 0 < (N : ℝ) * d := by linarith
    exact pos_of_mul_pos_right this hNr.le |> fun h => h
  have hle : (b - a) / dt0 ≤ N := by
    have := Int.le_ceil ((b - a) / dt0)
    rw [hN] at this
    exact_mod_cast this
  rw [div_le_iff₀ hdt, h2] at hle
  have hlt : ((N : ℝ) - 1) < (b - a) / dt0 := by
    have := Int.ceil_lt_add_one ((b - a) / dt0)
    rw [hN] at this
    simp only [Int.cast_natCast] at this
    linarith
  rw [lt_div_iff₀ hdt, h2] at hlt
  refine ⟨N, hN0, hN, h2, hd, le_of_mul_le_mul_left hle hNr, fun h => ?_, by exact_mod_cast h3⟩
  have h2' : (2 : ℝ) ≤ N := by exact_mod_cast h
  by_contra hh
  have hh' := not_lt.1 hh
  nlinarith

/-- One solve, starting in a state that belongs to steps of the size `d`. -/
theorem like_of_state (u : Settings E (ConstState ℝ) O F) (init : RK.State 1 E) (dt0 d : ℝ) (hdt : 0 < dt0)
    (hu : u.Constant dt0) (s t : ℝ) (h0 : (u.cfg s t).t0 = -s) (h1 : (u.cfg s t).t1 = -t) (he : Even u dt0 d t s)
    (hok : ∀ a b y st j, ((u.cfg s t).solver.step a b y st j).result = .successful) (z : E)
    (st : Option (RK.State 1 E × ConstState ℝ)) (mj : Bool) (a : ℝ) (M c : ℕ) (hM : 0 < M) (hs : -s = a + c * d)
    (hst : u.start s t z (st.map (·.2)) = (-s + dt0, backState a d M c)) :
    u.Like init dt0 s t z st mj ∧ ∃ c' : ℕ, -t = a + c' * d ∧
      (u.output init s t z st mj).core.ctrlState = backState a d M c' := by
  obtain ⟨N, hN0, hN, hlen, hd, hdd, h2, hmax⟩ := even_steps hdt he
  have ht1 : (u.cfg s t).t1 = a + (c + N : ℕ) * d := by
    rw [h1]; push_cast; linarith
  have hg := backGrid_grid (u.cfg s t) (hu.controller s t) (hu.events s t) hok a d dt0 hd c M N hM hN0 ht1
    (by rw [h1]; exact he.2.2.2) h2
  have hp0 : backGrid a d dt0 c N 0 = (u.cfg s t).t0 := by
    rw [h0, hs]; simp [backGrid]
  have hp1 : 0 < N → min (-s + dt0) (u.cfg s t).t1 = backGrid a d dt0 c N 1 := by
    intro _
    unfold backGrid
    rw [ht1, hs]
    by_cases hN1 : 1 < N
    · rw [if_pos ⟨rfl, hN1⟩]
      refine min_eq_left ?_
      have := h2 hN1
      have : ((c : ℕ) : ℝ) + 2 ≤ (c + N : ℕ) := by exact_mod_cast (by omega : c + 2 ≤ c + N)
      nlinarith
    · obtain rfl : N = 1 := by omega
      rw [if_neg (by simp)]
      refine min_eq_right ?_
      push_cast
      linarith
  obtain ⟨g1, g2, -⟩ := grid_solve (u.cfg s t) N _ _ hg hmax z (-s + dt0) (startState init st) mj hp0 hp1
  obtain ⟨-, v2, -⟩ := grid_end (u.cfg s t) N _ _ hg hmax z (-s + dt0) (startState init st) mj hp0.symm hp1
  have hpN : backGrid a d dt0 c N N = -t := by
    unfold backGrid
    rw [if_neg (by omega), ← ht1, h1]
  have hmem : ∀ x ∈ callLog (u.cfg s t) z (-s + dt0) (backState a d M c) (startState init st) mj,
      ∃ k, x.solverT0 = backGrid a d dt0 c N k ∧ x.solverT1 = backGrid a d dt0 c N (k + 1) := by
    intro x hx
    have h : (x.solverT0, x.solverT1) ∈ (List.range N).map (fun j => (backGrid a d dt0 c N j, backGrid a d dt0 c N (j + 1))) := by
      rw [← g1]; exact List.mem_map_of_mem hx
    obtain ⟨k, -, hk⟩ := List.mem_map.1 h
    have hk' := Prod.mk.inj hk
    exact ⟨k, hk'.1.symm, hk'.2.symm⟩
  refine ⟨⟨⟨?_, ?_, ?_⟩, ?_⟩, c + N, by rw [← h1, ht1], ?_⟩
  · rw [hst]
    intro x hx
    obtain ⟨k, e1, e2⟩ := hmem x hx
    rw [e1, e2]
    exact (backGrid_step a d dt0 hd hdd c N k h2).1.le
  · rw [hst]
    intro x hx _
    obtain ⟨k, e1, e2⟩ := hmem x hx
    rw [e1, e2]
    exact (backGrid_step a d dt0 hd hdd c N k h2).2
  · unfold Settings.output
    rw [hst, ← hpN]
    exact g2
  · rw [hst, hN]
    have := congrArg List.length g1
    simp only [List.length_map, List.length_range] at this
    exact_mod_cast this
  · unfold Settings.output
    rw [hst]
    exact v2

end

section
variable {S Q O F : Type} [Fintype S] [Fintype Q] [LinearOrder F] [Zero F]

/-- The time before the solves of `chain t0 ps` that come last. -/
def endTime (t0 : ℝ) (ps : List (ℝ × (S → ℝ) × (S → ℝ))) : ℝ := ((t0 :: ps.map (·.1)).getLast (by simp))

theorem chain_concat (t0 : ℝ) (ps : List (ℝ × (S → ℝ) × (S → ℝ))) (p : ℝ × (S → ℝ) × (S → ℝ)) :
    chain t0 (ps ++ [p]) = chain t0 ps ++ [(endTime t0 ps, p)] := by
  induction ps generalizing t0 with
  | nil => rfl
  | cons q ps ih =>
    simp only [List.cons_append, chain, ih]
    simp [endTime]

theorem endTime_concat (t0 : ℝ) (ps : List (ℝ × (S → ℝ) × (S → ℝ))) (p : ℝ × (S → ℝ) × (S → ℝ)) :
    endTime t0 (ps ++ [p]) = p.1 := by
  simp [endTime]

theorem even_concat {R : ℝ → ℝ → Prop} (t0 : ℝ) (ps : List (ℝ × (S → ℝ) × (S → ℝ))) (p : ℝ × (S → ℝ) × (S → ℝ))
    (h : (t0 :: (ps ++ [p]).map (·.1)).IsChain R) : (t0 :: ps.map (·.1)).IsChain R ∧ R (endTime t0 ps) p.1 := by
  induction ps generalizing t0 with
  | nil => simpa [endTime] using h
  | cons q ps ih =>
    simp only [List.cons_append, List.map_cons] at h
    rw [List.isChain_cons_cons] at h
    obtain ⟨h1, h2⟩ := ih q.1 h.2
    refine ⟨?_, ?_⟩
    · rw [List.map_cons, List.isChain_cons_cons]
      exact ⟨h.1, h1⟩
    · simpa [endTime] using h2

variable {u : Settings (Aug S Q) (ConstState ℝ) O F} {init : RK.State 1 (Aug S Q)} {dt0 d : ℝ}

/-- All solves after the first one. -/
theorem like_rest (hdt : 0 < dt0) (hu : u.Constant dt0) (h0 : ∀ s t, (u.cfg s t).t0 = -s) (h1 : ∀ s t, (u.cfg s t).t1 = -t)
    (hok : ∀ s t a b y st j, ((u.cfg s t).solver.step a b y st j).result = .successful) (t0 : ℝ) (a : ℝ) (M : ℕ) (hM : 0 < M)
    (ps : List (ℝ × (S → ℝ) × (S → ℝ))) (he : (t0 :: ps.map (·.1)).IsChain (Even u dt0 d)) (x : (S → ℝ) × (Q → ℝ))
    (ss : RK.State 1 (Aug S Q)) (c : ℕ) (hc : -endTime t0 ps = a + c * d) :
    AllCalls (u.solve init) (u.Like init dt0) (x, some (ss, backState a d M c)) false (chain t0 ps).reverse := by
  induction ps using List.reverseRecOn generalizing x ss c with
  | nil => trivial
  | append_singleton ps p ih =>
    obtain ⟨he1, he2⟩ := even_concat t0 ps p he
    rw [chain_concat, List.reverse_append]
    rw [endTime_concat] at hc
    obtain ⟨hl, c', hc', hst⟩ := like_of_state u init dt0 d hdt hu p.1 (endTime t0 ps) (h0 _ _) (h1 _ _) he2 (hok _ _)
      (p.2.1, x.1 + p.2.2, x.2) (some (ss, backState a d M c)) true a M c hM hc (hu.resumed _ _ _ _)
    refine ⟨hl, ?_⟩
    have := ih he1
      (((u.output init p.1 (endTime t0 ps) (p.2.1, x.1 + p.2.2, x.2) (some (ss, backState a d M c)) true).yfinal).2)
      ((u.output init p.1 (endTime t0 ps) (p.2.1, x.1 + p.2.2, x.2) (some (ss, backState a d M c)) true).core.solverState)
      c' hc'
    rw [← hst] at this
    exact this

/-- **C98, partial.** With `ConstantStepSize`, where `dt0` divides all the intervals between saved times into steps of the same
size (for example if the saved times are equally spaced, or spaced by multiples of `dt0`): every solve of the backward pass
makes its steps as it would on its own. -/
theorem C98_steps_partial (hdt : 0 < dt0) (hu : u.Constant dt0) (h0 : ∀ s t, (u.cfg s t).t0 = -s)
    (h1 : ∀ s t, (u.cfg s t).t1 = -t) (hok : ∀ s t a b y st j, ((u.cfg s t).solver.step a b y st j).result = .successful)
    (t0 : ℝ) (saveatT0 : Bool) (pts : List (ℝ × (S → ℝ) × (S → ℝ)))
    (he : (t0 :: (swept saveatT0 pts).map (·.1)).IsChain (Even u dt0 d)) :
    AllSolves (u.solve init) (u.Like init dt0) saveatT0 t0 pts := by
  unfold AllSolves
  generalize swept saveatT0 pts = ps at he
  rcases List.eq_nil_or_concat ps with rfl | ⟨ps, p, rfl⟩
  · trivial
  rw [List.concat_eq_append] at he ⊢
  obtain ⟨he1, he2⟩ := even_concat t0 ps p he
  rw [chain_concat, List.reverse_append]
  obtain ⟨N, hN0, hN, hlen, -⟩ := even_steps hdt he2
  have hst0 : u.start p.1 (endTime t0 ps) (p.2.1, 0 + p.2.2, 0) none = (-p.1 + dt0, backState (-p.1) d N 0) := by
    have := hu.fresh p.1 (endTime t0 ps) (p.2.1, 0 + p.2.2, 0)
    unfold constInit at this
    have e := Option.some.inj this
    rw [← e]
    have e1 : -endTime t0 ps - -p.1 = p.1 - endTime t0 ps := by ring
    simp only [id, e1, hN, backState]
    refine Prod.ext rfl ?_
    simp only [ConstState.mk.injEq, true_and, Nat.cast_zero, zero_add]
    linarith
  obtain ⟨hl, c', hc', hst⟩ := like_of_state u init dt0 d hdt hu p.1 (endTime t0 ps) (h0 _ _) (h1 _ _) he2 (hok _ _)
    (p.2.1, 0 + p.2.2, 0) none false (-p.1) N 0 hN0 (by simp) hst0
  refine ⟨hl, ?_⟩
  have := like_rest (init := init) hdt hu h0 h1 hok t0 (-p.1) N hN0 ps he1
    (((u.output init p.1 (endTime t0 ps) (p.2.1, 0 + p.2.2, 0) none false).yfinal).2)
    ((u.output init p.1 (endTime t0 ps) (p.2.1, 0 + p.2.2, 0) none false).core.solverState) c' hc'
  rw [← hst] at this
  exact this

end

/-- **C98, partial.** For such saved times the gradients converge with the order of the solver (C97). -/
theorem C98_converges_partial {tab : Fin 1 → Tableau ℚ} {N : ℕ} (hconv : BacksolveConverges tab N)
    (hex : ∀ p, (tab p).implicit = false) {S Q J : Type} [Fintype S] [Fintype Q] (F : ℝ × (S → ℝ) × (Q → ℝ) → S → ℝ)
    (θ : Q → ℝ) (y : ℝ → S → ℝ) (t0 last : ℝ) (hs : SolvesOn F θ y t0 last)
    (vjp : ℝ → (S → ℝ) → (Unit → ℝ) → (S → ℝ) → (S → ℝ) × (Q → ℝ)) (hvjp : IsVjp (derivOf F) θ vjp)
    (cj : CalcJac) (rF rK : RootFinder (Aug S Q) J) (nj : J) (n : ℕ) (hn : 0 < n) (saveatT0 : Bool) (ts : Fin n → ℝ)
    (hmono : Monotone ts) (hmem : ∀ i, ts i ∈ Icc t0 last) (hsave : saveatT0 = true → ts ⟨0, hn⟩ = t0)
    (gs : Fin n → S → ℝ) :
    ∃ a q, IsGradient F θ y t0 last ts gs a q ∧
      ∃ δ B : ℝ, 0 < δ ∧ 0 ≤ B ∧ ∀ (O Fl : Type) [LinearOrder Fl] [Zero Fl] (u : Settings (Aug S Q) (ConstState ℝ) O Fl)
        (rk : RK 1 ℝ ℚ (Aug S Q) (Aug S Q) ℝ J)
        (_ : rk = odeRK tab (mirrored (adjRhs (fun t z => F (t, z)) θ vjp)) cj rF rK nj)
        (_ : u.Uses rk (Icc t0 last)) (e dt0 d : ℝ) (_ : e ≤ δ) (_ : 0 < dt0) (_ : dt0 ≤ δ) (_ : u.Constant dt0)
        (_ : (t0 :: swept saveatT0 (List.ofFn ts)).IsChain (Even u dt0 d)) (ys' gs' : Fin n → S → ℝ)
        (_ : ∀ i, ‖ys' i - y (ts i)‖ ≤ e) (_ : ∀ i, ‖gs' i - gs i‖ ≤ e),
        ∃ a' q', backward (u.solve rk.init) saveatT0 t0 (List.ofFn ts) (List.ofFn ys') (List.ofFn gs') = some (a', q') ∧
          ‖a' - a‖ ≤ B * (e + dt0 ^ N) ∧ ‖q' - q‖ ≤ B * (e + dt0 ^ N) := by
  obtain ⟨a, q, hg, δ, B, hδ, hB, hall⟩ := hconv S Q J F θ y t0 last hs vjp hvjp cj rF rK nj n hn saveatT0 ts hmono hmem
    hsave gs
  refine ⟨a, q, hg, δ, B, hδ, hB, ?_⟩
  intro O Fl _ _ u rk hrk hu e dt0 d he hdt hdtδ hc hev ys' gs' hy hg'
  refine hall _ O Fl u rk hrk hu e dt0 he hdt.le hdtδ ys' gs' hy hg' ?_
  have hmap : (swept saveatT0 (List.ofFn fun i => (ts i, ys' i, gs' i))).map (·.1) = swept saveatT0 (List.ofFn ts) := by
    unfold swept
    split
    · rw [List.map_tail, List.map_ofFn]; rfl
    · rw [List.map_ofFn]; rfl
  have := C98_steps_partial (init := rk.init) hdt hc hu.t0 hu.t1
    (fun s t a b y st j => by rw [hu.solver, hrk, C41_explicit_succeeds _ hex]) t0 saveatT0
    (List.ofFn fun i => (ts i, ys' i, gs' i)) (d := d) (by rw [hmap]; exact hev)
  unfold AllSolves at this ⊢
  revert this
  generalize (chain t0 (swept saveatT0 (List.ofFn fun i => (ts i, ys' i, gs' i)))).reverse = vs
  generalize (((0, 0), none) : ((S → ℝ) × (Q → ℝ)) × Option (RK.State 1 (Aug S Q) × ConstState ℝ)) = st
  generalize true = b
  induction vs generalizing st b with
  | nil => exact fun h => h
  | cons v vs ih => exact fun h => ⟨h.1.fine, ih _ _ h.2⟩

/-! ## Witnesses -/

/-- A solve of the backward pass for `y' = y`, seen as `y' = θ y` with `θ = 1`, with Euler's method, `ConstantStepSize` and
`max_steps=10`: the adjoint equations are `(y, a, p)' = (y, -a, -y a)`. -/
def backP (dt0 s t : ℚ) (z : ℚ × ℚ × ℚ) (ctrl : Option (ConstState ℚ)) (mj : Bool) :
    Problem 1 ℚ (ℚ × ℚ × ℚ) (ℚ × ℚ × ℚ) ℚ Unit ((ℚ × ℚ × ℚ) × (ℚ × ℚ × ℚ)) Unit (ConstState ℚ) ℚ ℚ :=
  { terms := fun _ => odeK (fun _ z => (z.1, -z.2.1, -(z.1 * z.2.1)))
    solver := statelessClass (fun t => euler t (fun _ _ d _ => d.1)) (fun _ _ d _ => d.1) (0, 0)
    controller := constClass id, t0 := s, t1 := t, dt0 := some (-dt0), y0 := z
    subs := [], dense := false, events := [], rootFinder := none, dist := fun a b => a - b, maxSteps := 10, cleanErr := id
    floorOf := fun t => t - 1 / 1000000, mid := fun a b => (a + b) / 2, ctrlState := ctrl, madeJump := some mj }

/-- The call of `diffeqsolve` in `_scan_fun`. Together with the state it hands on what the solves gave and their steps, in the
mirrored time. -/
def backSolve (dt0 : ℚ) : Solve ℚ ℚ ℚ (ConstState ℚ × List (Result × List (ℚ × ℚ))) := fun s t z st mj =>
  let p := backP dt0 s t z (st.map (·.1)) mj
  match outOf p with
  | none => (z, ⟨0, 0, 0, 0⟩, [])
  | some o => (o.yfinal, o.core.ctrlState, (st.map (·.2)).getD [] ++ [(o.result, stepsOf p)])

/-- **C98 is false.** `y' = y` on `[0, 3]` with `dt0=1` and values saved at `29/10` and `3`. The first solve of the backward
pass has the one step from `3` to `29/10`. The second one, from `29/10` to `0`, should have three steps, and does if it is made
on its own. But its second step is in the wrong direction, from `19/10` to `27/10`, and after that its steps have the size
`1/10`: `max_steps` is reached at the time `19/10`. -/
theorem C98_violated :
    (sweep (backSolve 1) (chain 0 [(29 / 10, 18, 1), (3, 20, 1)])).2.map (·.2) =
      some [(.successful, [(-3, -29 / 10)]),
        (.maxStepsReached, [(-29 / 10, -19 / 10), (-19 / 10, -27 / 10), (-27 / 10, -26 / 10), (-26 / 10, -25 / 10),
          (-25 / 10, -24 / 10), (-24 / 10, -23 / 10), (-23 / 10, -22 / 10), (-22 / 10, -21 / 10), (-21 / 10, -2),
          (-2, -19 / 10)])] ∧
    (sweep (backSolve 1) (chain 0 [(29 / 10, 18, 1)])).2.map (·.2) =
      some [(.successful, [(-29 / 10, -19 / 10), (-19 / 10, -29 / 30), (-29 / 30, 0)])] := by
  decide +kernel

/-- **C98 is false, with an empty interval at the end.** If the final time is saved twice, as with `SaveAt(ts=[..., t1], t1=True)`,
the first solve of the backward pass is over an interval of length zero. The state that it hands on has zero steps over an
interval of length zero: from its second step on, the next solve computes the times of its steps as `0 * (k / 0)` (which is
NaN for floating point numbers). -/
theorem C98_violated_empty :
    (sweep (backSolve 1) (chain 3 [(3, 20, 1)])).2 = some (⟨1, 0, -3, -3⟩, [(.successful, [])]) ∧
      ∀ (t : ℚ) (k : ℤ), (constAdapt t ⟨k, 0, -3, -3⟩).tnext = if k + 1 = 0 then -3 else -3 + (-3 - -3) * (((k + 1 : ℤ) : ℚ) / (0 : ℤ)) := by
  refine ⟨by decide +kernel, fun t k => ?_⟩
  simp [constAdapt]

/-- The hypothesis of `C98_steps_partial` on the saved times, for the times `1/2`, `1`, `2` and the steps `1/4`, and for the
times `1` and `2` and `dt0 = 2/5`, where there are three steps of size `1/3` in each interval. -/
example (u : Settings (Aug Unit Unit) (ConstState ℝ) ℝ ℝ) (hm : ∀ s t, (u.cfg s t).maxSteps = 16)
    (hf : ∀ s t, (u.cfg s t).floor = -t) :
    ([0, 1 / 2, 1, 2] : List ℝ).IsChain (Even u (1 / 4) (1 / 4)) ∧ ([0, 1, 2] : List ℝ).IsChain (Even u (2 / 5) (1 / 3)) := by
  have c1 : ⌈(1 / 2 - 0 : ℝ) / (1 / 4)⌉ = 2 := by rw [Int.ceil_eq_iff]; norm_num
  have c2 : ⌈(1 - 1 / 2 : ℝ) / (1 / 4)⌉ = 2 := by rw [Int.ceil_eq_iff]; norm_num
  have c3 : ⌈(2 - 1 : ℝ) / (1 / 4)⌉ = 4 := by rw [Int.ceil_eq_iff]; norm_num
  have c4 : ⌈(1 - 0 : ℝ) / (2 / 5)⌉ = 3 := by rw [Int.ceil_eq_iff]; norm_num
  have c5 : ⌈(2 - 1 : ℝ) / (2 / 5)⌉ = 3 := by rw [Int.ceil_eq_iff]; norm_num
  have h : ∀ dt0 d a b : ℝ, a < b → 0 ≤ d → ∀ n : ℤ, ⌈(b - a) / dt0⌉ = n → n ≤ 16 → b - a = n * d → Even u dt0 d a b := by
    intro dt0 d a b h1 hd n h2 h3 h4
    refine ⟨h1, by rw [h2, h4], by rw [h2, hm]; exact_mod_cast h3, by rw [hf]; linarith⟩
  refine ⟨?_, ?_⟩
  · refine .cons_cons ?_ (.cons_cons ?_ (.cons_cons ?_ (.singleton _)))
    · exact h _ _ _ _ (by norm_num) (by norm_num) _ c1 (by norm_num) (by norm_num)
    · exact h _ _ _ _ (by norm_num) (by norm_num) _ c2 (by norm_num) (by norm_num)
    · exact h _ _ _ _ (by norm_num) (by norm_num) _ c3 (by norm_num) (by norm_num)
  · refine .cons_cons ?_ (.cons_cons ?_ (.singleton _))
    · exact h _ _ _ _ (by norm_num) (by norm_num) _ c4 (by norm_num) (by norm_num)
    · exact h _ _ _ _ (by norm_num) (by norm_num) _ c5 (by norm_num) (by norm_num)

/-- The solves of `dy/dt = θ y` with `Dopri5` and `dt0 = 1 / (2 n)`. -/
noncomputable def halfSettings (n : ℕ) : Settings (Aug Unit Unit) (ConstState ℝ) ℝ ℝ where
  cfg := (linSettings n).cfg
  start := fun s t _ st => match st with
    | none => (-s + 1 / (2 * n), { completed := 1, numSteps := ⌈(-t - -s) / (1 / (2 * n) : ℝ)⌉, t0 := -s, t1OrDt0 := -t })
    | some c => (-s + 1 / (2 * n), c)

/-- `C98_steps_partial` for values saved at `1/2` and at `1`, with `n` steps for each of the two intervals. -/
example (n : ℕ) (hn : 0 < n) (y1 g1 y2 g2 : Unit → ℝ) :
    AllSolves ((halfSettings n).solve linRK.init) ((halfSettings n).Like linRK.init (1 / (2 * n))) false 0
      [(1 / 2, y1, g1), (1, y2, g2)] := by
  have hnr : (0 : ℝ) < n := by exact_mod_cast hn
  have he : ∀ a b : ℝ, b - a = 1 / 2 → Even (halfSettings n) (1 / (2 * n)) (1 / (2 * n)) a b := by
    intro a b h
    have hc : ⌈(b - a) / (1 / (2 * n) : ℝ)⌉ = (n : ℤ) := by
      have : (b - a) / (1 / (2 * n) : ℝ) = n := by rw [h]; field_simp
      rw [this]; exact Int.ceil_natCast n
    refine ⟨by linarith, ?_, ?_, ?_⟩
    · rw [hc, h, Int.cast_natCast]; field_simp
    · rw [hc]; exact le_refl _
    · show -a - _ ≤ -a
      have : (0 : ℝ) ≤ 1 / (2 * n) := by positivity
      linarith
  refine C98_steps_partial (d := 1 / (2 * n)) (by positivity) ⟨fun _ _ => rfl, fun _ _ => rfl, fun _ _ _ => rfl, fun _ _ _ _ => rfl⟩
    (fun _ _ => rfl) (fun _ _ => rfl) (fun s t a b y st j => ?_) 0 false _ ?_
  · show (linRK.step a b y st j).result = _
    rw [linRK, C41_explicit_succeeds _ (by decide +kernel)]
  · exact .cons_cons (he _ _ (by norm_num)) (.cons_cons (he _ _ (by norm_num)) (.singleton _))

end Backsolve
end Verif
