import Verif.Lemmas.Clip
import Verif.Props.Loop
import Mathlib.Data.Int.SuccPred

/-!
# C28-C32: ClipStepSizeController

`Order.succ` and `Order.pred` stand for the next and previous floating point number.
-/

set_option linter.unusedSectionVars false

namespace Verif

/-! ## The constructor sorts -/

theorem Clip.mk?_sorted {T : Type} [LinearOrder T] (st jt : Option (List T)) (n : Option Nat)
    (c : Clip T) (h : Clip.mk? st jt n = some c) :
    c.Sorted ∧ (∀ x, x ∈ c.steps ↔ x ∈ st.getD []) ∧ (∀ x, x ∈ c.jumps ↔ x ∈ jt.getD []) ∧
    c.storeRejected = n ∧ n ≠ some 0 := by
  unfold Clip.mk? at h
  split at h
  · simp at h
  · rename_i hn
    simp only [Option.some.injEq] at h
    subst h
    have key : ∀ l : List T, (l.mergeSort (fun a b => decide (a ≤ b))).Pairwise (· ≤ ·) := by
      intro l
      have := List.pairwise_mergeSort (le := fun a b : T => decide (a ≤ b))
        (by intro a b c h1 h2; simp only [decide_eq_true_eq] at *; exact le_trans h1 h2)
        (by intro a b; simp only [Bool.or_eq_true, decide_eq_true_eq]; exact le_total a b) l
      exact this.imp (by intro a b h; simpa using h)
    refine ⟨⟨?_, ?_⟩, ?_, ?_, rfl, hn⟩
    · intro ts hts
      simp only [Option.mem_def, Option.map_eq_some_iff] at hts
      obtain ⟨l, _, rfl⟩ := hts
      exact key l
    · intro ts hts
      simp only [Option.mem_def, Option.map_eq_some_iff] at hts
      obtain ⟨l, _, rfl⟩ := hts
      exact key l
    · intro x; cases st <;> simp [Clip.steps, List.mem_mergeSort]
    · intro x; cases jt <;> simp [Clip.jumps, List.mem_mergeSort]

/-- The same after the change of direction (`wrap`): still sorted, the listed times are the images of those
listed before. -/
theorem Clip.wrap_sorted {T : Type} [LinearOrder T] (dir : T → T) (c : Clip T) :
    (c.wrap dir).Sorted ∧ (∀ x, x ∈ (c.wrap dir).steps ↔ ∃ y ∈ c.steps, dir y = x) ∧
    (∀ x, x ∈ (c.wrap dir).jumps ↔ ∃ y ∈ c.jumps, dir y = x) ∧
    (c.wrap dir).storeRejected = c.storeRejected := by
  have key : ∀ l : List T, (l.mergeSort (fun a b => decide (a ≤ b))).Pairwise (· ≤ ·) := by
    intro l
    have := List.pairwise_mergeSort (le := fun a b : T => decide (a ≤ b))
      (by intro a b c h1 h2; simp only [decide_eq_true_eq] at *; exact le_trans h1 h2)
      (by intro a b; simp only [Bool.or_eq_true, decide_eq_true_eq]; exact le_total a b) l
    exact this.imp (by intro a b h; simpa using h)
  refine ⟨⟨?_, ?_⟩, ?_, ?_, rfl⟩
  · intro ts hts
    simp only [Clip.wrap, Option.mem_def, Option.map_eq_some_iff] at hts
    obtain ⟨l, _, rfl⟩ := hts
    exact key _
  · intro ts hts
    simp only [Clip.wrap, Option.mem_def, Option.map_eq_some_iff] at hts
    obtain ⟨l, _, rfl⟩ := hts
    exact key _
  · intro x; cases h : c.stepTs <;> simp [Clip.wrap, Clip.steps, h, List.mem_mergeSort]
  · intro x; cases h : c.jumpTs <;> simp [Clip.wrap, Clip.jumps, h, List.mem_mergeSort]

example : -5 ∈ ((Clip.mk (some [1, 2, 5]) none none : Clip Int).wrap (-1 * ·)).steps ∧
    5 ∉ ((Clip.mk (some [1, 2, 5]) none none : Clip Int).wrap (-1 * ·)).steps := by
  rw [(Clip.wrap_sorted (-1 * ·) _).2.1, (Clip.wrap_sorted (-1 * ·) _).2.1]
  simp [Clip.steps]

/-! ## C31: cached indices are only a hint -/

/-- From every valid hint the search returns the position that separates the listed times up to `t`
from those after `t`; what is found there is the first listed time after `t`. -/
theorem C31_hint {T : Type} [LinearOrder T] (ts : List T) (hs : ts.Pairwise (· ≤ ·)) (t : T)
    (hint : Nat) (hh : hint ≤ ts.length) :
    findIdx t ts hint ≤ ts.length ∧
    (∀ k x, ts[k]? = some x → (k < findIdx t ts hint ↔ x ≤ t)) ∧
    IsFirstAfter ts t (getT (findIdx t ts hint) ts) := by
  obtain ⟨h1, h2⟩ := findIdx_spec t ts hint hs hh
  exact ⟨h1, h2, split_first hs t _ h1 h2⟩

example : findIdx (5 : Int) [1, 3, 5, 5, 8] 0 = 4 ∧ findIdx (5 : Int) [1, 3, 5, 5, 8] 5 = 4 := by
  decide

section
variable {T Y E D S C O F : Type} [LinearOrder T] [SuccOrder T] [PredOrder T] [NoMaxOrder T]
  [NoMinOrder T] [LinearOrder F] [Zero F]

/-- Whatever is cached, as long as it is a valid position, the controller's whole answer (decision,
next interval, jump flag, new state, result) is the same. -/
theorem C31_hint_irrelevant (c : Clip T) (hs : c.Sorted) (inner : Controller T Y E C) (a b : T)
    (y0 y1 : Y) (e : E) (st st' : ClipState T C) (h : st.InRange c) (h' : st'.InRange c)
    (hc : c.stepTs.isSome = true) (hc' : c.jumpTs.isSome = true)
    (hrej : st.rejIdx = st'.rejIdx ∧ st.rejTs = st'.rejTs ∧ st.inner = st'.inner) :
    c.adapt inner a b y0 y1 e st = c.adapt inner a b y0 y1 e st' := by
  obtain ⟨e1, e2, e3⟩ := hrej
  obtain ⟨ts, hts⟩ := Option.isSome_iff_exists.1 hc
  obtain ⟨js, hjs⟩ := Option.isSome_iff_exists.1 hc'
  have hx : ∀ u, findIdx u ts st.stepIdx = findIdx u ts st'.stepIdx := by
    intro u
    have hss := hs.step ts (by simp [hts])
    have h1 := h.step
    have h2 := h'.step
    simp only [Clip.steps, hts, Option.getD_some] at h1 h2
    obtain ⟨a1, a2⟩ := findIdx_spec u ts st.stepIdx hss h1
    obtain ⟨b1, b2⟩ := findIdx_spec u ts st'.stepIdx hss h2
    exact split_unique u _ _ a1 b1 a2 b2
  have hy : ∀ u, findIdx u js st.jumpIdx = findIdx u js st'.jumpIdx := by
    intro u
    have hss := hs.jump js (by simp [hjs])
    have h1 := h.jump
    have h2 := h'.jump
    simp only [Clip.jumps, hjs, Option.getD_some] at h1 h2
    obtain ⟨a1, a2⟩ := findIdx_spec u js st.jumpIdx hss h1
    obtain ⟨b1, b2⟩ := findIdx_spec u js st'.jumpIdx hss h2
    exact split_unique u _ _ a1 b1 a2 b2
  have s1 : ∀ u v, c.adaptStep st.stepIdx u v = c.adaptStep st'.stepIdx u v := by
    intro u v
    unfold Clip.adaptStep; rw [hts]; dsimp only; rw [hx]
  have s2 : ∀ u v w, c.adaptJump st.jumpIdx u v w = c.adaptJump st'.jumpIdx u v w := by
    intro u v w
    unfold Clip.adaptJump; rw [hjs]; dsimp only; rw [hy]
  unfold Clip.adapt
  simp only [e1, e2, e3, s1, s2]

/-- Cached indices are always valid, in every state a solve goes through. -/
theorem C31_hint_valid (cfg : Cfg T Y E D S (ClipState T C) O F) (c : Clip T) (hs : c.Sorted)
    (inner : Controller T Y E C) (hctl : cfg.controller = clipController c inner) (y0 : Y)
    (i0 : T × C) (ss : S) (mj : Bool) :
    ∀ s ∈ history cfg y0 (c.init cfg.t0 i0).1 (c.init cfg.t0 i0).2 ss mj, s.ctrlState.InRange c := by
  refine (run_inv cfg (fun s => s.ctrlState.InRange c) cfg.maxSteps _
    (init_inRange c hs cfg.t0 i0) ?_).1
  intro s _ _ h
  have : (coreBody cfg s).1.ctrlState = (cfg.controller.adapt s.tprev s.tnext s.y (solverOut cfg s).y
    (cfg.cleanErr (solverOut cfg s).err) s.ctrlState).state := rfl
  rw [this, hctl]
  exact adapt_inRange c hs inner _ _ _ _ _ _ h

theorem adaptOut_clip (cfg : Cfg T Y E D S (ClipState T C) O F) (c : Clip T)
    (inner : Controller T Y E C) (hctl : cfg.controller = clipController c inner)
    (s : Core T Y D S (ClipState T C) F) :
    adaptOut cfg s = c.adapt inner s.tprev s.tnext s.y (solverOut cfg s).y
      (cfg.cleanErr (solverOut cfg s).err) s.ctrlState := by
  unfold adaptOut; rw [hctl]; rfl

/-- The inner controller's answer to the call made in state `s`. -/
def innerOut (cfg : Cfg T Y E D S (ClipState T C) O F) (inner : Controller T Y E C)
    (s : Core T Y D S (ClipState T C) F) : AdaptOut T C :=
  inner.adapt s.tprev s.tnext s.y (solverOut cfg s).y (cfg.cleanErr (solverOut cfg s).err)
    s.ctrlState.inner

theorem coreBody_inRange (cfg : Cfg T Y E D S (ClipState T C) O F) (c : Clip T) (hs : c.Sorted)
    (inner : Controller T Y E C) (hctl : cfg.controller = clipController c inner)
    (s : Core T Y D S (ClipState T C) F) (h : s.ctrlState.InRange c) :
    (coreBody cfg s).1.ctrlState.InRange c := by
  have : (coreBody cfg s).1.ctrlState = (adaptOut cfg s).state := rfl
  rw [this, adaptOut_clip cfg c inner hctl]
  exact adapt_inRange c hs inner _ _ _ _ _ _ h

/-- A solve reported successful reached `t1` and had no error in the loop. -/
theorem solve_successful (cfg : Cfg T Y E D S C O F) (hwf : cfg.WF) (hown : cfg.OwnCodes)
    (hst : cfg.controller.stepTo = none) (y0 : Y) (tnext : T) (ctrl : C) (ss : S) (mj : Bool)
    (h : (solve cfg y0 tnext ctrl ss mj).result = .successful) :
    (solve cfg y0 tnext ctrl ss mj).core.tprev = cfg.t1 ∧
    (solve cfg y0 tnext ctrl ss mj).core.result = .successful := by
  have h3 := C03_result_classification cfg hwf hown hst y0 tnext ctrl ss mj
  have hcl := core_result_classification cfg hown y0 tnext ctrl ss mj
  dsimp only at h3 hcl
  refine ⟨(h3.1 h).2, ?_⟩
  rw [solve_result] at h
  split at h
  · simp at h
  · rcases Bool.eq_false_or_eq_true
      ((solve cfg y0 tnext ctrl ss mj).core.evMask.any id) with hm | hm
    · cases hf : cfg.rootFinder with
      | none => rw [finalise_no_root cfg _ hf] at h; exact h
      | some f =>
        unfold finalise at h
        rw [hf] at h
        simp only [hm, if_true] at h
        have hroot := hown.root f (by simp [hf])
        split at h
        · rw [(hcl.2).2 hm] at h
          simp at h
        · rename_i e he
          exact absurd h (hroot _ _ _ e he).2.2
    · rw [finalise_no_event cfg _ hm] at h; exact h

/-! ## C28: requested times are stepped to exactly -/

theorem step_hit (cfg : Cfg T Y E D S (ClipState T C) O F) (c : Clip T) (hs : c.Sorted)
    (inner : Controller T Y E C) (hctl : cfg.controller = clipController c inner)
    (hex : inner.Exact) (s : T) (hm : s ∈ c.steps) (hfl : s ≤ cfg.floor) (n : Nat)
    (st : Core T Y D S (ClipState T C) F) (hr : st.ctrlState.InRange c) (h1 : st.tprev < s)
    (h2 : st.tnext ≤ s) (hend : s ≤ (coreRun cfg n st).tprev) :
    ∃ x ∈ attempts cfg n st, (accepted cfg x = true ∧ x.tnext = s) ∨
      Near c x.tprev s ∨ (accepted cfg x = true ∧ Near c x.tnext s) := by
  induction n generalizing st with
  | zero => exact absurd hend (not_le.2 h1)
  | succ n ih =>
    by_cases hc : condFun cfg st = true
    · simp only [attempts, coreRun, hc, if_true] at hend ⊢
      have hex' := hex st.tprev st.tnext st.y (solverOut cfg st).y
        (cfg.cleanErr (solverOut cfg st).err) st.ctrlState.inner
      have hk : accepted cfg st = (innerOut cfg inner st).keep := by
        unfold accepted; rw [adaptOut_clip cfg c inner hctl]; rfl
      -- where the inner controller goes on from
      have ha : (innerOut cfg inner st).tprev < s ∧ (Near c (innerOut cfg inner st).tprev s →
          Near c st.tprev s ∨ (accepted cfg st = true ∧ Near c st.tnext s)) ∨
          (accepted cfg st = true ∧ st.tnext = s) := by
        cases hkk : (innerOut cfg inner st).keep with
        | true =>
          have e : (innerOut cfg inner st).tprev = st.tnext := hex'.1 hkk
          rw [e]
          rcases eq_or_lt_of_le h2 with h | h
          · exact Or.inr ⟨by rw [hk, hkk], h⟩
          · exact Or.inl ⟨h, fun hn => Or.inr ⟨by rw [hk, hkk], hn⟩⟩
        | false =>
          have e : (innerOut cfg inner st).tprev = st.tprev := hex'.2 hkk
          rw [e]
          exact Or.inl ⟨h1, fun hn => Or.inl hn⟩
      rcases ha with ⟨ha, hn⟩ | ha
      · rcases adapt_tnext_step c hs inner st.tprev st.tnext st.y (solverOut cfg st).y
          (cfg.cleanErr (solverOut cfg st).err) st.ctrlState hr s hm ha with h | ⟨h, h'⟩
        · exact ⟨st, List.mem_cons_self, Or.inr (hn h)⟩
        · rw [← adaptOut_clip cfg c inner hctl] at h h'
          obtain ⟨x, hx, hp⟩ := ih (coreBody cfg st).1 (coreBody_inRange cfg c hs inner hctl st hr)
            (lt_of_le_of_lt (min_le_left _ _) h') (by
              have e2 : (coreBody cfg st).1.tnext = clipToEnd cfg.mid
                (min (adaptOut cfg st).tprev cfg.t1) (adaptOut cfg st).tnext cfg.t1 cfg.floor
                (adaptOut cfg st).keep := rfl
              rw [e2]; unfold clipToEnd
              dsimp only
              rw [if_neg (not_lt.2 (le_trans h hfl))]
              exact h) hend
          exact ⟨x, List.mem_cons_of_mem _ hx, hp⟩
      · exact ⟨st, List.mem_cons_self, Or.inl ha⟩
    · simp only [coreRun, hc] at hend
      exact absurd hend (not_le.2 h1)

/-- Part of C28 that holds: in a successful solve every requested time `s` with `t0 < s`, not in the
rounding zone just before `t1`, is the exact end of an accepted step — unless the solve was, at the
start or the accepted end of a step, one float before `s` (or two floats before it, the float between
being listed too). What is missing from the full C28 is refuted by `C28_violated` and
`C28_violated_end`. Wrapped controllers are arbitrary apart from not jumping themselves; rejections
may happen in any pattern; jump times and rejected times may be used at the same time. -/
theorem C28_step_ts_partial (cfg : Cfg T Y E D S (ClipState T C) O F) (hwf : cfg.WF)
    (hown : cfg.OwnCodes) (c : Clip T) (hs : c.Sorted) (inner : Controller T Y E C)
    (hctl : cfg.controller = clipController c inner) (hex : inner.Exact) (y0 : Y) (i0 : T × C)
    (ss : S) (mj : Bool)
    (hok : (solve cfg y0 (c.init cfg.t0 i0).1 (c.init cfg.t0 i0).2 ss mj).result = .successful)
    (s : T) (hm : s ∈ c.steps) (h0 : cfg.t0 < s) (hfl : s ≤ cfg.floor) :
    let hist := history cfg y0 (c.init cfg.t0 i0).1 (c.init cfg.t0 i0).2 ss mj
    (∃ x ∈ hist, accepted cfg x = true ∧ x.tnext = s) ∨
    ∃ x ∈ hist, Near c x.tprev s ∨ (accepted cfg x = true ∧ Near c x.tnext s) := by
  have hsu := solve_successful cfg hwf hown (by rw [hctl]; rfl) y0 _ _ ss mj hok
  have hend : s ≤ (coreRun cfg cfg.maxSteps
      (initState cfg y0 (c.init cfg.t0 i0).1 (c.init cfg.t0 i0).2 ss mj).core).tprev := by
    rw [← solve_core, hsu.1]; exact le_trans hfl hwf.floor_le
  obtain ⟨x, hx, h⟩ := step_hit cfg c hs inner hctl hex s hm hfl cfg.maxSteps
    (initState cfg y0 (c.init cfg.t0 i0).1 (c.init cfg.t0 i0).2 ss mj).core
    (init_inRange c hs cfg.t0 i0) h0
    (le_trans (min_le_left _ _) (init_step c hs cfg.t0 i0 s hm h0)) hend
  rcases h with h | h
  · exact Or.inl ⟨x, hx, h⟩
  · exact Or.inr ⟨x, hx, h⟩

end

/-! ### Concrete problems on integer times -/

/-- The toy problem, with the toy controller wrapped. -/
def clipToy (c : Clip Int) (t1 floor : Int) : Cfg Int Int Int Int Int (ClipState Int Int) Int Int :=
  { solver := toySolver, controller := clipController c toyController, cleanErr := id, events := [],
    rootFinder := none, dist := fun a b => a - b, dummyDense := 0, t0 := 0, t1 := t1, floor := floor,
    mid := fun a b => (a + b) / 2, subs := [toySub], dense := false, maxSteps := 50 }

theorem toyController_exact : toyController.Exact := by
  intro a b y0 y1 e st
  unfold toyController AdaptOut.Exact
  dsimp only
  split <;> simp

def clipToyC : Clip Int :=
  { stepTs := some [7, 13], jumpTs := some [10, 17], storeRejected := some 3 }

theorem clipToyC_sorted : clipToyC.Sorted := by
  constructor <;> intro ts h <;> simp [clipToyC] at h <;> subst h <;> decide

theorem clipToy_WF (c : Clip Int) (t1 floor : Int) (h0 : 0 ≤ t1) (h1 : floor ≤ t1) :
    (clipToy c t1 floor).WF where
  le := h0
  floor_le := h1
  le_mid := by intro a h; simp only [clipToy] at *; omega
  mid_le := by intro a h; simp only [clipToy] at *; omega

theorem clipToy_own (c : Clip Int) (t1 floor : Int) : (clipToy c t1 floor).OwnCodes where
  solver := by intro a b y s j; simp [clipToy, toySolver]
  controller := by
    intro a b y y' e st
    have hin : (toyController.adapt a b y y' e st.inner).result = .successful := by
      unfold toyController; dsimp only; split <;> rfl
    have h2 : ((clipToy c t1 floor).controller.adapt a b y y' e st).result
        = (c.adaptReject st.rejIdx st.rejTs b
          (c.adaptJump st.jumpIdx (toyController.adapt a b y y' e st.inner).tprev
            (c.adaptStep st.stepIdx (toyController.adapt a b y y' e st.inner).tprev
              (toyController.adapt a b y y' e st.inner).tnext).2
            (toyController.adapt a b y y' e st.inner).madeJump).2.2.1
          (toyController.adapt a b y y' e st.inner).keep
          (toyController.adapt a b y y' e st.inner).result).2.2.2 := rfl
    rw [h2, hin]
    rcases adaptReject_result c st.rejIdx st.rejTs b _ _ .successful with h | h | h <;>
      rw [h] <;> simp
  root := by intro f hf; simp [clipToy] at hf

/-- Attempted intervals and decisions of a solve of the toy problem. -/
def clipToyTrace (c : Clip Int) (t1 floor : Int) (first : Int) : List (Int × Int × Bool × Bool) :=
  (history (clipToy c t1 floor) 100 (c.init 0 (first, 0)).1 (c.init 0 (first, 0)).2 0 false).map
    (fun s => (s.tprev, s.tnext, accepted (clipToy c t1 floor) s, s.madeJump))


/-- Non-vacuity: step times 7 and 13, jumps at 10 and 17, rejected times stored. The hypotheses of
`C28_step_ts_partial` hold and the conclusion is that 7 and 13 end accepted steps. -/
example : (clipToy clipToyC 30 28).WF ∧ (clipToy clipToyC 30 28).OwnCodes ∧ clipToyC.Sorted ∧
    toyController.Exact ∧
    (solve (clipToy clipToyC 30 28) 100 (clipToyC.init 0 (3, 0)).1 (clipToyC.init 0 (3, 0)).2 0
      false).result = .successful ∧
    clipToyTrace clipToyC 30 28 3 =
      [(0, 3, false, false), (0, 1, true, false), (1, 3, true, false), (3, 7, false, false),
       (3, 5, true, false), (5, 7, true, false), (7, 9, true, false), (11, 13, true, true),
       (13, 16, false, false), (13, 14, true, false), (14, 16, true, false), (18, 20, true, true),
       (20, 24, false, false), (20, 22, true, false), (22, 24, true, false), (24, 28, false, false),
       (24, 26, true, false), (26, 28, true, false), (28, 30, true, false)] :=
  ⟨clipToy_WF _ _ _ (by decide) (by decide), clipToy_own _ _ _, clipToyC_sorted,
    toyController_exact, by decide +kernel, by decide +kernel⟩

/-- C28 as stated is false: a requested time one float after the end of an accepted step is skipped.
Here 3 is requested, the steps taken are over `[0,2]`, `[2,4]`, ... -/
theorem C28_violated :
    ∃ (c : Clip Int) (first : Int), c.Sorted ∧ 3 ∈ c.steps ∧
      (clipToy c 12 10).WF ∧ (clipToy c 12 10).OwnCodes ∧ toyController.Exact ∧
      (solve (clipToy c 12 10) 100 (c.init 0 (first, 0)).1 (c.init 0 (first, 0)).2 0 false).result
        = .successful ∧
      ∀ x ∈ history (clipToy c 12 10) 100 (c.init 0 (first, 0)).1 (c.init 0 (first, 0)).2 0 false,
        accepted (clipToy c 12 10) x = true → x.tnext ≠ 3 := by
  refine ⟨{ stepTs := some [3], jumpTs := none, storeRejected := none }, 2, ?_, by decide,
    clipToy_WF _ _ _ (by decide) (by decide), clipToy_own _ _ _, toyController_exact,
    by decide +kernel, by decide +kernel⟩
  constructor <;> intro ts h <;> simp at h
  subst h; decide

/-- C28 as stated is also false in the rounding zone before `t1`: the requested time 11 lies between
the clip floor 10 and `t1 = 12`, and is skipped because the step is lengthened to `t1`. -/
theorem C28_violated_end :
    ∃ (c : Clip Int) (first : Int), c.Sorted ∧ 11 ∈ c.steps ∧
      (clipToy c 12 10).WF ∧ (clipToy c 12 10).OwnCodes ∧ toyController.Exact ∧
      (solve (clipToy c 12 10) 100 (c.init 0 (first, 0)).1 (c.init 0 (first, 0)).2 0 false).result
        = .successful ∧
      ∀ x ∈ history (clipToy c 12 10) 100 (c.init 0 (first, 0)).1 (c.init 0 (first, 0)).2 0 false,
        x.tprev ≠ 11 ∧ x.tnext ≠ 11 := by
  refine ⟨{ stepTs := some [9, 11], jumpTs := none, storeRejected := none }, 2, ?_, by decide,
    clipToy_WF _ _ _ (by decide) (by decide), clipToy_own _ _ _, toyController_exact,
    by decide +kernel, by decide +kernel⟩
  constructor <;> intro ts h <;> simp at h
  subst h; decide

end Verif
