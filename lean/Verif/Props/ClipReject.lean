import Verif.Props.ClipJump

/-! # C30, C32: rejected times are revisited; progress -/

set_option linter.unusedSectionVars false

namespace Verif

section
variable {T Y E D S C O F : Type} [LinearOrder T] [SuccOrder T] [PredOrder T] [NoMaxOrder T]
  [NoMinOrder T] [LinearOrder F] [Zero F]

/-- The end times and decisions of a list of attempts. -/
def outcomes (cfg : Cfg T Y E D S C O F) (l : List (Core T Y D S C F)) : List (T × Bool) :=
  l.map (fun s => (s.tnext, accepted cfg s))

/-- The buffer of state `s` holds the stack `st`. -/
def Holds (n : Nat) (st : List T) (s : Core T Y D S (ClipState T C) F) : Prop :=
  RejRep n st s.ctrlState.rejIdx s.ctrlState.rejTs

theorem adapt_reject (c : Clip T) (inner : Controller T Y E C) (a b : T) (y0 y1 : Y) (e : E)
    (st : ClipState T C) : ∃ nt1,
    (c.adapt inner a b y0 y1 e st).state.rejIdx = (c.adaptReject st.rejIdx st.rejTs b nt1
      (inner.adapt a b y0 y1 e st.inner).keep (inner.adapt a b y0 y1 e st.inner).result).1 ∧
    (c.adapt inner a b y0 y1 e st).state.rejTs = (c.adaptReject st.rejIdx st.rejTs b nt1
      (inner.adapt a b y0 y1 e st.inner).keep (inner.adapt a b y0 y1 e st.inner).result).2.1 ∧
    (c.adapt inner a b y0 y1 e st).tnext = (c.adaptReject st.rejIdx st.rejTs b nt1
      (inner.adapt a b y0 y1 e st.inner).keep (inner.adapt a b y0 y1 e st.inner).result).2.2.1 ∧
    (c.adapt inner a b y0 y1 e st).result = (c.adaptReject st.rejIdx st.rejTs b nt1
      (inner.adapt a b y0 y1 e st.inner).keep (inner.adapt a b y0 y1 e st.inner).result).2.2.2 :=
  ⟨_, rfl, rfl, rfl, rfl⟩

/-- The controller's result in a state whose buffer holds `st`. -/
theorem clip_result (cfg : Cfg T Y E D S (ClipState T C) O F) (c : Clip T)
    (inner : Controller T Y E C) (hctl : cfg.controller = clipController c inner) (n : Nat)
    (hn : c.storeRejected = some n) (s : Core T Y D S (ClipState T C) F) (st : List T)
    (h : Holds n st s) (hin : (innerOut cfg inner s).result.isOkay = true) :
    ((∃ x, st.head? = some x ∧ x < s.tnext) → (adaptOut cfg s).result = .internalError) ∧
    ((∀ x, st.head? = some x → s.tnext ≤ x) → n < (pend st s.tnext (accepted cfg s)).length →
      (adaptOut cfg s).result = .maxStepsRejected) ∧
    ((∀ x, st.head? = some x → s.tnext ≤ x) → (pend st s.tnext (accepted cfg s)).length ≤ n →
      (adaptOut cfg s).result = (innerOut cfg inner s).result) ∧
    ((pend st s.tnext (accepted cfg s)).length ≤ n →
      Holds n (pend st s.tnext (accepted cfg s)) (coreBody cfg s).1) := by
  have hk : accepted cfg s = (innerOut cfg inner s).keep := by
    unfold accepted; rw [adaptOut_clip cfg c inner hctl]; rfl
  obtain ⟨nt1, h1, h2, h3, h4⟩ := adapt_reject c inner s.tprev s.tnext s.y (solverOut cfg s).y
    (cfg.cleanErr (solverOut cfg s).err) s.ctrlState
  obtain ⟨g1, g2, g3, g4⟩ := adaptReject_spec hn h s.tnext nt1 (innerOut cfg inner s).keep
    (innerOut cfg inner s).result hin
  rw [hk]
  rw [← adaptOut_clip cfg c inner hctl] at h4
  refine ⟨fun x => h4.trans (g1 x), fun x y => h4.trans (g2 x y), fun x y => h4.trans (g3 x y), ?_⟩
  intro hl
  have e : (coreBody cfg s).1.ctrlState = (adaptOut cfg s).state := rfl
  unfold Holds
  rw [e, adaptOut_clip cfg c inner hctl, h1, h2]
  exact (g4 hl).1

/-- If the controller reports success, the attempt did not pass the top of the stack, and the buffer
afterwards holds the new stack. -/
theorem clip_step_ok (cfg : Cfg T Y E D S (ClipState T C) O F) (c : Clip T)
    (inner : Controller T Y E C) (hctl : cfg.controller = clipController c inner) (n : Nat)
    (hn : c.storeRejected = some n) (s : Core T Y D S (ClipState T C) F) (st : List T)
    (h : Holds n st s) (hres : (adaptOut cfg s).result = .successful) :
    (∀ x, st.head? = some x → s.tnext ≤ x) ∧
    Holds n (pend st s.tnext (accepted cfg s)) (coreBody cfg s).1 ∧
    (pend st s.tnext (accepted cfg s)).length ≤ n := by
  have hin : (innerOut cfg inner s).result.isOkay = true := by
    obtain ⟨nt1, _, _, _, h4⟩ := adapt_reject c inner s.tprev s.tnext s.y (solverOut cfg s).y
      (cfg.cleanErr (solverOut cfg s).err) s.ctrlState
    rw [← adaptOut_clip cfg c inner hctl, hres] at h4
    rcases adaptReject_result c s.ctrlState.rejIdx s.ctrlState.rejTs s.tnext nt1
      (innerOut cfg inner s).keep (innerOut cfg inner s).result with h | h | h
    · have : (innerOut cfg inner s).result = .successful := h.symm.trans h4.symm
      rw [this]; rfl
    · exact absurd (h4.trans h) (by simp)
    · exact absurd (h4.trans h) (by simp)
  obtain ⟨g1, g2, _, g4⟩ := clip_result cfg c inner hctl n hn s st h hin
  have hle : ∀ x, st.head? = some x → s.tnext ≤ x := by
    intro x hx
    by_contra hlt
    have := g1 ⟨x, hx, not_le.1 hlt⟩
    rw [hres] at this; simp at this
  have hlen : (pend st s.tnext (accepted cfg s)).length ≤ n := by
    by_contra hgt
    have := g2 hle (not_le.1 hgt)
    rw [hres] at this; simp at this
  exact ⟨hle, g4 hlen, hlen⟩

theorem init_holds (c : Clip T) (n : Nat) (hn : c.storeRejected = some n)
    (cfg : Cfg T Y E D S (ClipState T C) O F) (y0 : Y) (tn : T) (i0 : T × C) (ss : S) (mj : Bool) :
    Holds n [] (initState cfg y0 tn (c.init cfg.t0 i0).2 ss mj).core := by
  have e : (initState cfg y0 tn (c.init cfg.t0 i0).2 ss mj).core.ctrlState
    = (c.init cfg.t0 i0).2 := rfl
  unfold Holds
  rw [e]
  unfold Clip.init
  rw [hn]
  refine ⟨?_, le_refl _, by simp, ?_⟩
  · simp
  · simp

/-- An attempt that is followed by another one was fine. -/
theorem mid_ok (cfg : Cfg T Y E D S C O F) (n : Nat) (st : Core T Y D S C F)
    (l : List (Core T Y D S C F)) (s : Core T Y D S C F) (l' : List (Core T Y D S C F))
    (h : attempts cfg n st = l ++ s :: l') (hl : l' ≠ []) : (adaptOut cfg s).result = .successful := by
  have hs : s ∈ attempts cfg n st := by rw [h]; simp
  have h1 : (coreBody cfg s).1.result.isSuccessful = true := by
    by_contra hne
    obtain ⟨m, hm, _⟩ := attempts_split cfg n st l s l' h
    rw [hm, (attempts_not_succ cfg m _ (by simpa using hne)).1] at hl
    exact hl rfl
  have h1' : (coreBody cfg s).1.result = .successful := by
    simpa [Result.isSuccessful] using h1
  have h2 := coreBody_result cfg s (condFun_succ cfg s (attempts_cond cfg n st s hs))
  rw [h1'] at h2
  split at h2
  · simp at h2
  · split at h2
    · rename_i h3; rw [← h2] at h3; simp [Result.isOkay, Result.isSuccessful] at h3
    · exact h2.symm

/-- The buffer holds the stack of pending times at every attempt; the stack is strictly increasing
from its top. -/
theorem holds_run (cfg : Cfg T Y E D S (ClipState T C) O F) (c : Clip T)
    (inner : Controller T Y E C) (hctl : cfg.controller = clipController c inner) (n : Nat)
    (hn : c.storeRejected = some n) (m : Nat) (s0 : Core T Y D S (ClipState T C) F) (st0 : List T)
    (h0 : Holds n st0 s0) (hs0 : st0.Pairwise (· < ·))
    (l : List (Core T Y D S (ClipState T C) F)) (s : Core T Y D S (ClipState T C) F)
    (l' : List (Core T Y D S (ClipState T C) F)) (h : attempts cfg m s0 = l ++ s :: l') :
    Holds n ((outcomes cfg l).foldl (fun st x => pend st x.1 x.2) st0) s ∧
    ((outcomes cfg l).foldl (fun st x => pend st x.1 x.2) st0).Pairwise (· < ·) := by
  induction m generalizing s0 st0 l with
  | zero => simp [attempts] at h
  | succ m ih =>
    by_cases hc : condFun cfg s0 = true
    · have h' := h
      simp only [attempts, hc, if_true] at h
      cases l with
      | nil =>
        simp only [List.nil_append, List.cons.injEq] at h
        rw [← h.1]
        exact ⟨h0, hs0⟩
      | cons x l =>
        simp only [List.cons_append, List.cons.injEq] at h
        have hx := h.1
        subst hx
        have hok := mid_ok cfg (m + 1) s0 [] s0 (l ++ s :: l') (by simpa using h') (by simp)
        obtain ⟨g1, g2, _⟩ := clip_step_ok cfg c inner hctl n hn s0 st0 h0 hok
        exact ih (coreBody cfg s0).1 _ g2 (pend_sorted hs0 _ _ g1) l h.2
    · simp [attempts, hc] at h

/-- The result the controller reports at every attempt of a solve, in terms of the stack of pending
times: an attempt ending after the most recent pending time is an internal error; a rejection that
would make more than `store_rejected_steps` times pending is reported as `max_steps_rejected`;
otherwise the wrapped controller's result is passed on. (If the wrapped controller reports an error,
that is passed on in any case.) -/
theorem C30_result (cfg : Cfg T Y E D S (ClipState T C) O F) (c : Clip T)
    (inner : Controller T Y E C) (hctl : cfg.controller = clipController c inner) (n : Nat)
    (hn : c.storeRejected = some n) (y0 : Y) (tn : T) (i0 : T × C) (ss : S) (mj : Bool)
    (l : List (Core T Y D S (ClipState T C) F)) (s : Core T Y D S (ClipState T C) F)
    (l' : List (Core T Y D S (ClipState T C) F))
    (h : history cfg y0 tn (c.init cfg.t0 i0).2 ss mj = l ++ s :: l')
    (hin : (innerOut cfg inner s).result.isOkay = true) :
    (adaptOut cfg s).result =
      if ∃ x, (pending (outcomes cfg l)).head? = some x ∧ x < s.tnext then .internalError
      else if n < (pend (pending (outcomes cfg l)) s.tnext (accepted cfg s)).length then
        .maxStepsRejected
      else (innerOut cfg inner s).result := by
  have hh := (holds_run cfg c inner hctl n hn cfg.maxSteps _ []
    (init_holds c n hn cfg y0 tn i0 ss mj) List.Pairwise.nil l s l' h).1
  obtain ⟨g1, g2, g3, _⟩ := clip_result cfg c inner hctl n hn s _ hh hin
  by_cases h1 : ∃ x, (pending (outcomes cfg l)).head? = some x ∧ x < s.tnext
  · rw [if_pos h1]; exact g1 h1
  · have h1' : ∀ x, (pending (outcomes cfg l)).head? = some x → s.tnext ≤ x := by
      intro x hx; by_contra hlt; exact h1 ⟨x, hx, not_le.1 hlt⟩
    rw [if_neg h1]
    by_cases h2 : n < (pend (pending (outcomes cfg l)) s.tnext (accepted cfg s)).length
    · rw [if_pos h2]; exact g2 h1' h2
    · rw [if_neg h2]; exact g3 h1' (not_lt.1 h2)

theorem pending_persist (cfg : Cfg T Y E D S C O F) (l : List (Core T Y D S C F)) (st : List T)
    (r : T) (hr : r ∈ st) (h : ∀ y ∈ l, y.tnext ≠ r) :
    r ∈ (outcomes cfg l).foldl (fun st x => pend st x.1 x.2) st := by
  induction l generalizing st with
  | nil => exact hr
  | cons a l ih =>
    simp only [outcomes, List.map_cons, List.foldl_cons]
    apply ih
    · exact pend_mem hr (Or.inl (fun h' => h a (by simp) h'.symm))
    · intro y hy; exact h y (by simp [hy])

/-- Whatever the wrapped controller does, with rejections nested to any depth: between a rejected attempt `s` and any
later attempt `x` that ends after the rejected time there is an attempt ending exactly at the rejected
time — or `x` is the last attempt and the solve fails with an internal error. -/
theorem C30_revisited (cfg : Cfg T Y E D S (ClipState T C) O F) (c : Clip T)
    (inner : Controller T Y E C) (hctl : cfg.controller = clipController c inner) (n : Nat)
    (hn : c.storeRejected = some n) (y0 : Y) (tn : T) (i0 : T × C) (ss : S) (mj : Bool)
    (l : List (Core T Y D S (ClipState T C) F)) (s : Core T Y D S (ClipState T C) F)
    (l1 : List (Core T Y D S (ClipState T C) F)) (x : Core T Y D S (ClipState T C) F)
    (l2 : List (Core T Y D S (ClipState T C) F))
    (h : history cfg y0 tn (c.init cfg.t0 i0).2 ss mj = l ++ s :: (l1 ++ x :: l2))
    (hrej : accepted cfg s = false) (hx : s.tnext < x.tnext) :
    (∃ y ∈ l1, y.tnext = s.tnext) ∨
    (l2 = [] ∧ ((innerOut cfg inner x).result.isOkay = true →
      (adaptOut cfg x).result = .internalError)) := by
  by_cases hy : ∃ y ∈ l1, y.tnext = s.tnext
  · exact Or.inl hy
  right
  have hh := holds_run cfg c inner hctl n hn cfg.maxSteps _ []
    (init_holds c n hn cfg y0 tn i0 ss mj) List.Pairwise.nil (l ++ s :: l1) x l2
    (by unfold history at h; rw [h]; simp)
  have hmem : s.tnext ∈ (outcomes cfg (l ++ s :: l1)).foldl (fun st x => pend st x.1 x.2) [] := by
    have e : outcomes cfg (l ++ s :: l1) = outcomes cfg l ++ (s.tnext, accepted cfg s) ::
      outcomes cfg l1 := by simp [outcomes]
    rw [e, List.foldl_append, List.foldl_cons]
    apply pending_persist
    · rw [hrej, pend_eq]; simp
    · intro y hyl he; exact hy ⟨y, hyl, he⟩
  obtain ⟨z, hz, hzle⟩ := head_le hh.2 hmem
  have hover : ∃ w, ((outcomes cfg (l ++ s :: l1)).foldl (fun st x => pend st x.1 x.2) []).head?
      = some w ∧ w < x.tnext := ⟨z, hz, lt_of_le_of_lt hzle hx⟩
  refine ⟨?_, fun hin => (clip_result cfg c inner hctl n hn x _ hh.1 hin).1 hover⟩
  by_contra hl2
  have hok := mid_ok cfg cfg.maxSteps _ (l ++ s :: l1) x l2
    (by unfold history at h; rw [h]; simp) hl2
  have := (clip_step_ok cfg c inner hctl n hn x _ hh.1 hok).1 z hz
  exact absurd (lt_of_le_of_lt (le_trans this hzle) hx) (lt_irrefl _)

theorem revisit_run (cfg : Cfg T Y E D S (ClipState T C) O F) (c : Clip T)
    (inner : Controller T Y E C) (hctl : cfg.controller = clipController c inner)
    (hex : inner.Exact) (hj : c.jumps = []) (n : Nat)
    (hn : c.storeRejected = some n) (m : Nat) (s0 : Core T Y D S (ClipState T C) F) (st : List T)
    (h0 : Holds n st s0) (hs : st.Pairwise (· < ·)) (r : T) (hr : r ∈ st) (hlt : s0.tprev < r)
    (hend : r ≤ (coreRun cfg m s0).tprev) (hok : (coreRun cfg m s0).result = .successful) :
    ∃ l x l', attempts cfg m s0 = l ++ x :: l' ∧ accepted cfg x = true ∧ x.tnext = r ∧
      ∀ y ∈ l, y.tnext ≤ r := by
  induction m generalizing s0 st with
  | zero => exact absurd hend (not_le.2 hlt)
  | succ m ih =>
    have hall := run_successful cfg (m + 1) s0 hok
    by_cases hc : condFun cfg s0 = true
    · simp only [attempts, coreRun, hc, if_true] at hend hok hall ⊢
      obtain ⟨g1, g2, _⟩ := clip_step_ok cfg c inner hctl n hn s0 st h0 (hall s0 (by simp)).2
      obtain ⟨z, hz, hzr⟩ := head_le hs hr
      have hle : s0.tnext ≤ r := le_trans (g1 z hz) hzr
      by_cases hhit : accepted cfg s0 = true ∧ s0.tnext = r
      · exact ⟨[], s0, _, rfl, hhit.1, hhit.2, by simp⟩
      · have hex' := hex s0.tprev s0.tnext s0.y (solverOut cfg s0).y
          (cfg.cleanErr (solverOut cfg s0).err) s0.ctrlState.inner
        have hk : accepted cfg s0 = (innerOut cfg inner s0).keep := by
          unfold accepted; rw [adaptOut_clip cfg c inner hctl]; rfl
        have htp : (adaptOut cfg s0).tprev = (innerOut cfg inner s0).tprev := by
          rw [adaptOut_clip cfg c inner hctl, (adapt_tprev c inner _ _ _ _ _ _).1, hj,
            bump_none (by simp) (by simp)]
          rfl
        have hnew : (coreBody cfg s0).1.tprev < r := by
          have e2 : (coreBody cfg s0).1.tprev = min (adaptOut cfg s0).tprev cfg.t1 := rfl
          rw [e2, htp]
          refine lt_of_le_of_lt (min_le_left _ _) ?_
          cases hkk : (innerOut cfg inner s0).keep with
          | true =>
            have e : (innerOut cfg inner s0).tprev = s0.tnext := hex'.1 hkk
            rw [e]
            exact lt_of_le_of_ne hle (fun h => hhit ⟨by rw [hk, hkk], h⟩)
          | false =>
            have e : (innerOut cfg inner s0).tprev = s0.tprev := hex'.2 hkk
            rw [e]; exact hlt
        have hmem : r ∈ pend st s0.tnext (accepted cfg s0) := by
          apply pend_mem hr
          by_cases hne : r = s0.tnext
          · right
            by_contra hcon
            exact hhit ⟨by simpa using hcon, hne.symm⟩
          · exact Or.inl hne
        obtain ⟨l, x, l', h1, h2, h3, h4⟩ := ih (coreBody cfg s0).1 _ g2
          (pend_sorted hs _ _ g1) hmem hnew hend hok
        refine ⟨s0 :: l, x, l', by rw [h1]; rfl, h2, h3, ?_⟩
        intro y hy
        rcases List.mem_cons.1 hy with rfl | hy
        · exact hle
        · exact h4 y hy
    · simp only [coreRun, hc] at hend
      exact absurd hend (not_le.2 hlt)

/-- In a successful solve (without jumps) every rejected end time `r` with `s.tprev < r ≤ t1` is later
the exact end of an accepted step, and no attempt in between ends after `r`. -/
theorem C30_revisited_success (cfg : Cfg T Y E D S (ClipState T C) O F) (hwf : cfg.WF)
    (hown : cfg.OwnCodes) (c : Clip T) (inner : Controller T Y E C)
    (hctl : cfg.controller = clipController c inner) (hex : inner.Exact) (hj : c.jumps = []) (n : Nat)
    (hn : c.storeRejected = some n) (y0 : Y) (tn : T) (i0 : T × C) (ss : S) (mj : Bool)
    (hok : (solve cfg y0 tn (c.init cfg.t0 i0).2 ss mj).result = .successful)
    (l : List (Core T Y D S (ClipState T C) F)) (s : Core T Y D S (ClipState T C) F)
    (l' : List (Core T Y D S (ClipState T C) F))
    (h : history cfg y0 tn (c.init cfg.t0 i0).2 ss mj = l ++ s :: l')
    (hrej : accepted cfg s = false) (hpos : s.tprev < s.tnext) (hle : s.tnext ≤ cfg.t1) :
    ∃ l1 x l2, l' = l1 ++ x :: l2 ∧ accepted cfg x = true ∧ x.tnext = s.tnext ∧
      ∀ y ∈ l1, y.tnext ≤ s.tnext := by
  have hsu := solve_successful cfg hwf hown (by rw [hctl]; rfl) y0 tn _ ss mj hok
  rw [solve_core] at hsu
  have hh := holds_run cfg c inner hctl n hn cfg.maxSteps _ []
    (init_holds c n hn cfg y0 tn i0 ss mj) List.Pairwise.nil l s l' h
  have hres := (run_successful cfg _ _ hsu.2 s (by unfold history at h; rw [h]; simp)).2
  obtain ⟨g1, g2, _⟩ := clip_step_ok cfg c inner hctl n hn s _ hh.1 hres
  obtain ⟨m, hm, hrun⟩ := attempts_split cfg _ _ l s l' h
  have hex' := hex s.tprev s.tnext s.y (solverOut cfg s).y
    (cfg.cleanErr (solverOut cfg s).err) s.ctrlState.inner
  have hk : (innerOut cfg inner s).keep = false := by
    unfold accepted at hrej; rw [adaptOut_clip cfg c inner hctl] at hrej; exact hrej
  have htp : (coreBody cfg s).1.tprev < s.tnext := by
    have e2 : (coreBody cfg s).1.tprev = min (adaptOut cfg s).tprev cfg.t1 := rfl
    rw [e2, adaptOut_clip cfg c inner hctl, (adapt_tprev c inner _ _ _ _ _ _).1, hj,
      bump_none (by simp) (by simp), hex'.2 hk]
    exact lt_of_le_of_lt (min_le_left _ _) hpos
  rw [hm]
  refine revisit_run cfg c inner hctl hex hj n hn m _ _ g2 (pend_sorted hh.2 _ _ g1) s.tnext ?_ htp
    ?_ ?_
  · rw [hrej, pend_eq]; simp
  · rw [← hrun, hsu.1]; exact hle
  · rw [← hrun]; exact hsu.2

/-! ## C32: progress -/

/-- If the wrapped controller answers a step over `[a, b]` with a nonempty interval starting at `b`
(accepted) or `a` (rejected), so does `ClipStepSizeController`, if between any two jump times there are
at least two floats, the pending rejected times are not before `b`, and no jump lies in the interval
covered by a pending time. -/
theorem C32_progress (c : Clip T) (hs : c.Sorted) (hsep : Separated c.jumps)
    (inner : Controller T Y E C) (a b : T) (hab : a < b) (y0 y1 : Y) (e : E)
    (st : ClipState T C) (hr : st.InRange c)
    (hex : (inner.adapt a b y0 y1 e st.inner).Exact a b)
    (hprog : (inner.adapt a b y0 y1 e st.inner).tprev < (inner.adapt a b y0 y1 e st.inner).tnext)
    (hok : (inner.adapt a b y0 y1 e st.inner).result.isOkay = true)
    (pd : List T) (n : Nat) (hrep : c.storeRejected = none ∨
      (c.storeRejected = some n ∧ RejRep n pd st.rejIdx st.rejTs ∧
        (pend pd b (inner.adapt a b y0 y1 e st.inner).keep).length ≤ n))
    (hpd : pd.Pairwise (· < ·)) (hb : ∀ x ∈ pd, b ≤ x)
    (hj : ∀ j ∈ c.jumps, a ≤ j → b < j) (hjp : ∀ x ∈ pd, ∀ j ∈ c.jumps, a ≤ j → x < j) :
    (c.adapt inner a b y0 y1 e st).tprev < (c.adapt inner a b y0 y1 e st).tnext := by
  generalize hin : inner.adapt a b y0 y1 e st.inner = r at *
  have hra : a ≤ r.tprev ∧ r.tprev ≤ b := by
    cases hk : r.keep with
    | true => rw [hex.1 hk]; exact ⟨le_of_lt hab, le_refl _⟩
    | false => rw [hex.2 hk]; exact ⟨le_refl _, le_of_lt hab⟩
  -- after the step times
  have h1 : r.tprev < (c.adaptStep st.stepIdx r.tprev r.tnext).2 := by
    cases hc : c.stepTs with
    | none => unfold Clip.adaptStep; rw [hc]; exact hprog
    | some ts =>
      have hr1 := hr.step
      simp only [Clip.steps, hc, Option.getD_some] at hr1
      obtain ⟨_, o, h2, h3⟩ := adaptStep_first hc (hs.step ts (by simp [hc])) _ hr1 r.tprev r.tnext
      rw [h3]
      exact lt_clipT h2 hprog (fun s _ hlt => lt_of_le_of_lt (le_bump _ _) hlt)
  -- after the jump times
  have h2 : (c.adaptJump st.jumpIdx r.tprev (c.adaptStep st.stepIdx r.tprev r.tnext).2
        r.madeJump).2.1
      < (c.adaptJump st.jumpIdx r.tprev (c.adaptStep st.stepIdx r.tprev r.tnext).2
        r.madeJump).2.2.1 := by
    cases hc : c.jumpTs with
    | none => rw [adaptJump_none hc]; exact h1
    | some ts =>
      have hr1 := hr.jump
      simp only [Clip.jumps, hc, Option.getD_some] at hr1 hsep
      obtain ⟨i, o, _, h2, h3⟩ := adaptJump_first hc (hs.jump ts (by simp [hc])) _ hr1 r.tprev
        (c.adaptStep st.stepIdx r.tprev r.tnext).2 r.madeJump
      rw [h3]
      apply lt_clipT_pred h2
      · exact lt_of_lt_of_le (Order.lt_succ _) (le_max_left _ _)
      · intro s hsm hlt
        have hne : Order.succ (bumpT0 r.tprev ts).1 ≠ s := by
          rintro rfl
          rcases bump_cases r.tprev ts with ⟨_, h4, h5⟩ | ⟨h4, h5⟩ | ⟨_, h4, h5⟩ <;>
            rw [h5] at hsm
          · exact h4 hsm
          · exact (hsep _ h4).2 hsm
          · exact (hsep _ h4).2 hsm
        have := lt_of_le_of_ne (Order.succ_le_of_lt hlt) hne
        have h6 := Order.le_pred_of_lt this
        exact lt_of_lt_of_le (Order.lt_succ _) h6
  have e1 : (c.adapt inner a b y0 y1 e st).tprev = (c.adaptJump st.jumpIdx r.tprev
      (c.adaptStep st.stepIdx r.tprev r.tnext).2 r.madeJump).2.1 := by
    unfold Clip.adapt; rw [hin]
  have e2 : (c.adapt inner a b y0 y1 e st).tnext = (c.adaptReject st.rejIdx st.rejTs b
      (c.adaptJump st.jumpIdx r.tprev (c.adaptStep st.stepIdx r.tprev r.tnext).2
        r.madeJump).2.2.1 r.keep r.result).2.2.1 := by
    unfold Clip.adapt; rw [hin]
  -- after the rejected times
  rcases hrep with hrep | ⟨hn, hrep, hlen⟩
  · rw [e1, e2]
    unfold Clip.adaptReject
    rw [hrep]
    exact h2
  · have h4 := ((adaptReject_spec hn hrep b
      (c.adaptJump st.jumpIdx r.tprev (c.adaptStep st.stepIdx r.tprev r.tnext).2
        r.madeJump).2.2.1 r.keep r.result hok).2.2.2 hlen).2
    rw [e2, h4, e1]
    cases hh : (pend pd b r.keep).head? with
    | none => exact h2
    | some x =>
      refine lt_min ?_ h2
      -- `x` is pending: it is after the new start, also after bumping
      have hx : r.tprev < x ∧ ∀ j ∈ c.jumps, a ≤ j → x < j := by
        have hb' : ∀ x, pd.head? = some x → b ≤ x := by
          intro x hx; exact hb x (List.mem_of_mem_head? hx)
        rw [pend_eq] at hh
        cases hk : r.keep with
        | true =>
          rw [hk] at hh
          have hmem : x ∈ popped pd b := List.mem_of_mem_head? hh
          exact ⟨lt_of_le_of_lt hra.2 (popped_gt hpd b hb' x hmem),
            hjp x (mem_popped hmem)⟩
        | false =>
          rw [hk] at hh
          simp only [Bool.false_eq_true, if_false, List.head?_cons, Option.some.injEq] at hh
          subst hh
          exact ⟨by rw [hex.2 hk]; exact hab, hj⟩
      have e3 : (c.adaptJump st.jumpIdx r.tprev (c.adaptStep st.stepIdx r.tprev r.tnext).2
          r.madeJump).2.1 = (bumpT0 r.tprev c.jumps).1 := by
        have := (adapt_tprev c inner a b y0 y1 e st).1
        rw [hin, e1] at this
        exact this
      change _ < (if false = true then Order.pred x else x)
      rw [e3, if_neg (by simp)]
      rcases bump_cases r.tprev c.jumps with ⟨_, _, h5⟩ | ⟨h4, _⟩ | ⟨_, h4, _⟩
      · rw [h5]; exact hx.1
      · exact absurd (hx.2 _ h4 hra.1) (not_lt.2 (le_of_lt hx.1))
      · exact absurd (hx.2 _ h4 (le_trans hra.1 (Order.le_succ _)))
          (not_lt.2 (Order.succ_le_of_lt hx.1))

end

end Verif
