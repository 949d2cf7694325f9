import Verif.Props.ClipReject

/-! # C30 and C32 with step times, jump times and rejected times all together -/

set_option linter.unusedSectionVars false

namespace Verif

section
variable {T Y E D S C O F : Type} [LinearOrder T] [SuccOrder T] [PredOrder T] [NoMaxOrder T]
  [NoMinOrder T] [LinearOrder F] [Zero F]

/-- Hypotheses on a problem solved with `ClipStepSizeController`: the wrapped controller moves on from
where it should and always asks for a nonempty step; the midpoint is strictly inside; between two jumps
there are at least two floats, none is at `t0` or just after it, and none is in the rounding zone just
before `t1`. -/
structure ClipOK (cfg : Cfg T Y E D S (ClipState T C) O F) (c : Clip T)
    (inner : Controller T Y E C) : Prop where
  wf : cfg.WF
  ctl : cfg.controller = clipController c inner
  sorted : c.Sorted
  exact : inner.Exact
  progress : ∀ a b y0 y1 e st, a < b → (inner.adapt a b y0 y1 e st).tprev
    < (inner.adapt a b y0 y1 e st).tnext
  mid : ∀ a, a < cfg.t1 → a < cfg.mid a cfg.t1
  sep : Separated c.jumps
  jump_t0 : cfg.t0 ∉ c.jumps ∧ Order.succ cfg.t0 ∉ c.jumps
  jump_t1 : ∀ j ∈ c.jumps, Order.pred j ≤ cfg.floor ∨ cfg.t1 < j

/-- The invariant: `st` is the stack of pending times. -/
structure ClipInv (cfg : Cfg T Y E D S (ClipState T C) O F) (c : Clip T) (st : List T)
    (s : Core T Y D S (ClipState T C) F) : Prop where
  range : s.ctrlState.InRange c
  t0_le : cfg.t0 ≤ s.tprev
  rep : (c.storeRejected = none ∧ st = []) ∨ ∃ n, c.storeRejected = some n ∧ Holds n st s
  sorted : st.Pairwise (· < ·)
  gt : ∀ x ∈ st, s.tprev < x
  pos : s.tprev < cfg.t1 → s.tprev < s.tnext
  le : s.tnext ≤ cfg.t1
  jump : ∀ j ∈ c.jumps, s.tprev < cfg.t1 → s.tprev ≤ j → s.tnext < j
  jump_st : ∀ x ∈ st, ∀ j ∈ c.jumps, s.tprev ≤ j → x < j

/-- The stack after the attempt made in `s`. -/
def nextStack (cfg : Cfg T Y E D S (ClipState T C) O F) (c : Clip T) (st : List T)
    (s : Core T Y D S (ClipState T C) F) : List T :=
  match c.storeRejected with
  | none => []
  | some _ => pend st s.tnext (accepted cfg s)

theorem bump_lt {t x : T} {js : List T} (h : t < x) (hj : ∀ j ∈ js, t ≤ j → x < j) :
    (bumpT0 t js).1 < x := by
  rcases bump_cases t js with ⟨_, _, h5⟩ | ⟨h4, _⟩ | ⟨_, h4, _⟩
  · rw [h5]; exact h
  · exact absurd (hj _ h4 (le_refl _)) (not_lt.2 (le_of_lt h))
  · exact absurd (hj _ h4 (Order.le_succ _)) (not_lt.2 (Order.succ_le_of_lt h))

theorem clipInv_init (cfg : Cfg T Y E D S (ClipState T C) O F) (c : Clip T)
    (inner : Controller T Y E C) (hok : ClipOK cfg c inner) (y0 : Y) (i0 : T × C) (ss : S)
    (mj : Bool) (h0 : cfg.t0 < i0.1) :
    ClipInv cfg c [] (initState cfg y0 (c.init cfg.t0 i0).1 (c.init cfg.t0 i0).2 ss mj).core where
  range := init_inRange c hok.sorted cfg.t0 i0
  t0_le := le_refl _
  rep := by
    cases hn : c.storeRejected with
    | none => exact Or.inl ⟨rfl, rfl⟩
    | some n => exact Or.inr ⟨n, rfl, init_holds c n hn cfg y0 _ i0 ss mj⟩
  sorted := List.Pairwise.nil
  gt := by simp
  pos := by
    intro hlt
    refine lt_min ?_ hlt
    change cfg.t0 < (c.init cfg.t0 i0).1
    unfold Clip.init
    dsimp only
    have h1 : cfg.t0 < (match c.stepTs with
        | none => i0.1
        | some ts => clipT i0.1 (getT (match c.stepTs with
          | none => 0
          | some ts => searchRight cfg.t0 ts) ts) false) := by
      cases hc : c.stepTs with
      | none => exact h0
      | some ts =>
        obtain ⟨h1, h2⟩ := searchRight_spec cfg.t0 ts (hok.sorted.step ts (by simp [hc]))
        exact lt_clipT (split_first (hok.sorted.step ts (by simp [hc])) cfg.t0 _ h1 h2) h0
          (fun s _ h => h)
    cases hc : c.jumpTs with
    | none => exact h1
    | some ts =>
      have hj0 := hok.jump_t0
      simp only [Clip.jumps, hc, Option.getD_some] at hj0
      obtain ⟨h2, h3⟩ := searchRight_spec cfg.t0 ts (hok.sorted.jump ts (by simp [hc]))
      refine lt_clipT_pred (split_first (hok.sorted.jump ts (by simp [hc])) cfg.t0 _ h2 h3) h1 ?_
      intro s hs hlt
      have hne : Order.succ cfg.t0 ≠ s := by rintro rfl; exact hj0.2 hs
      exact lt_of_lt_of_le (Order.lt_succ _)
        (Order.le_pred_of_lt (lt_of_le_of_ne (Order.succ_le_of_lt hlt) hne))
  le := min_le_right _ _
  jump := by
    intro j hj _ hle
    have hlt : cfg.t0 < j := lt_of_le_of_ne hle (by rintro rfl; exact hok.jump_t0.1 hj)
    refine lt_of_le_of_lt (le_trans (min_le_left _ _) (init_jump c hok.sorted cfg.t0 i0 j hj hlt))
      (Order.pred_lt j)
  jump_st := by simp

theorem separated_noAdjacent {js : List T} (h : Separated js) : NoAdjacent js :=
  fun j hj => (h j hj).1

theorem clipInv_step (cfg : Cfg T Y E D S (ClipState T C) O F) (c : Clip T)
    (inner : Controller T Y E C) (hok : ClipOK cfg c inner) (st : List T)
    (s : Core T Y D S (ClipState T C) F) (h : ClipInv cfg c st s) (hc : condFun cfg s = true)
    (hres : (adaptOut cfg s).result = .successful) :
    ClipInv cfg c (nextStack cfg c st s) (coreBody cfg s).1 ∧
    ∀ x, st.head? = some x → c.storeRejected.isSome = true → s.tnext ≤ x := by
  have hlt : s.tprev < cfg.t1 := by
    simp only [condFun, hok.ctl, clipController, Bool.and_eq_true, decide_eq_true_eq] at hc
    exact hc.1
  have hpos := h.pos hlt
  have hex' := hok.exact s.tprev s.tnext s.y (solverOut cfg s).y
    (cfg.cleanErr (solverOut cfg s).err) s.ctrlState.inner
  have hprog := hok.progress s.tprev s.tnext s.y (solverOut cfg s).y
    (cfg.cleanErr (solverOut cfg s).err) s.ctrlState.inner hpos
  have hk : accepted cfg s = (innerOut cfg inner s).keep := by
    unfold accepted; rw [adaptOut_clip cfg c inner hok.ctl]; rfl
  have hin : (innerOut cfg inner s).result.isOkay = true := by
    obtain ⟨nt1, _, _, _, h4⟩ := adapt_reject c inner s.tprev s.tnext s.y (solverOut cfg s).y
      (cfg.cleanErr (solverOut cfg s).err) s.ctrlState
    rw [← adaptOut_clip cfg c inner hok.ctl, hres] at h4
    rcases adaptReject_result c s.ctrlState.rejIdx s.ctrlState.rejTs s.tnext nt1
      (innerOut cfg inner s).keep (innerOut cfg inner s).result with h | h | h
    · have : (innerOut cfg inner s).result = .successful := h.symm.trans h4.symm
      rw [this]; rfl
    · exact absurd (h4.trans h) (by simp)
    · exact absurd (h4.trans h) (by simp)
  -- the stack
  have hstack : (∀ x ∈ st, s.tnext ≤ x) ∧ (nextStack cfg c st s).Pairwise (· < ·) ∧
      ((c.storeRejected = none ∧ nextStack cfg c st s = []) ∨
        ∃ n, c.storeRejected = some n ∧ Holds n (nextStack cfg c st s) (coreBody cfg s).1 ∧
          (nextStack cfg c st s).length ≤ n ∧ nextStack cfg c st s = pend st s.tnext
            (accepted cfg s)) := by
    rcases h.rep with ⟨hn, hst⟩ | ⟨n, hn, hh⟩
    · have : nextStack cfg c st s = [] := by unfold nextStack; rw [hn]
      rw [this, hst]
      exact ⟨by simp, List.Pairwise.nil, Or.inl ⟨hn, rfl⟩⟩
    · have : nextStack cfg c st s = pend st s.tnext (accepted cfg s) := by
        unfold nextStack; rw [hn]
      obtain ⟨g1, g2, g3⟩ := clip_step_ok cfg c inner hok.ctl n hn s st hh hres
      refine ⟨?_, by rw [this]; exact pend_sorted h.sorted _ _ g1, Or.inr ⟨n, hn, ?_⟩⟩
      · intro x hx
        obtain ⟨z, hz, hzx⟩ := head_le h.sorted hx
        exact le_trans (g1 z hz) hzx
      · rw [this]; exact ⟨g2, g3, rfl⟩
  obtain ⟨hb, hsort, hrep'⟩ := hstack
  refine ⟨?_, fun x hx _ => hb x (List.mem_of_mem_head? hx)⟩
  have hrp : s.tprev ≤ (innerOut cfg inner s).tprev ∧ (innerOut cfg inner s).tprev ≤ s.tnext := by
    cases hkk : (innerOut cfg inner s).keep with
    | true =>
      have e : (innerOut cfg inner s).tprev = s.tnext := hex'.1 hkk
      rw [e]; exact ⟨le_of_lt hpos, le_refl _⟩
    | false =>
      have e : (innerOut cfg inner s).tprev = s.tprev := hex'.2 hkk
      rw [e]; exact ⟨le_refl _, le_of_lt hpos⟩
  have hjp : ∀ j ∈ c.jumps, s.tprev ≤ j → s.tnext < j := fun j hj => h.jump j hj hlt
  -- progress of the controller
  have hp : (adaptOut cfg s).tprev < (adaptOut cfg s).tnext := by
    rw [adaptOut_clip cfg c inner hok.ctl]
    rcases h.rep with ⟨hn, hst⟩ | ⟨n, hn, hh⟩
    · exact C32_progress c hok.sorted hok.sep inner s.tprev s.tnext hpos s.y _ _ s.ctrlState h.range
        hex' hprog hin st 0 (Or.inl hn) h.sorted hb hjp h.jump_st
    · refine C32_progress c hok.sorted hok.sep inner s.tprev s.tnext hpos s.y _ _ s.ctrlState
        h.range hex' hprog hin st n (Or.inr ⟨hn, hh, ?_⟩) h.sorted hb hjp h.jump_st
      rcases hrep' with ⟨hn', _⟩ | ⟨n', hn', _, h3, h4⟩
      · rw [hn] at hn'; simp at hn'
      · rw [hn] at hn'
        have : n = n' := by simpa using hn'
        rw [h4, hk] at h3
        rw [this]; exact h3
  have e1 : (coreBody cfg s).1.tprev = min (adaptOut cfg s).tprev cfg.t1 := rfl
  have e2 : (coreBody cfg s).1.tnext = clipToEnd cfg.mid (min (adaptOut cfg s).tprev cfg.t1)
    (adaptOut cfg s).tnext cfg.t1 cfg.floor (adaptOut cfg s).keep := rfl
  have e3 : (adaptOut cfg s).tprev = (bumpT0 (innerOut cfg inner s).tprev c.jumps).1 := by
    rw [adaptOut_clip cfg c inner hok.ctl, (adapt_tprev c inner _ _ _ _ _ _).1]; rfl
  have hmono : s.tprev ≤ (coreBody cfg s).1.tprev := by
    rw [e1, e3]
    exact le_min (le_trans hrp.1 (le_bump _ _)) (le_of_lt hlt)
  have hle' : (coreBody cfg s).1.tnext ≤ cfg.t1 := by
    rw [e2]; unfold clipToEnd
    dsimp only
    split
    · split
      · exact le_refl _
      · exact hok.wf.mid_le _ (min_le_right _ _)
    · rename_i hcl; exact le_trans (not_lt.1 hcl) hok.wf.floor_le
  -- members of the new stack
  have hmem : ∀ x ∈ nextStack cfg c st s, (innerOut cfg inner s).tprev < x ∧
      ∀ j ∈ c.jumps, s.tprev ≤ j → x < j := by
    intro x hx
    rcases hrep' with ⟨_, h2⟩ | ⟨n, _, _, _, h2⟩
    · rw [h2] at hx; simp at hx
    · rw [h2, pend_eq, hk] at hx
      have hpop : ∀ x ∈ popped st s.tnext, (innerOut cfg inner s).tprev < x ∧
          ∀ j ∈ c.jumps, s.tprev ≤ j → x < j := by
        intro x hx
        exact ⟨lt_of_le_of_lt hrp.2 (popped_gt h.sorted _
          (fun z hz => hb z (List.mem_of_mem_head? hz)) x hx), h.jump_st x (mem_popped hx)⟩
      cases hkk : (innerOut cfg inner s).keep with
      | true => rw [hkk] at hx; exact hpop x hx
      | false =>
        rw [hkk] at hx
        simp only [Bool.false_eq_true, if_false, List.mem_cons] at hx
        rcases hx with rfl | hx
        · refine ⟨?_, hjp⟩
          have e : (innerOut cfg inner s).tprev = s.tprev := hex'.2 hkk
          rw [e]; exact hpos
        · exact hpop x hx
  constructor
  · exact coreBody_inRange cfg c hok.sorted inner hok.ctl s h.range
  · exact le_trans h.t0_le hmono
  · rcases hrep' with h1 | ⟨n, h1, h2, _⟩
    · exact Or.inl h1
    · exact Or.inr ⟨n, h1, h2⟩
  · exact hsort
  · intro x hx
    rw [e1, e3]
    refine lt_of_le_of_lt (min_le_left _ _) (bump_lt (hmem x hx).1 ?_)
    intro j hj hle
    exact (hmem x hx).2 j hj (le_trans hrp.1 hle)
  · intro hlt'
    rw [e1] at hlt' ⊢
    rw [e2]; unfold clipToEnd
    dsimp only
    split
    · split
      · exact hlt'
      · exact hok.mid _ hlt'
    · exact lt_of_le_of_lt (min_le_left _ _) hp
  · exact hle'
  · intro j hj hlt' hle
    rcases hok.jump_t1 j hj with h1 | h1
    · have := jump_safe cfg c hok.sorted (separated_noAdjacent hok.sep) inner hok.ctl s h.range j hj
        h1 hlt'
      by_contra hcon
      exact this ⟨hle, not_lt.1 hcon⟩
    · exact lt_of_le_of_lt hle' h1
  · intro x hx j hj hle
    exact (hmem x hx).2 j hj (le_trans hmono hle)

/-- Success after an attempt means the controller reported success. -/
theorem body_succ_adapt (cfg : Cfg T Y E D S C O F) (s : Core T Y D S C F)
    (hc : condFun cfg s = true) (h : (coreBody cfg s).1.result.isSuccessful = true) :
    (adaptOut cfg s).result = .successful := by
  have h1' : (coreBody cfg s).1.result = .successful := by
    simpa [Result.isSuccessful] using h
  have h2 := coreBody_result cfg s (condFun_succ cfg s hc)
  rw [h1'] at h2
  split at h2
  · simp at h2
  · split at h2
    · rename_i h3; rw [← h2] at h3; simp [Result.isOkay, Result.isSuccessful] at h3
    · exact h2.symm

/-- Under `ClipOK`, every solver call is over an interval of positive length. -/
theorem C32_positive_steps (cfg : Cfg T Y E D S (ClipState T C) O F) (c : Clip T)
    (inner : Controller T Y E C) (hok : ClipOK cfg c inner) (y0 : Y) (i0 : T × C) (ss : S)
    (mj : Bool) (h0 : cfg.t0 < i0.1) :
    ∀ l ∈ callLog cfg y0 (c.init cfg.t0 i0).1 (c.init cfg.t0 i0).2 ss mj,
      l.solverT0 < l.solverT1 := by
  have hinv := (run_inv cfg (fun s => s.result.isSuccessful = true → ∃ st, ClipInv cfg c st s)
    cfg.maxSteps _ (fun _ => ⟨[], clipInv_init cfg c inner hok y0 i0 ss mj h0⟩) (by
      intro s _ hc hP hsu
      obtain ⟨st, hst⟩ := hP (condFun_succ cfg s hc)
      exact ⟨_, (clipInv_step cfg c inner hok st s hst hc (body_succ_adapt cfg s hc hsu)).1⟩)).1
  intro l hl
  rw [log_eq_history] at hl
  obtain ⟨s, hs, rfl⟩ := List.mem_map.1 hl
  have hc := attempts_cond cfg _ _ s hs
  obtain ⟨st, hst⟩ := hinv s hs (condFun_succ cfg s hc)
  have hlt : s.tprev < cfg.t1 := by
    simp only [condFun, hok.ctl, clipController, Bool.and_eq_true, decide_eq_true_eq] at hc
    exact hc.1
  exact hst.pos hlt

theorem revisit_run_jumps (cfg : Cfg T Y E D S (ClipState T C) O F) (c : Clip T)
    (inner : Controller T Y E C) (hok : ClipOK cfg c inner) (hn : c.storeRejected.isSome = true)
    (m : Nat) (s0 : Core T Y D S (ClipState T C) F) (st : List T)
    (h0 : ClipInv cfg c st s0) (r : T) (hr : r ∈ st)
    (hend : r ≤ (coreRun cfg m s0).tprev) (hsu : (coreRun cfg m s0).result = .successful) :
    ∃ l x l', attempts cfg m s0 = l ++ x :: l' ∧ accepted cfg x = true ∧ x.tnext = r ∧
      ∀ y ∈ l, y.tnext ≤ r := by
  induction m generalizing s0 st with
  | zero => exact absurd hend (not_le.2 (h0.gt r hr))
  | succ m ih =>
    have hall := run_successful cfg (m + 1) s0 hsu
    by_cases hc : condFun cfg s0 = true
    · simp only [attempts, coreRun, hc, if_true] at hend hsu hall ⊢
      obtain ⟨g1, g2⟩ := clipInv_step cfg c inner hok st s0 h0 hc (hall s0 (by simp)).2
      obtain ⟨z, hz, hzr⟩ := head_le h0.sorted hr
      have hle : s0.tnext ≤ r := le_trans (g2 z hz hn) hzr
      by_cases hhit : accepted cfg s0 = true ∧ s0.tnext = r
      · exact ⟨[], s0, _, rfl, hhit.1, hhit.2, by simp⟩
      · have hmem : r ∈ nextStack cfg c st s0 := by
          obtain ⟨n, hn'⟩ := Option.isSome_iff_exists.1 hn
          have : nextStack cfg c st s0 = pend st s0.tnext (accepted cfg s0) := by
            unfold nextStack; rw [hn']
          rw [this]
          apply pend_mem hr
          by_cases hne : r = s0.tnext
          · right
            by_contra hcon
            exact hhit ⟨by simpa using hcon, hne.symm⟩
          · exact Or.inl hne
        obtain ⟨l, x, l', h1, h2, h3, h4⟩ := ih (coreBody cfg s0).1 _ g1 hmem hend hsu
        refine ⟨s0 :: l, x, l', by rw [h1]; rfl, h2, h3, ?_⟩
        intro y hy
        rcases List.mem_cons.1 hy with rfl | hy
        · exact hle
        · exact h4 y hy
    · simp only [coreRun, hc] at hend
      exact absurd hend (not_le.2 (h0.gt r hr))

/-- The state of an attempt satisfies the invariant. -/
theorem clipInv_attempt (cfg : Cfg T Y E D S (ClipState T C) O F) (c : Clip T)
    (inner : Controller T Y E C) (hok : ClipOK cfg c inner) (y0 : Y) (i0 : T × C) (ss : S)
    (mj : Bool) (h0 : cfg.t0 < i0.1) :
    ∀ s ∈ history cfg y0 (c.init cfg.t0 i0).1 (c.init cfg.t0 i0).2 ss mj,
      ∃ st, ClipInv cfg c st s := by
  have hinv := (run_inv cfg (fun s => s.result.isSuccessful = true → ∃ st, ClipInv cfg c st s)
    cfg.maxSteps _ (fun _ => ⟨[], clipInv_init cfg c inner hok y0 i0 ss mj h0⟩) (by
      intro s _ hc hP hsu
      obtain ⟨st, hst⟩ := hP (condFun_succ cfg s hc)
      exact ⟨_, (clipInv_step cfg c inner hok st s hst hc (body_succ_adapt cfg s hc hsu)).1⟩)).1
  intro s hs
  exact hinv s hs (condFun_succ cfg s (attempts_cond cfg _ _ s hs))

/-- C30 together with jump times: under `ClipOK`, in a successful solve, every rejected end time is
later the exact end of an accepted step, and no attempt in between ends later. -/
theorem C30_revisited_with_jumps (cfg : Cfg T Y E D S (ClipState T C) O F) (hown : cfg.OwnCodes)
    (c : Clip T) (inner : Controller T Y E C) (hok : ClipOK cfg c inner)
    (hn : c.storeRejected.isSome = true) (y0 : Y) (i0 : T × C) (ss : S) (mj : Bool)
    (h0 : cfg.t0 < i0.1)
    (hsu : (solve cfg y0 (c.init cfg.t0 i0).1 (c.init cfg.t0 i0).2 ss mj).result = .successful)
    (l : List (Core T Y D S (ClipState T C) F)) (s : Core T Y D S (ClipState T C) F)
    (l' : List (Core T Y D S (ClipState T C) F))
    (h : history cfg y0 (c.init cfg.t0 i0).1 (c.init cfg.t0 i0).2 ss mj = l ++ s :: l')
    (hrej : accepted cfg s = false) :
    ∃ l1 x l2, l' = l1 ++ x :: l2 ∧ accepted cfg x = true ∧ x.tnext = s.tnext ∧
      ∀ y ∈ l1, y.tnext ≤ s.tnext := by
  have hs2 := solve_successful cfg hok.wf hown (by rw [hok.ctl]; rfl) y0 _ _ ss mj hsu
  rw [solve_core] at hs2
  have hsm : s ∈ history cfg y0 (c.init cfg.t0 i0).1 (c.init cfg.t0 i0).2 ss mj := by
    rw [h]; simp
  obtain ⟨st, hst⟩ := clipInv_attempt cfg c inner hok y0 i0 ss mj h0 s hsm
  have hres := (run_successful cfg _ _ hs2.2 s hsm).2
  have hc := attempts_cond cfg _ _ s hsm
  obtain ⟨g1, _⟩ := clipInv_step cfg c inner hok st s hst hc hres
  obtain ⟨m, hm, hrun⟩ := attempts_split cfg _ _ l s l' h
  rw [hm]
  refine revisit_run_jumps cfg c inner hok hn m _ _ g1 s.tnext ?_ ?_ ?_
  · obtain ⟨n, hn'⟩ := Option.isSome_iff_exists.1 hn
    have : nextStack cfg c st s = pend st s.tnext (accepted cfg s) := by
      unfold nextStack; rw [hn']
    rw [this, hrej, pend_eq]; simp
  · rw [← hrun, hs2.1]; exact hst.le
  · rw [← hrun]; exact hs2.2

end

/-! ### Examples -/

/-- The toy controller asks for steps of length at least one. -/
def toyController' : Controller Int Int Int Int where
  adapt a b _ _ err c :=
    if err ≤ 2 then
      { keep := true, tprev := b, tnext := b + 2 * (b - a), madeJump := false, state := c + 1,
        result := .successful }
    else
      { keep := false, tprev := a, tnext := a + (b - a + 1) / 2, madeJump := false, state := c + 1,
        result := .successful }

def clipToy' : Cfg Int Int Int Int Int (ClipState Int Int) Int Int :=
  { clipToy clipToyC 30 28 with
    controller := clipController clipToyC toyController', mid := fun a b => (a + b + 1) / 2 }

theorem clipToy'_ok : ClipOK clipToy' clipToyC toyController' where
  wf :=
    { le := by decide
      floor_le := by decide
      le_mid := by intro a h; simp only [clipToy', clipToy] at *; omega
      mid_le := by intro a h; simp only [clipToy', clipToy] at *; omega }
  ctl := rfl
  sorted := clipToyC_sorted
  exact := by
    intro a b y0 y1 e st
    unfold toyController' AdaptOut.Exact
    dsimp only
    split <;> simp
  progress := by
    intro a b y0 y1 e st hab
    unfold toyController'
    dsimp only
    split <;> dsimp only <;> omega
  mid := by intro a h; simp only [clipToy', clipToy] at *; omega
  sep := by unfold Separated; decide
  jump_t0 := by decide
  jump_t1 := by decide

/-- Non-vacuity of the theorems of C30 and C32: a solve with nested rejections (20 to 24 rejected, then
20 to 22, 22 to 24), two jumps and two step times, which is successful. -/
example : ClipOK clipToy' clipToyC toyController' ∧ clipToyC.storeRejected = some 3 ∧
    (solve clipToy' 100 (clipToyC.init 0 (9, 0)).1 (clipToyC.init 0 (9, 0)).2 0 false).result
      = .successful ∧
    ((history clipToy' 100 (clipToyC.init 0 (9, 0)).1 (clipToyC.init 0 (9, 0)).2 0 false).map
      (fun s => (s.tprev, s.tnext, accepted clipToy' s))).take 8
      = [(0, 7, false), (0, 4, false), (0, 2, true), (2, 4, true), (4, 7, false), (4, 6, true),
         (6, 7, true), (7, 9, true)] :=
  ⟨clipToy'_ok, rfl, by decide +kernel, by decide +kernel⟩

/-- Rejects everything. -/
def nayController : Controller Int Int Int Int where
  adapt a b _ _ _ c :=
    { keep := false, tprev := a, tnext := a + (b - a + 1) / 2, madeJump := false, state := c,
      result := .successful }

/-- Non-vacuity of the overflow case of `C30_result`: a buffer of size 3 and four nested rejections. -/
example :
    let c : Clip Int := { stepTs := none, jumpTs := none, storeRejected := some 3 }
    let cfg : Cfg Int Int Int Int Int (ClipState Int Int) Int Int :=
      { clipToy c 100 90 with controller := clipController c nayController }
    (solve cfg 100 (c.init 0 (16, 0)).1 (c.init 0 (16, 0)).2 0 false).result = .maxStepsRejected ∧
    (history cfg 100 (c.init 0 (16, 0)).1 (c.init 0 (16, 0)).2 0 false).map
      (fun s => (s.tprev, s.tnext, accepted cfg s))
      = [(0, 16, false), (0, 8, false), (0, 4, false), (0, 2, false)] := by
  decide +kernel

/-- A healthy solve can fail with an internal error: if the very first step ends in the rounding zone
just before `t1` (here at 11, between the clip floor 10 and `t1 = 12`) and is rejected, then the later
step that should revisit 11 is lengthened to `t1`, passing the stored time. -/
theorem C30_spurious_internal_error :
    ∃ (c : Clip Int) (first : Int), c.storeRejected = some 5 ∧ (clipToy c 12 10).WF ∧
      toyController.Exact ∧ first ≤ 12 ∧
      (solve (clipToy c 12 10) 100 (c.init 0 (first, 0)).1 (c.init 0 (first, 0)).2 0 false).result
        = .internalError :=
  ⟨{ stepTs := none, jumpTs := none, storeRejected := some 5 }, 11, rfl,
    clipToy_WF _ _ _ (by decide) (by decide), toyController_exact, by decide, by decide +kernel⟩

end Verif
