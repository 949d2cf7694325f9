import Verif.Lemmas.Pid
import Verif.Lemmas.Log
import Mathlib.Tactic.Ring
import Mathlib.Tactic.NormNum
import Mathlib.Algebra.Order.Field.Rat

/-! # C24-C27: PIDController -/

set_option linter.unusedSectionVars false

namespace Verif

variable {K : Type} [Field K] [LinearOrder K] [IsStrictOrderedRing K]

/-! ### C24 -/

theorem scaleLeaf_eq (p : Pid K) (hatol : 0 < p.atol) (hrtol : 0 ≤ p.rtol) (l : List (Comp K)) :
    p.scaleLeaf (l.map (fun c => .fin c.1))
      (l.map (fun c => optX c.2.1))
      (l.map (fun c => .fin c.2.2)) = (specScaled p l).map XVal.fin := by
  have hany : ((l.map (fun c => optX c.2.1)).any
      XVal.isNan = true) ↔ ∃ c ∈ l, c.2.1 = none := by
    rw [List.any_eq_true]
    constructor
    · rintro ⟨x, hx, hn⟩
      obtain ⟨c, hc, rfl⟩ := List.mem_map.1 hx
      refine ⟨c, hc, ?_⟩
      cases h : c.2.1 with
      | none => rfl
      | some v => rw [h] at hn; simp [optX, XVal.isNan] at hn
    · rintro ⟨c, hc, h⟩
      exact ⟨_, List.mem_map.2 ⟨c, hc, rfl⟩, by rw [h]; rfl⟩
  have hdiv : ∀ (e a : K), 0 ≤ a → (XVal.fin e).div (XVal.add (.fin p.atol)
      ((XVal.fin a).mul (.fin p.rtol))) = .fin (e / (p.atol + p.rtol * a)) := by
    intro e a ha
    have : p.atol + a * p.rtol ≠ 0 := ne_of_gt (by positivity)
    simp only [XVal.mul, XVal.add, XVal.div, this, if_false, mul_comm a]
    rw [mul_comm a] at this
    simp [this]
  unfold Pid.scaleLeaf specScaled
  by_cases h : ∃ c ∈ l, c.2.1 = none
  · rw [if_pos h]
    simp only [hany.2 h, if_true]
    rw [List.zipWith_map, List.zipWith_map_left, List.map_map]
    clear h hany
    induction l with
    | nil => rfl
    | cons c l ih =>
      simp only [List.zipWith_cons_cons, List.map_cons, Function.comp]
      rw [XVal.abs_fin, XVal.max_fin, max_self, hdiv _ _ (abs_nonneg _)]
      exact congrArg _ ih
  · rw [if_neg h]
    have h' : (l.map (fun c => optX c.2.1)).any
      XVal.isNan = false := by
      rw [Bool.eq_false_iff]; exact fun hh => h (hany.1 hh)
    simp only [h', Bool.false_eq_true, if_false]
    rw [List.zipWith_map, List.zipWith_map_left, List.map_map]
    have hall : ∀ c ∈ l, ∃ x, c.2.1 = some x := by
      intro c hc
      cases hcc : c.2.1 with
      | none => exact absurd ⟨c, hc, hcc⟩ h
      | some x => exact ⟨x, rfl⟩
    clear h h' hany
    induction l with
    | nil => rfl
    | cons c l ih =>
      obtain ⟨x, hx⟩ := hall c (by simp)
      simp only [List.zipWith_cons_cons, List.map_cons, Function.comp]
      rw [hx]
      simp only [Option.getD_some, optX]
      rw [XVal.abs_fin, XVal.abs_fin, XVal.max_fin, hdiv _ _ (le_max_of_le_left (abs_nonneg _))]
      exact congrArg _ (ih (fun c hc => hall c (List.mem_cons_of_mem _ hc)))

theorem scaledError_eq (p : Pid K) (hatol : 0 < p.atol) (hrtol : 0 ≤ p.rtol)
    (data : List (List (Comp K))) :
    p.scaledError (treeY0 data) (treeY1 data) (treeErr data)
      = p.norm (data.map (fun l => (specScaled p l).map XVal.fin)) := by
  unfold Pid.scaledError treeY0 treeY1 treeErr
  congr 1
  induction data with
  | nil => rfl
  | cons l data ih =>
    simp only [List.map_cons, List.zip_cons_cons, List.zipWith_cons_cons]
    rw [scaleLeaf_eq p hatol hrtol l, ih]

/-- **C24.** For all finite states and errors (a candidate value may contain NaN), the step is accepted
exactly when the norm of the componentwise scaled error is below one or, if `dtmin` is set, the step
was already at `dtmin`. -/
theorem C24_accept_iff (p : Pid K) (hatol : 0 < p.atol) (hrtol : 0 ≤ p.rtol)
    (data : List (List (Comp K))) (v : K)
    (hv : p.norm (data.map (fun l => (specScaled p l).map XVal.fin)) = .fin v)
    (t0 t1 : XVal K) (s : PidState K) :
    (p.adapt t0 t1 (treeY0 data) (treeY1 data) (treeErr data) s).keep = true ↔
      v < 1 ∨ (p.dtmin ≠ none ∧ s.atDtmin = true) := by
  show p.keep (p.scaledError _ _ _) s.atDtmin = true ↔ _
  rw [scaledError_eq p hatol hrtol, hv]
  unfold Pid.keep
  cases p.dtmin with
  | none => simp [XVal.lt]
  | some m => simp [XVal.lt]

/-- **C24**, failed steps: if the error is infinite in every component, and the norm of infinite errors
is infinite, the step is rejected (unless it was already at `dtmin`), whatever the candidate. -/
theorem C24_failed_step_rejected (p : Pid K) (hatol : 0 < p.atol) (hrtol : 0 ≤ p.rtol)
    (data : List (List (Comp K)))
    (hv : p.norm (data.map (fun l => l.map (fun _ => XVal.pinf))) = .pinf)
    (t0 t1 : XVal K) (s : PidState K) (hs : p.dtmin = none ∨ s.atDtmin = false) :
    (p.adapt t0 t1 (treeY0 data) (treeY1 data) (data.map (fun l => l.map (fun _ => XVal.pinf))) s).keep
      = false := by
  have hdiv : ∀ (a : K), 0 ≤ a → (XVal.pinf).div (XVal.add (.fin p.atol)
      ((XVal.fin a).mul (.fin p.rtol))) = .pinf := by
    intro a ha
    have : 0 ≤ p.atol + a * p.rtol := by positivity
    simp [XVal.mul, XVal.add, XVal.div, not_lt.2 this]
  have hleaf : ∀ l : List (Comp K), p.scaleLeaf (l.map (fun c => .fin c.1))
      (l.map (fun c => optX c.2.1))
      (l.map (fun _ => .pinf)) = l.map (fun _ => XVal.pinf) := by
    intro l
    unfold Pid.scaleLeaf
    by_cases h : (l.map (fun c => optX c.2.1)).any
        XVal.isNan = true
    · simp only [h, if_true]
      rw [List.zipWith_map, List.zipWith_map_left]
      clear h
      induction l with
      | nil => rfl
      | cons c l ih =>
        simp only [List.zipWith_cons_cons, List.map_cons]
        rw [XVal.abs_fin, XVal.max_fin, hdiv _ (le_max_of_le_left (abs_nonneg _)), ih]
    · have h' : (l.map (fun c => optX c.2.1)).any
          XVal.isNan = false := by rw [Bool.eq_false_iff]; exact h
      simp only [h', Bool.false_eq_true, if_false]
      have hall : ∀ c ∈ l, ∃ x, c.2.1 = some x := by
        intro c hc
        cases hcc : c.2.1 with
        | none =>
          exfalso
          apply h
          rw [List.any_eq_true]
          exact ⟨_, List.mem_map.2 ⟨c, hc, rfl⟩, by rw [hcc]; rfl⟩
        | some x => exact ⟨x, rfl⟩
      rw [List.zipWith_map, List.zipWith_map_left]
      clear h h'
      induction l with
      | nil => rfl
      | cons c l ih =>
        obtain ⟨x, hx⟩ := hall c (by simp)
        simp only [List.zipWith_cons_cons, List.map_cons]
        rw [hx, show optX (some x) = XVal.fin x from rfl]
        rw [XVal.abs_fin, XVal.abs_fin, XVal.max_fin, hdiv _ (le_max_of_le_left (abs_nonneg _)),
          ih (fun c hc => hall c (List.mem_cons_of_mem _ hc))]
  have hse : p.scaledError (treeY0 data) (treeY1 data) (data.map (fun l => l.map (fun _ => XVal.pinf)))
      = .pinf := by
    refine Eq.trans ?_ hv
    unfold Pid.scaledError treeY0 treeY1
    congr 1
    clear hv
    induction data with
    | nil => rfl
    | cons l data ih =>
      simp only [List.map_cons, List.zip_cons_cons, List.zipWith_cons_cons]
      rw [hleaf l, ih]
  show p.keep (p.scaledError _ _ _) s.atDtmin = false
  rw [hse]
  unfold Pid.keep
  rcases hs with h | h
  · rw [h]; rfl
  · cases p.dtmin with
    | none => rfl
    | some m => rw [h]; rfl

/-- An example controller over the rationals, `**` replaced by something computable. -/
def pidQ (dtmin : Option ℚ) : Pid ℚ :=
  { rtol := 1 / 10, atol := 1, norm := linf, rpow := fun b c => if 0 < c then b else 1 / b, pcoeff := 0,
    icoeff := 1, dcoeff := 0, dtmin := dtmin, dtmax := none, forceDtmin := true, factormin := 1 / 5,
    factormax := 10, safety := 9 / 10, order := 1 }

theorem pidQ_valid (d : Option ℚ) : (pidQ d).Valid where
  rpow_pos := by
    intro b c hb
    simp only [pidQ]
    split
    · exact hb
    · positivity
  factormin_pos := by norm_num [pidQ]
  factormin_le := by norm_num [pidQ]
  safety_lt := by norm_num [pidQ]
  le_factormax := by norm_num [pidQ]

example : ((pidQ none).adapt (.fin 0) (.fin 1) (treeY0 [[(1, some 2, 1), (3, some 4, 1)]])
    (treeY1 [[(1, some 2, 1), (3, some 4, 1)]]) (treeErr [[(1, some 2, 1), (3, some 4, 1)]])
    .fresh).keep = true :=
  (C24_accept_iff (pidQ none) (by norm_num [pidQ]) (by norm_num [pidQ])
    [[(1, some 2, 1), (3, some 4, 1)]] (5 / 6) (by decide +kernel) _ _ _).2 (Or.inl (by norm_num))

example : ((pidQ none).adapt (.fin 0) (.fin 1) (treeY0 [[(1, none, 0)]])
    (treeY1 [[(1, none, 0)]]) [[XVal.pinf]] .fresh).keep = false :=
  C24_failed_step_rejected (pidQ none) (by norm_num [pidQ]) (by norm_num [pidQ])
    [[(1, none, 0)]] (by decide +kernel) _ _ _ (Or.inl rfl)

/-! ### C27 -/

theorem fresh_good : (PidState.fresh : PidState K).Good :=
  ⟨⟨1, one_pos, rfl⟩, ⟨1, one_pos, rfl⟩⟩

/-- The controller starts from the fresh state. -/
theorem init_fresh (p : Pid K) (t0 dt0 : XVal K) : (p.init t0 dt0).2 = .fresh := rfl

theorem clean_eq (x : XVal K) :
    (if decide (XVal.div (.fin 1) x = .fin 0) || (XVal.div (.fin 1) x).isInf then .fin 1
      else XVal.div (.fin 1) x : XVal K) = cleanInv x := by
  cases x with
  | nan => simp [XVal.div, cleanInv, XVal.isInf]
  | ninf => simp [XVal.div, cleanInv]
  | pinf => simp [XVal.div, cleanInv]
  | fin a =>
    by_cases h : a = 0
    · simp [XVal.div, XVal.signInf, cleanInv, XVal.isInf, h]
    · have : a⁻¹ ≠ 0 := inv_ne_zero h
      simp [XVal.div, cleanInv, XVal.isInf, h]

/-- **C27.** After any sequence of calls, the two stored history values are the (cleaned) inverse scaled
errors of the last and second to last *accepted* calls, and 1 where there are none. -/
theorem C27_history (p : Pid K) (calls : List (K × K × XVal K)) :
    let h := [XVal.fin 1, .fin 1] ++ (acceptedErrs p .fresh calls).map cleanInv
    (pidRun p .fresh calls).prevInv = h.getLastD .nan ∧
    (pidRun p .fresh calls).prevPrevInv = h.dropLast.getLastD .nan := by
  suffices h : ∀ (s : PidState K) (pre : List (XVal K)),
      (pre ++ [s.prevPrevInv, s.prevInv] ++ (acceptedErrs p s calls).map cleanInv).getLastD .nan
        = (pidRun p s calls).prevInv ∧
      (pre ++ [s.prevPrevInv, s.prevInv] ++ (acceptedErrs p s calls).map cleanInv).dropLast.getLastD .nan
        = (pidRun p s calls).prevPrevInv by
    have := h .fresh []
    exact ⟨this.1.symm, this.2.symm⟩
  induction calls with
  | nil =>
    intro s pre
    simp only [acceptedErrs, List.map_nil, List.append_nil, pidRun, List.foldl_nil]
    constructor
    · simp [List.getLastD_eq_getLast?]
    · rw [show pre ++ [s.prevPrevInv, s.prevInv] = (pre ++ [s.prevPrevInv]) ++ [s.prevInv] by simp,
        List.dropLast_concat]
      simp [List.getLastD_eq_getLast?]
  | cons c cs ih =>
    intro s pre
    obtain ⟨r, hr⟩ : ∃ r, r = p.adaptScaled (.fin c.1) (.fin c.2.1) c.2.2 s := ⟨_, rfl⟩
    have hrun : pidRun p s (c :: cs) = pidRun p r.state cs := by rw [hr]; rfl
    have hp1 : r.state.prevInv = if r.keep then cleanInv c.2.2 else s.prevInv := by
      rw [hr, ← clean_eq]; rfl
    have hp2 : r.state.prevPrevInv = if r.keep then s.prevInv else s.prevPrevInv := by
      rw [hr]; rfl
    have hacc : acceptedErrs p s (c :: cs) = if r.keep then c.2.2 :: acceptedErrs p r.state cs
        else acceptedErrs p r.state cs := by rw [hr]; rfl
    rw [hrun, hacc]
    rcases Bool.eq_false_or_eq_true r.keep with hk | hk
    · rw [hk] at hp1 hp2 ⊢
      simp only [if_true] at hp1 hp2 ⊢
      have := ih r.state (pre ++ [s.prevPrevInv])
      rw [hp1, hp2] at this
      simp only [List.append_assoc, List.cons_append, List.nil_append, List.map_cons] at this ⊢
      exact this
    · rw [hk] at hp1 hp2 ⊢
      simp only [Bool.false_eq_true, if_false] at hp1 hp2 ⊢
      have := ih r.state pre
      rw [hp1, hp2] at this
      exact this

/-- Without NaN errors the history is always finite and positive. -/
theorem pidRun_good (p : Pid K) (hp : p.Valid) (calls : List (K × K × XVal K))
    (hx : ∀ c ∈ calls, c.2.2.IsErr) (s : PidState K) (hs : s.Good) : (pidRun p s calls).Good := by
  induction calls generalizing s with
  | nil => exact hs
  | cons c cs ih =>
    obtain ⟨_, _, r, hr, _, _, _, _, _, _, _, _, _, hg⟩ :=
      adapt_cases p hp s hs c.1 c.2.1 c.2.2 (hx c (by simp))
    have : pidRun p s (c :: cs) = pidRun p r.state cs := by rw [← hr]; rfl
    rw [this]
    exact ih (fun c hc => hx c (List.mem_cons_of_mem _ hc)) _ hg

/-- A rejected call between two accepted ones leaves no trace; a zero error counts as 1. -/
example : (pidRun (pidQ none) .fresh [(0, 1, .fin (1 / 2)), (1, 2, .fin 7), (1, 3 / 2, .fin 0)])
    = ⟨.fin 1, .fin 2, false⟩ := by decide +kernel

/-! ### C25 -/

/-- **C25.** After any history of errors (none of them NaN), for a step from `t0` to `t1`: the next step
starts at `t1` if accepted and at `t0` if not; its size `d` is the current size times a factor in
`[1, factormax]` if accepted and in `[factormin, safety]` if rejected, forced into `[dtmin, dtmax]`
(the second alternative: it was `dtmin` and stays `dtmin`). -/
theorem C25_factor_bounds (p : Pid K) (hp : p.Valid) (calls : List (K × K × XVal K))
    (hcalls : ∀ c ∈ calls, c.2.2.IsErr) (t0 t1 : K) (x : XVal K) (hx : x.IsErr) :
    ∃ (r : PidOut K) (a d f : K),
      p.adaptScaled (.fin t0) (.fin t1) x (pidRun p .fresh calls) = r ∧
      r.t0 = .fin a ∧ r.t1 = .fin (a + d) ∧
      (r.keep = true → a = t1 ∧ 1 ≤ f ∧ f ≤ p.factormax) ∧
      (r.keep = false → a = t0 ∧ p.factormin ≤ f ∧ f ≤ p.safety) ∧
      (d = clampDt p ((t1 - t0) * f) ∨ (p.dtmin = some d ∧ f = 1)) := by
  have hg := pidRun_good p hp calls hcalls .fresh fresh_good
  obtain ⟨f, d, r, hr, _, _, h1, h2, h3, h4, h5, _⟩ :=
    adapt_cases p hp (pidRun p .fresh calls) hg t0 t1 x hx
  refine ⟨r, _, d, f, hr, h3, h4, ?_, ?_, ?_⟩
  · intro hk; rw [hk]; exact ⟨rfl, h1 hk⟩
  · intro hk; rw [hk]; exact ⟨by simp, h2 hk⟩
  · rcases h5 with h | ⟨_, h, h'⟩
    · exact Or.inl h
    · exact Or.inr ⟨h', h⟩

/-- **C25**, consequences: the step size respects `dtmin` always, and `dtmax` if `dtmin ≤ dtmax`. -/
theorem C25_dtmin_dtmax (p : Pid K) (hp : p.Valid) (calls : List (K × K × XVal K))
    (hcalls : ∀ c ∈ calls, c.2.2.IsErr) (t0 t1 : K) (x : XVal K) (hx : x.IsErr) :
    ∃ (r : PidOut K) (a d : K),
      p.adaptScaled (.fin t0) (.fin t1) x (pidRun p .fresh calls) = r ∧
      r.t0 = .fin a ∧ r.t1 = .fin (a + d) ∧
      (∀ m, p.dtmin = some m → m ≤ d) ∧
      (∀ M, p.dtmax = some M → (∀ m, p.dtmin = some m → m ≤ M) → d ≤ M) := by
  have hg := pidRun_good p hp calls hcalls .fresh fresh_good
  obtain ⟨f, d, r, hr, _, _, h1, h2, h3, h4, h5, h6, _⟩ :=
    adapt_cases p hp (pidRun p .fresh calls) hg t0 t1 x hx
  refine ⟨r, _, d, hr, h3, h4, fun m hm => (h6 m hm).2.1, ?_⟩
  intro M hM hle
  rcases h5 with h | ⟨_, _, h⟩
  · rw [h]
    unfold clampDt
    rw [hM]
    cases hm : p.dtmin with
    | none => exact min_le_right _ _
    | some m => exact max_le (min_le_right _ _) (hle m hm)
  · exact hle d h

/-- **C25**, failure: the controller reports `dt_min_reached` exactly if `dtmin` is given without
`force_dtmin` and the step size it computed (after `dtmax` was applied) is below `dtmin`; otherwise it
reports success. -/
theorem C25_dt_min_reached (p : Pid K) (hp : p.Valid) (calls : List (K × K × XVal K))
    (hcalls : ∀ c ∈ calls, c.2.2.IsErr) (t0 t1 : K) (x : XVal K) (hx : x.IsErr) :
    ∃ (r : PidOut K) (f : K),
      p.adaptScaled (.fin t0) (.fin t1) x (pidRun p .fresh calls) = r ∧
      (r.keep = true → 1 ≤ f ∧ f ≤ p.factormax) ∧ (r.keep = false → p.factormin ≤ f ∧ f ≤ p.safety) ∧
      (r.result = .dtMinReached ↔ p.forceDtmin = false ∧ ∃ m, p.dtmin = some m ∧
        clampDt { p with dtmin := none } ((t1 - t0) * f) < m) ∧
      (r.result = .dtMinReached ∨ r.result = .successful) := by
  have hg := pidRun_good p hp calls hcalls .fresh fresh_good
  obtain ⟨s, hs⟩ : ∃ s, s = pidRun p .fresh calls := ⟨_, rfl⟩
  rw [← hs] at hg ⊢
  obtain ⟨f, hf, hk, hr⟩ := factor_bounds p hp s hg x hx (p.keep x s.atDtmin)
  have hdt : (XVal.fin t1).sub (.fin t0) = .fin (t1 - t0) := by
    simp [XVal.sub, XVal.neg, XVal.add, sub_eq_add_neg]
  have he : (match p.dtmax with
      | some m => XVal.min (.fin ((t1 - t0) * f)) (.fin m)
      | none => (.fin ((t1 - t0) * f) : XVal K))
        = .fin (clampDt { p with dtmin := none } ((t1 - t0) * f)) := by
    unfold clampDt
    cases p.dtmax with
    | none => rfl
    | some m => exact XVal.min_fin _ _
  refine ⟨_, f, rfl, hk, hr, ?_⟩
  have hres : (p.adaptScaled (.fin t0) (.fin t1) x s).result = match p.dtmin with
      | some m => if p.forceDtmin then .successful
        else Result.where' (XVal.lt (.fin (clampDt { p with dtmin := none } ((t1 - t0) * f)))
          (.fin m)) .dtMinReached .successful
      | none => .successful := by
    cases hm : p.dtmin with
    | none =>
      show (match p.dtmin with | some m => _ | none => _ : XVal K × Bool × Result).2.2 = _
      rw [hm]
    | some m =>
      show (match p.dtmin with | some m => _ | none => _ : XVal K × Bool × Result).2.2 = _
      rw [hm]
      show (if p.forceDtmin then _ else Result.where' (XVal.lt (match p.dtmax with
        | some m => XVal.min ((XVal.sub (.fin t1) (.fin t0)).mul (p.factor x (p.keep x s.atDtmin) s))
            (.fin m)
        | none => (XVal.sub (.fin t1) (.fin t0)).mul (p.factor x (p.keep x s.atDtmin) s)) _) _ _) = _
      rw [hdt, hf]
      show (if p.forceDtmin then _ else Result.where' (XVal.lt (match p.dtmax with
        | some m => XVal.min (.fin ((t1 - t0) * f)) (.fin m)
        | none => (.fin ((t1 - t0) * f) : XVal K)) _) _ _) = _
      rw [he]
  rw [hres]
  generalize clampDt { p with dtmin := none } ((t1 - t0) * f) = q
  cases hm : p.dtmin with
  | none => simp
  | some m =>
    cases hfd : p.forceDtmin with
    | true => simp
    | false =>
      by_cases hlt : q < m
      · simp [XVal.lt, Result.where', hlt]
      · simp [XVal.lt, Result.where', hlt]

/-- With `dtmin = 1/2` a step of size 1 is rejected with a proposal of 1/5: reported. -/
example : ((pidQ (some (1 / 2))).forceDtmin = true ∨
    ((pidQ (some (1 / 2))).adaptScaled (.fin 0) (.fin 1) .pinf .fresh).result = .dtMinReached) ∧
    ({ pidQ (some (1 / 2)) with forceDtmin := false }.adaptScaled (.fin 0) (.fin 1) .pinf .fresh).result
      = .dtMinReached := by
  decide +kernel

/-- Accepted with the largest growth, rejected with the largest shrinkage. -/
example : (((pidQ none).adaptScaled (.fin 0) (.fin 1) (.fin (1 / 1000)) .fresh).t1 = .fin 11) ∧
    (((pidQ none).adaptScaled (.fin 0) (.fin 1) .pinf .fresh).t1 = .fin (1 / 5)) := by
  decide +kernel

/-! ### C26 -/

/-- A retry chain: every call after the first is made with what the previous, rejecting, call
returned. `n` rejections in a row, the last reported errors being `xs`. -/
def RejectChain (p : Pid K) : List (XVal K) → K → K → PidState K → Prop
  | [], _, _, _ => True
  | x :: xs, t0, t1, s =>
    let r := p.adaptScaled (.fin t0) (.fin t1) x s
    r.keep = false ∧ ∃ b0 b1, r.t0 = .fin b0 ∧ r.t1 = .fin b1 ∧ RejectChain p xs b0 b1 r.state

/-- **C26**, consecutive rejections. With `dtmin = m`, a step of size `h` can be rejected at most
`N + 1` times in a row, if `safety ^ N * h ≤ m`. -/
theorem C26_consecutive_rejections (p : Pid K) (hp : p.Valid) (m : K) (hm : p.dtmin = some m)
    (hm0 : 0 < m) (xs : List (XVal K)) (hx : ∀ x ∈ xs, x.IsErr) (t0 t1 : K) (s : PidState K) (hs : s.Good) (N : Nat)
    (hN : p.safety ^ N * (t1 - t0) ≤ m)
    (hchain : RejectChain p xs t0 t1 s) : xs.length ≤ N + 1 := by
  induction xs generalizing t0 t1 s N with
  | nil => simp
  | cons x xs ih =>
    obtain ⟨f, d, r, hr, hk, _, _, h2, h3, h4, h5, h6, _, hg⟩ :=
      adapt_cases p hp s hs t0 t1 x (hx x (by simp))
    simp only [RejectChain] at hchain
    rw [hr] at hchain
    obtain ⟨hkeep, b0, b1, e0, e1, hrest⟩ := hchain
    rw [hkeep] at h3 h4
    simp only [Bool.false_eq_true, if_false] at h3 h4
    obtain rfl : b0 = t0 := by rw [h3] at e0; exact (XVal.fin.inj e0).symm
    obtain rfl : b1 = b0 + d := by rw [h4] at e1; exact (XVal.fin.inj e1).symm
    have hnot : s.atDtmin = false := by
      rw [hk] at hkeep
      unfold Pid.keep at hkeep
      rw [hm] at hkeep
      simp only [Bool.or_eq_false_iff] at hkeep
      exact hkeep.2
    have hd : d = clampDt p ((t1 - b0) * f) := by
      rcases h5 with h | ⟨h, _⟩
      · exact h
      · rw [hnot] at h; simp at h
    obtain ⟨hflag, hmd, _⟩ := h6 m hm
    -- if the next step is at dtmin it cannot be rejected
    by_cases hdm : d = m
    · have hfl : r.state.atDtmin = true := hflag.2 hdm
      cases xs with
      | nil => simp
      | cons x' xs =>
        simp only [RejectChain] at hrest
        have hk' := hrest.1
        have : (p.adaptScaled (.fin b0) (.fin (b0 + d)) x' r.state).keep = p.keep x' r.state.atDtmin := rfl
        rw [this] at hk'
        unfold Pid.keep at hk'
        rw [hm, hfl] at hk'
        simp at hk'
    · -- otherwise it shrank by `safety`
      have hlt : m < d := lt_of_le_of_ne hmd (Ne.symm hdm)
      have hle : d ≤ (t1 - b0) * f := by
        rw [hd] at hlt ⊢
        unfold clampDt at hlt ⊢
        rw [hm] at hlt ⊢
        cases hM : p.dtmax with
        | none =>
          rw [hM] at hlt
          simp only at hlt ⊢
          rcases lt_max_iff.1 hlt with h | h
          · exact max_le (le_refl _) h.le
          · exact absurd h (lt_irrefl _)
        | some M =>
          rw [hM] at hlt
          simp only at hlt ⊢
          rcases lt_max_iff.1 hlt with h | h
          · rw [max_eq_left h.le]; exact min_le_left _ _
          · exact absurd h (lt_irrefl _)
      have hfs := (h2 hkeep).2
      have hfpos : 0 < f := lt_of_lt_of_le hp.factormin_pos (h2 hkeep).1
      have hpos : 0 < t1 - b0 := by
        by_contra hneg
        have := mul_nonpos_of_nonpos_of_nonneg (not_lt.1 hneg) hfpos.le
        linarith
      cases N with
      | zero =>
        exfalso
        simp only [pow_zero, one_mul] at hN
        have : (t1 - b0) * f ≤ (t1 - b0) * 1 :=
          mul_le_mul_of_nonneg_left (by linarith [hp.safety_lt]) hpos.le
        linarith
      | succ N =>
        have hsize : p.safety ^ N * (b0 + d - b0) ≤ m := by
          have h7 : d ≤ (t1 - b0) * p.safety := le_trans hle (mul_le_mul_of_nonneg_left hfs hpos.le)
          have h8 : 0 ≤ p.safety ^ N := pow_nonneg hp.safety_pos.le N
          calc p.safety ^ N * (b0 + d - b0) = p.safety ^ N * d := by ring
            _ ≤ p.safety ^ N * ((t1 - b0) * p.safety) := mul_le_mul_of_nonneg_left h7 h8
            _ = p.safety ^ (N + 1) * (t1 - b0) := by ring
            _ ≤ m := hN
        have := ih (fun x hx' => hx x (List.mem_cons_of_mem _ hx')) b0 (b0 + d) r.state hg N hsize hrest
        simp only [List.length_cons]
        omega

section loop
variable {D S O F : Type} [LinearOrder F] [Zero F]

theorem filter_length_le {α : Type} (l : List α) (P : α → Bool) (B : Nat)
    (h : ∀ (i : Nat) (hi : i < l.length), P l[i] = true → i < B) : (l.filter P).length ≤ B := by
  have h1 : l.filter P = (l.take B).filter P ++ (l.drop B).filter P := by
    rw [← List.filter_append, List.take_append_drop]
  have h2 : (l.drop B).filter P = [] := by
    rw [List.filter_eq_nil_iff]
    intro a ha hP
    obtain ⟨i, hi, rfl⟩ := List.mem_iff_getElem.1 ha
    rw [List.getElem_drop] at hP
    rw [List.length_drop] at hi
    have := h (B + i) (by omega) hP
    omega
  rw [h1, h2, List.append_nil]
  exact le_trans (List.length_filter_le _ _) (List.length_take_le _ _)

/-- The state while the time is not yet close to the end. `j` counts the rejections since the last
accepted step. -/
def PidInv (p : Pid K) (cfg : Cfg K (XTree K) (XTree K) D S (PidState K) O F) (m : K) (N : Nat)
    (D0 : K) (s : Core K (XTree K) D S (PidState K) F) : Prop :=
  s.ctrlState.Good ∧ cfg.t0 ≤ s.tprev ∧ s.tprev ≤ s.tnext ∧ s.tnext ≤ cfg.t1 ∧
  (s.tprev ≤ cfg.t1 - D0 →
    (m ≤ s.tnext - s.tprev ∨ s.tnext = cfg.t1) ∧
    cfg.t0 + s.numAccepted * m ≤ s.tprev ∧
    ∃ j, s.numSteps ≤ s.numAccepted * (N + 2) + j ∧
      (s.ctrlState.atDtmin = true ∨ s.tnext - s.tprev ≤ p.safety ^ j * (cfg.t1 - cfg.t0)) ∧
      (j = 0 ∨ s.ctrlState.atDtmin = true ∨ m < s.tnext - s.tprev) ∧ j ≤ N + 1)

theorem pid_inv_step (p : Pid K) (hp : p.Valid) (m : K) (hm : p.dtmin = some m) (hm0 : 0 < m)
    (cfg : Cfg K (XTree K) (XTree K) D S (PidState K) O F) (hc : cfg.controller = pidController p)
    (hmid : ∀ a, cfg.mid a cfg.t1 = (a + cfg.t1) / 2)
    (hfl : cfg.floor ≤ cfg.t1) (N : Nat) (hN : p.safety ^ N * (cfg.t1 - cfg.t0) ≤ m)
    (D0 : K) (hD1 : m + (cfg.t1 - cfg.floor) ≤ D0) (hD2 : cfg.t1 - cfg.floor ≤ (1 - p.safety) * D0)
    (s : Core K (XTree K) D S (PidState K) F)
    (hx : (p.scaledError s.y (solverOut cfg s).y (cfg.cleanErr (solverOut cfg s).err)).IsErr)
    (hI : PidInv p cfg m N D0 s) : PidInv p cfg m N D0 (coreBody cfg s).1 := by
  obtain ⟨hg, ht0, hle, ht1, hearly⟩ := hI
  obtain ⟨f, d, r, hr, hk, _, h1, h2, h3, h4, h5, h6, _, hgood⟩ :=
    adapt_cases p hp s.ctrlState hg s.tprev s.tnext _ hx
  obtain ⟨hflag, hmd, _⟩ := h6 m hm
  have hao : adaptOut cfg s =
      { keep := r.keep, tprev := if r.keep then s.tnext else s.tprev,
        tnext := (if r.keep then s.tnext else s.tprev) + d, madeJump := false, state := r.state,
        result := r.result } := by
    have e : adaptOut cfg s = (pidController p).adapt s.tprev s.tnext s.y (solverOut cfg s).y
        (cfg.cleanErr (solverOut cfg s).err) s.ctrlState := by
      rw [← hc]; rfl
    rw [e]
    simp only [pidController, Pid.adapt]
    rw [hr, h3, h4]
    rfl
  have b1 : (coreBody cfg s).1.tprev = min (adaptOut cfg s).tprev cfg.t1 := rfl
  have b2 : (coreBody cfg s).1.tnext = clipToEnd cfg.mid (min (adaptOut cfg s).tprev cfg.t1)
      (adaptOut cfg s).tnext cfg.t1 cfg.floor (adaptOut cfg s).keep := rfl
  have b3 : (coreBody cfg s).1.ctrlState = (adaptOut cfg s).state := rfl
  have b4 : (coreBody cfg s).1.numSteps = s.numSteps + 1 := rfl
  have b5 : (coreBody cfg s).1.numAccepted
      = s.numAccepted + (if (adaptOut cfg s).keep then 1 else 0) := rfl
  rw [hao] at b1 b2 b3 b5
  simp only at b1 b2 b3 b5
  unfold PidInv
  rcases Bool.eq_false_or_eq_true r.keep with hkeep | hkeep
  · -- accepted
    rw [hkeep] at b1 b2 b5
    simp only [if_true] at b1 b2 b5
    rw [min_eq_left ht1] at b1 b2
    rw [b1, b2, b3, b4, b5]
    unfold clipToEnd
    simp only [if_true]
    have hlen : (if cfg.floor < s.tnext + d then cfg.t1 else s.tnext + d) ≤ cfg.t1 := by
      split
      · exact le_refl _
      · exact le_trans (not_lt.1 ‹_›) hfl
    have hlo : s.tnext ≤ (if cfg.floor < s.tnext + d then cfg.t1 else s.tnext + d) := by
      split
      · exact ht1
      · linarith
    refine ⟨hgood, by linarith, hlo, hlen, ?_⟩
    intro he
    have he' : s.tprev ≤ cfg.t1 - D0 := le_trans hle he
    obtain ⟨i1, i2, j, i3, i4, i5, i6⟩ := hearly he'
    have hD0 : 0 < D0 := by linarith
    have hadv : m ≤ s.tnext - s.tprev := by
      rcases i1 with h | h
      · exact h
      · rw [h] at he; linarith
    refine ⟨?_, ?_, 0, ?_, ?_, Or.inl rfl, Nat.zero_le _⟩
    · split
      · exact Or.inr rfl
      · left; linarith
    · push_cast; linarith
    · have : (s.numAccepted + 1) * (N + 2) = s.numAccepted * (N + 2) + (N + 2) := by ring
      omega
    · right
      rw [pow_zero, one_mul]; linarith
  · -- rejected
    rw [hkeep] at b1 b2 b5
    simp only [Bool.false_eq_true, if_false] at b1 b2 b5
    rw [min_eq_left (le_trans hle ht1)] at b1 b2
    have hnot : s.ctrlState.atDtmin = false := by
      rw [hk] at hkeep
      unfold Pid.keep at hkeep
      rw [hm] at hkeep
      simp only [Bool.or_eq_false_iff] at hkeep
      exact hkeep.2
    have hd : d = clampDt p ((s.tnext - s.tprev) * f) := by
      rcases h5 with h | ⟨h, _⟩
      · exact h
      · rw [hnot] at h; simp at h
    have hfs := (h2 hkeep).2
    have hle' : d = m ∨ d ≤ (s.tnext - s.tprev) * p.safety := by
      rcases eq_or_lt_of_le hmd with h | hlt
      · exact Or.inl h.symm
      · right
        have hsz : (s.tnext - s.tprev) * f ≤ (s.tnext - s.tprev) * p.safety :=
          mul_le_mul_of_nonneg_left hfs (by linarith)
        refine le_trans ?_ hsz
        rw [hd] at hlt ⊢
        unfold clampDt at hlt ⊢
        rw [hm] at hlt ⊢
        cases hM : p.dtmax with
        | none =>
          rw [hM] at hlt
          simp only at hlt ⊢
          rcases lt_max_iff.1 hlt with h | h
          · exact max_le (le_refl _) h.le
          · exact absurd h (lt_irrefl _)
        | some M =>
          rw [hM] at hlt
          simp only at hlt ⊢
          rcases lt_max_iff.1 hlt with h | h
          · rw [max_eq_left h.le]; exact min_le_left _ _
          · exact absurd h (lt_irrefl _)
    rw [b1, b2, b3, b4, b5]
    unfold clipToEnd
    simp only [Bool.false_eq_true, if_false]
    rw [hmid]
    have hb : s.tprev ≤ (if cfg.floor < s.tprev + d then (s.tprev + cfg.t1) / 2 else s.tprev + d) ∧
        (if cfg.floor < s.tprev + d then (s.tprev + cfg.t1) / 2 else s.tprev + d) ≤ cfg.t1 := by
      split
      · constructor <;> linarith
      · have := not_lt.1 ‹¬ cfg.floor < s.tprev + d›
        constructor <;> linarith
    refine ⟨hgood, ht0, hb.1, hb.2, ?_⟩
    intro he
    obtain ⟨i1, i2, j, i3, i4, i5, i6⟩ := hearly he
    have hnoclip : ¬ cfg.floor < s.tprev + d := by
      rw [not_lt]
      rcases hle' with h | h
      · linarith
      · have e1 : (s.tnext - s.tprev) * p.safety ≤ (cfg.t1 - s.tprev) * p.safety :=
          mul_le_mul_of_nonneg_right (by linarith) hp.safety_pos.le
        have e2 : (1 - p.safety) * D0 ≤ (1 - p.safety) * (cfg.t1 - s.tprev) :=
          mul_le_mul_of_nonneg_left (by linarith) (by linarith [hp.safety_lt])
        linarith
    rw [if_neg hnoclip]
    have hsz : s.tprev + d - s.tprev = d := by ring
    rw [hsz]
    have hsmall : s.tnext - s.tprev ≤ p.safety ^ j * (cfg.t1 - cfg.t0) := by
      rcases i4 with h | h
      · rw [hnot] at h; simp at h
      · exact h
    have hjN : j + 1 ≤ N + 1 := by
      rcases i5 with h | h | h
      · omega
      · rw [hnot] at h; simp at h
      · by_contra hcon
        have hjN : N ≤ j := by omega
        have hL : 0 ≤ cfg.t1 - cfg.t0 := by linarith
        have : p.safety ^ j ≤ p.safety ^ N :=
          pow_le_pow_of_le_one hp.safety_pos.le hp.safety_lt.le hjN
        have := mul_le_mul_of_nonneg_right this hL
        linarith
    refine ⟨Or.inl hmd, by simpa using i2, j + 1, ?_, ?_, ?_, hjN⟩
    · simp only [Nat.add_zero]; omega
    · rcases hle' with h | h
      · exact Or.inl (hflag.2 h)
      · right
        calc d ≤ (s.tnext - s.tprev) * p.safety := h
          _ ≤ (p.safety ^ j * (cfg.t1 - cfg.t0)) * p.safety :=
            mul_le_mul_of_nonneg_right hsmall hp.safety_pos.le
          _ = p.safety ^ (j + 1) * (cfg.t1 - cfg.t0) := by ring
    · right
      rcases eq_or_lt_of_le hmd with h | h
      · exact Or.inl (hflag.2 h.symm)
      · exact Or.inr h

theorem attempts_numSteps {T Y E D S C O F : Type} [LinearOrder T] [LinearOrder F] [Zero F]
    (cfg : Cfg T Y E D S C O F) (n : Nat) (s : Core T Y D S C F) (i : Nat)
    (hi : i < (attempts cfg n s).length) : (attempts cfg n s)[i].numSteps = s.numSteps + i := by
  induction n generalizing s i with
  | zero => simp [attempts] at hi
  | succ n ih =>
    by_cases hc : condFun cfg s = true
    · have h : attempts cfg (n + 1) s = s :: attempts cfg n (coreBody cfg s).1 := by
        simp [attempts, hc]
      simp only [h] at hi ⊢
      cases i with
      | zero => rfl
      | succ i =>
        simp only [List.getElem_cons_succ]
        rw [ih _ _ (by simpa using hi), coreBody_numSteps]
        omega
    · have h : attempts cfg (n + 1) s = [] := by simp [attempts, hc]
      rw [h] at hi
      simp at hi

/-- **C26, partial.** With `dtmin = m > 0`, whatever (non-NaN) errors are reported on the steps of the
solve and whatever the solver does: of all attempted steps, those that start at least `D0` before `t1`
number at most `A * (N + 2)`, where `A * m ≥ t1 - t0` and `safety ^ N * (t1 - t0) ≤ m`. Here `D0` is
`dtmin` plus the clipping zone (or the clipping zone divided by `1 - safety`). There is no bound on the
number of steps allowed, so this is about every prefix of the run.

Missing: NaN scaled errors, with which it is false (`C26_violated`), and the last `D0` before `t1`, where
rejected steps are cut to half the remaining interval, which need not be at least `dtmin`. -/
theorem C26_step_bound_partial (p : Pid K) (hp : p.Valid) (m : K) (hm : p.dtmin = some m) (hm0 : 0 < m)
    (cfg : Cfg K (XTree K) (XTree K) D S (PidState K) O F) (hc : cfg.controller = pidController p)
    (hmid : ∀ a, cfg.mid a cfg.t1 = (a + cfg.t1) / 2)
    (hlt : cfg.t0 ≤ cfg.t1) (hfl : cfg.floor ≤ cfg.t1)
    (y0 : XTree K) (dt0 tnext : K) (ctrl : PidState K)
    (hinit : p.init (.fin cfg.t0) (.fin dt0) = (.fin tnext, ctrl)) (ss : S) (mj : Bool)
    (hx : ∀ c ∈ callLog cfg y0 tnext ctrl ss mj,
      (p.scaledError c.ctrlY0 c.ctrlY1 c.ctrlErr).IsErr)
    (A N : Nat) (hA : cfg.t1 - cfg.t0 ≤ A * m) (hN : p.safety ^ N * (cfg.t1 - cfg.t0) ≤ m)
    (D0 : K) (hD1 : m + (cfg.t1 - cfg.floor) ≤ D0)
    (hD2 : cfg.t1 - cfg.floor ≤ (1 - p.safety) * D0) :
    ((callLog cfg y0 tnext ctrl ss mj).filter
      (fun c => decide (c.solverT0 ≤ cfg.t1 - D0))).length ≤ A * (N + 2) := by
  rw [log_eq] at hx ⊢
  have hinit' : m ≤ tnext - cfg.t0 ∧ ctrl = .fresh := by
    unfold Pid.init at hinit
    rw [hm] at hinit
    simp only at hinit
    have h1 := congrArg Prod.fst hinit
    have h2 := congrArg Prod.snd hinit
    refine ⟨?_, h2.symm⟩
    cases hM : p.dtmax with
    | none =>
      rw [hM] at h1
      simp only [XVal.max_fin, XVal.add] at h1
      have := XVal.fin.inj h1
      linarith [le_max_right dt0 m]
    | some M =>
      rw [hM] at h1
      simp only [XVal.max_fin, XVal.min_fin, XVal.add] at h1
      have := XVal.fin.inj h1
      linarith [le_max_right (min dt0 M) m]
  obtain ⟨hsz, rfl⟩ := hinit'
  have hinv0 : PidInv p cfg m N D0 (initState cfg y0 tnext .fresh ss mj).core := by
    refine ⟨fresh_good, le_refl _, ?_, min_le_right _ _, ?_⟩
    · show cfg.t0 ≤ min tnext cfg.t1
      exact le_min (by linarith) hlt
    · intro _
      refine ⟨?_, ?_, 0, ?_, Or.inr ?_, Or.inl rfl, Nat.zero_le _⟩
      · show m ≤ min tnext cfg.t1 - cfg.t0 ∨ min tnext cfg.t1 = cfg.t1
        rcases le_total tnext cfg.t1 with h | h
        · left; rw [min_eq_left h]; exact hsz
        · right; exact min_eq_right h
      · show cfg.t0 + ((0 : Nat) : K) * m ≤ cfg.t0
        simp
      · exact Nat.zero_le _
      · show min tnext cfg.t1 - cfg.t0 ≤ _
        rw [pow_zero, one_mul]
        linarith [min_le_right tnext cfg.t1]
  have hall := (run_inv cfg (PidInv p cfg m N D0) cfg.maxSteps
    (initState cfg y0 tnext .fresh ss mj).core hinv0 (by
      intro s hs _ hI
      refine pid_inv_step p hp m hm hm0 cfg hc hmid hfl N hN D0 hD1 hD2 s ?_ hI
      exact hx (expectedCall cfg s) (List.mem_map.2 ⟨s, hs, rfl⟩))).1
  apply filter_length_le
  intro i hi hP
  rw [List.length_map] at hi
  rw [List.getElem_map, decide_eq_true_iff] at hP
  have hmem := List.getElem_mem hi
  have hIi := hall _ hmem
  have hns := attempts_numSteps cfg cfg.maxSteps (initState cfg y0 tnext .fresh ss mj).core i hi
  have hns' : (history cfg y0 tnext PidState.fresh ss mj)[i].numSteps = i := by
    refine hns.trans ?_
    show 0 + i = i
    omega
  obtain ⟨_, _, hle, ht1, he⟩ := hIi
  obtain ⟨_, i2, j, i3, _, _, i6⟩ := he hP
  have hacc : (history cfg y0 tnext PidState.fresh ss mj)[i].numAccepted < A := by
    by_contra hcon
    have hge : (A : K) ≤ ((history cfg y0 tnext PidState.fresh ss mj)[i].numAccepted : K) := by
      exact_mod_cast not_lt.1 hcon
    have h1 := mul_le_mul_of_nonneg_right hge hm0.le
    have h2 : (history cfg y0 tnext PidState.fresh ss mj)[i].tprev ≤ cfg.t1 - D0 := hP
    have h3 : cfg.t0 + ((history cfg y0 tnext PidState.fresh ss mj)[i].numAccepted : K) * m
      ≤ (history cfg y0 tnext PidState.fresh ss mj)[i].tprev := i2
    linarith
  have h4 : (history cfg y0 tnext PidState.fresh ss mj)[i].numSteps
      ≤ (history cfg y0 tnext PidState.fresh ss mj)[i].numAccepted * (N + 2) + j := i3
  rw [hns'] at h4
  have h5 : ((history cfg y0 tnext PidState.fresh ss mj)[i].numAccepted + 1) * (N + 2) ≤ A * (N + 2) :=
    Nat.mul_le_mul_right _ hacc
  have h6 : ((history cfg y0 tnext PidState.fresh ss mj)[i].numAccepted + 1) * (N + 2)
      = (history cfg y0 tnext PidState.fresh ss mj)[i].numAccepted * (N + 2) + (N + 2) := by ring
  omega

/-- PIDController meets the hypotheses put on controllers by the loop theorems (C01, C07, C13, ...): on
every solve in which no scaled error is NaN, its answers move time forward and do not jump. -/
theorem pid_answers_forward (p : Pid K) (hp : p.Valid) (hmin : ∀ m, p.dtmin = some m → 0 ≤ m)
    (hmax : ∀ M, p.dtmax = some M → 0 ≤ M)
    (cfg : Cfg K (XTree K) (XTree K) D S (PidState K) O F) (hwf : cfg.WF)
    (hc : cfg.controller = pidController p) (y0 : XTree K) (dt0 tnext : K) (ctrl : PidState K)
    (hdt : 0 ≤ dt0) (hinit : p.init (.fin cfg.t0) (.fin dt0) = (.fin tnext, ctrl)) (ss : S) (mj : Bool)
    (hx : ∀ c ∈ callLog cfg y0 tnext ctrl ss mj,
      (p.scaledError c.ctrlY0 c.ctrlY1 c.ctrlErr).IsErr) :
    cfg.t0 ≤ tnext ∧ ∀ c ∈ callLog cfg y0 tnext ctrl ss mj,
      (c.answer cfg).Forward c.ctrlT0 c.ctrlT1 ∧ (c.answer cfg).Exact c.ctrlT0 c.ctrlT1 := by
  have hstep : ∀ (s : Core K (XTree K) D S (PidState K) F), s.ctrlState.Good → s.tprev ≤ s.tnext →
      (p.scaledError s.y (solverOut cfg s).y (cfg.cleanErr (solverOut cfg s).err)).IsErr →
      (adaptOut cfg s).Forward s.tprev s.tnext ∧ (adaptOut cfg s).Exact s.tprev s.tnext ∧
      (adaptOut cfg s).state.Good := by
    intro s hg hle hxs
    obtain ⟨f, d, r, hr, hk, _, h1, h2, h3, h4, h5, h6, _, hgood⟩ :=
      adapt_cases p hp s.ctrlState hg s.tprev s.tnext _ hxs
    have hf : 0 < f := by
      rcases Bool.eq_false_or_eq_true r.keep with h | h
      · exact lt_of_lt_of_le one_pos (h1 h).1
      · exact lt_of_lt_of_le hp.factormin_pos (h2 h).1
    have hd : 0 ≤ d := by
      rcases h5 with h | ⟨_, _, h⟩
      · have h0 : 0 ≤ (s.tnext - s.tprev) * f := mul_nonneg (by linarith) hf.le
        rw [h]
        unfold clampDt
        cases hm : p.dtmin with
        | none =>
          cases hM : p.dtmax with
          | none => exact h0
          | some M => exact le_min h0 (hmax M hM)
        | some m => exact le_trans (hmin m hm) (le_max_right _ _)
      · exact hmin d h
    have hao : adaptOut cfg s =
        { keep := r.keep, tprev := if r.keep then s.tnext else s.tprev,
          tnext := (if r.keep then s.tnext else s.tprev) + d, madeJump := false, state := r.state,
          result := r.result } := by
      have e : adaptOut cfg s = (pidController p).adapt s.tprev s.tnext s.y (solverOut cfg s).y
          (cfg.cleanErr (solverOut cfg s).err) s.ctrlState := by
        rw [← hc]; rfl
      rw [e]
      simp only [pidController, Pid.adapt]
      rw [hr, h3, h4]
      rfl
    rw [hao]
    refine ⟨⟨?_, ?_, ?_⟩, ⟨?_, ?_⟩, hgood⟩
    · intro h; simp only at h ⊢; rw [if_pos h]
    · intro h; simp only at h ⊢; rw [if_neg (by rw [h]; simp)]
    · simp only; linarith
    · intro h; simp only at h ⊢; rw [if_pos h]
    · intro h; simp only at h ⊢; rw [if_neg (by rw [h]; simp)]
  have hinit' : cfg.t0 ≤ tnext ∧ ctrl = .fresh := by
    have h2 := congrArg Prod.snd hinit
    have h1 := congrArg Prod.fst hinit
    refine ⟨?_, h2.symm⟩
    unfold Pid.init at h1
    cases hM : p.dtmax with
    | none =>
      cases hm : p.dtmin with
      | none =>
        rw [hM, hm] at h1
        simp only [XVal.add] at h1
        have := XVal.fin.inj h1
        linarith
      | some m =>
        rw [hM, hm] at h1
        simp only [XVal.max_fin, XVal.add] at h1
        have := XVal.fin.inj h1
        linarith [le_max_left dt0 m]
    | some M =>
      cases hm : p.dtmin with
      | none =>
        rw [hM, hm] at h1
        simp only [XVal.min_fin, XVal.add] at h1
        have := XVal.fin.inj h1
        linarith [le_min hdt (hmax M hM)]
      | some m =>
        rw [hM, hm] at h1
        simp only [XVal.max_fin, XVal.min_fin, XVal.add] at h1
        have := XVal.fin.inj h1
        linarith [le_max_left (min dt0 M) m, le_min hdt (hmax M hM)]
  obtain ⟨ht, rfl⟩ := hinit'
  refine ⟨ht, ?_⟩
  rw [log_eq] at hx ⊢
  have hall := (run_inv cfg (fun s => s.ctrlState.Good ∧ s.tprev ≤ s.tnext ∧ s.tnext ≤ cfg.t1)
    cfg.maxSteps (initState cfg y0 tnext .fresh ss mj).core
    ⟨fresh_good, le_min ht hwf.le, min_le_right _ _⟩ (by
      intro s hs _ hI
      obtain ⟨hF, hE, hG⟩ := hstep s hI.1 hI.2.1 (hx (expectedCall cfg s) (List.mem_map.2 ⟨s, hs, rfl⟩))
      have hpt : (adaptOut cfg s).tprev ≤ cfg.t1 := by
        rcases Bool.eq_false_or_eq_true (adaptOut cfg s).keep with h | h
        · rw [hE.1 h]; exact hI.2.2
        · rw [hE.2 h]; exact le_trans hI.2.1 hI.2.2
      refine ⟨hG, ?_, ?_⟩
      · show min (adaptOut cfg s).tprev cfg.t1 ≤ clipToEnd cfg.mid (min (adaptOut cfg s).tprev cfg.t1)
          (adaptOut cfg s).tnext cfg.t1 cfg.floor (adaptOut cfg s).keep
        rw [min_eq_left hpt]
        unfold clipToEnd
        simp only
        split
        · split
          · exact hpt
          · exact hwf.le_mid _ hpt
        · exact hF.2.2
      · show clipToEnd cfg.mid (min (adaptOut cfg s).tprev cfg.t1)
          (adaptOut cfg s).tnext cfg.t1 cfg.floor (adaptOut cfg s).keep ≤ cfg.t1
        rw [min_eq_left hpt]
        unfold clipToEnd
        simp only
        split
        · split
          · exact le_refl _
          · exact hwf.mid_le _ hpt
        · exact le_trans (not_lt.1 ‹_›) hwf.floor_le)).1
  intro c hcm
  obtain ⟨s, hs, rfl⟩ := List.mem_map.1 hcm
  obtain ⟨hF, hE, _⟩ := hstep s (hall s hs).1 (hall s hs).2.1 (hx _ hcm)
  exact ⟨hF, hE⟩

end loop

/-- Once the end of the step is NaN it stays NaN, whatever the errors. -/
theorem nan_forever (p : Pid K) (t0 x : XVal K) (s : PidState K) :
    (p.adaptScaled t0 .nan x s).t1 = .nan := by
  have hsub : (XVal.nan : XVal K).sub t0 = .nan := XVal.nan_sub t0
  by_cases hkeep : p.keep x s.atDtmin = true
  · show (if p.keep x s.atDtmin then XVal.nan else t0).add _ = _
    rw [if_pos hkeep]
    exact XVal.nan_add _
  · show (if p.keep x s.atDtmin then XVal.nan else t0).add _ = _
    have hk : p.keep x s.atDtmin = false := by simpa using hkeep
    cases hm : p.dtmin with
    | none =>
      cases hM : p.dtmax with
      | none => simp only [hsub, XVal.nan_mul, hM]; exact XVal.add_nan _
      | some M => simp only [hsub, XVal.nan_mul, hM, XVal.min]; exact XVal.add_nan _
    | some m =>
      have hat : s.atDtmin = false := by
        unfold Pid.keep at hk
        rw [hm] at hk
        simp only [Bool.or_eq_false_iff] at hk
        exact hk.2
      cases hM : p.dtmax with
      | none =>
        simp only [hsub, XVal.nan_mul, hM, hat, Bool.false_and, XVal.max]
        exact XVal.add_nan _
      | some M =>
        simp only [hsub, XVal.nan_mul, hM, hat, Bool.false_and, XVal.min, XVal.max]
        exact XVal.add_nan _

/-- The times and states of a run of the controller on a given sequence of errors. -/
def pidTimes (p : Pid K) : List (XVal K) → XVal K → XVal K → PidState K → XVal K × XVal K
  | [], t0, t1, _ => (t0, t1)
  | x :: xs, t0, t1, s =>
    let r := p.adaptScaled t0 t1 x s
    pidTimes p xs r.t0 r.t1 r.state

/-- **C26 is false of the code when a step overflows.** With `dtmin` set and `force_dtmin=True`: from a
finite state, a candidate value that is infinite with an infinite error (as after an overflow) gives a
NaN scaled error. The step is rejected and the end of the next step is NaN; it then stays NaN through
all further calls, whatever errors are reported. -/
theorem C26_violated :
    (pidQ (some (1 / 100))).scaledError [[.fin 1]] [[.pinf]] [[.pinf]] = .nan ∧
    ((pidQ (some (1 / 100))).adapt (.fin 0) (.fin 1) [[.fin 1]] [[.pinf]] [[.pinf]] .fresh).keep = false ∧
    ∀ xs : List (XVal ℚ),
      let r := (pidQ (some (1 / 100))).adapt (.fin 0) (.fin 1) [[.fin 1]] [[.pinf]] [[.pinf]] .fresh
      (pidTimes (pidQ (some (1 / 100))) xs r.t0 r.t1 r.state).2 = .nan := by
  refine ⟨by decide +kernel, by decide +kernel, ?_⟩
  intro xs
  have h : ∀ (xs : List (XVal ℚ)) (a : XVal ℚ) (s : PidState ℚ),
      (pidTimes (pidQ (some (1 / 100))) xs a .nan s).2 = .nan := by
    intro xs
    induction xs with
    | nil => intro a s; rfl
    | cons x xs ih =>
      intro a s
      simp only [pidTimes]
      rw [nan_forever]
      exact ih _ _
  have h1 : ((pidQ (some (1 / 100))).adapt (.fin 0) (.fin 1) [[.fin 1]] [[.pinf]] [[.pinf]]
      .fresh).t1 = .nan := by decide +kernel
  simp only
  rw [h1]
  exact h xs _ _

/-- A configuration with the example controller, for the hypotheses of the bound. -/
def pidCfg : Cfg ℚ (XTree ℚ) (XTree ℚ) Unit Int (PidState ℚ) Int ℚ :=
  { solver := { step := fun a b y s _ => { y := y, err := [[.fin (4 * (b - a))]], dense := (), state := s,
                                           result := .successful },
                interp := fun _ _ _ _ => [] },
    controller := pidController (pidQ (some (1 / 10))), cleanErr := id, events := [],
    rootFinder := none, dist := fun a b => a - b, dummyDense := (), t0 := 0, t1 := 1,
    floor := 99 / 100, mid := fun a b => (a + b) / 2, subs := [], dense := false, maxSteps := 40 }

/-- Errors `4 * dt / 1.1`: the first step is rejected, later ones accepted. The bound with `A = 10` and
`N = 22` applies. -/
example : ((callLog pidCfg [[.fin 1]] (1 / 2) .fresh 0 false).filter
      (fun c => decide (c.solverT0 ≤ 1 - 11 / 100))).length ≤ 10 * (22 + 2) := by
  refine C26_step_bound_partial (pidQ (some (1 / 10))) (pidQ_valid _) (1 / 10) rfl (by norm_num) pidCfg
    rfl (fun _ => rfl) (by norm_num [pidCfg]) (by norm_num [pidCfg]) [[.fin 1]] (1 / 2) (1 / 2) .fresh
    (by decide +kernel) 0 false ?_ 10 22 (by norm_num [pidCfg]) (by norm_num [pidCfg, pidQ]) (11 / 100)
    (by norm_num [pidCfg]) (by norm_num [pidCfg, pidQ])
  have hgood : ∀ c ∈ callLog pidCfg [[.fin 1]] (1 / 2) .fresh 0 false,
      (match (pidQ (some (1 / 10))).scaledError c.ctrlY0 c.ctrlY1 c.ctrlErr with
       | .pinf => true
       | .fin a => decide (0 ≤ a)
       | _ => false) = true := by decide +kernel
  intro c hcm
  have := hgood c hcm
  cases h : (pidQ (some (1 / 10))).scaledError c.ctrlY0 c.ctrlY1 c.ctrlErr with
  | nan => rw [h] at this; simp at this
  | ninf => rw [h] at this; simp at this
  | pinf => exact Or.inl rfl
  | fin a => rw [h] at this; exact Or.inr ⟨a, by simpa using this, rfl⟩

/-- The first two steps of that run: rejected, then retried. -/
example : ((callLog pidCfg [[.fin 1]] (1 / 2) .fresh 0 false).map
    (fun c => (c.solverT0, c.solverT1))).take 3
      = [(0, 1 / 2), (0, 99 / 400), (99 / 400, 99 / 400 + 99 / 400 )] := by decide +kernel

end Verif
