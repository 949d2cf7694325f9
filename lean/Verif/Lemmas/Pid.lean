import Verif.Spec.Pid
import Mathlib.Algebra.Order.Field.Basic
import Mathlib.Tactic.Linarith
import Mathlib.Tactic.Positivity

/-! # Helper lemmas on extended values and the PID factor -/

set_option linter.unusedSectionVars false

namespace Verif

variable {K : Type} [Field K] [LinearOrder K] [IsStrictOrderedRing K]

namespace XVal

theorem min_fin (a b : K) : XVal.min (.fin a) (.fin b) = .fin (Min.min a b) := by
  simp only [XVal.min, XVal.lt]
  by_cases h : b < a
  · simp [h, min_eq_right h.le]
  · simp [h, min_eq_left (not_lt.1 h)]

theorem max_fin (a b : K) : XVal.max (.fin a) (.fin b) = .fin (Max.max a b) := by
  simp only [XVal.max, XVal.lt]
  by_cases h : a < b
  · simp [h, max_eq_right h.le]
  · simp [h, max_eq_left (not_lt.1 h)]

theorem abs_fin (a : K) : (XVal.fin a).abs = .fin |a| := by
  simp only [XVal.abs]
  by_cases h : a < 0
  · simp [h, abs_of_neg h]
  · simp [h, abs_of_nonneg (not_lt.1 h)]

theorem clip_fin (a lo hi : K) :
    XVal.clip (.fin a) (.fin lo) (.fin hi) = .fin (Min.min (Max.max a lo) hi) := by
  rw [XVal.clip, max_fin, min_fin]

theorem clip_pinf (lo hi : K) : XVal.clip (.pinf) (.fin lo) (.fin hi) = .fin hi := by
  simp [XVal.clip, XVal.max, XVal.min, XVal.lt]

theorem nan_mul (x : XVal K) : XVal.mul .nan x = .nan := by cases x <;> rfl
theorem mul_nan (x : XVal K) : XVal.mul x .nan = .nan := by cases x <;> rfl
theorem nan_add (x : XVal K) : XVal.add .nan x = .nan := by cases x <;> rfl
theorem add_nan (x : XVal K) : XVal.add x .nan = .nan := by cases x <;> rfl
theorem nan_sub (x : XVal K) : XVal.sub .nan x = .nan := by
  unfold XVal.sub; exact nan_add _

theorem pow_pos {rpow : K → K → K} (hp : ∀ b c, 0 < b → 0 < rpow b c) {x : XVal K} (h : x.Pos)
    (c : K) : (XVal.pow rpow x c).Pos := by
  obtain ⟨a, ha, rfl⟩ := h
  unfold XVal.pow
  split
  · exact ⟨1, one_pos, rfl⟩
  · simp only [ha.ne', if_false, ha, if_true]
    exact ⟨_, hp _ _ ha, rfl⟩

theorem pow_isErr {rpow : K → K → K} (hp : ∀ b c, 0 < b → 0 < rpow b c) {x : XVal K} (h : x.IsErr)
    (c : K) : (XVal.pow rpow x c).IsErr := by
  unfold XVal.pow
  split
  · exact Or.inr ⟨1, zero_le_one, rfl⟩
  · rcases h with rfl | ⟨a, ha, rfl⟩
    · simp only
      split
      · exact Or.inl rfl
      · exact Or.inr ⟨0, le_refl _, rfl⟩
    · simp only
      split
      · split
        · exact Or.inr ⟨0, le_refl _, rfl⟩
        · exact Or.inl rfl
      · rename_i h0
        have : 0 < a := lt_of_le_of_ne ha (Ne.symm h0)
        rw [if_pos this]
        exact Or.inr ⟨_, (hp _ _ this).le, rfl⟩

theorem inv_isErr {x : XVal K} (h : x.IsErr) : (XVal.div (.fin 1) x).IsErr := by
  rcases h with rfl | ⟨a, ha, rfl⟩
  · exact Or.inr ⟨0, le_refl _, rfl⟩
  · simp only [XVal.div]
    split
    · left; simp [signInf]
    · right; exact ⟨1 / a, by positivity, rfl⟩

theorem mul_isErr {x y : XVal K} (hx : x.IsErr) (hy : y.Pos) : (x.mul y).IsErr := by
  obtain ⟨b, hb, rfl⟩ := hy
  rcases hx with rfl | ⟨a, ha, rfl⟩
  · left; simp [XVal.mul, signInf, hb.ne', hb]
  · right; exact ⟨a * b, by positivity, rfl⟩

theorem pos_mul_isErr {x y : XVal K} (hx : x.Pos) (hy : y.IsErr) : (x.mul y).IsErr := by
  obtain ⟨b, hb, rfl⟩ := hx
  rcases hy with rfl | ⟨a, ha, rfl⟩
  · left; simp [XVal.mul, signInf, hb.ne', hb]
  · right; exact ⟨b * a, by positivity, rfl⟩

theorem clip_isErr {x : XVal K} (h : x.IsErr) {lo hi : K} (hlh : lo ≤ hi) :
    ∃ f, XVal.clip x (.fin lo) (.fin hi) = .fin f ∧ lo ≤ f ∧ f ≤ hi := by
  rcases h with rfl | ⟨a, _, rfl⟩
  · exact ⟨hi, clip_pinf _ _, hlh, le_refl _⟩
  · exact ⟨_, clip_fin _ _ _, le_min (le_max_right _ _) hlh, min_le_right _ _⟩

end XVal

theorem Pid.Valid.safety_pos {p : Pid K} (h : p.Valid) : 0 < p.safety :=
  lt_of_lt_of_le h.factormin_pos h.factormin_le

theorem factor_bounds (p : Pid K) (hp : p.Valid) (s : PidState K) (hs : s.Good) (x : XVal K)
    (hx : x.IsErr) (keep : Bool) :
    ∃ f, p.factor x keep s = .fin f ∧ (keep = true → 1 ≤ f ∧ f ≤ p.factormax) ∧
      (keep = false → p.factormin ≤ f ∧ f ≤ p.safety) := by
  have h1 := XVal.pow_isErr hp.rpow_pos (XVal.inv_isErr hx)
    ((p.icoeff + p.pcoeff + p.dcoeff) / p.order)
  have h2 := XVal.pow_pos hp.rpow_pos hs.1 (-(p.pcoeff + 2 * p.dcoeff) / p.order)
  have h3 := XVal.pow_pos hp.rpow_pos hs.2 (p.dcoeff / p.order)
  have h0 : (XVal.fin p.safety).Pos := ⟨_, hp.safety_pos, rfl⟩
  have h4 := XVal.mul_isErr (XVal.mul_isErr (XVal.pos_mul_isErr h0 h1) h2) h3
  unfold Pid.factor
  cases keep with
  | true =>
    obtain ⟨f, hf, hl, hh⟩ := XVal.clip_isErr h4 hp.le_factormax
    exact ⟨f, hf, fun _ => ⟨hl, hh⟩, fun h => by simp at h⟩
  | false =>
    obtain ⟨f, hf, hl, hh⟩ := XVal.clip_isErr h4 hp.factormin_le
    exact ⟨f, hf, fun h => by simp at h, fun _ => ⟨hl, hh⟩⟩

/-- One step of the controller, for finite times and any error that is not NaN. -/
theorem adapt_cases (p : Pid K) (hp : p.Valid) (s : PidState K) (hs : s.Good) (t0 t1 : K) (x : XVal K)
    (hx : x.IsErr) :
    ∃ (f d : K) (r : PidOut K), p.adaptScaled (.fin t0) (.fin t1) x s = r ∧
      r.keep = p.keep x s.atDtmin ∧
      p.factor x r.keep s = .fin f ∧
      (r.keep = true → 1 ≤ f ∧ f ≤ p.factormax) ∧
      (r.keep = false → p.factormin ≤ f ∧ f ≤ p.safety) ∧
      r.t0 = .fin (if r.keep then t1 else t0) ∧ r.t1 = .fin ((if r.keep then t1 else t0) + d) ∧
      (d = clampDt p ((t1 - t0) * f) ∨ (s.atDtmin = true ∧ f = 1 ∧ p.dtmin = some d)) ∧
      (∀ m, p.dtmin = some m → (r.state.atDtmin = true ↔ d = m) ∧ m ≤ d ∧
        (p.forceDtmin = true → r.result = .successful)) ∧
      (p.dtmin = none → r.result = .successful ∧ r.state.atDtmin = s.atDtmin) ∧
      r.state.Good := by
  obtain ⟨f, hf, hk, hr⟩ := factor_bounds p hp s hs x hx (p.keep x s.atDtmin)
  have hinv : (if decide (XVal.div (.fin 1) x = .fin 0) || (XVal.div (.fin 1) x).isInf then .fin 1
      else XVal.div (.fin 1) x : XVal K).Pos := by
    rcases XVal.inv_isErr hx with h | ⟨a, ha, h⟩
    · rw [h]; exact ⟨1, one_pos, by simp [XVal.isInf]⟩
    · rw [h]
      by_cases h0 : a = 0
      · subst h0; exact ⟨1, one_pos, by simp⟩
      · refine ⟨a, lt_of_le_of_ne ha (Ne.symm h0), ?_⟩
        simp [h0, XVal.isInf]
  have hgood : (p.adaptScaled (.fin t0) (.fin t1) x s).state.Good := by
    constructor
    · show (if p.keep x s.atDtmin then _ else s.prevInv : XVal K).Pos
      split
      · exact hinv
      · exact hs.1
    · show (if p.keep x s.atDtmin then s.prevInv else s.prevPrevInv : XVal K).Pos
      split
      · exact hs.1
      · exact hs.2
  have hdt : (XVal.fin t1).sub (.fin t0) = .fin (t1 - t0) := by
    simp [XVal.sub, XVal.neg, XVal.add, sub_eq_add_neg]
  have hif : (if p.keep x s.atDtmin then XVal.fin t1 else XVal.fin t0)
      = .fin (if p.keep x s.atDtmin then t1 else t0) := by split <;> rfl
  -- the step size after dtmax
  obtain ⟨e, he, hee⟩ : ∃ e : K, (match p.dtmax with
      | some m => XVal.min (.fin ((t1 - t0) * f)) (.fin m)
      | none => (.fin ((t1 - t0) * f) : XVal K)) = .fin e ∧
      e = (match p.dtmax with | some m => min ((t1 - t0) * f) m | none => (t1 - t0) * f) := by
    cases p.dtmax with
    | none => exact ⟨_, rfl, rfl⟩
    | some m => exact ⟨_, XVal.min_fin _ _, rfl⟩
  have hc : ∀ m, p.dtmin = some m → clampDt p ((t1 - t0) * f) = max e m := by
    intro m hm; unfold clampDt; rw [hm, hee]; cases p.dtmax <;> rfl
  have hc0 : p.dtmin = none → clampDt p ((t1 - t0) * f) = e := by
    intro hm; unfold clampDt; rw [hm, hee]; cases p.dtmax <;> rfl
  cases hm : p.dtmin with
  | none =>
    refine ⟨f, e, _, rfl, rfl, hf, hk, hr, ?_, ?_, Or.inl (hc0 hm).symm, ?_, ?_, hgood⟩
    · exact hif
    · show (if p.keep x s.atDtmin then XVal.fin t1 else XVal.fin t0).add _ = _
      rw [hif, hm]
      show XVal.add _ (match p.dtmax with | some m => _ | none => _) = _
      rw [hdt, hf]
      show XVal.add _ (match p.dtmax with
        | some m => XVal.min (.fin ((t1 - t0) * f)) (.fin m)
        | none => (.fin ((t1 - t0) * f) : XVal K)) = _
      rw [he]
      rfl
    · intro m h; simp at h
    · intro _
      constructor
      · show (match p.dtmin with | some m => _ | none => _ : XVal K × Bool × Result).2.2 = _
        rw [hm]
      · show (match p.dtmin with | some m => _ | none => _ : XVal K × Bool × Result).2.1 = _
        rw [hm]
  | some m =>
    -- the reset
    obtain ⟨g, hg⟩ : ∃ g : K, g = if s.atDtmin && decide (f = 1) then m else e := ⟨_, rfl⟩
    have hg' : (if s.atDtmin && decide (XVal.fin f = XVal.fin 1) then XVal.fin m else XVal.fin e)
        = XVal.fin g := by
      rw [hg]
      have : decide (XVal.fin f = XVal.fin 1) = decide (f = 1) := by
        by_cases h : f = 1 <;> simp [h]
      rw [this]
      split <;> rfl
    refine ⟨f, max g m, _, rfl, rfl, hf, hk, hr, ?_, ?_, ?_, ?_, ?_, hgood⟩
    · exact hif
    · show (if p.keep x s.atDtmin then XVal.fin t1 else XVal.fin t0).add _ = _
      rw [hif, hm, hdt, hf]
      show XVal.add _ (XVal.max (if _ then XVal.fin m else (match p.dtmax with
        | some m => XVal.min (.fin ((t1 - t0) * f)) (.fin m)
        | none => (.fin ((t1 - t0) * f) : XVal K))) _) = _
      rw [he, hg', XVal.max_fin]
      rfl
    · by_cases h : s.atDtmin = true ∧ f = 1
      · right
        refine ⟨h.1, h.2, ?_⟩
        have : g = m := by rw [hg]; simp [h.1, h.2]
        rw [this, max_self]
      · left
        have : g = e := by
          rw [hg, if_neg]
          simpa using h
        rw [this, hc m hm]
    · intro m' hm'
      obtain rfl : m = m' := Option.some.inj hm'
      refine ⟨?_, le_max_right _ _, ?_⟩
      · show (match p.dtmin with | some m => _ | none => _ : XVal K × Bool × Result).2.1 = true ↔ _
        rw [hm]
        show XVal.le (if s.atDtmin && decide (p.factor x (p.keep x s.atDtmin) s = .fin 1)
          then .fin m else _) (.fin m) = true ↔ _
        rw [hdt, hf]
        show XVal.le (if _ then XVal.fin m else (match p.dtmax with
          | some m => XVal.min (.fin ((t1 - t0) * f)) (.fin m)
          | none => (.fin ((t1 - t0) * f) : XVal K))) _ = true ↔ _
        rw [he, hg']
        simp only [XVal.le, decide_eq_true_iff]
        exact max_eq_right_iff.symm
      · intro hforce
        show (match p.dtmin with | some m => _ | none => _ : XVal K × Bool × Result).2.2 = _
        rw [hm]
        simp [hforce]
    · intro h; simp at h

end Verif
