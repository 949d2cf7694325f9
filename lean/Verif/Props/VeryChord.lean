import Verif.Model.VeryChord
import Mathlib.Analysis.Seminorm
import Mathlib.Tactic.Linarith
import Mathlib.Tactic.NormNum
import Mathlib.Tactic.FieldSimp
import Mathlib.Algebra.Order.Field.Rat

/-!
# The chord root finder (C55)
-/

namespace Verif.Chord

section
variable {Y K : Type} [Field K] [LinearOrder K] [IsStrictOrderedRing K]

/-! ### The iterates, on their own -/

/-- The `n`-th iterate. -/
def iter (c : Chord Y K) (y : Y) : ℕ → Y
  | 0 => y
  | n + 1 => c.sub (iter c y n) (c.linearSolve (c.fn (iter c y n))).1

/-- Whether the linear solve that takes iterate `n` to iterate `n + 1` is all right. -/
def linRes (c : Chord Y K) (y : Y) (n : ℕ) : Result := (c.linearSolve (c.fn (c.iter y n))).2

/-- The size of the update that takes iterate `n` to iterate `n + 1`. -/
def upd (c : Chord Y K) (y : Y) (n : ℕ) : XVal K :=
  c.size (c.linearSolve (c.fn (c.iter y n))).1 (c.iter y (n + 1))

/-- The size of an update of size `d` is negligible. -/
def Negligible (c : Chord Y K) (d : XVal K) : Prop := ∃ x, d = .fin x ∧ x < c.resolution

/-- An update of size `d` after one of size `p`: the sizes decrease, and if they go on to do so at the same rate
`d / p`, then all updates still to come add up to less than `kappa`. -/
def Converges (c : Chord Y K) (p d : XVal K) : Prop :=
  ∃ x z, p = .fin x ∧ d = .fin z ∧ 0 < z ∧ z < x ∧ z * (z / x) / (1 - z / x) < c.kappa

/-- An update of size `d` after one of size `p`: a value that is not finite, or an update from nothing, or more than
twice as large as the previous one. -/
def Diverges (p d : XVal K) : Prop :=
  d = .nan ∨ p = .nan ∨ d = .pinf ∨ p = .fin 0 ∨ ∃ x z, p = .fin x ∧ d = .fin z ∧ 2 * x < z

/-- There is a reason to stop. -/
def Stops (c : Chord Y K) (p d : XVal K) : Prop := c.Negligible d ∨ Diverges p d ∨ c.Converges p d

/-- Sizes are not negative. -/
def SizesNonneg (c : Chord Y K) : Prop := ∀ v z, c.size v z ≠ .ninf ∧ ∀ x, c.size v z = .fin x → 0 ≤ x

/-! ### The states of the loop -/

def stateAt (c : Chord Y K) (y : Y) : ℕ → ChordState K
  | 0 => init
  | 1 => { diffsize := c.upd y 0, diffsizePrev := .pinf, result := c.linRes y 0, step := 1 }
  | n + 2 => { diffsize := c.upd y (n + 1), diffsizePrev := c.upd y n, result := c.linRes y (n + 1), step := n + 2 }

theorem step_stateAt (c : Chord Y K) (y : Y) (n : ℕ) :
    c.step (c.iter y n) (c.stateAt y n) = (c.iter y (n + 1), c.stateAt y (n + 1)) := by
  match n with
  | 0 => rfl
  | 1 => rfl
  | n + 2 => rfl

theorem loop_spec (c : Chord Y K) (y : Y) (m k : ℕ) (hk : ∀ j < k, (c.terminate (c.stateAt y j)).1 = false) :
    ∃ n, k ≤ n ∧ n ≤ k + m ∧ c.chordLoop m (c.iter y k) (c.stateAt y k) = (c.iter y n, c.stateAt y n) ∧
      (∀ j < n, (c.terminate (c.stateAt y j)).1 = false) ∧ ((c.terminate (c.stateAt y n)).1 = true ∨ n = k + m) := by
  induction m generalizing k with
  | zero => exact ⟨k, le_rfl, le_rfl, rfl, hk, Or.inr rfl⟩
  | succ m ih =>
    by_cases ht : (c.terminate (c.stateAt y k)).1 = true
    · exact ⟨k, le_rfl, by omega, by simp [chordLoop, ht], hk, Or.inl ht⟩
    · have ht' : (c.terminate (c.stateAt y k)).1 = false := by simpa using ht
      obtain ⟨n, h1, h2, h3, h4, h5⟩ := ih (k + 1) (by
        intro j hj
        rcases Nat.lt_succ_iff_lt_or_eq.1 hj with h | rfl
        · exact hk j h
        · exact ht')
      refine ⟨n, by omega, by omega, ?_, h4, h5.imp id (by omega)⟩
      simp only [chordLoop, ht', Bool.false_eq_true, if_false, step_stateAt]
      exact h3

theorem small_iff (c : Chord Y K) (d : XVal K) (hd : d ≠ .ninf) : c.small d = true ↔ c.Negligible d := by
  unfold small Negligible
  cases d <;> simp_all [XVal.lt]

theorem diverged_iff (p d : XVal K) (hp : p ≠ .ninf ∧ ∀ x, p = .fin x → 0 ≤ x) (hd : d ≠ .ninf ∧ ∀ x, d = .fin x → 0 ≤ x) :
    diverged (d.div p) = true ↔ Diverges p d := by
  unfold diverged Diverges
  cases d with
  | nan => simp [XVal.div, XVal.isNan]
  | ninf => exact absurd rfl hd.1
  | pinf =>
    cases p with
    | nan => simp [XVal.div, XVal.isNan]
    | ninf => exact absurd rfl hp.1
    | pinf => simp [XVal.div, XVal.isNan]
    | fin x => have := hp.2 x rfl; simp [XVal.div, not_lt.2 this, XVal.isInf]
  | fin z =>
    have hz := hd.2 z rfl
    cases p with
    | nan => simp [XVal.div, XVal.isNan]
    | ninf => exact absurd rfl hp.1
    | pinf => simp [XVal.div, XVal.isNan, XVal.isInf, XVal.lt]
    | fin x =>
      have hx := hp.2 x rfl
      by_cases h0 : x = 0
      · subst h0
        by_cases hz0 : z = 0
        · simp [XVal.div, XVal.signInf, hz0, XVal.isNan]
        · simp [XVal.div, XVal.signInf, hz0, lt_of_le_of_ne hz (Ne.symm hz0), XVal.isInf]
      · have hx' : 0 < x := lt_of_le_of_ne hx (Ne.symm h0)
        simp [XVal.div, h0, XVal.isNan, XVal.isInf, XVal.lt, lt_div_iff₀ hx']

theorem converged_iff (c : Chord Y K) (p d : XVal K) (hp : p ≠ .ninf ∧ ∀ x, p = .fin x → 0 ≤ x)
    (hd : d ≠ .ninf ∧ ∀ x, d = .fin x → 0 ≤ x) :
    c.converged ((d.mul (d.div p)).div ((XVal.fin 1).sub (d.div p))) = true ↔ c.Converges p d := by
  unfold converged Converges
  cases d with
  | nan => cases p <;> simp [XVal.div, XVal.mul, XVal.sub, XVal.add, XVal.neg, XVal.lt]
  | ninf => exact absurd rfl hd.1
  | pinf =>
    cases p with
    | nan => simp [XVal.div, XVal.mul, XVal.lt]
    | ninf => exact absurd rfl hp.1
    | pinf => simp [XVal.div, XVal.mul, XVal.lt]
    | fin x =>
      have := hp.2 x rfl
      simp [XVal.div, not_lt.2 this, XVal.mul, XVal.sub, XVal.neg, XVal.add, XVal.lt]
  | fin z =>
    have hz := hd.2 z rfl
    cases p with
    | nan => simp [XVal.div, XVal.mul, XVal.lt]
    | ninf => exact absurd rfl hp.1
    | pinf => simp [XVal.div, XVal.mul, XVal.sub, XVal.neg, XVal.add, XVal.lt]
    | fin x =>
      have hx := hp.2 x rfl
      by_cases h0 : x = 0
      · subst h0
        have : ¬ (0 < z ∧ z < 0) := by rintro ⟨a, b⟩; exact lt_asymm a b
        by_cases hz0 : z = 0
        · simp [XVal.div, XVal.signInf, hz0, XVal.mul, XVal.lt]
        · have hz' : 0 < z := lt_of_le_of_ne hz (Ne.symm hz0)
          simp [XVal.div, XVal.signInf, hz0, hz', XVal.mul, XVal.sub, XVal.neg, XVal.add, XVal.lt, not_lt.2 hz]
      · have hx' : 0 < x := lt_of_le_of_ne hx (Ne.symm h0)
        have e : ((XVal.fin z).mul ((XVal.fin z).div (.fin x))).div ((XVal.fin 1).sub ((XVal.fin z).div (.fin x))) =
            if 1 - z / x = 0 then XVal.signInf (z * (z / x)) else .fin (z * (z / x) / (1 - z / x)) := by
          simp [XVal.div, h0, XVal.mul, XVal.sub, XVal.neg, XVal.add, sub_eq_add_neg]
        rw [e]
        by_cases h1 : 1 - z / x = 0
        · have hzx : z = x := by
            have : z / x = 1 := by linarith
            rwa [div_eq_one_iff_eq h0] at this
          rw [if_pos h1]
          subst hzx
          have : (0 : K) < z * (z / z) := by rw [div_self h0]; simpa using hx'
          simp [XVal.signInf, this.ne', this, XVal.lt]
        · rw [if_neg h1]
          simp only [XVal.lt, Bool.and_eq_true, decide_eq_true_eq, XVal.fin.injEq, exists_and_left, exists_eq_left']
          constructor
          · rintro ⟨ha, hb⟩
            have hz' : 0 < z := by
              rcases lt_or_eq_of_le hz with h | h
              · exact h
              · rw [← h] at ha; simp at ha
            refine ⟨hz', ?_, hb⟩
            have hr : 0 < z * (z / x) := by positivity
            have : 0 < 1 - z / x := by
              by_contra hneg
              have : z * (z / x) / (1 - z / x) ≤ 0 := div_nonpos_of_nonneg_of_nonpos hr.le (not_lt.1 hneg)
              linarith
            have : z / x < 1 := by linarith
            rwa [div_lt_one hx'] at this
          · rintro ⟨hz', hzx, hb⟩
            have : z / x < 1 := by rwa [div_lt_one hx']
            exact ⟨by apply div_pos <;> [positivity; linarith], hb⟩

theorem isSuccessful_false (r : Result) : r.isSuccessful = false ↔ r ≠ .successful := by
  simp [Result.isSuccessful]

/-- The decision after `n` iterations, spelt out. -/
theorem terminate_stateAt (c : Chord Y K) (hs : c.SizesNonneg) (y : Y) (n : ℕ) :
    ((c.terminate (c.stateAt y n)).1 = true ↔
      (∃ k, n = k + 1 ∧ c.linRes y k ≠ .successful) ∨
      (∃ k, n = k + 2 ∧ (c.Negligible (c.upd y (k + 1)) ∨ Diverges (c.upd y k) (c.upd y (k + 1)) ∨
        c.Converges (c.upd y k) (c.upd y (k + 1))))) := by
  have hu : ∀ k, c.upd y k ≠ .ninf ∧ ∀ x, c.upd y k = .fin x → 0 ≤ x := fun k => hs _ _
  match n with
  | 0 => simp [terminate, stateAt, init, Result.isSuccessful]
  | 1 => simp [terminate, stateAt, isSuccessful_false]
  | n + 2 =>
    have h1 := small_iff c (c.upd y (n + 1)) (hu _).1
    have h2 := diverged_iff _ _ (hu n) (hu (n + 1))
    have h3 := converged_iff c _ _ (hu n) (hu (n + 1))
    have e : (c.terminate (c.stateAt y (n + 2))).1 =
        (!(c.linRes y (n + 1)).isSuccessful || (c.small (c.upd y (n + 1)) || diverged ((c.upd y (n + 1)).div (c.upd y n)) ||
          c.converged (((c.upd y (n + 1)).mul ((c.upd y (n + 1)).div (c.upd y n))).div
            ((XVal.fin 1).sub ((c.upd y (n + 1)).div (c.upd y n)))))) := by
      simp [terminate, stateAt]
    rw [e, Bool.or_eq_true, Bool.or_eq_true, Bool.or_eq_true, h1, h2, h3, Bool.not_eq_true', isSuccessful_false, or_assoc]
    apply or_congr
    · constructor
      · intro h; exact ⟨n + 1, rfl, h⟩
      · rintro ⟨k, hk, h⟩
        obtain rfl : k = n + 1 := by omega
        exact h
    · constructor
      · intro h; exact ⟨n, rfl, h⟩
      · rintro ⟨k, hk, h⟩
        obtain rfl : k = n := by omega
        exact h

theorem terminate_result (c : Chord Y K) (hs : c.SizesNonneg) (y : Y) (n : ℕ) :
    (c.linRes y (n + 1) ≠ .successful → (c.terminate (c.stateAt y (n + 2))).2 = c.linRes y (n + 1)) ∧
    (c.linRes y (n + 1) = .successful →
      (c.Negligible (c.upd y (n + 1)) → (c.terminate (c.stateAt y (n + 2))).2 = .successful) ∧
      (¬ c.Negligible (c.upd y (n + 1)) →
        (Diverges (c.upd y n) (c.upd y (n + 1)) ∨ ¬ c.Converges (c.upd y n) (c.upd y (n + 1)) →
          (c.terminate (c.stateAt y (n + 2))).2 = c.divergence) ∧
        (¬ Diverges (c.upd y n) (c.upd y (n + 1)) → c.Converges (c.upd y n) (c.upd y (n + 1)) →
          (c.terminate (c.stateAt y (n + 2))).2 = .successful))) := by
  have hu : ∀ k, c.upd y k ≠ .ninf ∧ ∀ x, c.upd y k = .fin x → 0 ≤ x := fun k => hs _ _
  have h1 := small_iff c (c.upd y (n + 1)) (hu _).1
  have h2 := diverged_iff _ _ (hu n) (hu (n + 1))
  have h3 := converged_iff c _ _ (hu n) (hu (n + 1))
  rw [← h1, ← h2, ← h3]
  generalize hsm : c.small (c.upd y (n + 1)) = sm
  generalize hdv : diverged ((c.upd y (n + 1)).div (c.upd y n)) = dv
  generalize hcv : c.converged (((c.upd y (n + 1)).mul ((c.upd y (n + 1)).div (c.upd y n))).div
            ((XVal.fin 1).sub ((c.upd y (n + 1)).div (c.upd y n)))) = cv
  have e : (c.terminate (c.stateAt y (n + 2))).2 =
      if c.linRes y (n + 1) ≠ .successful then c.linRes y (n + 1) else
        if (!sm && (dv || !cv)) = true then c.divergence else .successful := by
    simp [terminate, stateAt, hsm, hdv, hcv, isSuccessful_false]
  rw [e]
  refine ⟨fun h => by rw [if_pos h], fun h => ?_⟩
  rw [if_neg (by simpa using h)]
  cases sm <;> cases dv <;> cases cv <;> simp

/-! ### The claims -/

/-- A converging pair of updates does not diverge. -/
theorem Converges.not_diverges {c : Chord Y K} {p d : XVal K} (h : c.Converges p d) : ¬ Diverges p d := by
  obtain ⟨x, z, rfl, rfl, h1, h2, -⟩ := h
  rintro (h | h | h | h | ⟨x', z', h, h', h3⟩)
  · cases h
  · cases h
  · cases h
  · injection h with h; subst h; linarith
  · injection h with h; injection h' with h'
    subst h h'
    linarith

end
end Verif.Chord

namespace Verif
open Chord

variable {Y K : Type} [Field K] [LinearOrder K] [IsStrictOrderedRing K]

/-- **C55.** What success means: the root finder returns an iterate, at least the second; every linear solve along the way
succeeded; and the last update was negligible, or the sizes of the updates decrease at a rate for which all that is still
to come is less than `kappa`; and there was no reason to stop before. -/
theorem C55_success (c : Chord Y K) (hs : c.SizesNonneg) (hd : c.divergence ≠ .successful)
    (hm : c.maxStepsReached ≠ .successful) (maxSteps : ℕ) (y : Y)
    (h : (c.rootFind maxSteps y).2.2 = .successful) :
    ∃ n, n + 2 ≤ maxSteps ∧ (c.rootFind maxSteps y).1 = c.iter y (n + 2) ∧
      (∀ k < n + 2, c.linRes y k = .successful) ∧
      (c.Negligible (c.upd y (n + 1)) ∨ c.Converges (c.upd y n) (c.upd y (n + 1))) ∧
      ∀ k < n, ¬ c.Stops (c.upd y k) (c.upd y (k + 1)) := by
  obtain ⟨n, -, hn, hloop, hbefore, hend⟩ := loop_spec c y maxSteps 0 (by omega)
  have hres : c.rootFind maxSteps y = (c.iter y n, c.stateAt y n,
      if (c.terminate (c.stateAt y n)).2 = .successful ∧ (c.terminate (c.stateAt y n)).1 = false then
        c.maxStepsReached else (c.terminate (c.stateAt y n)).2) := by
    have hloop' : c.chordLoop maxSteps y Chord.init = (c.iter y n, c.stateAt y n) := hloop
    simp only [rootFind, hloop']
  rw [hres] at h ⊢
  simp only at h ⊢
  have ht : (c.terminate (c.stateAt y n)).2 = .successful ∧ (c.terminate (c.stateAt y n)).1 = true := by
    split at h
    · exact absurd h hm
    · rename_i h'
      refine ⟨h, ?_⟩
      by_contra hf
      exact h' ⟨h, by simpa using hf⟩
  have hlin : ∀ k < n, k + 1 < n → c.linRes y k = .successful := by
    intro k _ hk
    by_contra hne
    have := (terminate_stateAt c hs y (k + 1)).2 (Or.inl ⟨k, rfl, hne⟩)
    rw [hbefore (k + 1) hk] at this
    cases this
  match n with
  | 0 => simp [terminate, stateAt, Chord.init, Result.isSuccessful] at ht
  | 1 =>
    obtain ⟨h1, h2⟩ := ht
    have := (terminate_stateAt c hs y 1).1 h2
    rcases this with ⟨k, hk, hne⟩ | ⟨k, hk, -⟩
    · obtain rfl : k = 0 := by omega
      have h3 : (c.terminate (c.stateAt y 1)).2 = c.linRes y 0 := by
        simp [terminate, stateAt, isSuccessful_false, hne]
      rw [h3] at h1
      exact absurd h1 hne
    · omega
  | n + 2 =>
    obtain ⟨h1, h2⟩ := terminate_result c hs y n
    have hl : c.linRes y (n + 1) = .successful := by
      by_contra hne
      rw [h1 hne] at ht
      exact hne ht.1
    obtain ⟨h3, h4⟩ := h2 hl
    refine ⟨n, by omega, rfl, ?_, ?_, ?_⟩
    · intro k hk
      by_cases hk' : k + 1 < n + 2
      · exact hlin k hk hk'
      · obtain rfl : k = n + 1 := by omega
        exact hl
    · by_contra hno
      push Not at hno
      rw [(h4 hno.1).1 (Or.inr hno.2)] at ht
      exact hd ht.1
    · intro k hk hstop
      have := (terminate_stateAt c hs y (k + 2)).2 (Or.inr ⟨k, rfl, hstop⟩)
      rw [hbefore (k + 2) (by omega)] at this
      cases this

/-- **C55.** What failure means: the last linear solve failed, and the result is its result; or, after at least two
iterations, the last update is not negligible and the updates diverge, or there is no sign of convergence and all the
iterations allowed have been made; then the result says so (`nonlinear_divergence`, or if fewer than two iterations are
allowed, `nonlinear_max_steps_reached`). -/
theorem C55_failure (c : Chord Y K) (hs : c.SizesNonneg) (hd : c.divergence ≠ .successful) (maxSteps : ℕ) (y : Y)
    (h : (c.rootFind maxSteps y).2.2 ≠ .successful) :
    (∃ n < maxSteps, c.linRes y n ≠ .successful ∧ (c.rootFind maxSteps y).2.2 = c.linRes y n) ∨
    (∃ n, n + 2 ≤ maxSteps ∧ ¬ c.Negligible (c.upd y (n + 1)) ∧ Diverges (c.upd y n) (c.upd y (n + 1)) ∧
      (c.rootFind maxSteps y).2.2 = c.divergence) ∨
    (∃ n, n + 2 = maxSteps ∧ ¬ c.Negligible (c.upd y (n + 1)) ∧ ¬ c.Converges (c.upd y n) (c.upd y (n + 1)) ∧
      (c.rootFind maxSteps y).2.2 = c.divergence) ∨
    (maxSteps < 2 ∧ (c.rootFind maxSteps y).2.2 = c.maxStepsReached) := by
  obtain ⟨n, -, hn, hloop, hbefore, hend⟩ := loop_spec c y maxSteps 0 (by omega)
  have hres : c.rootFind maxSteps y = (c.iter y n, c.stateAt y n,
      if (c.terminate (c.stateAt y n)).2 = .successful ∧ (c.terminate (c.stateAt y n)).1 = false then
        c.maxStepsReached else (c.terminate (c.stateAt y n)).2) := by
    have hloop' : c.chordLoop maxSteps y Chord.init = (c.iter y n, c.stateAt y n) := hloop
    simp only [rootFind, hloop']
  rw [hres] at h ⊢
  simp only at h ⊢
  match n with
  | 0 =>
    have e : c.terminate (c.stateAt y 0) = (false, .successful) := by simp [terminate, stateAt, Chord.init, Result.isSuccessful]
    rw [e] at hend ⊢
    simp only [Bool.false_eq_true, false_or, Nat.zero_add] at hend
    exact Or.inr (Or.inr (Or.inr ⟨by omega, by simp⟩))
  | 1 =>
    by_cases hl : c.linRes y 0 = .successful
    · have e : c.terminate (c.stateAt y 1) = (false, .successful) := by simp [terminate, stateAt, isSuccessful_false, hl, Result.isSuccessful]
      rw [e] at hend ⊢
      simp only [Bool.false_eq_true, false_or, Nat.zero_add] at hend
      exact Or.inr (Or.inr (Or.inr ⟨by omega, by simp⟩))
    · refine Or.inl ⟨0, by omega, hl, ?_⟩
      have e : c.terminate (c.stateAt y 1) = (true, c.linRes y 0) := by simp [terminate, stateAt, isSuccessful_false, hl, Result.isSuccessful]
      rw [e]
      simp
  | n + 2 =>
    obtain ⟨h1, h2⟩ := terminate_result c hs y n
    by_cases hl : c.linRes y (n + 1) = .successful
    · obtain ⟨h3, h4⟩ := h2 hl
      by_cases hng : c.Negligible (c.upd y (n + 1))
      · have ht := (terminate_stateAt c hs y (n + 2)).2 (Or.inr ⟨n, rfl, Or.inl hng⟩)
        rw [h3 hng, ht] at h
        simp at h
      · by_cases hdv : Diverges (c.upd y n) (c.upd y (n + 1))
        · have ht := (terminate_stateAt c hs y (n + 2)).2 (Or.inr ⟨n, rfl, Or.inr (Or.inl hdv)⟩)
          rw [(h4 hng).1 (Or.inl hdv), ht]
          exact Or.inr (Or.inl ⟨n, by omega, hng, hdv, by simp⟩)
        · by_cases hcv : c.Converges (c.upd y n) (c.upd y (n + 1))
          · have ht := (terminate_stateAt c hs y (n + 2)).2 (Or.inr ⟨n, rfl, Or.inr (Or.inr hcv)⟩)
            rw [(h4 hng).2 hdv hcv, ht] at h
            simp at h
          · have ht : (c.terminate (c.stateAt y (n + 2))).1 = false := by
              by_contra hne
              rcases (terminate_stateAt c hs y (n + 2)).1 (by simpa using hne) with ⟨k, hk, h'⟩ | ⟨k, hk, h'⟩
              · obtain rfl : k = n + 1 := by omega
                exact h' hl
              · obtain rfl : k = n := by omega
                exact h'.elim hng fun h' => h'.elim hdv hcv
            have hmax : n + 2 = maxSteps := by
              rcases hend with h' | h'
              · rw [ht] at h'; cases h'
              · omega
            rw [(h4 hng).1 (Or.inr hcv)]
            exact Or.inr (Or.inr (Or.inl ⟨n, hmax, hng, hcv, by simp [hd]⟩))
    · have ht := (terminate_stateAt c hs y (n + 2)).2 (Or.inl ⟨n + 1, rfl, hl⟩)
      refine Or.inl ⟨n + 1, by omega, hl, ?_⟩
      rw [h1 hl, ht]
      simp

theorem Chord.rootFind_at (c : Chord Y K) (y : Y) (n maxSteps : ℕ) (hn : n ≤ maxSteps)
    (hbefore : ∀ j < n, (c.terminate (c.stateAt y j)).1 = false) (hstop : (c.terminate (c.stateAt y n)).1 = true) :
    c.rootFind maxSteps y = (c.iter y n, c.stateAt y n, (c.terminate (c.stateAt y n)).2) := by
  obtain ⟨m, -, hm, hloop, hb, hend⟩ := loop_spec c y maxSteps 0 (by omega)
  have hloop' : c.chordLoop maxSteps y Chord.init = (c.iter y m, c.stateAt y m) := hloop
  have hmn : m = n := by
    rcases lt_trichotomy m n with h | h | h
    · rcases hend with h' | h'
      · rw [hbefore m h] at h'; cases h'
      · omega
    · exact h
    · rw [hb n h] at hstop; cases hstop
  subst hmn
  simp only [rootFind, hloop', hstop]
  simp

theorem Chord.before_of (c : Chord Y K) (hs : c.SizesNonneg) (y : Y) (n : ℕ)
    (hlin : ∀ k < n + 1, c.linRes y k = .successful) (hno : ∀ k < n, ¬ c.Stops (c.upd y k) (c.upd y (k + 1))) :
    ∀ j < n + 2, (c.terminate (c.stateAt y j)).1 = false := by
  intro j hj
  by_contra h
  rcases (terminate_stateAt c hs y j).1 (by simpa using h) with ⟨k, hk, h'⟩ | ⟨k, hk, h'⟩
  · exact h' (hlin k (by omega))
  · exact hno k (by omega) h'

/-- **C55.** It does succeed: if the linear solves succeed and the first reason to stop is not a divergence, the result is
the iterate reached. -/
theorem C55_succeeds (c : Chord Y K) (hs : c.SizesNonneg) (maxSteps : ℕ) (y : Y) (n : ℕ) (hn : n + 2 ≤ maxSteps)
    (hlin : ∀ k < n + 2, c.linRes y k = .successful) (hno : ∀ k < n, ¬ c.Stops (c.upd y k) (c.upd y (k + 1)))
    (hyes : c.Negligible (c.upd y (n + 1)) ∨ c.Converges (c.upd y n) (c.upd y (n + 1))) :
    (c.rootFind maxSteps y).1 = c.iter y (n + 2) ∧ (c.rootFind maxSteps y).2.2 = .successful := by
  rw [rootFind_at c y (n + 2) maxSteps hn (before_of c hs y n (fun k hk => hlin k (by omega)) hno)
    ((terminate_stateAt c hs y (n + 2)).2 (Or.inr ⟨n, rfl, hyes.imp id Or.inr⟩))]
  refine ⟨rfl, ?_⟩
  obtain ⟨-, h2⟩ := terminate_result c hs y n
  obtain ⟨h3, h4⟩ := h2 (hlin (n + 1) (by omega))
  rcases hyes with h | h
  · exact h3 h
  · by_cases hng : c.Negligible (c.upd y (n + 1))
    · exact h3 hng
    · exact (h4 hng).2 h.not_diverges h

/-- **C55.** An update that is NaN or infinite (from the second on) ends the iteration at once, with failure. -/
theorem C55_not_finite (c : Chord Y K) (hs : c.SizesNonneg) (maxSteps : ℕ) (y : Y) (n : ℕ) (hn : n + 2 ≤ maxSteps)
    (hlin : ∀ k < n + 2, c.linRes y k = .successful) (hno : ∀ k < n, ¬ c.Stops (c.upd y k) (c.upd y (k + 1)))
    (hbad : c.upd y (n + 1) = .nan ∨ c.upd y (n + 1) = .pinf) :
    (c.rootFind maxSteps y).2.2 = c.divergence := by
  have hdv : Diverges (c.upd y n) (c.upd y (n + 1)) := by
    rcases hbad with h | h
    · exact Or.inl h
    · exact Or.inr (Or.inr (Or.inl h))
  rw [rootFind_at c y (n + 2) maxSteps hn (before_of c hs y n (fun k hk => hlin k (by omega)) hno)
    ((terminate_stateAt c hs y (n + 2)).2 (Or.inr ⟨n, rfl, Or.inr (Or.inl hdv)⟩))]
  obtain ⟨-, h2⟩ := terminate_result c hs y n
  obtain ⟨-, h4⟩ := h2 (hlin (n + 1) (by omega))
  refine (h4 ?_).1 (Or.inl hdv)
  rintro ⟨x, hx, -⟩
  rcases hbad with h | h <;> rw [h] at hx <;> cases hx

/-- **C55.** A failed linear solve ends the iteration at once, with its result. -/
theorem C55_linear_failure (c : Chord Y K) (hs : c.SizesNonneg) (maxSteps : ℕ) (y : Y) (n : ℕ) (hn : n < maxSteps)
    (hlin : ∀ k < n, c.linRes y k = .successful) (hno : ∀ k, k + 1 < n → ¬ c.Stops (c.upd y k) (c.upd y (k + 1)))
    (hbad : c.linRes y n ≠ .successful) : (c.rootFind maxSteps y).2.2 = c.linRes y n := by
  rw [rootFind_at c y (n + 1) maxSteps hn ?_ ((terminate_stateAt c hs y (n + 1)).2 (Or.inl ⟨n, rfl, hbad⟩))]
  · match n with
    | 0 => simp [terminate, stateAt, isSuccessful_false, hbad]
    | n + 1 => exact (terminate_result c hs y n).1 hbad
  · intro j hj
    by_contra h
    rcases (terminate_stateAt c hs y j).1 (by simpa using h) with ⟨k, hk, h'⟩ | ⟨k, hk, h'⟩
    · exact h' (hlin k (by omega))
    · exact hno k (by omega) h'

/-- **C55.** What the estimate is worth: suppose the linear solve is exact, the size of the last update is measured by a
seminorm `N` (for a given result `z`, the norm weighted by `atol + rtol * |z|` is one), and the iteration contracts
towards a root with a factor that is at most the rate observed. Then success means that the result is within `kappa` of
the root, or that the last update was negligible and the result is within a multiple of it. -/
theorem C55_accuracy {V : Type} [AddCommGroup V] [Module ℝ V] (c : Chord V ℝ) (hs : c.SizesNonneg)
    (hd : c.divergence ≠ .successful) (hm : c.maxStepsReached ≠ .successful) (hsub : ∀ a b, c.sub a b = a - b)
    (maxSteps : ℕ) (y : V) (h : (c.rootFind maxSteps y).2.2 = .successful)
    (N : Seminorm ℝ V) (hN : ∀ v, c.size v (c.rootFind maxSteps y).1 = .fin (N v))
    (root : V) (q : ℝ) (hq0 : 0 ≤ q) (hq1 : q < 1)
    (hcontr : ∀ x, N (x - (c.linearSolve (c.fn x)).1 - root) ≤ q * N (x - root))
    (hrate : ∀ k a b, c.upd y k = .fin a → c.upd y (k + 1) = .fin b → q * a ≤ b) :
    N ((c.rootFind maxSteps y).1 - root) < c.kappa ∨
      N ((c.rootFind maxSteps y).1 - root) ≤ q / (1 - q) * c.resolution := by
  obtain ⟨n, -, hz, -, hcase, -⟩ := C55_success c hs hd hm maxSteps y h
  set z := (c.rootFind maxSteps y).1 with hzdef
  set x := c.iter y (n + 1)
  set diff := (c.linearSolve (c.fn x)).1
  have hzx : z = x - diff := by
    rw [hz]
    show c.sub _ _ = _
    rw [hsub]
  have hu : c.upd y (n + 1) = .fin (N diff) := by
    have := hN diff
    rw [hz] at this
    exact this
  have h1 : N (z - root) ≤ q * N (x - root) := by rw [hzx]; exact hcontr x
  have h2 : N (x - root) ≤ N diff + N (z - root) := by
    have : x - root = diff + (z - root) := by rw [hzx]; abel
    rw [this]
    exact map_add_le_add N _ _
  have h3 : N (z - root) * (1 - q) ≤ q * N diff := by nlinarith
  have hq' : 0 < 1 - q := by linarith
  have h4 : N (z - root) ≤ q / (1 - q) * N diff := by
    rw [div_mul_eq_mul_div, le_div_iff₀ hq']; exact h3
  rcases hcase with ⟨d, hd', hlt⟩ | ⟨a, b, ha, hb, hb0, hba, hlt⟩
  · right
    rw [hu] at hd'
    injection hd' with hd'
    refine h4.trans ?_
    apply mul_le_mul_of_nonneg_left (by linarith) (by positivity)
  · left
    refine lt_of_le_of_lt h4 (lt_of_le_of_lt ?_ hlt)
    have hbN : N diff = b := by
      rw [hu] at hb; injection hb
    rw [hbN]
    have ha0 : 0 < a := lt_trans hb0 hba
    have hqa : q ≤ b / a := by rw [le_div_iff₀ ha0]; exact hrate n a b ha hb
    have hr1 : b / a < 1 := by rwa [div_lt_one ha0]
    rw [mul_div_assoc, mul_comm]
    apply mul_le_mul_of_nonneg_left _ hb0.le
    rw [div_le_div_iff₀ hq' (by linarith)]
    nlinarith

/-! ### Examples -/

/-- `x^2 = 2` from 3/2 with the slope 3 held fixed, one absolute unit being 1/100. -/
def chordExample : Chord ℚ ℚ where
  fn x := x * x - 2
  linearSolve r := (r / 3, .successful)
  sub a b := a - b
  size d _ := .fin (100 * if d < 0 then -d else d)
  kappa := 1 / 100
  resolution := 1 / 100000
  divergence := .other 0
  maxStepsReached := .other 1

theorem chordExample_nonneg : chordExample.SizesNonneg := by
  intro v z
  refine ⟨by simp [chordExample], ?_⟩
  intro x hx
  simp only [chordExample, XVal.fin.injEq] at hx
  rw [← hx]
  split <;> linarith

/-- With `kappa` smaller, it succeeds after three iterations. -/
example : ({ chordExample with kappa := 1 / 1000 }.rootFind 10 (3 / 2)).2.2 = .successful ∧
    ({ chordExample with kappa := 1 / 1000 }.rootFind 10 (3 / 2)).2.1.step = 3 ∧
    14142 / 10000 < ({ chordExample with kappa := 1 / 1000 }.rootFind 10 (3 / 2)).1 ∧
    ({ chordExample with kappa := 1 / 1000 }.rootFind 10 (3 / 2)).1 < 14143 / 10000 := by
  decide +kernel

/-- It fails when the slope is far too small. -/
example : ({ chordExample with linearSolve := fun r => (10 * r, .successful) }.rootFind 10 (3 / 2)).2.2 = .other 0 := by
  decide +kernel

/-- A linear equation over the reals: the hypotheses of `C55_accuracy`, with the result within `kappa`. -/
noncomputable def chordReal : Chord ℝ ℝ where
  fn x := x
  linearSolve r := (3 / 4 * r, .successful)
  sub a b := a - b
  size d _ := .fin |d|
  kappa := 1 / 10
  resolution := 1 / 100000
  divergence := .other 0
  maxStepsReached := .other 1

theorem chordReal_iter (n : ℕ) : chordReal.iter 1 n = (1 / 4) ^ n := by
  induction n with
  | zero => simp [Chord.iter]
  | succ n ih =>
    have : chordReal.iter 1 (n + 1) = chordReal.iter 1 n - 3 / 4 * chordReal.iter 1 n := rfl
    rw [this, ih]; ring

theorem chordReal_upd (n : ℕ) : chordReal.upd 1 n = .fin (3 / 4 * (1 / 4) ^ n) := by
  have : chordReal.upd 1 n = .fin |3 / 4 * (chordReal.iter 1 n)| := rfl
  rw [this, chordReal_iter, abs_of_nonneg (by positivity)]

theorem chordReal_nonneg : chordReal.SizesNonneg := by
  intro v z
  refine ⟨by simp [chordReal], ?_⟩
  intro x hx
  simp only [chordReal, XVal.fin.injEq] at hx
  rw [← hx]
  positivity

example : (chordReal.rootFind 10 1).2.2 = .successful ∧
    (∀ v, chordReal.size v (chordReal.rootFind 10 1).1 = .fin (normSeminorm ℝ ℝ v)) ∧
    (∀ x, normSeminorm ℝ ℝ (x - (chordReal.linearSolve (chordReal.fn x)).1 - 0) ≤ 1 / 4 * normSeminorm ℝ ℝ (x - 0)) ∧
    ∀ k a b, chordReal.upd 1 k = .fin a → chordReal.upd 1 (k + 1) = .fin b → 1 / 4 * a ≤ b := by
  refine ⟨?_, ?_, ?_, ?_⟩
  · refine (C55_succeeds chordReal chordReal_nonneg 10 1 0 (by norm_num) (fun _ _ => rfl) (by omega) (Or.inr ?_)).2
    rw [chordReal_upd, chordReal_upd]
    refine ⟨_, _, rfl, rfl, ?_⟩
    norm_num [chordReal]
  · intro v; simp [chordReal]
  · intro x
    simp only [chordReal, coe_normSeminorm, Real.norm_eq_abs, sub_zero]
    rw [show x - 3 / 4 * x = 1 / 4 * x by ring, abs_mul]
    norm_num
  · intro k a b ha hb
    rw [chordReal_upd] at ha hb
    injection ha with ha
    injection hb with hb
    rw [← ha, ← hb, pow_succ]
    linarith

end Verif
