import Verif.Model.LocalInterp
import Mathlib.Tactic.Module
import Mathlib.Tactic.Ring
import Mathlib.Tactic.FieldSimp
import Mathlib.Analysis.Calculus.Deriv.Mul
import Mathlib.Analysis.Calculus.Deriv.Comp
import Mathlib.Analysis.Calculus.Deriv.Add

/-!
# Property C39: local interpolations
-/

set_option linter.unusedSectionVars false

namespace Verif

section
variable {K V : Type} [Field K] [DecidableEq K] [AddCommGroup V] [Module K V]

theorem linearRescale_start (t0 t1 : K) : linearRescale t0 t0 t1 = 0 := by
  unfold linearRescale; by_cases h : t0 = t1 <;> simp [h]

theorem linearRescale_end (t0 t1 : K) (h : t0 ≠ t1) : linearRescale t0 t1 t1 = 1 := by
  unfold linearRescale; simp only [if_neg h]; exact div_self (sub_ne_zero.2 h.symm)

theorem linearRescale_ne (t0 t t1 : K) (h : t0 ≠ t1) : linearRescale t0 t t1 = (t - t0) / (t1 - t0) := by
  unfold linearRescale; simp only [if_neg h]

theorem linearRescale_zero_length (t0 t : K) : linearRescale t0 t t0 = 0 := by
  unfold linearRescale; simp

/-- Linear local interpolation: start value at the start, end value at the end, affine in between, and
`evaluate(s, t) = evaluate(t) - evaluate(s)`. -/
theorem C39_linear (p : LocalLinear K V) (h : p.t0 ≠ p.t1) :
    p.evaluate p.t0 = p.y0 ∧ p.evaluate p.t1 = p.y1 ∧
    (∀ t, p.evaluate t = p.y0 + ((t - p.t0) / (p.t1 - p.t0)) • (p.y1 - p.y0)) ∧
    (∀ s t, p.increment s t = p.evaluate t - p.evaluate s) := by
  refine ⟨?_, ?_, ?_, ?_⟩
  · rw [LocalLinear.evaluate, linearRescale_start]; module
  · rw [LocalLinear.evaluate, linearRescale_end _ _ h]; module
  · intro t; rw [LocalLinear.evaluate, linearRescale_ne _ _ _ h]
  · intro s t
    rw [LocalLinear.increment, LocalLinear.evaluate, LocalLinear.evaluate, linearRescale_ne _ _ _ h,
      linearRescale_ne _ _ _ h]
    rw [add_sub_add_left_eq_sub, ← sub_smul]
    congr 1
    ring

/-- Cubic Hermite local interpolation returns the start value at the start and the end value at the
end. -/
theorem C39_hermite_ends (t0 t1 : K) (h : t0 ≠ t1) (y0 y1 k0 k1 : V) :
    (hermite3 t0 t1 y0 y1 k0 k1).evaluate t0 = y0 ∧
    (hermite3 t0 t1 y0 y1 k0 k1).evaluate t1 = y1 := by
  simp only [LocalPoly.evaluate, hermite3, linearRescale_start, linearRescale_end _ _ h, polyval,
    List.foldl_cons, List.foldl_nil]
  constructor <;> module

/-- Quartic local interpolation returns the start value at the start, the end value at the end, and the
prescribed value `y0 + Σ cᵢ kᵢ` half way. -/
theorem C39_quartic_ends [CharZero K] (cMid : List K) (t0 t1 : K) (h : t0 ≠ t1) (y0 y1 : V)
    (k : List V) :
    (quartic cMid t0 t1 y0 y1 k).evaluate t0 = y0 ∧
    (quartic cMid t0 t1 y0 y1 k).evaluate t1 = y1 ∧
    (quartic cMid t0 t1 y0 y1 k).evaluate (t0 + (t1 - t0) / 2) = y0 + tensordot cMid k := by
  have hm : linearRescale t0 (t0 + (t1 - t0) / 2) t1 = 1 / 2 := by
    rw [linearRescale_ne _ _ _ h]
    have := sub_ne_zero.2 h.symm
    field_simp
    ring
  simp only [LocalPoly.evaluate, quartic, linearRescale_start, linearRescale_end _ _ h, hm, polyval,
    List.foldl_cons, List.foldl_nil]
  refine ⟨?_, ?_, ?_⟩ <;> module

/-- Increments are differences of values, so they add up. -/
theorem C39_increment (p : LocalPoly K V) (r s t : K) :
    p.increment r s = p.evaluate s - p.evaluate r ∧
    p.increment r s + p.increment s t = p.increment r t := by
  refine ⟨rfl, ?_⟩
  simp only [LocalPoly.increment]; abel

/-- Continuity of the output across steps: the value at the end of a step is the value at the start of
the next one, for each kind of interpolation. -/
theorem C39_continuous_across_steps [CharZero K] (c c' : List K) (t0 t1 t2 : K) (h01 : t0 ≠ t1)
    (h12 : t1 ≠ t2) (y0 y1 y2 : V) (k k' : List V) :
    (LocalLinear.mk t0 t1 y0 y1).evaluate t1 = (LocalLinear.mk t1 t2 y1 y2).evaluate t1 ∧
    (hermite3FromK t0 t1 y0 y1 k).evaluate t1 = (hermite3FromK t1 t2 y1 y2 k').evaluate t1 ∧
    (quartic c t0 t1 y0 y1 k).evaluate t1 = (quartic c' t1 t2 y1 y2 k').evaluate t1 := by
  refine ⟨?_, ?_, ?_⟩
  · rw [(C39_linear _ h01).2.1, (C39_linear (LocalLinear.mk t1 t2 y1 y2) h12).1]
  · rw [hermite3FromK, hermite3FromK, (C39_hermite_ends _ _ h01 _ _ _ _).2,
      (C39_hermite_ends _ _ h12 _ _ _ _).1]
  · rw [(C39_quartic_ends _ _ _ h01 _ _ _).2.1, (C39_quartic_ends _ _ _ h12 _ _ _).1]

/-- A zero-length step evaluates to its start value. -/
theorem C39_zero_length (c : List K) (t0 t : K) (y0 y1 k0 k1 : V) (k : List V) :
    (LocalLinear.mk t0 t0 y0 y1).evaluate t = y0 ∧
    (hermite3 t0 t0 y0 y1 k0 k1).evaluate t = y0 ∧
    (quartic c t0 t0 y0 y1 k).evaluate t = y0 := by
  simp only [LocalLinear.evaluate, LocalPoly.evaluate, hermite3, quartic, linearRescale_zero_length,
    polyval, List.foldl_cons, List.foldl_nil]
  refine ⟨?_, ?_, ?_⟩ <;> module

end

/-! ### Slopes -/

theorem polyval_hasDerivAt (cs : List ℝ) (x : ℝ) :
    HasDerivAt (fun s => polyval cs s)
      (cs.foldl (fun (p : ℝ × ℝ) c => (x * p.1 + c, p.1 + x * p.2)) (0, 0)).2 x := by
  have key : ∀ (cs : List ℝ) (f : ℝ → ℝ) (d : ℝ), HasDerivAt f d x →
      HasDerivAt (fun s => cs.foldl (fun acc c => s • acc + c) (f s))
        (cs.foldl (fun (p : ℝ × ℝ) c => (x * p.1 + c, p.1 + x * p.2)) (f x, d)).2 x := by
    intro cs
    induction cs with
    | nil => intro f d hf; exact hf
    | cons c cs ih =>
      intro f d hf
      have h1 : HasDerivAt (fun s => s • f s + c) (f x + x * d) x := by
        have := ((hasDerivAt_id x).mul hf).add_const c
        refine this.congr_deriv ?_
        simp
      exact ih _ _ h1
  exact key cs (fun _ => 0) 0 (hasDerivAt_const x 0)

theorem localPoly_hasDerivAt (p : LocalPoly ℝ ℝ) (h : p.t0 ≠ p.t1) (t : ℝ) :
    HasDerivAt p.evaluate
      ((p.coeffs.foldl (fun (q : ℝ × ℝ) c =>
        ((t - p.t0) / (p.t1 - p.t0) * q.1 + c, q.1 + (t - p.t0) / (p.t1 - p.t0) * q.2)) (0, 0)).2
          * (1 / (p.t1 - p.t0))) t := by
  have h1 : HasDerivAt (fun s => linearRescale p.t0 s p.t1) (1 / (p.t1 - p.t0)) t := by
    have e : (fun s => linearRescale p.t0 s p.t1) = fun s => (s - p.t0) / (p.t1 - p.t0) := by
      funext s; exact linearRescale_ne _ _ _ h
    rw [e]
    exact ((hasDerivAt_id t).sub_const _).div_const _
  have h2 := polyval_hasDerivAt p.coeffs (linearRescale p.t0 t p.t1)
  have h3 := h2.comp t h1
  rw [linearRescale_ne _ _ _ h] at h3
  exact h3

/-- The Hermite interpolations match the supplied slopes: `k` is the slope times the step length. -/
theorem C39_slopes (cMid : List ℝ) (t0 t1 : ℝ) (h : t0 ≠ t1) (y0 y1 k0 k1 : ℝ) (k : List ℝ) :
    HasDerivAt (hermite3 t0 t1 y0 y1 k0 k1).evaluate (k0 / (t1 - t0)) t0 ∧
    HasDerivAt (hermite3 t0 t1 y0 y1 k0 k1).evaluate (k1 / (t1 - t0)) t1 ∧
    HasDerivAt (quartic cMid t0 t1 y0 y1 k).evaluate (k.headD 0 / (t1 - t0)) t0 ∧
    HasDerivAt (quartic cMid t0 t1 y0 y1 k).evaluate (k.getLastD 0 / (t1 - t0)) t1 := by
  have hne : t1 - t0 ≠ 0 := sub_ne_zero.2 h.symm
  refine ⟨?_, ?_, ?_, ?_⟩
  all_goals
    first
    | refine (localPoly_hasDerivAt (hermite3 t0 t1 y0 y1 k0 k1) h _).congr_deriv ?_
    | refine (localPoly_hasDerivAt (quartic cMid t0 t1 y0 y1 k) h _).congr_deriv ?_
    simp only [hermite3, quartic, List.foldl_cons, List.foldl_nil, sub_self, zero_div, div_self hne,
      smul_eq_mul]
    field_simp
    ring

example : (hermite3 (0 : ℚ) 2 1 3 4 5).evaluate 2 = (3 : ℚ) ∧
    (quartic [1 / 4, 1 / 4] (0 : ℚ) 2 1 3 [1, 3]).evaluate 1 = (2 : ℚ) := by
  decide +kernel

end Verif
