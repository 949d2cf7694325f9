import Verif.Spec.Levy
import Verif.Spec.Chen
import Mathlib.Analysis.SpecialFunctions.Integrals.Basic
import Mathlib.Tactic.Module
import Mathlib.Tactic.FieldSimp

/-!
# Lévy areas of paths: Chen's relation, and paths with given areas
-/

namespace Verif
noncomputable section
open intervalIntegral MeasureTheory

set_option linter.unusedSectionVars false

variable {E : Type} [NormedAddCommGroup E] [NormedSpace ℝ E] [CompleteSpace E]

theorem areaH_eq (W : ℝ → E) (hW : Continuous W) (s t : ℝ) (h : s ≠ t) :
    (t - s) • areaH W s t = (∫ r in s..t, W r) - ((t - s) / 2) • (W s + W t) := by
  have hne : t - s ≠ 0 := sub_ne_zero.mpr h.symm
  unfold areaH bridgeOf
  rw [smul_smul, mul_one_div, div_self hne, one_smul]
  rw [integral_sub (Continuous.intervalIntegrable (by fun_prop) _ _) (Continuous.intervalIntegrable (by fun_prop) _ _),
    integral_sub (hW.intervalIntegrable _ _) (Continuous.intervalIntegrable (by fun_prop) _ _),
    intervalIntegral.integral_const, intervalIntegral.integral_smul_const]
  have e : ∫ r in s..t, (r - s) / (t - s) = (t - s) / 2 := by
    rw [intervalIntegral.integral_div, integral_sub (Continuous.intervalIntegrable (by fun_prop) _ _)
      (Continuous.intervalIntegrable (by fun_prop) _ _), integral_id, intervalIntegral.integral_const]
    simp only [smul_eq_mul]
    field_simp
    ring
  rw [e]
  module

theorem areaK_eq (W : ℝ → E) (hW : Continuous W) (s t : ℝ) (h : s ≠ t) :
    (t - s) ^ 2 • areaK W s t = ((t + s) / 2) • (∫ r in s..t, W r) - (∫ r in s..t, r • W r)
      + ((t - s) ^ 2 / 12) • (W t - W s) := by
  have hne : t - s ≠ 0 := sub_ne_zero.mpr h.symm
  unfold areaK bridgeOf
  rw [smul_smul, mul_one_div, div_self (pow_ne_zero 2 hne), one_smul]
  have e0 : ∀ r : ℝ, ((t + s) / 2 - r) • (W r - W s - ((r - s) / (t - s)) • (W t - W s))
      = ((t + s) / 2) • W r - r • W r - ((t + s) / 2 - r) • W s
        - (((t + s) / 2 - r) * ((r - s) / (t - s))) • (W t - W s) := by
    intro r
    rw [smul_sub, smul_sub, sub_smul ((t + s) / 2) r (W r), smul_smul]
  simp only [e0]
  rw [integral_sub (Continuous.intervalIntegrable (by fun_prop) _ _) (Continuous.intervalIntegrable (by fun_prop) _ _),
    integral_sub (Continuous.intervalIntegrable (by fun_prop) _ _) (Continuous.intervalIntegrable (by fun_prop) _ _),
    integral_sub (Continuous.intervalIntegrable (by fun_prop) _ _) (Continuous.intervalIntegrable (by fun_prop) _ _),
    intervalIntegral.integral_smul, intervalIntegral.integral_smul_const, intervalIntegral.integral_smul_const]
  have e1 : ∫ r in s..t, ((t + s) / 2 - r) = 0 := by
    rw [integral_sub (Continuous.intervalIntegrable (by fun_prop) _ _) (Continuous.intervalIntegrable (by fun_prop) _ _),
      integral_id, intervalIntegral.integral_const]
    simp only [smul_eq_mul]
    ring
  have e2 : ∫ r in s..t, ((t + s) / 2 - r) * ((r - s) / (t - s)) = -((t - s) ^ 2 / 12) := by
    have e3 : ∀ r : ℝ, ((t + s) / 2 - r) * ((r - s) / (t - s))
        = (((t + s) / 2 + s) * r - (t + s) / 2 * s - r ^ 2) / (t - s) := by
      intro r; field_simp; ring
    simp only [e3]
    rw [intervalIntegral.integral_div, integral_sub (Continuous.intervalIntegrable (by fun_prop) _ _)
      (Continuous.intervalIntegrable (by fun_prop) _ _), integral_sub (Continuous.intervalIntegrable (by fun_prop) _ _)
      (Continuous.intervalIntegrable (by fun_prop) _ _), intervalIntegral.integral_const_mul, integral_id, integral_pow,
      intervalIntegral.integral_const]
    simp only [smul_eq_mul]
    push_cast
    field_simp
    ring
  rw [e1, e2]
  module

/-- The areas of a path satisfy Chen's relation. -/
theorem chen_levyOf (W : ℝ → E) (hW : Continuous W) {s t u : ℝ} (hst : s < t) (htu : t < u) :
    ChenRel (levyOf W s t) (levyOf W t u) (levyOf W s u) := by
  have h1 := areaH_eq W hW s t hst.ne
  have h2 := areaH_eq W hW t u htu.ne
  have h3 := areaH_eq W hW s u (hst.trans htu).ne
  have k1 := areaK_eq W hW s t hst.ne
  have k2 := areaK_eq W hW t u htu.ne
  have k3 := areaK_eq W hW s u (hst.trans htu).ne
  have i1 : ∫ r in s..u, W r = (∫ r in s..t, W r) + ∫ r in t..u, W r :=
    (integral_add_adjacent_intervals (hW.intervalIntegrable _ _) (hW.intervalIntegrable _ _)).symm
  have i2 : ∫ r in s..u, r • W r = (∫ r in s..t, r • W r) + ∫ r in t..u, r • W r :=
    (integral_add_adjacent_intervals (Continuous.intervalIntegrable (by fun_prop) _ _)
      (Continuous.intervalIntegrable (by fun_prop) _ _)).symm
  have l1 : ((t - s) * (u - t) / 2) • (areaH W s t - areaH W t u)
      = ((u - t) / 2) • ((t - s) • areaH W s t) - ((t - s) / 2) • ((u - t) • areaH W t u) := by module
  refine ⟨?_, ?_, ?_, ?_⟩ <;> simp only [levyOf]
  · ring
  · module
  · rw [h1, h2, h3, i1]; module
  · rw [k3, k1, k2, l1, h1, h2, i1, i2]; module

/-- A path over `[0, h]` with given increment and areas. -/
def bump (h : ℝ) (w a k : E) (x : ℝ) : E :=
  (x / h) • w + (x * (h - x)) • ((6 / h ^ 2) • a) + (x * (h - x) * (h / 2 - x)) • ((120 / h ^ 3) • k)

theorem bump_cont (h : ℝ) (w a k : E) : Continuous (bump h w a k) := by unfold bump; fun_prop

theorem levyOf_congr {V W : ℝ → E} {s t : ℝ} (hst : s ≤ t) (h : ∀ r, s ≤ r → r ≤ t → V r = W r) :
    levyOf V s t = levyOf W s t := by
  have hb : ∀ r, s ≤ r → r ≤ t → bridgeOf V s t r = bridgeOf W s t r := by
    intro r h1 h2
    unfold bridgeOf
    rw [h r h1 h2, h s le_rfl hst, h t hst le_rfl]
  unfold levyOf areaH areaK
  rw [h s le_rfl hst, h t hst le_rfl]
  have e1 : ∫ r in s..t, bridgeOf V s t r = ∫ r in s..t, bridgeOf W s t r := by
    apply intervalIntegral.integral_congr
    intro r hr
    rw [Set.uIcc_of_le hst] at hr
    exact hb r hr.1 hr.2
  have e2 : ∫ r in s..t, ((t + s) / 2 - r) • bridgeOf V s t r = ∫ r in s..t, ((t + s) / 2 - r) • bridgeOf W s t r := by
    apply intervalIntegral.integral_congr
    intro r hr
    rw [Set.uIcc_of_le hst] at hr
    simp only [hb r hr.1 hr.2]
  rw [e1, e2]

theorem levyOf_bump (v : E) (s h : ℝ) (hh : 0 < h) (w a k : E) :
    levyOf (fun r => v + bump h w a k (r - s)) s (s + h) = (h, w, a, k) := by
  have hb : ∀ r, bridgeOf (fun r => v + bump h w a k (r - s)) s (s + h) r
      = ((r - s) * (h - (r - s))) • ((6 / h ^ 2) • a) + ((r - s) * (h - (r - s)) * (h / 2 - (r - s))) • ((120 / h ^ 3) • k) := by
    intro r
    simp only [bridgeOf, bump, sub_self, add_sub_cancel_left, zero_div, zero_smul, zero_mul, mul_zero, add_zero,
      div_self hh.ne', one_smul]
    module
  have e1 : ∫ r in s..(s + h), bridgeOf (fun r => v + bump h w a k (r - s)) s (s + h) r = h • a := by
    simp only [hb]
    rw [show (∫ r in s..(s + h), (((r - s) * (h - (r - s))) • ((6 / h ^ 2) • a)
        + ((r - s) * (h - (r - s)) * (h / 2 - (r - s))) • ((120 / h ^ 3) • k)))
      = ∫ x in (s - s)..(s + h - s), ((x * (h - x)) • ((6 / h ^ 2) • a)
        + (x * (h - x) * (h / 2 - x)) • ((120 / h ^ 3) • k)) from
        intervalIntegral.integral_comp_sub_right (fun x => (x * (h - x)) • ((6 / h ^ 2) • a)
        + (x * (h - x) * (h / 2 - x)) • ((120 / h ^ 3) • k)) s]
    rw [sub_self, add_sub_cancel_left, intervalIntegral.integral_add (Continuous.intervalIntegrable (by fun_prop) _ _)
      (Continuous.intervalIntegrable (by fun_prop) _ _), intervalIntegral.integral_smul_const,
      intervalIntegral.integral_smul_const]
    have p1 : ∫ x in (0 : ℝ)..h, x * (h - x) = h ^ 3 / 6 := by
      have : ∀ x : ℝ, x * (h - x) = h * x - x ^ 2 := fun x => by ring
      simp only [this]
      rw [integral_sub (Continuous.intervalIntegrable (by fun_prop) _ _) (Continuous.intervalIntegrable (by fun_prop) _ _),
        intervalIntegral.integral_const_mul, integral_id, integral_pow]
      push_cast; ring
    have p2 : ∫ x in (0 : ℝ)..h, x * (h - x) * (h / 2 - x) = 0 := by
      have : ∀ x : ℝ, x * (h - x) * (h / 2 - x) = h ^ 2 / 2 * x - 3 * h / 2 * x ^ 2 + x ^ 3 := fun x => by ring
      simp only [this]
      rw [intervalIntegral.integral_add (Continuous.intervalIntegrable (by fun_prop) _ _) (Continuous.intervalIntegrable (by fun_prop) _ _),
        integral_sub (Continuous.intervalIntegrable (by fun_prop) _ _) (Continuous.intervalIntegrable (by fun_prop) _ _),
        intervalIntegral.integral_const_mul, intervalIntegral.integral_const_mul, integral_id, integral_pow, integral_pow]
      push_cast; ring
    rw [p1, p2, zero_smul, add_zero, smul_smul]
    congr 1
    field_simp
  have e2 : ∫ r in s..(s + h), ((s + h + s) / 2 - r) • bridgeOf (fun r => v + bump h w a k (r - s)) s (s + h) r = h ^ 2 • k := by
    have e0 : ∀ r : ℝ, ((s + h + s) / 2 - r) • bridgeOf (fun r => v + bump h w a k (r - s)) s (s + h) r
        = (((r - s) * (h - (r - s)) * (h / 2 - (r - s))) • ((6 / h ^ 2) • a)
          + ((r - s) * (h - (r - s)) * (h / 2 - (r - s)) ^ 2) • ((120 / h ^ 3) • k)) := by
      intro r
      rw [hb, show (s + h + s) / 2 - r = h / 2 - (r - s) by ring]
      module
    simp only [e0]
    rw [show (∫ r in s..(s + h), (((r - s) * (h - (r - s)) * (h / 2 - (r - s))) • ((6 / h ^ 2) • a)
          + ((r - s) * (h - (r - s)) * (h / 2 - (r - s)) ^ 2) • ((120 / h ^ 3) • k)))
      = ∫ x in (s - s)..(s + h - s), ((x * (h - x) * (h / 2 - x)) • ((6 / h ^ 2) • a)
        + (x * (h - x) * (h / 2 - x) ^ 2) • ((120 / h ^ 3) • k)) from
        intervalIntegral.integral_comp_sub_right (fun x => (x * (h - x) * (h / 2 - x)) • ((6 / h ^ 2) • a)
        + (x * (h - x) * (h / 2 - x) ^ 2) • ((120 / h ^ 3) • k)) s]
    rw [sub_self, add_sub_cancel_left, intervalIntegral.integral_add (Continuous.intervalIntegrable (by fun_prop) _ _)
      (Continuous.intervalIntegrable (by fun_prop) _ _), intervalIntegral.integral_smul_const,
      intervalIntegral.integral_smul_const]
    have p2 : ∫ x in (0 : ℝ)..h, x * (h - x) * (h / 2 - x) = 0 := by
      have : ∀ x : ℝ, x * (h - x) * (h / 2 - x) = h ^ 2 / 2 * x - 3 * h / 2 * x ^ 2 + x ^ 3 := fun x => by ring
      simp only [this]
      rw [intervalIntegral.integral_add (Continuous.intervalIntegrable (by fun_prop) _ _) (Continuous.intervalIntegrable (by fun_prop) _ _),
        integral_sub (Continuous.intervalIntegrable (by fun_prop) _ _) (Continuous.intervalIntegrable (by fun_prop) _ _),
        intervalIntegral.integral_const_mul, intervalIntegral.integral_const_mul, integral_id, integral_pow, integral_pow]
      push_cast; ring
    have p3 : ∫ x in (0 : ℝ)..h, x * (h - x) * (h / 2 - x) ^ 2 = h ^ 5 / 120 := by
      have : ∀ x : ℝ, x * (h - x) * (h / 2 - x) ^ 2
          = h ^ 3 / 4 * x - 5 * h ^ 2 / 4 * x ^ 2 + 2 * h * x ^ 3 - x ^ 4 := fun x => by ring
      simp only [this]
      rw [integral_sub (Continuous.intervalIntegrable (by fun_prop) _ _) (Continuous.intervalIntegrable (by fun_prop) _ _),
        intervalIntegral.integral_add (Continuous.intervalIntegrable (by fun_prop) _ _) (Continuous.intervalIntegrable (by fun_prop) _ _),
        integral_sub (Continuous.intervalIntegrable (by fun_prop) _ _) (Continuous.intervalIntegrable (by fun_prop) _ _),
        intervalIntegral.integral_const_mul, intervalIntegral.integral_const_mul, intervalIntegral.integral_const_mul,
        integral_id, integral_pow, integral_pow, integral_pow]
      push_cast; ring
    rw [p2, p3, zero_smul, zero_add, smul_smul]
    congr 1
    field_simp
  unfold levyOf areaH areaK
  rw [e1, e2]
  have hs : s + h - s = h := by ring
  simp only [hs, Prod.mk.injEq, true_and]
  refine ⟨?_, ?_, ?_⟩
  · simp only [bump, sub_self, hs]
    simp [div_self hh.ne']
  · rw [smul_smul, one_div_mul_cancel hh.ne', one_smul]
  · rw [smul_smul, one_div_mul_cancel (pow_ne_zero 2 hh.ne'), one_smul]

/-- Given data satisfying Chen's relation, there is a path of which they are the increments and areas. -/
theorem exists_path (τ : ℕ → ℝ) (L : ℕ → ℕ → ℝ × E × E × E) (n : ℕ) (hτ : ∀ i j, i < j → j ≤ n → τ i < τ j)
    (hL : ∀ i j k, i < j → j < k → k ≤ n → ChenRel (L i j) (L j k) (L i k))
    (hdt : ∀ i j, i < j → j ≤ n → (L i j).1 = τ j - τ i) :
    ∃ W : ℝ → E, Continuous W ∧ ∀ i j, i < j → j ≤ n → levyOf W (τ i) (τ j) = L i j := by
  induction n with
  | zero => exact ⟨0, continuous_zero, fun i j h1 h2 => by omega⟩
  | succ n ih =>
    obtain ⟨V, hV, hLV⟩ := ih (fun i j h1 h2 => hτ i j h1 (by omega)) (fun i j k h1 h2 h3 => hL i j k h1 h2 (by omega))
      (fun i j h1 h2 => hdt i j h1 (by omega))
    have hlt : τ n < τ (n + 1) := hτ n (n + 1) (by omega) le_rfl
    set h := τ (n + 1) - τ n with hh
    have hpos : 0 < h := sub_pos.mpr hlt
    set l := L n (n + 1) with hl
    let W : ℝ → E := fun r => if r ≤ τ n then V r else V (τ n) + bump h l.2.1 l.2.2.1 l.2.2.2 (r - τ n)
    have hW : Continuous W := by
      apply Continuous.if_le hV ((continuous_const).add ((bump_cont _ _ _ _).comp (by fun_prop))) continuous_id continuous_const
      intro r hr
      simp only [id] at hr
      simp [hr, bump]
    have hlast : levyOf W (τ n) (τ (n + 1)) = L n (n + 1) := by
      have h1 := levyOf_bump (V (τ n)) (τ n) h hpos l.2.1 l.2.2.1 l.2.2.2
      have h2 : τ n + h = τ (n + 1) := by rw [hh]; ring
      rw [h2] at h1
      rw [levyOf_congr (W := fun r => V (τ n) + bump h l.2.1 l.2.2.1 l.2.2.2 (r - τ n)) hlt.le, h1]
      · rw [← hl]
        ext <;> simp only [hl]
        · rw [hdt n (n + 1) (by omega) le_rfl]
      · intro r hr1 hr2
        by_cases hr : r ≤ τ n
        · have : r = τ n := le_antisymm hr hr1
          simp [W, this, bump]
        · simp [W, hr]
    refine ⟨W, hW, ?_⟩
    intro i j hij hj
    by_cases hj' : j ≤ n
    · rw [← hLV i j hij hj']
      apply levyOf_congr (hτ i j hij hj).le
      intro r _ hr
      have : r ≤ τ n := by
        rcases hj'.lt_or_eq with h1 | h1
        · exact hr.trans (hτ j n h1 (by omega)).le
        · rw [← h1]; exact hr
      simp [W, this]
    · have hj'' : j = n + 1 := by omega
      subst hj''
      by_cases hi : i = n
      · rw [hi]; exact hlast
      · have hin : i < n := by omega
        have hin' : levyOf W (τ i) (τ n) = L i n := by
          rw [← hLV i n hin le_rfl]
          apply levyOf_congr (hτ i n hin (by omega)).le
          intro r _ hr
          simp [W, hr]
        have c1 := chen_levyOf W hW (hτ i n hin (by omega)) hlt
        rw [hin', hlast] at c1
        have c2 := hL i n (n + 1) hin (by omega) le_rfl
        have d1 : (levyOf W (τ i) (τ (n + 1))).1 = (L i (n + 1)).1 := by rw [c1.dt, c2.dt]
        have dpos : (L i (n + 1)).1 ≠ 0 := by
          rw [hdt i (n + 1) hij hj]; exact (sub_pos.mpr (hτ i (n + 1) hij hj)).ne'
        have d2 := c1.W.trans c2.W.symm
        have d3 := c1.H.trans c2.H.symm
        have d4 := c1.K.trans c2.K.symm
        rw [d1] at d3 d4
        exact Prod.ext d1 (Prod.ext d2 (Prod.ext (smul_right_injective E dpos d3)
          (smul_right_injective E (pow_ne_zero 2 dpos) d4)))

end
end Verif
