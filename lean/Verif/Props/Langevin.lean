import Verif.Spec.Langevin
import Verif.Lemmas.LevyPath
import Mathlib.Analysis.Calculus.MeanValue
import Mathlib.Analysis.SpecialFunctions.ExpDeriv
import Mathlib.Analysis.Complex.ExponentialBounds

/-!
# C72, C74 and C69: the solvers for underdamped Langevin diffusions
-/

namespace Verif
open Set

/-! ### C72: exact solutions -/

/-- `v' = -c v + p0 + p1 s + p2 s²`, solved. -/
theorem ou_solution {c t0 p0 p1 p2 : ℝ} (hc : c ≠ 0) {x v : ℝ → ℝ} (hx : ∀ s, HasDerivAt x (v s) s)
    (hv : ∀ s, HasDerivAt v (-c * v s + (p0 + p1 * (s - t0) + p2 * (s - t0) ^ 2)) s) (h : ℝ) :
    let q2 := p2 / c
    let q1 := (p1 - 2 * q2) / c
    let q0 := (p0 - q1) / c
    v (t0 + h) = Real.exp (-(c * h)) * (v t0 - q0) + (q0 + q1 * h + q2 * h ^ 2) ∧
    x (t0 + h) = x t0 + (v t0 - q0) * ((1 - Real.exp (-(c * h))) / c) + q0 * h + q1 * h ^ 2 / 2 + q2 * h ^ 3 / 3 := by
  intro q2 q1 q0
  have e2 : c * q2 = p2 := by simp only [q2]; field_simp
  have e1 : c * q1 = p1 - 2 * q2 := by simp only [q1]; field_simp
  have e0 : c * q0 = p0 - q1 := by simp only [q0]; field_simp
  have hexp : ∀ s, HasDerivAt (fun s => Real.exp (c * (s - t0))) (Real.exp (c * (s - t0)) * c) s := fun s => by
    have h1 : HasDerivAt (fun s => c * (s - t0)) (c * 1) s := ((hasDerivAt_id s).sub_const t0).const_mul c
    rw [mul_one] at h1
    exact h1.exp
  have hexp' : ∀ s, HasDerivAt (fun s => Real.exp (-(c * (s - t0)))) (Real.exp (-(c * (s - t0))) * -c) s := fun s => by
    have h1 : HasDerivAt (fun s => c * (s - t0)) (c * 1) s := ((hasDerivAt_id s).sub_const t0).const_mul c
    rw [mul_one] at h1
    exact h1.neg.exp
  have hP : ∀ s, HasDerivAt (fun s => q0 + q1 * (s - t0) + q2 * (s - t0) ^ 2) (q1 + 2 * q2 * (s - t0)) s := fun s => by
    have h1 : HasDerivAt (fun s => s - t0) 1 s := (hasDerivAt_id s).sub_const t0
    have := ((hasDerivAt_const s q0).add (h1.const_mul q1)).add ((h1.pow 2).const_mul q2)
    refine this.congr_deriv ?_
    simp only [Nat.cast_ofNat]; ring
  -- the velocity
  have hV : ∀ s, v s = Real.exp (-(c * (s - t0))) * (v t0 - q0) + (q0 + q1 * (s - t0) + q2 * (s - t0) ^ 2) := by
    have hd : ∀ s, HasDerivAt (fun s => Real.exp (c * (s - t0)) * (v s - (q0 + q1 * (s - t0) + q2 * (s - t0) ^ 2)))
        0 s := fun s => by
      refine ((hexp s).mul ((hv s).sub (hP s))).congr_deriv ?_
      have : -c * v s + (p0 + p1 * (s - t0) + p2 * (s - t0) ^ 2) - (q1 + 2 * q2 * (s - t0))
          = -c * (v s - (q0 + q1 * (s - t0) + q2 * (s - t0) ^ 2)) := by
        linear_combination (-(e0 + e1 * (s - t0) + e2 * (s - t0) ^ 2))
      simp only [Pi.sub_apply]
      rw [this]; ring
    intro s
    have hcst := is_const_of_deriv_eq_zero (fun s => (hd s).differentiableAt) (fun s => (hd s).deriv) s t0
    simp only [sub_self, mul_zero, Real.exp_zero, one_mul, ne_eq, OfNat.ofNat_ne_zero, not_false_eq_true, zero_pow,
      add_zero] at hcst
    have hm : Real.exp (-(c * (s - t0))) * Real.exp (c * (s - t0)) = 1 := by
      rw [← Real.exp_add, neg_add_cancel, Real.exp_zero]
    have := congrArg (fun z => Real.exp (-(c * (s - t0))) * z) hcst
    rw [← mul_assoc, hm, one_mul] at this
    linarith
  have hX : ∀ s, x s = x t0 + (v t0 - q0) * ((1 - Real.exp (-(c * (s - t0)))) / c) + q0 * (s - t0)
      + q1 * (s - t0) ^ 2 / 2 + q2 * (s - t0) ^ 3 / 3 := by
    have hd : ∀ s, HasDerivAt (fun s => x s - ((v t0 - q0) * ((1 - Real.exp (-(c * (s - t0)))) / c) + q0 * (s - t0)
        + q1 * (s - t0) ^ 2 / 2 + q2 * (s - t0) ^ 3 / 3)) 0 s := fun s => by
      have h1 : HasDerivAt (fun s => s - t0) 1 s := (hasDerivAt_id s).sub_const t0
      have h2 := ((((((hasDerivAt_const s (1 : ℝ)).sub (hexp' s)).div_const c).const_mul (v t0 - q0)).add
        (h1.const_mul q0)).add (((h1.pow 2).const_mul q1).div_const 2)).add (((h1.pow 3).const_mul q2).div_const 3)
      refine ((hx s).sub h2).congr_deriv ?_
      rw [hV s]
      simp only [Nat.cast_ofNat]
      field_simp
      ring
    intro s
    have hcst := is_const_of_deriv_eq_zero (fun s => (hd s).differentiableAt) (fun s => (hd s).deriv) s t0
    simp only [sub_self, mul_zero, neg_zero, Real.exp_zero, zero_div, ne_eq, OfNat.ofNat_ne_zero, not_false_eq_true,
      zero_pow, add_zero, sub_zero] at hcst
    linarith
  have hs : t0 + h - t0 = h := by ring
  exact ⟨by rw [hV, hs], by rw [hX, hs]⟩

/-- The increment and the areas of a cubic path. -/
theorem levyOf_cubic {d : ℕ} (t0 h : ℝ) (hh : 0 < h) (w0 w1 w2 w3 : RVec d) (i : Fin d) :
    (levyOf (cubicPath t0 w0 w1 w2 w3) t0 (t0 + h)).2.1 i = w1 i * h + w2 i * h ^ 2 + w3 i * h ^ 3 ∧
    (levyOf (cubicPath t0 w0 w1 w2 w3) t0 (t0 + h)).2.2.1 i = -(w2 i * h ^ 2 / 6) - w3 i * h ^ 3 / 4 ∧
    (levyOf (cubicPath t0 w0 w1 w2 w3) t0 (t0 + h)).2.2.2 i = w3 i * h ^ 3 / 120 := by
  have hne := hh.ne'
  let W : RVec d := fun i => w1 i * h + w2 i * h ^ 2 + w3 i * h ^ 3
  let H : RVec d := fun i => -(w2 i * h ^ 2 / 6) - w3 i * h ^ 3 / 4
  let K : RVec d := fun i => w3 i * h ^ 3 / 120
  have hb := levyOf_bump w0 t0 h hh W H K
  have e : cubicPath t0 w0 w1 w2 w3 = fun x => w0 + bump h W H K (x - t0) := by
    funext s j
    simp only [cubicPath, bump, Pi.add_apply, Pi.smul_apply, smul_eq_mul, W, H, K]
    field_simp
    ring
  rw [e, hb]
  exact ⟨rfl, rfl, rfl⟩

section
variable {d : ℕ} {T : LangevinTerms d} {t0 h thr : ℝ} {x v : ℝ → RVec d} {w0 w1 w2 w3 : RVec d}

/-- In every coordinate the coefficients are computed directly. -/
def AboveThreshold (thr h : ℝ) (T : LangevinTerms d) : Prop := ∀ i, 0 < T.gamma i ∧ thr ≤ h * T.gamma i

theorem init_coeffs {Co : Type} (sv : LangevinSolver Co) (T : LangevinTerms d) (t0 t1 : ℝ) (y : RVec d × RVec d) :
    sv.stepCoeffs T (sv.init T t0 t1 y) (T.contr t0 t1) = fun i => sv.recompute (T.contr t0 t1) (T.gamma i) := by
  unfold LangevinSolver.stepCoeffs
  split
  · rfl
  · rfl

/-- What the first step returns. -/
theorem first_step {Co : Type} (sv : LangevinSolver Co) (T : LangevinTerms d) (t0 t1 : ℝ) (y : RVec d × RVec d) :
    sv.tracedStep T t0 t1 y (sv.init T t0 t1 y) none = some
      (let o := sv.compute (T.contr t0 t1) (T.levy t0 t1) y.1 y.2 T
          (fun i => sv.recompute (T.contr t0 t1) (T.gamma i)) (if sv.isFsal then some (T.gradF y.1) else none)
       { y := (o.x, o.v), err := o.err, dense := (y, (o.x, o.v)),
         state := { h := T.contr t0 t1, coeffs := fun i => sv.recompute (T.contr t0 t1) (T.gamma i),
                    prevF := o.fFsal }, result := .successful }) := by
  unfold LangevinSolver.tracedStep
  simp only [Option.map_some, init_coeffs]
  rfl

/-- **C72.** `ALIGN` is exact if the force is constant and the path is a parabola. -/
theorem C72_align (hh : 0 < h) (hthr : AboveThreshold thr h T) (f : RVec d) (hf : ∀ x, T.gradF x = f)
    (hd : T.DrivenBy (cubicPath t0 w0 w1 w2 0) t0 (t0 + h))
    (hs : SolvesLangevin T (cubicPath' t0 w1 w2 0) x v) :
    ∃ o, (ALIGN thr).tracedStep T t0 (t0 + h) (x t0, v t0) ((ALIGN thr).init T t0 (t0 + h) (x t0, v t0)) none = some o
      ∧ o.y = (x (t0 + h), v (t0 + h)) := by
  refine ⟨_, first_step _ _ _ _ _, ?_⟩
  obtain ⟨hc, hW, hH, -⟩ := hd
  have hc' : T.contr t0 (t0 + h) = h := by rw [hc]; ring
  have key : ∀ i, _ := fun i => ou_solution (c := T.gamma i) (t0 := t0)
    (p0 := -T.u i * f i + T.rho i * w1 i) (p1 := T.rho i * (2 * w2 i)) (p2 := 0) (hthr i).1.ne'
    (fun s => hs.pos s i) (fun s => (hs.vel s i).congr_deriv (by
      rw [hf]; simp only [cubicPath', LangevinTerms.rho, Pi.zero_apply]; ring)) h
  have hrec : ∀ i, (ALIGN thr).recompute h (T.gamma i) = alignDirect h (T.gamma i) := fun i =>
    if_neg (not_lt.2 (hthr i).2)
  have hLv := fun i => levyOf_cubic t0 h hh w0 w1 w2 0 i
  have hWi : ∀ i, (T.levy t0 (t0 + h)).W i = w1 i * h + w2 i * h ^ 2 := fun i => by
    rw [hW, (hLv i).1]; simp
  have hHi : ∀ i, (T.levy t0 (t0 + h)).H i = -(w2 i * h ^ 2 / 6) := fun i => by
    rw [hH, (hLv i).2.1]; simp
  rw [hc']
  simp only [ALIGN, alignCompute, if_true, Option.getD_some, hf, hWi, hHi]
  refine Prod.ext ?_ ?_
  · funext i
    have hg := (hthr i).1.ne'
    have hne := hh.ne'
    show _ = x (t0 + h) i
    rw [(key i).2]
    have := hrec i
    simp only [ALIGN] at this
    simp only [this, alignDirect]
    field_simp
    ring
  · funext i
    have hg := (hthr i).1.ne'
    have hne := hh.ne'
    show _ = v (t0 + h) i
    rw [(key i).1]
    have := hrec i
    simp only [ALIGN] at this
    simp only [this, alignDirect]
    field_simp
    ring

/-- **C72.** `ShOULD` is exact without force, for paths of third degree. -/
theorem C72_should (hh : 0 < h) (hthr : AboveThreshold thr h T) (hf : ∀ x, T.gradF x = 0)
    (hd : T.DrivenBy (cubicPath t0 w0 w1 w2 w3) t0 (t0 + h))
    (hs : SolvesLangevin T (cubicPath' t0 w1 w2 w3) x v) :
    ∃ o, (ShOULD thr).tracedStep T t0 (t0 + h) (x t0, v t0) ((ShOULD thr).init T t0 (t0 + h) (x t0, v t0)) none
      = some o ∧ o.y = (x (t0 + h), v (t0 + h)) := by
  refine ⟨_, first_step _ _ _ _ _, ?_⟩
  obtain ⟨hc, hW, hH, hK⟩ := hd
  have hc' : T.contr t0 (t0 + h) = h := by rw [hc]; ring
  have key : ∀ i, _ := fun i => ou_solution (c := T.gamma i) (t0 := t0)
    (p0 := T.rho i * w1 i) (p1 := T.rho i * (2 * w2 i)) (p2 := T.rho i * (3 * w3 i)) (hthr i).1.ne'
    (fun s => hs.pos s i) (fun s => (hs.vel s i).congr_deriv (by
      rw [hf]; simp only [cubicPath', LangevinTerms.rho, Pi.zero_apply]; ring)) h
  have hrec : ∀ i, (ShOULD thr).recompute h (T.gamma i) = shouldDirect h (T.gamma i) := fun i =>
    if_neg (not_lt.2 (hthr i).2)
  have hLv := fun i => levyOf_cubic t0 h hh w0 w1 w2 w3 i
  have hWi : ∀ i, (T.levy t0 (t0 + h)).W i = _ := fun i => by
    rw [hW, (hLv i).1]
  have hHi : ∀ i, (T.levy t0 (t0 + h)).H i = _ := fun i => by
    rw [hH, (hLv i).2.1]
  have hKi : ∀ i, (T.levy t0 (t0 + h)).K i = _ := fun i => by
    rw [hK, (hLv i).2.2]
  rw [hc']
  simp only [ShOULD, shouldCompute, if_true, Option.getD_some, hf, hWi, hHi, hKi, Pi.zero_apply]
  refine Prod.ext ?_ ?_
  · funext i
    have hg := (hthr i).1.ne'
    have hne := hh.ne'
    show _ = x (t0 + h) i
    rw [(key i).2]
    have := hrec i
    simp only [ShOULD] at this
    simp only [this, shouldDirect]
    field_simp
    ring
  · funext i
    have hg := (hthr i).1.ne'
    have hne := hh.ne'
    show _ = v (t0 + h) i
    rw [(key i).1]
    have := hrec i
    simp only [ShOULD] at this
    simp only [this, shouldDirect]
    field_simp
    ring

/-- **C72.** `QUICSORT` is exact without force, for straight paths. -/
theorem C72_quicsort (hh : 0 < h) (hthr : AboveThreshold thr h T) (hf : ∀ x, T.gradF x = 0)
    (hd : T.DrivenBy (cubicPath t0 w0 w1 0 0) t0 (t0 + h))
    (hs : SolvesLangevin T (cubicPath' t0 w1 0 0) x v) :
    ∃ o, (QUICSORT thr).tracedStep T t0 (t0 + h) (x t0, v t0) ((QUICSORT thr).init T t0 (t0 + h) (x t0, v t0)) none
      = some o ∧ o.y = (x (t0 + h), v (t0 + h)) := by
  refine ⟨_, first_step _ _ _ _ _, ?_⟩
  obtain ⟨hc, hW, hH, hK⟩ := hd
  have hc' : T.contr t0 (t0 + h) = h := by rw [hc]; ring
  have key : ∀ i, _ := fun i => ou_solution (c := T.gamma i) (t0 := t0)
    (p0 := T.rho i * w1 i) (p1 := 0) (p2 := 0) (hthr i).1.ne'
    (fun s => hs.pos s i) (fun s => (hs.vel s i).congr_deriv (by
      rw [hf]; simp only [cubicPath', LangevinTerms.rho, Pi.zero_apply]; ring)) h
  have hrec : ∀ i, (QUICSORT thr).recompute h (T.gamma i) = quicsortDirect h (T.gamma i) := fun i =>
    if_neg (not_lt.2 (hthr i).2)
  have hLv := fun i => levyOf_cubic t0 h hh w0 w1 0 0 i
  have hWi : ∀ i, (T.levy t0 (t0 + h)).W i = w1 i * h := fun i => by
    rw [hW, (hLv i).1]; simp
  have hHi : ∀ i, (T.levy t0 (t0 + h)).H i = 0 := fun i => by
    rw [hH, (hLv i).2.1]; simp
  have hKi : ∀ i, (T.levy t0 (t0 + h)).K i = 0 := fun i => by
    rw [hK, (hLv i).2.2]; simp
  rw [hc']
  simp only [QUICSORT, quicsortCompute, hf, hWi, hHi, hKi, Pi.zero_apply]
  refine Prod.ext ?_ ?_
  · funext i
    have hg := (hthr i).1.ne'
    have hne := hh.ne'
    show _ = x (t0 + h) i
    rw [(key i).2]
    have := hrec i
    simp only [QUICSORT] at this
    simp only [this, quicsortDirect]
    simp only [mul_one]
    field_simp
    ring
  · funext i
    have hg := (hthr i).1.ne'
    have hne := hh.ne'
    show _ = v (t0 + h) i
    rw [(key i).1]
    have := hrec i
    simp only [QUICSORT] at this
    simp only [this, quicsortDirect]
    simp only [mul_one]
    field_simp
    ring

end

/-- Terms, a straight path and a solution: `gamma = 1`, `u = 1/2`, so `v' = -v + w'`, and `w(s) = s`. -/
noncomputable def exTerms : LangevinTerms 1 where
  gamma _ := 1
  u _ := 1 / 2
  gradF _ := 0
  contr t0 t1 := t1 - t0
  levy t0 t1 :=
    let l := levyOf (cubicPath 0 0 (fun _ : Fin 1 => (1 : ℝ)) 0 0) t0 t1
    { W := l.2.1, H := l.2.2.1, K := l.2.2.2 }

theorem exTerms_solves : SolvesLangevin exTerms (cubicPath' 0 (fun _ => 1) 0 0) (fun s _ => s) (fun _ _ => 1) where
  pos s _ := hasDerivAt_id s
  vel s i := (hasDerivAt_const s (1 : ℝ)).congr_deriv (by simp [exTerms, cubicPath'])

example : ∃ o, (QUICSORT (1 / 10)).tracedStep exTerms 0 (0 + 1) (fun _ => 0, fun _ => 1)
    ((QUICSORT (1 / 10)).init exTerms 0 (0 + 1) (fun _ => 0, fun _ => 1)) none = some o
      ∧ o.y = (fun _ => 0 + 1, fun _ => 1) :=
  C72_quicsort (w0 := 0) (x := fun s _ => s) (v := fun _ _ => 1) one_pos (fun i => ⟨one_pos, by norm_num [exTerms]⟩)
    (fun _ => rfl) ⟨rfl, rfl, rfl, rfl⟩ exTerms_solves

/-! ### C74: the coefficients belong to the step -/

section
variable {Co : Type} {d : ℕ} (sv : LangevinSolver Co) (T : LangevinTerms d) (τ : ℕ → ℝ) (y0 : RVec d × RVec d)

/-- Steps over `[τ 0, τ 1]`, `[τ 1, τ 2]`, ... without jumps: the value and the state before the `n`-th one. -/
noncomputable def langevinRun : ℕ → (RVec d × RVec d) × LangevinState d Co
  | 0 => (y0, sv.init T (τ 0) (τ 1) y0)
  | n + 1 =>
    let (y, st) := langevinRun n
    match sv.tracedStep T (τ n) (τ (n + 1)) y st none with
    | some o => (o.y, o.state)
    | none => (y, st)

/-- The length of the `n`-th step. -/
noncomputable def stepLength (n : ℕ) : ℝ := T.contr (τ n) (τ (n + 1))

/-- The coefficients that the `n`-th step uses. -/
noncomputable def usedCoeffs (n : ℕ) : Fin d → Co :=
  sv.stepCoeffs T (langevinRun sv T τ y0 n).2 (stepLength T τ n)

/-- The coefficients for a step of length `h`. -/
noncomputable def coeffsFor (h : ℝ) : Fin d → Co := fun i => sv.recompute h (T.gamma i)

theorem langevinRun_succ (n : ℕ) : (langevinRun sv T τ y0 (n + 1)).2.h = stepLength T τ n ∧
    (langevinRun sv T τ y0 (n + 1)).2.coeffs = usedCoeffs sv T τ y0 n := by
  simp only [langevinRun, LangevinSolver.tracedStep, Option.map_some]
  exact ⟨rfl, rfl⟩

theorem usedCoeffs_zero : usedCoeffs sv T τ y0 0 = coeffsFor sv T (stepLength T τ 0) :=
  init_coeffs sv T (τ 0) (τ 1) y0

theorem usedCoeffs_close (n : ℕ) (h : LangevinSolver.isclose (stepLength T τ n) (stepLength T τ (n + 1))) :
    usedCoeffs sv T τ y0 (n + 1) = usedCoeffs sv T τ y0 n := by
  obtain ⟨h1, h2⟩ := langevinRun_succ sv T τ y0 n
  conv_lhs => rw [usedCoeffs]
  unfold LangevinSolver.stepCoeffs
  rw [h1, if_pos h, h2]

/-- **C74, partial.** The coefficients are the right ones for the first step, and for every step whose length
differs from that of the step before (by more than `isclose` allows). -/
theorem C74_changed_partial (n : ℕ)
    (h : n = 0 ∨ ¬ LangevinSolver.isclose (stepLength T τ (n - 1)) (stepLength T τ n)) :
    usedCoeffs sv T τ y0 n = coeffsFor sv T (stepLength T τ n) := by
  rcases n with _ | n
  · exact usedCoeffs_zero sv T τ y0
  · obtain ⟨h1, -⟩ := langevinRun_succ sv T τ y0 n
    have h2 : ¬ LangevinSolver.isclose (stepLength T τ n) (stepLength T τ (n + 1)) := by
      rcases h with h | h
      · exact absurd h (Nat.succ_ne_zero n)
      · exact h
    unfold usedCoeffs LangevinSolver.stepCoeffs
    rw [h1, if_neg h2]
    rfl

/-- **C74, partial.** They are the right ones if all steps have the same length. -/
theorem C74_constant_partial (h : ℝ) (hh : ∀ n, stepLength T τ n = h) (n : ℕ) :
    usedCoeffs sv T τ y0 n = coeffsFor sv T (stepLength T τ n) := by
  induction n with
  | zero => exact usedCoeffs_zero sv T τ y0
  | succ n ih =>
    rw [usedCoeffs_close, ih, hh, hh]
    rw [hh, hh]
    unfold LangevinSolver.isclose
    rw [sub_self, abs_zero]
    positivity

/-- If every step is close to the one before, the coefficients of the first are used for ever. -/
theorem usedCoeffs_stale (h : ∀ n, LangevinSolver.isclose (stepLength T τ n) (stepLength T τ (n + 1))) (n : ℕ) :
    usedCoeffs sv T τ y0 n = coeffsFor sv T (stepLength T τ 0) := by
  induction n with
  | zero => exact usedCoeffs_zero sv T τ y0
  | succ n ih => rw [usedCoeffs_close sv T τ y0 n (h n), ih]

/-- **C74 is false: steps that grow slowly.** The length of a step is compared with that of the step before, not
with the one the coefficients were computed for. So the steps can grow by any factor `R`, with the coefficients still
those of the first step. -/
theorem C74_violated_drift (hT : ∀ t0 t1, T.contr t0 t1 = t1 - t0) (h0 R : ℝ) (hh : 0 < h0) :
    ∃ τ : ℕ → ℝ, StrictMono τ ∧ τ 1 - τ 0 = h0 ∧ ∃ n, R * h0 ≤ τ (n + 1) - τ n ∧
      ∀ y0, usedCoeffs sv T τ y0 n = coeffsFor sv T h0 := by
  let q : ℝ := 1 + 1 / 10 ^ 10
  have hq : 1 < q := by norm_num [q]
  have hq0 : 0 < q := by linarith
  let τ : ℕ → ℝ := fun n => ∑ k ∈ Finset.range n, h0 * q ^ k
  have hd : ∀ n, τ (n + 1) - τ n = h0 * q ^ n := fun n => by
    simp only [τ, Finset.sum_range_succ]; ring
  have hl : ∀ n, stepLength T τ n = h0 * q ^ n := fun n => by
    unfold stepLength; rw [hT, hd]
  obtain ⟨n, hn⟩ := pow_unbounded_of_one_lt R hq
  refine ⟨τ, strictMono_nat_of_lt_succ fun n => ?_, by have := hd 0; simpa using this, n, ?_, fun y0 => ?_⟩
  · have := hd n
    have : 0 < h0 * q ^ n := by positivity
    linarith
  · rw [hd, mul_comm R]
    exact mul_le_mul_of_nonneg_left hn.le hh.le
  · rw [usedCoeffs_stale, hl 0, pow_zero, mul_one]
    intro k
    rw [hl, hl]
    unfold LangevinSolver.isclose
    have hp : 0 < h0 * q ^ k := by positivity
    have e : h0 * q ^ k - h0 * q ^ (k + 1) = -(1 / 10 ^ 10 * (h0 * q ^ k)) := by
      simp only [q]; ring
    rw [e, abs_neg, abs_of_pos (by positivity), abs_of_pos (by positivity), pow_succ]
    have : h0 * q ^ k ≤ h0 * (q ^ k * q) := by
      rw [← mul_assoc]; exact le_mul_of_one_le_right hp.le hq.le
    have h2 : 1 / 10 ^ 10 * (h0 * q ^ k) ≤ 1 / 10 ^ 10 * (h0 * (q ^ k * q)) :=
      mul_le_mul_of_nonneg_left this (by positivity)
    have h3 : (0 : ℝ) ≤ 1 / 10 ^ 12 := by positivity
    linarith

/-- **C74 is false: short steps.** Steps of less than `1e-12` units of time are all taken to have the same length,
however different they are. -/
theorem C74_violated_short (h : ∀ n, 0 ≤ stepLength T τ n ∧ stepLength T τ n ≤ 1 / 10 ^ 12) (n : ℕ) :
    usedCoeffs sv T τ y0 n = coeffsFor sv T (stepLength T τ 0) := by
  refine usedCoeffs_stale sv T τ y0 (fun k => ?_) n
  obtain ⟨a1, a2⟩ := h k
  obtain ⟨b1, b2⟩ := h (k + 1)
  unfold LangevinSolver.isclose
  have h1 : |stepLength T τ k - stepLength T τ (k + 1)| ≤ 1 / 10 ^ 12 := by
    rw [abs_le]; constructor <;> linarith
  have h2 : 0 ≤ 1 / 10 ^ 10 * |stepLength T τ (k + 1)| := by positivity
  linarith

end

/-- The consequence, for `ALIGN` and a particle at rest until a step of length `h` (time in seconds, `gamma` of the
order of `1e13`): the velocity is damped as if the step had length `h0`. -/
theorem C74_short_beta (thr c h0 h : ℝ) (hc : 0 < c) (h00 : 0 < h0) (h1 : h0 < h) (ht : thr ≤ h0 * c) :
    ((ALIGN thr).recompute h0 c).beta = Real.exp (-(c * h0)) ∧
    ((ALIGN thr).recompute h c).beta = Real.exp (-(c * h)) ∧
    ((ALIGN thr).recompute h c).beta < ((ALIGN thr).recompute h0 c).beta := by
  have e1 : ((ALIGN thr).recompute h0 c).beta = Real.exp (-(c * h0)) := by
    have : (ALIGN thr).recompute h0 c = alignDirect h0 c := if_neg (not_lt.2 ht)
    rw [this]; rfl
  have e2 : ((ALIGN thr).recompute h c).beta = Real.exp (-(c * h)) := by
    have : (ALIGN thr).recompute h c = alignDirect h c :=
      if_neg (not_lt.2 (ht.trans (mul_le_mul_of_nonneg_right h1.le hc.le)))
    rw [this]; rfl
  refine ⟨e1, e2, ?_⟩
  rw [e1, e2, Real.exp_lt_exp]
  have := mul_lt_mul_of_pos_left h1 hc
  linarith

/-- **C74 is false: backward solves.** The threshold is compared with `h * gamma`, which is negative in backward
solves: the Taylor expansion is used however long the step is. -/
theorem C74_violated_backward {Co : Type} (sv : LangevinSolver Co) (h c : ℝ) (hh : h < 0) (hc : 0 < c)
    (ht : 0 ≤ sv.threshold) : sv.recompute h c = sv.taylor h c :=
  if_pos ((mul_neg_of_neg_of_pos hh hc).trans_le ht)

/-- With `gamma = 1` and a step of length 10 backwards, the factor of the velocity is 1477 instead of 22026. -/
theorem C74_violated_backward_value (thr : ℝ) (ht : 0 ≤ thr) :
    ((ALIGN thr).recompute (-10) 1).beta < 1478 ∧ 20000 < (alignDirect (-10) 1).beta := by
  rw [C74_violated_backward (ALIGN thr) (-10) 1 (by norm_num) one_pos ht]
  constructor
  · norm_num [ALIGN, alignEval, alignTay, polyvalH]
  · have h1 : (2.7182818283 : ℝ) < Real.exp 1 := Real.exp_one_gt_d9
    have h2 : Real.exp 10 = Real.exp 1 ^ 10 := by rw [← Real.exp_nat_mul]; norm_num
    simp only [alignDirect]
    rw [show -(1 * (-10 : ℝ)) = 10 by norm_num, h2]
    have h3 : (2.7182818283 : ℝ) ^ 10 ≤ Real.exp 1 ^ 10 := pow_le_pow_left₀ (by norm_num) h1.le 10
    have h4 : (20000 : ℝ) < 2.7182818283 ^ 10 := by norm_num
    linarith

/-- Steps of lengths 1, 2, 2, ...: the coefficients are recomputed for the second one. -/
example (sv : LangevinSolver ℝ) (y0 : RVec 1 × RVec 1) :
    usedCoeffs sv exTerms (fun n => if n = 0 then 0 else 2 * n - 1) y0 1 = coeffsFor sv exTerms 2 := by
  have e1 : stepLength exTerms (fun n => if n = 0 then (0 : ℝ) else 2 * n - 1) 1 = 2 := by
    norm_num [stepLength, exTerms]
  have e0 : stepLength exTerms (fun n => if n = 0 then (0 : ℝ) else 2 * n - 1) 0 = 1 := by
    norm_num [stepLength, exTerms]
  rw [C74_changed_partial _ _ _ _ 1 (Or.inr ?_), e1]
  rw [e0, e1]
  unfold LangevinSolver.isclose
  norm_num

/-! ### C69: jumps -/

/-- **C69** for `ALIGN` and `ShOULD` (any solver with FSAL), partial: a step after a jump is the same as the first
step of a solve, if the coefficients are the right ones (C74). -/
theorem C69_langevin_partial {Co : Type} {d : ℕ} (sv : LangevinSolver Co) (T : LangevinTerms d)
    (hfsal : sv.isFsal = true) (t0 t1 : ℝ) (y : RVec d × RVec d) (st : LangevinState d Co) (f : RVec d)
    (hst : st.prevF = some f) (hco : sv.stepCoeffs T st (T.contr t0 t1) = coeffsFor sv T (T.contr t0 t1)) :
    sv.tracedStep T t0 t1 y st (some true) = sv.tracedStep T t0 t1 y (sv.init T t0 t1 y) none := by
  rw [first_step]
  unfold LangevinSolver.tracedStep
  simp only [hst, if_true, Option.map_some, hco, hfsal]
  rfl

/-- Without jumps, the force remembered is the force at the current position: what is remembered makes no
difference. -/
theorem C69_langevin_fsal {d : ℕ} (thr : ℝ) (T : LangevinTerms d) (τ : ℕ → ℝ) (y0 : RVec d × RVec d) (n : ℕ) :
    (langevinRun (ALIGN thr) T τ y0 n).2.prevF = some (T.gradF (langevinRun (ALIGN thr) T τ y0 n).1.1) ∧
    (langevinRun (ShOULD thr) T τ y0 n).2.prevF = some (T.gradF (langevinRun (ShOULD thr) T τ y0 n).1.1) := by
  rcases n with _ | n
  · exact ⟨rfl, rfl⟩
  · simp only [langevinRun, LangevinSolver.tracedStep, Option.map_some]
    exact ⟨rfl, rfl⟩

/-- **C69 is false for `QUICSORT`**: a solve in which jumps are possible (`made_jump` is traced, as with
`ClipStepSizeController(..., jump_ts=...)`) cannot be traced. The state has no force to remember, but the step asks
for one of two, and only one of them is `None`. -/
theorem C69_violated_quicsort {d : ℕ} (thr : ℝ) (T : LangevinTerms d) (t0 t1 : ℝ) (y : RVec d × RVec d) (b : Bool) :
    (QUICSORT thr).tracedStep T t0 t1 y ((QUICSORT thr).init T t0 t1 y) (some b) = none := rfl

example (y : RVec 1 × RVec 1) : (ALIGN (1 / 10)).tracedStep exTerms 0 1 y
    { h := 5, coeffs := fun _ => alignDirect 5 1, prevF := some fun _ => 7 } (some true)
      = (ALIGN (1 / 10)).tracedStep exTerms 0 1 y ((ALIGN (1 / 10)).init exTerms 0 1 y) none := by
  refine C69_langevin_partial _ _ rfl _ _ _ _ _ rfl ?_
  unfold LangevinSolver.stepCoeffs
  rw [if_neg]
  · rfl
  · unfold LangevinSolver.isclose
    norm_num [exTerms]

end Verif
