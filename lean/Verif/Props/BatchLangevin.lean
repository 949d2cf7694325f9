import Verif.Props.Batch

/-!
# C83 for the Langevin solvers
-/

set_option linter.unusedSectionVars false

namespace Verif

variable {n d : ℕ} {Co : Type}

/-- The stored coefficients are those of the step that is to be made, if they are going to be used; and the stored
force is that at the start of the step, or not going to be used. -/
structure LangevinSolver.Ready (sv : LangevinSolver Co) (T : LangevinTerms d)
    (c : StepCall ℝ (RVec d × RVec d) (LangevinState d Co)) : Prop where
  coeffs : LangevinSolver.isclose c.state.h (T.contr c.t0 c.t1) →
    c.state.coeffs = fun k => sv.recompute (T.contr c.t0 c.t1) (T.gamma k)
  force : ∃ f, c.state.prevF = some f ∧ (c.madeJump = true ∨ f = T.gradF c.y0.1)

theorem recomputeB_eq (sv : LangevinSolver Co) (all : Bool) (h c : ℝ)
    (hall : all = true → h * c < sv.threshold) : sv.recomputeB all h c = sv.recompute h c := by
  unfold LangevinSolver.recomputeB LangevinSolver.recompute
  cases all with
  | true => simp [hall rfl]
  | false => simp

open Classical in
/-- **C83, Langevin solvers, part.** A lane whose stored coefficients are exactly those of the step to be made gets
the step that it gets alone. Missing: stored coefficients of a step that is close in length, but not the same
(`C83_langevin_violated`). -/
theorem C83_langevin_partial (sv : LangevinSolver Co) (T : Fin n → LangevinTerms d)
    (calls : Fin n → StepCall ℝ (RVec d × RVec d) (LangevinState d Co)) (i : Fin n)
    (h : sv.Ready (T i) (calls i)) :
    sv.tracedStep (T i) (calls i).t0 (calls i).t1 (calls i).y0 (calls i).state (some (calls i).madeJump)
      = some (langevinBatch sv T calls i) := by
  obtain ⟨hco, f, hf, hforce⟩ := h
  have hre : ∀ all : Fin d → Bool, (∀ k, all k = true →
      (T i).contr (calls i).t0 (calls i).t1 * (T i).gamma k < sv.threshold) →
      (fun k => sv.recomputeB (all k) ((T i).contr (calls i).t0 (calls i).t1) ((T i).gamma k))
        = fun k => sv.recompute ((T i).contr (calls i).t0 (calls i).t1) ((T i).gamma k) := by
    intro all hall
    funext k
    exact recomputeB_eq _ _ _ _ (hall k)
  have e1 : sv.stepCoeffs (T i) (calls i).state ((T i).contr (calls i).t0 (calls i).t1)
      = fun k => sv.recompute ((T i).contr (calls i).t0 (calls i).t1) ((T i).gamma k) := by
    unfold LangevinSolver.stepCoeffs
    split
    · rename_i hc; exact hco hc
    · rfl
  have e2 : (if (unvmapAll fun i => decide (LangevinSolver.isclose (calls i).state.h
        ((T i).contr (calls i).t0 (calls i).t1))) = true then (calls i).state.coeffs
      else fun k => sv.recomputeB (unvmapAll fun i => decide ((T i).contr (calls i).t0 (calls i).t1
        * (T i).gamma k < sv.threshold)) ((T i).contr (calls i).t0 (calls i).t1) ((T i).gamma k))
      = fun k => sv.recompute ((T i).contr (calls i).t0 (calls i).t1) ((T i).gamma k) := by
    split
    · rename_i hall
      exact hco (by simpa using (unvmapAll_iff _).1 hall i)
    · exact hre _ fun k hk => by simpa using (unvmapAll_iff _).1 hk i
  have e3 : (if (unvmapAny fun i => (calls i).madeJump) = true then some ((T i).gradF (calls i).y0.1)
      else (calls i).state.prevF) = some (if (calls i).madeJump = true then (T i).gradF (calls i).y0.1 else f) := by
    by_cases hj : (calls i).madeJump = true
    · rw [if_pos (unvmapAny_self (i := i) hj), if_pos hj]
    · rw [if_neg hj, hf]
      rcases hforce with hforce | hforce
      · exact absurd hforce hj
      · rw [← hforce, ite_self]
  unfold LangevinSolver.tracedStep langevinBatch
  dsimp only
  rw [hf] at e3 ⊢
  simp only [Option.map_some]
  rw [e1, e2, e3]

/-- A particle with friction and without forces. -/
noncomputable def freeParticle : LangevinTerms 1 :=
  { gamma := fun _ => 1, u := fun _ => 1, gradF := fun _ => 0, contr := fun a b => b - a
    levy := fun _ _ => ⟨0, 0, 0⟩ }

/-- Two lanes that have been set up for steps of length 1. The next step is longer: by `1 / 10^11` in the first
lane, by 1 in the second one. -/
noncomputable def langevinCalls : Fin 2 → StepCall ℝ (RVec 1 × RVec 1) (LangevinState 1 (AlignCoeffs ℝ)) := fun i =>
  { t0 := 1, t1 := if i = 0 then 2 + 1 / 10 ^ 11 else 3, y0 := (0, fun _ => 1)
    state := (ALIGN (1 / 10)).init freeParticle 0 1 (0, fun _ => 1), madeJump := false }

/-- A step of the same length as before is fine, whatever the second lane does. -/
example : (ALIGN (1 / 10)).Ready freeParticle { langevinCalls 0 with t1 := 2 } where
  coeffs _ := by
    have : freeParticle.contr (langevinCalls 0).t0 2 = freeParticle.contr 0 1 := by
      simp [freeParticle, langevinCalls]; norm_num
    simp only [this]
    rfl
  force := ⟨0, by simp [langevinCalls, LangevinSolver.init, ALIGN, freeParticle], Or.inr rfl⟩

open Classical in
/-- **C83, violated by the Langevin solvers.** The first lane gets another velocity in the batch than alone, because
the second lane makes it recompute its coefficients. -/
theorem C83_langevin_violated :
    ((ALIGN (1 / 10)).tracedStep freeParticle (langevinCalls 0).t0 (langevinCalls 0).t1 (langevinCalls 0).y0
      (langevinCalls 0).state (some false)).map (fun o => o.y.2 0) = some (Real.exp (-1)) ∧
    (langevinBatch (ALIGN (1 / 10)) (fun _ => freeParticle) langevinCalls 0).y.2 0
      = Real.exp (-(1 + 1 / 10 ^ 11)) ∧
    Real.exp (-1) ≠ Real.exp (-(1 + 1 / 10 ^ 11)) := by
  have hclose : LangevinSolver.isclose (1 - 0) (2 + 1 / 10 ^ 11 - 1) := by
    unfold LangevinSolver.isclose
    rw [abs_of_nonpos (by norm_num), abs_of_nonneg (by norm_num)]
    norm_num
  have hfar : ¬ LangevinSolver.isclose (1 - 0) (3 - 1) := by
    unfold LangevinSolver.isclose
    rw [abs_of_nonpos (by norm_num), abs_of_nonneg (by norm_num)]
    norm_num
  have hall : (unvmapAll fun i => decide (LangevinSolver.isclose (langevinCalls i).state.h
      (freeParticle.contr (langevinCalls i).t0 (langevinCalls i).t1))) = false := by
    by_contra h
    have := (unvmapAll_iff _).1 (by simpa using h) 1
    simp only [decide_eq_true_eq] at this
    exact hfar (by simpa [langevinCalls, freeParticle, LangevinSolver.init] using this)
  refine ⟨?_, ?_, ?_⟩
  · unfold LangevinSolver.tracedStep
    have e : (ALIGN (1 / 10)).stepCoeffs freeParticle (langevinCalls 0).state
        (freeParticle.contr (langevinCalls 0).t0 (langevinCalls 0).t1) = (langevinCalls 0).state.coeffs := by
      unfold LangevinSolver.stepCoeffs
      rw [if_pos (by simpa [langevinCalls, freeParticle, LangevinSolver.init] using hclose)]
    simp only [e]
    simp [langevinCalls, freeParticle, LangevinSolver.init, ALIGN, alignCompute, LangevinSolver.recompute,
      alignDirect, LangevinTerms.rho]
    norm_num
  · unfold langevinBatch
    simp only [hall]
    simp [langevinCalls, freeParticle, LangevinSolver.init, ALIGN, alignCompute, LangevinSolver.recomputeB,
      alignDirect, LangevinTerms.rho]
    have hsmall : (unvmapAll fun i : Fin 2 => decide ((if i = 0 then 2 + ((10 : ℝ) ^ 11)⁻¹ else 3) - 1
        < (10 : ℝ)⁻¹)) = false := by
      by_contra h
      have := (unvmapAll_iff _).1 (by simpa using h) 0
      simp only [if_true, decide_eq_true_eq] at this
      norm_num at this
    rw [hsmall, if_neg (by simp), if_neg (by norm_num)]
    exact congrArg Real.exp (by ring)
  · intro h
    have := Real.exp_injective h
    norm_num at this

end Verif
