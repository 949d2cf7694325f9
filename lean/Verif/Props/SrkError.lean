import Verif.Props.SRK

/-!
# C67: the error estimates of the stochastic Runge-Kutta methods
-/

namespace Verif
open Finset

variable {K Y VF VF' Ct Ct' : Type} [Field K] [AddCommGroup Y] [Module K Y] [AddCommGroup VF'] [Module K VF']
  [AddCommGroup Ct'] [Module K Ct']

/-- The weights of the error estimate sum to zero, as differences of the weights of two methods do. -/
structure STableau.ErrorSum (tab : STableau K) : Prop where
  drift : ∀ e, tab.bError = some e → ∑ j ∈ range tab.bSol.length, e.getD j 0 = 0
  noise : ∀ w levy, tab.noise = .general w levy → ∀ x, x = w ∨ x ∈ levy →
    ∑ j ∈ range tab.bSol.length, (x.bError.getD []).getD j 0 = 0

/-- **C67**, the error estimate: it vanishes where the method is exact, for constant drift and diffusion. -/
theorem C67_error_estimate_constant (s : SRK K Y VF VF' Ct Ct') (hwf : s.tab.WF) (hsum : s.tab.ErrorSum)
    (hf : ∀ t y t' y' c, s.drift.vfProd t y c = s.drift.vfProd t' y' c)
    (hg : ∀ t y t' y' c, s.diffusion.vfProd t y c = s.diffusion.vfProd t' y' c) (t0 t1 : K) (y0 : Y) :
    (s.step t0 t1 y0).err = s.tab.bError.map fun _ => 0 := by
  obtain ⟨z, _, _, herr⟩ := C66_formula_partial s hwf t0 t1 y0
  rw [herr]
  cases he : s.tab.bError with
  | none => rfl
  | some e =>
    rw [Option.map_some, Option.map_some]
    congr 1
    unfold SRK.docError
    have h1 : ∑ j ∈ range s.tab.bSol.length, e.getD j 0 • s.hf t0 t1 z j = 0 := by
      have : ∀ j ∈ range s.tab.bSol.length, e.getD j 0 • s.hf t0 t1 z j
          = e.getD j 0 • s.hf t0 t1 z 0 := fun j _ => congrArg _ (hf _ _ _ _ _)
      rw [sum_congr rfl this, ← sum_smul, hsum.drift e he, zero_smul]
    rw [h1, zero_add]
    split
    · rfl
    · rename_i w levy hn
      have hw : ∀ x, x = w ∨ x ∈ levy → ∀ (v : ℕ → Y), (∀ j, v j = v 0) →
          ∑ j ∈ range s.tab.bSol.length, (x.bError.getD []).getD j 0 • v j = 0 := by
        intro x hx v hv
        rw [sum_congr rfl fun j _ => congrArg _ (hv j), ← sum_smul, hsum.noise w levy hn x hx, zero_smul]
      rw [sum_add_distrib, hw w (Or.inl rfl) (s.wg t0 t1 z) (fun j => hg _ _ _ _ _), zero_add, sum_comm]
      refine sum_eq_zero fun l hl => ?_
      have hl' := mem_range.1 hl
      have e : (levy.map fun x => x.bError.getD []).getD l [] = (levy[l]).bError.getD [] := by
        rw [List.getD_eq_getElem _ _ (by rwa [List.length_map]), List.getElem_map]
      rw [e]
      exact hw _ (Or.inr (List.getElem_mem hl')) (s.lg t0 t1 z l) (fun j => hg _ _ _ _ _)

/-- **C67.** The built-in methods with an error estimate. -/
theorem C67_error_sums [CharZero K] : (STab.sra1 : STableau K).ErrorSum ∧ (STab.shark : STableau K).ErrorSum ∧
    STab.spark.ErrorSum := by
  refine ⟨⟨?_, ?_⟩, ⟨?_, ?_⟩, ⟨?_, ?_⟩⟩
  · intro e he
    cases he
    norm_num [STab.sra1, sum_range_succ]
  · intro w levy h; cases h
  · intro e he
    cases he
    norm_num [STab.shark, sum_range_succ]
  · intro w levy h; cases h
  · intro e he
    cases he
    simp only [STab.spark, STab.x1, STab.x2, List.length_cons, List.length_nil, sum_range_succ, sum_range_zero,
      List.getD_cons_zero, List.getD_cons_succ]
    ring
  · intro w levy h x hx
    cases h
    rcases hx with rfl | hx
    · simp only [STab.spark, STab.x1, STab.x2, List.length_cons, List.length_nil, sum_range_succ, sum_range_zero,
        Option.getD_some, List.getD_cons_zero, List.getD_cons_succ]
      ring
    · rw [List.mem_singleton] at hx
      subst hx
      simp only [STab.spark, List.length_cons, List.length_nil, sum_range_succ, sum_range_zero,
        Option.getD_some, List.getD_cons_zero, List.getD_cons_succ]
      ring

/-- `dy = 2 dt + 3 dW` with ShARK. -/
example (bm : ℚ → ℚ → ℚ × ℚ × ℚ × ℚ) (interp : LocalLin ℚ ℚ) (t0 t1 y0 : ℚ) :
    ((srkScalar STab.shark interp).step
      (fun i => (![driftK (fun _ _ => (2 : ℚ)), diffusionK (fun _ _ => 3) bm] i).toTerm) t0 t1 y0 () false).err = some 0 := by
  simp only [srkScalar, srkClass]
  rw [C67_error_estimate_constant _ (by exact shark_wf) (by exact C67_error_sums.2.1) (fun _ _ _ _ _ => rfl)
    (fun _ _ _ _ _ => rfl)]
  rfl

end Verif
