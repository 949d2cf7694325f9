import Mathlib.Analysis.Analytic.ChangeOrigin
import Mathlib.Analysis.Normed.Module.Multilinear.Basic
import Verif.Spec.Convergence

/-!
# Elementary differentials are bounded along a solution
-/

namespace Verif
open Filter Topology Set

variable {m : ℕ} {E : Type} [NormedAddCommGroup E] [NormedSpace ℝ E]

/-- Elementary differentials depend continuously on the Taylor coefficients. -/
theorem diff_continuousAt {ι X E : Type} [TopologicalSpace X] [NormedAddCommGroup E] [NormedSpace ℝ E]
    (F : X → ι → FormalMultilinearSeries ℝ E E) (x : X)
    (hF : ∀ p n, ContinuousAt (fun z => F z p n) x) (τ : PTree ι) :
    ContinuousAt (fun z => τ.diff (F z)) x := by
  induction τ with
  | node p n ch ih =>
    simp only [PTree.diff]
    have h2 : ContinuousAt (fun z => fun i => (ch i).diff (F z)) x := continuousAt_pi.2 ih
    have h3 : Continuous (fun q : (E [×n]→L[ℝ] E) × (Fin n → E) => q.1 q.2) := by fun_prop
    exact h3.continuousAt.comp (x := x) ((hF p n).prodMk h2)

theorem autoSeries_continuousAt {X : Type} [TopologicalSpace X]
    (G : X → Fin m → FormalMultilinearSeries ℝ (ℝ × E) E) (x : X)
    (hG : ∀ p n, ContinuousAt (fun z => G z p n) x) (p : Fin (m + 1)) (n : ℕ) :
    ContinuousAt (fun z => autoSeries (G z) p n) x := by
  refine Fin.cases ?_ (fun p => ?_) p
  · simp only [autoSeries, Fin.cons_zero]
    exact continuousAt_const
  · simp only [autoSeries, Fin.cons_succ]
    have : Continuous (fun q : (ℝ × E) [×n]→L[ℝ] E =>
        (ContinuousLinearMap.inr ℝ ℝ E).compContinuousMultilinearMap q) :=
      (ContinuousLinearMap.compContinuousMultilinearMapL ℝ (fun _ : Fin n => ℝ × E) E (ℝ × E)
        (ContinuousLinearMap.inr ℝ ℝ E)).continuous
    exact this.continuousAt.comp (x := x) (hG p n)

/-- There is a bound. -/
theorem elemBound_exists_at [CompleteSpace E] (f : Fin m → ℝ → E → E) (y : ℝ → E) (hy : Continuous y) (a b : ℝ)
    (hf : ∀ p, ∀ t ∈ Icc a b, AnalyticAt ℝ (fun x : ℝ × E => f p x.1 x.2) (t, y t)) (N : ℕ) :
    ∃ D, 0 ≤ D ∧ ElemBound f y a b N D := by
  have key : ∃ (G : ℝ → Fin m → FormalMultilinearSeries ℝ (ℝ × E) E) (D : ℝ), ∀ t ∈ Icc a b,
      (∀ p, HasFPowerSeriesAt (fun x : ℝ × E => f p x.1 x.2) (G t p) (t, y t)) ∧
      ∑ τ ∈ PTree.upTo (Fin (m + 1)) N, ‖(τ.diff (autoSeries (G t))).2‖ ≤ D := by
    refine (isCompact_Icc (a := a) (b := b)).induction_on
      (p := fun S => ∃ (G : ℝ → Fin m → FormalMultilinearSeries ℝ (ℝ × E) E) (D : ℝ), ∀ t ∈ S,
      (∀ p, HasFPowerSeriesAt (fun x : ℝ × E => f p x.1 x.2) (G t p) (t, y t)) ∧
      ∑ τ ∈ PTree.upTo (Fin (m + 1)) N, ‖(τ.diff (autoSeries (G t))).2‖ ≤ D) ?_ ?_ ?_ ?_
    · exact ⟨fun _ _ => 0, 0, fun t ht => absurd ht (notMem_empty t)⟩
    · rintro S S' hSS ⟨G, D, h⟩
      exact ⟨G, D, fun t ht => h t (hSS ht)⟩
    · classical
      rintro S S' ⟨G, D, h⟩ ⟨G', D', h'⟩
      refine ⟨fun t => if t ∈ S then G t else G' t, max D D', ?_⟩
      intro t ht
      by_cases hS : t ∈ S
      · simp only [hS, if_true]
        exact ⟨(h t hS).1, (h t hS).2.trans (le_max_left _ _)⟩
      · simp only [hS, if_false]
        rcases ht with ht | ht
        · exact absurd ht hS
        · exact ⟨(h' t ht).1, (h' t ht).2.trans (le_max_right _ _)⟩
    · intro t0 ht0
      choose G hG using fun p => hf p t0 ht0
      choose r hr using hG
      let z : ℝ → ℝ × E := fun t => (t, y t) - (t0, y t0)
      have hz : Continuous z := (continuous_id.prodMk hy).sub continuous_const
      have hz0 : z t0 = 0 := sub_self _
      let G' : ℝ → Fin m → FormalMultilinearSeries ℝ (ℝ × E) E := fun t p => (G p).changeOrigin (z t)
      have hcont : ∀ p n, ContinuousAt (fun t => G' t p n) t0 := by
        intro p n
        have h1 : ContinuousAt (fun x => (G p).changeOrigin x n) (z t0) := by
          rw [hz0]
          exact ((G p).analyticAt_changeOrigin ((hr p).r_pos.trans_le (hr p).r_le) n).continuousAt
        exact h1.comp hz.continuousAt
      have hsum : ContinuousAt (fun t => ∑ τ ∈ PTree.upTo (Fin (m + 1)) N,
          ‖(τ.diff (autoSeries (G' t))).2‖) t0 := by
        apply tendsto_finsetSum
        intro τ _
        exact (continuous_snd.continuousAt.comp (x := t0)
          (diff_continuousAt _ t0 (autoSeries_continuousAt G' t0 hcont) τ)).norm
      have hball : ∀ᶠ t in 𝓝 t0, ∀ p, (‖z t‖₊ : ENNReal) < r p := by
        rw [eventually_all]
        intro p
        have h1 : ContinuousAt (fun t => (‖z t‖₊ : ENNReal)) t0 := by
          have : Continuous (fun t => (‖z t‖₊ : ENNReal)) :=
            ENNReal.continuous_coe.comp (continuous_nnnorm.comp hz)
          exact this.continuousAt
        apply h1.eventually (Iio_mem_nhds _)
        dsimp only; rw [hz0]; simpa using (hr p).r_pos
      set D := ∑ τ ∈ PTree.upTo (Fin (m + 1)) N, ‖(τ.diff (autoSeries (G' t0))).2‖ with hD
      have hlt := hsum.eventually (Iio_mem_nhds (lt_add_one D))
      refine ⟨_, mem_nhdsWithin_of_mem_nhds (hball.and hlt), G', D + 1, ?_⟩
      rintro t ⟨h1, h2⟩
      refine ⟨fun p => ?_, le_of_lt h2⟩
      have := (hr p).changeOrigin (y := z t) (h1 p)
      have e : (t0, y t0) + z t = (t, y t) := by simp [z]
      rw [e] at this
      exact this.hasFPowerSeriesAt
  obtain ⟨G, D, h⟩ := key
  exact ⟨max D 0, le_max_right _ _, G, fun t ht => ⟨(h t ht).1, (h t ht).2.trans (le_max_left _ _)⟩⟩

theorem elemBound_exists [CompleteSpace E] (f : Fin m → ℝ → E → E) (y : ℝ → E) (hy : Continuous y)
    (hf : ∀ p, AnalyticOnNhd ℝ (fun x : ℝ × E => f p x.1 x.2) univ) (a b : ℝ) (N : ℕ) :
    ∃ D, 0 ≤ D ∧ ElemBound f y a b N D :=
  elemBound_exists_at f y hy a b (fun p _ _ => hf p _ trivial) N

end Verif
