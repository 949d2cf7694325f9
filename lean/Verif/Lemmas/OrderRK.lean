import Verif.Lemmas.BSeries
import Verif.Lemmas.OrderCheck
import Verif.Model.Term
import Verif.Spec.RK
import Mathlib.Analysis.Analytic.Linear
import Mathlib.Analysis.Analytic.Constructions
import Mathlib.Analysis.Calculus.Deriv.Prod
import Mathlib.Analysis.Calculus.Deriv.Add
import Mathlib.Analysis.Calculus.Deriv.Shift

/-!
# From the expansion into trees to the steps of the solvers

A time-dependent equation is made autonomous by adding time as a component, which is a further,
constant, part of the equation.
-/

set_option linter.unusedSectionVars false

namespace Verif
open Finset Asymptotics Filter Topology

/-! ### Relabelling trees -/

namespace PTree
variable {ι κ K : Type}

def map (e : ι → κ) : PTree ι → PTree κ
  | node p n ch => node (e p) n (fun i => map e (ch i))

theorem map_order (e : ι → κ) (t : PTree ι) : (t.map e).order = t.order := by
  induction t with
  | node p n ch ih => simp only [map, order, ih]

theorem map_root (e : ι → κ) (t : PTree ι) : (t.map e).root = e t.root := by
  cases t; rfl

theorem map_exact [Field K] (e : ι → κ) (t : PTree ι) : ((t.map e).exact : K) = t.exact := by
  induction t with
  | node p n ch ih => simp only [map, exact, ih, map_order]

theorem map_adm (e : ι → κ) (c : κ → Bool) (t : PTree ι) (h : t.Adm (fun i => c (e i))) :
    (t.map e).Adm c := by
  induction t with
  | node p n ch ih => exact ⟨h.1, fun i => ih i (h.2 i)⟩

theorem map_stageWeight [Field K] (s : ℕ) (e : ι → κ) (a : κ → ℕ → ℕ → K) (t : PTree ι) (j : ℕ) :
    (t.map e).stageWeight s a j = t.stageWeight s (fun p => a (e p)) j := by
  induction t generalizing j with
  | node p n ch ih => simp only [map, stageWeight, ih, map_root]

theorem map_weight [Field K] (s : ℕ) (e : ι → κ) (a : κ → ℕ → ℕ → K) (b : κ → ℕ → K) (t : PTree ι) :
    (t.map e).weight s a b = t.weight s (fun p => a (e p)) (fun p => b (e p)) := by
  simp only [weight, map_stageWeight, map_root]

end PTree

/-- `checkOrder_sound`, for parts given as a function. -/
theorem checkOrder_sound_fin {n : ℕ} (s : ℕ) (η : ℚ) (P : Fin n → Bool × List (List ℚ))
    (hs : ∀ p, (P p).2.length = s) (b : Fin n → Bool × List ℚ)
    (hc : ∀ p, (b p).1 = true → (P p).1 = true) (q ε : ℚ) (N : ℕ)
    (hck : checkOrder s η (List.ofFn P) (List.ofFn b) q ε N = true) (t : PTree (Fin n))
    (hadm : t.Adm (fun p => (P p).1)) (ho : t.order ≤ N) :
    |t.weight s (fun p i j => ((P p).2.getD i []).getD j 0) (fun p j => (b p).2.getD j 0)
      - q * t.exact| ≤ ε := by
  have hlen : (List.ofFn P).length = n := List.length_ofFn
  have hlen' : (List.ofFn b).length = n := List.length_ofFn
  have hmain := checkOrder_sound s η (List.ofFn P) (by
      intro x hx
      obtain ⟨i, rfl⟩ := (List.mem_ofFn' P x).1 hx
      exact hs i) (List.ofFn b) (by rw [hlen, hlen']) (by
      intro i h h' hb
      rw [List.getElem_ofFn] at hb ⊢
      exact hc _ hb) q ε N hck (t.map (Fin.cast hlen.symm)) (by
      apply PTree.map_adm
      convert hadm using 2
      simp [Parts.const]) (by rw [PTree.map_order]; exact ho)
  rw [PTree.map_weight, PTree.map_exact] at hmain
  convert hmain using 4
  · funext p i j
    simp [Parts.a]
  · funext p j
    simp

/-! ### Tableaus as parts -/

/-- The coefficients of a tableau as a square matrix. -/
def Tableau.full (tab : Tableau ℚ) (i j : ℕ) : ℚ :=
  if j < i then tab.a i j else if j = i then tab.d i else 0

def Tableau.matrix (tab : Tableau ℚ) (s : ℕ) : List (List ℚ) :=
  (List.range s).map fun i => (List.range s).map fun j => tab.full i j

section
variable {m : ℕ} (s : ℕ) (c : ℕ → ℚ) (tab : Fin m → Tableau ℚ)

/-- Time, then the terms. -/
def orderParts : Fin (m + 1) → Bool × List (List ℚ) :=
  Fin.cons (true, (List.range s).map fun i => [c i]) (fun p => (false, (tab p).matrix s))

def orderWeights (b : Tableau ℚ → List ℚ) (q : ℚ) : Fin (m + 1) → Bool × List ℚ :=
  Fin.cons (true, [q]) (fun p => (false, b (tab p)))

/-- All trees with up to `n` nodes have coefficients that are within `ε` of `q` times the exact ones. -/
def tabOrder (η : ℚ) (b : Tableau ℚ → List ℚ) (q ε : ℚ) (n : ℕ) : Bool :=
  checkOrder s η (List.ofFn (orderParts s c tab)) (List.ofFn (orderWeights tab b q)) q ε n

def orderA (p : Fin (m + 1)) (i j : ℕ) : ℚ := ((orderParts s c tab p).2.getD i []).getD j 0

def orderB (b : Tableau ℚ → List ℚ) (q : ℚ) (p : Fin (m + 1)) (j : ℕ) : ℚ :=
  ((orderWeights tab b q p).2).getD j 0

theorem tabOrder_sound (η : ℚ) (b : Tableau ℚ → List ℚ) (q ε : ℚ) (n : ℕ)
    (hck : tabOrder s c tab η b q ε n = true) (t : PTree (Fin (m + 1)))
    (hadm : t.Adm (fun p => decide (p = 0))) (ho : t.order ≤ n) :
    |t.weight s (orderA s c tab) (orderB tab b q) - q * t.exact| ≤ ε := by
  apply checkOrder_sound_fin s η (orderParts s c tab) _ (orderWeights tab b q) _ q ε n hck t _ ho
  · intro p
    refine Fin.cases ?_ (fun p => ?_) p
    · simp [orderParts]
    · simp [orderParts, Tableau.matrix]
  · intro p
    refine Fin.cases ?_ (fun p => ?_) p
    · simp [orderParts]
    · simp [orderWeights]
  · convert hadm using 2 with p
    refine Fin.cases ?_ (fun p => ?_) p
    · simp [orderParts]
    · simp [orderParts, Fin.succ_ne_zero]

theorem orderA_zero (i : ℕ) (hi : i < s) (j : ℕ) :
    orderA s c tab 0 i j = if j = 0 then c i else 0 := by
  have h : ((orderParts s c tab 0).2.getD i []) = [c i] := by
    simp [orderParts, List.getD, hi]
  rw [orderA, h]
  cases j <;> simp

theorem orderA_succ (p : Fin m) (i j : ℕ) (hi : i < s) (hj : j < s) :
    orderA s c tab p.succ i j = (tab p).full i j := by
  simp [orderA, orderParts, Tableau.matrix, List.getD, hi, hj]

theorem orderB_zero (b : Tableau ℚ → List ℚ) (q : ℚ) (j : ℕ) :
    orderB tab b q 0 j = if j = 0 then q else 0 := by
  cases j <;> simp [orderB, orderWeights]

theorem orderB_succ (b : Tableau ℚ → List ℚ) (q : ℚ) (p : Fin m) (j : ℕ) :
    orderB tab b q p.succ j = (b (tab p)).getD j 0 := by
  simp [orderB, orderWeights]

end

/-! ### Autonomous form -/

section
variable {m : ℕ} {E : Type} [NormedAddCommGroup E] [NormedSpace ℝ E]

theorem autoSeries_has (f : Fin m → ℝ → E → E) (G : Fin m → FormalMultilinearSeries ℝ (ℝ × E) E)
    (x : ℝ × E) (hG : ∀ p, HasFPowerSeriesAt (fun x : ℝ × E => f p x.1 x.2) (G p) x) :
    ∀ p, HasFPowerSeriesAt (autoField f p) (autoSeries G p) x := by
  intro p
  refine Fin.cases ?_ (fun p => ?_) p
  · exact hasFPowerSeriesAt_const
  · obtain ⟨r, hr⟩ := hG p
    exact ⟨r, (ContinuousLinearMap.inr ℝ ℝ E).comp_hasFPowerSeriesOnBall hr⟩

/-- Trees in which time has arguments do not contribute. -/
theorem diff_eq_zero (G : Fin m → FormalMultilinearSeries ℝ (ℝ × E) E) (t : PTree (Fin (m + 1)))
    (h : ¬ t.Adm (fun p => decide (p = 0))) : t.diff (autoSeries G) = 0 := by
  induction t with
  | node p n ch ih =>
    simp only [PTree.diff]
    by_cases hp : p = 0 ∧ n ≠ 0
    · obtain ⟨rfl, hn⟩ := hp
      have : autoSeries G 0 n = 0 := by
        simp [autoSeries, constFormalMultilinearSeries_apply_of_nonzero hn]
      rw [this]; rfl
    · have hch : ∃ i, ¬ (ch i).Adm (fun p => decide (p = 0)) := by
        by_contra hall
        apply h
        refine ⟨?_, fun i => ?_⟩
        · intro h1
          by_contra hn
          exact hp ⟨by simpa using h1, hn⟩
        · by_contra hi
          exact hall ⟨i, hi⟩
      obtain ⟨i, hi⟩ := hch
      exact (autoSeries G p n).map_coord_zero i (ih i hi)

theorem SolvesODE.isFlow {f : Fin m → ℝ → E → E} {t0 : ℝ} {y0 : E} {y : ℝ → E}
    (h : SolvesODE f t0 y0 y) : IsFlow (autoField f) (t0, y0) (fun h => (h, y (t0 + h) - y0)) := by
  refine ⟨by simp [h.1], ?_⟩
  have ht : Tendsto (fun h : ℝ => t0 + h) (𝓝 0) (𝓝 t0) := by
    have : Tendsto (fun h : ℝ => t0 + h) (𝓝 0) (𝓝 (t0 + 0)) :=
      (continuous_const.add continuous_id).tendsto 0
    simpa using this
  filter_upwards [ht.eventually h.2] with x hx
  have h1 : HasDerivAt (fun h => y (t0 + h)) (∑ p, f p (t0 + x) (y (t0 + x))) x :=
    HasDerivAt.comp_const_add _ _ hx
  have h2 := (hasDerivAt_id x).prodMk (h1.sub_const y0)
  have e : ∑ p, autoField f p ((t0, y0) + (x, y (t0 + x) - y0))
      = (1, ∑ p, f p (t0 + x) (y (t0 + x))) := by
    rw [Fin.sum_univ_succ]
    simp only [autoField, Fin.cons_zero, Fin.cons_succ]
    apply Prod.ext
    · simp [Prod.fst_sum]
    · simp [Prod.snd_sum]
  rw [e]
  exact h2

variable [Module ℚ E] {J : Type}

theorem qsmul_eq (q : ℚ) (x : E) : q • x = (q : ℝ) • x := (Rat.cast_smul_eq_qsmul ℝ q x).symm

theorem odeRK_numStages (tab : Fin m → Tableau ℚ) (f : Fin m → ℝ → E → E) (cj : CalcJac)
    (rF rK : RootFinder E J) (nj : J) (hm : 0 < m) (s : ℕ) (hs : ∀ p, (tab p).bSol.length = s) :
    (odeRK tab f cj rF rK nj).numStages = s := by
  unfold RK.numStages
  rw [dif_pos hm]
  exact hs _

theorem odeRK_stageTime (tab : Fin m → Tableau ℚ) (f : Fin m → ℝ → E → E) (cj : CalcJac)
    (rF rK : RootFinder E J) (nj : J) (t0 h : ℝ) (p : Fin m) (i : ℕ) :
    (odeRK tab f cj rF rK nj).stageTime t0 (t0 + h) p i = t0 + ((tab p).abscissa i : ℝ) * h := by
  unfold RK.stageTime odeRK
  simp only
  split
  · rename_i hc; rw [hc]; push_cast; ring
  · ring

/-- The increment `sum_p sum_j a_ij k_pj` that leads to stage `i`. -/
noncomputable def stageInc (tab : Fin m → Tableau ℚ) (k : Fin m → ℕ → E) (i : ℕ) : E :=
  ∑ p, (∑ j ∈ range i, (tab p).a i j • k p j + (tab p).d i • k p i)

theorem stageInc_eq (tab : Fin m → Tableau ℚ) (k : Fin m → ℕ → E) (s i : ℕ) (hi : i < s) :
    stageInc tab k i = ∑ p, ∑ j ∈ range s, ((tab p).full i j : ℝ) • k p j := by
  unfold stageInc
  apply sum_congr rfl
  intro p _
  have h1 : ∑ j ∈ range s, ((tab p).full i j : ℝ) • k p j
      = ∑ j ∈ range (i + 1), ((tab p).full i j : ℝ) • k p j := by
    symm
    apply sum_subset
    · intro x hx; simp only [mem_range] at hx ⊢; omega
    · intro x _ hx
      simp only [mem_range, not_lt] at hx
      have : (tab p).full i x = 0 := by
        unfold Tableau.full
        rw [if_neg (by omega), if_neg (by omega)]
      rw [this]; simp
  rw [h1, sum_range_succ]
  congr 1
  · apply sum_congr rfl
    intro j hj
    rw [mem_range] at hj
    rw [Tableau.full, if_pos hj, qsmul_eq]
  · rw [Tableau.full, if_neg (by omega), if_pos rfl, qsmul_eq]

/-- **Expansion of a step.** -/
theorem odeRK_expansion (tab : Fin m → Tableau ℚ) (f : Fin m → ℝ → E → E) (cj : CalcJac)
    (rF rK : RootFinder E J) (nj : J) (hm : 0 < m) (s : ℕ) (hs : ∀ p, (tab p).bSol.length = s)
    (hs0 : 0 < s)
    (c : ℕ → ℚ) (hc : ∀ p, ∀ i < s, (tab p).abscissa i = c i)
    (t0 : ℝ) (y0 : E) (G : Fin m → FormalMultilinearSeries ℝ (ℝ × E) E)
    (hG : ∀ p, HasFPowerSeriesAt (fun x : ℝ × E => f p x.1 x.2) (G p) (t0, y0))
    (k : ℝ → Fin m → ℕ → E)
    (hk : ∀ᶠ h in 𝓝 (0 : ℝ), (odeRK tab f cj rF rK nj).IsStages t0 (t0 + h) y0 (k h))
    (hk0 : ∀ p, ∀ i < s, Tendsto (fun h => k h p i) (𝓝 0) (𝓝 0))
    (b : Tableau ℚ → List ℚ) (q : ℚ) (N : ℕ) :
    (fun h => ((q : ℝ) * h, (odeRK tab f cj rF rK nj).combine b (k h))
      - bseries (autoSeries G) (N + 1) (fun t => ((t.weight s (orderA s c tab) (orderB tab b q) : ℚ) : ℝ)) h)
      =O[𝓝 0] (fun h : ℝ => h ^ (N + 2)) := by
  set rk := odeRK tab f cj rF rK nj with hrk
  have hns : rk.numStages = s := odeRK_numStages tab f cj rF rK nj hm s hs
  let z : ℕ → ℝ → ℝ × E := fun i h => ((c i : ℝ) * h, stageInc tab (k h) i)
  have hval : ∀ h i, rk.stageValue y0 (k h) i = y0 + stageInc tab (k h) i := fun h i => rfl
  have hkz : ∀ᶠ h in 𝓝 (0 : ℝ), ∀ i < s, ∀ p,
      h • (autoField f p.succ ((t0, y0) + z i h)) = (0, k h p i) := by
    filter_upwards [hk] with h hh i hi p
    have := hh i (by rw [hns]; exact hi) p
    rw [hrk, odeRK_stageTime, hc p i hi, ← hrk, hval] at this
    rw [this]
    simp [autoField, z, rk, odeRK, odeTerm]
  have hcomb : ∀ᶠ h in 𝓝 (0 : ℝ), ∀ (w : Fin (m + 1) → ℕ → ℚ) (r : ℚ)
      (_ : ∀ j, w 0 j = if j = 0 then r else 0),
      ((r : ℝ) * h, ∑ p : Fin m, ∑ j ∈ range s, (w p.succ j : ℝ) • k h p j)
        = ∑ p, ∑ j ∈ range s, ((w p j : ℝ) * h) • autoField f p ((t0, y0) + z j h) := by
    filter_upwards [hkz] with h hh w r hw
    rw [Fin.sum_univ_succ]
    have e1 : ∑ j ∈ range s, ((w 0 j : ℝ) * h) • autoField f 0 ((t0, y0) + z j h) = ((r : ℝ) * h, 0) := by
      rw [sum_eq_single_of_mem 0 (by simpa using hs0)]
      · simp [hw, autoField]
      · intro j _ hj
        simp [hw, hj]
    have e2 : ∑ p : Fin m, ∑ j ∈ range s, ((w p.succ j : ℝ) * h) • autoField f p.succ ((t0, y0) + z j h)
        = (0, ∑ p : Fin m, ∑ j ∈ range s, (w p.succ j : ℝ) • k h p j) := by
      have : ∀ p : Fin m, ∀ j ∈ range s, ((w p.succ j : ℝ) * h) • autoField f p.succ ((t0, y0) + z j h)
          = (ContinuousLinearMap.inr ℝ ℝ E) ((w p.succ j : ℝ) • k h p j) := by
        intro p j hj
        rw [mul_smul, hh j (mem_range.1 hj) p]
        simp
      rw [sum_congr rfl (fun p _ => sum_congr rfl (this p))]
      simp only [← map_sum]
      rfl
    rw [e1, e2]
    simp
  have hz : ∀ i < s, ∀ᶠ h in 𝓝 (0 : ℝ), z i h = ∑ p, ∑ j ∈ range s,
      ((orderA s c tab p i j : ℝ) * h) • autoField f p ((t0, y0) + z j h) := by
    intro i hi
    filter_upwards [hcomb] with h hh
    rw [← hh (fun p j => orderA s c tab p i j) (c i) (orderA_zero s c tab i hi)]
    simp only [z, stageInc_eq tab (k h) s i hi]
    congr 1
    apply sum_congr rfl; intro p _
    apply sum_congr rfl; intro j hj
    rw [orderA_succ s c tab p i j hi (mem_range.1 hj)]
  have hz0 : ∀ i < s, Tendsto (z i) (𝓝 0) (𝓝 0) := by
    intro i hi
    rw [← Prod.mk_zero_zero]
    apply Tendsto.prodMk_nhds
    · have : Tendsto (fun h : ℝ => (c i : ℝ) * h) (𝓝 0) (𝓝 ((c i : ℝ) * 0)) :=
        (continuous_const.mul continuous_id).tendsto 0
      simpa using this
    · simp only [stageInc_eq tab _ s i hi]
      have : Tendsto (fun h => ∑ p, ∑ j ∈ range s, ((tab p).full i j : ℝ) • k h p j) (𝓝 0)
          (𝓝 (∑ p, ∑ j ∈ range s, ((tab p).full i j : ℝ) • (0 : E))) := by
        apply tendsto_finsetSum; intro p _
        apply tendsto_finsetSum; intro j hj
        exact (hk0 p j (mem_range.1 hj)).const_smul _
      simpa using this
  have hmain := rk_expansion (autoSeries G) (autoSeries_has f G (t0, y0) hG) s
    (fun p i j => (orderA s c tab p i j : ℝ)) z hz0 hz (fun p j => (orderB tab b q p j : ℝ)) N
  refine (hmain.congr' ?_ EventuallyEq.rfl)
  filter_upwards [hcomb] with h hh
  rw [← hh (orderB tab b q) q (orderB_zero tab b q)]
  congr 1
  · congr 1
    unfold RK.combine
    rw [hns]
    apply sum_congr rfl; intro p _
    apply sum_congr rfl; intro j _
    rw [orderB_succ, qsmul_eq]
    rfl
  · unfold bseries
    apply sum_congr rfl
    intro t _
    simp only [PTree.weight_cast]

end
end Verif
