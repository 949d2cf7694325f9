import Verif.Lemmas.DenseOrder
import Verif.Model.Tableaus
import Mathlib.Tactic.Module
import Mathlib.Tactic.Ring
import Mathlib.Tactic.IntervalCases

/-!
# The interpolants as polynomials in the fraction of the step
-/

set_option linter.unusedSectionVars false
set_option maxRecDepth 100000

namespace Verif
open Finset

/-! ### Combinations of the first stage, the last stage, the solution and the midpoint -/

/-- `a` times the first stage, `b` times the last, `c` times the weights of the solution, and `e` times `cm`. -/
def mixRow (s : ℕ) (cm : List ℚ) (a b c e : ℚ) (t : Tableau ℚ) : List ℚ :=
  (List.range s).map fun i =>
    a * (if i = 0 then 1 else 0) + b * (if i = s - 1 then 1 else 0) + c * t.bSol.getD i 0 + e * cm.getD i 0

def hermiteRows (s : ℕ) (t : Tableau ℚ) : List (List ℚ) :=
  [mixRow s [] 1 0 0 0 t, mixRow s [] (-2) (-1) 3 0 t, mixRow s [] 1 1 (-2) 0 t]

def quarticRows (s : ℕ) (cm : List ℚ) (t : Tableau ℚ) : List (List ℚ) :=
  [mixRow s cm 1 0 0 0 t, mixRow s cm (-4) 1 (-5) 16 t, mixRow s cm 5 (-3) 14 (-32) t,
    mixRow s cm (-2) 2 (-8) 16 t]

section
variable {E : Type} [AddCommGroup E] [Module ℝ E]

theorem sum_mixRow (s : ℕ) (hs : 0 < s) (cm : List ℚ) (a b c e : ℚ) (t : Tableau ℚ) (k : ℕ → E) :
    ∑ i ∈ range s, (((mixRow s cm a b c e t).getD i 0 : ℚ) : ℝ) • k i
      = (a : ℝ) • k 0 + (b : ℝ) • k (s - 1)
        + (c : ℝ) • (∑ i ∈ range s, ((t.bSol.getD i 0 : ℚ) : ℝ) • k i)
        + (e : ℝ) • (∑ i ∈ range s, ((cm.getD i 0 : ℚ) : ℝ) • k i) := by
  have h1 : ∀ i ∈ range s, (((mixRow s cm a b c e t).getD i 0 : ℚ) : ℝ) • k i
      = (if i = 0 then (a : ℝ) • k i else 0) + (if i = s - 1 then (b : ℝ) • k i else 0)
        + (c : ℝ) • (((t.bSol.getD i 0 : ℚ) : ℝ) • k i) + (e : ℝ) • (((cm.getD i 0 : ℚ) : ℝ) • k i) := by
    intro i hi
    have hi' := mem_range.1 hi
    have : (mixRow s cm a b c e t).getD i 0 = a * (if i = 0 then 1 else 0)
        + b * (if i = s - 1 then 1 else 0) + c * t.bSol.getD i 0 + e * cm.getD i 0 := by
      rw [mixRow, List.getD_eq_getElem (hn := by simpa using hi')]
      simp
    rw [this]
    generalize t.bSol.getD i 0 = x
    generalize cm.getD i 0 = z
    split <;> split <;> simp only [mul_one, mul_zero, add_zero, zero_add] <;> push_cast <;> module
  rw [sum_congr rfl h1]
  simp only [sum_add_distrib, sum_ite_eq', mem_range, hs, if_true, smul_sum]
  rw [if_pos (by omega)]

theorem stageList_head (s : ℕ) (hs : 0 < s) (k : ℕ → E) : (stageList s k).headD 0 = k 0 := by
  obtain ⟨s, rfl⟩ : ∃ n, s = n + 1 := ⟨s - 1, by omega⟩
  simp [stageList, List.range_succ_eq_map]

theorem stageList_last (s : ℕ) (hs : 0 < s) (k : ℕ → E) : (stageList s k).getLastD 0 = k (s - 1) := by
  obtain ⟨s, rfl⟩ : ∃ n, s = n + 1 := ⟨s - 1, by omega⟩
  simp [stageList, List.range_succ, List.getLastD_eq_getLast?]

theorem hermite_polynomial (t0 t1 : ℝ) (y0 y1 k0 k1 : E) (t : ℝ) :
    (hermite3 t0 t1 y0 y1 k0 k1).evaluate t
      = y0 + (linearRescale t0 t t1 ^ 1 • k0
        + linearRescale t0 t t1 ^ 2 • ((-2 : ℝ) • k0 - k1 + (3 : ℝ) • (y1 - y0))
        + linearRescale t0 t t1 ^ 3 • (k0 + k1 - (2 : ℝ) • (y1 - y0))) := by
  simp only [hermite3, LocalPoly.evaluate, polyval, List.foldl]
  generalize linearRescale t0 t t1 = θ
  module

theorem hermite_hasRows (tab : Fin 1 → Tableau ℚ) (s : ℕ) (hs : 0 < s) :
    HasRows tab (fun _ _ _ => hermiteInterp s) s 3 (hermiteRows s) := by
  intro E _ _ t0 t1 D t hy
  simp only [hermiteInterp, hermite3FromK, hermite_polynomial, stageList_head s hs, stageList_last s hs]
  simp only [sum_range_succ, sum_range_zero, zero_add, rowOf, hermiteRows, List.getD_cons_zero,
    List.getD_cons_succ, sum_mixRow s hs, Fin.sum_univ_succ, Fin.sum_univ_zero, add_zero] at hy ⊢
  rw [hy]
  generalize linearRescale t0 t t1 = θ
  generalize ∑ i ∈ range s, (((tab 0).bSol.getD i 0 : ℚ) : ℝ) • D.ks 0 i = S
  simp only [add_sub_cancel_left]
  push_cast
  module

theorem sil3_hasRows (tab : Fin 2 → Tableau ℚ) :
    HasRows tab (fun _ _ _ => sil3Interp) 4 3 (hermiteRows 4) := by
  intro E _ _ t0 t1 D t hy
  have hs : 0 < 4 := by norm_num
  simp only [sil3Interp, hermite_polynomial, stageList_head 4 hs, stageList_last 4 hs]
  simp only [sum_range_succ (n := 2), sum_range_succ (n := 1), sum_range_succ (n := 0), sum_range_zero,
    zero_add, rowOf, hermiteRows, List.getD_cons_zero,
    List.getD_cons_succ, sum_mixRow 4 hs, Fin.sum_univ_two, add_zero] at hy ⊢
  rw [hy]
  generalize linearRescale t0 t t1 = θ
  generalize ∑ i ∈ range 4, (((tab 0).bSol.getD i 0 : ℚ) : ℝ) • D.ks 0 i = S
  generalize ∑ i ∈ range 4, (((tab 1).bSol.getD i 0 : ℚ) : ℝ) • D.ks 1 i = S'
  simp only [add_sub_cancel_left]
  push_cast
  module

theorem tensordot_eq (c : List ℝ) (s : ℕ) (hc : c.length = s) (k : ℕ → E) :
    tensordot c (stageList s k) = ∑ i ∈ range s, c.getD i 0 • k i := by
  have hfold : ∀ (l : List E) (a : E), l.foldl (· + ·) a = a + l.sum := by
    intro l
    induction l with
    | nil => simp
    | cons x xs ih => intro a; rw [List.foldl_cons, ih, List.sum_cons, add_assoc]
  rw [tensordot, hfold, zero_add, stageList]
  subst hc
  have : List.zipWith (fun (a : ℝ) (b : E) => a • b) c ((List.range c.length).map k)
      = (List.range c.length).map (fun i => c.getD i 0 • k i) := by
    apply List.ext_getElem
    · simp
    · intro i h1 h2
      simp at h1
      simp [List.getD, h1]
  rw [this]
  have hsum : ∀ (n : ℕ) (g : ℕ → E), ((List.range n).map g).sum = ∑ i ∈ range n, g i := by
    intro n g
    induction n with
    | zero => simp
    | succ n ih => simp [List.range_succ, sum_range_succ, ih]
  exact hsum _ _

theorem getD_map_cast (l : List ℚ) (i : ℕ) :
    (l.map fun q : ℚ => (q : ℝ)).getD i 0 = ((l.getD i 0 : ℚ) : ℝ) := by
  simp only [List.getD, List.getElem?_map]
  cases l[i]? <;> simp

theorem quartic_polynomial (cm : List ℝ) (t0 t1 : ℝ) (y0 y1 : E) (k : List E) (t : ℝ) :
    (quartic cm t0 t1 y0 y1 k).evaluate t
      = y0 + (linearRescale t0 t t1 ^ 1 • k.headD 0
        + linearRescale t0 t t1 ^ 2 • ((-4 : ℝ) • k.headD 0 + k.getLastD 0 - (5 : ℝ) • (y1 - y0)
            + (16 : ℝ) • tensordot cm k)
        + linearRescale t0 t t1 ^ 3 • ((5 : ℝ) • k.headD 0 - (3 : ℝ) • k.getLastD 0 + (14 : ℝ) • (y1 - y0)
            - (32 : ℝ) • tensordot cm k)
        + linearRescale t0 t t1 ^ 4 • ((-2 : ℝ) • k.headD 0 + (2 : ℝ) • k.getLastD 0 - (8 : ℝ) • (y1 - y0)
            + (16 : ℝ) • tensordot cm k)) := by
  simp only [quartic, LocalPoly.evaluate, polyval, List.foldl]
  generalize linearRescale t0 t t1 = θ
  generalize tensordot cm k = S
  module

theorem dopri5_hasRows (tab : Fin 1 → Tableau ℚ) :
    HasRows tab (fun _ _ _ => dopri5Interp) 7 4 (quarticRows 7 dopri5CMid) := by
  intro E _ _ t0 t1 D t hy
  have hs : 0 < 7 := by norm_num
  simp only [dopri5Interp, quartic_polynomial, stageList_head 7 hs, stageList_last 7 hs]
  rw [tensordot_eq _ 7 (by rfl)]
  simp only [getD_map_cast]
  simp only [sum_range_succ (n := 3), sum_range_succ (n := 2), sum_range_succ (n := 1), sum_range_succ (n := 0),
    sum_range_zero, zero_add, rowOf, quarticRows, List.getD_cons_zero,
    List.getD_cons_succ, sum_mixRow 7 hs, Fin.sum_univ_succ, Fin.sum_univ_zero, add_zero] at hy ⊢
  rw [hy]
  generalize linearRescale t0 t t1 = θ
  generalize ∑ i ∈ range 7, (((tab 0).bSol.getD i 0 : ℚ) : ℝ) • D.ks 0 i = S
  generalize ∑ i ∈ range 7, ((dopri5CMid.getD i 0 : ℚ) : ℝ) • D.ks 0 i = S'
  simp only [add_sub_cancel_left]
  push_cast
  module

/-! ### Coefficients for each stage -/

/-- The transpose of a table with one row per stage, highest power first. -/
def transposeRows (cs : List (List ℚ)) (d : ℕ) : List (List ℚ) :=
  (List.range d).map fun j => cs.map fun row => row.getD (d - 1 - j) 0

theorem polyval_sum (row : List ℚ) (θ : ℝ) :
    polyval (row.map fun q : ℚ => (q : ℝ)) θ
      = ∑ j ∈ range row.length, θ ^ j * ((row.getD (row.length - 1 - j) 0 : ℚ) : ℝ) := by
  induction row using List.reverseRecOn with
  | nil => simp [polyval]
  | append_singleton xs x ih =>
    have e : polyval ((xs ++ [x]).map fun q : ℚ => (q : ℝ)) θ = θ * polyval (xs.map fun q : ℚ => (q : ℝ)) θ + x := by
      simp [polyval]
    rw [e, ih, List.length_append, List.length_singleton, sum_range_succ', mul_sum]
    congr 1
    · apply sum_congr rfl
      intro j hj
      have hj' := mem_range.1 hj
      have e1 : xs.length + 1 - 1 - (j + 1) = xs.length - 1 - j := by omega
      rw [e1]
      have e2 : (xs ++ [x]).getD (xs.length - 1 - j) 0 = xs.getD (xs.length - 1 - j) 0 :=
        List.getD_append _ _ _ _ (by omega)
      rw [e2]
      ring
    · simp [List.getD]

theorem rowCoeffs_getD (cs : List (List ℚ)) (d : ℕ) (hd : ∀ row ∈ cs, row.length = d) (θ : ℝ) (i : ℕ) :
    (rowCoeffs cs θ).getD i 0
      = ∑ j ∈ range d, θ ^ (j + 1) * ((((transposeRows cs d).getD j []).getD i 0 : ℚ) : ℝ) := by
  by_cases hi : i < cs.length
  · have e : (rowCoeffs cs θ).getD i 0 = polyval (cs[i].map fun q : ℚ => (q : ℝ)) θ * θ := by
      rw [rowCoeffs, List.getD_eq_getElem (hn := by simpa using hi)]
      simp
    rw [e, polyval_sum, sum_mul, hd _ (List.getElem_mem hi)]
    apply sum_congr rfl
    intro j hj
    have hj' := mem_range.1 hj
    have e2 : ((transposeRows cs d).getD j []).getD i 0 = (cs[i]).getD (d - 1 - j) 0 := by
      simp [transposeRows, List.getD, hj', hi]
    rw [e2]
    ring
  · have e : (rowCoeffs cs θ).getD i 0 = 0 := by
      simp [rowCoeffs, List.getD, List.getElem?_eq_none (not_lt.1 hi)]
    rw [e, eq_comm]
    apply sum_eq_zero
    intro j hj
    have hj' := mem_range.1 hj
    have e2 : ((transposeRows cs d).getD j []).getD i 0 = 0 := by
      simp [transposeRows, List.getD, hj', List.getElem?_eq_none (not_lt.1 hi)]
    rw [e2]
    simp

theorem swap_powers (s d : ℕ) (θ : ℝ) (β : ℕ → ℕ → ℚ) (k : ℕ → E) :
    ∑ i ∈ range s, (∑ j ∈ range d, θ ^ (j + 1) * ((β j i : ℚ) : ℝ)) • k i
      = ∑ j ∈ range d, θ ^ (j + 1) • ∑ i ∈ range s, ((β j i : ℚ) : ℝ) • k i := by
  simp only [sum_smul, smul_sum, smul_smul]
  rw [sum_comm]

theorem dopri8_hasRows (tab : Fin 1 → Tableau ℚ) :
    HasRows tab (fun _ _ _ => dopri8Interp) 14 6 (fun _ => transposeRows dopri8Coeffs 6) := by
  intro E _ _ t0 t1 D t _
  have hl : (rowCoeffs dopri8Coeffs (linearRescale t0 t t1)).length = 14 := by simp [rowCoeffs]; rfl
  simp only [dopri8Interp, treeDot, hl, Fin.sum_univ_succ, Fin.sum_univ_zero, add_zero, rowOf]
  rw [← swap_powers]
  congr 1
  apply sum_congr rfl
  intro i _
  rw [rowCoeffs_getD dopri8Coeffs 6 (by decide)]

theorem kencarp_hasRows (tab : Fin 2 → Tableau ℚ) (cs : List (List ℚ)) (s d : ℕ) (hs : cs.length = s)
    (hd : ∀ row ∈ cs, row.length = d) :
    HasRows tab (fun _ _ _ => kencarpInterp cs) s d (fun _ => transposeRows cs d) := by
  intro E _ _ t0 t1 D t _
  have hl : (rowCoeffs cs (linearRescale t0 t t1)).length = s := by simp [rowCoeffs, hs]
  simp only [kencarpInterp, treeDot, hl, Fin.sum_univ_two, rowOf, ← sum_add_distrib, ← smul_add]
  rw [← swap_powers]
  congr 1
  apply sum_congr rfl
  intro i _
  rw [rowCoeffs_getD cs d hd]

/-- `A t^2 (t^2 - p t + q)`, lowest power first, from `t`. -/
def pq (A p q : ℚ) : List ℚ := [0, A * q, -(A * p), A]

/-- The coefficients of `b1`, ..., `b7`, lowest power first, from `t`. -/
def tsit5Powers : List (List ℚ) :=
  [[(-1.0530884977290216) * (-(1.3299890189751412 * 0.7139816917074209)),
    (-1.0530884977290216) * (0.7139816917074209 + 1.3299890189751412 * 1.4364028541716351),
    (-1.0530884977290216) * (-(1.4364028541716351 + 1.3299890189751412)), -1.0530884977290216],
   pq 0.1017 2.1966568338249754 1.2949852507374631,
   pq 2.490627285651252793 2.38535645472061657 1.57803468208092486,
   pq (-16.54810288924490272) (1.21712927295533244 + 0.61620406037800089)
     (1.21712927295533244 * 0.61620406037800089),
   pq 47.37952196281928122 (1.203071208372362603 + 0.658047292653547382)
     (1.203071208372362603 * 0.658047292653547382),
   pq (-34.87065786149660974) (1.2 + 0.666666666666666667) (1.2 * 0.666666666666666667),
   pq 2.5 (1 + 0.6) (1 * 0.6)]

def tsit5Rows : List (List ℚ) :=
  (List.range 4).map fun j => tsit5Powers.map fun row => row.getD j 0

theorem tsit5_getD (θ : ℝ) (i : ℕ) (hi : i < 7) :
    (tsit5Coeffs θ).getD i 0
      = ∑ j ∈ range 4, θ ^ (j + 1) * (((tsit5Rows.getD j []).getD i 0 : ℚ) : ℝ) := by
  have h4 : List.range 4 = [0, 1, 2, 3] := rfl
  interval_cases i
  all_goals
    simp only [tsit5Coeffs, tsit5Rows, tsit5Powers, pq, h4, sum_range_succ, sum_range_zero, List.map_cons,
      List.map_nil, List.getD_cons_zero, List.getD_cons_succ]
    push_cast
    ring

theorem tsit5_hasRows (tab : Fin 1 → Tableau ℚ) :
    HasRows tab (fun _ _ _ => tsit5Interp) 7 4 (fun _ => tsit5Rows) := by
  intro E _ _ t0 t1 D t _
  have hl : (tsit5Coeffs (linearRescale t0 t t1)).length = 7 := rfl
  simp only [tsit5Interp, treeDot, hl, Fin.sum_univ_succ, Fin.sum_univ_zero, add_zero, rowOf]
  rw [← swap_powers]
  congr 1
  apply sum_congr rfl
  intro i hi
  rw [tsit5_getD _ i (mem_range.1 hi)]

end
end Verif
