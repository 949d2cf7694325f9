import Verif.Lemmas.OrderRK
import Verif.Lemmas.OrderStep
import Verif.Props.RK
import Verif.Model.Sde

/-!
# A step of an explicit Runge-Kutta method for `MultiTerm(ODETerm(f), ControlTerm(g, w))`
-/

set_option linter.unusedSectionVars false

namespace Verif
open Finset

/-- `k` are the stages of a step of length `h` from `V` at time `s`, with increment `x` of the noise. -/
def SdeStages {E : Type} [NormedAddCommGroup E] [NormedSpace ℝ E] {d : ℕ} (A : ℕ → ℕ → ℝ) (c : ℕ → ℝ) (n : ℕ)
    (f : ℝ → E → E) (g : Fin d → ℝ → E → E) (s h : ℝ) (x : Fin d → ℝ) (V : E) (k : ℕ → E) : Prop :=
  ∀ i < n, k i = h • f (s + c i * h) (V + ∑ j ∈ range i, A i j • k j)
    + ∑ l, x l • g l (s + c i * h) (V + ∑ j ∈ range i, A i j • k j)

section
variable {E J : Type} [NormedAddCommGroup E] [NormedSpace ℝ E] [Module ℚ E] {d : ℕ} {tab : Tableau ℚ}
  {n : ℕ} {c : ℕ → ℚ} (f : ℝ → E → E) (g : Fin d → ℝ → E → E) (w : ℝ → Fin d → ℝ) (cj : CalcJac)
  (rF : RootFinder (E × (Fin d → E)) J) (rK : RootFinder E J) (nj : J)

theorem sdeRK_WF (h : methodOK n c ![tab] = true) :
    (sdeRK tab f g w cj rF rK nj).numStages = n ∧ (sdeRK tab f g w cj rF rK nj).WF
      ∧ (sdeRK tab f g w cj rF rK nj).FsalOK := by
  obtain ⟨-, hs⟩ := methodOK_pos h
  have h0 := methodOK_all h 0
  have hns : (sdeRK tab f g w cj rF rK nj).numStages = n := by
    unfold RK.numStages
    rw [dif_pos one_pos]
    exact h0.1.bSol
  refine ⟨hns, ⟨one_pos, ?_, by rw [hns]; exact hs, ?_, ?_, ?_, ?_⟩, ⟨?_, ?_, ?_⟩⟩
  · intro p; rw [hns]; exact h0.1
  · intro p q _ _; exact Subsingleton.elim p q
  · intro p f g c
    show c.1 • (f.1 + g.1) + ∑ j, c.2 j • (f.2 j + g.2 j) = (c.1 • f.1 + ∑ j, c.2 j • f.2 j)
      + (c.1 • g.1 + ∑ j, c.2 j • g.2 j)
    simp only [smul_add, sum_add_distrib]
    abel
  · intro p a f c
    show c.1 • (a • f.1) + ∑ j, c.2 j • (a • f.2 j) = a • (c.1 • f.1 + ∑ j, c.2 j • f.2 j)
    simp only [qsmul_eq, smul_add, smul_sum]
    rw [smul_comm]
    congr 1
    exact sum_congr rfl fun j _ => smul_comm _ _ _
  · intro p t y c; rfl
  · intro _ p; exact h0.2.2.1
  · intro hf p
    rw [hns]
    apply h0.2.2.2.1
    simp only [RK.fsal, Bool.and_eq_true, List.all_eq_true] at hf
    exact hf.1 p (List.mem_finRange p)
  · intro a b
    simp [sdeRK]

theorem sdeRK_rootExact (hex : tab.implicit = false) : (sdeRK tab f g w cj rF rK nj).RootExact := by
  intro h
  exfalso
  simp only [RK.implicitPart, sdeRK, List.finRange_succ, List.finRange_zero, List.map_nil, List.find?_cons, hex,
    List.find?_nil, Option.isSome_none, Bool.false_eq_true] at h

/-- A step from a valid state is the tableau's formula, and leads to a valid state. -/
theorem sdeRK_step (h : methodOK n c ![tab] = true) (hex : tab.implicit = false) (s t : ℝ) (x : E)
    (st : RK.State 1 (E × (Fin d → E))) (mj : Bool) (hst : (sdeRK tab f g w cj rF rK nj).ValidState s x st mj) :
    (∃ k, SdeStages (fun i j => (tab.a i j : ℝ)) (fun i => (tab.abscissa i : ℝ)) n f g s (t - s) (w t - w s) x k ∧
      ((sdeRK tab f g w cj rF rK nj).step s t x st mj).y = x + ∑ i ∈ range n, (tab.bSol.getD i 0 : ℝ) • k i) ∧
    ∀ mj', (sdeRK tab f g w cj rF rK nj).ValidState t ((sdeRK tab f g w cj rF rK nj).step s t x st mj).y
      ((sdeRK tab f g w cj rF rK nj).step s t x st mj).state mj' := by
  obtain ⟨hns, hwf, hfs⟩ := sdeRK_WF f g w cj rF rK nj h
  have hroot := sdeRK_rootExact f g w cj rF rK nj hex
  set rk := sdeRK tab f g w cj rF rK nj with hrk
  have hok : (rk.step s t x st mj).result.isOkay = true := by
    rw [C41_explicit_succeeds rk (fun _ => hex)]; rfl
  obtain ⟨k, a1, a2, -, -, -, -, a7⟩ := C41_step_formula rk hwf hfs hroot s t x st mj hst hok
  refine ⟨⟨k 0, ?_, ?_⟩, ?_⟩
  · intro i hi
    have h1 := a1 i (by rw [hns]; exact hi) 0
    have h2 : rk.stageTime s t 0 i = s + (tab.abscissa i : ℝ) * (t - s) := by
      unfold RK.stageTime
      split_ifs with hc
      · have hc' : tab.abscissa i = 1 := hc
        rw [hc']; push_cast; ring
      · rfl
    have h3 : rk.stageValue x k i = x + ∑ j ∈ range i, (tab.a i j : ℝ) • k 0 j := by
      unfold RK.stageValue
      rw [Fin.sum_univ_one]
      have hd : (rk.tab 0).d i = 0 := (rk.tab 0).d_explicit hex i
      rw [hd, zero_smul, add_zero]
      congr 1
      exact sum_congr rfl fun j _ => qsmul_eq _ _
    rw [h2, h3] at h1
    exact h1
  · rw [a2]
    congr 1
    unfold RK.combine
    rw [Fin.sum_univ_one, hns]
    exact sum_congr rfl fun i _ => qsmul_eq _ _
  · intro mj' hfsal
    obtain ⟨f1, hf1, hf1v⟩ := a7 hfsal
    refine ⟨false, f1, hf1, Or.inr (Or.inr fun p => ?_)⟩
    rw [hf1v p]
    unfold RK.stageTime
    rw [if_pos (hfs.cLast hfsal p)]

theorem sdeRK_valid_init (s : ℝ) (x : E) (mj : Bool) :
    (sdeRK tab f g w cj rF rK nj).ValidState s x (sdeRK tab f g w cj rF rK nj).init mj := by
  intro hfs
  exact ⟨true, fun _ => 0, by simp [RK.init, hfs], Or.inl rfl⟩

theorem SdeStages.unique {A : ℕ → ℕ → ℝ} {c : ℕ → ℝ} {s h : ℝ} {x : Fin d → ℝ} {V : E} {k k' : ℕ → E}
    (hk : SdeStages A c n f g s h x V k) (hk' : SdeStages A c n f g s h x V k') : ∀ i < n, k i = k' i := by
  intro i
  induction i using Nat.strong_induction_on with
  | _ i ih =>
    intro hi
    have : ∑ j ∈ range i, A i j • k j = ∑ j ∈ range i, A i j • k' j :=
      sum_congr rfl fun j hj => by rw [ih j (mem_range.1 hj) ((mem_range.1 hj).trans hi)]
    rw [hk i hi, hk' i hi, this]

end

end Verif
