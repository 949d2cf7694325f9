import Verif.Lemmas.StageExpansion
import Verif.Lemmas.SdeRKStep
import Verif.Spec.StrongRK
import Verif.Props.StrongOrderOne
import Verif.Lemmas.OrderStep
import Verif.Lemmas.OrderRK
import Verif.Props.RK
import Verif.Model.Tableaus

/-!
# C81: explicit Runge-Kutta methods converge to the Stratonovich solution
-/

set_option linter.unusedSectionVars false

namespace Verif
open MeasureTheory ProbabilityTheory Filter Set Topology Finset
open scoped InnerProductSpace ENNReal NNReal

/-! ### Convergence -/

/-- The conditions on the tableau: the abscissae are the sums of the rows and in `[0, 1]`, and those for order 2. -/
structure SecondOrder (tab : Tableau ℚ) (n : ℕ) : Prop where
  row : ∀ i < n, ∑ j ∈ range i, tab.a i j = tab.abscissa i
  nonneg : ∀ i < n, 0 ≤ tab.abscissa i
  le_one : ∀ i < n, tab.abscissa i ≤ 1
  first : ∑ i ∈ range n, tab.bSol.getD i 0 = 1
  second : ∑ i ∈ range n, tab.bSol.getD i 0 * tab.abscissa i = 1 / 2

section
variable {Ω : Type} {F : ℝ → MeasurableSpace Ω} {mΩ : MeasurableSpace Ω} {P : Measure Ω} [IsProbabilityMeasure P]
  {E J : Type} [NormedAddCommGroup E] [InnerProductSpace ℝ E] {d : ℕ} {W : ℝ → Ω → Fin d → ℝ} {a b : ℝ}
  {f : ℝ → E → E} {g : Fin d → ℝ → E → E} {Y : ℝ → Ω → E} {L Λ : ℝ}

/-- The moments of the bound of the remainder. -/
theorem remainder_moment (hW : BrownianNoise P F a W) (q : ℕ) : ∃ c, 0 ≤ c ∧ ∀ s t, a ≤ s → s ≤ t → t ≤ b →
    MemLp (fun ω => (√(t - s) + ∑ l, |incr W s t ω l|) ^ 3 * (1 + ∑ l, |incr W s t ω l|) ^ q) 2 P ∧
    rms P (fun ω => (√(t - s) + ∑ l, |incr W s t ω l|) ^ 3 * (1 + ∑ l, |incr W s t ω l|) ^ q)
      ≤ c * (t - s) * √(t - s) := by
  obtain ⟨c1, hc1, p1⟩ := hW.powers 3
  obtain ⟨c2, hc2, p2⟩ := hW.powers q
  obtain ⟨c3, hc3, p3⟩ := hW.powers (q + 3)
  set H := √(b - a) with hH
  have hH0 : 0 ≤ H := Real.sqrt_nonneg _
  refine ⟨2 ^ 2 * 2 ^ (q - 1) * (1 + c2 * H ^ q + c1 + c3 * H ^ q), by positivity, fun s t hs hst htb => ?_⟩
  obtain ⟨m1, r1⟩ := p1 s t hs hst
  obtain ⟨m2, r2⟩ := p2 s t hs hst
  obtain ⟨m3, r3⟩ := p3 s t hs hst
  have hts : 0 ≤ t - s := by linarith
  set η := √(t - s) with hη
  have hη0 : 0 ≤ η := Real.sqrt_nonneg _
  have hηH : η ≤ H := Real.sqrt_le_sqrt (by linarith)
  set κ : ℝ := 2 ^ 2 * 2 ^ (q - 1) with hκ
  have hκ0 : 0 ≤ κ := by positivity
  set S : Ω → ℝ := fun ω => ∑ l, |incr W s t ω l| with hS
  have hS0 : ∀ ω, 0 ≤ S ω := fun ω => sum_nonneg fun _ _ => abs_nonneg _
  have n1 : MemLp (fun ω => η ^ 3 * S ω ^ q) 2 P := m2.const_mul _
  have n0 : MemLp (fun _ : Ω => η ^ 3) 2 P := memLp_const _
  have n01 : MemLp (fun ω => η ^ 3 + η ^ 3 * S ω ^ q) 2 P := n0.add n1
  have n012 : MemLp (fun ω => (η ^ 3 + η ^ 3 * S ω ^ q) + S ω ^ 3) 2 P := n01.add m1
  have n0123 : MemLp (fun ω => ((η ^ 3 + η ^ 3 * S ω ^ q) + S ω ^ 3) + S ω ^ (q + 3)) 2 P := n012.add m3
  have nall : MemLp (fun ω => κ * (((η ^ 3 + η ^ 3 * S ω ^ q) + S ω ^ 3) + S ω ^ (q + 3))) 2 P := n0123.const_mul _
  have hle : ∀ ω, ‖(η + S ω) ^ 3 * (1 + S ω) ^ q‖
      ≤ ‖κ * (((η ^ 3 + η ^ 3 * S ω ^ q) + S ω ^ 3) + S ω ^ (q + 3))‖ := by
    intro ω
    have h0 := hS0 ω
    rw [Real.norm_of_nonneg (by positivity), Real.norm_of_nonneg (by positivity)]
    have h1 := add_pow_le hη0 h0 3
    have h2 := add_pow_le zero_le_one h0 q
    rw [one_pow] at h2
    calc _ ≤ (2 ^ (3 - 1) * (η ^ 3 + S ω ^ 3)) * (2 ^ (q - 1) * (1 + S ω ^ q)) :=
          mul_le_mul h1 h2 (by positivity) (by positivity)
      _ = _ := by rw [hκ, pow_add]; ring
  have hmeas : AEStronglyMeasurable (fun ω => (η + S ω) ^ 3 * (1 + S ω) ^ q) P := by
    have h0 : Measurable fun x : Fin d → ℝ => (η + ∑ j, |x j|) ^ 3 * (1 + ∑ j, |x j|) ^ q := by
      have h1 : Measurable fun x : Fin d → ℝ => ∑ j, |x j| := Finset.measurable_fun_sum _ fun j _ => by
        simpa using (measurable_pi_apply (X := fun _ : Fin d => ℝ) j).norm
      exact ((measurable_const.add h1).pow_const 3).mul ((measurable_const.add h1).pow_const q)
    exact (h0.comp (hW.white hs hst).measurable).aestronglyMeasurable
  refine ⟨nall.mono hmeas (ae_of_all _ hle), (rms_mono nall hle).trans ?_⟩
  have e1 : rms P (fun ω => κ * (((η ^ 3 + η ^ 3 * S ω ^ q) + S ω ^ 3) + S ω ^ (q + 3)))
      = κ * rms P (fun ω => ((η ^ 3 + η ^ 3 * S ω ^ q) + S ω ^ 3) + S ω ^ (q + 3)) := by
    have := rms_smul (P := P) κ (fun ω => ((η ^ 3 + η ^ 3 * S ω ^ q) + S ω ^ 3) + S ω ^ (q + 3))
    rw [abs_of_nonneg hκ0] at this
    exact this
  have e2 : rms P (fun ω => η ^ 3 * S ω ^ q) ≤ η ^ 3 * (c2 * H ^ q) := by
    have := rms_smul (P := P) (η ^ 3) (fun ω => S ω ^ q)
    rw [abs_of_nonneg (by positivity)] at this
    refine (le_of_eq this).trans (mul_le_mul_of_nonneg_left (r2.trans ?_) (by positivity))
    gcongr
  have e3 : rms P (fun ω => S ω ^ (q + 3)) ≤ c3 * H ^ q * η ^ 3 := by
    refine r3.trans ?_
    rw [pow_add, ← mul_assoc]
    gcongr
  have e0 : rms P (fun _ : Ω => η ^ 3) = η ^ 3 := by
    rw [rms_const, Real.norm_of_nonneg (by positivity)]
  have e4 := (rms_add_le n012 m3).trans (add_le_add_left ((rms_add_le n01 m1).trans
    (add_le_add_left (rms_add_le n0 n1) _)) _)
  rw [e1]
  have e5 : (t - s) * √(t - s) = η ^ 3 := by
    rw [← hη, pow_succ, Real.sq_sqrt hts]
  calc _ ≤ κ * (η ^ 3 * (1 + c2 * H ^ q + c1 + c3 * H ^ q)) := by
        refine mul_le_mul_of_nonneg_left ?_ hκ0
        have : η ^ 3 * (1 + c2 * H ^ q + c1 + c3 * H ^ q)
            = η ^ 3 + η ^ 3 * (c2 * H ^ q) + c1 * η ^ 3 + c3 * H ^ q * η ^ 3 := by ring
        rw [this]
        linarith
    _ = κ * (1 + c2 * H ^ q + c1 + c3 * H ^ q) * ((t - s) * √(t - s)) := by rw [e5]; ring
    _ = _ := by ring

/-- **C81.** An explicit Runge-Kutta method with a tableau of order 2, applied to
`MultiTerm(ODETerm(f), ControlTerm(g, W))`, converges to the solution in the sense of Stratonovich: the mean square of
the error at the end is at most a constant times the mean square of the initial error plus the length of the longest
step. The noise need not be commutative. -/
theorem C81_explicit_rk [Module ℚ E] {tab : Tableau ℚ} {n : ℕ} {c : ℕ → ℚ} (hok : methodOK n c ![tab] = true)
    (hex : tab.implicit = false) (htab : SecondOrder tab n)
    (hW : BrownianNoise P F a W) (hY : StratonovichSolution P F W f g a b Y) (hL : 0 ≤ L)
    (hf : ItoLipschitz f a b L) (hfc : ItoLipschitz (stratonovichCorrected f g) a b L)
    (hg : ∀ j, ItoLipschitz (g j) a b L) (hgt : ∀ j, TimeLipschitz (g j) a b L) (hΛ : 0 ≤ Λ)
    (hgs : ∀ j, SmoothAlong (g j) g a b Λ) (cj : CalcJac) (rF : RootFinder (E × (Fin d → E)) J) (rK : RootFinder E J)
    (nj : J) (interp : ℝ → ℝ → RK.Dense 1 E → ℝ → E) :
    ∃ K, StrongErrorAtMost P F (fun ω => ⟨(sdeRK tab f g (fun t => W t ω) cj rF rK nj).step, interp⟩)
      (fun ω _ => (sdeRK tab f g (fun t => W t ω) cj rF rK nj).init) Y a b (fun e η => K * (e + η)) := by
  set A : ℕ → ℕ → ℝ := fun i j => (tab.a i j : ℝ) with hAdef
  set cc : ℕ → ℝ := fun i => (tab.abscissa i : ℝ) with hccdef
  set bb : ℕ → ℝ := fun i => (tab.bSol.getD i 0 : ℝ) with hbbdef
  have hcc : ∀ i < n, 0 ≤ cc i ∧ cc i ≤ 1 := fun i hi =>
    ⟨Rat.cast_nonneg.2 (htab.nonneg i hi), by
      have := Rat.cast_le (K := ℝ).2 (htab.le_one i hi)
      rwa [Rat.cast_one] at this⟩
  have hrow : ∀ i < n, ∑ j ∈ range i, A i j = cc i := fun i hi => by
    have := htab.row i hi
    simp only [hAdef, hccdef, ← this]; push_cast; rfl
  have hb1 : ∑ i ∈ range n, bb i = 1 := by
    have := htab.first
    simp only [hbbdef]; exact_mod_cast this
  have hb2 : ∑ i ∈ range n, bb i * cc i = 1 / 2 := by
    have := congrArg (fun q : ℚ => (q : ℝ)) htab.second
    simp only [hbbdef, hccdef]; push_cast at this; exact this
  set Amax := ∑ i ∈ range n, ∑ j ∈ range i, |A i j| with hAmax
  have hA0 : 0 ≤ Amax := sum_nonneg fun _ _ => sum_nonneg fun _ _ => abs_nonneg _
  have hA : ∀ i < n, ∀ j < i, |A i j| ≤ Amax := fun i hi j hj =>
    (single_le_sum (f := fun j => |A i j|) (fun _ _ => abs_nonneg _) (mem_range.2 hj)).trans
      (single_le_sum (f := fun i => ∑ j ∈ range i, |A i j|) (fun _ _ => sum_nonneg fun _ _ => abs_nonneg _)
        (mem_range.2 hi))
  obtain ⟨C, hC, q, hsec⟩ := sde_stages_second hL hf hg hgt hΛ hgs hA hA0 hcc hrow
  obtain ⟨c', hc0', hc'⟩ := remainder_moment (b := b) hW q
  have hg1 : ∀ t ∈ Icc a b, ∀ j, ContDiff ℝ 1 (g j t) := fun t ht j => (hgs j t ht).1
  obtain ⟨c0, hc0, hc⟩ := milsteinTerm_small hW hL hg hg1
  set B := ∑ i ∈ range n, |bb i| with hB
  have hB0 : 0 ≤ B := sum_nonneg fun _ _ => abs_nonneg _
  refine C79_near_euler hW hY hL hfc hg (c := c0 + B * C * c') (by positivity) _ _
    (fun ω s t x => ((sdeRK tab f g (fun t => W t ω) cj rF rK nj).step s t x
      (sdeRK tab f g (fun t => W t ω) cj rF rK nj).init false).y)
    (fun ω s x st => ∀ mj, (sdeRK tab f g (fun t => W t ω) cj rF rK nj).ValidState s x st mj)
    (fun ω x mj => sdeRK_valid_init f g _ cj rF rK nj a x mj) ?_ ?_
  · intro ω s t x st mj hst
    obtain ⟨⟨k, hk, hy⟩, hv⟩ := sdeRK_step f g (fun t => W t ω) cj rF rK nj hok hex s t x st mj (hst mj)
    obtain ⟨⟨k', hk', hy'⟩, -⟩ := sdeRK_step f g (fun t => W t ω) cj rF rK nj hok hex s t x _ false
      (sdeRK_valid_init f g (fun t => W t ω) cj rF rK nj s x false)
    have e : ((sdeRK tab f g (fun t => W t ω) cj rF rK nj).step s t x st mj).y
        = ((sdeRK tab f g (fun t => W t ω) cj rF rK nj).step s t x
          (sdeRK tab f g (fun t => W t ω) cj rF rK nj).init false).y := by
      rw [hy, hy']
      congr 1
      refine sum_congr rfl fun i hi => ?_
      rw [SdeStages.unique f g hk hk' i (mem_range.1 hi)]
    refine ⟨e, ?_⟩
    intro mj'
    have := hv mj'
    rw [e] at this
    exact this
  intro s t hs hst htb V hV hV2
  obtain ⟨h1, h2, h3, h4⟩ := hc s t hs hst htb V hV hV2
  obtain ⟨m3, r3⟩ := hc' s t hs hst htb
  have hsI : s ∈ Icc a b := ⟨hs, hst.trans htb⟩
  have htI : s + (t - s) ∈ Icc a b := ⟨by linarith, by linarith⟩
  have hts : 0 ≤ t - s := by linarith
  have rV0 : 0 ≤ rms P V := rms_nonneg V
  have hw := hW.white hs hst
  have hmono := hW.mono s t hst
  have hVt := hV.mono hmono
  choose k hk using fun ω => (sdeRK_step f g (fun t => W t ω) cj rF rK nj hok hex s t (V ω) _ false
      (sdeRK_valid_init f g (fun t => W t ω) cj rF rK nj s (V ω) false)).1
  have si : ∀ j, StronglyMeasurable[F t] (fun ω => incr W s t ω j) := fun j =>
    ((measurable_pi_apply j).comp (incr_measurable hW hs hst)).stronglyMeasurable
  have sk : ∀ i < n, StronglyMeasurable[F t] (fun ω => k ω i) := by
    intro i
    induction i using Nat.strong_induction_on with
    | _ i ih =>
      intro hi
      have e : (fun ω => k ω i) = fun ω => (t - s) • f (s + cc i * (t - s)) (V ω + ∑ j ∈ range i, A i j • k ω j)
          + ∑ l, incr W s t ω l • g l (s + cc i * (t - s)) (V ω + ∑ j ∈ range i, A i j • k ω j) := by
        funext ω; exact (hk ω).1 i hi
      rw [e]
      have hti := (sde_stage_time hsI htI hts (hcc i hi).1 (hcc i hi).2).1
      have sz : StronglyMeasurable[F t] (fun ω => V ω + ∑ j ∈ range i, A i j • k ω j) :=
        hVt.add (Finset.stronglyMeasurable_fun_sum _ fun j hj =>
          (ih j (mem_range.1 hj) ((mem_range.1 hj).trans hi)).const_smul _)
      exact ((hf.measurable hL hti sz).const_smul _).add (Finset.stronglyMeasurable_fun_sum _ fun l _ =>
        (si l).smul ((hg l).measurable hL hti sz))
  have sN : StronglyMeasurable[F t] (fun ω => ∑ i, incr W s t ω i • g i s (V ω)) :=
    Finset.stronglyMeasurable_fun_sum _ fun i _ => (si i).smul ((hg i).measurable hL hsI hVt)
  have sQ : StronglyMeasurable[F t] (fun ω => ∑ l, incr W s t ω l •
      fderiv ℝ (g l s) (V ω) (∑ i, incr W s t ω i • g i s (V ω))) := by
    refine Finset.stronglyMeasurable_fun_sum _ fun j _ => (si j).smul ?_
    have hcont : Continuous fun p : E × E => fderiv ℝ (g j s) p.1 p.2 :=
      (((hg1 s hsI j).continuous_fderiv one_ne_zero).comp continuous_fst).clm_apply continuous_snd
    exact hcont.comp_stronglyMeasurable (hVt.prodMk sN)
  set R : ℕ → Ω → E := fun i ω => k ω i - ((t - s) • f s (V ω) + ∑ l, incr W s t ω l • g l s (V ω)
    + cc i • ∑ l, incr W s t ω l • fderiv ℝ (g l s) (V ω) (∑ l', incr W s t ω l' • g l' s (V ω))) with hR
  have sR : ∀ i < n, StronglyMeasurable[F t] (R i) := fun i hi =>
    (sk i hi).sub ((((hf.measurable hL hsI hVt).const_smul _).add sN).add (sQ.const_smul _))
  set R2 : Ω → E := fun ω => ∑ i ∈ range n, bb i • R i ω with hR2
  have sR2 : StronglyMeasurable[F t] R2 :=
    Finset.stronglyMeasurable_fun_sum _ fun i hi => (sR i (mem_range.1 hi)).const_smul _
  have nR2 : ∀ ω, ‖R2 ω‖ ≤ ‖(B * C * ((√(t - s) + ∑ l, |incr W s t ω l|) ^ 3 * (1 + ∑ l, |incr W s t ω l|) ^ q))
      • (1 + ‖V ω‖)‖ := by
    intro ω
    have hS0 : 0 ≤ ∑ l, |incr W s t ω l| := sum_nonneg fun _ _ => abs_nonneg _
    rw [smul_eq_mul, Real.norm_of_nonneg (by positivity)]
    have hRi : ∀ i ∈ range n, ‖bb i • R i ω‖ ≤ |bb i| * (C * (√(t - s) + ∑ l, |incr W s t ω l|) ^ 3
        * (1 + ∑ l, |incr W s t ω l|) ^ q * (1 + ‖V ω‖)) := by
      intro i hi
      rw [norm_smul, Real.norm_eq_abs]
      exact mul_le_mul_of_nonneg_left
        (hsec s (t - s) (incr W s t ω) (V ω) (k ω) hsI htI hts (hk ω).1 i (mem_range.1 hi)) (abs_nonneg _)
    refine (norm_sum_le _ _).trans ((sum_le_sum hRi).trans (le_of_eq ?_))
    rw [← sum_mul, ← hB]; ring
  have s1V : StronglyMeasurable[F s] (fun ω => 1 + ‖V ω‖) := stronglyMeasurable_const.add hV.norm
  have m1V : MemLp (fun ω => 1 + ‖V ω‖) 2 P := by simpa using memLp_affine 1 1 hV2
  have hψ : Measurable (fun x : Fin d → ℝ => B * C * ((√(t - s) + ∑ l, |x l|) ^ 3 * (1 + ∑ l, |x l|) ^ q)) := by
    have h1 : Measurable fun x : Fin d → ℝ => ∑ j, |x j| := Finset.measurable_fun_sum _ fun j _ => by
      simpa using (measurable_pi_apply (X := fun _ : Fin d => ℝ) j).norm
    exact (((measurable_const.add h1).pow_const 3).mul ((measurable_const.add h1).pow_const q)).const_mul _
  obtain ⟨mB, rB⟩ := hw.memLp_fun (fun x => B * C * ((√(t - s) + ∑ l, |x l|) ^ 3 * (1 + ∑ l, |x l|) ^ q)) hψ
    (m3.const_mul _) s1V m1V
  have mR2 : MemLp R2 2 P := mB.mono (sR2.mono (hW.le t)).aestronglyMeasurable (ae_of_all _ nR2)
  refine ⟨milsteinTerm g W V s t, R2, h1, sR2, h2, mR2, h3, ?_, ?_, ?_⟩
  · refine h4.trans ?_
    have : 0 ≤ B * C * c' := by positivity
    gcongr
    linarith
  · refine (rms_mono mB nR2).trans ?_
    rw [rB]
    have q1 : rms P (fun ω => B * C * ((√(t - s) + ∑ l, |incr W s t ω l|) ^ 3 * (1 + ∑ l, |incr W s t ω l|) ^ q))
        ≤ B * C * (c' * (t - s) * √(t - s)) := by
      have := rms_smul (P := P) (B * C)
        (fun ω => (√(t - s) + ∑ l, |incr W s t ω l|) ^ 3 * (1 + ∑ l, |incr W s t ω l|) ^ q)
      rw [abs_of_nonneg (by positivity)] at this
      refine (le_of_eq this).trans (mul_le_mul_of_nonneg_left r3 (by positivity))
    have q2 : rms P (fun ω => 1 + ‖V ω‖) ≤ 1 + rms P V := by
      have m5 : MemLp (fun _ : Ω => (1 : ℝ)) 2 P := memLp_const _
      have := rms_add_le m5 hV2.norm
      rw [rms_const, rms_norm, norm_one] at this
      exact this
    calc _ ≤ B * C * (c' * (t - s) * √(t - s)) * (1 + rms P V) :=
          mul_le_mul q1 q2 (rms_nonneg _) (by positivity)
      _ = B * C * c' * ((t - s) * √(t - s) * (1 + rms P V)) := by ring
      _ ≤ (c0 + B * C * c') * ((t - s) * √(t - s) * (1 + rms P V)) := by gcongr; linarith
      _ = _ := by ring
  · intro ω
    rw [(hk ω).2]
    set N := ∑ l, incr W s t ω l • g l s (V ω) with hN
    set Q := ∑ l, incr W s t ω l • fderiv ℝ (g l s) (V ω) N with hQ
    have e1 : ∑ i ∈ range n, bb i • k ω i = R2 ω + ((t - s) • f s (V ω) + N + (1 / 2 : ℝ) • Q) := by
      have : ∀ i ∈ range n, bb i • k ω i = bb i • R i ω + (bb i • ((t - s) • f s (V ω) + N) + (bb i * cc i) • Q) := by
        intro i _
        simp only [hR]
        module
      rw [sum_congr rfl this, sum_add_distrib, sum_add_distrib, ← sum_smul, ← sum_smul, hb1, hb2, one_smul]
    have e2 : (1 / 2 : ℝ) • Q = (1 / 2 : ℝ) • ∑ i, ∑ j, (incr W s t ω i * incr W s t ω j) •
        fderiv ℝ (g j s) (V ω) (g i s (V ω)) := by
      congr 1
      rw [sum_comm]
      refine sum_congr rfl fun j _ => ?_
      rw [hN, map_sum, smul_sum]
      refine sum_congr rfl fun i _ => ?_
      rw [map_smul, smul_smul, mul_comm]
    have e3 := sum_pairs (t - s) (incr W s t ω) (fun i j => fderiv ℝ (g j s) (V ω) (g i s (V ω)))
    show V ω + ∑ i ∈ range n, bb i • k ω i = V ω + (t - s) • (f s (V ω) + (1 / 2 : ℝ) • ∑ i, fderiv ℝ (g i s) (V ω)
      (g i s (V ω))) + N + milsteinTerm g W V s t ω + R2 ω
    rw [e1, e2, e3]
    unfold milsteinTerm
    module

end

/-! ### The solvers -/

theorem C81_of_order (tab : Tableau ℚ) (n : ℕ) (c : ℕ → ℚ) (hok : methodOK n c ![tab] = true)
    (hex : tab.implicit = false) (htab : SecondOrder tab n) : ConvergesToStratonovich tab := by
  intro Ω F mΩ P _ E J _ _ _ d W a b L Λ f g Y hW hY hL hΛ hf hfc hg hgt hgs cj rF rK nj interp
  exact C81_explicit_rk hok hex htab hW hY hL hf hfc hg hgt hΛ hgs cj rF rK nj interp

/-- **C81, Heun.** -/
theorem C81_heun : ConvergesToStratonovich Tab.Heun.tableau :=
  C81_of_order _ 2 Tab.Heun.tableau.abscissa (by decide +kernel) rfl
    ⟨by decide +kernel, by decide +kernel, by decide +kernel, by decide +kernel, by decide +kernel⟩

/-- **C81, Midpoint.** -/
theorem C81_midpoint : ConvergesToStratonovich Tab.Midpoint.tableau :=
  C81_of_order _ 2 Tab.Midpoint.tableau.abscissa (by decide +kernel) rfl
    ⟨by decide +kernel, by decide +kernel, by decide +kernel, by decide +kernel, by decide +kernel⟩

/-- **C81, Ralston.** -/
theorem C81_ralston : ConvergesToStratonovich Tab.Ralston.tableau :=
  C81_of_order _ 2 Tab.Ralston.tableau.abscissa (by decide +kernel) rfl
    ⟨by decide +kernel, by decide +kernel, by decide +kernel, by decide +kernel, by decide +kernel⟩

/-- **C81, Bosh3.** -/
theorem C81_bosh3 : ConvergesToStratonovich Tab.Bosh3.tableau :=
  C81_of_order _ 4 Tab.Bosh3.tableau.abscissa (by decide +kernel) rfl
    ⟨by decide +kernel, by decide +kernel, by decide +kernel, by decide +kernel, by decide +kernel⟩

/-- **C81, Dopri5.** -/
theorem C81_dopri5 : ConvergesToStratonovich Tab.Dopri5.tableau :=
  C81_of_order _ 7 Tab.Dopri5.tableau.abscissa (by decide +kernel) rfl
    ⟨by decide +kernel, by decide +kernel, by decide +kernel, by decide +kernel, by decide +kernel⟩

/-- The hypotheses can be met: `(B, B²)` solves `d(x, z) = (1, 2x) ∘ dB` in the sense of Stratonovich. -/
example {Ω : Type} {mΩ : MeasurableSpace Ω} {P : Measure Ω} {B : ℝ≥0 → Ω → ℝ} (hB : IsPreBrownianReal B P)
    (hm : ∀ t, Measurable (B t)) (rF : RootFinder (Plane × (Fin 1 → Plane)) Unit) (rK : RootFinder Plane Unit)
    (interp : ℝ → ℝ → RK.Dense 1 Plane → ℝ → Plane) :
    ∃ K, StrongErrorAtMost P (pastOf B)
      (fun ω => ⟨(sdeRK Tab.Dopri5.tableau (fun _ _ => 0) pairNoise (fun t => pathOf B t ω) .never rF rK ()).step, interp⟩)
      (fun ω _ => (sdeRK Tab.Dopri5.tableau (fun _ _ => 0) pairNoise (fun t => pathOf B t ω) .never rF rK ()).init)
      (pairSolution B) 0 1 (fun e η => K * (e + η)) := by
  have hP := hB.isGaussianProcess.isProbabilityMeasure
  refine C81_dopri5 Ω (pastOf B) mΩ P Plane Unit 1 (pathOf B) 0 1 2 0 (fun _ _ => 0) pairNoise (pairSolution B)
    (brownianNoise_of_brownian hB hm) (pair_stratonovich hB hm) zero_le_two le_rfl ?_ ?_ pairNoise_lipschitz ?_
    pairNoise_smooth _ _ _ _ _
  · intro s _ t _ x x'
    rw [sub_self, norm_zero]; positivity
  · rw [pair_corrected]; exact pairDrift_lipschitz
  · intro j s _ t _ x
    have : pairNoise j t x - pairNoise j s x = 0 := by simp [pairNoise]
    rw [this, norm_zero]; positivity

end Verif
