import Verif.Lemmas.LangevinExact
import Verif.Props.LangevinCoeffs

/-!
# The steps of the Langevin solvers over a short time
-/

set_option linter.unusedSectionVars false
set_option linter.unusedSimpArgs false

namespace Verif
open Filter Topology Set

/-- Coefficients of `p0 + p1 ε² + p2 ε⁴ + p3 ε⁶`. -/
noncomputable def evenCoef (p0 p1 p2 p3 : ℝ) : ℕ → ℝ → ℝ
  | 0, _ => p0
  | 2, _ => p1
  | 4, _ => p2
  | 6, _ => p3
  | _, _ => 0

/-- Coefficients of `a + b ε`. -/
noncomputable def linCoef (a b : ℝ) : ℕ → ℝ → ℝ
  | 0, _ => a
  | 1, _ => b
  | _, _ => 0

theorem jet_lin (n : ℕ) (a b : ℝ) : Jet n (fun ε _ => a + ε * b) (linCoef a b) := by
  refine ((Jet.const n a).add (Jet.monomial n 1 (UO.const b))).congr' (fun ε u => by simp) fun k _ u => ?_
  rcases k with _ | _ | k <;> simp [linCoef]

theorem jet_even {F : ℝ → ℝ} {p0 p1 p2 p3 q r C : ℝ} (h : ∀ᶠ ε in 𝓝[>] (0 : ℝ),
    |F ε - (p0 + p1 * ε ^ 2 + p2 * (ε ^ 2) ^ 2 + p3 * (ε ^ 2) ^ 3 + q * (ε ^ 2) ^ 4 + r * (ε ^ 2) ^ 5)| ≤ C * ε ^ 8) :
    Jet 8 (fun ε _ => F ε) (evenCoef p0 p1 p2 p3) := by
  have h1 : UO 8 (fun ε _ =>
      F ε - (p0 + p1 * ε ^ 2 + p2 * (ε ^ 2) ^ 2 + p3 * (ε ^ 2) ^ 3 + q * (ε ^ 2) ^ 4 + r * (ε ^ 2) ^ 5)) := by
    refine ⟨|C|, abs_nonneg _, ?_⟩
    filter_upwards [h] with ε h u _
    exact h.trans (mul_le_mul_of_nonneg_right (le_abs_self C) (by positivity))
  have h2 : UO 8 (fun ε (_ : ℝ) => ε ^ 8 • (q + ε ^ 2 • r)) := by
    have : UO 0 (fun ε (_ : ℝ) => q + ε ^ 2 • r) := (UO.const q).add (((UO.const r).smul_pow 2).mono (by norm_num))
    exact this.smul_pow 8
  refine ⟨fun k _ => UO.const (evenCoef p0 p1 p2 p3 k 0) |>.congr' fun ε u => ?_, (h1.add h2).congr' fun ε u => ?_⟩
  · rcases k with _ | _ | _ | _ | _ | _ | _ | k <;> rfl
  · simp only [Finset.sum_range_succ, Finset.sum_range_zero, evenCoef, smul_eq_mul]
    ring

theorem recompute_jet {Co : Type} (sv : LangevinSolver Co) (π : Co → ℝ) {c : ℝ} {scale : ℝ}
    (hclose : ∀ h : ℝ, h ≠ 0 → |c * h| ≤ 1 → TaylorClose h c scale (π (sv.taylor h c)) (π (sv.direct h c)))
    {p0 p1 p2 p3 q r : ℝ}
    (ht : ∀ h, π (sv.taylor h c) = p0 + p1 * h + p2 * h ^ 2 + p3 * h ^ 3 + q * h ^ 4 + r * h ^ 5) :
    Jet 8 (fun ε _ => π (sv.recompute (ε ^ 2) c)) (evenCoef p0 p1 p2 p3) := by
  have hsmall : ∀ᶠ ε in 𝓝[>] (0 : ℝ), |c * ε ^ 2| < 1 := by
    have : Tendsto (fun ε : ℝ => |c * ε ^ 2|) (𝓝 0) (𝓝 |c * 0 ^ 2|) :=
      Continuous.tendsto (by fun_prop) 0
    rw [zero_pow (by norm_num), mul_zero, abs_zero] at this
    exact (this.mono_left nhdsWithin_le_nhds).eventually (gt_mem_nhds one_pos)
  refine jet_even (q := q) (r := r) (C := |c| ^ 6 / 100 / |scale|) ?_
  filter_upwards [hsmall, ev_pos] with ε h1 h2
  have e8 : ε ^ 12 ≤ ε ^ 8 := pow_le_pow_of_le_one h2.1.le h2.2.le (by norm_num)
  have hC : 0 ≤ |c| ^ 6 / 100 / |scale| := by positivity
  rw [← ht (ε ^ 2)]
  unfold LangevinSolver.recompute
  split_ifs
  · rw [sub_self, abs_zero]
    exact mul_nonneg hC (by have := h2.1; positivity)
  · have := hclose (ε ^ 2) (pow_ne_zero _ h2.1.ne') h1.le
    unfold TaylorClose at this
    refine this.trans ?_
    have hq : |c * ε ^ 2| ^ 6 / 100 / scale ≤ |c * ε ^ 2| ^ 6 / 100 / |scale| := by
      rcases le_or_gt scale 0 with h0 | h0
      · exact (div_nonpos_of_nonneg_of_nonpos (by positivity) h0).trans (by positivity)
      · rw [abs_of_pos h0]
    refine hq.trans ?_
    have e : |c * ε ^ 2| ^ 6 / 100 / |scale| = |c| ^ 6 / 100 / |scale| * ε ^ 12 := by
      rw [abs_mul, abs_of_pos (by have := h2.1; positivity : (0 : ℝ) < ε ^ 2)]
      ring
    rw [e]
    exact mul_le_mul_of_nonneg_left e8 hC

section
variable {c : ℝ} (hc : c ≠ 0) (thr : ℝ)
include hc

theorem align_coef_jets : let co := fun ε : ℝ => (ALIGN thr).recompute (ε ^ 2) c
    Jet 8 (fun ε _ => (co ε).beta) (evenCoef 1 (-c) (c ^ 2 / 2) (-c ^ 3 / 6)) ∧
    Jet 8 (fun ε _ => (co ε).a1) (evenCoef 0 1 (-c / 2) (c ^ 2 / 6)) ∧
    Jet 8 (fun ε _ => (co ε).b1) (evenCoef 0 (1 / 2) (-c / 6) (c ^ 2 / 24)) ∧
    Jet 8 (fun ε _ => (co ε).aa) (evenCoef 1 (-c / 2) (c ^ 2 / 6) (-c ^ 3 / 24)) ∧
    Jet 8 (fun ε _ => (co ε).chh) (evenCoef 0 1 (-c / 2) (3 * c ^ 2 / 20)) := by
  intro co
  refine ⟨recompute_jet (ALIGN thr) AlignCoeffs.beta (fun h hh hs => (C71_align hc hh hs).1)
      (q := c ^ 4 / 24) (r := -c ^ 5 / 120) ?_,
    recompute_jet (ALIGN thr) AlignCoeffs.a1 (fun h hh hs => (C71_align hc hh hs).2.1)
      (q := -c ^ 3 / 24) (r := c ^ 4 / 120) ?_,
    recompute_jet (ALIGN thr) AlignCoeffs.b1 (fun h hh hs => (C71_align hc hh hs).2.2.1)
      (q := -c ^ 3 / 120) (r := c ^ 4 / 720) ?_,
    recompute_jet (ALIGN thr) AlignCoeffs.aa (fun h hh hs => (C71_align hc hh hs).2.2.2.1)
      (q := c ^ 4 / 120) (r := -c ^ 5 / 720) ?_,
    recompute_jet (ALIGN thr) AlignCoeffs.chh (fun h hh hs => (C71_align hc hh hs).2.2.2.2)
      (q := -c ^ 3 / 30) (r := c ^ 4 / 168) ?_⟩ <;>
  · intro h
    simp only [ALIGN, alignEval, alignTay, polyval6]
    ring

theorem should_coef_jets : let co := fun ε : ℝ => (ShOULD thr).recompute (ε ^ 2) c
    Jet 8 (fun ε _ => (co ε).betaHalf) (evenCoef 1 (-c / 2) (c ^ 2 / 8) (-c ^ 3 / 48)) ∧
    Jet 8 (fun ε _ => (co ε).aHalf) (evenCoef 0 (1 / 2) (-c / 8) (c ^ 2 / 48)) ∧
    Jet 8 (fun ε _ => (co ε).bHalf) (evenCoef 0 (1 / 8) (-c / 48) (c ^ 2 / 384)) ∧
    Jet 8 (fun ε _ => (co ε).beta1) (evenCoef 1 (-c) (c ^ 2 / 2) (-c ^ 3 / 6)) ∧
    Jet 8 (fun ε _ => (co ε).a1) (evenCoef 0 1 (-c / 2) (c ^ 2 / 6)) ∧
    Jet 8 (fun ε _ => (co ε).b1) (evenCoef 0 (1 / 2) (-c / 6) (c ^ 2 / 24)) ∧
    Jet 8 (fun ε _ => (co ε).aa) (evenCoef 1 (-c / 2) (c ^ 2 / 6) (-c ^ 3 / 24)) ∧
    Jet 8 (fun ε _ => (co ε).chh) (evenCoef 0 1 (-c / 2) (3 * c ^ 2 / 20)) ∧
    Jet 8 (fun ε _ => (co ε).ckk) (evenCoef 0 0 (-c) (c ^ 2 / 2)) := by
  intro co
  refine ⟨recompute_jet (ShOULD thr) ShouldCoeffs.betaHalf (fun h hh hs => (C71_should hc hh hs).1.1)
      (q := c ^ 4 / 384) (r := -c ^ 5 / 3840) ?_,
    recompute_jet (ShOULD thr) ShouldCoeffs.aHalf (fun h hh hs => (C71_should hc hh hs).1.2.1)
      (q := -c ^ 3 / 384) (r := c ^ 4 / 3840) ?_,
    recompute_jet (ShOULD thr) ShouldCoeffs.bHalf (fun h hh hs => (C71_should hc hh hs).1.2.2)
      (q := -c ^ 3 / 3840) (r := c ^ 4 / 46080) ?_,
    recompute_jet (ShOULD thr) ShouldCoeffs.beta1 (fun h hh hs => (C71_should hc hh hs).2.1.1)
      (q := c ^ 4 / 24) (r := -c ^ 5 / 120) ?_,
    recompute_jet (ShOULD thr) ShouldCoeffs.a1 (fun h hh hs => (C71_should hc hh hs).2.1.2.1)
      (q := -c ^ 3 / 24) (r := c ^ 4 / 120) ?_,
    recompute_jet (ShOULD thr) ShouldCoeffs.b1 (fun h hh hs => (C71_should hc hh hs).2.1.2.2)
      (q := -c ^ 3 / 120) (r := c ^ 4 / 720) ?_,
    recompute_jet (ShOULD thr) ShouldCoeffs.aa (fun h hh hs => (C71_should hc hh hs).2.2.1)
      (q := c ^ 4 / 120) (r := -c ^ 5 / 720) ?_,
    recompute_jet (ShOULD thr) ShouldCoeffs.chh (fun h hh hs => (C71_should hc hh hs).2.2.2.1)
      (q := -c ^ 3 / 30) (r := c ^ 4 / 168) ?_,
    recompute_jet (ShOULD thr) ShouldCoeffs.ckk (fun h hh hs => (C71_should hc hh hs).2.2.2.2)
      (q := -c ^ 3 / 7) (r := 5 * c ^ 4 / 168) ?_⟩ <;>
  · intro h
    simp only [ShOULD, shouldEval, shouldTay, polyval6]
    ring

theorem quicsort_coef_jets : let co := fun ε : ℝ => (QUICSORT thr).recompute (ε ^ 2) c
    let B := fun z : ℝ => evenCoef 1 (-c * z) (c ^ 2 / 2 * z ^ 2) (-c ^ 3 / 6 * z ^ 3)
    let A := fun z : ℝ => evenCoef 0 z (-c / 2 * z ^ 2) (c ^ 2 / 6 * z ^ 3)
    let D := fun z : ℝ => evenCoef 0 (z ^ 2 / 2) (-c / 6 * z ^ 3) (c ^ 2 / 24 * z ^ 4)
    (Jet 8 (fun ε _ => (co ε).beta.l) (B quicL) ∧ Jet 8 (fun ε _ => (co ε).beta.r) (B quicR) ∧
      Jet 8 (fun ε _ => (co ε).beta.one) (B 1)) ∧
    (Jet 8 (fun ε _ => (co ε).a.l) (A quicL) ∧ Jet 8 (fun ε _ => (co ε).a.r) (A quicR) ∧
      Jet 8 (fun ε _ => (co ε).a.one) (A 1)) ∧
    (Jet 8 (fun ε _ => (co ε).b.l) (D quicL) ∧ Jet 8 (fun ε _ => (co ε).b.r) (D quicR) ∧
      Jet 8 (fun ε _ => (co ε).b.one) (D 1)) ∧
    Jet 8 (fun ε _ => (co ε).aThird) (evenCoef 0 (1 / 3) (-c / 18) (c ^ 2 / 162)) ∧
    Jet 8 (fun ε _ => (co ε).aDivH) (evenCoef 1 (-c / 2) (c ^ 2 / 6) (-c ^ 3 / 24)) := by
  intro co B A D
  have k := fun (h : ℝ) (hh : h ≠ 0) (hs : |c * h| ≤ 1) => C71_quicsort hc hh hs
  refine ⟨⟨?_, ?_, ?_⟩, ⟨?_, ?_, ?_⟩, ⟨?_, ?_, ?_⟩, ?_, ?_⟩
  · exact recompute_jet (QUICSORT thr) (fun x => x.beta.l) (fun h hh hs => (k h hh hs).1.1)
      (q := c ^ 4 / 24 * quicL ^ 4) (r := -c ^ 5 / 120 * quicL ^ 5)
      (fun h => by simp only [QUICSORT, quicsortEval, quicsortTay, quicPows, List.zipWith_cons_cons, List.zipWith_nil_left, polyval6]; ring)
  · exact recompute_jet (QUICSORT thr) (fun x => x.beta.r) (fun h hh hs => (k h hh hs).1.2.1)
      (q := c ^ 4 / 24 * quicR ^ 4) (r := -c ^ 5 / 120 * quicR ^ 5)
      (fun h => by simp only [QUICSORT, quicsortEval, quicsortTay, quicPows, List.zipWith_cons_cons, List.zipWith_nil_left, polyval6]; ring)
  · exact recompute_jet (QUICSORT thr) (fun x => x.beta.one) (fun h hh hs => (k h hh hs).1.2.2)
      (q := c ^ 4 / 24 * 1 ^ 4) (r := -c ^ 5 / 120 * 1 ^ 5)
      (fun h => by simp only [QUICSORT, quicsortEval, quicsortTay, quicPows, List.zipWith_cons_cons, List.zipWith_nil_left, polyval6]; ring)
  · exact recompute_jet (QUICSORT thr) (fun x => x.a.l) (fun h hh hs => (k h hh hs).2.1.1)
      (q := -c ^ 3 / 24 * quicL ^ 4) (r := c ^ 4 / 120 * quicL ^ 5)
      (fun h => by simp only [QUICSORT, quicsortEval, quicsortTay, quicPows, List.zipWith_cons_cons, List.zipWith_nil_left, polyval6]; ring)
  · exact recompute_jet (QUICSORT thr) (fun x => x.a.r) (fun h hh hs => (k h hh hs).2.1.2.1)
      (q := -c ^ 3 / 24 * quicR ^ 4) (r := c ^ 4 / 120 * quicR ^ 5)
      (fun h => by simp only [QUICSORT, quicsortEval, quicsortTay, quicPows, List.zipWith_cons_cons, List.zipWith_nil_left, polyval6]; ring)
  · exact recompute_jet (QUICSORT thr) (fun x => x.a.one) (fun h hh hs => (k h hh hs).2.1.2.2)
      (q := -c ^ 3 / 24 * 1 ^ 4) (r := c ^ 4 / 120 * 1 ^ 5)
      (fun h => by simp only [QUICSORT, quicsortEval, quicsortTay, quicPows, List.zipWith_cons_cons, List.zipWith_nil_left, polyval6]; ring)
  · exact recompute_jet (QUICSORT thr) (fun x => x.b.l) (fun h hh hs => (k h hh hs).2.2.1.1)
      (q := -c ^ 3 / 120 * quicL ^ 5) (r := c ^ 4 / 720 * quicL ^ 6)
      (fun h => by simp only [QUICSORT, quicsortEval, quicsortTay, quicPows, List.map_cons, List.map_nil, List.zipWith_cons_cons, List.zipWith_nil_left, polyval6]; ring)
  · exact recompute_jet (QUICSORT thr) (fun x => x.b.r) (fun h hh hs => (k h hh hs).2.2.1.2.1)
      (q := -c ^ 3 / 120 * quicR ^ 5) (r := c ^ 4 / 720 * quicR ^ 6)
      (fun h => by simp only [QUICSORT, quicsortEval, quicsortTay, quicPows, List.map_cons, List.map_nil, List.zipWith_cons_cons, List.zipWith_nil_left, polyval6]; ring)
  · exact recompute_jet (QUICSORT thr) (fun x => x.b.one) (fun h hh hs => (k h hh hs).2.2.1.2.2)
      (q := -c ^ 3 / 120 * 1 ^ 5) (r := c ^ 4 / 720 * 1 ^ 6)
      (fun h => by simp only [QUICSORT, quicsortEval, quicsortTay, quicPows, List.map_cons, List.map_nil, List.zipWith_cons_cons, List.zipWith_nil_left, polyval6]; ring)
  · exact recompute_jet (QUICSORT thr) (fun x => x.aThird) (fun h hh hs => (k h hh hs).2.2.2.1)
      (q := -c ^ 3 / 1944) (r := c ^ 4 / 29160)
      (fun h => by simp only [QUICSORT, quicsortEval, quicsortTay, polyval6]; ring)
  · exact recompute_jet (QUICSORT thr) (fun x => x.aDivH) (fun h hh hs => (k h hh hs).2.2.2.2)
      (q := c ^ 4 / 120) (r := -c ^ 5 / 720)
      (fun h => by simp only [QUICSORT, quicsortEval, quicsortTay, polyval6]; ring)

end

/-! ### ALIGN -/

section
variable {d : ℕ} (T : LangevinTerms d) (x0 v0 : RVec d) (L : RVec d →L[ℝ] RVec d)
  (Q : RVec d →L[ℝ] RVec d →L[ℝ] RVec d) (W H K : RVec d)

noncomputable def alignX : ℕ → ℝ → RVec d
  | 2, _ => v0
  | 3, _ => mulC T.rho ((1 / 2 : ℝ) • W + H)
  | 4, _ => (1 / 2 : ℝ) • cA T x0 v0
  | 5, _ => -mulC T.gamma (mulC T.rho ((1 / 6 : ℝ) • W + (1 / 2 : ℝ) • H))
  | _, _ => 0

noncomputable def alignV : ℕ → ℝ → RVec d
  | 0, _ => v0
  | 1, _ => mulC T.rho W
  | 2, _ => cA T x0 v0
  | 3, _ => -mulC T.gamma (mulC T.rho ((1 / 2 : ℝ) • W + H))
  | 4, _ => (1 / 2 : ℝ) • cB T x0 v0 L
  | 5, _ => mulC T.gamma (mulC T.gamma (mulC T.rho ((1 / 6 : ℝ) • W + (1 / 2 : ℝ) • H)))
      - (1 / 2 : ℝ) • mulC T.u (L (mulC T.rho ((1 / 2 : ℝ) • W + H)))
  | _, _ => 0

variable {T x0 v0 L Q W H K}

theorem align_step_jet (thr : ℝ) (hγ : ∀ i, T.gamma i ≠ 0) (hF : HasJet2 T.gradF x0 L Q) :
    let o := fun ε : ℝ => alignCompute (ε ^ 2) ⟨ε • W, ε • H, ε • K⟩ x0 v0 T
      (fun i => (ALIGN thr).recompute (ε ^ 2) (T.gamma i)) (some (T.gradF x0))
    Jet 6 (fun ε _ => (o ε).x - x0) (alignX T x0 v0 W H) ∧ Jet 6 (fun ε _ => (o ε).v) (alignV T x0 v0 L W H) := by
  intro o
  have hx : Jet 6 (fun ε _ => (o ε).x - x0) (alignX T x0 v0 W H) := by
    refine Jet.pi fun i => ?_
    obtain ⟨-, ha1, hb1, -, hchh⟩ := align_coef_jets (hγ i) thr
    have h6 : 6 ≤ 8 := by norm_num
    have j1 := (ha1.mono h6).mul (jet_lin 6 (v0 i) 0)
    have j2 := (hb1.mono h6).mul ((Jet.const 4 (-(T.u i * T.gradF x0 i))).shift 2)
    have j3 := (hb1.mono h6).mul (jet_lin 6 0 (T.rho i * W i))
    have j4 := (hchh.mono h6).mul (jet_lin 6 0 (T.rho i * H i))
    refine (((j1.add j2).add j3).add j4).congr' (fun ε u => ?_) fun k hk u => ?_
    · simp only [o, alignCompute, Option.getD_some, Pi.sub_apply, Pi.smul_apply, smul_eq_mul]
      ring
    · interval_cases k <;> simp [Finset.sum_range_succ, evenCoef, linCoef, alignX, cA] <;> ring
  refine ⟨hx, ?_⟩
  have hX2 : UO 2 (fun ε (_ : ℝ) => (o ε).x - x0) :=
    (hx.mono (show 2 ≤ 6 by norm_num)).rem.congr' fun ε u => by simp [Finset.sum_range_succ, alignX]
  have hf := hF.jet le_rfl hX2 hx (fun _ => rfl) (fun _ => rfl)
  refine Jet.pi fun i => ?_
  obtain ⟨hbeta, ha1, hb1, haa, hchh⟩ := align_coef_jets (hγ i) thr
  have h6 : 6 ≤ 8 := by norm_num
  have j1 := (hbeta.mono h6).mul (jet_lin 6 (v0 i) 0)
  have j2 := ((ha1.mono h6).sub (hb1.mono h6)).mul (jet_lin 6 (-(T.u i * T.gradF x0 i)) 0)
  have j3 := ((hb1.mono h6).mul (hf.proj i)).const_mul (-T.u i)
  have j4 := (haa.mono h6).mul (jet_lin 6 0 (T.rho i * W i))
  have j5 := (hchh.mono h6).mul (jet_lin 6 0 (-(T.rho i * T.gamma i * H i)))
  refine ((((j1.add j2).add j3).add j4).add j5).congr' (fun ε u => ?_) fun k hk u => ?_
  · simp only [o, alignCompute, Option.getD_some, Pi.sub_apply, Pi.smul_apply, smul_eq_mul, add_sub_cancel]
    ring
  · interval_cases k <;>
      simp [Finset.sum_range_succ, evenCoef, linCoef, alignX, alignV, forceCoef, cA, cB] <;> ring

end

/-! ### ShOULD -/

section
variable {d : ℕ} (T : LangevinTerms d) (x0 v0 : RVec d) (L : RVec d →L[ℝ] RVec d)
  (Q : RVec d →L[ℝ] RVec d →L[ℝ] RVec d) (W H K : RVec d)

/-- The midpoint. -/
noncomputable def shouldMid : ℕ → ℝ → RVec d
  | 2, _ => (1 / 2 : ℝ) • v0
  | 3, _ => mulC T.rho ((1 / 2 : ℝ) • (H + (6 : ℝ) • K) + (1 / 8 : ℝ) • (W - (12 : ℝ) • K))
  | 4, _ => (1 / 8 : ℝ) • cA T x0 v0
  | 5, _ => -mulC T.gamma (mulC T.rho ((1 / 8 : ℝ) • (H + (6 : ℝ) • K) + (1 / 48 : ℝ) • (W - (12 : ℝ) • K)))
  | _, _ => 0

noncomputable def shouldX : ℕ → ℝ → RVec d
  | 2, _ => v0
  | 3, _ => mulC T.rho ((1 / 2 : ℝ) • W + H)
  | 4, _ => (1 / 2 : ℝ) • cA T x0 v0
  | 5, _ => -mulC T.gamma (mulC T.rho ((1 / 6 : ℝ) • W + (1 / 2 : ℝ) • H + K))
  | 6, _ => (1 / 6 : ℝ) • cB T x0 v0 L
  | 7, _ => mulC T.gamma (mulC T.gamma (mulC T.rho ((1 / 24 : ℝ) • W + (3 / 20 : ℝ) • H + (1 / 2 : ℝ) • K)))
      - (1 / 3 : ℝ) • mulC T.u (L (shouldMid T x0 v0 W H K 3 0))
  | _, _ => 0

noncomputable def shouldV : ℕ → ℝ → RVec d
  | 0, _ => v0
  | 1, _ => mulC T.rho W
  | 2, _ => cA T x0 v0
  | 3, _ => -mulC T.gamma (mulC T.rho ((1 / 2 : ℝ) • W + H))
  | 4, _ => (1 / 2 : ℝ) • cB T x0 v0 L
  | 5, _ => m5 T L ((1 / 6 : ℝ) • W + (1 / 2 : ℝ) • H + K)
  | 6, _ => (1 / 6 : ℝ) • cE T x0 v0 L Q
  | 7, _ => -mulC T.gamma (mulC T.gamma (mulC T.gamma (mulC T.rho
        ((1 / 24 : ℝ) • W + (3 / 20 : ℝ) • H + (1 / 2 : ℝ) • K))))
      - (2 / 3 : ℝ) • mulC T.u (L (shouldMid T x0 v0 W H K 5 0) + (1 / 2 : ℝ) • (Q v0 (shouldMid T x0 v0 W H K 3 0)
        + Q (shouldMid T x0 v0 W H K 3 0) v0))
      + (1 / 3 : ℝ) • mulC T.gamma (mulC T.u (L (shouldMid T x0 v0 W H K 3 0)))
      - (1 / 6 : ℝ) • mulC T.u (L (shouldX T x0 v0 L W H K 5 0) + Q v0 (shouldX T x0 v0 L W H K 3 0)
        + Q (shouldX T x0 v0 L W H K 3 0) v0)
  | _, _ => 0

variable {T x0 v0 L Q W H K}

theorem shouldMid_const : ∃ M : ℕ → RVec d, (∀ k u, shouldMid T x0 v0 W H K k u = M k) ∧ M 2 = (1 / 2 : ℝ) • v0 :=
  ⟨fun k => shouldMid T x0 v0 W H K k 0, fun k u => by rcases k with _ | _ | _ | _ | _ | _ | k <;> rfl, rfl⟩

theorem shouldX_const : ∃ M : ℕ → RVec d, (∀ k u, shouldX T x0 v0 L W H K k u = M k) ∧ M 2 = v0 :=
  ⟨fun k => shouldX T x0 v0 L W H K k 0, fun k u => by rcases k with _ | _ | _ | _ | _ | _ | _ | _ | k <;> rfl, rfl⟩

set_option maxHeartbeats 1000000 in
theorem should_step_jet (thr : ℝ) (hγ : ∀ i, T.gamma i ≠ 0) (hF : HasJet2 T.gradF x0 L Q) :
    let o := fun ε : ℝ => shouldCompute (ε ^ 2) ⟨ε • W, ε • H, ε • K⟩ x0 v0 T
      (fun i => (ShOULD thr).recompute (ε ^ 2) (T.gamma i)) (some (T.gradF x0))
    Jet 8 (fun ε _ => (o ε).x - x0) (shouldX T x0 v0 L W H K) ∧
    Jet 8 (fun ε _ => (o ε).v) (shouldV T x0 v0 L Q W H K) := by
  intro o
  let x1 : ℝ → RVec d := fun ε i => x0 i
    + ((ShOULD thr).recompute (ε ^ 2) (T.gamma i)).aHalf * (v0 i + T.rho i * (ε * H i + 6 * (ε * K i)))
    + ((ShOULD thr).recompute (ε ^ 2) (T.gamma i)).bHalf
      * (-(T.u i * ε ^ 2) * T.gradF x0 i + T.rho i * (ε * W i - 12 * (ε * K i)))
  have hm : Jet 6 (fun ε _ => x1 ε - x0) (shouldMid T x0 v0 W H K) := by
    refine Jet.pi fun i => ?_
    obtain ⟨-, ha, hb, -⟩ := should_coef_jets (hγ i) thr
    have h6 : 6 ≤ 8 := by norm_num
    have j1 := (ha.mono h6).mul (jet_lin 6 (v0 i) (T.rho i * (H i + 6 * K i)))
    have j2 := (hb.mono h6).mul ((Jet.const 4 (-(T.u i * T.gradF x0 i))).shift 2)
    have j3 := (hb.mono h6).mul (jet_lin 6 0 (T.rho i * (W i - 12 * K i)))
    refine ((j1.add j2).add j3).congr' (fun ε u => ?_) fun k hk u => ?_
    · simp only [x1, Pi.sub_apply, smul_eq_mul]
      ring
    · interval_cases k <;> simp [Finset.sum_range_succ, evenCoef, linCoef, shouldMid, cA] <;> ring
  have hm2 : UO 2 (fun ε (_ : ℝ) => x1 ε - x0) :=
    (hm.mono (show 2 ≤ 6 by norm_num)).rem.congr' fun ε u => by simp [Finset.sum_range_succ, shouldMid]
  have hf1 := hF.jet le_rfl hm2 hm (fun _ => rfl) (fun _ => rfl)
  have hx : Jet 8 (fun ε _ => (o ε).x - x0) (shouldX T x0 v0 L W H K) := by
    refine Jet.pi fun i => ?_
    obtain ⟨-, -, -, -, ha1, hb1, -, hchh, hckk⟩ := should_coef_jets (hγ i) thr
    have j1 := ha1.mul (jet_lin 8 (v0 i) 0)
    have j2 := hb1.mul (((Jet.const 6 (1 / 3 * T.gradF x0 i)).add ((hf1.proj i).const_mul (2 / 3))).shift 2)
    have j3 := hb1.mul (jet_lin 8 0 (T.rho i * W i))
    have j4 := hchh.mul (jet_lin 8 0 (T.rho i * H i))
    have j5 := hckk.mul (jet_lin 8 0 (T.rho i * K i))
    refine ((((j1.sub (j2.const_mul (T.u i))).add j3).add j4).add j5).congr' (fun ε u => ?_) fun k hk u => ?_
    · simp only [o, shouldCompute, Option.getD_some, Pi.sub_apply, Pi.smul_apply, smul_eq_mul, add_sub_cancel]
      ring
    · by_cases h7 : k = 7
      · subst h7
        obtain ⟨M, hM, hM2⟩ := shouldMid_const (T := T) (x0 := x0) (v0 := v0) (W := W) (H := H) (K := K)
        simp [Finset.sum_range_succ, evenCoef, linCoef, shouldX, forceCoef, hM, hM2]
        ring
      · have : k < 7 := by omega
        interval_cases k <;>
          simp [Finset.sum_range_succ, evenCoef, linCoef, shouldX, shouldMid, forceCoef, cA, cB] <;> ring
  refine ⟨hx, ?_⟩
  have hX2 : UO 2 (fun ε (_ : ℝ) => (o ε).x - x0) :=
    (hx.mono (show 2 ≤ 8 by norm_num)).rem.congr' fun ε u => by simp [Finset.sum_range_succ, shouldX]
  have hf2 := hF.jet le_rfl hX2 (hx.mono (show 6 ≤ 8 by norm_num)) (fun _ => rfl) (fun _ => rfl)
  refine Jet.pi fun i => ?_
  obtain ⟨hbh, -, -, hb1, -, -, haa, hchh, hckk⟩ := should_coef_jets (hγ i) thr
  have j1 := hb1.mul (jet_lin 8 (v0 i) 0)
  have j2 := hb1.mul ((Jet.const 6 (1 / 6 * T.gradF x0 i)).shift 2)
  have j3 := hbh.mul (((hf1.proj i).const_mul (2 / 3)).shift 2)
  have j4 := ((hf2.proj i).const_mul (1 / 6)).shift 2
  have j5 := haa.mul (jet_lin 8 0 (T.rho i * W i))
  have j6 := hchh.mul (jet_lin 8 0 (T.rho i * T.gamma i * H i))
  have j7 := hckk.mul (jet_lin 8 0 (T.rho i * T.gamma i * K i))
  refine ((((j1.sub (((j2.add j3).add j4).const_mul (T.u i))).add j5).sub j6).sub j7).congr' (fun ε u => ?_)
    fun k hk u => ?_
  · simp only [o, shouldCompute, Option.getD_some, Pi.sub_apply, Pi.smul_apply, smul_eq_mul, add_sub_cancel]
    ring
  · by_cases h7 : k = 7
    · subst h7
      obtain ⟨M, hM, hM2⟩ := shouldMid_const (T := T) (x0 := x0) (v0 := v0) (W := W) (H := H) (K := K)
      obtain ⟨N, hN, hN2⟩ := shouldX_const (T := T) (x0 := x0) (v0 := v0) (L := L) (W := W) (H := H) (K := K)
      simp [Finset.sum_range_succ, evenCoef, linCoef, shouldV, forceCoef, hM, hM2, hN, hN2]
      ring
    · have : k < 7 := by omega
      interval_cases k <;>
        simp [Finset.sum_range_succ, evenCoef, linCoef, shouldX, shouldV, shouldMid, forceCoef, cA, cB, cE, m5]
      all_goals first
        | ring1
        | (left; ring1)

end

/-! ### QUICSORT -/

section
variable {d : ℕ} (T : LangevinTerms d) (x0 v0 : RVec d) (L : RVec d →L[ℝ] RVec d)
  (Q : RVec d →L[ℝ] RVec d →L[ℝ] RVec d) (W H K : RVec d)

/-- The two stages; `z` is `l` or `r`, `g` what is subtracted from the position at order `ε⁴`. -/
noncomputable def quicStage (z : ℝ) (g : RVec d) : ℕ → ℝ → RVec d
  | 2, _ => z • v0
  | 3, _ => mulC T.rho (z • (H + (6 : ℝ) • K) + (z ^ 2 / 2) • (W - (12 : ℝ) • K))
  | 4, _ => -(z ^ 2 / 2) • mulC T.gamma v0 - g
  | 5, _ => -mulC T.gamma (mulC T.rho ((z ^ 2 / 2) • (H + (6 : ℝ) • K) + (z ^ 3 / 6) • (W - (12 : ℝ) • K)))
  | _, _ => 0

noncomputable def quicX : ℕ → ℝ → RVec d
  | 2, _ => v0
  | 3, _ => mulC T.rho ((1 / 2 : ℝ) • W + H)
  | 4, _ => (1 / 2 : ℝ) • cA T x0 v0
  | 5, _ => -mulC T.gamma (mulC T.rho ((1 / 6 : ℝ) • W + (1 / 2 : ℝ) • H + K))
  | 6, _ => (1 / 6 : ℝ) • cB T x0 v0 L
  | 7, _ => mulC T.gamma (mulC T.gamma (mulC T.rho
        ((1 / 6 : ℝ) • (H + (6 : ℝ) • K) + (1 / 24 : ℝ) • (W - (12 : ℝ) • K))))
      - (1 / 2 : ℝ) • mulC T.u (L (quicR • quicStage T v0 W H K quicL 0 3 0 + quicL • quicStage T v0 W H K quicR 0 3 0))
  | _, _ => 0

noncomputable def quicV : ℕ → ℝ → RVec d
  | 0, _ => v0
  | 1, _ => mulC T.rho W
  | 2, _ => cA T x0 v0
  | 3, _ => -mulC T.gamma (mulC T.rho ((1 / 2 : ℝ) • W + H))
  | 4, _ => (1 / 2 : ℝ) • cB T x0 v0 L
  | 5, _ => m5 T L ((1 / 6 : ℝ) • W + (1 / 2 : ℝ) • H + K)
  | 6, _ => (1 / 6 : ℝ) • cE T x0 v0 L Q
  | 7, _ => -mulC T.gamma (mulC T.gamma (mulC T.gamma (mulC T.rho
        ((1 / 6 : ℝ) • (H + (6 : ℝ) • K) + (1 / 24 : ℝ) • (W - (12 : ℝ) • K)))))
      + (1 / 2 : ℝ) • mulC T.gamma (mulC T.u (L (quicR • quicStage T v0 W H K quicL 0 3 0
        + quicL • quicStage T v0 W H K quicR 0 3 0)))
      - (1 / 2 : ℝ) • mulC T.u (L (quicStage T v0 W H K quicL 0 5 0) + L (quicStage T v0 W H K quicR 0 5 0)
        + quicL • (Q v0 (quicStage T v0 W H K quicL 0 3 0) + Q (quicStage T v0 W H K quicL 0 3 0) v0)
        + quicR • (Q v0 (quicStage T v0 W H K quicR 0 3 0) + Q (quicStage T v0 W H K quicR 0 3 0) v0))
  | _, _ => 0

theorem quic_sum : quicL = 1 - quicR := by unfold quicL quicR; ring

theorem quic_sq : quicR ^ 2 = quicR - 1 / 6 := by
  unfold quicR
  have : Real.sqrt 3 ^ 2 = 3 := Real.sq_sqrt (by norm_num)
  ring_nf
  rw [this]
  ring

variable {T x0 v0 L Q W H K}

theorem quicStage_const (z : ℝ) (g : RVec d) : ∃ M : ℕ → RVec d,
    (∀ k u, quicStage T v0 W H K z g k u = M k - if k = 4 then g else 0) ∧
    (∀ k u, quicStage T v0 W H K z 0 k u = M k) ∧ M 2 = z • v0 := by
  refine ⟨fun k => quicStage T v0 W H K z 0 k 0, fun k u => ?_, fun k u => ?_, rfl⟩
  · rcases k with _ | _ | _ | _ | _ | _ | k <;> simp [quicStage]
  · rcases k with _ | _ | _ | _ | _ | _ | k <;> rfl

set_option maxHeartbeats 1000000 in
theorem quicsort_step_jet (thr : ℝ) (hγ : ∀ i, T.gamma i ≠ 0) (hF : HasJet2 T.gradF x0 L Q) :
    let o := fun ε : ℝ => quicsortCompute (ε ^ 2) ⟨ε • W, ε • H, ε • K⟩ x0 v0 T
      (fun i => (QUICSORT thr).recompute (ε ^ 2) (T.gamma i)) none
    Jet 8 (fun ε _ => (o ε).x - x0) (quicX T x0 v0 L W H K) ∧
    Jet 8 (fun ε _ => (o ε).v) (quicV T x0 v0 L Q W H K) := by
  intro o
  let co := fun (ε : ℝ) (i : Fin d) => (QUICSORT thr).recompute (ε ^ 2) (T.gamma i)
  let x1 : ℝ → RVec d := fun ε i => x0 i + (co ε i).a.l * (v0 i + T.rho i * (ε * H i + 6 * (ε * K i)))
    + (co ε i).b.l * (T.rho i * (ε * W i - 12 * (ε * K i)))
  have h6 : 6 ≤ 8 := by norm_num
  have h1 : Jet 6 (fun ε _ => x1 ε - x0) (quicStage T v0 W H K quicL 0) := by
    refine Jet.pi fun i => ?_
    obtain ⟨-, ⟨ha, -, -⟩, ⟨hb, -, -⟩, -⟩ := quicsort_coef_jets (hγ i) thr
    have j1 := (ha.mono h6).mul (jet_lin 6 (v0 i) (T.rho i * (H i + 6 * K i)))
    have j3 := (hb.mono h6).mul (jet_lin 6 0 (T.rho i * (W i - 12 * K i)))
    refine (j1.add j3).congr' (fun ε u => ?_) fun k hk u => ?_
    · simp only [x1, co, Pi.sub_apply, smul_eq_mul]
      ring
    · interval_cases k <;> simp [Finset.sum_range_succ, evenCoef, linCoef, quicStage] <;> ring
  have h12 : UO 2 (fun ε (_ : ℝ) => x1 ε - x0) :=
    (h1.mono (show 2 ≤ 6 by norm_num)).rem.congr' fun ε u => by simp [Finset.sum_range_succ, quicStage]
  have hf1 := hF.jet le_rfl h12 h1 (fun _ => rfl) (fun _ => rfl)
  let x2 : ℝ → RVec d := fun ε i => x0 i + (co ε i).a.r * (v0 i + T.rho i * (ε * H i + 6 * (ε * K i)))
    + (co ε i).b.r * (T.rho i * (ε * W i - 12 * (ε * K i))) - (co ε i).aThird * (T.gradF (x1 ε) i * (T.u i * ε ^ 2))
  have h2 : Jet 6 (fun ε _ => x2 ε - x0)
      (quicStage T v0 W H K quicR ((1 / 3 : ℝ) • mulC T.u (T.gradF x0))) := by
    refine Jet.pi fun i => ?_
    obtain ⟨-, ⟨-, ha, -⟩, ⟨-, hb, -⟩, ht, -⟩ := quicsort_coef_jets (hγ i) thr
    have j1 := (ha.mono h6).mul (jet_lin 6 (v0 i) (T.rho i * (H i + 6 * K i)))
    have j3 := (hb.mono h6).mul (jet_lin 6 0 (T.rho i * (W i - 12 * K i)))
    have j4 := ((ht.mul ((hf1.proj i).shift 2)).const_mul (T.u i)).mono h6
    refine ((j1.add j3).sub j4).congr' (fun ε u => ?_) fun k hk u => ?_
    · simp only [x2, co, Pi.sub_apply, smul_eq_mul, add_sub_cancel]
      ring
    · interval_cases k <;> simp [Finset.sum_range_succ, evenCoef, linCoef, quicStage, forceCoef] <;> ring
  have h22 : UO 2 (fun ε (_ : ℝ) => x2 ε - x0) :=
    (h2.mono (show 2 ≤ 6 by norm_num)).rem.congr' fun ε u => by simp [Finset.sum_range_succ, quicStage]
  have hf2 := hF.jet le_rfl h22 h2 (fun _ => rfl) (fun _ => rfl)
  have hs2 := quic_sq
  have hs3 : quicR ^ 3 = (5 / 6) * quicR - 1 / 6 := by
    calc quicR ^ 3 = quicR * quicR ^ 2 := by ring
      _ = quicR * (quicR - 1 / 6) := by rw [hs2]
      _ = quicR ^ 2 - quicR / 6 := by ring
      _ = _ := by rw [hs2]; ring
  constructor
  · refine Jet.pi fun i => ?_
    obtain ⟨-, ⟨hal, har, ha1⟩, ⟨-, -, hb1⟩, -, -⟩ := quicsort_coef_jets (hγ i) thr
    have j1 := ha1.mul (jet_lin 8 (v0 i) (T.rho i * (H i + 6 * K i)))
    have j2 := hb1.mul (jet_lin 8 0 (T.rho i * (W i - 12 * K i)))
    have j3 := har.mul ((hf1.proj i).shift 2)
    have j4 := hal.mul ((hf2.proj i).shift 2)
    refine ((j1.add j2).sub ((j3.add j4).const_mul (1 / 2 * T.u i))).congr' (fun ε u => ?_) fun k hk u => ?_
    · simp only [o, quicsortCompute, x1, x2, co, Pi.sub_apply, Pi.smul_apply, smul_eq_mul, add_sub_cancel]
      ring
    · by_cases h7 : k = 7
      · subst h7
        generalize (1 / 3 : ℝ) • mulC T.u (T.gradF x0) = g
        obtain ⟨M, -, hM, hM2⟩ := quicStage_const (T := T) (v0 := v0) (W := W) (H := H) (K := K) quicL 0
        obtain ⟨N, hN, hN0, hN2⟩ := quicStage_const (T := T) (v0 := v0) (W := W) (H := H) (K := K) quicR
          g
        simp [Finset.sum_range_succ, evenCoef, linCoef, quicX, forceCoef, hM, hN, hN0]
        ring
      · have : k < 7 := by omega
        interval_cases k <;>
          simp [Finset.sum_range_succ, evenCoef, linCoef, quicX, quicStage, forceCoef, cA, cB, quic_sum]
        all_goals first
          | ring1
          | (ring_nf; simp only [hs2, hs3]; ring1)
  · refine Jet.pi fun i => ?_
    obtain ⟨⟨hbl, hbr, hb1⟩, -, -, -, hdh⟩ := quicsort_coef_jets (hγ i) thr
    have j1 := hb1.mul (jet_lin 8 (v0 i) (T.rho i * (H i + 6 * K i)))
    have j2 := hdh.mul (jet_lin 8 0 (T.rho i * (W i - 12 * K i)))
    have j3 := hbr.mul ((hf1.proj i).shift 2)
    have j4 := hbl.mul ((hf2.proj i).shift 2)
    have j5 := jet_lin 8 0 (T.rho i * (H i - 6 * K i))
    refine (((j1.add j2).sub ((j3.add j4).const_mul (1 / 2 * T.u i))).sub j5).congr' (fun ε u => ?_) fun k hk u => ?_
    · simp only [o, quicsortCompute, x1, x2, co, Pi.sub_apply, Pi.smul_apply, smul_eq_mul, add_sub_cancel]
      ring
    · by_cases h7 : k = 7
      · subst h7
        generalize (1 / 3 : ℝ) • mulC T.u (T.gradF x0) = g
        obtain ⟨M, -, hM, hM2⟩ := quicStage_const (T := T) (v0 := v0) (W := W) (H := H) (K := K) quicL 0
        obtain ⟨N, hN, hN0, hN2⟩ := quicStage_const (T := T) (v0 := v0) (W := W) (H := H) (K := K) quicR
          g
        simp [Finset.sum_range_succ, evenCoef, linCoef, quicV, forceCoef, hM, hM2, hN, hN0, hN2]
        ring
      · have : k < 7 := by omega
        interval_cases k <;>
          simp [Finset.sum_range_succ, evenCoef, linCoef, quicV, quicStage, forceCoef, cA, cB, cE, m5, quic_sum]
        all_goals first
          | ring1
          | (ring_nf; simp only [hs2, hs3]; ring1)

end
end Verif
