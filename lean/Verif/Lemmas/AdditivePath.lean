import Verif.Spec.AdditiveNoise
import Verif.Lemmas.SrkStep
import Mathlib.Analysis.Calculus.MeanValue
import Mathlib.Analysis.ODE.Gronwall

/-!
# Equations with additive noise, along a path: orders of magnitude that hold uniformly
-/

set_option linter.unusedSectionVars false

namespace Verif
open Set MeasureTheory

/-! ### Orders of magnitude -/

section
variable {ι E F : Type} [NormedAddCommGroup E] [NormedSpace ℝ E] [NormedAddCommGroup F] [NormedSpace ℝ F]

/-- `u` is at most a constant times `e^k θ^j`. -/
def Ord (e θ : ι → ℝ) (k j : ℕ) (u : ι → E) : Prop := ∃ C, 0 ≤ C ∧ ∀ i, ‖u i‖ ≤ C * (e i ^ k * θ i ^ j)

/-- The scales: `e` is positive and bounded, `θ` at least 1. -/
structure Scales (e θ : ι → ℝ) : Prop where
  pos : ∀ i, 0 < e i
  bdd : ∃ c, ∀ i, e i ≤ c
  one_le : ∀ i, 1 ≤ θ i

variable {e θ : ι → ℝ} {k j k' j' : ℕ} {u v : ι → E}

theorem Ord.mono (hs : Scales e θ) (h : Ord e θ k j u) (hk : k' ≤ k) (hj : j ≤ j') : Ord e θ k' j' u := by
  obtain ⟨C, hC, h⟩ := h
  obtain ⟨c, hc⟩ := hs.bdd
  refine ⟨C * |c| ^ (k - k'), by positivity, fun i => (h i).trans ?_⟩
  have he := (hs.pos i).le
  have h1 : e i ^ k ≤ |c| ^ (k - k') * e i ^ k' := by
    conv_lhs => rw [← Nat.sub_add_cancel hk, pow_add]
    exact mul_le_mul_of_nonneg_right (pow_le_pow_left₀ he ((hc i).trans (le_abs_self c)) _) (by positivity)
  have h2 : θ i ^ j ≤ θ i ^ j' := pow_le_pow_right₀ (hs.one_le i) hj
  have h0 : 0 ≤ θ i ^ j := pow_nonneg (zero_le_one.trans (hs.one_le i)) _
  calc C * (e i ^ k * θ i ^ j) ≤ C * ((|c| ^ (k - k') * e i ^ k') * θ i ^ j') :=
        mul_le_mul_of_nonneg_left (mul_le_mul h1 h2 h0 (by positivity)) hC
    _ = _ := by ring

theorem Ord.add (h : Ord e θ k j u) (h' : Ord e θ k j v) : Ord e θ k j (fun i => u i + v i) := by
  obtain ⟨C, hC, h⟩ := h
  obtain ⟨C', hC', h'⟩ := h'
  exact ⟨C + C', by positivity, fun i => (norm_add_le _ _).trans (by have := h i; have := h' i; linarith)⟩

theorem Ord.neg (h : Ord e θ k j u) : Ord e θ k j (fun i => -u i) := by
  obtain ⟨C, hC, h⟩ := h
  exact ⟨C, hC, fun i => by rw [norm_neg]; exact h i⟩

theorem Ord.sub (h : Ord e θ k j u) (h' : Ord e θ k j v) : Ord e θ k j (fun i => u i - v i) := by
  simpa only [sub_eq_add_neg] using h.add h'.neg

theorem Ord.zero : Ord e θ k j (fun _ => (0 : E)) := ⟨0, le_rfl, fun i => by simp⟩

theorem Ord.sum {κ : Type} (s : Finset κ) {u : κ → ι → E} (h : ∀ l ∈ s, Ord e θ k j (u l)) :
    Ord e θ k j (fun i => ∑ l ∈ s, u l i) := by
  classical
  induction s using Finset.induction_on with
  | empty => simpa using Ord.zero
  | insert l s hl ih =>
    simp only [Finset.sum_insert hl]
    exact (h l (Finset.mem_insert_self l s)).add (ih fun l' h' => h l' (Finset.mem_insert_of_mem h'))

theorem Ord.congr (h : Ord e θ k j u) (he : ∀ i, u i = v i) : Ord e θ k j v := by
  rwa [show v = u from funext fun i => (he i).symm]

/-- For products of any kind. -/
theorem Ord.bound {G : Type} [NormedAddCommGroup G] {u : ι → E} {v : ι → F} {w : ι → G} {c : ℝ} (hc : 0 ≤ c)
    (h : Ord e θ k j u) (h' : Ord e θ k' j' v) (hw : ∀ i, ‖w i‖ ≤ c * (‖u i‖ * ‖v i‖)) :
    Ord e θ (k + k') (j + j') w := by
  obtain ⟨C, hC, h⟩ := h
  obtain ⟨C', hC', h'⟩ := h'
  refine ⟨c * (C * C'), by positivity, fun i => (hw i).trans ?_⟩
  have h0 : 0 ≤ C * (e i ^ k * θ i ^ j) := (norm_nonneg _).trans (h i)
  calc c * (‖u i‖ * ‖v i‖) ≤ c * ((C * (e i ^ k * θ i ^ j)) * (C' * (e i ^ k' * θ i ^ j'))) :=
        mul_le_mul_of_nonneg_left (mul_le_mul (h i) (h' i) (norm_nonneg _) h0) hc
    _ = _ := by ring

theorem Ord.of_le {u : ι → E} {v : ι → F} {c : ℝ} (hc : 0 ≤ c) (h : Ord e θ k j v) (hu : ∀ i, ‖u i‖ ≤ c * ‖v i‖) :
    Ord e θ k j u := by
  obtain ⟨C, hC, h⟩ := h
  exact ⟨c * C, by positivity, fun i => (hu i).trans (by
    have := mul_le_mul_of_nonneg_left (h i) hc; linarith)⟩

theorem Ord.smul {c : ι → ℝ} (h : Ord e θ k j c) (h' : Ord e θ k' j' u) :
    Ord e θ (k + k') (j + j') (fun i => c i • u i) :=
  h.bound zero_le_one h' fun i => by rw [norm_smul, one_mul]

theorem Ord.const_smul (h : Ord e θ k j u) (c : ℝ) : Ord e θ k j (fun i => c • u i) :=
  h.of_le (norm_nonneg c) fun _ => (norm_smul c _).le

theorem Ord.norm (h : Ord e θ k j u) : Ord e θ k j (fun i => ‖u i‖) := by
  obtain ⟨C, hC, h⟩ := h
  exact ⟨C, hC, fun i => by rw [norm_norm]; exact h i⟩

theorem Ord.pow_scale (hs : Scales e θ) (k : ℕ) : Ord e θ k 0 (fun i => e i ^ k) :=
  ⟨1, zero_le_one, fun i => by
    rw [Real.norm_of_nonneg (pow_nonneg (hs.pos i).le k), pow_zero, mul_one, one_mul]⟩

end

/-! ### Taylor's formula -/

section
variable {E : Type} [NormedAddCommGroup E] [NormedSpace ℝ E] {f ft : ℝ → E → E} {fy : ℝ → E → E →L[ℝ] E}
  {fyy : ℝ → E → E →L[ℝ] E →L[ℝ] E} {a b L : ℝ}

theorem SmoothDrift.L_nonneg (h : SmoothDrift f ft fy fyy a b L) (hab : a ≤ b) : 0 ≤ L :=
  (ContinuousLinearMap.opNorm_nonneg _).trans (h.le1 a (left_mem_Icc.2 hab) 0)

theorem SmoothDrift.lip (h : SmoothDrift f ft fy fyy a b L) {t : ℝ} (ht : t ∈ Icc a b) (x x' : E) :
    ‖f t x - f t x'‖ ≤ L * ‖x - x'‖ :=
  Convex.norm_image_sub_le_of_norm_hasFDerivWithin_le (s := univ) (fun y _ => (h.deriv t ht y).hasFDerivWithinAt)
    (fun y _ => h.le1 t ht y) convex_univ (mem_univ _) (mem_univ _)

theorem SmoothDrift.time_var (h : SmoothDrift f ft fy fyy a b L) {s t : ℝ} (hs : s ∈ Icc a b) (ht : t ∈ Icc a b)
    (x : E) : ‖f t x - f s x‖ ≤ L * (1 + ‖x‖) * |t - s| := by
  have := Convex.norm_image_sub_le_of_norm_hasDerivWithin_le (f := fun r => f r x) (f' := fun r => ft r x)
    (fun r hr => h.time r hr x) (fun r hr => h.time_le r hr x) (convex_Icc a b) hs ht
  simpa using this

theorem SmoothDrift.time_taylor (h : SmoothDrift f ft fy fyy a b L) {s r : ℝ} (hs : s ∈ Icc a b) (hr : 0 ≤ r)
    (ht : s + r ∈ Icc a b) (x : E) : ‖f (s + r) x - f s x - r • ft s x‖ ≤ L * r ^ 2 * (1 + ‖x‖) := by
  have hab : a ≤ b := hs.1.trans hs.2
  have hL := h.L_nonneg hab
  have hsub : Icc s (s + r) ⊆ Icc a b := Icc_subset_Icc hs.1 ht.2
  have := Convex.norm_image_sub_le_of_norm_hasDerivWithin_le (f := fun q => f q x - (q - s) • ft s x)
    (f' := fun q => ft q x - ft s x) (s := Icc s (s + r)) (C := L * r * (1 + ‖x‖)) (x := s) (y := s + r)
    (fun q hq => by
      have h1 := (h.time q (hsub hq) x).mono hsub
      have h2 : HasDerivWithinAt (fun q => (q - s) • ft s x) ((1 : ℝ) • ft s x) (Icc s (s + r)) q :=
        (((hasDerivAt_id q).sub_const s).smul_const (ft s x)).hasDerivWithinAt
      rw [one_smul] at h2
      exact h1.sub h2)
    (fun q hq => by
      refine (h.time_lip s hs q (hsub hq) x).trans ?_
      refine mul_le_mul_of_nonneg_right (mul_le_mul_of_nonneg_left ?_ hL) (by positivity)
      rw [abs_of_nonneg (by linarith [hq.1])]
      linarith [hq.2])
    (convex_Icc _ _) (left_mem_Icc.2 (by linarith)) (right_mem_Icc.2 (by linarith))
  rw [add_sub_cancel_left, sub_self, zero_smul, sub_zero, Real.norm_of_nonneg hr] at this
  rw [show f (s + r) x - f s x - r • ft s x = f (s + r) x - r • ft s x - f s x by abel]
  refine this.trans (le_of_eq (by ring))

theorem SmoothDrift.space_taylor (h : SmoothDrift f ft fy fyy a b L) {s : ℝ} (hs : s ∈ Icc a b) (x δ : E) :
    ‖f s (x + δ) - f s x - fy s x δ - (1 / 2 : ℝ) • fyy s x δ δ‖ ≤ L * ‖δ‖ ^ 3 := by
  have hL := h.L_nonneg (hs.1.trans hs.2)
  have h1 : ∀ r ∈ Icc (0 : ℝ) 1, ‖fy s (x + r • δ) - fy s x - fyy s x (r • δ)‖ ≤ L * ‖δ‖ ^ 2 := by
    intro r hr
    have hseg : ∀ y ∈ segment ℝ x (x + r • δ), ‖y - x‖ ≤ ‖δ‖ := by
      intro y hy
      rw [segment_eq_image'] at hy
      obtain ⟨q, hq, rfl⟩ := hy
      simp only [add_sub_cancel_left, norm_smul]
      rw [Real.norm_of_nonneg hq.1, Real.norm_of_nonneg hr.1, ← mul_assoc]
      exact mul_le_of_le_one_left (norm_nonneg _) (mul_le_one₀ hq.2 hr.1 hr.2)
    have := Convex.norm_image_sub_le_of_norm_hasFDerivWithin_le' (f := fy s) (f' := fun y => fyy s y) (φ := fyy s x)
      (s := segment ℝ x (x + r • δ)) (C := L * ‖δ‖) (fun y _ => (h.deriv2 s hs y).hasFDerivWithinAt)
      (fun y hy => (h.lip2 s hs y x).trans (mul_le_mul_of_nonneg_left (hseg y hy) hL)) (convex_segment _ _)
      (left_mem_segment ℝ _ _) (right_mem_segment ℝ _ _)
    rw [add_sub_cancel_left] at this
    refine this.trans ?_
    rw [norm_smul, Real.norm_of_nonneg hr.1, pow_two, ← mul_assoc L]
    exact mul_le_mul_of_nonneg_left (mul_le_of_le_one_left (norm_nonneg δ) hr.2) (mul_nonneg hL (norm_nonneg δ))
  have hd : ∀ r ∈ Icc (0 : ℝ) 1, HasDerivWithinAt
      (fun r : ℝ => f s (x + r • δ) - r • fy s x δ - (r ^ 2 / 2) • fyy s x δ δ)
      ((fy s (x + r • δ) - fy s x - fyy s x (r • δ)) δ) (Icc 0 1) r := by
    intro r _
    have d0 : HasDerivAt (fun r : ℝ => x + r • δ) δ r := by
      simpa using ((hasDerivAt_id r).smul_const δ).const_add x
    have d1 := (h.deriv s hs (x + r • δ)).comp_hasDerivAt r d0
    have d2 : HasDerivAt (fun r : ℝ => r • fy s x δ) (fy s x δ) r := by
      simpa using (hasDerivAt_id r).smul_const (fy s x δ)
    have d3 : HasDerivAt (fun r : ℝ => (r ^ 2 / 2) • fyy s x δ δ) (r • fyy s x δ δ) r := by
      have : HasDerivAt (fun r : ℝ => r ^ 2 / 2) r r := by
        simpa using (hasDerivAt_pow 2 r).div_const 2
      exact this.smul_const _
    have := ((d1.sub d2).sub d3).hasDerivWithinAt (s := Icc 0 1)
    refine this.congr_deriv ?_
    simp
  have := norm_image_sub_le_of_norm_deriv_le_segment_01' hd (C := L * ‖δ‖ ^ 3) (fun r hr => by
    refine (ContinuousLinearMap.le_opNorm _ _).trans ?_
    rw [pow_succ, ← mul_assoc]
    exact mul_le_mul_of_nonneg_right (h1 r ⟨hr.1, hr.2.le⟩) (norm_nonneg _))
  simp only [one_smul, zero_smul, add_zero, one_pow, sub_zero] at this
  rw [show (0 : ℝ) ^ 2 / 2 = 0 by norm_num, zero_smul, sub_zero] at this
  rw [show f s (x + δ) - f s x - fy s x δ - (1 / 2 : ℝ) • fyy s x δ δ
    = f s (x + δ) - fy s x δ - (1 / 2 : ℝ) • fyy s x δ δ - f s x by abel]
  exact this

theorem SmoothDrift.taylor (h : SmoothDrift f ft fy fyy a b L) {s r : ℝ} (hs : s ∈ Icc a b) (hr : 0 ≤ r)
    (ht : s + r ∈ Icc a b) (x δ : E) :
    ‖f (s + r) (x + δ) - (f s x + r • ft s x + fy s x δ + (1 / 2 : ℝ) • fyy s x δ δ)‖
      ≤ L * (r ^ 2 * (1 + ‖x‖ + ‖δ‖) + r * ‖δ‖ + ‖δ‖ ^ 3) := by
  have hL := h.L_nonneg (hs.1.trans hs.2)
  have h1 := h.time_taylor hs hr ht (x + δ)
  have h2 := h.space_taylor hs x δ
  have h3 := h.mixed s hs (x + δ) x
  rw [add_sub_cancel_left] at h3
  have e : f (s + r) (x + δ) - (f s x + r • ft s x + fy s x δ + (1 / 2 : ℝ) • fyy s x δ δ)
      = (f (s + r) (x + δ) - f s (x + δ) - r • ft s (x + δ)) + r • (ft s (x + δ) - ft s x)
        + (f s (x + δ) - f s x - fy s x δ - (1 / 2 : ℝ) • fyy s x δ δ) := by
    rw [smul_sub]; abel
  rw [e]
  refine (norm_add₃_le).trans ?_
  rw [norm_smul, Real.norm_of_nonneg hr]
  have h4 : L * r ^ 2 * (1 + ‖x + δ‖) ≤ L * r ^ 2 * (1 + ‖x‖ + ‖δ‖) := by
    refine mul_le_mul_of_nonneg_left ?_ (by positivity)
    have := norm_add_le x δ; linarith
  have h5 := mul_le_mul_of_nonneg_left h3 hr
  calc _ ≤ L * r ^ 2 * (1 + ‖x‖ + ‖δ‖) + r * (L * ‖δ‖) + L * ‖δ‖ ^ 3 := by
        have := h1.trans h4; linarith
    _ = _ := by ring

/-- The size of the drift. -/
theorem SmoothDrift.growth (h : SmoothDrift f ft fy fyy a b L) (hab : a ≤ b) {t : ℝ} (ht : t ∈ Icc a b) (x : E) :
    ‖f t x‖ ≤ (‖f a 0‖ + L * (b - a) + L) * (1 + ‖x‖) := by
  have hL := h.L_nonneg hab
  have h1 := h.lip ht x 0
  have h2 := h.time_var (left_mem_Icc.2 hab) ht (0 : E)
  rw [sub_zero] at h1
  rw [norm_zero, add_zero, mul_one, abs_of_nonneg (by linarith [ht.1])] at h2
  have h3 : ‖f t x‖ ≤ ‖f t x - f t 0‖ + ‖f t 0 - f a 0‖ + ‖f a 0‖ := by
    have : f t x = (f t x - f t 0) + (f t 0 - f a 0) + f a 0 := by abel
    calc ‖f t x‖ = ‖(f t x - f t 0) + (f t 0 - f a 0) + f a 0‖ := by rw [← this]
      _ ≤ _ := norm_add₃_le
  have h4 : L * (t - a) ≤ L * (b - a) := mul_le_mul_of_nonneg_left (by linarith [ht.2]) hL
  have h5 : 0 ≤ (‖f a 0‖ + L * (b - a)) * ‖x‖ :=
    mul_nonneg (add_nonneg (norm_nonneg _) (mul_nonneg hL (by linarith))) (norm_nonneg _)
  nlinarith [norm_nonneg x]

/-- **One evaluation of the drift**, near `X`, up to third order. -/
theorem SmoothDrift.ord {ι : Type} {e θ : ι → ℝ} (hs : Scales e θ) (h : SmoothDrift f ft fy fyy a b L) (hab : a ≤ b)
    {s r τ : ι → ℝ} {X δ ν : ι → E} (hsI : ∀ i, s i ∈ Icc a b) (hr0 : ∀ i, 0 ≤ r i) (hsr : ∀ i, s i + r i ∈ Icc a b)
    (hX : ∀ i, 1 + ‖X i‖ ≤ θ i) (hr : Ord e θ 2 0 r) (hτ : Ord e θ 2 0 τ) (hν : Ord e θ 1 1 ν)
    (hδ : Ord e θ 3 1 (fun i => δ i - ν i - τ i • f (s i) (X i))) :
    Ord e θ 3 3 (fun i => f (s i + r i) (X i + δ i) - (f (s i) (X i) + r i • ft (s i) (X i)
      + fy (s i) (X i) (ν i + τ i • f (s i) (X i)) + (1 / 2 : ℝ) • fyy (s i) (X i) (ν i) (ν i))) := by
  have hL := h.L_nonneg hab
  have hXo : Ord e θ 0 1 (fun i => 1 + ‖X i‖) := ⟨1, zero_le_one, fun i => by
    rw [Real.norm_of_nonneg (by positivity), pow_zero, pow_one, one_mul, one_mul]; exact hX i⟩
  have hf0 : Ord e θ 0 1 (fun i => f (s i) (X i)) := hXo.of_le (c := ‖f a 0‖ + L * (b - a) + L)
    (add_nonneg (add_nonneg (norm_nonneg _) (mul_nonneg hL (by linarith))) hL) fun i => by
      rw [Real.norm_of_nonneg (by positivity)]; exact h.growth hab (hsI i) _
  have hτf : Ord e θ 2 1 (fun i => τ i • f (s i) (X i)) := hτ.smul hf0
  have hd1 : Ord e θ 2 1 (fun i => δ i - ν i) :=
    ((hδ.mono hs (k' := 2) (by omega) le_rfl).add hτf).congr fun i => by abel
  have hd : Ord e θ 1 1 δ := ((hd1.mono hs (k' := 1) (by omega) le_rfl).add hν).congr fun i => by abel
  -- Taylor's remainder
  have r1 : Ord e θ 3 3 (fun i => r i ^ 2 * (1 + ‖X i‖ + ‖δ i‖) + r i * ‖δ i‖ + ‖δ i‖ ^ 3) := by
    have q1 : Ord e θ 4 0 (fun i => r i ^ 2) := hr.bound (w := fun i => r i ^ 2) zero_le_one hr fun i => by
      rw [norm_pow, pow_two, one_mul]
    have q2 : Ord e θ 0 1 (fun i => 1 + ‖X i‖ + ‖δ i‖) := hXo.add (hd.norm.mono hs (by omega) le_rfl)
    have q3 : Ord e θ 4 1 (fun i => r i ^ 2 * (1 + ‖X i‖ + ‖δ i‖)) := q1.smul q2
    have q4 : Ord e θ 3 1 (fun i => r i * ‖δ i‖) := hr.smul hd.norm
    have q5 : Ord e θ 3 3 (fun i => ‖δ i‖ ^ 3) :=
      (hd.norm.smul (hd.norm.smul hd.norm)).congr fun i => by simp only [smul_eq_mul]; ring
    exact ((q3.mono hs (by omega) (by omega)).add (q4.mono hs (by omega) (by omega))).add q5
  have r2 : Ord e θ 3 3 (fun i => f (s i + r i) (X i + δ i) - (f (s i) (X i) + r i • ft (s i) (X i)
      + fy (s i) (X i) (δ i) + (1 / 2 : ℝ) • fyy (s i) (X i) (δ i) (δ i))) := by
    refine r1.of_le hL fun i => (h.taylor (hsI i) (hr0 i) (hsr i) _ _).trans ?_
    exact mul_le_mul_of_nonneg_left (le_abs_self _) hL
  have r3 : Ord e θ 3 1 (fun i => fy (s i) (X i) (δ i - ν i - τ i • f (s i) (X i))) :=
    hδ.of_le hL fun i => (ContinuousLinearMap.le_opNorm _ _).trans
      (mul_le_mul_of_nonneg_right (h.le1 _ (hsI i) _) (norm_nonneg _))
  have hb : ∀ i (u v : E), ‖fyy (s i) (X i) u v‖ ≤ L * (‖u‖ * ‖v‖) := fun i u v => by
    refine (ContinuousLinearMap.le_opNorm₂ _ _ _).trans ?_
    rw [mul_assoc]
    exact mul_le_mul_of_nonneg_right (h.le2 _ (hsI i) _) (by positivity)
  have r4 : Ord e θ 3 2 (fun i => fyy (s i) (X i) (δ i - ν i) (δ i)) := hd1.bound hL hd fun i => hb i _ _
  have r5 : Ord e θ 3 2 (fun i => fyy (s i) (X i) (ν i) (δ i - ν i)) := hν.bound hL hd1 fun i => hb i _ _
  refine ((r2.add (r3.mono hs le_rfl (by omega))).add
    (((r4.add r5).mono hs (k' := 3) (j' := 3) le_rfl (by omega)).const_smul (1 / 2))).congr fun i => ?_
  simp only [map_sub, map_add, sub_apply]
  module
end

end Verif
