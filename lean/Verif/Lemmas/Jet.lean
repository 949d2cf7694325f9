import Verif.Lemmas.SrkOrder

/-!
# Expansions in powers of `ε`
-/

set_option linter.unusedSectionVars false

namespace Verif
open Filter Topology Set

variable {E X Y : Type} [NormedAddCommGroup E] [NormedSpace ℝ E] [NormedAddCommGroup X] [NormedSpace ℝ X]
  [NormedAddCommGroup Y] [NormedSpace ℝ Y]

/-- `F ε u = a 0 u + ε a 1 u + ... + ε^(n-1) a (n-1) u + O(ε^n)`, uniformly in `u ∈ [0, 1]`. -/
structure Jet (n : ℕ) (F : ℝ → ℝ → E) (a : ℕ → ℝ → E) : Prop where
  bdd : ∀ k < n, UO 0 (fun _ u => a k u)
  rem : UO n (fun ε u => F ε u - ∑ k ∈ Finset.range n, ε ^ k • a k u)

namespace Jet
variable {n : ℕ} {F G : ℝ → ℝ → E} {a b : ℕ → ℝ → E}

theorem congr (h : Jet n F a) (hF : ∀ᶠ ε in 𝓝[>] (0 : ℝ), ∀ u ∈ Icc (0 : ℝ) 1, F ε u = G ε u)
    (ha : ∀ k < n, ∀ u ∈ Icc (0 : ℝ) 1, a k u = b k u) : Jet n G b where
  bdd k hk := (h.bdd k hk).congr (Eventually.of_forall fun _ u hu => ha k hk u hu)
  rem := by
    refine h.rem.congr ?_
    filter_upwards [hF] with ε hF u hu
    rw [hF u hu]
    congr 1
    exact Finset.sum_congr rfl fun k hk => by rw [ha k (Finset.mem_range.1 hk) u hu]

theorem congr' (h : Jet n F a) (hF : ∀ ε u, F ε u = G ε u) (ha : ∀ k < n, ∀ u, a k u = b k u) : Jet n G b :=
  h.congr (Eventually.of_forall fun ε u _ => hF ε u) fun k hk u _ => ha k hk u

theorem mono {m : ℕ} (h : Jet n F a) (hm : m ≤ n) : Jet m F a where
  bdd k hk := h.bdd k (hk.trans_le hm)
  rem := by
    have h1 : UO m (fun ε u => ∑ k ∈ Finset.Ico m n, ε ^ k • a k u) := by
      refine UO.sum _ fun k hk => ?_
      have hk := Finset.mem_Ico.1 hk
      exact (((h.bdd k hk.2).smul_pow k).mono (m := m) (by omega)).congr' fun _ _ => rfl
    refine ((h.rem.mono hm).add h1).congr' fun ε u => ?_
    rw [← Finset.sum_range_add_sum_Ico _ hm]
    abel

theorem add (h : Jet n F a) (h' : Jet n G b) : Jet n (fun ε u => F ε u + G ε u) (fun k u => a k u + b k u) where
  bdd k hk := (h.bdd k hk).add (h'.bdd k hk)
  rem := (h.rem.add h'.rem).congr' fun ε u => by
    simp only [smul_add, Finset.sum_add_distrib]; abel

theorem sub (h : Jet n F a) (h' : Jet n G b) : Jet n (fun ε u => F ε u - G ε u) (fun k u => a k u - b k u) where
  bdd k hk := (h.bdd k hk).sub (h'.bdd k hk)
  rem := (h.rem.sub h'.rem).congr' fun ε u => by
    simp only [smul_sub, Finset.sum_sub_distrib]; abel

/-- An expression that is one power of `ε`. -/
theorem monomial (n m : ℕ) {p : ℝ → E} (hp : UO 0 (fun _ u => p u)) :
    Jet n (fun ε u => ε ^ m • p u) (fun k u => if k = m then p u else 0) where
  bdd k _ := by
    by_cases h : k = m
    · simp only [h, if_true]; exact hp
    · simp only [h, if_false]; exact UO.zero 0
  rem := by
    simp only [smul_ite, smul_zero, Finset.sum_ite_eq', Finset.mem_range]
    by_cases h : m < n
    · simp only [h, if_true, sub_self]; exact UO.zero n
    · simp only [h, if_false, sub_zero]
      exact ((hp.smul_pow m).mono (m := n) (by omega)).congr' fun _ _ => rfl

theorem const (n : ℕ) (c : E) : Jet n (fun _ _ => c) (fun k _ => if k = 0 then c else 0) :=
  (monomial n 0 (UO.const c)).congr' (fun ε u => by simp) fun _ _ _ => rfl

theorem of_UO (h : UO n F) : Jet n F (fun _ _ => 0) where
  bdd _ _ := UO.zero 0
  rem := h.congr' fun ε u => by simp

/-- Multiplication by `ε^m`. -/
theorem shift (m : ℕ) (h : Jet n F a) :
    Jet (n + m) (fun ε u => ε ^ m • F ε u) (fun k u => if k < m then 0 else a (k - m) u) where
  bdd k hk := by
    by_cases h1 : k < m
    · simp only [h1, if_true]; exact UO.zero 0
    · simp only [h1, if_false]; exact h.bdd _ (by omega)
  rem := by
    refine (h.rem.smul_pow m).congr' fun ε u => ?_
    rw [add_comm n m, Finset.sum_range_add, smul_sub]
    have e1 : ∑ k ∈ Finset.range m, ε ^ k • (if k < m then (0 : E) else a (k - m) u) = 0 :=
      Finset.sum_eq_zero fun k hk => by rw [if_pos (Finset.mem_range.1 hk), smul_zero]
    rw [e1, zero_add, Finset.smul_sum]
    congr 1
    refine Finset.sum_congr rfl fun k _ => ?_
    rw [if_neg (by omega), Nat.add_sub_cancel_left, smul_smul, ← pow_add]

theorem clm {f : ℝ → ℝ → X} {c : ℕ → ℝ → X} (L : X →L[ℝ] E) (h : Jet n f c) :
    Jet n (fun ε u => L (f ε u)) (fun k u => L (c k u)) where
  bdd k hk := (h.bdd k hk).clm L
  rem := (h.rem.clm L).congr' fun ε u => by simp only [map_sub, map_sum, map_smul]

theorem const_smul' (r : ℝ) (h : Jet n F a) : Jet n (fun ε u => r • F ε u) (fun k u => r • a k u) :=
  (clm (r • ContinuousLinearMap.id ℝ E) h).congr' (fun _ _ => rfl) fun _ _ _ => rfl

theorem sum {ι : Type} (s : Finset ι) {f : ι → ℝ → ℝ → E} {c : ι → ℕ → ℝ → E} (h : ∀ i ∈ s, Jet n (f i) (c i)) :
    Jet n (fun ε u => ∑ i ∈ s, f i ε u) (fun k u => ∑ i ∈ s, c i k u) where
  bdd k hk := UO.sum s fun i hi => (h i hi).bdd k hk
  rem := (UO.sum s fun i hi => (h i hi).rem).congr' fun ε u => by
    rw [Finset.sum_sub_distrib, Finset.sum_comm]
    simp only [Finset.smul_sum]

theorem poly_bdd (h : ∀ k < n, UO 0 (fun _ u => a k u)) : UO 0 (fun ε u => ∑ k ∈ Finset.range n, ε ^ k • a k u) :=
  UO.sum _ fun k hk => ((((h k (Finset.mem_range.1 hk)).smul_pow k).mono (m := 0) (by omega)).congr' fun _ _ => rfl)

theorem isBdd (h : Jet n F a) : UO 0 F :=
  ((h.rem.mono (m := 0) (Nat.zero_le n)).add (poly_bdd h.bdd)).congr' fun ε u => by abel

/-- Bilinear expressions. -/
theorem bilin {f : ℝ → ℝ → X} {g : ℝ → ℝ → Y} {c : ℕ → ℝ → X} {e : ℕ → ℝ → Y} (Q : X →L[ℝ] Y →L[ℝ] E)
    (hf : Jet n f c) (hg : Jet n g e) :
    Jet n (fun ε u => Q (f ε u) (g ε u)) (fun m u => ∑ k ∈ Finset.range (m + 1), Q (c k u) (e (m - k) u)) := by
  have hb : ∀ {k m : ℕ} {φ : ℝ → ℝ → X} {ψ : ℝ → ℝ → Y}, UO k φ → UO m ψ → UO (k + m) (fun ε u => Q (φ ε u) (ψ ε u)) := by
    intro k m φ ψ h h'
    obtain ⟨C, hC, h⟩ := h
    obtain ⟨C', hC', h'⟩ := h'
    refine ⟨‖Q‖ * C * C', by positivity, ?_⟩
    filter_upwards [h, h', ev_pos] with ε h1 h2 h3 u hu
    have hp := pow_nonneg h3.1.le k
    calc _ ≤ ‖Q‖ * ‖φ ε u‖ * ‖ψ ε u‖ := Q.le_opNorm₂ _ _
      _ ≤ ‖Q‖ * (C * ε ^ k) * (C' * ε ^ m) := by
        have := h1 u hu
        have := h2 u hu
        gcongr
      _ = _ := by ring
  refine ⟨fun m hm => UO.sum _ fun k hk => ?_, ?_⟩
  · have hk := Finset.mem_range.1 hk
    exact hb (hf.bdd k (by omega)) (hg.bdd (m - k) (by omega))
  · have h1 : UO n (fun ε u => Q (f ε u - ∑ k ∈ Finset.range n, ε ^ k • c k u) (g ε u)) :=
      hb hf.rem hg.isBdd
    have h2 : UO n (fun ε u => Q (∑ k ∈ Finset.range n, ε ^ k • c k u) (g ε u - ∑ k ∈ Finset.range n, ε ^ k • e k u)) :=
      (hb (poly_bdd hf.bdd) hg.rem).mono (m := n) (by omega)
    have h3 : UO n (fun ε u => ∑ k ∈ Finset.range n, ∑ j ∈ Finset.Ico (n - k) n, ε ^ (k + j) • Q (c k u) (e j u)) := by
      refine UO.sum _ fun k hk => UO.sum _ fun j hj => ?_
      have hk := Finset.mem_range.1 hk
      have hj := Finset.mem_Ico.1 hj
      exact (((hb (hf.bdd k hk) (hg.bdd j hj.2)).smul_pow (k + j)).mono (m := n) (by omega)).congr' fun _ _ => rfl
    refine ((h1.add h2).add h3).congr' fun ε u => ?_
    have e1 : Q (∑ k ∈ Finset.range n, ε ^ k • c k u) (∑ k ∈ Finset.range n, ε ^ k • e k u)
        = ∑ k ∈ Finset.range n, ∑ j ∈ Finset.range n, ε ^ (k + j) • Q (c k u) (e j u) := by
      simp only [map_sum, sum_apply, map_smul, smul_apply, smul_smul, Finset.smul_sum]
      rw [Finset.sum_comm]
      refine Finset.sum_congr rfl fun k _ => Finset.sum_congr rfl fun j _ => ?_
      rw [← pow_add, add_comm]
    have e2 : ∑ m ∈ Finset.range n, ε ^ m • ∑ k ∈ Finset.range (m + 1), Q (c k u) (e (m - k) u)
        = ∑ k ∈ Finset.range n, ∑ j ∈ Finset.range (n - k), ε ^ (k + j) • Q (c k u) (e j u) := by
      rw [← Finset.sum_range_diag_flip]
      refine Finset.sum_congr rfl fun m _ => ?_
      rw [Finset.smul_sum]
      refine Finset.sum_congr rfl fun k hk => ?_
      have hk := Finset.mem_range.1 hk
      rw [show k + (m - k) = m by omega]
    have e3 : ∀ k, ∑ j ∈ Finset.range n, ε ^ (k + j) • Q (c k u) (e j u)
        = ∑ j ∈ Finset.range (n - k), ε ^ (k + j) • Q (c k u) (e j u)
          + ∑ j ∈ Finset.Ico (n - k) n, ε ^ (k + j) • Q (c k u) (e j u) := fun k =>
      (Finset.sum_range_add_sum_Ico _ (Nat.sub_le n k)).symm
    rw [e2]
    simp only [e3, Finset.sum_add_distrib] at e1
    rw [map_sub Q, sub_apply, map_sub (Q _), e1]
    abel

/-- Products of numbers. -/
theorem mul {f g : ℝ → ℝ → ℝ} {c e : ℕ → ℝ → ℝ} (hf : Jet n f c) (hg : Jet n g e) :
    Jet n (fun ε u => f ε u * g ε u) (fun m u => ∑ k ∈ Finset.range (m + 1), c k u * e (m - k) u) :=
  (bilin (ContinuousLinearMap.mul ℝ ℝ) hf hg).congr' (fun _ _ => rfl) fun _ _ _ => rfl

theorem const_mul {f : ℝ → ℝ → ℝ} {c : ℕ → ℝ → ℝ} (r : ℝ) (hf : Jet n f c) :
    Jet n (fun ε u => r * f ε u) (fun k u => r * c k u) :=
  (clm (ContinuousLinearMap.mul ℝ ℝ r) hf).congr' (fun _ _ => rfl) fun _ _ _ => rfl

theorem pi {d : ℕ} {f : ℝ → ℝ → Fin d → ℝ} {c : ℕ → ℝ → Fin d → ℝ}
    (h : ∀ i, Jet n (fun ε u => f ε u i) (fun k u => c k u i)) : Jet n f c := by
  have key : ∀ {k : ℕ} {φ : ℝ → ℝ → Fin d → ℝ}, (∀ i, UO k (fun ε u => φ ε u i)) → UO k φ := by
    intro k φ hφ
    have := UO.sum (Finset.univ : Finset (Fin d)) (φ := fun i ε u => φ ε u i • (Pi.single i (1 : ℝ) : Fin d → ℝ))
      (k := k) fun i _ => (hφ i).clm ((ContinuousLinearMap.id ℝ ℝ).smulRight (Pi.single i (1 : ℝ) : Fin d → ℝ))
    refine this.congr' fun ε u => ?_
    funext j
    simp [Finset.sum_apply, Pi.single_apply]
  refine ⟨fun k hk => key fun i => (h i).bdd k hk, key fun i => ((h i).rem).congr' fun ε u => ?_⟩
  simp [Finset.sum_apply]

theorem proj {d : ℕ} {f : ℝ → ℝ → Fin d → ℝ} {c : ℕ → ℝ → Fin d → ℝ} (h : Jet n f c) (i : Fin d) :
    Jet n (fun ε u => f ε u i) (fun k u => c k u i) :=
  (clm (ContinuousLinearMap.proj (R := ℝ) (φ := fun _ : Fin d => ℝ) i) h).congr' (fun _ _ => rfl) fun _ _ _ => rfl

/-- Two expansions that agree but for their last coefficient. -/
theorem diff (h : Jet (n + 1) F a) (h' : Jet (n + 1) G b) (hab : ∀ k < n, ∀ u ∈ Icc (0 : ℝ) 1, a k u = b k u) :
    UO (n + 1) (fun ε u => F ε u - G ε u - ε ^ n • (a n u - b n u)) := by
  refine (h.rem.sub h'.rem).congr (Eventually.of_forall fun ε u hu => ?_)
  have : ∑ k ∈ Finset.range n, ε ^ k • a k u = ∑ k ∈ Finset.range n, ε ^ k • b k u :=
    Finset.sum_congr rfl fun k hk => by rw [hab k (Finset.mem_range.1 hk) u hu]
  rw [Finset.sum_range_succ, Finset.sum_range_succ, this, smul_sub]
  abel

end Jet
end Verif
