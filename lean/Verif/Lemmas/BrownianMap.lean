import Verif.Lemmas.BrownianEval
import Verif.Lemmas.BrownianCov

/-!
# The Brownian tree commutes with linear maps; second moments over the whole interval
-/

namespace Verif
noncomputable section

section map
variable {Key V Y : Type} [AddCommGroup V] [Module ℝ V] [AddCommGroup Y] [Module ℝ Y]

/-- The draws of `g`, each of them mapped. -/
def Prng.map (φ : V →ₗ[ℝ] Y) (g : Prng Key V) : Prng Key Y where
  split := g.split
  normal k := φ (g.normal k)
  mvNormal k C i := φ (g.mvNormal k C i)

def LevyPiece.map (φ : V →ₗ[ℝ] Y) (p : LevyPiece V) : LevyPiece Y := ⟨φ p.W, φ p.H, φ p.K⟩

theorem ideal_map (d : IdealPrng) (φ : V →ₗ[ℝ] Y) (N : List ℕ → V) :
    d.prng (fun k => φ (N k)) = (d.prng N).map φ := by
  unfold IdealPrng.prng Prng.map
  congr 1
  funext k C i
  rw [map_sum]
  exact Finset.sum_congr rfl fun j _ => (map_smul φ _ _).symm

variable (φ : V →ₗ[ℝ] Y) (kind : LevyKind) (g : Prng Key V)

theorem chen_map (h1 h2 : ℝ) (p q : LevyPiece V) : chen kind h1 (p.map φ) h2 (q.map φ) = (chen kind h1 p h2 q).map φ := by
  ext <;> simp [chen, LevyPiece.map]

theorem cut_map (h1 h : ℝ) (p q : LevyPiece V) : cut kind h1 (p.map φ) h (q.map φ) = (cut kind h1 p h q).map φ := by
  ext <;> simp [cut, LevyPiece.map]

theorem halves_map (key : Key) (su : ℝ) (p : LevyPiece V) :
    halves kind (g.map φ) key su (p.map φ) = ((halves kind g key su p).1.map φ, (halves kind g key su p).2.map φ) := by
  cases kind <;> simp [halves, archSTT, archST, archI, LevyPiece.map, Prng.map]

theorem leafPiece_map (key : Key) (su : ℝ) (p : LevyPiece V) (x : ℝ) :
    leafPiece kind (g.map φ) key su (p.map φ) x = (leafPiece kind g key su p x).map φ := by
  cases kind <;> simp [leafPiece, leafSTT, leafST, leafI, LevyPiece.map, Prng.map]

theorem rel_map (n : ℕ) (key : Key) (su : ℝ) (p : LevyPiece V) (x : ℝ) :
    rel kind (g.map φ) n key su (p.map φ) x = (rel kind g n key su p x).map φ := by
  induction n generalizing key su p x with
  | zero => exact leafPiece_map φ kind g key su p x
  | succ n ih =>
    simp only [rel, halves_map]
    split
    · rw [← chen_map, ← ih]; rfl
    · rw [← ih]; rfl

theorem rootCell_map (key : Key) : rootCell kind (g.map φ) key = (rootCell kind g key).map φ := by
  cases kind <;> simp [rootCell, treeInit, TreeState.cell, LevyPiece.map, Prng.map]

theorem rootKey_map (key : Key) : rootKey kind (g.map φ) key = rootKey kind g key := by
  cases kind <;> rfl

/-- The increment over `[r, r']` of the tree with key `key`. -/
def incOf (n : ℕ) (key : Key) (r r' : ℝ) : LevyPiece V :=
  cut kind r (rel kind g n (rootKey kind g key) 1 (rootCell kind g key) r) r'
    (rel kind g n (rootKey kind g key) 1 (rootCell kind g key) r')

theorem incOf_map (n : ℕ) (key : Key) (r r' : ℝ) :
    incOf kind (g.map φ) n key r r' = (incOf kind g n key r r').map φ := by
  unfold incOf
  rw [rootCell_map, rootKey_map, rel_map, rel_map, cut_map]

end map

section moments
variable {Y : Type} [AddCommGroup Y] [Module ℝ Y] {c : LinearMap.BilinForm ℝ Y} {d : IdealPrng} {N : List ℕ → Y}

theorem Perp.cut {kind : LevyKind} {h1 h2 : ℝ} {p q r : LevyPiece Y} (hq : Perp c p q) (hr : Perp c p r) :
    Perp c p (cut kind h1 q h2 r) := by
  obtain ⟨a1, a2, a3, a4, a5, a6, a7, a8, a9⟩ := hq
  obtain ⟨b1, b2, b3, b4, b5, b6, b7, b8, b9⟩ := hr
  constructor <;> simp [Verif.cut, a1, a2, a3, a4, a5, a6, a7, a8, a9, b1, b2, b3, b4, b5, b6, b7, b8, b9]

theorem root_good (hN : Orthonormals c N) (kind : LevyKind) (key : List ℕ) :
    Good c kind 1 (rootCell kind (d.prng N) key) := by
  have hne : ∀ n i j, i ≠ j → d.code n i :: key ≠ d.code n j :: key := fun n i j hij h =>
    hij (d.code_inj n i j (List.cons.inj h).1)
  have h12 : (1 / √12 : ℝ) * (1 / √12) = 1 / 12 := by
    rw [div_mul_div_comm, Real.mul_self_sqrt (by norm_num)]; norm_num
  have h720 : (1 / √720 : ℝ) * (1 / √720) = 1 / 720 := by
    rw [div_mul_div_comm, Real.mul_self_sqrt (by norm_num)]; norm_num
  cases kind
  · constructor <;> simp [rootCell, treeInit, TreeState.cell, IdealPrng.prng, hN _ _, LevyKind.a, LevyKind.k]
  · have e1 := hne 3 1 2 (by norm_num)
    constructor <;> simp only [rootCell, treeInit, TreeState.cell, IdealPrng.prng, LevyKind.a, LevyKind.k, map_smul,
      LinearMap.smul_apply, smul_eq_mul, hN _ _, if_true, if_neg e1, map_zero]
    · linarith
    · norm_num
    · norm_num
  · have e1 := hne 4 1 2 (by norm_num)
    have e2 := hne 4 1 3 (by norm_num)
    have e3 := hne 4 2 3 (by norm_num)
    constructor <;> simp only [rootCell, treeInit, TreeState.cell, IdealPrng.prng, LevyKind.a, LevyKind.k, map_smul,
      LinearMap.smul_apply, smul_eq_mul, hN _ _, if_true, if_neg e1, if_neg e2, if_neg e3]
    · linarith
    · linarith
    · norm_num
    · norm_num
    · norm_num

theorem root_fresh (hN : Orthonormals c N) (kind : LevyKind) (key : List ℕ) :
    Fresh c N (rootKey kind (d.prng N) key) (rootCell kind (d.prng N) key) := by
  have hne : ∀ n i k, i ≠ 0 → (d.code n 0 :: key) <:+ k → d.code n i :: key ≠ k := by
    intro n i k hi hk h
    subst h
    have := hk.eq_of_length (by simp)
    exact hi (d.code_inj n i 0 (List.cons.inj this).1.symm)
  intro k hk
  cases kind
  · have e1 := hne 2 1 k (by norm_num) hk
    constructor <;> simp [rootCell, treeInit, TreeState.cell, IdealPrng.prng, hN _ _, e1]
  · have e1 := hne 3 1 k (by norm_num) hk
    have e2 := hne 3 2 k (by norm_num) hk
    constructor <;> simp [rootCell, treeInit, TreeState.cell, IdealPrng.prng, hN _ _, e1, e2]
  · have e1 := hne 4 1 k (by norm_num) hk
    have e2 := hne 4 2 k (by norm_num) hk
    have e3 := hne 4 3 k (by norm_num) hk
    constructor <;> simp [rootCell, treeInit, TreeState.cell, IdealPrng.prng, hN _ _, e1, e2, e3]

theorem root_mem (kind : LevyKind) (key : List ℕ) :
    (rootCell kind (d.prng N) key).Mem (Submodule.span ℝ (Set.range N)) := by
  have h : ∀ k, N k ∈ Submodule.span ℝ (Set.range N) := fun k => Submodule.subset_span ⟨k, rfl⟩
  cases kind <;> refine ⟨?_, ?_, ?_⟩ <;> simp only [rootCell, treeInit, TreeState.cell, IdealPrng.prng] <;>
    first | exact h _ | exact Submodule.smul_mem _ _ (h _) | exact Submodule.zero_mem _

theorem LevyPiece.Mem.cut {S : Submodule ℝ Y} {kind : LevyKind} {h1 h2 : ℝ} {p q : LevyPiece Y} (hp : p.Mem S) (hq : q.Mem S) :
    (cut kind h1 p h2 q).Mem S := by
  obtain ⟨p1, p2, p3⟩ := hp
  obtain ⟨q1, q2, q3⟩ := hq
  refine ⟨?_, ?_, ?_⟩ <;> simp only [Verif.cut] <;>
    repeat' first | assumption | apply Submodule.sub_mem | apply Submodule.smul_mem

theorem incOf_mem (kind : LevyKind) (n : ℕ) (key : List ℕ) (r r' : ℝ) :
    (incOf kind (d.prng N) n key r r').Mem (Submodule.span ℝ (Set.range N)) := by
  have hS : spanOf N (rootKey kind (d.prng N) key) (rootCell kind (d.prng N) key) ≤ Submodule.span ℝ (Set.range N) := by
    have hr := root_mem (d := d) (N := N) kind key
    refine Submodule.span_le.mpr ?_
    rintro x (hx | ⟨k, _, rfl⟩)
    · rcases hx with rfl | rfl | rfl
      exacts [hr.1, hr.2.1, hr.2.2]
    · exact Submodule.subset_span ⟨k, rfl⟩
  exact LevyPiece.Mem.cut ((rel_mem kind n _ _ _ _).mono hS) ((rel_mem kind n _ _ _ _).mono hS)

theorem incOf_good (hc : ∀ x y, c x y = c y x) (hN : Orthonormals c N) (kind : LevyKind) (n : ℕ) (key : List ℕ)
    {r r' : ℝ} (h0 : 0 ≤ r) (h : r ≤ r') (h1 : r' ≤ 1) (hj : ∃ j : ℕ, r ≤ j / 2 ^ n ∧ j / 2 ^ n ≤ r') :
    Good c kind (r' - r) (incOf kind (d.prng N) n key r r') := by
  have := (rel_moments (d := d) hc hN kind n (rootKey kind (d.prng N) key) one_pos
    (treeInit_consistent kind (d.prng N) key).cell (root_good hN kind key) (root_fresh hN kind key)).2 r r' h0 h h1
    (by simpa using hj)
  exact this.1

theorem incOf_perp (hc : ∀ x y, c x y = c y x) (hN : Orthonormals c N) (kind : LevyKind) (n : ℕ) (key : List ℕ)
    {r r' s s' : ℝ} (h0 : 0 ≤ r) (hr : r ≤ r') (hrs : r' ≤ s) (hs : s ≤ s') (h1 : s' ≤ 1)
    (hj : ∃ j : ℕ, r ≤ j / 2 ^ n ∧ j / 2 ^ n ≤ r') (hj' : ∃ j : ℕ, s ≤ j / 2 ^ n ∧ j / 2 ^ n ≤ s')
    (hj'' : r' = s ∨ ∃ j : ℕ, r' ≤ j / 2 ^ n ∧ j / 2 ^ n ≤ s) :
    Perp c (incOf kind (d.prng N) n key r r') (incOf kind (d.prng N) n key s s') := by
  have hm := (rel_moments (d := d) hc hN kind n (rootKey kind (d.prng N) key) one_pos
    (treeInit_consistent kind (d.prng N) key).cell (root_good hN kind key) (root_fresh hN kind key)).2
  simp only [mul_one] at hm
  obtain ⟨j, hj1, hj2⟩ := hj
  obtain ⟨j', hj1', hj2'⟩ := hj'
  have step : ∀ x, 0 ≤ x → x ≤ s → (x = s ∨ ∃ j : ℕ, x ≤ j / 2 ^ n ∧ j / 2 ^ n ≤ s) →
      Perp c (rel kind (d.prng N) n (rootKey kind (d.prng N) key) 1 (rootCell kind (d.prng N) key) x)
        (incOf kind (d.prng N) n key s s') := by
    intro x hx0 hxs hx
    rcases hx with rfl | hx
    · exact (hm x s' hx0 hs h1 ⟨j', hj1', hj2'⟩).2
    · unfold incOf
      rw [← cut_cut kind x s s']
      exact Perp.cut (hm x s hx0 hxs (by linarith) hx).2 (hm x s' hx0 (by linarith) h1 ⟨j', by linarith, hj2'⟩).2
  have hR := step r' (by linarith) hrs hj''
  have hL := step r h0 (by linarith) (Or.inr ⟨j, hj1, by linarith⟩)
  exact (Perp.cut (hL.symm hc) (hR.symm hc)).symm hc

/-- A node of the tree lies between times that are at least the tolerance apart. -/
theorem exists_node {n : ℕ} {tol r r' : ℝ} (hn : (2⁻¹ : ℝ) ^ n ≤ tol) (h0 : 0 ≤ r) (h : r + tol ≤ r') :
    ∃ j : ℕ, r ≤ j / 2 ^ n ∧ j / 2 ^ n ≤ r' := by
  refine ⟨⌈r * 2 ^ n⌉₊, ?_, ?_⟩
  · rw [le_div_iff₀ (by positivity)]; exact Nat.le_ceil _
  · have h1 := Nat.ceil_lt_add_one (a := r * 2 ^ n) (by positivity)
    rw [div_le_iff₀ (by positivity)]
    have h2 : (2⁻¹ : ℝ) ^ n * 2 ^ n = 1 := by rw [← mul_pow]; norm_num
    have h3 : (r + 2⁻¹ ^ n) * 2 ^ n ≤ r' * 2 ^ n := mul_le_mul_of_nonneg_right (by linarith) (by positivity)
    nlinarith

end moments

end
end Verif
