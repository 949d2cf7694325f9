import Verif.Lemmas.BrownianCov

/-!
# What `evaluate` returns, in terms of pieces
-/

namespace Verif
noncomputable section

set_option linter.unusedSectionVars false

variable {Key Y : Type} [AddCommGroup Y] [Module ℝ Y]

theorem piece_level (kind : LevyKind) (g : Prng Key Y) (key : Key) : (treeInit kind g key).level = 0 := by
  cases kind <;> rfl

/-- There is a first level at which the intervals are at most `tol` long. -/
theorem exists_depth {tol : ℝ} (h : 0 < tol) : ∃ n : ℕ, (2⁻¹ : ℝ) ^ n ≤ tol ∧ ∀ m < n, tol < (2⁻¹ : ℝ) ^ m := by
  have hex : ∃ n : ℕ, (2⁻¹ : ℝ) ^ n ≤ tol := by
    obtain ⟨n, hn⟩ := exists_pow_lt_of_lt_one h (by norm_num : (2⁻¹ : ℝ) < 1)
    exact ⟨n, hn.le⟩
  classical
  exact ⟨Nat.find hex, Nat.find_spec hex, fun m hm => not_le.mp (Nat.find_min hex hm)⟩

/-- The key and the increment at the root. -/
def rootKey (kind : LevyKind) (g : Prng Key Y) (key : Key) : Key := (treeInit kind g key).key
def rootCell (kind : LevyKind) (g : Prng Key Y) (key : Key) : LevyPiece Y := (treeInit kind g key).cell

theorem root_len (kind : LevyKind) (g : Prng Key Y) (key : Key) : (treeInit kind g key).len = 1 := by
  simp [TreeState.len, piece_level]
theorem root_s (kind : LevyKind) (g : Prng Key Y) (key : Key) : (treeInit kind g key).s = 0 := by cases kind <;> rfl
theorem root_left (kind : LevyKind) (g : Prng Key Y) (key : Key) : (treeInit kind g key).left = LevyPiece.zero := by
  cases kind <;> rfl

namespace VBT

/-- The value at `r`, after `n` halvings. -/
def at' (b : VBT Key Y) (n : ℕ) (r : ℝ) : LevyPiece Y :=
  rel b.kind b.prng n (rootKey b.kind b.prng b.key) 1 (rootCell b.kind b.prng b.key) r

/-- The loop stops after `n` halvings. -/
def Depth (b : VBT Key Y) (n : ℕ) : Prop := (2⁻¹ : ℝ) ^ n ≤ b.tol' ∧ ∀ m < n, b.tol' < (2⁻¹ : ℝ) ^ m

theorem final_eq (b : VBT Key Y) {n fuel : ℕ} (hn : b.Depth n) (hf : n ≤ fuel) (r : ℝ) :
    treeLoop b.kind b.prng b.tol' r fuel (treeInit b.kind b.prng b.key)
      = treeIter b.kind b.prng r n (treeInit b.kind b.prng b.key) := by
  apply treeLoop_eq _ _ _ _ _ _ _ _ _ hf
  · intro m hm; rw [piece_level, zero_add]; exact hn.2 m hm
  · rw [piece_level, zero_add]; exact hn.1

theorem leaf_piece (b : VBT Key Y) {n fuel : ℕ} (hn : b.Depth n) (hf : n ≤ fuel) {r : ℝ} (h0 : 0 ≤ r) (h1 : r ≤ 1) :
    (b.evaluateLeaf fuel r).piece = b.at' n r := by
  unfold evaluateLeaf
  rw [b.final_eq hn hf, treeIter_piece _ _ _ _ _ _ (treeInit_consistent _ _ _) (by rwa [root_s])
    (by rwa [root_s, root_len, zero_add]), root_s, root_left, root_len, sub_zero, zero_chen]
  rfl

theorem leaf_dt (b : VBT Key Y) (fuel : ℕ) (r : ℝ) : (b.evaluateLeaf fuel r).dt = r := by
  unfold evaluateLeaf treeLeaf
  cases b.kind <;> rfl

theorem rel_proper (kind : LevyKind) (g : Prng Key Y) (n : ℕ) (key : Key) (su : ℝ) (p : LevyPiece Y) (x : ℝ) :
    Proper kind (rel kind g n key su p x) := by
  induction n generalizing key su p x with
  | zero => cases kind <;> simp [Proper, rel, leafPiece, leafI, leafST, leafSTT, LevyKind.a, LevyKind.k]
  | succ n ih =>
    rw [rel]
    split
    · exact chen_proper (halves_proper _ _ _ _ _).1 (ih _ _ _ _)
    · exact ih _ _ _ _

theorem levyDiff_cut (kind : LevyKind) (eps : ℝ) (x y : LevyVal Y) (hx : Proper kind x.piece) (hy : Proper kind y.piece) :
    levyDiff kind eps x y =
      { dt := y.dt - x.dt, W := (cut kind x.dt x.piece y.dt y.piece).W
        H := guardedInv eps (y.dt - x.dt) • (cut kind x.dt x.piece y.dt y.piece).H
        K := guardedInv eps ((y.dt - x.dt) ^ 2) • (cut kind x.dt x.piece y.dt y.piece).K } := by
  have hu : (y.dt - x.dt) • x.W - x.dt • (y.W - x.W) = y.dt • x.W - x.dt • y.W := by module
  cases kind
  · have h0 : x.barH = 0 := hx.1 rfl
    have h1 : x.barK = 0 := hx.2 rfl
    have h2 : y.barH = 0 := hy.1 rfl
    have h3 : y.barK = 0 := hy.2 rfl
    simp [levyDiff, cut, LevyVal.piece, LevyKind.a, LevyKind.k, h0, h1, h2, h3]
  · have h1 : x.barK = 0 := hx.2 rfl
    have h3 : y.barK = 0 := hy.2 rfl
    simp [levyDiff, cut, LevyVal.piece, LevyKind.a, LevyKind.k, h1, h3, hu]
  · simp only [levyDiff, cut, LevyVal.piece, LevyKind.a, LevyKind.k, hu, one_mul, Levy.mk.injEq, true_and]
    congr 1
    module

/-- The increment between two times of `[0, 1]`. -/
def inc (b : VBT Key Y) (n : ℕ) (r r' : ℝ) : LevyPiece Y := cut b.kind r (b.at' n r) r' (b.at' n r')

theorem rescale_mem (b : VBT Key Y) (hb : b.t0 < b.t1) {t : ℝ} (h0 : b.t0 ≤ t) (h1 : t ≤ b.t1) :
    0 ≤ b.rescale t ∧ b.rescale t ≤ 1 := by
  have hpos : 0 < b.t1 - b.t0 := by linarith
  unfold rescale
  rw [if_neg hb.ne, if_neg hb.ne]
  exact ⟨div_nonneg (by linarith) hpos.le, (div_le_one hpos).mpr (by linarith)⟩

theorem rescale_eq (b : VBT Key Y) (hb : b.t0 < b.t1) (t : ℝ) : b.rescale t = (t - b.t0) / (b.t1 - b.t0) := by
  unfold rescale
  rw [if_neg hb.ne, if_neg hb.ne]

/-- What `evaluate` returns. -/
theorem evaluate_eq (b : VBT Key Y) (hb : b.t0 < b.t1) {n fuel : ℕ} (hn : b.Depth n) (hf : n ≤ fuel) {s t : ℝ}
    (hs0 : b.t0 ≤ s) (hs1 : s ≤ b.t1) (ht0 : b.t0 ≤ t) (ht1 : t ≤ b.t1) :
    b.evaluate fuel s (some t) = .ok
      { dt := t - s
        W := √(b.t1 - b.t0) • (b.inc n (b.rescale s) (b.rescale t)).W
        H := √(b.t1 - b.t0) • guardedInv b.eps ((t - s) / (b.t1 - b.t0)) • (b.inc n (b.rescale s) (b.rescale t)).H
        K := √(b.t1 - b.t0) • guardedInv b.eps (((t - s) / (b.t1 - b.t0)) ^ 2) •
          (b.inc n (b.rescale s) (b.rescale t)).K } := by
  have hs := b.rescale_mem hb hs0 hs1
  have ht := b.rescale_mem hb ht0 ht1
  have hpos : 0 < b.t1 - b.t0 := by linarith
  have e1 : ¬ (b.rescale s < 0 ∨ 1 < b.rescale s) := by push Not; exact hs
  have e2 : ¬ (b.rescale t < 0 ∨ 1 < b.rescale t) := by push Not; exact ht
  have hd : b.rescale t - b.rescale s = (t - s) / (b.t1 - b.t0) := by
    rw [rescale_eq b hb, rescale_eq b hb, ← sub_div]; congr 1; ring
  have p1 := b.leaf_piece hn hf hs.1 hs.2
  have p2 := b.leaf_piece hn hf ht.1 ht.2
  have q1 : Proper b.kind (b.evaluateLeaf fuel (b.rescale s)).piece := by rw [p1]; exact rel_proper _ _ _ _ _ _ _
  have q2 : Proper b.kind (b.evaluateLeaf fuel (b.rescale t)).piece := by rw [p2]; exact rel_proper _ _ _ _ _ _ _
  have hmul : (b.t1 - b.t0) * ((t - s) / (b.t1 - b.t0)) = t - s := by field_simp
  simp only [evaluate, evaluate01, if_neg e1, if_neg e2, bind, Except.bind, pure, Except.pure]
  rw [levyDiff_cut _ _ _ _ q1 q2, p1, p2]
  simp only [leaf_dt, denormalise, hd, hmul, inc]

end VBT
end
end Verif
