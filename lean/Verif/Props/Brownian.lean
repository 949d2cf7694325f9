import Verif.Lemmas.BrownianEval
import Verif.Lemmas.LevyPath
import Mathlib.Analysis.SpecialFunctions.Log.Base

/-!
# `VirtualBrownianTree` is one path (C47, C48)

`evaluate` has an argument `fuel`, the number of iterations after which the model's loop is cut off; by
`C48_terminates` any `fuel` from the number of levels on gives the same. The number of levels is the `n` of
`b.Depth n`.
-/

namespace Verif
noncomputable section

set_option linter.unusedSectionVars false

variable {Key Y : Type} [AddCommGroup Y] [Module ℝ Y]

/-- `dt`, `W`, `H`, `K`. -/
def Levy.tuple (x : Levy Y) : ℝ × Y × Y × Y := (x.dt, x.W, x.H, x.K)

/-! ### C48 -/

/-- **C48.** The search ends: whatever the query, the loop's condition is false after exactly `n` iterations, where
`n = max 0 ⌈log₂ (1 / tol)⌉` for the tolerance relative to the length of the interval, and iterating on changes
nothing. -/
theorem C48_terminates (b : VBT Key Y) (hb : b.t0 < b.t1) (htol : 0 < b.tol) :
    ∃ n : ℕ, n = ⌈Real.logb 2 ((b.t1 - b.t0) / b.tol)⌉₊ ∧ b.Depth n ∧ ∀ fuel, n ≤ fuel → ∀ r,
      (treeLoop b.kind b.prng b.tol' r fuel (treeInit b.kind b.prng b.key)).level = n ∧
      ¬ b.tol' < (2⁻¹ : ℝ) ^ (treeLoop b.kind b.prng b.tol' r fuel (treeInit b.kind b.prng b.key)).level ∧
      b.evaluateLeaf fuel r = b.evaluateLeaf n r := by
  have hpos : 0 < b.t1 - b.t0 := by linarith
  obtain ⟨n, hn⟩ := exists_depth (tol := b.tol') (div_pos htol hpos)
  have hD : b.Depth n := hn
  refine ⟨n, ?_, hD, ?_⟩
  · have hq : 0 < (b.t1 - b.t0) / b.tol := div_pos hpos htol
    have htol' : b.tol' = ((b.t1 - b.t0) / b.tol)⁻¹ := by rw [inv_div]; rfl
    have key : ∀ m : ℕ, (2⁻¹ : ℝ) ^ m ≤ b.tol' ↔ Real.logb 2 ((b.t1 - b.t0) / b.tol) ≤ m := by
      intro m
      rw [htol', inv_pow, inv_le_inv₀ (by positivity) hq, Real.logb_le_iff_le_rpow (by norm_num) hq, Real.rpow_natCast]
    apply le_antisymm
    · by_contra hcon
      have h1 := hn.2 _ (not_le.mp hcon)
      exact absurd ((key _).mpr (Nat.le_ceil _)) (not_le.mpr h1)
    · exact Nat.ceil_le.mpr ((key n).mp hn.1)
  · intro fuel hf r
    have e := b.final_eq hD hf r
    have e' := b.final_eq hD le_rfl r
    have hl : (treeLoop b.kind b.prng b.tol' r fuel (treeInit b.kind b.prng b.key)).level = n := by
      rw [e, treeIter_level, piece_level, zero_add]
    refine ⟨hl, ?_, ?_⟩
    · rw [hl]; exact not_lt.mpr hn.1
    · unfold VBT.evaluateLeaf; rw [e, e']

/-- **C48.** The interval in which a query ends up contains the time, and the values between which it is bridged are
those that queries at the two ends get, on their own. -/
theorem C48_ends (b : VBT Key Y) (hg : ZeroCov b.prng) {n : ℕ} (hn : b.Depth n) (r : ℝ) (h0 : 0 ≤ r) (h1 : r ≤ 1) :
    let st := treeLoop b.kind b.prng b.tol' r n (treeInit b.kind b.prng b.key)
    (st.s ≤ r ∧ r ≤ st.s + st.len ∧ st.len = 2⁻¹ ^ n ∧ st.len ≤ b.tol') ∧
    (b.evaluateLeaf n st.s).piece = st.left ∧ (b.evaluateLeaf n (st.s + st.len)).piece = st.right := by
  intro st
  have hst : st = treeIter b.kind b.prng r n (treeInit b.kind b.prng b.key) := b.final_eq hn le_rfl r
  have hcons : ∀ m s0, Consistent b.kind s0 → Consistent b.kind (treeIter b.kind b.prng r m s0) := by
    intro m
    induction m with
    | zero => intro s0 h; exact h
    | succ m ih => intro s0 h; exact ih _ (treeBody_consistent _ _ _ _ h)
  have hwithin : ∀ m s0, Consistent b.kind s0 → s0.s ≤ r → r ≤ s0.s + s0.len →
      (treeIter b.kind b.prng r m s0).s ≤ r ∧ r ≤ (treeIter b.kind b.prng r m s0).s + (treeIter b.kind b.prng r m s0).len := by
    intro m
    induction m with
    | zero => intro s0 _ h h'; exact ⟨h, h'⟩
    | succ m ih =>
      intro s0 hc h h'
      apply ih _ (treeBody_consistent _ _ _ _ hc)
      · by_cases hr : s0.s + s0.len / 2 < r
        · rw [(treeBody_right _ _ _ _ hc hr).1]; exact hr.le
        · rw [(treeBody_left _ _ _ _ hc hr).1]; exact h
      · rw [treeBody_len]
        by_cases hr : s0.s + s0.len / 2 < r
        · rw [(treeBody_right _ _ _ _ hc hr).1]; linarith
        · rw [(treeBody_left _ _ _ _ hc hr).1]; linarith
  have hc0 := treeInit_consistent b.kind b.prng b.key
  have hlen : st.len = 2⁻¹ ^ n := by
    rw [hst, TreeState.len, treeIter_level, piece_level, zero_add]
  have hw := hwithin n _ hc0 (by rw [root_s]; exact h0) (by rw [root_s, root_len, zero_add]; exact h1)
  rw [← hst] at hw
  have hnode := fun y hy0 hy1 => treeIter_node b.kind b.prng hg r n 0 _ hc0 (by rw [root_s]; exact h0)
    (by rw [root_s, root_len, zero_add]; exact h1) y hy0 hy1
  rw [← hst, root_s, root_left, root_len] at hnode
  have hlp := len_pos st
  have hA := hnode 0 le_rfl hlp.le
  have hB := hnode st.len hlp.le le_rfl
  refine ⟨⟨hw.1, hw.2, hlen, by rw [hlen]; exact hn.1⟩, ?_, ?_⟩
  · rw [b.leaf_piece hn le_rfl hA.2.1 (by linarith [hA.2.2])]
    have h := hA.1
    rw [rel_zero b.kind _ hg _ _ hlp, chen_zero, sub_zero, add_zero, zero_chen] at h
    rw [h]; rfl
  · rw [b.leaf_piece hn le_rfl (by linarith [hB.2.1]) (by linarith [hB.2.2])]
    have hcs := hcons n _ hc0
    rw [← hst] at hcs
    have h := hB.1
    rw [rel_end b.kind _ hg _ _ hlp hcs.cell, sub_zero, zero_chen, ← hcs.right] at h
    rw [h]; rfl

/-- **C48.** A smaller tolerance adds detail only: at the multiples of `2^-n`, where `n` is the number of levels, the
value is the same for every smaller tolerance. -/
theorem C48_refine (b b' : VBT Key Y) (hg : ZeroCov b.prng) (hkind : b'.kind = b.kind) (hprng : b'.prng = b.prng)
    (hkey : b'.key = b.key) {n m : ℕ} (hn : b.Depth n) (hm : b'.Depth m) (htol : b'.tol' ≤ b.tol') (j : ℕ) (hj : j ≤ 2 ^ n) :
    (b'.evaluateLeaf m (j / 2 ^ n)).piece = (b.evaluateLeaf n (j / 2 ^ n)).piece := by
  have hnm : n ≤ m := by
    by_contra hcon
    have h1 := hn.2 m (not_le.mp hcon)
    linarith [hm.1]
  have h0 : (0 : ℝ) ≤ j / 2 ^ n := by positivity
  have h1 : (j : ℝ) / 2 ^ n ≤ 1 := by
    rw [div_le_one (by positivity)]; exact_mod_cast hj
  rw [b'.leaf_piece hm le_rfl h0 h1, b.leaf_piece hn le_rfl h0 h1]
  unfold VBT.at'
  rw [hkind, hprng, hkey]
  obtain ⟨k, rfl⟩ := Nat.exists_eq_add_of_le hnm
  have := rel_node b.kind b.prng hg n k (rootKey b.kind b.prng b.key) one_pos
    (treeInit_consistent b.kind b.prng b.key).cell j hj
  rwa [mul_one] at this

/-! ### C47 -/

/-- **C47.** Within `[t0, t1]` an increment is returned; outside of it there is an error. -/
theorem C47_range (b : VBT Key Y) (hb : b.t0 < b.t1) (fuel : ℕ) (s t : ℝ) :
    (∃ x, b.evaluate fuel s (some t) = .ok x ∧ x.dt = t - s) ↔ (b.t0 ≤ s ∧ s ≤ b.t1) ∧ (b.t0 ≤ t ∧ t ≤ b.t1) := by
  have hpos : 0 < b.t1 - b.t0 := by linarith
  have hin : ∀ t, ¬ (b.rescale t < 0 ∨ 1 < b.rescale t) ↔ (b.t0 ≤ t ∧ t ≤ b.t1) := by
    intro t
    rw [VBT.rescale_eq b hb]
    push Not
    rw [le_div_iff₀ hpos, div_le_one hpos]
    constructor <;> rintro ⟨h1, h2⟩ <;> constructor <;> linarith
  rw [← hin s, ← hin t]
  by_cases hs : b.rescale s < 0 ∨ 1 < b.rescale s
  · simp [VBT.evaluate, VBT.evaluate01, hs, bind, Except.bind]
  · by_cases ht : b.rescale t < 0 ∨ 1 < b.rescale t
    · simp [VBT.evaluate, VBT.evaluate01, hs, ht, bind, Except.bind]
    · simp only [VBT.evaluate, VBT.evaluate01, hs, ht, if_false, bind, Except.bind, pure, Except.pure, not_false_eq_true,
        and_self, iff_true]
      refine ⟨_, rfl, ?_⟩
      have : ∀ x y : LevyVal Y, (levyDiff b.kind b.eps x y).dt = y.dt - x.dt := by
        intro x y; unfold levyDiff; cases b.kind <;> rfl
      simp only [VBT.denormalise, this, VBT.leaf_dt]
      rw [VBT.rescale_eq b hb, VBT.rescale_eq b hb]
      field_simp
      ring

/-- **C47.** Increments add up, for any three times in any order and every kind of Lévy area. -/
theorem C47_increments (b : VBT Key Y) (fuel : ℕ) (s t u : ℝ) (x y z : Levy Y) (hx : b.evaluate fuel s (some t) = .ok x)
    (hy : b.evaluate fuel t (some u) = .ok y) (hz : b.evaluate fuel s (some u) = .ok z) :
    z.W = x.W + y.W ∧ z.dt = x.dt + y.dt := by
  by_cases hs : b.rescale s < 0 ∨ 1 < b.rescale s
  · simp [VBT.evaluate, VBT.evaluate01, hs, bind, Except.bind] at hx
  by_cases ht : b.rescale t < 0 ∨ 1 < b.rescale t
  · simp [VBT.evaluate, VBT.evaluate01, hs, ht, bind, Except.bind] at hx
  by_cases hu : b.rescale u < 0 ∨ 1 < b.rescale u
  · simp [VBT.evaluate, VBT.evaluate01, ht, hu, bind, Except.bind] at hy
  simp only [VBT.evaluate, VBT.evaluate01, hs, ht, hu, if_false, bind, Except.bind, pure, Except.pure,
    Except.ok.injEq] at hx hy hz
  have hW : ∀ x y : LevyVal Y, (levyDiff b.kind b.eps x y).W = y.W - x.W := by
    intro x y; unfold levyDiff; cases b.kind <;> rfl
  have hd : ∀ x y : LevyVal Y, (levyDiff b.kind b.eps x y).dt = y.dt - x.dt := by
    intro x y; unfold levyDiff; cases b.kind <;> rfl
  rw [← hx, ← hy, ← hz]
  simp only [VBT.denormalise, hW, hd]
  exact ⟨by module, by ring⟩

/-- **C47.** The increment from a time to itself is zero, and so are its Lévy areas. -/
theorem C47_zero (b : VBT Key Y) (heps : 0 < b.eps) (fuel : ℕ) (t : ℝ) (x : Levy Y)
    (hx : b.evaluate fuel t (some t) = .ok x) : x = ⟨0, 0, 0, 0⟩ := by
  by_cases ht : b.rescale t < 0 ∨ 1 < b.rescale t
  · simp [VBT.evaluate, VBT.evaluate01, ht, bind, Except.bind] at hx
  simp only [VBT.evaluate, VBT.evaluate01, ht, if_false, bind, Except.bind, pure, Except.pure, Except.ok.injEq] at hx
  rw [← hx]
  have hg0 : guardedInv b.eps 0 = 0 := by unfold guardedInv; rw [if_pos (by simpa using heps)]
  unfold levyDiff
  cases b.kind <;> simp [VBT.denormalise, hg0]

theorem guardedInv_sq {eps x : ℝ} (h : eps ≤ x ^ 2) : guardedInv eps (x ^ 2) = 1 / x ^ 2 := by
  unfold guardedInv
  rw [if_neg]
  rw [abs_of_nonneg (by positivity)]
  exact not_lt.mpr h

theorem guardedInv_of_sq {eps x : ℝ} (h : eps ≤ x ^ 2) (h0 : 0 ≤ x) (h1 : x ≤ 1) : guardedInv eps x = 1 / x := by
  unfold guardedInv
  rw [if_neg]
  rw [abs_of_nonneg h0]
  push Not
  nlinarith

section path
variable {E : Type} [NormedAddCommGroup E] [NormedSpace ℝ E] [CompleteSpace E]

/-- **C47.** All answers are about one path: for any times in `[t0, t1]` there is a continuous path such that each
increment between two of the times, and each Lévy area there is, are those of the path. The times are to be at least
the square root of the machine precision apart, relative to `t1 - t0`. -/
theorem C47_path (b : VBT Key E) (hb : b.t0 < b.t1) {n fuel : ℕ} (hn : b.Depth n) (hf : n ≤ fuel) (N : ℕ) (τ : ℕ → ℝ)
    (hτ : ∀ i j, i < j → j ≤ N → τ i < τ j) (h0 : b.t0 ≤ τ 0) (h1 : τ N ≤ b.t1)
    (hgap : ∀ i j, i < j → j ≤ N → b.eps ≤ ((τ j - τ i) / (b.t1 - b.t0)) ^ 2) :
    ∃ W : ℝ → E, Continuous W ∧ ∀ i j, i < j → j ≤ N → ∃ x, b.evaluate fuel (τ i) (some (τ j)) = .ok x ∧
      (x.dt, x.W) = ((levyOf W (τ i) (τ j)).1, (levyOf W (τ i) (τ j)).2.1) ∧
      (b.kind ≠ .increment → x.H = areaH W (τ i) (τ j)) ∧ (b.kind = .spaceTimeTime → x.K = areaK W (τ i) (τ j)) := by
  have hpos : 0 < b.t1 - b.t0 := by linarith
  have hlow : ∀ i, i ≤ N → b.t0 ≤ τ i := by
    intro i hi
    rcases Nat.eq_zero_or_pos i with rfl | h
    · exact h0
    · exact h0.trans (hτ 0 i h hi).le
  have hhigh : ∀ i, i ≤ N → τ i ≤ b.t1 := by
    intro i hi
    rcases hi.lt_or_eq with h | rfl
    · exact (hτ i N h le_rfl).le.trans h1
    · exact h1
  set len := b.t1 - b.t0 with hlen
  let D : ℕ → ℕ → LevyPiece E := fun i j =>
    cut .spaceTimeTime (b.rescale (τ i)) (b.at' n (b.rescale (τ i))) (b.rescale (τ j)) (b.at' n (b.rescale (τ j)))
  let L : ℕ → ℕ → ℝ × E × E × E := fun i j =>
    (τ j - τ i, √len • (D i j).W, (√len * (len / (τ j - τ i))) • (D i j).H, (√len * (len / (τ j - τ i)) ^ 2) • (D i j).K)
  have hr : ∀ i j, b.rescale (τ j) - b.rescale (τ i) = (τ j - τ i) / len := by
    intro i j
    rw [VBT.rescale_eq b hb, VBT.rescale_eq b hb, ← sub_div]; congr 1; ring
  have hChen : ∀ i j k, i < j → j < k → k ≤ N → ChenRel (L i j) (L j k) (L i k) := by
    intro i j k hij hjk hk
    have d1 : τ j - τ i ≠ 0 := (sub_pos.mpr (hτ i j hij (by omega))).ne'
    have d2 : τ k - τ j ≠ 0 := (sub_pos.mpr (hτ j k hjk hk)).ne'
    have d3 : τ k - τ i ≠ 0 := (sub_pos.mpr (hτ i k (by omega) hk)).ne'
    have hD : chen .spaceTimeTime ((τ j - τ i) / len) (D i j) ((τ k - τ j) / len) (D j k) = D i k := by
      rw [← hr, ← hr]; exact chen_cut_cut _ _ _ _ _ _ _
    have hDH : (D i k).H = _ := (congrArg LevyPiece.H hD).symm
    have hDW : (D i k).W = _ := (congrArg LevyPiece.W hD).symm
    have hDK : (D i k).K = _ := (congrArg LevyPiece.K hD).symm
    simp only [chen, LevyKind.a, LevyKind.k] at hDH hDW hDK
    refine ⟨?_, ?_, ?_, ?_⟩ <;> simp only [L]
    · ring
    · rw [hDW]; module
    · rw [hDH]; match_scalars <;> field_simp
    · rw [hDK]; match_scalars <;> field_simp
  obtain ⟨W, hW, hLW⟩ := exists_path τ L N hτ hChen fun i j _ _ => rfl
  refine ⟨W, hW, ?_⟩
  intro i j hij hj
  have d1 : 0 < τ j - τ i := sub_pos.mpr (hτ i j hij hj)
  have hLe := hLW i j hij hj
  have hgap' := hgap i j hij hj
  have hle1 : (τ j - τ i) / len ≤ 1 := by
    rw [div_le_one hpos]
    have := hlow i (by omega)
    have := hhigh j hj
    linarith
  refine ⟨_, VBT.evaluate_eq b hb hn hf (hlow i (by omega)) (hhigh i (by omega)) (hlow j hj) (hhigh j hj), ?_, ?_, ?_⟩
  · rw [hLe]
    simp only [L, D, VBT.inc, cut, hlen]
  · intro hk
    have hH : areaH W (τ i) (τ j) = (L i j).2.2.1 := by rw [← hLe]; rfl
    rw [hH, guardedInv_of_sq hgap' (by positivity) hle1]
    have ha : b.kind.a = 1 := by cases h : b.kind <;> simp_all [LevyKind.a]
    have ha' : LevyKind.spaceTimeTime.a = 1 := rfl
    simp only [L, D, VBT.inc, cut, ha, ha', smul_smul, hlen, one_div_div]
  · intro hk
    have hK : areaK W (τ i) (τ j) = (L i j).2.2.2 := by rw [← hLe]; rfl
    rw [hK, guardedInv_sq hgap']
    simp only [L, D, VBT.inc, hk, smul_smul, hlen, one_div, div_pow, inv_div]

end path

/-- **C47.** The value at a time, without a second time, is the increment from `t0` on. -/
theorem C47_value (b : VBT Key Y) (hb : b.t0 < b.t1) (hg : ZeroCov b.prng) {n fuel : ℕ} (hn : b.Depth n)
    (hf : n ≤ fuel) {t : ℝ} (h0 : b.t0 ≤ t) (h1 : t ≤ b.t1) :
    ∃ x y, b.evaluate fuel t none = .ok x ∧ b.evaluate fuel b.t0 (some t) = .ok y ∧ x.dt = y.dt ∧ x.W = y.W ∧
      (b.eps ≤ ((t - b.t0) / (b.t1 - b.t0)) ^ 2 → x = y) := by
  have hpos : 0 < b.t1 - b.t0 := by linarith
  have ht := b.rescale_mem hb h0 h1
  have e2 : ¬ (b.rescale t < 0 ∨ 1 < b.rescale t) := by push Not; exact ht
  have hz : b.rescale b.t0 = 0 := by rw [VBT.rescale_eq b hb]; simp
  have hinc : b.inc n (b.rescale b.t0) (b.rescale t) = b.at' n (b.rescale t) := by
    unfold VBT.inc
    rw [hz]
    have : b.at' n 0 = LevyPiece.zero := rel_zero _ _ hg _ _ one_pos _
    rw [this, cut_zero]
  have hp := b.leaf_piece hn hf ht.1 ht.2
  have hre : b.rescale t = (t - b.t0) / (b.t1 - b.t0) := VBT.rescale_eq b hb t
  refine ⟨b.denormalise (makeLevyVal (b.evaluateLeaf fuel (b.rescale t))), _, ?_,
    VBT.evaluate_eq b hb hn hf le_rfl hb.le h0 h1, ?_, ?_, ?_⟩
  · simp only [VBT.evaluate, VBT.evaluate01, if_neg e2, bind, Except.bind, pure, Except.pure]
  · simp only [VBT.denormalise, makeLevyVal, VBT.leaf_dt, hre]
    field_simp
  · simp only [hinc, ← hp]; rfl
  · intro hgap
    have hr0 : 0 ≤ (t - b.t0) / (b.t1 - b.t0) := by rw [← hre]; exact ht.1
    have hr1 : (t - b.t0) / (b.t1 - b.t0) ≤ 1 := by rw [← hre]; exact ht.2
    rw [guardedInv_sq hgap, guardedInv_of_sq hgap hr0 hr1]
    have hgi := guardedInv_of_sq hgap hr0 hr1
    rw [hinc, ← hp]
    have hH : (b.evaluateLeaf fuel (b.rescale t)).H = (1 / ((t - b.t0) / (b.t1 - b.t0))) • (b.evaluateLeaf fuel (b.rescale t)).piece.H
        ∧ (b.evaluateLeaf fuel (b.rescale t)).K = (1 / ((t - b.t0) / (b.t1 - b.t0)) ^ 2) • (b.evaluateLeaf fuel (b.rescale t)).piece.K := by
      rw [← hre] at hgi hgap ⊢
      unfold VBT.evaluateLeaf treeLeaf LevyVal.piece
      cases hk : b.kind
      · simp
      · simp [hgi]
      · simp only [if_neg (not_lt.mpr hgap), true_and]
        rw [div_pow, one_pow]
    have hd : (b.t1 - b.t0) * ((t - b.t0) / (b.t1 - b.t0)) = t - b.t0 := by field_simp
    simp only [VBT.denormalise, makeLevyVal, VBT.leaf_dt, hre, hd]
    rw [hre] at hH
    rw [hH.1, hH.2]
    rfl

/-! ### An instance -/

/-- A tree with two levels, of space-time-time Lévy area. -/
def sampleVBT : VBT (List ℕ) ℝ where
  t0 := 1
  t1 := 3
  tol := 1 / 2
  kind := .spaceTimeTime
  key := []
  prng := { split := fun k _ i => i :: k, normal := fun k => k.sum + 1,
            mvNormal := fun k C i => C i 0 * k.sum + C i 1 + C i 2 }
  eps := 1 / 10 ^ 6

theorem sampleVBT_depth : sampleVBT.Depth 2 := by
  constructor
  · norm_num [VBT.tol', sampleVBT]
  · intro m hm
    interval_cases m <;> norm_num [VBT.tol', sampleVBT]

theorem sampleVBT_zeroCov : ZeroCov sampleVBT.prng := by
  intro key i
  simp [sampleVBT]

example := C48_terminates sampleVBT (by norm_num [sampleVBT]) (by norm_num [sampleVBT])
example := C48_ends sampleVBT sampleVBT_zeroCov sampleVBT_depth (1 / 3) (by norm_num) (by norm_num)
example := C48_refine sampleVBT { sampleVBT with tol := 1 / 4 } sampleVBT_zeroCov rfl rfl rfl sampleVBT_depth (m := 3)
  (by constructor
      · norm_num [VBT.tol', sampleVBT]
      · intro m hm
        interval_cases m <;> norm_num [VBT.tol', sampleVBT]) (by norm_num [VBT.tol', sampleVBT]) 3 (by norm_num)
example := C47_path sampleVBT (by norm_num [sampleVBT]) sampleVBT_depth le_rfl 2 (fun i => 1 + i / 2)
  (by intro i j hij _; have : (i : ℝ) < j := by exact_mod_cast hij
      linarith) (by norm_num [sampleVBT]) (by norm_num [sampleVBT])
  (by intro i j hij _
      have : (i : ℝ) + 1 ≤ j := by exact_mod_cast hij
      have h2 : (1 / 4 : ℝ) ≤ (1 + (j : ℝ) / 2 - (1 + i / 2)) / (3 - 1) := by linarith
      have h3 : (1 / 4 : ℝ) ^ 2 ≤ ((1 + (j : ℝ) / 2 - (1 + i / 2)) / (3 - 1)) ^ 2 := pow_le_pow_left₀ (by norm_num) h2 2
      simp only [sampleVBT]
      norm_num at h3 ⊢
      linarith)
example : (∃ x, sampleVBT.evaluate 2 1 (some 2) = .ok x ∧ x.dt = 2 - 1) :=
  (C47_range sampleVBT (by norm_num [sampleVBT]) 2 1 2).mpr (by norm_num [sampleVBT])
example : ¬ ∃ x, sampleVBT.evaluate 2 0 (some 2) = .ok x ∧ x.dt = 2 - 0 := fun h => by
  have := (C47_range sampleVBT (by norm_num [sampleVBT]) 2 0 2).mp h
  norm_num [sampleVBT] at this
example := C47_value sampleVBT (by norm_num [sampleVBT]) sampleVBT_zeroCov sampleVBT_depth le_rfl (t := 2)
  (by norm_num [sampleVBT]) (by norm_num [sampleVBT])

end
end Verif
