import Verif.Lemmas.BrownianTree

/-!
# The Brownian tree, relative to the left end of the interval at hand
-/

namespace Verif
noncomputable section

variable {Key Y : Type} [AddCommGroup Y] [Module ℝ Y]

/-- The two halves. -/
def halves (kind : LevyKind) (g : Prng Key Y) (key : Key) (su : ℝ) (p : LevyPiece Y) : LevyPiece Y × LevyPiece Y :=
  let mid := g.split key 3 1
  match kind with
  | .spaceTimeTime => archSTT su p (√(su / 16) • g.normal (g.split mid 3 0)) (√(su / 768) • g.normal (g.split mid 3 1))
      (√(su / 2880) • g.normal (g.split mid 3 2))
  | .spaceTime => archST su p ((√su / 4) • g.normal (g.split mid 2 0)) (√(su / 12) • g.normal (g.split mid 2 1))
  | .increment => archI p ((√su / 2) • g.normal mid)

/-- The coefficients at a leaf, space-time case. -/
def leafD (su x : ℝ) : ℝ := √(x ^ 3 + (su - x) ^ 3)
def leafA (su x : ℝ) : ℝ := 1 / (2 * su * leafD su x) * x ^ 3 * √(x * (su - x))
def leafB (su x : ℝ) : ℝ := 1 / (2 * su * leafD su x) * (su - x) ^ 3 * √(x * (su - x))
def leafE (su x : ℝ) : ℝ := √(3 * x ^ 3 * (su - x) ^ 3) / (6 * leafD su x)

/-- The value at a leaf. -/
def leafPiece (kind : LevyKind) (g : Prng Key Y) (key : Key) (su : ℝ) (p : LevyPiece Y) (x : ℝ) : LevyPiece Y :=
  match kind with
  | .spaceTimeTime => leafSTT su p x (g.mvNormal key (leafCov x (su - x) su))
  | .spaceTime => leafST su p x ((2 * (leafA su x + leafB su x) / su) • g.normal (g.split key 2 0))
      (-(leafA su x • g.normal (g.split key 2 0)) + leafE su x • g.normal (g.split key 2 1))
  | .increment => leafI su p x (√(x * (su - x) / su) • g.normal key)

/-- The value at distance `x` from the left end, after `n` more halvings. -/
def rel (kind : LevyKind) (g : Prng Key Y) : ℕ → Key → ℝ → LevyPiece Y → ℝ → LevyPiece Y
  | 0, key, su, p, x => leafPiece kind g key su p x
  | n + 1, key, su, p, x =>
    if su / 2 < x then
      chen kind (su / 2) (halves kind g key su p).1 (x - su / 2)
        (rel kind g n (g.split key 3 0) (su / 2) (halves kind g key su p).2 (x - su / 2))
    else rel kind g n (g.split key 3 2) (su / 2) (halves kind g key su p).1 x

/-- Fields that are `None` are zero. -/
def Proper (kind : LevyKind) (p : LevyPiece Y) : Prop := (kind.a = 0 → p.H = 0) ∧ (kind.k = 0 → p.K = 0)

theorem halves_proper (kind : LevyKind) (g : Prng Key Y) (key : Key) (su : ℝ) (p : LevyPiece Y) :
    Proper kind (halves kind g key su p).1 ∧ Proper kind (halves kind g key su p).2 := by
  cases kind <;> simp [Proper, halves, archSTT, archST, archI, LevyKind.a, LevyKind.k]

theorem halves_chen (kind : LevyKind) (g : Prng Key Y) (key : Key) {su : ℝ} (hsu : su ≠ 0) {p : LevyPiece Y}
    (hp : Proper kind p) :
    chen kind (su / 2) (halves kind g key su p).1 (su / 2) (halves kind g key su p).2 = p := by
  cases kind
  · have h0 := hp.1 rfl
    have h1 := hp.2 rfl
    ext <;> simp only [chen, halves, archI, LevyKind.a, LevyKind.k, h0, h1] <;> module
  · have h1 := hp.2 rfl
    ext <;> simp only [chen, halves, archST, LevyKind.a, LevyKind.k, h1]
    · module
    · match_scalars <;> field_simp <;> ring
    · module
  · ext <;> simp only [chen, halves, archSTT, LevyKind.a, LevyKind.k]
    · module
    · match_scalars <;> field_simp <;> ring
    · match_scalars <;> field_simp <;> ring

/-! ### The loop -/

/-- The value from 0 up to the left end. -/
def TreeState.left (st : TreeState Key Y) : LevyPiece Y := ⟨st.w.s, st.bhh.s, st.bkk.s⟩
/-- The value from 0 up to the right end. -/
def TreeState.right (st : TreeState Key Y) : LevyPiece Y := ⟨st.w.u, st.bhh.u, st.bkk.u⟩
/-- The increment over the interval. -/
def TreeState.cell (st : TreeState Key Y) : LevyPiece Y := ⟨st.w.su, st.bhh.su, st.bkk.su⟩
def TreeState.len (st : TreeState Key Y) : ℝ := 2⁻¹ ^ st.level
def LevyVal.piece (x : LevyVal Y) : LevyPiece Y := ⟨x.W, x.barH, x.barK⟩

/-- The state is consistent. -/
structure Consistent (kind : LevyKind) (st : TreeState Key Y) : Prop where
  left : Proper kind st.left
  cell : Proper kind st.cell
  right : st.right = chen kind st.s st.left st.len st.cell

theorem len_pos (st : TreeState Key Y) : 0 < st.len := by unfold TreeState.len; positivity

theorem treeBody_len (kind : LevyKind) (g : Prng Key Y) (r : ℝ) (st : TreeState Key Y) :
    (treeBody kind g r st).len = st.len / 2 := by
  simp only [TreeState.len, treeBody]; rw [pow_succ]; ring

theorem arch_t (kind : LevyKind) (g : Prng Key Y) (st : TreeState Key Y) :
    (brownianArch kind g st).t = st.s + st.len / 2 := by
  cases kind <;> rfl

theorem arch_keys (kind : LevyKind) (g : Prng Key Y) (st : TreeState Key Y) :
    (brownianArch kind g st).keys = (g.split st.key 3 0, g.split st.key 3 2) := by
  cases kind <;> rfl

theorem arch_halves (kind : LevyKind) (g : Prng Key Y) (st : TreeState Key Y) :
    (⟨(brownianArch kind g st).wStTu.1, (brownianArch kind g st).bhhStTu.1, (brownianArch kind g st).bkkStTu.1⟩ : LevyPiece Y)
      = (halves kind g st.key st.len st.cell).1 ∧
    (⟨(brownianArch kind g st).wStTu.2, (brownianArch kind g st).bhhStTu.2, (brownianArch kind g st).bkkStTu.2⟩ : LevyPiece Y)
      = (halves kind g st.key st.len st.cell).2 := by
  cases kind <;> exact ⟨rfl, rfl⟩

theorem arch_mid (kind : LevyKind) (g : Prng Key Y) (st : TreeState Key Y) (hl : Proper kind st.left) :
    (⟨(brownianArch kind g st).wStu.2.1, (brownianArch kind g st).bhhStu.2.1, (brownianArch kind g st).bkkStu.2.1⟩ : LevyPiece Y)
      = chen kind st.s st.left (st.len / 2) (halves kind g st.key st.len st.cell).1 := by
  cases kind
  · have h0 : st.bhh.s = 0 := hl.1 rfl
    have h1 : st.bkk.s = 0 := hl.2 rfl
    ext <;> simp [chen, halves, archI, brownianArch, LevyKind.a, LevyKind.k, TreeState.left, h0, h1, TreeState.cell,
      TreeState.len]
  · have h1 : st.bkk.s = 0 := hl.2 rfl
    ext <;> simp only [chen, halves, archST, brownianArch, LevyKind.a, LevyKind.k, TreeState.left, h1, TreeState.cell,
      TreeState.len] <;> module
  · ext <;> simp only [chen, halves, archSTT, brownianArch, LevyKind.a, LevyKind.k, TreeState.left, TreeState.cell,
      TreeState.len] <;> module

theorem arch_ends (kind : LevyKind) (g : Prng Key Y) (st : TreeState Key Y) (hl : Proper kind st.left)
    (hr : Proper kind st.right) :
    (⟨(brownianArch kind g st).wStu.1, (brownianArch kind g st).bhhStu.1, (brownianArch kind g st).bkkStu.1⟩ : LevyPiece Y)
      = st.left ∧
    (⟨(brownianArch kind g st).wStu.2.2, (brownianArch kind g st).bhhStu.2.2, (brownianArch kind g st).bkkStu.2.2⟩ : LevyPiece Y)
      = st.right := by
  cases kind
  · have h0 : st.bhh.s = 0 := hl.1 rfl
    have h1 : st.bkk.s = 0 := hl.2 rfl
    have h2 : st.bhh.u = 0 := hr.1 rfl
    have h3 : st.bkk.u = 0 := hr.2 rfl
    simp [brownianArch, TreeState.left, TreeState.right, h0, h1, h2, h3]
  · have h1 : st.bkk.s = 0 := hl.2 rfl
    have h3 : st.bkk.u = 0 := hr.2 rfl
    simp [brownianArch, TreeState.left, TreeState.right, h1, h3]
  · simp [brownianArch, TreeState.left, TreeState.right]

theorem chen_proper {kind : LevyKind} {h1 h2 : ℝ} {p q : LevyPiece Y} (hp : Proper kind p) (hq : Proper kind q) :
    Proper kind (chen kind h1 p h2 q) := by
  constructor
  · intro h; simp [chen, hp.1 h, hq.1 h, h]
  · intro h; simp [chen, hp.2 h, hq.2 h, h]

/-- One step to the right. -/
theorem treeBody_right (kind : LevyKind) (g : Prng Key Y) (r : ℝ) (st : TreeState Key Y) (hst : Consistent kind st)
    (hr : st.s + st.len / 2 < r) :
    (treeBody kind g r st).s = st.s + st.len / 2 ∧ (treeBody kind g r st).key = g.split st.key 3 0 ∧
    (treeBody kind g r st).left = chen kind st.s st.left (st.len / 2) (halves kind g st.key st.len st.cell).1 ∧
    (treeBody kind g r st).cell = (halves kind g st.key st.len st.cell).2 ∧
    (treeBody kind g r st).right = st.right := by
  have hc : decide ((brownianArch kind g st).t < r) = true := by rw [arch_t]; simpa using hr
  have hR : Proper kind st.right := by rw [hst.right]; exact chen_proper hst.left hst.cell
  rw [← arch_mid kind g st hst.left, ← (arch_halves kind g st).2, ← (arch_ends kind g st hst.left hR).2, ← arch_t kind g]
  simp [treeBody, hc, splitInterval, arch_keys, TreeState.left, TreeState.right, TreeState.cell]

/-- One step to the left. -/
theorem treeBody_left (kind : LevyKind) (g : Prng Key Y) (r : ℝ) (st : TreeState Key Y) (hst : Consistent kind st)
    (hr : ¬ st.s + st.len / 2 < r) :
    (treeBody kind g r st).s = st.s ∧ (treeBody kind g r st).key = g.split st.key 3 2 ∧
    (treeBody kind g r st).left = st.left ∧
    (treeBody kind g r st).cell = (halves kind g st.key st.len st.cell).1 ∧
    (treeBody kind g r st).right = chen kind st.s st.left (st.len / 2) (halves kind g st.key st.len st.cell).1 := by
  have hc : decide ((brownianArch kind g st).t < r) = false := by rw [arch_t]; simpa using hr
  have hR : Proper kind st.right := by rw [hst.right]; exact chen_proper hst.left hst.cell
  rw [← arch_mid kind g st hst.left, ← (arch_halves kind g st).1]
  have := (arch_ends kind g st hst.left hR).1
  simp only [TreeState.left, LevyPiece.mk.injEq] at this
  simp [treeBody, hc, splitInterval, arch_keys, TreeState.left, TreeState.right, TreeState.cell, this]

theorem treeBody_consistent (kind : LevyKind) (g : Prng Key Y) (r : ℝ) (st : TreeState Key Y)
    (hst : Consistent kind st) : Consistent kind (treeBody kind g r st) := by
  have hh := halves_proper kind g st.key st.len st.cell
  by_cases hr : st.s + st.len / 2 < r
  · obtain ⟨h1, h2, h3, h4, h5⟩ := treeBody_right kind g r st hst hr
    refine ⟨?_, ?_, ?_⟩
    · rw [h3]; exact chen_proper hst.left hh.1
    · rw [h4]; exact hh.2
    · rw [h5, h1, h3, h4, treeBody_len, chen_assoc, add_halves,
        halves_chen kind g st.key (len_pos st).ne' hst.cell, hst.right]
  · obtain ⟨h1, h2, h3, h4, h5⟩ := treeBody_left kind g r st hst hr
    refine ⟨?_, ?_, ?_⟩
    · rw [h3]; exact hst.left
    · rw [h4]; exact hh.1
    · rw [h5, h1, h3, h4, treeBody_len]

theorem treeInit_consistent (kind : LevyKind) (g : Prng Key Y) (key : Key) : Consistent kind (treeInit kind g key) := by
  refine ⟨?_, ?_, ?_⟩
  · cases kind <;> simp [treeInit, Proper, TreeState.left]
  · cases kind <;> simp [treeInit, Proper, TreeState.cell, LevyKind.a, LevyKind.k]
  · have h1 : (treeInit kind g key).left = LevyPiece.zero := by cases kind <;> rfl
    have h2 : (treeInit kind g key).s = 0 := by cases kind <;> rfl
    have h3 : (treeInit kind g key).right = (treeInit kind g key).cell := by cases kind <;> rfl
    rw [h1, h2, h3, zero_chen]

/-- The value at a leaf. -/
theorem treeLeaf_piece (kind : LevyKind) (g : Prng Key Y) (eps r : ℝ) (st : TreeState Key Y) (hst : Consistent kind st)
    (h0 : st.s ≤ r) (h1 : r ≤ st.s + st.len) :
    (treeLeaf kind g eps r st).piece
      = chen kind st.s st.left (r - st.s) (leafPiece kind g st.key st.len st.cell (r - st.s)) := by
  have e1 : max (r - st.s) 0 = r - st.s := max_eq_left (by linarith)
  have e2 : max (2⁻¹ ^ st.level - (r - st.s)) 0 = st.len - (r - st.s) := max_eq_left (by unfold TreeState.len at h1; linarith)
  cases kind
  · have h0 : st.bhh.s = 0 := hst.left.1 rfl
    have h1 : st.bkk.s = 0 := hst.left.2 rfl
    simp only [treeLeaf, e1, e2]
    ext <;> simp only [LevyVal.piece, chen, leafPiece, leafI, TreeState.left, TreeState.cell, TreeState.len, LevyKind.a,
      LevyKind.k, h0, h1] <;> module
  · have h1 : st.bkk.s = 0 := hst.left.2 rfl
    simp only [treeLeaf, e1, e2]
    ext <;> simp only [LevyVal.piece, chen, leafPiece, leafST, TreeState.left, TreeState.cell, TreeState.len, LevyKind.a,
      LevyKind.k, h1, leafA, leafB, leafE, leafD] <;> module
  · simp only [treeLeaf, e1, e2]
    ext <;> simp only [LevyVal.piece, chen, leafPiece, leafSTT, TreeState.left, TreeState.cell, TreeState.len, LevyKind.a,
      LevyKind.k] <;> module

/-- `n` steps of the loop. -/
def treeIter (kind : LevyKind) (g : Prng Key Y) (r : ℝ) : ℕ → TreeState Key Y → TreeState Key Y
  | 0, st => st
  | n + 1, st => treeIter kind g r n (treeBody kind g r st)

/-- The value after `n` steps and a leaf. -/
theorem treeIter_piece (kind : LevyKind) (g : Prng Key Y) (eps r : ℝ) (n : ℕ) (st : TreeState Key Y)
    (hst : Consistent kind st) (h0 : st.s ≤ r) (h1 : r ≤ st.s + st.len) :
    (treeLeaf kind g eps r (treeIter kind g r n st)).piece
      = chen kind st.s st.left (r - st.s) (rel kind g n st.key st.len st.cell (r - st.s)) := by
  induction n generalizing st with
  | zero => exact treeLeaf_piece kind g eps r st hst h0 h1
  | succ n ih =>
    have hc := treeBody_consistent kind g r st hst
    have hl := treeBody_len kind g r st
    by_cases hr : st.s + st.len / 2 < r
    · obtain ⟨e1, e2, e3, e4, e5⟩ := treeBody_right kind g r st hst hr
      rw [treeIter, ih _ hc (by rw [e1]; exact hr.le) (by rw [e1, hl]; linarith), e1, e2, e3, e4, hl, chen_assoc, rel,
        if_pos (by linarith)]
      have : r - (st.s + st.len / 2) = r - st.s - st.len / 2 := by ring
      rw [this]
      congr 1
      ring
    · obtain ⟨e1, e2, e3, e4, e5⟩ := treeBody_left kind g r st hst hr
      rw [treeIter, ih _ hc (by rw [e1]; exact h0) (by rw [e1, hl]; linarith), e1, e2, e3, e4, hl, rel,
        if_neg (by linarith)]

theorem treeIter_level (kind : LevyKind) (g : Prng Key Y) (r : ℝ) (n : ℕ) (st : TreeState Key Y) :
    (treeIter kind g r n st).level = st.level + n := by
  induction n generalizing st with
  | zero => rfl
  | succ n ih => rw [treeIter, ih]; simp [treeBody]; omega

/-- The loop stops at the first level at which the interval is at most `tol` long. -/
theorem treeLoop_eq (kind : LevyKind) (g : Prng Key Y) (tol r : ℝ) (n fuel : ℕ) (st : TreeState Key Y)
    (hlt : ∀ m < n, tol < (2⁻¹ : ℝ) ^ (st.level + m)) (hle : (2⁻¹ : ℝ) ^ (st.level + n) ≤ tol) (hf : n ≤ fuel) :
    treeLoop kind g tol r fuel st = treeIter kind g r n st := by
  induction n generalizing fuel st with
  | zero =>
    cases fuel with
    | zero => rfl
    | succ f => rw [treeLoop, if_neg (by simpa using hle), treeIter]
  | succ n ih =>
    cases fuel with
    | zero => omega
    | succ f =>
      rw [treeLoop, if_pos (by simpa using hlt 0 (by omega)), treeIter]
      apply ih
      · intro m hm
        have := hlt (m + 1) (by omega)
        have e : st.level + (m + 1) = (treeBody kind g r st).level + m := by simp [treeBody]; omega
        rwa [e] at this
      · have e : st.level + (n + 1) = (treeBody kind g r st).level + n := by simp [treeBody]; omega
        rwa [e] at hle
      · omega

end
end Verif
