import Verif.Model.Brownian
import Mathlib.LinearAlgebra.BilinearForm.Basic
import Mathlib.LinearAlgebra.Span.Basic
import Mathlib.Tactic.LinearCombination
import Mathlib.Tactic.FieldSimp
import Mathlib.Tactic.Positivity
import Mathlib.Tactic.Module
import Mathlib.Algebra.BigOperators.Fin

/-!
# Lemmas about the Brownian tree

A `LevyPiece` is an increment over an interval together with its Lévy areas multiplied by the length (for `H`) and the
square of the length (for `K`). Pieces over adjacent intervals are put together by `chen`, and taken apart by `cut`.
-/

namespace Verif
noncomputable section

/-- An increment over an interval of length `h`, with `h H` and `h² K`. -/
@[ext] structure LevyPiece (Y : Type) where
  W : Y
  H : Y
  K : Y

/-- Is there a space-time area? -/
def LevyKind.a : LevyKind → ℝ
  | .increment => 0
  | .spaceTime => 1
  | .spaceTimeTime => 1

/-- Is there a space-time-time area? -/
def LevyKind.k : LevyKind → ℝ
  | .increment => 0
  | .spaceTime => 0
  | .spaceTimeTime => 1

theorem LevyKind.a_sq (kind : LevyKind) : kind.a * kind.a = kind.a := by cases kind <;> simp [LevyKind.a]
theorem LevyKind.k_sq (kind : LevyKind) : kind.k * kind.k = kind.k := by cases kind <;> simp [LevyKind.k]
theorem LevyKind.a_k (kind : LevyKind) : kind.a * kind.k = kind.k := by cases kind <;> simp [LevyKind.a, LevyKind.k]

variable {Key Y : Type} [AddCommGroup Y] [Module ℝ Y]

/-- Chen's relation. -/
def chen (kind : LevyKind) (h1 : ℝ) (p : LevyPiece Y) (h2 : ℝ) (q : LevyPiece Y) : LevyPiece Y :=
  { W := p.W + q.W
    H := p.H + q.H + (kind.a / 2) • (h2 • p.W - h1 • q.W)
    K := p.K + q.K + (kind.k / 2) • (h2 • p.H - h1 • q.H) + (kind.k * (h2 - h1) / 12) • (h2 • p.W - h1 • q.W) }

/-- What comes after `p` (of length `h1`) in `q` (of length `h`). -/
def cut (kind : LevyKind) (h1 : ℝ) (p : LevyPiece Y) (h : ℝ) (q : LevyPiece Y) : LevyPiece Y :=
  let W := q.W - p.W
  let H := q.H - p.H - (kind.a / 2) • ((h - h1) • p.W - h1 • W)
  { W := W, H := H
    K := q.K - p.K - (kind.k / 2) • ((h - h1) • p.H - h1 • H)
      - (kind.k * (h - 2 * h1) / 12) • ((h - h1) • p.W - h1 • W) }

def LevyPiece.zero : LevyPiece Y := ⟨0, 0, 0⟩

theorem chen_cut (kind : LevyKind) (h1 h : ℝ) (p q : LevyPiece Y) : chen kind h1 p (h - h1) (cut kind h1 p h q) = q := by
  have e : h - h1 - h1 = h - 2 * h1 := by ring
  ext <;> simp only [chen, cut, e] <;> module

theorem cut_chen (kind : LevyKind) (h1 h2 : ℝ) (p q : LevyPiece Y) :
    cut kind h1 p (h1 + h2) (chen kind h1 p h2 q) = q := by
  cases kind <;> ext <;> simp only [chen, cut, LevyKind.a, LevyKind.k] <;> module

theorem chen_assoc (kind : LevyKind) (h1 h2 h3 : ℝ) (p q r : LevyPiece Y) :
    chen kind (h1 + h2) (chen kind h1 p h2 q) h3 r = chen kind h1 p (h2 + h3) (chen kind h2 q h3 r) := by
  cases kind <;> ext <;> simp only [chen, LevyKind.a, LevyKind.k] <;> module

theorem chen_zero (kind : LevyKind) (h : ℝ) (p : LevyPiece Y) : chen kind h p 0 LevyPiece.zero = p := by
  ext <;> simp [chen, LevyPiece.zero]

theorem zero_chen (kind : LevyKind) (h : ℝ) (p : LevyPiece Y) : chen kind 0 LevyPiece.zero h p = p := by
  ext <;> simp [chen, LevyPiece.zero]

theorem cut_zero (kind : LevyKind) (h : ℝ) (p : LevyPiece Y) : cut kind 0 LevyPiece.zero h p = p := by
  ext <;> simp [cut, LevyPiece.zero]

/-- Cutting in two steps. -/
theorem cut_cut (kind : LevyKind) (h1 h2 h : ℝ) (p q r : LevyPiece Y) :
    cut kind (h2 - h1) (cut kind h1 p h2 q) (h - h1) (cut kind h1 p h r) = cut kind h2 q h r := by
  cases kind <;> ext <;> simp only [cut, LevyKind.a, LevyKind.k] <;> module

theorem chen_cut_cut (kind : LevyKind) (h1 h2 h : ℝ) (p q r : LevyPiece Y) :
    chen kind (h2 - h1) (cut kind h1 p h2 q) (h - h2) (cut kind h2 q h r) = cut kind h1 p h r := by
  cases kind <;> ext <;> simp only [chen, cut, LevyKind.a, LevyKind.k] <;> module

/-- A common first part can be dropped. -/
theorem cut_chen_chen (kind : LevyKind) (s x x' : ℝ) (p q r : LevyPiece Y) :
    cut kind (s + x) (chen kind s p x q) (s + x') (chen kind s p x' r) = cut kind x q x' r := by
  cases kind <;> ext <;> simp only [chen, cut, LevyKind.a, LevyKind.k] <;> module

/-! ### Second moments -/

section moments
variable (c : LinearMap.BilinForm ℝ Y)

/-- The second moments of a Brownian increment of length `h` with its areas. -/
structure Good (kind : LevyKind) (h : ℝ) (p : LevyPiece Y) : Prop where
  ww : c p.W p.W = h
  hh : c p.H p.H = kind.a * (h ^ 3 / 12)
  kk : c p.K p.K = kind.k * (h ^ 5 / 720)
  wh : c p.W p.H = 0
  wk : c p.W p.K = 0
  hk : c p.H p.K = 0

/-- Every component of `p` is orthogonal to every component of `q`. -/
structure Perp (p q : LevyPiece Y) : Prop where
  ww : c p.W q.W = 0
  wh : c p.W q.H = 0
  wk : c p.W q.K = 0
  hw : c p.H q.W = 0
  hh : c p.H q.H = 0
  hk : c p.H q.K = 0
  kw : c p.K q.W = 0
  kh : c p.K q.H = 0
  kk : c p.K q.K = 0

variable {c}

theorem Perp.symm (hc : ∀ x y, c x y = c y x) {p q : LevyPiece Y} (h : Perp c p q) : Perp c q p :=
  ⟨by rw [hc, h.ww], by rw [hc, h.hw], by rw [hc, h.kw], by rw [hc, h.wh], by rw [hc, h.hh], by rw [hc, h.kh],
    by rw [hc, h.wk], by rw [hc, h.hk], by rw [hc, h.kk]⟩

/-- Adjacent independent pieces give a piece with the right moments. -/
theorem Good.chen (hc : ∀ x y, c x y = c y x) {kind : LevyKind} {h1 h2 : ℝ} {p q : LevyPiece Y} (hp : Good c kind h1 p)
    (hq : Good c kind h2 q) (h : Perp c p q) : Good c kind (h1 + h2) (chen kind h1 p h2 q) := by
  have hs := h.symm hc
  have e1 := hp.wh; have e2 := hp.wk; have e3 := hp.hk
  have f1 := hq.wh; have f2 := hq.wk; have f3 := hq.hk
  have e1' := e1; have e2' := e2; have e3' := e3
  have f1' := f1; have f2' := f2; have f3' := f3
  rw [hc] at e1' e2' e3' f1' f2' f3'
  cases kind <;> constructor <;>
  simp only [Verif.chen, map_add, map_sub, map_smul, add_apply, sub_apply, LinearMap.add_apply, LinearMap.sub_apply, LinearMap.smul_apply,
    smul_eq_mul, hp.ww, hp.hh, hp.kk, e1, e2, e3, e1', e2', e3', hq.ww, hq.hh, hq.kk, f1, f2, f3, f1', f2', f3',
    h.ww, h.wh, h.wk, h.hw, h.hh, h.hk, h.kw, h.kh, h.kk, hs.ww, hs.wh, hs.wk, hs.hw, hs.hh, hs.hk, hs.kw, hs.kh,
    hs.kk, LevyKind.a, LevyKind.k] <;> ring

/-- The two halves made by the arch in the space-time-time case. -/
def archSTT (su : ℝ) (p : LevyPiece Y) (z x1 x2 : Y) : LevyPiece Y × LevyPiece Y :=
  (⟨(1 / 2 : ℝ) • p.W + ((3 / (2 * su)) • p.H + z),
    ((1 / 8 : ℝ) • p.H - (su / 2 / 2) • z) + ((15 / (8 * su)) • p.K + (su / 2) • x1),
    ((1 / 32 : ℝ) • p.K - (su ^ 2 / 8) • x1) + (su ^ 2 / 4) • x2⟩,
   ⟨(1 / 2 : ℝ) • p.W - ((3 / (2 * su)) • p.H + z),
    ((1 / 8 : ℝ) • p.H - (su / 2 / 2) • z) - ((15 / (8 * su)) • p.K + (su / 2) • x1),
    ((1 / 32 : ℝ) • p.K - (su ^ 2 / 8) • x1) - (su ^ 2 / 4) • x2⟩)

/-- The two halves made by the arch in the space-time case. -/
def archST (su : ℝ) (p : LevyPiece Y) (z n : Y) : LevyPiece Y × LevyPiece Y :=
  (⟨(1 / 2 : ℝ) • p.W + ((3 / (2 * su)) • p.H + z), ((1 / 8 : ℝ) • p.H - (su / 4) • z) + (su / 4) • n, 0⟩,
   ⟨(1 / 2 : ℝ) • p.W - ((3 / (2 * su)) • p.H + z), ((1 / 8 : ℝ) • p.H - (su / 4) • z) - (su / 4) • n, 0⟩)

/-- The two halves made by the arch for the increment alone. -/
def archI (p : LevyPiece Y) (n : Y) : LevyPiece Y × LevyPiece Y :=
  (⟨(1 / 2 : ℝ) • p.W + n, 0, 0⟩, ⟨(1 / 2 : ℝ) • p.W - n, 0, 0⟩)

/-- `x` is orthogonal to every component of `p`. -/
structure PerpV (c : LinearMap.BilinForm ℝ Y) (p : LevyPiece Y) (x : Y) : Prop where
  w : c p.W x = 0
  h : c p.H x = 0
  k : c p.K x = 0

theorem archSTT_good (hc : ∀ x y, c x y = c y x) {su : ℝ} (hsu : su ≠ 0) {p : LevyPiece Y} (hp : Good c .spaceTimeTime su p)
    {z x1 x2 : Y} (hz : PerpV c p z) (h1 : PerpV c p x1) (h2 : PerpV c p x2) (zz : c z z = su / 16)
    (e11 : c x1 x1 = su / 768) (e22 : c x2 x2 = su / 2880) (z1 : c z x1 = 0) (z2 : c z x2 = 0) (e12 : c x1 x2 = 0) :
    Good c .spaceTimeTime (su / 2) (archSTT su p z x1 x2).1 ∧ Good c .spaceTimeTime (su / 2) (archSTT su p z x1 x2).2 ∧
      Perp c (archSTT su p z x1 x2).1 (archSTT su p z x1 x2).2 := by
  have e1 := hp.wh; have e2 := hp.wk; have e3 := hp.hk
  have e1' := e1; have e2' := e2; have e3' := e3
  rw [hc] at e1' e2' e3'
  have a1 := hz.w; have a2 := hz.h; have a3 := hz.k
  have b1 := h1.w; have b2 := h1.h; have b3 := h1.k
  have c1 := h2.w; have c2 := h2.h; have c3 := h2.k
  have a1' := a1; have a2' := a2; have a3' := a3
  have b1' := b1; have b2' := b2; have b3' := b3
  have c1' := c1; have c2' := c2; have c3' := c3
  have z1' := z1; have z2' := z2; have e12' := e12
  rw [hc] at a1' a2' a3' b1' b2' b3' c1' c2' c3' z1' z2' e12'
  refine ⟨?_, ?_, ?_⟩ <;> constructor <;>
  simp only [archSTT, map_add, map_sub, map_smul, LinearMap.add_apply, LinearMap.sub_apply, LinearMap.smul_apply,
    smul_eq_mul, hp.ww, hp.hh, hp.kk, e1, e2, e3, e1', e2', e3', a1, a2, a3, b1, b2, b3, c1, c2, c3, a1', a2', a3',
    b1', b2', b3', c1', c2', c3', zz, e11, e22, z1, z2, e12, z1', z2', e12', LevyKind.a, LevyKind.k] <;>
  field_simp <;> ring

theorem archST_good (hc : ∀ x y, c x y = c y x) {su : ℝ} (hsu : su ≠ 0) {p : LevyPiece Y} (hp : Good c .spaceTime su p)
    {z n : Y} (hz : PerpV c p z) (h1 : PerpV c p n) (zz : c z z = su / 16) (nn : c n n = su / 12) (zn : c z n = 0) :
    Good c .spaceTime (su / 2) (archST su p z n).1 ∧ Good c .spaceTime (su / 2) (archST su p z n).2 ∧
      Perp c (archST su p z n).1 (archST su p z n).2 := by
  have e1 := hp.wh
  have e1' := e1
  rw [hc] at e1'
  have a1 := hz.w; have a2 := hz.h
  have b1 := h1.w; have b2 := h1.h
  have a1' := a1; have a2' := a2
  have b1' := b1; have b2' := b2
  have zn' := zn
  rw [hc] at a1' a2' b1' b2' zn'
  refine ⟨?_, ?_, ?_⟩ <;> constructor <;>
  simp only [archST, map_add, map_sub, map_smul, map_zero, LinearMap.add_apply, LinearMap.sub_apply, LinearMap.smul_apply,
    LinearMap.zero_apply, smul_eq_mul, hp.ww, hp.hh, e1, e1', a1, a2, b1, b2, a1', a2',
    b1', b2', zz, nn, zn, zn', LevyKind.a, LevyKind.k, zero_mul] <;>
  field_simp <;> ring

theorem archI_good (hc : ∀ x y, c x y = c y x) {su : ℝ} {p : LevyPiece Y} (hp : Good c .increment su p)
    {n : Y} (h1 : PerpV c p n) (nn : c n n = su / 4) :
    Good c .increment (su / 2) (archI p n).1 ∧ Good c .increment (su / 2) (archI p n).2 ∧
      Perp c (archI p n).1 (archI p n).2 := by
  have b1 := h1.w
  have b1' := b1
  rw [hc] at b1'
  refine ⟨?_, ?_, ?_⟩ <;> constructor <;>
  simp only [archI, map_add, map_sub, map_smul, map_zero, LinearMap.add_apply, LinearMap.sub_apply, LinearMap.smul_apply,
    LinearMap.zero_apply, smul_eq_mul, hp.ww, b1, b1', nn, LevyKind.a, LevyKind.k, zero_mul] <;> ring

/-- The leaf, space-time-time case: the value at distance `x` from the left end. -/
def leafSTT (su : ℝ) (p : LevyPiece Y) (x : ℝ) (hat : Fin 3 → Y) : LevyPiece Y :=
  let ru := su - x
  { W := (x / su) • p.W + ((6 * (x / su * (ru / su)) / su) • p.H
      + (120 * (x / su * (ru / su)) * (1 / 2 - x / su) / su ^ 2) • p.K) + hat 0
    H := x • (((x / su) ^ 2 / su) • (p.H + (30 * (ru / su) / su) • p.K) + hat 1)
    K := x ^ 2 • (((x / su) ^ 3 / su ^ 2) • p.K + hat 2) }

/-- The leaf, space-time case. -/
def leafST (su : ℝ) (p : LevyPiece Y) (x : ℝ) (hatW hatH : Y) : LevyPiece Y :=
  { W := (x / su) • p.W + (6 * x * (su - x) / su ^ 3) • p.H + hatW
    H := (x ^ 3 / su ^ 3) • p.H + hatH
    K := 0 }

/-- The leaf for the increment alone. -/
def leafI (su : ℝ) (p : LevyPiece Y) (x : ℝ) (bb : Y) : LevyPiece Y :=
  { W := (x / su) • p.W + bb, H := 0, K := 0 }

theorem leafI_good (hc : ∀ x y, c x y = c y x) {su : ℝ} (hsu : su ≠ 0) {p : LevyPiece Y} (hp : Good c .increment su p)
    {x : ℝ} {n : Y} (h1 : PerpV c p n) (nn : c n n = x * (su - x) / su) (h0 : p.H = 0) (k0 : p.K = 0) :
    Good c .increment x (leafI su p x n) ∧ Good c .increment (su - x) (cut .increment x (leafI su p x n) su p) ∧
      Perp c (leafI su p x n) (cut .increment x (leafI su p x n) su p) := by
  have b1 := h1.w
  have b1' := b1
  rw [hc] at b1'
  refine ⟨?_, ?_, ?_⟩ <;> constructor <;>
  simp only [leafI, cut, map_add, map_sub, map_smul, map_zero, LinearMap.add_apply, LinearMap.sub_apply,
    LinearMap.smul_apply,
    LinearMap.zero_apply, smul_eq_mul, hp.ww, b1, b1', nn, LevyKind.a, LevyKind.k, zero_mul, h0, k0, zero_div] <;>
  field_simp <;> ring

theorem leafST_good (hc : ∀ x y, c x y = c y x) {su : ℝ} (hsu : su ≠ 0) {p : LevyPiece Y} (hp : Good c .spaceTime su p)
    {x : ℝ} {w h : Y} (h1 : PerpV c p w) (h2 : PerpV c p h) (k0 : p.K = 0)
    (n11 : c w w = x * (su - x) * (x ^ 3 + (su - x) ^ 3) / su ^ 4) (n12 : c w h = -(x ^ 4 * (su - x)) / (2 * su ^ 3))
    (n22 : c h h = x ^ 3 * (su ^ 3 - x ^ 3) / (12 * su ^ 3)) :
    Good c .spaceTime x (leafST su p x w h) ∧ Good c .spaceTime (su - x) (cut .spaceTime x (leafST su p x w h) su p) ∧
      Perp c (leafST su p x w h) (cut .spaceTime x (leafST su p x w h) su p) := by
  have e1 := hp.wh
  have e1' := e1
  rw [hc] at e1'
  have a1 := h1.w; have a2 := h1.h
  have b1 := h2.w; have b2 := h2.h
  have a1' := a1; have a2' := a2
  have b1' := b1; have b2' := b2
  have zn' := n12
  rw [hc] at a1' a2' b1' b2' zn'
  refine ⟨?_, ?_, ?_⟩ <;> constructor <;>
  simp only [leafST, cut, map_add, map_sub, map_smul, map_zero, LinearMap.add_apply, LinearMap.sub_apply,
    LinearMap.smul_apply, LinearMap.zero_apply, smul_eq_mul, hp.ww, hp.hh, e1, e1', a1, a2, b1, b2, a1', a2',
    b1', b2', n11, n22, n12, zn', LevyKind.a, LevyKind.k, zero_mul, k0, zero_div] <;>
  field_simp <;> ring

set_option maxHeartbeats 2000000 in
theorem leafSTT_good (hc : ∀ x y, c x y = c y x) {su : ℝ} (hsu : su ≠ 0) {p : LevyPiece Y}
    (hp : Good c .spaceTimeTime su p) {x : ℝ} {hat : Fin 3 → Y} (hh : ∀ i, PerpV c p (hat i))
    (hC : ∀ i j, c (hat i) (hat j) = leafCov x (su - x) su i j) :
    Good c .spaceTimeTime x (leafSTT su p x hat) ∧
      Good c .spaceTimeTime (su - x) (cut .spaceTimeTime x (leafSTT su p x hat) su p) ∧
      Perp c (leafSTT su p x hat) (cut .spaceTimeTime x (leafSTT su p x hat) su p) := by
  have e1 := hp.wh; have e2 := hp.wk; have e3 := hp.hk
  have e1' := e1; have e2' := e2; have e3' := e3
  rw [hc] at e1' e2' e3'
  have aw := fun i => (hh i).w
  have ah := fun i => (hh i).h
  have ak := fun i => (hh i).k
  have aw' := fun i => (hc _ _).trans (aw i)
  have ah' := fun i => (hc _ _).trans (ah i)
  have ak' := fun i => (hc _ _).trans (ak i)
  have c00 : c (hat 0) (hat 0) = _ := hC 0 0
  have c01 : c (hat 0) (hat 1) = _ := hC 0 1
  have c02 : c (hat 0) (hat 2) = _ := hC 0 2
  have c10 : c (hat 1) (hat 0) = _ := hC 1 0
  have c11 : c (hat 1) (hat 1) = _ := hC 1 1
  have c12 : c (hat 1) (hat 2) = _ := hC 1 2
  have c20 : c (hat 2) (hat 0) = _ := hC 2 0
  have c21 : c (hat 2) (hat 1) = _ := hC 2 1
  have c22 : c (hat 2) (hat 2) = _ := hC 2 2
  clear hh hC
  simp only [leafCov, Matrix.cons_val_zero, Matrix.cons_val_one, Matrix.cons_val] at c00 c01 c02 c10 c11 c12 c20 c21 c22
  obtain ⟨θ, rfl⟩ : ∃ θ, x = θ * su := ⟨x / su, by field_simp⟩
  have f1 : θ * su / su = θ := by field_simp
  have f2 : (su - θ * su) / su = 1 - θ := by field_simp
  simp only [f1, f2] at c00 c01 c02 c10 c11 c12 c20 c21 c22
  refine ⟨?_, ?_, ?_⟩ <;> constructor <;>
  simp only [leafSTT, cut, map_add, map_sub, map_smul, LinearMap.add_apply, LinearMap.sub_apply, LinearMap.smul_apply,
    smul_eq_mul, hp.ww, hp.hh, hp.kk, e1, e2, e3, e1', e2', e3', aw, ah, ak, aw', ah', ak', c00, c01, c02, c10, c11,
    c12, c20, c21, c22, LevyKind.a, LevyKind.k, f1, f2] <;>
  field_simp <;> ring

/-- The covariance used at a leaf is one. -/
theorem leafCov_nonneg {su x : ℝ} (hsu : 0 < su) (h0 : 0 ≤ x) (h1 : x ≤ su) (v : Fin 3 → ℝ) :
    0 ≤ ∑ i, ∑ j, v i * v j * leafCov x (su - x) su i j := by
  obtain ⟨θ, rfl⟩ : ∃ θ, x = θ * su := ⟨x / su, by field_simp⟩
  have f1 : θ * su / su = θ := by field_simp
  have f2 : (su - θ * su) / su = 1 - θ := by field_simp
  have hθ : 0 ≤ θ := nonneg_of_mul_nonneg_left h0 hsu
  have hφ : 0 ≤ 1 - θ := by
    have : 0 ≤ (1 - θ) * su := by linarith
    exact nonneg_of_mul_nonneg_left this hsu
  have key : ∑ i, ∑ j, v i * v j * leafCov (θ * su) (su - θ * su) su i j = su * (
      θ * (v 0 * ((1 - θ) - 6 * θ * (1 - θ) * (1 - θ) / 2 - 60 * θ * (1 - θ) * (1 - 2 * θ) * (1 - 2 * θ) * (1 - θ) / 12)
        - v 1 * θ ^ 2 * ((1 - θ) / 2 + 30 * (1 - θ) * (1 - 2 * θ) * (1 - θ) / 12)
        - v 2 * θ ^ 3 * (1 - 2 * θ) * (1 - θ) / 12) ^ 2
      + (1 - θ) * (v 0 * (-θ + 6 * θ * (1 - θ) * θ / 2 + 60 * θ * (1 - θ) * (1 - 2 * θ) * (1 - 2 * θ) * θ / 12)
        + v 1 * θ ^ 2 * (θ / 2 + 30 * (1 - θ) * (1 - 2 * θ) * θ / 12)
        + v 2 * θ ^ 3 * (1 - 2 * θ) * θ / 12) ^ 2
      + θ / 12 * (v 0 * (θ * (-(6 * θ * (1 - θ)) - 60 * θ * (1 - θ) * (1 - 2 * θ) * (1 - θ) / 2))
        + v 1 * (1 - θ ^ 3 * (1 + 15 * (1 - θ) ^ 2)) - v 2 * θ ^ 4 * (1 - θ) / 2) ^ 2
      + (1 - θ) ^ 3 / 12 * (v 0 * (-(6 * θ * (1 - θ)) + 60 * θ * (1 - θ) * (1 - 2 * θ) * θ / 2)
        - v 1 * θ ^ 2 * (1 - 15 * (1 - θ) * θ) + v 2 * θ ^ 4 / 2) ^ 2
      + θ / 720 * (-(v 0 * (θ ^ 2 * (60 * θ * (1 - θ) * (1 - 2 * θ)))) - v 1 * 30 * θ ^ 4 * (1 - θ)
        + v 2 * (1 - θ ^ 5)) ^ 2
      + (1 - θ) ^ 5 / 720 * (-(v 0 * (60 * θ * (1 - θ) * (1 - 2 * θ))) - v 1 * 30 * θ ^ 2 * (1 - θ)
        - v 2 * θ ^ 3) ^ 2) := by
    simp only [Fin.sum_univ_three, leafCov, f1, f2, Matrix.cons_val_zero, Matrix.cons_val_one, Matrix.cons_val]
    field_simp
    ring
  rw [key]
  positivity

end moments

end
end Verif
