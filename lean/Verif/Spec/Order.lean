import Mathlib.Analysis.Analytic.Basic
import Mathlib.Analysis.Calculus.Deriv.Basic
import Mathlib.Analysis.Analytic.Constructions
import Mathlib.Algebra.BigOperators.Fin
import Mathlib.Data.Fintype.Pi
import Mathlib.Data.Fintype.BigOperators

/-!
# Order of accuracy, independent of any implementation

Rooted ordered trees whose nodes are labelled with the parts of an additive differential equation
`y' = sum_p f_p(y)`, their elementary differentials, and the coefficients that the exact solution and
an (additive) Runge-Kutta method give to each of them.
-/

namespace Verif
open Finset

/-- Ordered rooted trees; each node is labelled by a part of the differential equation. -/
inductive PTree (ι : Type) where
  | node (p : ι) (n : ℕ) (ch : Fin n → PTree ι) : PTree ι

namespace PTree
variable {ι : Type} {K : Type}

/-- The number of nodes. -/
def order : PTree ι → ℕ
  | node _ _ ch => 1 + ∑ i, order (ch i)

/-- The label of the root. -/
def root : PTree ι → ι
  | node p _ _ => p

/-- The coefficient of the elementary differential in the Taylor series of the exact solution (one over
the density of the tree). -/
def exact [Field K] : PTree ι → K
  | node _ _ ch => (∏ i, exact (ch i)) / ((1 + ∑ i, order (ch i) : ℕ) : K)

/-- The coefficient of the elementary differential in the Taylor series of the vector field at stage
`j` of a Runge-Kutta method with `s` stages and coefficients `a p i j`. -/
def stageWeight [Field K] (s : ℕ) (a : ι → ℕ → ℕ → K) : PTree ι → ℕ → K
  | node _ _ ch => fun j => ∏ i, ∑ l ∈ range s, a (root (ch i)) j l * stageWeight s a (ch i) l

/-- The coefficient in `sum_p sum_j b_pj k_pj`. -/
def weight [Field K] (s : ℕ) (a : ι → ℕ → ℕ → K) (b : ι → ℕ → K) (t : PTree ι) : K :=
  ∑ j ∈ range s, b t.root j * t.stageWeight s a j

/-- The constructor, as an embedding. -/
def nodeEmb : (Σ _ : ι, Σ n : ℕ, Fin n → PTree ι) ↪ PTree ι where
  toFun x := node x.1 x.2.1 x.2.2
  inj' := by
    rintro ⟨p, n, r⟩ ⟨p', n', r'⟩ h
    simp only [node.injEq] at h
    obtain ⟨rfl, rfl, h⟩ := h
    obtain rfl := eq_of_heq h
    rfl

open Classical in
/-- All trees with at most `N` nodes. -/
noncomputable def upTo (ι : Type) [Fintype ι] : ℕ → Finset (PTree ι)
  | 0 => ∅
  | N + 1 => (((univ : Finset ι).sigma fun _ => (range (N + 1)).sigma fun n =>
      Fintype.piFinset fun _ : Fin n => upTo ι N).map nodeEmb).filter (fun t => t.order ≤ N + 1)

variable {E : Type} [NormedAddCommGroup E] [NormedSpace ℝ E]

/-- The elementary differential of a tree, from the Taylor series `F p` of the parts `f_p`. -/
noncomputable def diff (F : ι → FormalMultilinearSeries ℝ E E) : PTree ι → E
  | node p n ch => F p n (fun i => diff F (ch i))

end PTree

/-- `w` is (locally) a solution of `w' = sum_p f_p(y0 + w)`, `w(0) = 0`. -/
def IsFlow {ι E : Type} [Fintype ι] [NormedAddCommGroup E] [NormedSpace ℝ E] (f : ι → E → E) (y0 : E)
    (w : ℝ → E) : Prop :=
  w 0 = 0 ∧ ∀ᶠ h in nhds (0 : ℝ), HasDerivAt w (∑ p, f p (y0 + w h)) h

/-! ### Time-dependent equations -/

section
variable {m : ℕ} {E : Type} [NormedAddCommGroup E] [NormedSpace ℝ E]

/-- `y` is (locally) a solution of `y' = sum_p f_p(t, y)`, `y(t0) = y0`. -/
def SolvesODE (f : Fin m → ℝ → E → E) (t0 : ℝ) (y0 : E) (y : ℝ → E) : Prop :=
  y t0 = y0 ∧ ∀ᶠ t in nhds t0, HasDerivAt y (∑ p, f p t (y t)) t

/-- `t' = 1`, and the parts of `y' = sum_p f_p(t, y)`. -/
def autoField (f : Fin m → ℝ → E → E) : Fin (m + 1) → ℝ × E → ℝ × E :=
  Fin.cons (fun _ => (1, 0)) (fun p x => (0, f p x.1 x.2))

/-- The corresponding Taylor series. -/
noncomputable def autoSeries (G : Fin m → FormalMultilinearSeries ℝ (ℝ × E) E) :
    Fin (m + 1) → FormalMultilinearSeries ℝ (ℝ × E) (ℝ × E) :=
  Fin.cons (constFormalMultilinearSeries ℝ (ℝ × E) (1, 0))
    (fun p => (ContinuousLinearMap.inr ℝ ℝ E).compFormalMultilinearSeries (G p))

/-- `err h` is `O(h^(N+1))`, but for multiples, by numbers of size at most `ε`, of the elementary
differentials of the equation up to order `N`, each with its power of `h`. For `ε = 0`, this is
`O(h^(N+1))`. -/
def NearOrder (G : Fin m → FormalMultilinearSeries ℝ (ℝ × E) E) (N : ℕ) (ε : ℝ) (err : ℝ → E) : Prop :=
  ∃ d : PTree (Fin (m + 1)) → ℝ, (∀ t, |d t| ≤ ε) ∧ ∃ C : ℝ, ∀ᶠ h in nhds (0 : ℝ),
    ‖err h - ∑ t ∈ PTree.upTo (Fin (m + 1)) N, (d t * h ^ t.order) • (t.diff (autoSeries G)).2‖
      ≤ C * |h| ^ (N + 1)

end
end Verif
