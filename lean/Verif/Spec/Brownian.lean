import Verif.Model.Brownian
import Mathlib.Algebra.BigOperators.Fin

/-!
# The random numbers of an ideal generator

Keys are the ways in which they have been split off: a list of numbers, the last split first. The number of a new
key may or may not depend on how many keys are made at a time. All draws are linear in standard normals, one for each
key; a draw of three correlated normals uses three of them and a square root of the covariance.
-/

namespace Verif
open Finset

variable {Y : Type} [AddCommGroup Y] [Module ℝ Y]

/-- A choice of numbers for the new keys, and of square roots of covariances. -/
structure IdealPrng where
  code : ℕ → ℕ → ℕ
  code_inj : ∀ n i j, code n i = code n j → i = j
  root : (Fin 3 → Fin 3 → ℝ) → Fin 3 → Fin 3 → ℝ
  root_mul : ∀ C : Fin 3 → Fin 3 → ℝ, (∀ i j, C i j = C j i) → (∀ v : Fin 3 → ℝ, 0 ≤ ∑ i, ∑ j, v i * v j * C i j) →
    ∀ i j, ∑ k, root C i k * root C j k = C i j

/-- The generator. -/
noncomputable def IdealPrng.prng (d : IdealPrng) (normal : List ℕ → Y) : Prng (List ℕ) Y where
  split key n i := d.code n i :: key
  normal := normal
  mvNormal key C i := ∑ j, d.root C i j • normal (j.val :: key)

end Verif
