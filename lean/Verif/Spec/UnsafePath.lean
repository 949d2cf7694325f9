import Verif.Spec.Brownian

/-!
# Keys made by `jr.fold_in`

As with `split`, a key is the list of what was done to get to it. Folding in different data gives different keys.
-/

namespace Verif

/-- What `fold_in` adds to a key. -/
structure IdealFold where
  code : BitVec 32 → ℕ
  code_inj : Function.Injective code

/-- `fold_in`. -/
def IdealFold.foldIn (f : IdealFold) (key : List ℕ) (b : BitVec 32) : List ℕ := f.code b :: key

end Verif
