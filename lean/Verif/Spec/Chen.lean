import Mathlib.Analysis.Normed.Module.Basic

/-!
# Chen's relation
-/

namespace Verif

variable {E : Type} [AddCommGroup E] [Module ℝ E]

/-- Chen's relation: `x` over `[s, t]`, `y` over `[t, u]` and `z` over `[s, u]`, each with `dt`, `W`, `H`, `K`. -/
structure ChenRel (x y z : ℝ × E × E × E) : Prop where
  dt : z.1 = x.1 + y.1
  W : z.2.1 = x.2.1 + y.2.1
  H : z.1 • z.2.2.1 = x.1 • x.2.2.1 + y.1 • y.2.2.1 + (1 / 2 : ℝ) • (y.1 • x.2.1 - x.1 • y.2.1)
  K : z.1 ^ 2 • z.2.2.2 = x.1 ^ 2 • x.2.2.2 + y.1 ^ 2 • y.2.2.2 + (x.1 * y.1 / 2) • (x.2.2.1 - y.2.2.1)
    + ((y.1 - x.1) / 12) • (y.1 • x.2.1 - x.1 • y.2.1)

end Verif
