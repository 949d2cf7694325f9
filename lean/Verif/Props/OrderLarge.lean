import Verif.Props.Order
import Verif.Model.Tableaus

/-!
# C61 for the solvers with many order conditions
-/

set_option maxRecDepth 100000

namespace Verif
open Tab

/-- **C61.** `KenCarp5`: order 5, for both terms together. The coefficients are only given to about
twelve digits. -/
theorem C61_kencarp5 :
    StepOrder ![KenCarp5.explicit, KenCarp5.implicit] 5 (4 / 10 ^ 12) 4 (1 / 10 ^ 13) :=
  stepOrder_of_check _ 8 KenCarp5.explicit.abscissa (by decide +kernel) (1 / 10 ^ 10) 4 (4 / 10 ^ 12)
    (by decide +kernel) 3 (1 / 10 ^ 13) (by decide +kernel)

/-- **C61.** `Dopri8`: order 8, error estimate of order 8. -/
theorem C61_dopri8 : StepOrder ![Dopri8.tableau] 8 (1 / 10 ^ 16) 7 (1 / 10 ^ 16) :=
  stepOrder_of_check _ 14 Dopri8.tableau.abscissa (by decide +kernel) (1 / 10 ^ 10) 7 (1 / 10 ^ 16)
    (by decide +kernel) 6 (1 / 10 ^ 16) (by decide +kernel)

end Verif
