import Verif.Props.Order
import Verif.Model.Tableaus

/-!
# C61 for each of the solvers (see also `Props/OrderLarge.lean`)

`StepOrder tab N ε M δ`: the local error is `O(h^(N+1))` up to `ε`, and the error estimate `O(h^(M+1))`
up to `δ`. `ε` and `δ` are zero if the coefficients in the source are exact, and otherwise a bound on
what their truncation to some number of decimals amounts to.
-/

set_option maxRecDepth 100000

namespace Verif
open Tab

/-- **C61.** `Heun`: order 2. -/
theorem C61_heun : StepOrder ![Heun.tableau] 2 0 1 0 :=
  stepOrder_of_check _ 2 Heun.tableau.abscissa (by decide +kernel) 0 1 0 (by decide +kernel) 0 0
    (by decide +kernel)

/-- **C61.** `Midpoint`: order 2. -/
theorem C61_midpoint : StepOrder ![Midpoint.tableau] 2 0 1 0 :=
  stepOrder_of_check _ 2 Midpoint.tableau.abscissa (by decide +kernel) 0 1 0 (by decide +kernel) 0 0
    (by decide +kernel)

/-- **C61.** `Ralston`: order 2. -/
theorem C61_ralston : StepOrder ![Ralston.tableau] 2 0 1 0 :=
  stepOrder_of_check _ 2 Ralston.tableau.abscissa (by decide +kernel) 0 1 0 (by decide +kernel) 0 0
    (by decide +kernel)

/-- **C61.** `Bosh3`: order 3, error estimate of order 3. -/
theorem C61_bosh3 : StepOrder ![Bosh3.tableau] 3 0 2 0 :=
  stepOrder_of_check _ 4 Bosh3.tableau.abscissa (by decide +kernel) 0 2 0 (by decide +kernel) 1 0
    (by decide +kernel)

/-- **C61.** `Dopri5`: order 5, error estimate of order 5. -/
theorem C61_dopri5 : StepOrder ![Dopri5.tableau] 5 0 4 0 :=
  stepOrder_of_check _ 7 Dopri5.tableau.abscissa (by decide +kernel) 0 4 0 (by decide +kernel) 3 0
    (by decide +kernel)

/-- **C61.** `Tsit5`: order 5, error estimate of order 5, up to the 80th decimal. -/
theorem C61_tsit5 : StepOrder ![Tsit5.tableau] 5 (1 / 10 ^ 82) 4 (1 / 10 ^ 14) :=
  stepOrder_of_check _ 7 Tsit5.tableau.abscissa (by decide +kernel) 0 4 (1 / 10 ^ 82) (by decide +kernel)
    3 (1 / 10 ^ 14) (by decide +kernel)

/-- **C61.** `Kvaerno3`: order 3, error estimate of order 3. -/
theorem C61_kvaerno3 : StepOrder ![Kvaerno3.tableau] 3 0 2 0 :=
  stepOrder_of_check _ 4 Kvaerno3.tableau.abscissa (by decide +kernel) 0 2 0 (by decide +kernel) 1 0
    (by decide +kernel)

/-- **C61.** `Kvaerno4`: order 4, error estimate of order 4. -/
theorem C61_kvaerno4 : StepOrder ![Kvaerno4.tableau] 4 0 3 0 :=
  stepOrder_of_check _ 5 Kvaerno4.tableau.abscissa (by decide +kernel) 0 3 0 (by decide +kernel) 2 0
    (by decide +kernel)

/-- **C61.** `Kvaerno5`: order 5, error estimate of order 5. -/
theorem C61_kvaerno5 : StepOrder ![Kvaerno5.tableau] 5 (1 / 10 ^ 16) 4 (1 / 10 ^ 16) :=
  stepOrder_of_check _ 7 Kvaerno5.tableau.abscissa (by decide +kernel) 0 4 (1 / 10 ^ 16)
    (by decide +kernel) 3 (1 / 10 ^ 16) (by decide +kernel)

/-- **C61.** `KenCarp3`: order 3, for both terms together. -/
theorem C61_kencarp3 : StepOrder ![KenCarp3.explicit, KenCarp3.implicit] 3 (1 / 10 ^ 25) 2 (1 / 10 ^ 25) :=
  stepOrder_of_check _ 4 KenCarp3.explicit.abscissa (by decide +kernel) 0 2 (1 / 10 ^ 25)
    (by decide +kernel) 1 (1 / 10 ^ 25) (by decide +kernel)

/-- **C61.** `KenCarp4`: order 4, for both terms together. -/
theorem C61_kencarp4 : StepOrder ![KenCarp4.explicit, KenCarp4.implicit] 4 (1 / 10 ^ 25) 3 (1 / 10 ^ 25) :=
  stepOrder_of_check _ 6 KenCarp4.explicit.abscissa (by decide +kernel) 0 3 (1 / 10 ^ 25)
    (by decide +kernel) 2 (1 / 10 ^ 25) (by decide +kernel)

/-- **C61.** `Sil3`: order 2, for both terms together; the error estimate is of order 3. -/
theorem C61_sil3 : StepOrder ![Sil3.explicit, Sil3.implicit] 2 0 2 0 :=
  stepOrder_of_check _ 4 Sil3.explicit.abscissa (by decide +kernel) 0 1 0 (by decide +kernel) 1 0
    (by decide +kernel)

end Verif
