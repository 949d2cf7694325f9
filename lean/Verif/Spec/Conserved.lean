import Verif.Model.Interp

/-!
# Sets of states that a solve does not leave
-/

namespace Verif

variable {T Y E D S C O F : Type} [LinearOrder T] [LinearOrder F] [Zero F]

/-- Successful steps of the solver, and the interpolations over them, do not leave the set `I`, provided that the solver state is
in `G`; then the dense information is in `H`. -/
structure Solver.Keeps (sv : Solver T Y E D S) (I : Y → Prop) (G : S → Prop) (H : D → Prop) : Prop where
  step : ∀ a b y s j, I y → G s → (sv.step a b y s j).result.isOkay = true →
    I (sv.step a b y s j).y ∧ G (sv.step a b y s j).state ∧ H (sv.step a b y s j).dense
  interp : ∀ a b d t, H d → I (sv.interp a b d t)

/-- Everything that a solve returns is about states in the set `I`: the last value, every value that was saved (the user function
was applied to a state in `I`), and every value of the dense output. -/
structure Output.Within (cfg : Cfg T Y E D S C O F) (y0 : Y) (I : Y → Prop) (o : Output T Y D S C O F) : Prop where
  final : I o.yfinal
  saved : ∀ (i : Nat) (sub : SubSaveAt T Y O) (sv : SaveState T O), cfg.subs[i]? = some sub → o.saves[i]? = some sv →
    ∀ t v, Slot.val t v ∈ sv.buf → ∃ y, I y ∧ v = sub.fn t y
  dense : ∀ t left y, (denseOf cfg y0 o).evaluate t left = some y → I y

end Verif
