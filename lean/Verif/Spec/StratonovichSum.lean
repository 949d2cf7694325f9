import Verif.Spec.Ito

/-!
# Stratonovich sums

The definition of the Stratonovich integral by averaging the integrand over the ends of each part.
-/

namespace Verif

variable {Ω : Type} {E : Type} [NormedAddCommGroup E] [NormedSpace ℝ E] {d : ℕ}

/-- `∑ f(r, Y_r) Δr + (g(r, Y_r) + g(r', Y_r'))/2 ΔW` over `n` equal parts `[r, r']` of `[s, t]`. -/
noncomputable def trapezoidSum (f : ℝ → E → E) (g : Fin d → ℝ → E → E) (W : ℝ → Ω → Fin d → ℝ) (Y : ℝ → Ω → E)
    (s t : ℝ) (n : ℕ) (ω : Ω) : E :=
  ∑ i ∈ Finset.range n,
    (((t - s) / n) • f (s + i * ((t - s) / n)) (Y (s + i * ((t - s) / n)) ω)
      + ∑ j, (W (s + (i + 1 : ℕ) * ((t - s) / n)) ω j - W (s + i * ((t - s) / n)) ω j)
        • (1 / 2 : ℝ) • (g j (s + i * ((t - s) / n)) (Y (s + i * ((t - s) / n)) ω)
          + g j (s + (i + 1 : ℕ) * ((t - s) / n)) (Y (s + (i + 1 : ℕ) * ((t - s) / n)) ω)))

end Verif
