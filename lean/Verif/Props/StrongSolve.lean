import Verif.Lemmas.Ito
import Verif.Lemmas.SolveInvariant
import Verif.Spec.StrongError
import Verif.Props.OtherSolvers

/-!
# C79: from the error of one step, in mean square, to the error of the solve
-/

set_option linter.unusedSectionVars false

namespace Verif
open MeasureTheory ProbabilityTheory Filter Set Topology

variable {Ω : Type} {F : ℝ → MeasurableSpace Ω} {mΩ : MeasurableSpace Ω} {P : Measure Ω} [IsProbabilityMeasure P]
  {E : Type} [NormedAddCommGroup E] [InnerProductSpace ℝ E] {Er D S : Type} {Y : ℝ → Ω → E} {a b : ℝ}

/-- The values of the method along the points `p`. -/
def methodValue (val : Ω → ℝ → ℝ → E → E) (p : ℕ → ℝ) (y0 : Ω → E) : ℕ → Ω → E
  | 0, ω => y0 ω
  | k + 1, ω => val ω (p k) (p (k + 1)) (methodValue val p y0 k ω)

/-- A solve whose steps go along the points `p`. -/
theorem solve_along {T Y Er D S C O G : Type} [LinearOrder T] [LinearOrder G] [Zero G] (cfg : Cfg T Y Er D S C O G)
    (hwf : cfg.WF) (hctrl : cfg.controller.Exact) (hroot : cfg.rootFinder = none)
    (val : T → T → Y → Y) (good : T → Y → S → Prop)
    (hval : ∀ s t x st mj, good s x st → (cfg.solver.step s t x st mj).y = val s t x ∧
      good t (val s t x) (cfg.solver.step s t x st mj).state)
    (y0 : Y) (tnext : T) (ctrl : C) (st : S) (hgood : good cfg.t0 y0 st) (mj : Bool) (p : ℕ → T) (N : ℕ) (h0 : p 0 = cfg.t0)
    (hp : ∀ k < N, p k < p (k + 1)) (V : ℕ → Y) (hV0 : V 0 = y0)
    (hV : ∀ k < N, V (k + 1) = val (p k) (p (k + 1)) (V k))
    (hlog : (callLog cfg y0 tnext ctrl st mj).map (fun c => (c.solverT0, c.solverT1))
      = (List.range N).map (fun j => (p j, p (j + 1))))
    (hN : (solve cfg y0 tnext ctrl st mj).tfinal = p N) : (solve cfg y0 tnext ctrl st mj).yfinal = V N := by
  have hmono : ∀ i j, i < j → j ≤ N → p i < p j := by
    intro i j hij
    induction j with
    | zero => omega
    | succ j ih =>
      intro hj
      rcases Nat.lt_succ_iff_lt_or_eq.1 hij with h | rfl
      · exact (ih h (by omega)).trans (hp j (by omega))
      · exact hp i (by omega)
  have hinj : ∀ i j, i ≤ N → j ≤ N → p i = p j → i = j := by
    intro i j hi hj h
    rcases lt_trichotomy i j with h' | h' | h'
    · exact absurd h (hmono i j h' hj).ne
    · exact h'
    · exact absurd h (hmono j i h' hi).ne'
  have hmem : ∀ c ∈ callLog cfg y0 tnext ctrl st mj, ∃ k < N, c.solverT0 = p k ∧ c.solverT1 = p (k + 1) := by
    intro c hc
    have h1 : (c.solverT0, c.solverT1) ∈ (List.range N).map (fun j => (p j, p (j + 1))) := by
      rw [← hlog]; exact List.mem_map_of_mem hc
    obtain ⟨k, hk, he⟩ := List.mem_map.1 h1
    have he' := Prod.mk.inj he
    exact ⟨k, List.mem_range.1 hk, he'.1.symm, he'.2.symm⟩
  have := (solve_invariant cfg hwf hctrl y0 tnext ctrl st mj (fun t x st => good t x st ∧ ∀ k ≤ N, t = p k → x = V k) (by
      refine ⟨hgood, ?_⟩
      intro k hk h
      rw [← h0] at h
      rw [← hinj 0 k (by omega) hk h, hV0]) (by
      intro c hc
      obtain ⟨k, hk, e1, e2⟩ := hmem c hc
      rw [e1, e2]; exact (hp k hk).le) (by
      intro c hc _ _ _ hI
      obtain ⟨g1, g2⟩ := hval c.solverT0 c.solverT1 c.solverY c.solverState c.solverMadeJump hI.1
      obtain ⟨k, hk, e1, e2⟩ := hmem c hc
      refine ⟨by rw [g1]; exact g2, fun k' hk' h => ?_⟩
      rw [e2] at h
      have := hinj _ _ (by omega) hk' h
      subst this
      have hy := hI.2 k (by omega) e1
      rw [hV k hk, g1, e1, e2, hy])).2.2.2 N le_rfl
  rw [solve_tfinal, finalise_no_root cfg _ hroot] at hN
  rw [solve_yfinal, finalise_no_root cfg _ hroot]
  exact this hN

/-- **C79.** From one step to the solve: if one step, from any value known at its beginning, satisfies the estimate of
`mean_square_step`, then the solve converges. -/
theorem C79_of_step (sv : Ω → Solver ℝ E Er D S) (init : Ω → E → S) (val : Ω → ℝ → ℝ → E → E)
    (good : Ω → ℝ → E → S → Prop) (hinit : ∀ ω x, good ω a x (init ω x))
    (hsv : ∀ ω s t x st mj, good ω s x st → ((sv ω).step s t x st mj).y = val ω s t x ∧
      good ω t (val ω s t x) ((sv ω).step s t x st mj).state)
    (hYm : MemLp (Y a) 2 P) (hYb : MemLp (Y b) 2 P) {α β : ℝ} {θ : ℝ → ℝ} (hθ : Monotone θ) (hθ0 : ∀ h, 0 ≤ θ h)
    (hstep : ∀ s t, a ≤ s → s < t → t ≤ b → ∀ V : Ω → E, StronglyMeasurable[F s] V → MemLp V 2 P →
      StronglyMeasurable[F t] (fun ω => val ω s t (V ω)) ∧
      MemLp (fun ω => val ω s t (V ω)) 2 P ∧
      rms P (fun ω => val ω s t (V ω) - Y t ω) ^ 2 ≤ (1 + (t - s)) *
        (rms P (fun ω => V ω - Y s ω) ^ 2 * (1 + 4 * α ^ 2 * (t - s)) + 4 * β ^ 2 * (t - s) * θ (t - s) ^ 2)) :
    StrongErrorAtMost P F sv init Y a b
      (fun e η => Real.exp ((1 + 4 * α ^ 2) * (b - a)) * (e + 4 * β ^ 2 * (b - a) * θ η ^ 2)) := by
  intro C O G _ _ cfg hcfg y0 hy0 hy02 tnext ctrl mj p N η _ hp0 hpN hp hη hlog htf
  have hmono : ∀ j ≤ N, a ≤ p j := by
    intro j
    induction j with
    | zero => intro _; exact hp0.ge
    | succ j ih => intro hj; exact (ih (by omega)).trans (hp j (by omega)).le
  have hle : ∀ i ≤ N, p (N - i) ≤ b := by
    intro i
    induction i with
    | zero => intro _; exact hpN.le
    | succ i ih =>
      intro hi
      have := hp (N - (i + 1)) (by omega)
      rw [show N - (i + 1) + 1 = N - i by omega] at this
      exact this.le.trans (ih (by omega))
  have hle' : ∀ j ≤ N, p j ≤ b := fun j hj => by
    have := hle (N - j) (by omega); rwa [show N - (N - j) = j by omega] at this
  have hm : ∀ k ≤ N, StronglyMeasurable[F (p k)] (methodValue val p y0 k) ∧ MemLp (methodValue val p y0 k) 2 P := by
    intro k
    induction k with
    | zero => intro _; rw [hp0]; exact ⟨hy0, hy02⟩
    | succ k ih =>
      intro hk
      obtain ⟨i1, i2⟩ := ih (by omega)
      obtain ⟨s1, s2, -⟩ := hstep (p k) (p (k + 1)) (hmono k (by omega)) (hp k (by omega)) (hle' (k + 1) hk) _ i1 i2
      exact ⟨s1, s2⟩
  have hval : ∀ ω, (solve (cfg ω) (y0 ω) tnext ctrl (init ω (y0 ω)) mj).yfinal = methodValue val p y0 N ω := by
    intro ω
    obtain ⟨c1, c2, c3, c4, c5, c6⟩ := hcfg ω
    exact solve_along (cfg ω) c1 c5 c6 (val ω) (good ω) (by rw [c4]; exact hsv ω) (y0 ω) tnext ctrl _
      (by rw [c2]; exact hinit ω _) mj p N (by rw [hp0, c2]) hp
      (fun k => methodValue val p y0 k ω) rfl (fun k _ => rfl) (hlog ω) (by rw [htf ω, hpN])
  simp only [hval]
  refine ⟨(hm N le_rfl).2, ?_⟩
  have := mean_square_gronwall (α := α) (β := β) (θ := θ η)
    (fun k => rms P (fun ω => methodValue val p y0 k ω - Y (p k) ω) ^ 2) p N
    (fun j hj => (hp j hj).le) (fun j hj => by
      obtain ⟨i1, i2⟩ := hm j (by omega)
      refine (hstep (p j) (p (j + 1)) (hmono j (by omega)) (hp j hj) (hle' (j + 1) hj) _ i1 i2).2.2.trans ?_
      have h0 : 0 ≤ p (j + 1) - p j := sub_nonneg.2 (hp j hj).le
      have h1 := pow_le_pow_left₀ (hθ0 _) (hθ (hη j hj)) 2
      gcongr) (fun j => by positivity)
  simp only [hpN, hp0] at this
  exact this

end Verif
