import Verif.Lemmas.ConservedRK
import Verif.Props.Subsystem
import Verif.Props.RK
import Verif.Model.Solvers
import Verif.Model.Sde
import Verif.Lemmas.OrderStep
import Verif.Props.OtherSolvers
import Verif.Props.Stability

/-!
# C106: linear quantities that the vector field conserves are conserved by the solve

The total mass of a chemical reaction, the number of people in an epidemic model, the total momentum of a set of particles: linear
functions of the state that the vector field does not change. Runge-Kutta methods do not change them either, however large the steps
are, and neither do the interpolations.
-/

set_option linter.unusedSectionVars false
set_option maxRecDepth 100000

namespace Verif

open Tab

/-! ### Whole solves -/

section
variable {T Y E D S C O F : Type} [LinearOrder T] [LinearOrder F] [Zero F] {I : Y → Prop} {G : S → Prop} {H : D → Prop}

/-- **C106.** A solve whose steps and interpolations do not leave a set of states returns only states of this set: at the end, at
all the times it saves, and in its dense output. The states returned for resuming are good ones again. -/
theorem C106_solve (cfg : Cfg T Y E D S C O F) (hk : cfg.solver.Keeps I G H) (y0 : Y) (tnext : T) (ctrl : C) (ss : S) (mj : Bool)
    (hy : I y0) (hG : G ss)
    (hok : ∀ c ∈ history cfg y0 tnext ctrl ss mj, Visible cfg c → (solverOut cfg c).result.isOkay = true) :
    (solve cfg y0 tnext ctrl ss mj).Within cfg y0 I ∧
      (∀ c ∈ history cfg y0 tnext ctrl ss mj, I c.y) ∧
      G (solve cfg y0 tnext ctrl ss mj).core.solverState := by
  obtain ⟨h1, h2, -, h3⟩ := solve_within cfg hk y0 tnext ctrl ss mj hy hG hok
  exact ⟨h1, fun c hc => (h2 c hc).1, h3⟩

end

section
variable {T Y E D S C O F : Type} [LinearOrder T] [LinearOrder F] [Zero F]

/-- If the solve reports success and the time of an event is not searched for, then all visible steps reported success. -/
theorem visible_okay (cfg : Cfg T Y E D S C O F) (hr : cfg.rootFinder = none) (y0 : Y) (tnext : T) (ctrl : C) (ss : S) (mj : Bool)
    (hsucc : (solve cfg y0 tnext ctrl ss mj).result.isSuccessful = true) :
    ∀ c ∈ history cfg y0 tnext ctrl ss mj, Visible cfg c → (solverOut cfg c).result.isOkay = true := by
  intro c hc hv
  by_contra hno
  have hno' : (solverOut cfg c).result.isOkay = false := by simpa using hno
  have hacc : accepted cfg c = true := hv.resolve_right (fun h => h hr)
  have hres : (coreBody cfg c).1.result.isSuccessful = false := by
    rw [coreBody_result cfg c (condFun_succ cfg c (attempts_cond cfg _ _ c hc))]
    split
    · rfl
    · rw [if_pos ⟨hacc, hno'⟩]
      unfold Result.isOkay at hno'
      simp only [Bool.or_eq_false_iff] at hno'
      exact hno'.1
  obtain ⟨-, hfin⟩ := attempts_last cfg _ _ c hc hres
  rw [solve_result, solve_core, hfin] at hsucc
  have hcond : condFun cfg (coreBody cfg c).1 = false := by simp [condFun, hres]
  rw [hcond, finalise_no_root cfg _ hr] at hsucc
  simp only [Bool.false_eq_true, if_false] at hsucc
  rw [hres] at hsucc
  cases hsucc

end

/-! ### Interpolations -/

section
variable {K V A : Type} [Field K] [DecidableEq K] [AddCommGroup V] [Module K V] [AddCommGroup A] [Module K A] {m : ℕ}

/-- An interpolation that does not change what the step does not change. -/
def FlatInterp (m : ℕ) (interp : K → K → RK.Dense m V → K → V) (A : Type) [AddCommGroup A] [Module K A] : Prop :=
  ∀ (ℓ : V →ₗ[K] A) (c : A) a b d t, RK.Dense.Flat ℓ c d → ℓ (interp a b d t) = c

theorem flat_densePart {ℓ : V →ₗ[K] A} {c : A} {d : RK.Dense m V} (h : RK.Dense.Flat ℓ c d) :
    densePart ℓ d = { y0 := c, y1 := c, ks := fun _ _ => 0 } := by
  obtain ⟨h1, h2, h3⟩ := h
  simp only [densePart, h1, h2, h3]

theorem stageList_const (s : ℕ) : stageList s (fun _ => (0 : A)) = List.replicate s 0 := by
  simp [stageList]

theorem headD_zero (s : ℕ) : (List.replicate s (0 : A)).headD 0 = 0 := by cases s <;> rfl

theorem getLastD_zero (s : ℕ) : (List.replicate s (0 : A)).getLastD 0 = 0 := by
  rw [List.getLastD_eq_getLast?, List.getLast?_replicate]
  split <;> rfl

theorem tensordot_zero (c : List K) (s : ℕ) : tensordot c (List.replicate s (0 : A)) = 0 := by
  unfold tensordot
  have : ∀ (c : List K) (s : ℕ) (a : A),
      (List.zipWith (fun a b => a • b) c (List.replicate s (0 : A))).foldl (· + ·) a = a := by
    intro c
    induction c with
    | nil => intro s a; simp
    | cons x c ih =>
      intro s a
      cases s with
      | zero => simp
      | succ s =>
        rw [List.replicate_succ, List.zipWith_cons_cons, List.foldl_cons, smul_zero, add_zero]
        exact ih s a
  exact this c s 0

theorem hermite3_flat (a b t : K) (c : A) : (hermite3 a b c c (0 : A) 0).evaluate t = c := by
  unfold hermite3 LocalPoly.evaluate polyval
  simp

/-- `Heun`, `Midpoint`, `Ralston`, `Bosh3`, `Kvaerno3`, `Kvaerno4`, `Kvaerno5`. -/
theorem C106_hermite (s : ℕ) : FlatInterp 1 (hermiteInterp s : K → K → RK.Dense 1 V → K → V) A := by
  intro ℓ c a b d t h
  rw [← hermiteInterp_part, flat_densePart h]
  unfold hermiteInterp hermite3FromK
  rw [stageList_const, headD_zero, getLastD_zero]
  exact hermite3_flat a b t c

theorem C106_dopri5 [CharZero K] : FlatInterp 1 (dopri5Interp : K → K → RK.Dense 1 V → K → V) A := by
  intro ℓ c a b d t h
  rw [← dopri5Interp_part, flat_densePart h]
  unfold dopri5Interp quartic LocalPoly.evaluate polyval
  rw [stageList_const, headD_zero, getLastD_zero, tensordot_zero]
  simp only [List.foldl_cons, List.foldl_nil]
  module

theorem C106_tsit5 : FlatInterp 1 (tsit5Interp : K → K → RK.Dense 1 V → K → V) A := by
  intro ℓ c a b d t h
  unfold tsit5Interp
  rw [map_add, treeDot_zero ℓ _ _ (h.2.2 0), add_zero, h.1]

theorem C106_dopri8 : FlatInterp 1 (dopri8Interp : K → K → RK.Dense 1 V → K → V) A := by
  intro ℓ c a b d t h
  unfold dopri8Interp
  rw [map_add, treeDot_zero ℓ _ _ (h.2.2 0), add_zero, h.1]

theorem C106_kencarp (rows : List (List ℚ)) : FlatInterp 2 (kencarpInterp rows : K → K → RK.Dense 2 V → K → V) A := by
  intro ℓ c a b d t h
  unfold kencarpInterp
  rw [map_add, treeDot_zero ℓ _ _ (fun i => by rw [map_add, h.2.2, h.2.2, add_zero]), add_zero, h.1]

theorem C106_sil3 : FlatInterp 2 (sil3Interp : K → K → RK.Dense 2 V → K → V) A := by
  intro ℓ c a b d t h
  have e : ℓ (sil3Interp a b d t) = sil3Interp a b (densePart ℓ d) t := by
    unfold sil3Interp hermite3 LocalPoly.evaluate
    simp only [densePart, stageList_part, headD_part, getLastD_part]
    rw [← polyval_part]
    simp
  rw [e, flat_densePart h]
  unfold sil3Interp
  simp only [stageList_const, headD_zero, getLastD_zero, add_zero]
  exact hermite3_flat a b t c

end

/-! ### Runge-Kutta methods -/

section
variable {m : ℕ} {E VF Ct J A C O F : Type} [LinearOrder F] [Zero F] [AddCommGroup E] [Module ℝ E] [Module ℚ E]
  [AddCommGroup VF] [Module ℚ VF] [AddCommGroup A] [Module ℝ A] [Module ℚ A]

/-- What is conserved is a `ℚ`-linear function as well. -/
noncomputable abbrev ratly (ℓ : E →ₗ[ℝ] A) : E →ₗ[ℚ] A := ℓ.toAddMonoidHom.toRatLinearMap

/-- **C106.** If the increments of the terms do not change the linear function `ℓ` then no state returned by a solve with a
Runge-Kutta method differs in `ℓ` from the initial one, whatever the step size controller and the steps, as long as the visible steps
report success and the root finders are right when they do. The terms may be driven by time or by paths. -/
theorem C106_rk (rk : RK m ℝ ℚ E VF Ct J) (h : rk.WF) (hroot : rk.RootExact) (ℓ : E →ₗ[ℝ] A)
    (hℓ : ∀ p t y a b, ℓ ((rk.term p).prod ((rk.term p).vf t y) ((rk.term p).contr a b)) = 0)
    (interp : ℝ → ℝ → RK.Dense m E → ℝ → E) (hi : FlatInterp m interp A)
    (cfg : Cfg ℝ E (Option E) (RK.Dense m E) (RK.State m VF) C O F) (hs : cfg.solver = rk.solver interp)
    (y0 : E) (tnext : ℝ) (ctrl : C) (ss : RK.State m VF) (mj : Bool) (hss : ss = rk.init ∨ rk.NullState (ratly ℓ) ss)
    (hok : ∀ c ∈ history cfg y0 tnext ctrl ss mj, Visible cfg c → (solverOut cfg c).result.isOkay = true) :
    (solve cfg y0 tnext ctrl ss mj).Within cfg y0 (fun y => ℓ y = ℓ y0) ∧
      (∀ c ∈ history cfg y0 tnext ctrl ss mj, ℓ c.y = ℓ y0) ∧
      rk.NullState (ratly ℓ) (solve cfg y0 tnext ctrl ss mj).core.solverState := by
  have hk : cfg.solver.Keeps (fun y => ℓ y = ℓ y0) (rk.NullState (ratly ℓ)) (RK.Dense.Flat ℓ (ℓ y0)) := by
    rw [hs]
    exact RK.keeps (ℓ := ratly ℓ) hℓ h hroot interp (hi ℓ (ℓ y0))
  refine C106_solve cfg hk y0 tnext ctrl ss mj rfl ?_ hok
  rcases hss with rfl | hss
  · exact RK.nullState_init h
  · exact hss

/-- **C106** for explicit methods: there are no conditions on the steps. -/
theorem C106_explicit_rk (rk : RK m ℝ ℚ E VF Ct J) (h : rk.WF) (hex : ∀ p, (rk.tab p).implicit = false) (ℓ : E →ₗ[ℝ] A)
    (hℓ : ∀ p t y a b, ℓ ((rk.term p).prod ((rk.term p).vf t y) ((rk.term p).contr a b)) = 0)
    (interp : ℝ → ℝ → RK.Dense m E → ℝ → E) (hi : FlatInterp m interp A)
    (cfg : Cfg ℝ E (Option E) (RK.Dense m E) (RK.State m VF) C O F) (hs : cfg.solver = rk.solver interp)
    (y0 : E) (tnext : ℝ) (ctrl : C) (ss : RK.State m VF) (mj : Bool) (hss : ss = rk.init ∨ rk.NullState (ratly ℓ) ss) :
    (solve cfg y0 tnext ctrl ss mj).Within cfg y0 (fun y => ℓ y = ℓ y0) ∧
      (∀ c ∈ history cfg y0 tnext ctrl ss mj, ℓ c.y = ℓ y0) ∧
      rk.NullState (ratly ℓ) (solve cfg y0 tnext ctrl ss mj).core.solverState := by
  refine C106_rk rk h ?_ ℓ hℓ interp hi cfg hs y0 tnext ctrl ss mj hss ?_
  · intro hp
    obtain ⟨p, hp⟩ := Option.isSome_iff_exists.1 hp
    have := rk.implicitPart_some hp
    rw [hex p] at this
    cases this
  · intro c _ _
    unfold solverOut
    rw [hs]
    exact (congrArg Result.isOkay (C41_explicit_succeeds rk hex _ _ _ _ _)).trans rfl

/-- **C106** for ordinary differential equations, possibly split into several terms. -/
theorem C106_ode {s : ℕ} {c : ℕ → ℚ} {tab : Fin m → Tableau ℚ} (hm : methodOK s c tab = true) (f : Fin m → ℝ → E → E)
    (cj : CalcJac) (rF rK : RootFinder E J) (nj : J) (hroot : (odeRK tab f cj rF rK nj).RootExact) (ℓ : E →ₗ[ℝ] A)
    (hℓ : ∀ p t y, ℓ (f p t y) = 0) (interp : ℝ → ℝ → RK.Dense m E → ℝ → E) (hi : FlatInterp m interp A)
    (cfg : Cfg ℝ E (Option E) (RK.Dense m E) (RK.State m E) C O F)
    (hs : cfg.solver = (odeRK tab f cj rF rK nj).solver interp) (y0 : E) (tnext : ℝ) (ctrl : C) (mj : Bool)
    (hok : (∀ p, (tab p).implicit = false) ∨
      (cfg.rootFinder = none ∧ (solve cfg y0 tnext ctrl (odeRK tab f cj rF rK nj).init mj).result.isSuccessful = true) ∨
      ∀ c ∈ history cfg y0 tnext ctrl (odeRK tab f cj rF rK nj).init mj, Visible cfg c → (solverOut cfg c).result.isOkay = true) :
    (solve cfg y0 tnext ctrl (odeRK tab f cj rF rK nj).init mj).Within cfg y0 (fun y => ℓ y = ℓ y0) ∧
      ∀ c ∈ history cfg y0 tnext ctrl (odeRK tab f cj rF rK nj).init mj, ℓ c.y = ℓ y0 := by
  have hℓ' : ∀ p t y a b, ℓ (((odeRK tab f cj rF rK nj).term p).prod (((odeRK tab f cj rF rK nj).term p).vf t y)
      (((odeRK tab f cj rF rK nj).term p).contr a b)) = 0 := by
    intro p t y a b
    show ℓ ((b - a) • f p t y) = 0
    rw [map_smul, hℓ, smul_zero]
  have hwf := (odeRK_WF hm f cj rF rK nj).2.1
  rcases hok with hex | hok | hok
  · have := C106_explicit_rk _ hwf hex ℓ hℓ' interp hi cfg hs y0 tnext ctrl _ mj (.inl rfl)
    exact ⟨this.1, this.2.1⟩
  · have := C106_rk _ hwf hroot ℓ hℓ' interp hi cfg hs y0 tnext ctrl _ mj (.inl rfl)
      (visible_okay cfg hok.1 y0 tnext ctrl _ mj hok.2)
    exact ⟨this.1, this.2.1⟩
  · have := C106_rk _ hwf hroot ℓ hℓ' interp hi cfg hs y0 tnext ctrl _ mj (.inl rfl) hok
    exact ⟨this.1, this.2.1⟩

end

/-! ### Other solvers -/

section
variable {K Y VF Ct A : Type} [Field K] [LinearOrder K] [AddCommGroup Y] [Module K Y] [AddCommGroup A] [Module K A]

/-- The states stored by the solvers that interpolate linearly. -/
def FlatPair (ℓ : Y →ₗ[K] A) (c : A) (d : Y × Y) : Prop := ℓ d.1 = c ∧ ℓ d.2 = c

theorem flatPair_interp (ℓ : Y →ₗ[K] A) (c : A) (a b : K) (d : Y × Y) (t : K) (h : FlatPair ℓ c d) :
    ℓ (localLinearInterp a b d t) = c := by
  unfold localLinearInterp LocalLinear.evaluate
  simp only [map_add, map_smul, map_sub, h.1, h.2, sub_self, smul_zero, add_zero]

variable (term : Term K Y VF Ct) (ℓ : Y →ₗ[K] A) (c : A)

/-- `Euler`. -/
theorem C106_euler (hℓ : ∀ t y a b, ℓ (term.vfProd t y (term.contr a b)) = 0) :
    (euler term localLinearInterp).Keeps (fun y => ℓ y = c) (fun _ => True) (FlatPair ℓ c) where
  step a b y s j hy _ _ := by
    have : ℓ (y + term.vfProd a y (term.contr a b)) = c := by rw [map_add, hℓ, add_zero, hy]
    exact ⟨this, trivial, hy, this⟩
  interp a b d t h := flatPair_interp ℓ c a b d t h

/-- `LeapfrogMidpoint`. -/
theorem C106_leapfrog (hℓ : ∀ t y a b, ℓ (term.vfProd t y (term.contr a b)) = 0) :
    (leapfrog term localLinearInterp).Keeps (fun y => ℓ y = c) (fun s => ℓ s.2 = c) (FlatPair ℓ c) where
  step a b y s j hy hs _ := by
    have : ℓ (s.2 + term.vfProd a y (term.contr s.1 b)) = c := by rw [map_add, hℓ, add_zero, hs]
    exact ⟨this, hy, hy, this⟩
  interp a b d t h := flatPair_interp ℓ c a b d t h

/-- `ImplicitEuler`, with a root finder that is right when it reports success. -/
theorem C106_implicit_euler (root : (Y → Y) → Y → Y × Result)
    (hroot : ∀ rel guess, (root rel guess).2.isOkay = true → rel (root rel guess).1 = 0)
    (hℓ : ∀ t y a b, ℓ (term.vfProd t y (term.contr a b)) = 0) :
    (implicitEuler K term root localLinearInterp).Keeps (fun y => ℓ y = c) (fun _ => True) (FlatPair ℓ c) where
  step a b y s j hy _ hok := by
    have h0 := hroot _ _ hok
    have h1 := sub_eq_zero.1 h0
    have : ℓ ((implicitEuler K term root localLinearInterp).step a b y s j).y = c := by
      show ℓ (y + (root (fun z => term.vfProd b (y + z) (term.contr a b) - z) (term.vfProd a y (term.contr a b))).1) = c
      rw [map_add, ← h1, hℓ, add_zero, hy]
    exact ⟨this, trivial, hy, this⟩
  interp a b d t h := flatPair_interp ℓ c a b d t h

/-- `ReversibleHeun`, whose solver state is a second approximation of the solution. -/
theorem C106_reversible_heun [AddCommGroup VF] (hadd : ∀ f g x, term.prod (f + g) x = term.prod f x + term.prod g x)
    (hℓ : ∀ t y a b, ℓ (term.prod (term.vf t y) (term.contr a b)) = 0) :
    (reversibleHeun K term localLinearInterp).Keeps (fun y => ℓ y = c)
      (fun s => ℓ s.1 = c ∧ ∀ a b, ℓ (term.prod s.2 (term.contr a b)) = 0) (FlatPair ℓ c) where
  step a b y s j hy hs _ := by
    have h0 : ℓ (term.prod (if j then term.vf a y else s.2) (term.contr a b)) = 0 := by
      split
      · exact hℓ _ _ _ _
      · exact hs.2 a b
    have h1 : ℓ ((2 : K) • y - s.1 + term.prod (if j then term.vf a y else s.2) (term.contr a b)) = c := by
      rw [map_add, map_sub, map_smul, h0, hy, hs.1, add_zero, two_smul, add_sub_cancel_right]
    have h2 : ℓ ((reversibleHeun K term localLinearInterp).step a b y s j).y = c := by
      show ℓ (y + (1 / 2 : K) • term.prod ((if j then term.vf a y else s.2) + term.vf b _) (term.contr a b)) = c
      rw [hadd, map_add, map_smul, map_add, h0, hℓ, add_zero, smul_zero, add_zero, hy]
    exact ⟨h2, ⟨h1, fun a' b' => hℓ _ _ _ _⟩, hy, h2⟩
  interp a b d t h := flatPair_interp ℓ c a b d t h

/-- `EulerHeun`. -/
theorem C106_euler_heun {VF' Ct' : Type} (diffusion : Term K Y VF' Ct')
    (hℓ : ∀ t y a b, ℓ (term.vfProd t y (term.contr a b)) = 0)
    (hℓ' : ∀ t y a b, ℓ (diffusion.vfProd t y (diffusion.contr a b)) = 0) :
    (eulerHeun K term diffusion localLinearInterp).Keeps (fun y => ℓ y = c) (fun _ => True) (FlatPair ℓ c) where
  step a b y s j hy _ _ := by
    have : ℓ ((eulerHeun K term diffusion localLinearInterp).step a b y s j).y = c := by
      show ℓ (y + term.vfProd a y (term.contr a b) + (1 / 2 : K) • (diffusion.vfProd a y (diffusion.contr a b)
        + diffusion.vfProd a (y + diffusion.vfProd a y (diffusion.contr a b)) (diffusion.contr a b))) = c
      rw [map_add, map_add, map_smul, map_add, hℓ, hℓ', hℓ', add_zero, add_zero, smul_zero, add_zero, hy]
    exact ⟨this, trivial, hy, this⟩
  interp a b d t h := flatPair_interp ℓ c a b d t h

end

/-! ### An epidemic -/

section

/-- Susceptible, infected and recovered people. -/
noncomputable def sir (β γ : ℝ) (y : Fin 3 → ℝ) : Fin 3 → ℝ := ![-(β * y 0 * y 1), β * y 0 * y 1 - γ * y 1, γ * y 1]

/-- All people. -/
def people : (Fin 3 → ℝ) →ₗ[ℝ] ℝ where
  toFun y := y 0 + y 1 + y 2
  map_add' := by intro a b; simp only [Pi.add_apply]; ring
  map_smul' := by intro a b; simp only [Pi.smul_apply, smul_eq_mul, RingHom.id_apply]; ring

theorem sir_people (β γ : ℝ) (y : Fin 3 → ℝ) : people (sir β γ y) = 0 := by
  simp [people, sir]
  ring

/-- The number of people never changes, with `Dopri5` and any step size controller, events and saving. -/
example {C : Type} (β γ : ℝ) (root : RootFinder (Fin 3 → ℝ) Unit) (ctrl : C)
    (cfg : Cfg ℝ (Fin 3 → ℝ) (Option (Fin 3 → ℝ)) (RK.Dense 1 (Fin 3 → ℝ)) (RK.State 1 (Fin 3 → ℝ)) C ℝ ℝ)
    (hs : cfg.solver = (odeRK ![Dopri5.tableau] (fun _ _ => sir β γ) .never root root ()).solver dopri5Interp) (tnext : ℝ) :
    (solve cfg ![99, 1, 0] tnext ctrl (odeRK ![Dopri5.tableau] (fun _ _ => sir β γ) .never root root ()).init false).Within cfg
      ![99, 1, 0] (fun y => people y = people ![99, 1, 0]) :=
  (C106_ode (s := 7) (c := Dopri5.tableau.abscissa) (by decide +kernel) _ .never root root ()
    (fun h => absurd ((implicitPart_isSome _ _ _ _ _ _).1 h) (by decide +kernel)) people (fun _ _ _ => sir_people β γ _)
    dopri5Interp C106_dopri5 cfg hs _ tnext ctrl false (.inl (by decide +kernel))).1

/-! ### Two vessels exchanging their content, solved with an implicit method -/

def exchange (y : ℝ × ℝ) : ℝ × ℝ := (y.2 - y.1, y.1 - y.2)

def content : ℝ × ℝ →ₗ[ℝ] ℝ := LinearMap.fst ℝ ℝ ℝ + LinearMap.snd ℝ ℝ ℝ

theorem exchange_content (y : ℝ × ℝ) : content (exchange y) = 0 := by
  show y.2 - y.1 + (y.1 - y.2) = 0
  ring

theorem exchange_succeeds {tab : Fin 1 → Tableau ℚ} (hd : ∀ i, 0 ≤ (tab 0).diagAt i) (cj : CalcJac)
    (t0 t1 : ℝ) (ht : t0 ≤ t1) (y0 : ℝ × ℝ) (st : RK.State 1 (ℝ × ℝ)) (mj : Bool) :
    ((odeRK tab (fun _ _ => exchange) cj (idealRoot _) (idealRoot _) ()).step t0 t1 y0 st mj).result.isOkay = true := by
  have hne : ∀ i, 1 + 2 * ((tab 0).diagAt i : ℝ) * (t1 - t0) ≠ 0 := by
    intro i
    have h1 : (0 : ℝ) ≤ (tab 0).diagAt i := by exact_mod_cast hd i
    have h2 := mul_nonneg h1 (sub_nonneg.2 ht)
    linarith
  apply RK.stages_okay
  · intro p i ti yp guess jac
    apply idealRoot_okay
    obtain rfl : p = 0 := Subsingleton.elim _ _
    have hw := hne i
    set w := 1 + 2 * ((tab 0).diagAt i : ℝ) * (t1 - t0) with hwd
    have key : (yp.2 - yp.1) / w * w = yp.2 - yp.1 := div_mul_cancel₀ _ hw
    refine ⟨((yp.2 - yp.1) / w, -((yp.2 - yp.1) / w)), ?_⟩
    generalize (yp.2 - yp.1) / w = x at key
    show (x, -x) - exchange (yp + (tab 0).diagAt i • ((t1 - t0) • (x, -x))) = 0
    rw [qsmul_eq]
    rw [hwd] at key
    refine Prod.ext ?_ ?_ <;> simp [exchange] <;> linarith
  · intro p i ti yp guess jac
    apply idealRoot_okay
    obtain rfl : p = 0 := Subsingleton.elim _ _
    have hw := hne i
    set w := 1 + 2 * ((tab 0).diagAt i : ℝ) * (t1 - t0) with hwd
    have key : (t1 - t0) * (yp.2 - yp.1) / w * w = (t1 - t0) * (yp.2 - yp.1) := div_mul_cancel₀ _ hw
    refine ⟨((t1 - t0) * (yp.2 - yp.1) / w, -((t1 - t0) * (yp.2 - yp.1) / w)), ?_⟩
    generalize (t1 - t0) * (yp.2 - yp.1) / w = x at key
    show (x, -x) - (t1 - t0) • exchange (yp + (tab 0).diagAt i • (x, -x)) = 0
    rw [qsmul_eq]
    rw [hwd] at key
    refine Prod.ext ?_ ?_ <;> simp [exchange] <;> linarith
  · show (RK.initStage _ _ _ _ _ _).result.isOkay = true
    unfold RK.initStage
    split <;> rfl

/-- One step of `Kvaerno3` over `[0, 1]`. -/
example (y0 : ℝ × ℝ) (ctrl : ConstState ℝ) (dflt) :
    let sol := solve (unitCfg ((odeRK ![Kvaerno3.tableau] (fun _ _ => exchange) .never (idealRoot _) (idealRoot _) ()).solver
      (hermiteInterp 4)) constantStepSize dflt 1) y0 1 ctrl
      (odeRK ![Kvaerno3.tableau] (fun _ _ => exchange) .never (idealRoot (ℝ × ℝ)) (idealRoot (ℝ × ℝ)) ()).init false
    sol.yfinal.1 + sol.yfinal.2 = y0.1 + y0.2 := by
  intro sol
  have hd : ∀ i, 0 ≤ ((![Kvaerno3.tableau] : Fin 1 → Tableau ℚ) 0).diagAt i := by
    intro i
    by_cases hi : i < 8
    · revert i; decide +kernel
    · show 0 ≤ (Kvaerno3.tableau.aDiagonal.getD []).getD i 0
      rw [List.getD_eq_default]
      have : (Kvaerno3.tableau.aDiagonal.getD []).length ≤ 8 := by decide +kernel
      omega
  have hlog := one_log ((odeRK ![Kvaerno3.tableau] (fun _ _ => exchange) .never (idealRoot _) (idealRoot _) ()).solver
      (hermiteInterp 4)) constantStepSize dflt y0 ctrl
      (odeRK ![Kvaerno3.tableau] (fun _ _ => exchange) .never (idealRoot (ℝ × ℝ)) (idealRoot (ℝ × ℝ)) ()).init
  have hok : ∀ c ∈ history (unitCfg ((odeRK ![Kvaerno3.tableau] (fun _ _ => exchange) .never (idealRoot _) (idealRoot _) ()).solver
      (hermiteInterp 4)) constantStepSize dflt 1) y0 1 ctrl
      (odeRK ![Kvaerno3.tableau] (fun _ _ => exchange) .never (idealRoot (ℝ × ℝ)) (idealRoot (ℝ × ℝ)) ()).init false,
      ((odeRK ![Kvaerno3.tableau] (fun _ _ => exchange) .never (idealRoot _) (idealRoot _) ()).step c.tprev c.tnext c.y
        c.solverState c.madeJump).result.isOkay = true := fun c hc =>
    exchange_succeeds hd .never _ _ (by rw [(hlog c hc).1, (hlog c hc).2]; norm_num) _ _ _
  have := C106_ode (s := 4) (c := Kvaerno3.tableau.abscissa) (tab := ![Kvaerno3.tableau]) (by decide +kernel)
    (fun _ _ => exchange) .never (idealRoot _) (idealRoot _) () (fun _ => ⟨idealRoot_exact _, idealRoot_exact _⟩) content
    (fun _ _ y => exchange_content y) (hermiteInterp 4) (C106_hermite 4) (unitCfg ((odeRK ![Kvaerno3.tableau]
      (fun _ _ => exchange) .never (idealRoot _) (idealRoot _) ()).solver (hermiteInterp 4)) constantStepSize dflt 1) rfl y0 1 ctrl
    false (.inr (.inr fun c hc _ => hok c hc))
  exact this.1.final

end

end Verif
