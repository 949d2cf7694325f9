import Verif.Lemmas.BacksolveConvergence
import Verif.Props.LocalConvergence

/-!
# C97: the gradients of `BacksolveAdjoint` converge
-/

set_option linter.unusedSectionVars false
set_option maxRecDepth 100000

namespace Verif.Backsolve
open Set Filter Topology Tab

section
variable {T Y P St : Type} [Add Y] [Zero Y] [Zero P]

/-- The solves for the vals `vs`, in this order. -/
def runVals (solve : Solve T Y P St) : (Y × P) × Option St → Bool → List (T × T × Y × Y) → (Y × P) × Option St
  | st, _, [] => st
  | st, first, v :: vs => runVals solve (scanFun solve st v first) false vs

omit [Zero Y] [Zero P] in
theorem runVals_foldl (solve : Solve T Y P St) (vs : List (T × T × Y × Y)) (st : (Y × P) × Option St) :
    runVals solve st false vs = vs.foldl (fun st v => scanFun solve st v false) st := by
  induction vs generalizing st with
  | nil => rfl
  | cons v vs ih => exact ih _

theorem sweep_eq (solve : Solve T Y P St) (vals : List (T × T × Y × Y)) :
    sweep solve vals = runVals solve ((0, 0), none) true vals.reverse := by
  unfold sweep
  cases vals.reverse with
  | nil => rfl
  | cons v vs => exact (runVals_foldl _ _ _).symm

end

section
variable {S Q : Type} [Fintype S] [Fintype Q] {F : ℝ × (S → ℝ) × (Q → ℝ) → S → ℝ} {θ : Q → ℝ} {y : ℝ → S → ℝ}
  {t0 last : ℝ} {vjp : ℝ → (S → ℝ) → (Unit → ℝ) → (S → ℝ) → (S → ℝ) × (Q → ℝ)} {J : Type}

/-- The state of the solver has the right shape to be handed to a solve that is told of a jump. -/
def Shape {E : Type} [NormedAddCommGroup E] [NormedSpace ℝ E] [Module ℚ E] (rk : RK 1 ℝ ℚ E E ℝ J) (st : RK.State 1 E) : Prop :=
  rk.fsal = true → ∃ b f0, st = some (b, f0)

/-- The state handed over by the pass is none for the first solve, and later a jump is announced. -/
def StateOK {C E : Type} [NormedAddCommGroup E] [NormedSpace ℝ E] [Module ℚ E] (rk : RK 1 ℝ ℚ E E ℝ J)
    (st : Option (RK.State 1 E × C)) (mj : Bool) : Prop :=
  ∀ s, st = some s → mj = true ∧ Shape rk s.1

theorem shape_after {C O Fl E : Type} [NormedAddCommGroup E] [NormedSpace ℝ E] [Module ℚ E] [LinearOrder Fl] [Zero Fl]
    (rk : RK 1 ℝ ℚ E E ℝ J) (cfg : Cfg ℝ E (Option E) (RK.Dense 1 E) (RK.State 1 E) C O Fl)
    (hstep : cfg.solver.step = rk.step) (y0 : E) (tnext : ℝ) (ctrl : C) (ss : RK.State 1 E) (mj : Bool)
    (h : Shape rk ss) : Shape rk (Verif.solve cfg y0 tnext ctrl ss mj).core.solverState := by
  rw [solve_core]
  refine (run_inv cfg (fun s => Shape rk s.solverState) cfg.maxSteps (initState cfg y0 tnext ctrl ss mj).core h ?_).2
  intro s _ _ hs
  show Shape rk (if accepted cfg s then (solverOut cfg s).state else s.solverState)
  split
  · intro hf
    have e : (solverOut cfg s).state = (rk.step s.tprev s.tnext s.y s.solverState s.madeJump).state := by
      rw [← hstep]; rfl
    rw [e]
    refine ⟨false, (rk.stages s.tprev s.tnext s.y rk.numStages
      (rk.initStage s.tprev s.tnext s.y s.solverState s.madeJump)).f1, ?_⟩
    simp only [RK.step, hf, if_true]
  · exact hs

/-- What one solve of the backward pass does to an error. -/
theorem solve_close {tab : Fin 1 → Tableau ℚ} {sN : ℕ} {c : ℕ → ℚ} {N M : ℕ} {δ' : ℚ} (hN : N ≠ 0)
    (hord : StepOrder tab N 0 M δ') (hok : methodOK sN c tab = true) (hex : ∀ p, (tab p).implicit = false)
    (hF : AnalyticOnNhd ℝ F univ) (h : IsVjp (derivOf F) θ vjp) (cj : CalcJac) (rF rK : RootFinder (Aug S Q) J) (nj : J)
    (Z : ℝ → Aug S Q) (s t a' b' : ℝ) (hs : s ∈ Icc t0 last) (ht : t ∈ Icc t0 last) (hts : t ≤ s) (ha : a' < t) (hb : s < b')
    (hZ : ∀ r ∈ Ioo a' b', HasDerivAt Z (adjRhs (fun t z => F (t, z)) θ vjp r (Z r)) r) :
    ∃ δ B : ℝ, 0 < δ ∧ 0 ≤ B ∧ ∀ (C O Fl : Type) [LinearOrder Fl] [Zero Fl] (u : Settings (Aug S Q) C O Fl)
      (rk : RK 1 ℝ ℚ (Aug S Q) (Aug S Q) ℝ J)
      (_ : rk = odeRK tab (mirrored (adjRhs (fun t z => F (t, z)) θ vjp)) cj rF rK nj)
      (_ : u.Uses rk (Icc t0 last)) (η : ℝ) (_ : 0 ≤ η) (_ : η ≤ δ) (z : Aug S Q) (st : Option (RK.State 1 (Aug S Q) × C))
      (mj : Bool) (_ : StateOK rk st mj) (_ : u.Fine rk.init η s t z st mj) (_ : ‖z - Z s‖ ≤ δ),
      ‖(u.solve rk.init s t z st mj).1 - Z t‖ ≤ B * (‖z - Z s‖ + η ^ N) ∧
      StateOK rk (some (u.solve rk.init s t z st mj).2) true := by
  obtain ⟨δ, B, hδ, hB, hall⟩ := converges_valid hN hord hok hex (Aug S Q) J _ cj rF rK nj univ _ _ _
    (mirrored_near hF h Z s t a' b' hts ha hb hZ)
  refine ⟨δ, B, hδ, hB, ?_⟩
  intro C O Fl _ _ u rk hrk hu η hη0 hη z st mj hst hf hz
  have hv : rk.ValidState (-s) z (startState rk.init st) mj ∧ Shape rk (startState rk.init st) := by
    cases st with
    | none =>
      have := validState_init tab (mirrored (adjRhs (fun t z => F (t, z)) θ vjp)) cj rF rK nj (-s) z mj
      rw [← hrk] at this
      refine ⟨this, fun hfs => ?_⟩
      obtain ⟨b, f0, e, -⟩ := this hfs
      exact ⟨b, f0, e⟩
    | some st =>
      obtain ⟨hm, hsh⟩ := hst st rfl
      refine ⟨fun hfs => ?_, hsh⟩
      obtain ⟨b, f0, e⟩ := hsh hfs
      exact ⟨b, f0, e, Or.inr (Or.inl hm)⟩
  constructor
  · have hz' : ‖z - (fun r => Z (-r)) (-s)‖ ≤ δ := by simpa using hz
    have hv1 := hv.1
    rw [hrk] at hv1
    have := (hall C O Fl (u.cfg s t) (hu.wf s hs t ht hts) (hu.t0 s t) (hu.t1 s t) (by rw [← hrk]; exact hu.solver s t)
      (hu.controller s t) z hz' _ _ _ mj (by rw [← hrk] at hv1 ⊢; exact hv1) η hη0 hη hf.forward hf.small).2
      (hu.rootFinder s t)
    have e : (Verif.solve (u.cfg s t) z (u.start s t z (st.map (·.2))).1 (u.start s t z (st.map (·.2))).2
      (startState rk.init st) mj).tfinal = -t := hf.reaches
    rw [e] at this
    simp only [neg_neg] at this
    exact this
  · intro s' hs'
    obtain rfl := Option.some.inj hs'
    exact ⟨rfl, shape_after rk _ (hu.solver s t) _ _ _ _ _ hv.2⟩

/-- Vals within `e` of one another, at the same times. -/
structure NearVal (e : ℝ) (v' v : ℝ × ℝ × (S → ℝ) × (S → ℝ)) : Prop where
  stop : v'.1 = v.1
  start : v'.2.1 = v.2.1
  y : ‖v'.2.2.1 - v.2.2.1‖ ≤ e
  g : ‖v'.2.2.2 - v.2.2.2‖ ≤ e

/-- What all the solves do to an error. -/
theorem run_close {tab : Fin 1 → Tableau ℚ} {sN : ℕ} {c : ℕ → ℚ} {N M : ℕ} {δ' : ℚ} (hN : N ≠ 0)
    (hord : StepOrder tab N 0 M δ') (hok : methodOK sN c tab = true) (hex : ∀ p, (tab p).implicit = false)
    (hF : AnalyticOnNhd ℝ F univ) (h : IsVjp (derivOf F) θ vjp) (cj : CalcJac) (rF rK : RootFinder (Aug S Q) J) (nj : J)
    (Zf : ℝ → (S → ℝ) × (Q → ℝ) → ℝ → Aug S Q)
    (hZ : ∀ s ∈ Icc t0 last, ∀ w, Zf s w s = (y s, w) ∧ ∃ a' < t0, ∃ b' > last, ∀ r ∈ Ioo a' b',
      HasDerivAt (Zf s w) (adjRhs (fun t z => F (t, z)) θ vjp r (Zf s w r)) r)
    (vs : List (ℝ × ℝ × (S → ℝ) × (S → ℝ)))
    (hvs : ∀ v ∈ vs, v.1 ∈ Icc t0 last ∧ v.2.1 ∈ Icc t0 last ∧ v.1 ≤ v.2.1 ∧ v.2.2.1 = y v.2.1)
    (x : (S → ℝ) × (Q → ℝ)) (o : Option Unit) (first : Bool) (B0 : ℝ) (hB0 : 0 ≤ B0) :
    ∃ δ B : ℝ, 0 < δ ∧ 0 ≤ B ∧ ∀ (C O Fl : Type) [LinearOrder Fl] [Zero Fl] (u : Settings (Aug S Q) C O Fl)
      (rk : RK 1 ℝ ℚ (Aug S Q) (Aug S Q) ℝ J)
      (_ : rk = odeRK tab (mirrored (adjRhs (fun t z => F (t, z)) θ vjp)) cj rF rK nj)
      (_ : u.Uses rk (Icc t0 last)) (e η : ℝ) (_ : 0 ≤ e) (_ : e ≤ δ) (_ : 0 ≤ η) (_ : η ≤ δ)
      (vs' : List (ℝ × ℝ × (S → ℝ) × (S → ℝ))) (_ : List.Forall₂ (NearVal e) vs' vs) (x' : (S → ℝ) × (Q → ℝ))
      (st : Option (RK.State 1 (Aug S Q) × C)) (_ : StateOK rk st (!first)) (_ : ‖x' - x‖ ≤ B0 * (e + η ^ N))
      (_ : AllCalls (u.solve rk.init) (u.Fine rk.init η) (x', st) first vs'),
      ‖(runVals (u.solve rk.init) (x', st) first vs').1
        - (runVals (fun s t z _ _ => (Zf s z.2 t, ())) (x, o) first vs).1‖ ≤ B * (e + η ^ N) := by
  induction vs generalizing x o first B0 with
  | nil =>
    refine ⟨1, B0, one_pos, hB0, ?_⟩
    intro C O Fl _ _ u rk hrk hu e η he0 he hη0 hη vs' hvs' x' st hst hx hcalls
    cases hvs'
    exact hx
  | cons v vs ih =>
    obtain ⟨v1, v2, v3, v4⟩ := hvs v (by simp)
    set w : (S → ℝ) × (Q → ℝ) := (x.1 + v.2.2.2, x.2) with hw
    obtain ⟨hz0, a', ha, b', hb, hz⟩ := hZ v.2.1 v2 w
    obtain ⟨δv, Bv, hδv, hBv, hone⟩ := solve_close (t0 := t0) (last := last) hN hord hok hex hF h cj rF rK nj (Zf v.2.1 w)
      v.2.1 v.1 a' b' v2 v1 v3 (ha.trans_le v1.1) (v2.2.trans_lt hb) hz
    obtain ⟨δ1, B, hδ1, hB, hrest⟩ := ih (fun v hv => hvs v (List.mem_cons_of_mem _ hv)) (Zf v.2.1 w v.1).2 (some ()) false
      (Bv * (B0 + 2)) (by positivity)
    refine ⟨min (min 1 δv) (min (δv / (2 * (B0 + 1))) δ1), B, by positivity, hB, ?_⟩
    intro C O Fl _ _ u rk hrk hu e η he0 he hη0 hη vs' hvs' x' st hst hx hcalls
    cases hvs' with
    | cons hv hvs' =>
    rename_i v' vs'
    obtain ⟨e1, e2, e3, e4⟩ := hv
    obtain ⟨hfine, hcalls⟩ := hcalls
    have hη1 : η ≤ 1 := hη.trans ((min_le_left _ _).trans (min_le_left _ _))
    have hηv : η ≤ δv := hη.trans ((min_le_left _ _).trans (min_le_right _ _))
    have hηq : η ^ N ≤ δv / (2 * (B0 + 1)) :=
      (pow_le_of_le_one hη0 hη1 hN).trans (hη.trans ((min_le_right _ _).trans (min_le_left _ _)))
    have heq : e ≤ δv / (2 * (B0 + 1)) := he.trans ((min_le_right _ _).trans (min_le_left _ _))
    have hp0 : 0 ≤ η ^ N := by positivity
    have hh : (B0 + 1) * (e + η ^ N) ≤ δv := by
      have h1 : (B0 + 1) * (e + η ^ N) ≤ (B0 + 1) * (δv / (2 * (B0 + 1)) + δv / (2 * (B0 + 1))) := by gcongr
      have h2 : (B0 + 1) * (δv / (2 * (B0 + 1)) + δv / (2 * (B0 + 1))) = δv := by field_simp; ring
      linarith
    set z' : Aug S Q := (v'.2.2.1, x'.1 + v'.2.2.2, x'.2) with hz'
    have hzz : ‖z' - Zf v.2.1 w v.2.1‖ ≤ (B0 + 1) * (e + η ^ N) := by
      rw [hz0, ← v4]
      have hx1 : ‖x'.1 - x.1‖ ≤ B0 * (e + η ^ N) := (le_max_left _ _).trans hx
      have hx2 : ‖x'.2 - x.2‖ ≤ B0 * (e + η ^ N) := (le_max_right _ _).trans hx
      refine max_le ?_ (max_le ?_ ?_)
      · refine (show ‖v'.2.2.1 - v.2.2.1‖ ≤ e from e3).trans ?_
        nlinarith [mul_nonneg hB0 (add_nonneg he0 hp0)]
      · have : x'.1 + v'.2.2.2 - (x.1 + v.2.2.2) = (x'.1 - x.1) + (v'.2.2.2 - v.2.2.2) := by abel
        show ‖x'.1 + v'.2.2.2 - (x.1 + v.2.2.2)‖ ≤ _
        rw [this]
        refine (norm_add_le _ _).trans ?_
        linarith
      · refine (show ‖x'.2 - x.2‖ ≤ _ from hx2).trans ?_
        linarith
    have hfine' : u.Fine rk.init η v.2.1 v.1 z' st (!first) := by
      have h1 : u.Fine rk.init η v'.2.1 v'.1 z' st (!first) := hfine
      rwa [e1, e2] at h1
    obtain ⟨g1, g2⟩ := hone C O Fl u rk hrk hu η hη0 hηv z' st (!first) hst hfine' (hzz.trans hh)
    have es : scanFun (u.solve rk.init) (x', st) v' first = ((u.solve rk.init v.2.1 v.1 z' st (!first)).1.2,
        some (u.solve rk.init v.2.1 v.1 z' st (!first)).2) := by
      rw [← e1, ← e2]; rfl
    have hcalls' : AllCalls (u.solve rk.init) (u.Fine rk.init η) (scanFun (u.solve rk.init) (x', st) v' first) false vs' :=
      hcalls
    show ‖(runVals (u.solve rk.init) (scanFun (u.solve rk.init) (x', st) v' first) false vs').1 -
      (runVals (fun s t z _ _ => (Zf s z.2 t, ())) ((Zf v.2.1 w v.1).2, some ()) false vs).1‖ ≤ _
    rw [es] at hcalls' ⊢
    refine hrest C O Fl u rk hrk hu e η he0 (he.trans ((min_le_right _ _).trans (min_le_right _ _))) hη0
      (hη.trans ((min_le_right _ _).trans (min_le_right _ _))) vs' hvs' _ _ g2 ?_ hcalls'
    refine (le_max_right _ _ : ‖((u.solve rk.init v.2.1 v.1 z' st (!first)).1 - Zf v.2.1 w v.1).2‖ ≤ _).trans (g1.trans ?_)
    rw [mul_assoc]
    refine mul_le_mul_of_nonneg_left ?_ hBv
    nlinarith

theorem near_chain (e : ℝ) (t0 : ℝ) (ps' ps : List (ℝ × (S → ℝ) × (S → ℝ)))
    (h : List.Forall₂ (fun p' p : ℝ × (S → ℝ) × (S → ℝ) => p'.1 = p.1 ∧ ‖p'.2.1 - p.2.1‖ ≤ e ∧ ‖p'.2.2 - p.2.2‖ ≤ e) ps' ps) :
    List.Forall₂ (NearVal e) (chain t0 ps') (chain t0 ps) := by
  induction h generalizing t0 with
  | nil => exact List.Forall₂.nil
  | cons hp _ ih =>
    refine List.Forall₂.cons ⟨rfl, hp.1, hp.2.1, hp.2.2⟩ ?_
    rw [hp.1]
    exact ih _

end

theorem forall₂_tail {α β : Type} {R : α → β → Prop} {l : List α} {l' : List β} (h : List.Forall₂ R l l') :
    List.Forall₂ R l.tail l'.tail := by
  cases h with
  | nil => exact List.Forall₂.nil
  | cons _ h => exact h

/-- **C97.** The gradients of `BacksolveAdjoint` converge, with the order of the solver, for every explicit Runge-Kutta
solver. -/
theorem C97_converges {tab : Fin 1 → Tableau ℚ} {sN : ℕ} {c : ℕ → ℚ} {N M : ℕ} {δ' : ℚ} (hN : N ≠ 0)
    (hord : StepOrder tab N 0 M δ') (hok : methodOK sN c tab = true)
    (hex : ∀ p, (tab p).implicit = false) : BacksolveConverges tab N := by
  intro S Q J _ _ F θ y t0 last hs vjp hvjp cj rF rK nj n hn saveatT0 ts hmono hts h0 gs
  choose! Zf hZ using fun s hs' w => adjoint_exists hs hvjp s hs' w
  set solveX : Solve ℝ (S → ℝ) (Q → ℝ) Unit := fun s t z _ _ => (Zf s z.2 t, ()) with hX
  have hEx : ExactAlong (adjRhs (fun t z => F (t, z)) θ vjp) solveX y (Icc t0 last) := by
    intro s t a p st mj hs' ht' hts'
    obtain ⟨z0, a', ha, b', hb, hz⟩ := hZ s hs' (a, p)
    exact ⟨Zf s (a, p), z0, rfl, fun r hr =>
      (hz r ⟨ha.trans_le (ht'.1.trans hr.1), (hr.2.trans hs'.2).trans_lt hb⟩).hasDerivWithinAt⟩
  obtain ⟨a, q, hback, hgrad⟩ := C68_gradient_along hn.ne' (fun t z => F (t, z)) (derivOf F) θ vjp hvjp t0 last
    (smoothOn_analytic hs.analytic t0 last) saveatT0 ts hmono hts h0 solveX y hEx gs
  refine ⟨a, q, hgrad, ?_⟩
  set pts : List (ℝ × (S → ℝ) × (S → ℝ)) := List.ofFn fun i => (ts i, y (ts i), gs i) with hpts
  have hsub : ∀ v ∈ (chain t0 (swept saveatT0 pts)).reverse,
      v.1 ∈ Icc t0 last ∧ v.2.1 ∈ Icc t0 last ∧ v.1 ≤ v.2.1 ∧ v.2.2.1 = y v.2.1 := by
    intro v hv
    rw [List.mem_reverse] at hv
    have hpw : (t0 :: pts.map (·.1)).Pairwise (· ≤ ·) := by
      rw [hpts, List.map_ofFn, List.pairwise_cons]
      refine ⟨?_, ?_⟩
      · intro x hx
        obtain ⟨i, rfl⟩ := List.mem_ofFn.1 hx
        exact (hts i).1
      · rw [List.pairwise_ofFn]
        intro i j hij
        exact hmono hij.le
    have hsw : ∀ p ∈ swept saveatT0 pts, p ∈ pts := by
      intro p hp
      unfold swept at hp
      split at hp
      · exact List.mem_of_mem_tail hp
      · exact hp
    have hpw' : (t0 :: (swept saveatT0 pts).map (·.1)).Pairwise (· ≤ ·) := by
      refine hpw.sublist (List.Sublist.cons_cons _ (List.Sublist.map _ ?_))
      unfold swept
      split
      · exact List.tail_sublist _
      · exact List.Sublist.refl _
    have hy : ∀ p ∈ pts, p.2.1 = y p.1 ∧ p.1 ∈ Icc t0 last := by
      intro p hp
      obtain ⟨i, rfl⟩ := List.mem_ofFn.1 hp
      exact ⟨rfl, hts i⟩
    obtain ⟨c1, c2, c3, c4⟩ := chain_mem (traj := y) t0 (swept saveatT0 pts) hpw' (fun p hp => (hy p (hsw p hp)).1) v hv
    have := (hy _ (hsw _ c4)).2
    exact ⟨⟨c1, c2.trans this.2⟩, this, c2, c3⟩
  obtain ⟨δ, B, hδ, hB, hall⟩ := run_close hN hord hok hex hs.analytic hvjp cj rF rK nj Zf hZ _ hsub (0, 0) none true 0 le_rfl
  refine ⟨δ, B + 1, hδ, by positivity, ?_⟩
  intro C O Fl _ _ u rk hrk hu e η he hη0 hη ys' gs' hys hgs hcalls
  have he0 : 0 ≤ e := (norm_nonneg _).trans (hys ⟨0, hn⟩)
  have hp0 : 0 ≤ η ^ N := by positivity
  set pts' : List (ℝ × (S → ℝ) × (S → ℝ)) := List.ofFn fun i => (ts i, ys' i, gs' i) with hpts'
  have hnear : List.Forall₂ (fun p' p : ℝ × (S → ℝ) × (S → ℝ) => p'.1 = p.1 ∧ ‖p'.2.1 - p.2.1‖ ≤ e ∧ ‖p'.2.2 - p.2.2‖ ≤ e)
      pts' pts := by
    rw [List.forall₂_iff_get]
    refine ⟨by simp [hpts, hpts'], fun i h1 h2 => ?_⟩
    simp only [hpts, hpts', List.get_eq_getElem, List.getElem_ofFn]
    exact ⟨trivial, hys _, hgs _⟩
  have hnear' : List.Forall₂ (NearVal e) (chain t0 (swept saveatT0 pts')).reverse (chain t0 (swept saveatT0 pts)).reverse := by
    refine List.forall₂_reverse_iff.2 (near_chain e t0 _ _ ?_)
    unfold swept
    split
    · exact forall₂_tail hnear
    · exact hnear
  have hmain := hall C O Fl u rk hrk hu e η he0 he hη0 hη _ hnear' (0, 0) none (fun s hs => by cases hs)
    (by rw [sub_self, norm_zero, zero_mul]) hcalls
  rw [← sweep_eq, ← sweep_eq] at hmain
  have m1 : ∀ (ys gs : Fin n → S → ℝ), (List.ofFn fun i => (ts i, ys i, gs i)).map (·.1) = List.ofFn ts := by
    intro ys gs; rw [List.map_ofFn]; rfl
  have m2 : ∀ (ys gs : Fin n → S → ℝ), (List.ofFn fun i => (ts i, ys i, gs i)).map (·.2.1) = List.ofFn ys := by
    intro ys gs; rw [List.map_ofFn]; rfl
  have m3 : ∀ (ys gs : Fin n → S → ℝ), (List.ofFn fun i => (ts i, ys i, gs i)).map (·.2.2) = List.ofFn gs := by
    intro ys gs; rw [List.map_ofFn]; rfl
  have hb1 : ‖(sweep (u.solve rk.init) (chain t0 (swept saveatT0 pts'))).1.1 -
      (sweep solveX (chain t0 (swept saveatT0 pts))).1.1‖ ≤ B * (e + η ^ N) := (le_max_left _ _).trans hmain
  have hb2 : ‖(sweep (u.solve rk.init) (chain t0 (swept saveatT0 pts'))).1.2 -
      (sweep solveX (chain t0 (swept saveatT0 pts))).1.2‖ ≤ B * (e + η ^ N) := (le_max_right _ _).trans hmain
  obtain ⟨k, rfl⟩ := Nat.exists_eq_succ_of_ne_zero hn.ne'
  cases saveatT0 with
  | false =>
    have hne : pts ≠ [] := by simp [hpts]
    have hne' : pts' ≠ [] := by simp [hpts']
    have r1 := backward_not_t0 solveX t0 pts hne
    rw [hpts, m1, m2, m3, hback] at r1
    have r2 := backward_not_t0 (u.solve rk.init) t0 pts' hne'
    rw [hpts', m1, m2, m3] at r2
    have r1' := Option.some.inj r1
    have ea : a = (sweep solveX (chain t0 pts)).1.1 := congrArg Prod.fst r1'
    have eq : q = (sweep solveX (chain t0 pts)).1.2 := congrArg Prod.snd r1'
    refine ⟨_, _, r2, ?_, ?_⟩
    · rw [ea]; refine hb1.trans ?_; nlinarith
    · rw [eq]; refine hb2.trans ?_; nlinarith
  | true =>
    have ht0 : ts 0 = t0 := h0 rfl
    have ec : ∀ (ys gs : Fin (k + 1) → S → ℝ), (List.ofFn fun i => (ts i, ys i, gs i)) =
        (ts 0, ys 0, gs 0) :: (List.ofFn fun i => (ts i, ys i, gs i)).tail := by
      intro ys gs; rw [List.ofFn_succ]; rfl
    have r1 := backward_t0 solveX t0 (ts 0, y (ts 0), gs 0) pts.tail
    rw [← ec (fun i => y (ts i)) gs, m1, m2, m3, hback, ht0] at r1
    have r2 := backward_t0 (u.solve rk.init) t0 (ts 0, ys' 0, gs' 0) pts'.tail
    rw [← ec ys' gs', m1, m2, m3, ht0] at r2
    have r1' := Option.some.inj r1
    have ea : a = (sweep solveX (chain t0 pts.tail)).1.1 + gs 0 := congrArg Prod.fst r1'
    have eq : q = (sweep solveX (chain t0 pts.tail)).1.2 := congrArg Prod.snd r1'
    refine ⟨_, _, r2, ?_, ?_⟩
    · rw [ea]
      have := hgs 0
      have e1 : ∀ b b' g g' : S → ℝ, b' + g' - (b + g) = (b' - b) + (g' - g) := fun b b' g g' => by abel
      rw [e1]
      refine (norm_add_le _ _).trans ?_
      have hb1' : ‖(sweep (u.solve rk.init) (chain t0 pts'.tail)).1.1 - (sweep solveX (chain t0 pts.tail)).1.1‖
        ≤ B * (e + η ^ N) := hb1
      linarith
    · rw [eq]; refine hb2.trans ?_; nlinarith

/-- **C97.** `Heun`, `Midpoint`, `Ralston`, `Bosh3` and `Dopri5`. -/
theorem C97_solvers : BacksolveConverges ![Heun.tableau] 2 ∧ BacksolveConverges ![Midpoint.tableau] 2 ∧
    BacksolveConverges ![Ralston.tableau] 2 ∧ BacksolveConverges ![Bosh3.tableau] 3 ∧ BacksolveConverges ![Dopri5.tableau] 5 :=
  ⟨C97_converges (sN := 2) (c := Heun.tableau.abscissa) (by norm_num) C61_heun (by decide +kernel) (by decide +kernel),
   C97_converges (sN := 2) (c := Midpoint.tableau.abscissa) (by norm_num) C61_midpoint (by decide +kernel) (by decide +kernel),
   C97_converges (sN := 2) (c := Ralston.tableau.abscissa) (by norm_num) C61_ralston (by decide +kernel) (by decide +kernel),
   C97_converges (sN := 4) (c := Bosh3.tableau.abscissa) (by norm_num) C61_bosh3 (by decide +kernel) (by decide +kernel),
   C97_converges (sN := 7) (c := Dopri5.tableau.abscissa) (by norm_num) C61_dopri5 (by decide +kernel) (by decide +kernel)⟩

/-- **C97.** With `SaveAt(t1=True)` and `ConstantStepSize`, the backward pass gives the gradient up to a constant times the
error in the final value and in the gradient of the loss there, plus the `N`-th power of `dt0`. -/
theorem C97_constant {tab : Fin 1 → Tableau ℚ} {N : ℕ} (hconv : BacksolveConverges tab N)
    (hex : ∀ p, (tab p).implicit = false) {S Q J : Type} [Fintype S] [Fintype Q] (F : ℝ × (S → ℝ) × (Q → ℝ) → S → ℝ)
    (θ : Q → ℝ) (y : ℝ → S → ℝ) (t0 t1 : ℝ) (hs : SolvesOn F θ y t0 t1)
    (vjp : ℝ → (S → ℝ) → (Unit → ℝ) → (S → ℝ) → (S → ℝ) × (Q → ℝ)) (hvjp : IsVjp (derivOf F) θ vjp)
    (cj : CalcJac) (rF rK : RootFinder (Aug S Q) J) (nj : J) (hlt : t0 < t1) (g : S → ℝ) :
    ∃ a q, IsGradient F θ y t0 t1 (fun _ : Fin 1 => t1) (fun _ => g) a q ∧
      ∃ δ B : ℝ, 0 < δ ∧ 0 ≤ B ∧ ∀ (O Fl : Type) [LinearOrder Fl] [Zero Fl] (u : Settings (Aug S Q) (ConstState ℝ) O Fl)
        (rk : RK 1 ℝ ℚ (Aug S Q) (Aug S Q) ℝ J)
        (_ : rk = odeRK tab (mirrored (adjRhs (fun t z => F (t, z)) θ vjp)) cj rF rK nj)
        (_ : u.Uses rk (Icc t0 t1)) (_ : (u.cfg t1 t0).controller = constantStepSize) (_ : (u.cfg t1 t0).events = [])
        (e dt0 : ℝ) (_ : e ≤ δ) (_ : 0 < dt0) (_ : dt0 ≤ δ)
        (_ : ∀ z, constInit id (-t1) (some (-t0)) (some dt0) = some (u.start t1 t0 z none))
        (_ : -t0 - (-t0 - -t1) / (⌈(-t0 - -t1) / dt0⌉ : Int) ≤ (u.cfg t1 t0).floor)
        (_ : ⌈(-t0 - -t1) / dt0⌉ ≤ (u.cfg t1 t0).maxSteps)
        (y1 g' : S → ℝ) (_ : ‖y1 - y t1‖ ≤ e) (_ : ‖g' - g‖ ≤ e),
        ∃ a' q', backward (u.solve rk.init) false t0 [t1] [y1] [g'] = some (a', q') ∧
          ‖a' - a‖ ≤ B * (e + dt0 ^ N) ∧ ‖q' - q‖ ≤ B * (e + dt0 ^ N) := by
  obtain ⟨a, q, hg, δ, B, hδ, hB, hall⟩ := hconv S Q J F θ y t0 t1 hs vjp hvjp cj rF rK nj 1 one_pos false (fun _ => t1)
    (fun _ _ _ => le_rfl) (fun _ => ⟨hlt.le, le_rfl⟩) (fun h => by cases h) (fun _ => g)
  refine ⟨a, q, hg, δ, B, hδ, hB, ?_⟩
  intro O Fl _ _ u rk hrk hu hctrl hev e dt0 he hdt hdtδ hinit hfl hmax y1 g' hy hg'
  have hfine : ∀ z, u.Fine rk.init dt0 t1 t0 z none false := by
    intro z
    have hi := hinit z
    have e0 := hu.t0 t1 t0
    have e1 := hu.t1 t1 t0
    rw [← e0, ← e1] at hi
    obtain ⟨n, p, hn, hlog, hp0, hpn, hlt', hle, -, -, -, htf, hres, -, -, -⟩ :=
      C22_constant_steps (u.cfg t1 t0) id dt0 z rk.init false (u.start t1 t0 z none).1 (u.start t1 t0 z none).2 hi
        (by rw [e0, e1]; linarith) hdt (le_refl _) (fun h => h) hctrl hev
        (fun a b y s j => by rw [hu.solver, hrk, C41_explicit_succeeds _ hex])
        (hu.wf t1 ⟨hlt.le, le_rfl⟩ t0 ⟨le_rfl, hlt.le⟩ hlt.le).floor_le
        (by rw [e0, e1]; exact hfl) (by rw [e0, e1]; exact hmax)
    have hmem : ∀ c ∈ callLog (u.cfg t1 t0) z (u.start t1 t0 z none).1 (u.start t1 t0 z none).2 rk.init false,
        ∃ k < n, c.solverT0 = p k ∧ c.solverT1 = p (k + 1) := by
      intro c hc
      have h1 : (c.solverT0, c.solverT1) ∈ (List.range n).map (fun j => (p j, p (j + 1))) := by
        rw [← hlog]; exact List.mem_map_of_mem hc
      obtain ⟨k, hk, he⟩ := List.mem_map.1 h1
      have he' := Prod.mk.inj he
      exact ⟨k, List.mem_range.1 hk, he'.1.symm, he'.2.symm⟩
    refine ⟨fun c hc => ?_, fun c hc _ => ?_, ?_⟩
    · obtain ⟨k, hk, e1, e2⟩ := hmem c hc
      rw [e1, e2]; exact (hlt' k hk).le
    · obtain ⟨k, hk, e1, e2⟩ := hmem c hc
      rw [e1, e2]; simpa using hle k hk
    · rw [← e1]; exact htf
  have := hall _ O Fl u rk hrk hu e dt0 he hdt.le hdtδ (fun _ => y1) (fun _ => g') (fun _ => hy) (fun _ => hg')
    ⟨hfine _, trivial⟩
  exact this

/-! ### Example: `dy/dt = θ y` on `[0, 1]`, with `θ = 1` and `y(0) = 1` -/

section

/-- The right-hand side. -/
def linF : ℝ × (Unit → ℝ) × (Unit → ℝ) → Unit → ℝ := fun x _ => x.2.2 () * x.2.1 ()

theorem linF_analytic : AnalyticOnNhd ℝ linF univ := by
  intro x _
  have h1 : AnalyticAt ℝ (fun x : ℝ × (Unit → ℝ) × (Unit → ℝ) => x.2.1) x := analyticAt_fst.fun_comp analyticAt_snd
  have h2 : AnalyticAt ℝ (fun x : ℝ × (Unit → ℝ) × (Unit → ℝ) => x.2.2) x := analyticAt_snd.fun_comp analyticAt_snd
  have hp := fun v => (ContinuousLinearMap.proj (R := ℝ) (φ := fun _ : Unit => ℝ) ()).analyticAt v
  exact analyticAt_pi_iff.2 fun _ => ((hp _).fun_comp h2).fun_mul ((hp _).fun_comp h1)

theorem linF_solves : SolvesOn linF (fun _ => 1) (fun t _ => Real.exp t) 0 1 where
  analytic := linF_analytic
  le := zero_le_one
  solves := ⟨-1, by norm_num, 2, by norm_num, fun t _ => hasDerivAt_pi.2 fun _ => by
    simpa [linF] using Real.hasDerivAt_exp t⟩

theorem linF_deriv (t : ℝ) (z v : (Unit → ℝ) × (Unit → ℝ)) :
    derivOf linF t z v = fun _ => z.2 () * v.1 () + z.1 () * v.2 () := by
  let p1 : ℝ × (Unit → ℝ) × (Unit → ℝ) →L[ℝ] ℝ := (ContinuousLinearMap.proj (R := ℝ) (φ := fun _ : Unit => ℝ) ()).comp
    ((ContinuousLinearMap.fst ℝ (Unit → ℝ) (Unit → ℝ)).comp (ContinuousLinearMap.snd ℝ ℝ ((Unit → ℝ) × (Unit → ℝ))))
  let p2 : ℝ × (Unit → ℝ) × (Unit → ℝ) →L[ℝ] ℝ := (ContinuousLinearMap.proj (R := ℝ) (φ := fun _ : Unit => ℝ) ()).comp
    ((ContinuousLinearMap.snd ℝ (Unit → ℝ) (Unit → ℝ)).comp (ContinuousLinearMap.snd ℝ ℝ ((Unit → ℝ) × (Unit → ℝ))))
  have h1 : HasFDerivAt (fun x : ℝ × (Unit → ℝ) × (Unit → ℝ) => x.2.1 ()) p1 (t, z) := p1.hasFDerivAt
  have h2 : HasFDerivAt (fun x : ℝ × (Unit → ℝ) × (Unit → ℝ) => x.2.2 ()) p2 (t, z) := p2.hasFDerivAt
  have h := hasFDerivAt_pi.2 fun _ : Unit => h2.mul h1
  have e : fderiv ℝ linF (t, z) = _ := HasFDerivAt.fderiv h
  funext i
  show fderiv ℝ linF (t, z) (0, v) i = _
  rw [e]
  simp [p1, p2]

theorem linF_vjp : IsVjp (derivOf linF) (fun _ => 1) exVjp := by
  intro t y c a v w
  rw [linF_deriv]
  simp [dot, exVjp]
  ring

/-- `Dopri5` on the adjoint equations. -/
noncomputable def linRK : RK 1 ℝ ℚ (Aug Unit Unit) (Aug Unit Unit) ℝ Unit :=
  odeRK ![Dopri5.tableau] (mirrored (adjRhs (fun t z => linF (t, z)) (fun _ => 1) exVjp)) .never
    (idealRoot _) (idealRoot _) ()

/-- `n` constant steps. -/
noncomputable def linSettings (n : ℕ) : Settings (Aug Unit Unit) (ConstState ℝ) ℝ ℝ where
  cfg := fun s t =>
    { t0 := -s
      t1 := -t
      solver := { step := linRK.step, interp := fun _ _ d _ => d.y0 }
      controller := constantStepSize
      cleanErr := id
      maxSteps := n
      floor := -t
      mid := fun a b => (a + b) / 2
      dist := fun a b => a - b
      dummyDense := (linRK.step 0 0 0 linRK.init false).dense
      subs := []
      dense := false
      events := []
      rootFinder := none }
  start := fun s t _ _ =>
    (-s + 1 / n, { completed := 1, numSteps := ⌈(-t - -s) / (1 / n : ℝ)⌉, t0 := -s, t1OrDt0 := -t })

/-- The gradient of a loss of `y(1)`, whose derivative at `y(1)` is `g`: with `n` steps of `Dopri5` both in the forward and in
the backward pass, so that the final value is within a multiple of `n⁻⁵`, the error is of order five. -/
example (g : Unit → ℝ) (c : ℝ) (hc : 0 ≤ c) : ∃ a q, IsGradient linF (fun _ => 1) (fun t _ => Real.exp t) 0 1 (fun _ : Fin 1 => 1)
      (fun _ => g) a q ∧ ∃ B : ℝ, ∃ n0 : ℕ, ∀ n ≥ n0, ∀ y1 g' : Unit → ℝ, ‖y1 - fun _ => Real.exp 1‖ ≤ c * (1 / n) ^ 5 →
        ‖g' - g‖ ≤ c * (1 / n) ^ 5 →
        ∃ a' q', backward ((linSettings n).solve linRK.init) false 0 [1] [y1] [g'] = some (a', q') ∧
          ‖a' - a‖ ≤ B * (1 / n) ^ 5 ∧ ‖q' - q‖ ≤ B * (1 / n) ^ 5 := by
  obtain ⟨a, q, hg, δ, B, hδ, hB, hall⟩ := C97_constant C97_solvers.2.2.2.2 (by decide +kernel) linF (fun _ => 1)
    (fun t _ => Real.exp t) 0 1 linF_solves exVjp linF_vjp .never (idealRoot _) (idealRoot _) () one_pos g
  obtain ⟨n0, hn0⟩ := exists_nat_gt ((c + 1) / δ)
  refine ⟨a, q, hg, B * (c + 1), n0 + 1, fun n hn y1 g' hy hg' => ?_⟩
  have hn1 : 1 ≤ n := by omega
  have hnp : (0 : ℝ) < n := by exact_mod_cast hn1
  have hn2 : (c + 1) / δ ≤ n := hn0.le.trans (by exact_mod_cast (by omega : n0 ≤ n))
  have h1 : (c + 1) * (1 / n) ≤ δ := by
    rw [mul_one_div, div_le_iff₀ hnp]
    rwa [div_le_iff₀ hδ, mul_comm] at hn2
  have h2 : (1 / n : ℝ) ≤ 1 := by
    rw [div_le_one hnp]; exact_mod_cast hn1
  have h0 : (0 : ℝ) ≤ 1 / n := by positivity
  have h3 : (1 / n : ℝ) ^ 5 ≤ 1 / n := pow_le_of_le_one h0 h2 (by norm_num)
  have hc1 : ⌈(-(0 : ℝ) - -1) / (1 / n : ℝ)⌉ = (n : ℤ) := by
    have : (-(0 : ℝ) - -1) / (1 / n : ℝ) = n := by field_simp; ring
    rw [this]; exact Int.ceil_natCast n
  obtain ⟨a', q', r, b1, b2⟩ := hall ℝ ℝ (linSettings n) linRK rfl
    { wf := fun s hs t ht hts =>
        { le := neg_le_neg hts
          floor_le := le_refl _
          le_mid := by intro a h; simp only [linSettings] at *; linarith
          mid_le := by intro a h; simp only [linSettings] at *; linarith }
      t0 := fun _ _ => rfl
      t1 := fun _ _ => rfl
      solver := fun _ _ => rfl
      controller := fun _ _ => by
        intro a b y0 y1 e st
        exact ⟨fun _ => rfl, fun h => by simp [linSettings, constantStepSize, constAdapt] at h⟩
      rootFinder := fun _ _ => rfl } rfl rfl (c * (1 / n) ^ 5) (1 / n)
    (by nlinarith) (by positivity) (by nlinarith) (fun z => rfl)
    (by
      rw [hc1]
      have : (0 : ℝ) ≤ (-0 - -1) / ((n : ℤ) : ℝ) := by rw [Int.cast_natCast]; norm_num
      show _ ≤ -(0 : ℝ)
      linarith)
    (by rw [hc1]; exact le_refl _) y1 g' hy hg'
  have e : B * (c * (1 / n) ^ 5 + (1 / n) ^ 5) = B * (c + 1) * (1 / n : ℝ) ^ 5 := by ring
  rw [e] at b1 b2
  exact ⟨a', q', r, b1, b2⟩

end

end Verif.Backsolve
