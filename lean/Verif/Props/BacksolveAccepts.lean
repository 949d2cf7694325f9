import Verif.Props.Front
import Verif.Props.FrontTime
import Verif.Props.ClipResume

/-!
# C100: whether the solves of the backward pass of `BacksolveAdjoint` accept their arguments

The backward pass calls `diffeqsolve` with the step size controller of the forward pass, which has been through `wrap` already
(`/repo/diffrax/_integrate.py` 1173, `_adjoint.py` 617-628), with `-dt0`, and with `SaveAt(t1=True)`, backwards in time.
-/

set_option linter.unusedSectionVars false

namespace Verif

section
variable {T Y VF Ct E D S C O F : Type} {m : Nat}
variable [CommRing T] [LinearOrder T] [IsStrictOrderedRing T] [LinearOrder F] [Zero F] [AddCommGroup Ct]

/-- `q` is a solve of the backward pass, for a forward pass with the first step `dt0` in the direction of integration. -/
structure Problem.BackwardOf (q : Problem m T Y VF Ct E D S C O F) (dt0 : Option T) : Prop where
  backwards : q.t1 ≤ q.t0
  dt0 : q.dt0 = dt0.map (-·)
  ts : ∀ s ∈ q.subs, s.ts = []

/-- **C100 is false for `StepTo`.** If a solve with `StepTo` is accepted, no solve of its backward pass is: the times are increasing
after the forward pass multiplied them by the direction, and are required to be decreasing. -/
theorem C100_violated_stepTo {m' : Nat} {Y' VF' Ct' E' D' S' O' F' : Type} [LinearOrder F'] [Zero F'] [AddCommGroup Ct']
    (p : Problem m T Y VF Ct E D S Nat O F) (ts : List T) (hp : p.controller = stepToClass ts) (s : Sol T Y D S Nat O F)
    (h : diffeqsolve p = .ok s)
    (q : Problem m' T Y' VF' Ct' E' D' S' Nat O' F') (hq : q.controller = stepToClass (ts.map (· * (p.direction : T))))
    (dt0 : Option T) (hb : q.BackwardOf dt0) : ¬ ∃ s', diffeqsolve q = .ok s' := by
  intro h'
  obtain ⟨-, -, w, hw, -⟩ := (C54_accepts_iff p).1 ⟨s, h⟩
  obtain ⟨-, -, w', hw', -⟩ := (C54_accepts_iff q).1 h'
  have hd : q.direction = -1 := by
    unfold Problem.direction; rw [if_neg (not_lt.2 hb.backwards)]
  rw [hp] at hw
  rw [hq, hd] at hw'
  unfold stepToClass at hw hw'
  split at hw
  · cases hw
  rename_i hlen
  dsimp only at hw hw'
  split at hw
  · cases hw
  rename_i h1
  split at hw'
  · cases hw'
  split at hw'
  · cases hw'
  rename_i h2
  rw [Bool.not_eq_true] at h1 h2
  rw [zip_any_le_false] at h1 h2
  rcases ts with _ | ⟨a, _ | ⟨b, ts⟩⟩
  · exact hlen (by simp)
  · exact hlen (by simp)
  · simp only [List.map_cons, List.pairwise_cons, List.mem_cons, forall_eq_or_imp] at h1 h2
    have e1 := h1.1.1
    have e2 := h2.1.1
    push_cast at e2
    linarith

/-- Whether a backward solve is accepted is up to the controller. -/
theorem backward_accepts (q : Problem m T Y VF Ct E D S C O F) (dt0 : Option T) (hb : q.BackwardOf dt0)
    (hdt : ∀ d ∈ dt0, 0 ≤ d) (w : WrappedController m T Y VF Ct E C) (hw : q.controller (-1) = .ok w)
    (hi : ∀ terms a b y0, ∃ r, w.init terms a b y0 dt0 = .ok r) : ∃ s, diffeqsolve q = .ok s := by
  have hd : q.direction = -1 := by
    unfold Problem.direction; rw [if_neg (not_lt.2 hb.backwards)]
  refine (C54_accepts_iff q).2 ⟨?_, ?_, w, by rw [hd]; exact hw, ?_⟩
  · intro d hd'
    rw [hb.dt0] at hd'
    obtain ⟨d0, h0, rfl⟩ := Option.map_eq_some_iff.1 hd'
    have := hdt d0 h0
    have := hb.backwards
    nlinarith
  · intro s hs
    rw [hb.ts s hs]
    simp
  · rw [hd, hb.dt0]
    have e : (dt0.map (-·)).map (· * ((-1 : Int) : T)) = dt0 := by
      cases dt0 <;> simp
    rw [e]
    unfold firstStep
    cases q.ctrlState with
    | none => exact hi _ _ _ _
    | some c =>
      cases dt0 with
      | none =>
        obtain ⟨r, hr⟩ := hi (fun i => wrapTerm (-1) (q.terms i)) (q.t0 * ((-1 : Int) : T)) (q.t1 * ((-1 : Int) : T)) q.y0
        simp only [bind, Except.bind, hr]
        exact ⟨_, rfl⟩
      | some d => exact ⟨_, rfl⟩

/-- **C100, partial: `ClipStepSizeController`** around a controller that accepts. -/
theorem C100_clip_partial [SuccOrder T] [PredOrder T] (q : Problem m T Y VF Ct E D S (ClipState T C) O F) (c : Clip T)
    (inner : Int → Except FrontError (WrappedController m T Y VF Ct E C)) (hc : q.controller = clipClass c inner)
    (dt0 : Option T) (hdt : ∀ d ∈ dt0, 0 ≤ d) (w : WrappedController m T Y VF Ct E C) (hw : inner (-1) = .ok w)
    (hi : ∀ terms a b y0, ∃ r, w.init terms a b y0 dt0 = .ok r) (hb : q.BackwardOf dt0) :
    ∃ s, diffeqsolve q = .ok s := by
  refine backward_accepts q dt0 hb hdt _ (by rw [hc]; unfold clipClass; rw [hw]; rfl) ?_
  intro terms a b y0
  obtain ⟨r, hr⟩ := hi terms a b y0
  simp only [bind, Except.bind, hr]
  exact ⟨_, rfl⟩

end

section
variable {K Y VF Ct E D S C O F : Type} {m : Nat} [Field K] [LinearOrder K] [IsStrictOrderedRing K] [FloorRing K]
  [LinearOrder F] [Zero F] [AddCommGroup Ct]

/-- **C100, partial: `ConstantStepSize`.** -/
theorem C100_constant_partial (q : Problem m K Y VF Ct E D S (ConstState K) O F) (up : K → K) (hc : q.controller = constClass up)
    (dt0 : K) (hdt : 0 ≤ dt0) (hb : q.BackwardOf (some dt0)) : ∃ s, diffeqsolve q = .ok s := by
  refine backward_accepts q (some dt0) hb (fun d hd => by cases hd; exact hdt) _ (by rw [hc]; rfl) ?_
  intro terms a b y0
  exact ⟨_, rfl⟩

/-- **C100, partial: `PIDController`.** -/
theorem C100_pid_partial (q : Problem m K (XTree K) (XTree K) Ct (XTree K) D S (PidState K) O F) (pid : Pid K)
    (hc : q.controller = pidClass pid) (dt0 : Option K) (hdt : ∀ d ∈ dt0, 0 ≤ d) (hb : q.BackwardOf dt0) :
    ∃ s, diffeqsolve q = .ok s :=
  backward_accepts q dt0 hb hdt _ (by rw [hc]; rfl) fun _ _ _ _ => ⟨_, rfl⟩

end

/-- The hypotheses of `C100_violated_stepTo`: a solve from `4` to `0` that steps to `3` and `1`, and the solve of its backward pass. -/
example :
    let s : List (SubSaveAt Int Int Int) := [{ t0 := false, t1 := true, ts := [], steps := 0, fn := fun _ y => y }]
    let p := { backP [] with subs := s, dense := false }
    let q := { backP [] with controller := stepToClass ([4, 3, 1, 0].map (· * ((p.direction : Int) : Int))), t0 := 0, t1 := -4, subs := s, dense := false }
    (diffeqsolve p).toOption.map (·.result) = some .successful ∧ q.BackwardOf none ∧ (diffeqsolve q).toOption.isNone := by
  refine ⟨by decide +kernel, ⟨by decide, rfl, by decide⟩, by decide +kernel⟩

/-- The hypotheses of `C100_constant_partial`. -/
example : (Backsolve.backP 1 3 0 (1, 1, 0) none false).BackwardOf (some 1) :=
  ⟨by decide +kernel, rfl, by simp [Backsolve.backP]⟩

/-- The hypotheses of `C100_pid_partial`. -/
example : ({ stiffProblem with t0 := 0, t1 := -1 } : Problem 1 ℚ (XTree ℚ) (XTree ℚ) ℚ (XTree ℚ) Unit Unit (PidState ℚ) (XTree ℚ) ℚ).BackwardOf none :=
  ⟨by decide +kernel, rfl, by simp [stiffProblem]⟩

/-- The hypotheses of `C100_clip_partial`. -/
example : (clipP exClip1 5 0 (some (-2)) 20).BackwardOf (some 2) ∧ (0 : Int) ≤ 2 ∧ ∃ w, halvingClass 4 (-1) = .ok w :=
  ⟨⟨by decide, rfl, by simp [clipP]⟩, by decide, _, rfl⟩

end Verif
