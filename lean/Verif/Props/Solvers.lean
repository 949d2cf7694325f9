import Verif.Spec.Solvers
import Verif.Props.Loop
import Verif.Props.RK
import Mathlib.Analysis.InnerProductSpace.Calculus
import Mathlib.Analysis.Calculus.Gradient.Basic
import Mathlib.Analysis.Calculus.FDeriv.Symmetric
import Mathlib.Tactic.Module
import Mathlib.Tactic.NoncommRing

/-!
# C43-C46, C62-C64: HalfSolver, update_result, ReversibleHeun, SemiImplicitEuler, ImplicitEuler,
LeapfrogMidpoint, Milstein
-/

set_option linter.unusedSectionVars false

namespace Verif

/-! ## C44: combining results -/

/-- Success, event, or error. -/
def Result.severity (r : Result) : Nat := if r.isSuccessful then 0 else if r.isEvent then 1 else 2

/-- **C44.** Combining keeps the more serious outcome, and the older one of two equally serious ones. -/
theorem C44_update (old new : Result) :
    old.update new = if old.severity < new.severity then new else old := by
  cases old <;> cases new <;> rfl

/-- **C44.** -/
theorem C44_assoc (a b c : Result) : (a.update b).update c = a.update (b.update c) := by
  cases a <;> cases b <;> cases c <;> rfl

/-- **C44.** -/
theorem C44_identity (a : Result) : a.update .successful = a ∧ Result.successful.update a = a := by
  cases a <;> exact ⟨rfl, rfl⟩

/-- **C44.** The combination of a list of results is an error iff one of them is; then it is the first. -/
theorem C44_first_error (rs : List Result) (r0 : Result) (h0 : r0.isOkay = true) :
    (rs.foldl Result.update r0).isOkay = false ↔ ∃ r ∈ rs, r.isOkay = false := by
  induction rs generalizing r0 with
  | nil => simp [h0]
  | cons r rs ih =>
    rw [List.foldl_cons]
    cases hr : r.isOkay with
    | true =>
      have : (r0.update r).isOkay = true := by
        cases r0 <;> cases r <;> first | rfl | (simp [Result.isOkay, Result.isSuccessful,
          Result.isEvent] at hr h0)
      rw [ih _ this]
      simp [hr]
    | false =>
      have e : r0.update r = r := by
        cases r0 <;> cases r <;> first | rfl | (simp [Result.isOkay, Result.isSuccessful,
          Result.isEvent] at hr h0)
      rw [e]
      have key : ∀ l : List Result, l.foldl Result.update r = r := by
        intro l
        induction l with
        | nil => rfl
        | cons x l ihl =>
          rw [List.foldl_cons]
          have : r.update x = r := by
            cases r <;> cases x <;> first | rfl | (simp [Result.isOkay, Result.isSuccessful,
              Result.isEvent] at hr)
          rw [this, ihl]
      rw [key]
      simp [hr]

example : (Result.eventOccurred.update .dtMinReached) = .dtMinReached ∧
    (Result.dtMinReached.update .internalError) = .dtMinReached ∧
    (Result.eventOccurred.update .successful) = .eventOccurred := by decide

/-! ## C43: HalfSolver -/

section
variable {T Y E E' D S C O F : Type} [LinearOrder T] [LinearOrder F] [Zero F]

/-- **C43**, one step: the value is that of two half steps (the second one without a jump), and the error
is the distance to the full step. -/
theorem C43_step (half : T → T → T) (dist : Y → Y → E') (s : Solver T Y E D S) (t0 t1 : T) (y0 : Y) (st : S)
    (mj : Bool) :
    let full := s.step t0 t1 y0 st mj
    let first := s.step t0 (half t0 t1) y0 st mj
    let second := s.step (half t0 t1) t1 first.y first.state false
    let o := (halfSolver half dist s).step t0 t1 y0 st mj
    o.y = second.y ∧ o.state = second.state ∧ o.err = dist second.y full.y ∧ o.dense = full.dense ∧
    (o.result.isOkay = true ↔ first.result.isOkay = true ∧ second.result.isOkay = true ∧
      full.result.isOkay = true) ∧
    (first.result.isOkay = false → o.result = first.result) ∧
    (first.result.isOkay = true → second.result.isOkay = false → o.result = second.result) := by
  refine ⟨rfl, rfl, rfl, rfl, ?_, ?_, ?_⟩
  · show (Result.update _ (Result.update _ _)).isOkay = true ↔ _
    generalize (s.step t0 (half t0 t1) y0 st mj) = a
    generalize (s.step (half t0 t1) t1 a.y a.state false).result = b
    generalize (s.step t0 t1 y0 st mj).result = c
    generalize a.result = a
    rw [Result.update_isOkay, Result.update_isOkay]
    simp
  · show _ → (Result.update _ (Result.update _ _)) = _
    generalize (s.step t0 (half t0 t1) y0 st mj) = a
    generalize (s.step (half t0 t1) t1 a.y a.state false).result = b
    generalize (s.step t0 t1 y0 st mj).result = c
    generalize a.result = a
    intro h
    cases a <;> cases b <;> cases c <;> first | rfl | simp [Result.isOkay, Result.isSuccessful,
      Result.isEvent] at h
  · show _ → _ → (Result.update _ (Result.update _ _)) = _
    generalize (s.step t0 (half t0 t1) y0 st mj) = a
    generalize (s.step (half t0 t1) t1 a.y a.state false).result = b
    generalize (s.step t0 t1 y0 st mj).result = c
    generalize a.result = a
    intro h h'
    cases a <;> cases b <;> cases c <;> first | rfl | simp [Result.isOkay, Result.isSuccessful,
      Result.isEvent] at h h'

/-- **C43**, a whole solve: the final value and solver state of a solve with `HalfSolver` are those of the
wrapped solver stepping through the accepted steps, each of them divided in two. -/
theorem C43_solve (cfg : Cfg T Y E' D S C O F) (half : T → T → T) (dist : Y → Y → E')
    (s : Solver T Y E D S) (hs : cfg.solver = halfSolver half dist s) (y0 : Y) (tnext : T) (ctrl : C) (ss : S)
    (mj : Bool) :
    ((solve cfg y0 tnext ctrl ss mj).core.y, (solve cfg y0 tnext ctrl ss mj).core.solverState,
      (solve cfg y0 tnext ctrl ss mj).core.madeJump) =
    (refine half (acceptedCalls cfg (callLog cfg y0 tnext ctrl ss mj))).foldl
      (fun (st : Y × S × Bool) (c : T × T × Bool) =>
        let o := s.step c.1 c.2.1 st.1 st.2.1 st.2.2
        (o.y, o.state, c.2.2)) (y0, ss, mj) := by
  rw [C04_composition, hs]
  generalize acceptedCalls cfg (callLog cfg y0 tnext ctrl ss mj) = l
  generalize (y0, ss, mj) = x
  induction l generalizing x with
  | nil => rfl
  | cons c l ih =>
    obtain ⟨a, b, j⟩ := c
    rw [List.foldl_cons, refine, List.foldl_cons, List.foldl_cons, ih]
    rfl

end

/-- Two accepted steps of `HalfSolver` around a method that adds the square of the step size. -/
example : (solve { toyCfg with
      solver := halfSolver (fun a b => (a + b) / 2) (fun _ _ => 0)
        { toySolver with step := fun a b y s _ => { y := y + (b - a) * (b - a), err := b - a, dense := y,
                                                    state := s + 1, result := .successful } }
      t1 := 6, floor := 100 } 0 2 0 0 false).core.y = 1 + 1 + 4 + 4 := by
  decide

/-! ## C45: ReversibleHeun -/

section
variable {T K Y VF Ct : Type} [Field K] [CharZero K] [AddCommGroup Y] [Module K Y] [AddCommGroup VF] [Neg Ct]

/-- The cached vector field is that at the auxiliary value. -/
def RevConsistent (term : Term T Y VF Ct) (t : T) (x : Y × (Y × VF)) : Prop := x.2.2 = term.vf t x.2.1

theorem reversibleHeun_consistent (term : Term T Y VF Ct) (interp : LocalLin T Y) (t0 t1 : T) (y : Y)
    (st : Y × VF) (mj : Bool) :
    RevConsistent term t1 (((reversibleHeun K term interp).step t0 t1 y st mj).y,
      ((reversibleHeun K term interp).step t0 t1 y st mj).state) := rfl

/-- **C45**, one step: stepping from `t0` to `t1` and then from `t1` to `t0` recovers the value, the
auxiliary value and the vector field exactly. -/
theorem C45_reversible (term : Term T Y VF Ct) (hterm : term.Reversible) (interp : LocalLin T Y)
    (t0 t1 : T) (y : Y) (st : Y × VF) (hst : RevConsistent term t0 (y, st)) :
    let o := (reversibleHeun K term interp).step t0 t1 y st false
    let o' := (reversibleHeun K term interp).step t1 t0 o.y o.state false
    o'.y = y ∧ o'.state = st := by
  obtain ⟨yhat, v⟩ := st
  replace hst : v = term.vf t0 yhat := hst
  simp only [reversibleHeun, Bool.false_eq_true, if_false]
  set c := term.contr t0 t1 with hc
  rw [hterm.contr t0 t1, ← hc]
  set yh1 := (2 : K) • y - yhat + term.prod v c with hyh1
  set v1 := term.vf t1 yh1 with hv1
  have e : (2 : K) • (y + (1 / 2 : K) • term.prod (v + v1) c) - yh1 + term.prod v1 (-c) = yhat := by
    rw [hterm.neg, hterm.add, hyh1, smul_add, smul_smul]
    rw [show (2 * (1 / 2) : K) = 1 by norm_num, one_smul]
    abel
  rw [e, ← hst]
  refine ⟨?_, rfl⟩
  rw [hterm.neg, add_comm v1 v, smul_neg]
  abel

/-- **C45**, any number of steps on any grid. -/
theorem C45_reversible_grid (term : Term T Y VF Ct) (hterm : term.Reversible) (interp : LocalLin T Y)
    (t0 : T) (ts : List T) (x : Y × (Y × VF)) (hx : RevConsistent term t0 x) :
    march (reversibleHeun K term interp) (ts.getLastD t0)
      (march (reversibleHeun K term interp) t0 x ts) (backTimes t0 ts) = x := by
  have happ : ∀ (s : Solver T Y Y (Y × Y) (Y × VF)) (l : List T) (t a : T) (z : Y × (Y × VF)),
      march s t z (l ++ [a]) =
        (let o := s.step (l.getLastD t) a (march s t z l).1 (march s t z l).2 false
         (o.y, o.state)) := by
    intro s l
    induction l with
    | nil => intro t a z; rfl
    | cons b l ih =>
      intro t a z
      simp only [List.cons_append, march, ih, List.getLastD_cons]
  induction ts generalizing t0 x with
  | nil => rfl
  | cons t1 ts ih =>
    obtain ⟨y, st⟩ := x
    have h1 := C45_reversible (K := K) term hterm interp t0 t1 y st hx
    have h2 := reversibleHeun_consistent (K := K) term interp t0 t1 y st false
    have h3 := ih t1 _ h2
    rw [backTimes, happ]
    have hl : (t1 :: ts).getLastD t0 = ts.getLastD t1 := List.getLastD_cons ..
    have hb : (backTimes t1 ts).getLastD (ts.getLastD t1) = t1 := by
      cases ts with
      | nil => rfl
      | cons t2 ts => simp [backTimes]
    rw [hl, hb]
    simp only [march]
    rw [h3]
    simp only at h1
    rw [h1.1, h1.2]

/-- The initial state is consistent. -/
theorem reversibleHeunInit_consistent (term : Term T Y VF Ct) (t0 : T) (y0 : Y) :
    RevConsistent term t0 (y0, reversibleHeunInit term t0 y0) := rfl

end

/-- An ODE term over the rationals. -/
def ratTerm (f : ℚ → ℚ → ℚ) : Term ℚ ℚ ℚ ℚ where
  vf := f
  contr t0 t1 := t1 - t0
  prod v c := v * c
  vfProd t y c := f t y * c

theorem ratTerm_reversible (f : ℚ → ℚ → ℚ) : (ratTerm f).Reversible where
  add _ _ _ := by simp [ratTerm]; ring
  neg _ _ := by simp [ratTerm]
  contr _ _ := by simp [ratTerm]
  vfProd _ _ _ := rfl

/-- `y' = t + y^2`, unequal steps there and back. -/
example : march (reversibleHeun ℚ (ratTerm fun t y => t + y ^ 2) (fun _ _ d _ => d.1)) 1
    (march (reversibleHeun ℚ (ratTerm fun t y => t + y ^ 2) (fun _ _ d _ => d.1)) 0
      (2, reversibleHeunInit (ratTerm fun t y => t + y ^ 2) 0 2) [1 / 3, 1 / 2, 1]) [1 / 2, 1 / 3, 0]
    = (2, reversibleHeunInit (ratTerm fun t y => t + y ^ 2) 0 2) :=
  C45_reversible_grid (K := ℚ) _ (ratTerm_reversible _) _ 0 [1 / 3, 1 / 2, 1] _
    (reversibleHeunInit_consistent _ _ _)

/-- A step after a jump is not reversible: the vector field is evaluated at the value and not at the
auxiliary value (`reversible_heun.py` 73). -/
theorem C45_violated_jump : ∃ (f : ℚ → ℚ → ℚ) (st : ℚ × ℚ), RevConsistent (ratTerm f) 0 (1, st) ∧
    let s := reversibleHeun ℚ (ratTerm f) (fun _ _ d _ => d.1)
    let o := s.step 0 1 1 st true
    (s.step 1 0 o.y o.state false).y ≠ 1 := by
  refine ⟨fun _ y => y, (2, 2), rfl, ?_⟩
  decide +kernel

/-! ## C63: LeapfrogMidpoint -/

section
variable {T Y VF Ct : Type} [AddCommGroup Y] [AddCommGroup VF] [Neg Ct]

/-- **C63.** Exchanging the previous and the current point, the same method goes back exactly: after a step
from `(tm, ym), (t0, y0)` to `(t0, y0), (t1, y1)`, the step from `(t1, y1), (t0, y0)` to time `tm` returns
`ym`. -/
theorem C63_leapfrog_reversible (term : Term T Y VF Ct) (hterm : term.Reversible) (interp : LocalLin T Y)
    (tm t0 t1 : T) (ym y0 : Y) (mj mj' : Bool) :
    let o := (leapfrog term interp).step t0 t1 y0 (tm, ym) mj
    let o' := (leapfrog term interp).step t0 tm y0 (t1, o.y) mj'
    o'.y = ym ∧ o.state = (t0, y0) := by
  refine ⟨?_, rfl⟩
  show ym + term.vfProd t0 y0 (term.contr tm t1) + term.vfProd t0 y0 (term.contr t1 tm) = ym
  rw [hterm.vfProd, hterm.vfProd, hterm.contr tm t1, hterm.neg]
  abel

/-- **C63.** The first step is a step of Euler's method. -/
theorem C63_leapfrog_first (term : Term T Y VF Ct) (interp : LocalLin T Y) (t0 t1 : T) (y0 : Y)
    (mj : Bool) :
    ((leapfrog term interp).step t0 t1 y0 (leapfrogInit t0 y0) mj).y
      = ((euler term interp).step t0 t1 y0 () mj).y := rfl

end

/-- **C63.** With equal steps, `y' = a + b t` is integrated exactly once two exact values are known. -/
theorem C63_leapfrog_second_order (a b t h : ℚ) (y : ℚ → ℚ) (hy : ∀ s, y s = y 0 + a * s + b * s ^ 2 / 2)
    (mj : Bool) :
    ((leapfrog (ratTerm fun s _ => a + b * s) (fun _ _ d _ => d.1)).step t (t + h) (y t) (t - h, y (t - h))
      mj).y = y (t + h) := by
  show y (t - h) + (a + b * t) * (t + h - (t - h)) = y (t + h)
  rw [hy (t - h), hy (t + h)]
  ring

/-- With unequal steps `h` and `k` it is not: the method is then of first order only. -/
theorem C63_violated_unequal : ∃ (y : ℚ → ℚ), (∀ s, y s = s ^ 2) ∧ ∀ (h k : ℚ), h ≠ k → h + k ≠ 0 →
    ((leapfrog (ratTerm fun s _ => 2 * s) (fun _ _ d _ => d.1)).step 0 k (y 0) (-h, y (-h)) false).y
      ≠ y k := by
  refine ⟨fun s => s ^ 2, fun _ => rfl, fun h k hne hs => ?_⟩
  show (-h) ^ 2 + (2 * 0) * (k - -h) ≠ k ^ 2
  intro he
  have : (h - k) * (h + k) = 0 := by linear_combination he
  rcases mul_eq_zero.1 this with h1 | h1
  · exact hne (sub_eq_zero.1 h1)
  · exact hs h1

/-! ## C46: SemiImplicitEuler -/

section
variable {T Y₁ Y₂ C₁ C₂ : Type} [AddCommGroup Y₁] [AddCommGroup Y₂]

/-- **C46.** The step is inverted exactly by subtracting the same products in the reverse order. -/
theorem C46_invertible (term1 : T → Y₂ → C₁ → Y₁) (contr1 : T → T → C₁) (term2 : T → Y₁ → C₂ → Y₂)
    (contr2 : T → T → C₂) (interp : LocalLin T (Y₁ × Y₂)) (t0 t1 : T) (mj : Bool) :
    let step := fun y => ((semiImplicitEuler term1 contr1 term2 contr2 interp).step
      t0 t1 y () mj).y
    let back := fun y : Y₁ × Y₂ =>
      let q := y.2 - term2 t0 y.1 (contr2 t0 t1)
      (y.1 - term1 t0 q (contr1 t0 t1), q)
    (∀ y, back (step y) = y) ∧ (∀ y, step (back y) = y) := by
  constructor
  · rintro ⟨p, q⟩
    simp [semiImplicitEuler]
  · rintro ⟨p, q⟩
    simp [semiImplicitEuler]

end

section
variable {F : Type} [NormedAddCommGroup F] [InnerProductSpace ℝ F]

/-- The step map for `p' = f(t, q)`, `q' = g(t, p)`. -/
noncomputable def sieStep (f g : ℝ → F → F) (t0 t1 : ℝ) (y : F × F) : F × F :=
  ((semiImplicitEuler (fun t y c => c • f t y) (fun a b => b - a)
    (fun t y c => c • g t y) (fun a b => b - a) (fun _ _ d _ => d.1)).step t0 t1 y () false).y

theorem sieStep_eq (f g : ℝ → F → F) (t0 t1 : ℝ) (y : F × F) : sieStep f g t0 t1 y =
    (y.1 + (t1 - t0) • f t0 y.2, y.2 + (t1 - t0) • g t0 (y.1 + (t1 - t0) • f t0 y.2)) := rfl

/-- **C46.** If the vector fields have symmetric derivatives (gradients do), the step map preserves the
symplectic form. -/
theorem C46_symplectic_of_symm (f g : ℝ → F → F) (t0 t1 : ℝ) (y : F × F) (f' g' : F →L[ℝ] F)
    (hf : HasFDerivAt (f t0) f' y.2) (hg : HasFDerivAt (g t0) g' (sieStep f g t0 t1 y).1)
    (hfs : ∀ u v, inner ℝ (f' u) v = inner ℝ u (f' v)) (hgs : ∀ u v, inner ℝ (g' u) v = inner ℝ u (g' v)) :
    ∃ Φ : F × F →L[ℝ] F × F, HasFDerivAt (sieStep f g t0 t1) Φ y ∧
      ∀ u v, symplectic (Φ u) (Φ v) = symplectic u v := by
  set h := t1 - t0 with hh
  have d1 : HasFDerivAt (fun z : F × F => z.1 + h • f t0 z.2)
      (ContinuousLinearMap.fst ℝ F F + h • (f'.comp (ContinuousLinearMap.snd ℝ F F))) y :=
    hasFDerivAt_fst.add ((hf.comp y hasFDerivAt_snd).const_smul h)
  have d2 : HasFDerivAt (fun z : F × F => z.2 + h • g t0 (z.1 + h • f t0 z.2))
      (ContinuousLinearMap.snd ℝ F F + h • (g'.comp
        (ContinuousLinearMap.fst ℝ F F + h • (f'.comp (ContinuousLinearMap.snd ℝ F F))))) y :=
    hasFDerivAt_snd.add ((HasFDerivAt.comp y (g := g t0) hg d1).const_smul h)
  refine ⟨_, d1.prodMk d2, ?_⟩
  rintro ⟨a, b⟩ ⟨a', b'⟩
  simp only [symplectic, ContinuousLinearMap.prod_apply, _root_.add_apply,
    _root_.smul_apply, ContinuousLinearMap.comp_apply, ContinuousLinearMap.coe_fst',
    ContinuousLinearMap.coe_snd']
  set p := a + h • f' b with hp
  set p' := a' + h • f' b' with hp'
  have e1 : inner ℝ p (g' p') = inner ℝ p' (g' p) := by
    rw [← hgs p p', real_inner_comm]
  have e2 : inner ℝ (f' b) b' = inner ℝ (f' b') b := by
    rw [hfs b b', real_inner_comm]
  have e3 : inner ℝ p b' = inner ℝ a b' + h * inner ℝ (f' b) b' := by
    rw [hp, inner_add_left, real_inner_smul_left]
  have e4 : inner ℝ p' b = inner ℝ a' b + h * inner ℝ (f' b') b := by
    rw [hp', inner_add_left, real_inner_smul_left]
  rw [inner_add_right, inner_add_right, real_inner_smul_right, real_inner_smul_right, e1, e3, e4, e2]
  ring

variable [CompleteSpace F]

/-- The derivative of a gradient is symmetric. -/
theorem gradient_symm (V : F → ℝ) (hV : ContDiff ℝ 2 V) (q : F) :
    ∃ H : F →L[ℝ] F, HasFDerivAt (fun q => gradient V q) H q ∧
      ∀ u v, inner ℝ (H u) v = inner ℝ u (H v) := by
  have hd : Differentiable ℝ (fderiv ℝ V) :=
    (hV.fderiv_right (m := 1) (by norm_num)).differentiable (by norm_num)
  have h1 : HasFDerivAt (fderiv ℝ V) (fderiv ℝ (fderiv ℝ V) q) q := (hd q).hasFDerivAt
  let L : (F →L[ℝ] ℝ) →L[ℝ] F :=
    { toFun := (InnerProductSpace.toDual ℝ F).symm
      map_add' := fun x y => map_add _ x y
      map_smul' := fun c x => by simp
      cont := (InnerProductSpace.toDual ℝ F).symm.continuous }
  have h2 : HasFDerivAt (fun x => L (fderiv ℝ V x)) (L.comp (fderiv ℝ (fderiv ℝ V) q)) q :=
    L.hasFDerivAt.comp q h1
  refine ⟨_, h2, ?_⟩
  have hsymm : ∀ u v, fderiv ℝ (fderiv ℝ V) q u v = fderiv ℝ (fderiv ℝ V) q v u := by
    have := hV.contDiffAt (x := q) |>.isSymmSndFDerivAt (by simp)
    intro u v
    exact this u v
  have key : ∀ (φ : F →L[ℝ] ℝ) v, inner ℝ (L φ) v = φ v := fun φ v =>
    InnerProductSpace.toDual_symm_apply
  intro u v
  show inner ℝ (L (fderiv ℝ (fderiv ℝ V) q u)) v = inner ℝ u (L (fderiv ℝ (fderiv ℝ V) q v))
  rw [← real_inner_comm u, key, key, hsymm]

/-- **C46.** For every separable Hamiltonian `T(p) + V(q)` on a Hilbert space, the step map of
`SemiImplicitEuler` for `p' = -∇V(q)`, `q' = ∇T(p)` preserves the symplectic form, for every step size and
at every point. -/
theorem C46_symplectic (V K : F → ℝ) (hV : ContDiff ℝ 2 V) (hK : ContDiff ℝ 2 K) (t0 t1 : ℝ) (y : F × F) :
    ∃ Φ : F × F →L[ℝ] F × F,
      HasFDerivAt (sieStep (fun _ q => -gradient V q) (fun _ p => gradient K p) t0 t1) Φ y ∧
      ∀ u v, symplectic (Φ u) (Φ v) = symplectic u v := by
  obtain ⟨H, h1, h2⟩ := gradient_symm V hV y.2
  obtain ⟨G, h3, h4⟩ := gradient_symm K hK
    (sieStep (fun _ q => -gradient V q) (fun _ p => gradient K p) t0 t1 y).1
  exact C46_symplectic_of_symm _ _ t0 t1 y (-H) G h1.neg h3
    (by intro u v; simp [h2]) h4

end

/-- `H = p^2/2 + q^4`. -/
example (t0 t1 : ℝ) (y : ℝ × ℝ) : ∃ Φ : ℝ × ℝ →L[ℝ] ℝ × ℝ,
    HasFDerivAt (sieStep (fun _ q => -gradient (fun q : ℝ => q ^ 4) q)
      (fun _ p => gradient (fun p : ℝ => p ^ 2 / 2) p) t0 t1) Φ y ∧
    ∀ u v, symplectic (Φ u) (Φ v) = symplectic u v :=
  C46_symplectic _ _ (by fun_prop) (by fun_prop) t0 t1 y

/-! ## C62: failed implicit solves -/

section
variable {T Y E D S C O F : Type} [LinearOrder T] [LinearOrder F] [Zero F]

/-- **C62.** If a failed solve is always reported together with an error estimate that the controller
rejects, then no step with a failed solve is ever accepted, and such a step leaves no trace in the result
(the statement is for every solver; `C62_rk` has it for the Runge-Kutta methods). -/
theorem C62_retry (cfg : Cfg T Y E D S C O F) (y0 : Y) (tnext : T) (ctrl : C) (ss : S) (mj : Bool)
    (bad : E → Prop)
    (hrej : ∀ a b y y' e c, bad e → (cfg.controller.adapt a b y y' e c).keep = false)
    (hbad : ∀ a b y st j, (cfg.solver.step a b y st j).result.isOkay = false →
      bad (cfg.cleanErr (cfg.solver.step a b y st j).err))
    (s : Core T Y D S C F) (hs : s ∈ history cfg y0 tnext ctrl ss mj) :
    (accepted cfg s = true → (solverOut cfg s).result.isOkay = true) ∧
    ((solverOut cfg s).result.isOkay = false → (triggered cfg s).any id = false →
      (coreBody cfg s).1.result = (adaptOut cfg s).result ∧ (coreBody cfg s).1.y = s.y) := by
  have h1 : (solverOut cfg s).result.isOkay = false → accepted cfg s = false := fun h =>
    hrej _ _ _ _ _ _ (hbad _ _ _ _ _ h)
  constructor
  · intro h
    by_contra h'
    rw [h1 (by simpa using h')] at h
    exact Bool.false_ne_true h
  · intro h hev
    refine ⟨(C05_first_error cfg y0 tnext ctrl ss mj s hs hev).2.2 (h1 h), ?_⟩
    have := h1 h
    simp only [accepted, adaptOut, solverOut] at this
    simp [coreBody, this]

end

/-- The equation `y' = -y` solved by implicit Euler with a root finder that (for steps longer than 1/2)
stops at the initial guess without having converged. -/
def weakRoot (rel : ℚ → ℚ) (guess : ℚ) : ℚ × Result :=
  let a := rel 0
  let b := rel 1 - a
  if b < -(3 / 2) then (guess, .other 0) else (-a / b, .successful)

/-- Accepts a step iff the error is at most 1 (and finite), otherwise halves it. -/
def halvingController : Controller ℚ ℚ (Option ℚ) Unit where
  adapt a b _ _ e _ :=
    if (match e with | some x => decide (x ≤ 1) && decide (-1 ≤ x) | none => false) then
      { keep := true, tprev := b, tnext := b + (b - a), madeJump := false, state := (), result := .successful }
    else
      { keep := false, tprev := a, tnext := a + (b - a) / 2, madeJump := false, state := (),
        result := .successful }

/-- A solve from 0 to 1 with a first step of length 1. -/
def weakCfg {S D : Type} (s : Solver ℚ ℚ (Option ℚ) D S) (d : D) : Cfg ℚ ℚ (Option ℚ) D S Unit ℚ ℚ :=
  { solver := s, controller := halvingController, cleanErr := id, events := [], rootFinder := none,
    dist := fun a b => a - b, dummyDense := d, t0 := 0, t1 := 1, floor := 1 - 1 / 1000,
    mid := fun a b => (a + b) / 2, subs := [], dense := false, maxSteps := 20 }

/-- The error estimate with the failure of the step taken into account, or not. -/
def withErr {T Y E E' D S : Type} (f : Result → E → E') (s : Solver T Y E D S) : Solver T Y E' D S where
  step a b y st j :=
    let o := s.step a b y st j
    { y := o.y, err := f o.result o.err, dense := o.dense, state := o.state, result := o.result }
  interp := s.interp

/-- **C62 is false of `ImplicitEuler`**: the nonlinear solve of the first step fails, the error estimate
does not say so, the step is accepted and the whole solve ends with the error of the nonlinear solve. If
the failure makes the error infinite (as in the Runge-Kutta methods), the same solve succeeds with smaller
steps. -/
theorem C62_violated_implicit_euler :
    let s := implicitEuler ℚ (ratTerm fun _ y => -y) weakRoot (fun _ _ d _ => d.1)
    (solve (weakCfg (withErr (fun _ e => some e) s) (0, 0)) 1 1 () () false).result = .other 0 ∧
    (solve (weakCfg (withErr (fun r e => if r.isOkay then some e else none) s) (0, 0)) 1 1 () () false).result
      = .successful := by
  decide +kernel

/-- **C62 is false of `HalfSolver`**, even around a solver that reports an infinite error: it is dropped. -/
theorem C62_violated_half_solver :
    let s := withErr (fun r e => if r.isOkay then some e else none)
      (implicitEuler ℚ (ratTerm fun _ y => -y) weakRoot (fun _ _ d _ => d.1))
    (solve (weakCfg s (0, 0)) 1 1 () () false).result = .successful ∧
    (solve (weakCfg (halfSolver (fun a b => (a + b) / 2) (fun x y => some (x - y)) s) (0, 0)) 1 1 () ()
      false).result = .other 0 := by
  decide +kernel

/-- **C62** for the Runge-Kutta methods (explicit, diagonally implicit and IMEX), with any controller that
rejects infinite errors: no step with a failed nonlinear solve is accepted. -/
theorem C62_rk {m : Nat} {T K Y VF Ct J C O F : Type} [LinearOrder T] [LinearOrder F] [Zero F] [Field K]
    [DecidableEq K] [AddCommGroup Y] [Module K Y] [AddCommGroup VF] [Module K VF]
    (rk : RK m T K Y VF Ct J) (cfg : Cfg T Y (Option Y) (RK.Dense m Y) (RK.State m VF) C O F)
    (hsolver : cfg.solver.step = rk.step) (hclean : cfg.cleanErr none = none)
    (hrej : ∀ a b y y' c, (cfg.controller.adapt a b y y' none c).keep = false)
    (y0 : Y) (tnext : T) (ctrl : C) (ss : RK.State m VF) (mj : Bool)
    (s : Core T Y (RK.Dense m Y) (RK.State m VF) C F) (hs : s ∈ history cfg y0 tnext ctrl ss mj) :
    (accepted cfg s = true → (solverOut cfg s).result.isOkay = true) ∧
    ((solverOut cfg s).result.isOkay = false → (triggered cfg s).any id = false →
      (coreBody cfg s).1.result = (adaptOut cfg s).result ∧ (coreBody cfg s).1.y = s.y) := by
  apply C62_retry cfg y0 tnext ctrl ss mj (fun e => e = none) _ _ s hs
  · rintro a b y y' e c rfl
    exact hrej ..
  · intro a b y st j h
    rw [hsolver] at h ⊢
    rw [C41_failed_solve rk a b y st j h, hclean]

/-- The hypotheses of `C62_retry` hold for the corrected solver of `C62_violated_implicit_euler`, in whose
solve one step fails. -/
example :
    let s := withErr (fun r e => if r.isOkay then some e else none)
      (implicitEuler ℚ (ratTerm fun _ y => -y) weakRoot (fun _ _ d _ => d.1))
    let cfg := weakCfg s (0, 0)
    (∀ a b y y' e c, e = none → (cfg.controller.adapt a b y y' e c).keep = false) ∧
    (∀ a b y st j, (cfg.solver.step a b y st j).result.isOkay = false →
      cfg.cleanErr (cfg.solver.step a b y st j).err = none) ∧
    ((history cfg 1 1 () () false).map (fun c => (solverOut cfg c).result.isOkay)) = [false, true, true] := by
  refine ⟨?_, ?_, by decide +kernel⟩
  · rintro a b y y' e c rfl
    rfl
  · intro a b y st j h
    simp only [weakCfg, withErr, id] at h ⊢
    rw [h]
    rfl

/-! ## C64: Milstein -/

section
variable {T E VF VF' : Type} [NormedAddCommGroup E] [NormedSpace ℝ E] [NormedAddCommGroup VF']
  [NormedSpace ℝ VF'] {d : ℕ}

/-- The drift with the Itô-Stratonovich correction `- 1/2 ∑_j (∂g_j) g_j` taken off, where `g_j` is the
`j`-th column of the diffusion. -/
noncomputable def stratonovichDrift (drift : Term T E VF ℝ) (g : T → E → Fin d → E) : Term T E E ℝ where
  vf t y := drift.vfProd t y 1 - (1 / 2 : ℝ) • ∑ j, fderiv ℝ (fun y => g t y j) y (g t y j)
  contr := drift.contr
  prod v c := c • v
  vfProd t y c := c • (drift.vfProd t y 1 - (1 / 2 : ℝ) • ∑ j, fderiv ℝ (fun y => g t y j) y (g t y j))

/-- **C64.** A step of `ItoMilstein` for drift `f` and diffusion `g` is the step of `StratonovichMilstein`
for the equivalent Stratonovich equation, whose drift is `f - 1/2 ∑_j (∂g_j) g_j`. -/
theorem C64_ito_stratonovich (drift : Term T E VF ℝ) (diffusion : Term T E VF' (Fin d → ℝ))
    (hdrift : ∀ t y c, drift.vfProd t y c = c • drift.vfProd t y 1)
    (P : VF' →L[ℝ] (Fin d → ℝ) →L[ℝ] E) (hP : ∀ v w, diffusion.prod v w = P v w)
    (hvf : ∀ t y w, diffusion.vfProd t y w = diffusion.prod (diffusion.vf t y) w)
    (interp : LocalLin T E) (t0 t1 : T) (y0 : E) (mj : Bool)
    (hdiff : DifferentiableAt ℝ (diffusion.vf t0) y0) :
    ((itoMilstein drift diffusion interp).step t0 t1 y0 () mj).y =
    ((stratonovichMilstein (stratonovichDrift drift fun t y j => diffusion.vfProd t y (Pi.single j 1))
      diffusion interp).step t0 t1 y0 () mj).y := by
  set dt := drift.contr t0 t1 with hdt
  set dw := diffusion.contr t0 t1 with hdw
  set g0 := diffusion.vf t0 y0 with hg0
  set G := fderiv ℝ (diffusion.vf t0) y0 with hG
  have hder : ∀ w, fderiv ℝ (fun y => diffusion.vfProd t0 y w) y0 = (P.flip w).comp G := by
    intro w
    have : (fun y => diffusion.vfProd t0 y w) = fun y => P.flip w (diffusion.vf t0 y) := by
      funext y; rw [hvf, hP]; rfl
    rw [this]
    exact ((P.flip w).hasFDerivAt.comp y0 hdiff.hasFDerivAt).fderiv
  have hlin : ∀ v w, fderiv ℝ (fun w => diffusion.prod v w) w = P v := by
    intro v w
    have : (fun w => diffusion.prod v w) = fun w => P v w := by funext w; rw [hP]
    rw [this, (P v).fderiv]
  have hbasis : ∀ w : Fin d → ℝ, w = ∑ j, w j • Pi.single j (1 : ℝ) := by
    intro w
    funext i
    simp [Finset.sum_apply, Pi.single_apply]
  have hPw : ∀ v w, P v w = ∑ j, w j • P v (Pi.single j 1) := by
    intro v w
    conv_lhs => rw [hbasis w]
    simp
  simp only [itoMilstein, stratonovichMilstein, stratonovichDrift]
  simp only [← hdt, ← hdw, ← hg0, ← hG, hder, hlin]
  have e1 : ∑ j1, ∑ j2, (dw j1 * dw j2 - if j1 = j2 then dt else 0) •
        P (G (P g0 (Pi.single j1 1))) (Pi.single j2 1)
      = P (G (P g0 dw)) dw - dt • ∑ j, P (G (P g0 (Pi.single j 1))) (Pi.single j 1) := by
    have : P (G (P g0 dw)) dw
        = ∑ j1, ∑ j2, (dw j1 * dw j2) • P (G (P g0 (Pi.single j1 1))) (Pi.single j2 1) := by
      rw [hPw g0 dw]
      simp only [map_sum, map_smul, _root_.sum_apply, _root_.smul_apply]
      refine Finset.sum_congr rfl fun j _ => ?_
      rw [hPw _ dw, Finset.smul_sum]
      exact Finset.sum_congr rfl fun k _ => by rw [smul_smul]
    rw [this, Finset.smul_sum, ← Finset.sum_sub_distrib]
    refine Finset.sum_congr rfl fun j _ => ?_
    simp only [sub_smul, Finset.sum_sub_distrib]
    congr 1
    rw [Finset.sum_eq_single j]
    · simp
    · intro k _ hk
      rw [if_neg (Ne.symm hk), zero_smul]
    · simp
  rw [e1, hdrift t0 y0 dt]
  simp only [ContinuousLinearMap.comp_apply, ContinuousLinearMap.flip_apply, hvf, hP, ← hg0]
  module

end

/-- Geometric Brownian motion `dy = a y dt + b y dW`: one noise. -/
noncomputable def gbmDiffusion (b : ℝ) (w : ℝ → Fin 1 → ℝ) : Term ℝ ℝ ℝ (Fin 1 → ℝ) where
  vf _ y := b * y
  contr t0 t1 := w t1 - w t0
  prod v c := v * c 0
  vfProd _ y c := b * y * c 0

noncomputable def gbmDrift (a : ℝ) : Term ℝ ℝ ℝ ℝ where
  vf _ y := a * y
  contr t0 t1 := t1 - t0
  prod v c := c * v
  vfProd _ y c := c * (a * y)

example (a b t0 t1 y0 : ℝ) (w : ℝ → Fin 1 → ℝ) (interp : LocalLin ℝ ℝ) :
    ((itoMilstein (gbmDrift a) (gbmDiffusion b w) interp).step t0 t1 y0 () false).y =
    ((stratonovichMilstein (stratonovichDrift (gbmDrift a) fun t y j =>
      (gbmDiffusion b w).vfProd t y (Pi.single j 1)) (gbmDiffusion b w) interp).step t0 t1 y0 () false).y := by
  refine C64_ito_stratonovich (gbmDrift a) (gbmDiffusion b w) ?_
    ((ContinuousLinearMap.mul ℝ ℝ).bilinearComp (ContinuousLinearMap.id ℝ ℝ)
      (ContinuousLinearMap.proj (R := ℝ) (φ := fun _ : Fin 1 => ℝ) 0)) ?_ ?_ interp t0 t1 y0 false ?_
  · intro t y c; simp [gbmDrift]
  · intro v w; simp [gbmDiffusion]
  · intro t y w; simp [gbmDiffusion]
  · simp only [gbmDiffusion]; fun_prop

/-- **C64.** For geometric Brownian motion `dy = a y dt + b y dW` the step of `ItoMilstein` is the classical
formula. -/
theorem C64_gbm (a b t0 t1 y0 : ℝ) (w : ℝ → Fin 1 → ℝ) (interp : LocalLin ℝ ℝ) (mj : Bool) :
    ((itoMilstein (gbmDrift a) (gbmDiffusion b w) interp).step t0 t1 y0 () mj).y =
      let dt := t1 - t0
      let dW := w t1 0 - w t0 0
      y0 + a * y0 * dt + b * y0 * dW + b ^ 2 * y0 / 2 * (dW ^ 2 - dt) := by
  have h1 : ∀ (v : ℝ) (x : Fin 1 → ℝ), fderiv ℝ (fun w : Fin 1 → ℝ => v * w 0) x (Pi.single 0 1) = v := by
    intro v x
    have : HasFDerivAt (fun w : Fin 1 → ℝ => v * w 0)
        (v • ContinuousLinearMap.proj (R := ℝ) (φ := fun _ : Fin 1 => ℝ) 0) x :=
      (ContinuousLinearMap.proj (R := ℝ) (φ := fun _ : Fin 1 => ℝ) 0).hasFDerivAt.const_mul v
    rw [this.fderiv]
    simp
  have h2 : ∀ y v : ℝ, fderiv ℝ (fun y : ℝ => b * y) y v = b * v := by
    intro y v
    have : HasFDerivAt (fun y : ℝ => b * y) (b • ContinuousLinearMap.id ℝ ℝ) y :=
      (hasFDerivAt_id y).const_mul b
    rw [this.fderiv]
    simp
  simp [itoMilstein, gbmDrift, gbmDiffusion, h1, h2]
  ring

end Verif
