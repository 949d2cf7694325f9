import Verif.Model.Terms
import Mathlib.Data.Complex.Basic
import Mathlib.Analysis.SpecialFunctions.Integrals.Basic
import Mathlib.Analysis.SpecialFunctions.Sqrt
import Mathlib.Tactic.Abel
import Mathlib.Tactic.Ring

/-!
# Terms (C50)
-/

set_option linter.unusedSectionVars false

namespace Verif

open AnyTerm

/-- What solvers rely on: `vf_prod` is `prod` of `vf`, and `prod` is bilinear. -/
structure AnyTerm.Bilinear {𝕜 T Y : Type} [CommRing 𝕜] [AddCommGroup Y] [Module 𝕜 Y] (k : AnyTerm 𝕜 T Y) : Prop where
  comp : ∀ t y c, k.term.vfProd t y c = k.term.prod (k.term.vf t y) c
  add_control : ∀ v c c', k.term.prod v (c + c') = k.term.prod v c + k.term.prod v c'
  smul_control : ∀ v (a : 𝕜) c, k.term.prod v (a • c) = a • k.term.prod v c
  add_vf : ∀ v v' c, k.term.prod (v + v') c = k.term.prod v c + k.term.prod v' c
  smul_vf : ∀ (a : 𝕜) v c, k.term.prod (a • v) c = a • k.term.prod v c

/-- Increments over adjacent intervals add up. -/
def AddsUp {T Ct : Type} [AddCommGroup Ct] (x : T → T → Ct) : Prop := ∀ a b c, x a c = x a b + x b c

/-- The built-in terms, nested in any way. `q` holds of all the paths in it. -/
inductive BuiltIn {𝕜 : Type} [CommRing 𝕜] [StarRing 𝕜] (q : ∀ Ct : Type, AddCommGroup Ct → (𝕜 → 𝕜 → Ct) → Prop) :
    (Y : Type) → (g : AddCommGroup Y) → Module 𝕜 Y → AnyTerm 𝕜 𝕜 Y → Prop
  | ode {Y : Type} [g : AddCommGroup Y] [m : Module 𝕜 Y] (f : 𝕜 → Y → Y) : BuiltIn q Y g m (AnyTerm.ode f)
  | control {L : Type} {S C : L → Type} [∀ i, Fintype (C i)] (f : 𝕜 → ((i : L) → S i → 𝕜) → (i : L) → S i → C i → 𝕜)
      (path : 𝕜 → 𝕜 → (i : L) → C i → 𝕜) (h : q _ (by infer_instance) path) : BuiltIn q _ (by infer_instance) (by infer_instance) (AnyTerm.control f path)
  | operator {Y : Type} [g : AddCommGroup Y] [m : Module 𝕜 Y] {Ct : Type} [AddCommGroup Ct] [Module 𝕜 Ct]
      (f : 𝕜 → Y → Ct →ₗ[𝕜] Y) (path : 𝕜 → 𝕜 → Ct) (h : q _ (by infer_instance) path) : BuiltIn q _ (by infer_instance) (by infer_instance) (AnyTerm.operator f path)
  | weaklyDiagonal {I : Type} (f : 𝕜 → (I → 𝕜) → I → 𝕜) (path : 𝕜 → 𝕜 → I → 𝕜) (h : q _ (by infer_instance) path) :
      BuiltIn q _ (by infer_instance) (by infer_instance) (AnyTerm.weaklyDiagonal f path)
  | multi {Y : Type} [g : AddCommGroup Y] [m : Module 𝕜 Y] {n : ℕ} (terms : Fin (n + 1) → AnyTerm 𝕜 𝕜 Y)
      (h : ∀ i, BuiltIn q Y g m (terms i)) : BuiltIn q Y g m (AnyTerm.multi terms)
  | wrap {Y : Type} [g : AddCommGroup Y] [m : Module 𝕜 Y] (dir : ℤ) (hdir : dir = 1 ∨ dir = -1) (k : AnyTerm 𝕜 𝕜 Y)
      (h : BuiltIn q Y g m k) : BuiltIn q Y g m (AnyTerm.wrap dir k)
  | langevinDrift {I : Type} (gamma u : I → 𝕜) (gradF : (I → 𝕜) → I → 𝕜) :
      BuiltIn q _ (by infer_instance) (by infer_instance) (AnyTerm.langevinDrift gamma u gradF)
  | langevinDiffusion {I : Type} (sqrt : 𝕜 → 𝕜) (gamma u : I → 𝕜) (path : 𝕜 → 𝕜 → I → 𝕜) (h : q _ (by infer_instance) path) :
      BuiltIn q _ (by infer_instance) (by infer_instance) (AnyTerm.langevinDiffusion sqrt gamma u path)

theorem sumOf_eq {Y : Type} [AddCommGroup Y] {n : ℕ} (x : Fin (n + 1) → Y) : sumOf x = ∑ i, x i := by
  rw [Fin.sum_univ_succ, sumOf]
  have : ∀ (l : List Y) (a : Y), l.foldl (· + ·) a = a + l.sum := by
    intro l
    induction l with
    | nil => simp
    | cons b l ih => intro a; rw [List.foldl_cons, ih, List.sum_cons, add_assoc]
  rw [this, List.sum_ofFn]

section
variable {𝕜 : Type} [CommRing 𝕜] [StarRing 𝕜]

theorem bilinear_mk {T Y VF Ct : Type} [AddCommGroup Y] [Module 𝕜 Y] [AddCommGroup VF] [Module 𝕜 VF] [AddCommGroup Ct]
    [Module 𝕜 Ct] (tm : Term T Y VF Ct) (h1 : ∀ t y c, tm.vfProd t y c = tm.prod (tm.vf t y) c)
    (h2 : ∀ v c c', tm.prod v (c + c') = tm.prod v c + tm.prod v c')
    (h3 : ∀ v (a : 𝕜) c, tm.prod v (a • c) = a • tm.prod v c)
    (h4 : ∀ v v' c, tm.prod (v + v') c = tm.prod v c + tm.prod v' c)
    (h5 : ∀ (a : 𝕜) v c, tm.prod (a • v) c = a • tm.prod v c) : (AnyTerm.mk VF Ct tm : AnyTerm 𝕜 T Y).Bilinear :=
  ⟨h1, h2, h3, h4, h5⟩

/-- **C50.** For real numbers, every built-in term, nested in any way, has `vf_prod = prod ∘ vf` and is bilinear. -/
theorem C50_bilinear [TrivialStar 𝕜] (Y : Type) (g : AddCommGroup Y) (m : Module 𝕜 Y) (k : AnyTerm 𝕜 𝕜 Y)
    (h : BuiltIn (fun _ _ _ => True) Y g m k) : k.Bilinear := by
  induction h with
  | @ode Y g m f =>
    refine bilinear_mk (VF := Y) (Ct := 𝕜) _ (fun _ _ _ => rfl) ?_ ?_ ?_ ?_
    · intro v c c'; exact add_smul c c' v
    · intro v a c; exact mul_smul a c v
    · intro v v' c; exact smul_add c v v'
    · intro a v c; exact smul_comm c a v
  | @control L S C _ f path _ =>
    refine bilinear_mk (VF := (i : L) → S i → C i → 𝕜) (Ct := (i : L) → C i → 𝕜) _ (fun _ _ _ => rfl) ?_ ?_ ?_ ?_
    · intro v c c'; funext i s
      simp [mul_add, Finset.sum_add_distrib]
    · intro v a c; funext i s
      simp [Finset.mul_sum, mul_left_comm]
    · intro v v' c; funext i s
      simp [add_mul, Finset.sum_add_distrib]
    · intro a v c; funext i s
      simp [Finset.mul_sum, mul_assoc]
  | @operator Y _ _ Ct _ _ f path _ =>
    refine bilinear_mk (VF := Ct →ₗ[𝕜] Y) (Ct := Ct) _ (fun _ _ _ => rfl) ?_ ?_ ?_ ?_
    · intro v c c'; exact map_add v c c'
    · intro v a c; exact map_smul v a c
    · intro v v' c; rfl
    · intro a v c; rfl
  | @weaklyDiagonal I f path _ =>
    refine bilinear_mk (VF := (I → 𝕜) →ₗ[𝕜] (I → 𝕜)) (Ct := I → 𝕜) _ (fun _ _ _ => rfl) ?_ ?_ ?_ ?_
    · intro v c c'; exact map_add v c c'
    · intro v a c; exact map_smul v a c
    · intro v v' c; rfl
    · intro a v c; rfl
  | multi terms h ih =>
    refine ⟨?_, ?_, ?_, ?_, ?_⟩
    · intro t y c
      simp only [AnyTerm.multi]
      congr 1
      funext i
      exact (ih i).comp t y (c i)
    · intro v c c'
      simp only [AnyTerm.multi, sumOf_eq, ← Finset.sum_add_distrib]
      exact Finset.sum_congr rfl fun i _ => (ih i).add_control _ _ _
    · intro v a c
      simp only [AnyTerm.multi, sumOf_eq, Finset.smul_sum]
      exact Finset.sum_congr rfl fun i _ => (ih i).smul_control _ _ _
    · intro v v' c
      simp only [AnyTerm.multi, sumOf_eq, ← Finset.sum_add_distrib]
      exact Finset.sum_congr rfl fun i _ => (ih i).add_vf _ _ _
    · intro a v c
      simp only [AnyTerm.multi, sumOf_eq, Finset.smul_sum]
      exact Finset.sum_congr rfl fun i _ => (ih i).smul_vf _ _ _
  | wrap dir hdir k h ih =>
    exact ⟨fun t y c => ih.comp _ y c, ih.add_control, ih.smul_control, ih.add_vf, ih.smul_vf⟩
  | @langevinDrift I gamma u gradF =>
    refine bilinear_mk (VF := (I → 𝕜) × (I → 𝕜)) (Ct := 𝕜) _ (fun _ _ _ => rfl) ?_ ?_ ?_ ?_
    · intro v c c'; ext i <;> simp [add_mul]
    · intro v a c; ext i <;> simp [mul_assoc]
    · intro v v' c; ext i <;> simp [mul_add]
    · intro a v c; ext i <;> simp [mul_left_comm]
  | @langevinDiffusion I sqrt gamma u path _ =>
    refine bilinear_mk (VF := I → 𝕜) (Ct := I → 𝕜) _ (fun _ _ _ => rfl) ?_ ?_ ?_ ?_
    · intro v c c'; ext i <;> simp [mul_add]
    · intro v a c; ext i <;> simp [mul_left_comm]
    · intro v v' c; ext i <;> simp [add_mul]
    · intro a v c; ext i <;> simp [mul_assoc]

theorem addsUp_wrap {G : Type} [AddCommGroup G] (dir : ℤ) (hdir : dir = 1 ∨ dir = -1) (x : 𝕜 → 𝕜 → G) (hx : AddsUp x) :
    AddsUp fun t0 t1 => dir • x (if dir = 1 then t0 else -t1) (if dir = 1 then t1 else -t0) := by
  intro a b c
  rcases hdir with rfl | rfl
  · simpa using hx a b c
  · have := hx (-c) (-b) (-a)
    simp [this, neg_add, add_comm]

/-- **C50.** If all the paths in it have increments that add up, then so do the controls of any built-in term, and, for a
fixed vector field, its contributions over adjacent intervals. -/
theorem C50_adds_up [TrivialStar 𝕜] (Y : Type) (g : AddCommGroup Y) (m : Module 𝕜 Y) (k : AnyTerm 𝕜 𝕜 Y)
    (h : BuiltIn (fun _ _ x => AddsUp x) Y g m k) :
    AddsUp k.term.contr ∧ ∀ v a b c,
      k.term.prod v (k.term.contr a c) = k.term.prod v (k.term.contr a b) + k.term.prod v (k.term.contr b c) := by
  have h1 : AddsUp k.term.contr := by
    induction h with
    | ode f => intro a b c; show c - a = (b - a) + (c - b); ring
    | control f path h => exact h
    | operator f path h => exact h
    | weaklyDiagonal f path h => exact h
    | multi terms h ih => intro a b c; funext i; exact ih i a b c
    | wrap dir hdir k h ih =>
      exact addsUp_wrap dir hdir k.term.contr ih
    | langevinDrift gamma u gradF => intro a b c; show c - a = (b - a) + (c - b); ring
    | langevinDiffusion sqrt gamma u path h => exact h
  have h2 : BuiltIn (fun _ _ _ => True) Y g m k := by
    clear h1
    induction h with
    | ode f => exact .ode f
    | control f path h => exact .control f path trivial
    | operator f path h => exact .operator f path trivial
    | weaklyDiagonal f path h => exact .weaklyDiagonal f path trivial
    | multi terms h ih => exact .multi terms ih
    | wrap dir hdir k h ih => exact .wrap dir hdir k ih
    | langevinDrift gamma u gradF => exact .langevinDrift gamma u gradF
    | langevinDiffusion sqrt gamma u path h => exact .langevinDiffusion sqrt gamma u path trivial
  refine ⟨h1, fun v a b c => ?_⟩
  rw [h1 a b c, (C50_bilinear Y g m k h2).add_control]

end

section
variable {𝕜 T Y : Type} [CommRing 𝕜] [AddCommGroup Y] [Module 𝕜 Y]

/-- **C50.** `MultiTerm` is the sum of its terms. -/
theorem C50_multi {n : ℕ} (terms : Fin (n + 1) → AnyTerm 𝕜 T Y) (t t0 t1 : T) (y : Y) :
    (multi terms).term.vfProd t y ((multi terms).term.contr t0 t1) =
      ∑ i, (terms i).term.vfProd t y ((terms i).term.contr t0 t1) := by
  show sumOf (fun i => (terms i).term.vfProd t y ((terms i).term.contr t0 t1)) = _
  exact sumOf_eq _

variable [Ring T]

/-- **C50.** Reversing time twice gives the term back. -/
theorem C50_wrap_wrap (dir : ℤ) (hdir : dir = 1 ∨ dir = -1) (k : AnyTerm 𝕜 T Y) : wrap dir (wrap dir k) = k := by
  obtain ⟨VF, Ct, ⟨vf, contr, prod, vfProd, e⟩⟩ := k
  have h : ∀ (x : Ct) (d : ℤ), d = 1 ∨ d = -1 → d • d • x = x := by
    rintro x d (rfl | rfl) <;> simp
  refine congrArg (fun tm : Term T Y VF Ct => (AnyTerm.mk VF Ct tm : AnyTerm 𝕜 T Y))
    (a₁ := ⟨fun t y => vf (t * dir * dir) y, fun t0 t1 =>
      dir • dir • contr (if dir = 1 then if dir = 1 then t0 else -t1 else -if dir = 1 then t1 else -t0)
        (if dir = 1 then if dir = 1 then t1 else -t0 else -if dir = 1 then t0 else -t1), prod,
      fun t y c => vfProd (t * dir * dir) y c, e⟩) ?_
  have h2 : ∀ t : T, t * dir * dir = t := by
    intro t; rcases hdir with rfl | rfl <;> simp
  simp only [h _ _ hdir, h2]
  rcases hdir with rfl | rfl <;> simp

/-- **C50.** The contribution of the reversed term, over the reversed interval, is that of the term with the opposite
sign. -/
theorem C50_wrap_contribution (k : AnyTerm 𝕜 T Y) (hk : k.Bilinear) (t t0 t1 : T) (y : Y) :
    (wrap (-1) k).term.vfProd (-t) y ((wrap (-1) k).term.contr (-t1) (-t0)) = -k.term.vfProd t y (k.term.contr t0 t1) := by
  have h : ∀ v c, k.term.prod v (-c) = -k.term.prod v c := by
    intro v c
    have := hk.smul_control v (-1) c
    simpa using this
  simp only [wrap, show (-1 : ℤ) ≠ 1 by decide, if_false, neg_neg, hk.comp]
  simp [h]

end

/-! ### The adjoint term -/

section
variable {𝕜 T C S P : Type} [CommRing 𝕜] [StarRing 𝕜] [Fintype C] [DecidableEq C]

theorem linear_eq_sum {V : Type} [AddCommGroup V] [Module 𝕜 V] (f : (C → 𝕜) → V) (ha : ∀ c c', f (c + c') = f c + f c')
    (hs : ∀ (a : 𝕜) c, f (a • c) = a • f c) (c : C → 𝕜) : f c = ∑ j, c j • f (Pi.single j 1) := by
  let F : (C → 𝕜) →ₗ[𝕜] V := { toFun := f, map_add' := ha, map_smul' := hs }
  have : c = ∑ j, c j • (Pi.single j 1 : C → 𝕜) := by
    funext i
    simp [Finset.sum_apply, Pi.single_apply]
  calc f c = F (∑ j, c j • (Pi.single j 1 : C → 𝕜)) := by rw [← this]; rfl
    _ = _ := by rw [map_sum]; exact Finset.sum_congr rfl fun j _ => map_smul F _ _

/-- **C50.** For real numbers, the adjoint of a term (whose `vf_prod` and its derivatives are linear in the control) has
`vf_prod = prod ∘ vf` and is bilinear. -/
theorem C50_adjoint [TrivialStar 𝕜] (contr : T → T → C → 𝕜) (vfProd : T → (S → 𝕜) → (C → 𝕜) → S → 𝕜)
    (vjp : T → (S → 𝕜) → (C → 𝕜) → (S → 𝕜) → (S → 𝕜) × (P → 𝕜))
    (ha : ∀ t y c c', vfProd t y (c + c') = vfProd t y c + vfProd t y c')
    (hs : ∀ t y (x : 𝕜) c, vfProd t y (x • c) = x • vfProd t y c)
    (ha' : ∀ t y c c' a, vjp t y (c + c') a = vjp t y c a + vjp t y c' a)
    (hs' : ∀ t y (x : 𝕜) c a, vjp t y (x • c) a = x • vjp t y c a) : (adjoint contr vfProd vjp).Bilinear := by
  refine ⟨?_, ?_, ?_, ?_, ?_⟩
  · intro t y c
    have h1 := linear_eq_sum (vfProd t y.1) (ha t y.1) (hs t y.1) c
    have h2 := linear_eq_sum (fun c => vjp t y.1 c (-y.2.1)) (fun c c' => ha' t y.1 c c' _) (fun a c => hs' t y.1 a c _) c
    refine Prod.ext ?_ (Prod.ext ?_ ?_)
    · show vfProd t y.1 c = _
      rw [h1]; funext s
      simp [adjoint, Finset.sum_apply, mul_comm]
    · show (vjp t y.1 c (-y.2.1)).1 = _
      rw [show vjp t y.1 c (-y.2.1) = _ from h2]; funext s
      simp [adjoint, Finset.sum_apply, mul_comm, Prod.fst_sum]
    · show (vjp t y.1 c (-y.2.1)).2 = _
      rw [show vjp t y.1 c (-y.2.1) = _ from h2]; funext s
      simp [adjoint, Finset.sum_apply, mul_comm, Prod.snd_sum]
  · intro v c c'
    refine Prod.ext (funext fun s => ?_) (Prod.ext (funext fun s => ?_) (funext fun s => ?_))
    · show ∑ j, star ((v j).1 s) * (c j + c' j) = ∑ j, star ((v j).1 s) * c j + ∑ j, star ((v j).1 s) * c' j
      simp [mul_add, Finset.sum_add_distrib]
    · show ∑ j, star ((v j).2.1 s) * (c j + c' j) = ∑ j, star ((v j).2.1 s) * c j + ∑ j, star ((v j).2.1 s) * c' j
      simp [mul_add, Finset.sum_add_distrib]
    · show ∑ j, star ((v j).2.2 s) * (c j + c' j) = ∑ j, star ((v j).2.2 s) * c j + ∑ j, star ((v j).2.2 s) * c' j
      simp [mul_add, Finset.sum_add_distrib]
  · intro v a c
    refine Prod.ext (funext fun s => ?_) (Prod.ext (funext fun s => ?_) (funext fun s => ?_))
    · show ∑ j, star ((v j).1 s) * (a * c j) = a * ∑ j, star ((v j).1 s) * c j
      simp [Finset.mul_sum, mul_left_comm]
    · show ∑ j, star ((v j).2.1 s) * (a * c j) = a * ∑ j, star ((v j).2.1 s) * c j
      simp [Finset.mul_sum, mul_left_comm]
    · show ∑ j, star ((v j).2.2 s) * (a * c j) = a * ∑ j, star ((v j).2.2 s) * c j
      simp [Finset.mul_sum, mul_left_comm]
  · intro v v' c
    refine Prod.ext (funext fun s => ?_) (Prod.ext (funext fun s => ?_) (funext fun s => ?_))
    · show ∑ j, star ((v j).1 s + (v' j).1 s) * c j = ∑ j, star ((v j).1 s) * c j + ∑ j, star ((v' j).1 s) * c j
      simp [add_mul, Finset.sum_add_distrib]
    · show ∑ j, star ((v j).2.1 s + (v' j).2.1 s) * c j = ∑ j, star ((v j).2.1 s) * c j + ∑ j, star ((v' j).2.1 s) * c j
      simp [add_mul, Finset.sum_add_distrib]
    · show ∑ j, star ((v j).2.2 s + (v' j).2.2 s) * c j = ∑ j, star ((v j).2.2 s) * c j + ∑ j, star ((v' j).2.2 s) * c j
      simp [add_mul, Finset.sum_add_distrib]
  · intro a v c
    refine Prod.ext (funext fun s => ?_) (Prod.ext (funext fun s => ?_) (funext fun s => ?_))
    · show ∑ j, star (a * (v j).1 s) * c j = a * ∑ j, star ((v j).1 s) * c j
      simp [Finset.mul_sum, mul_assoc, mul_left_comm]
    · show ∑ j, star (a * (v j).2.1 s) * c j = a * ∑ j, star ((v j).2.1 s) * c j
      simp [Finset.mul_sum, mul_assoc, mul_left_comm]
    · show ∑ j, star (a * (v j).2.2 s) * c j = a * ∑ j, star ((v j).2.2 s) * c j
      simp [Finset.mul_sum, mul_assoc, mul_left_comm]

end

/-! ### Complex numbers -/

/-- **C50 is false for complex numbers.** `ControlTerm(lambda t, y, args: 1j * y[..., None], path)` conjugates the vector
field: for `y = 1` and a control of 1 it contributes `-1j`, where `f(t, y) dx` (and `ODETerm` for `dt`) is `1j`. -/
theorem C50_violated_complex :
    ∃ (f : ℝ → (Unit → Unit → ℂ) → Unit → Unit → Unit → ℂ) (path : ℝ → ℝ → Unit → Unit → ℂ) (t : ℝ) (y : Unit → Unit → ℂ)
      (c : Unit → Unit → ℂ),
      f t y () () () * c () () = Complex.I ∧ (control f path).term.vfProd t y c () () = -Complex.I ∧
      ¬ (control f path).Bilinear := by
  refine ⟨fun _ y _ _ _ => Complex.I * y () (), fun _ _ _ _ => 1, 0, fun _ _ => 1, fun _ _ => 1, by simp, ?_, ?_⟩
  · simp [AnyTerm.control]
  · intro h
    have h1 := congrFun (congrFun (h.smul_vf Complex.I (fun _ _ _ => (1 : ℂ)) (fun _ _ => (1 : ℂ))) ()) ()
    have h2 : (∑ _j : Unit, star (Complex.I * 1) * (1 : ℂ)) = Complex.I * ∑ _j : Unit, star (1 : ℂ) * 1 := h1
    have h3 := congrArg Complex.im h2
    simp at h3
    norm_num at h3

/-- Likewise for the adjoint term of a complex equation: `prod` of `vf` is the conjugate of `vf_prod`, whatever the
equation. -/
theorem C50_violated_adjoint {T C S P : Type} [Fintype C] [DecidableEq C] (contr : T → T → C → ℂ)
    (vfProd : T → (S → ℂ) → (C → ℂ) → S → ℂ) (vjp : T → (S → ℂ) → (C → ℂ) → (S → ℂ) → (S → ℂ) × (P → ℂ))
    (ha : ∀ t y c c', vfProd t y (c + c') = vfProd t y c + vfProd t y c')
    (hs : ∀ t y (x : ℂ) c, vfProd t y (x • c) = x • vfProd t y c) (t : T) (y : (S → ℂ) × (S → ℂ) × (P → ℂ))
    (c : C → ℝ) (s : S) :
    ((adjoint contr vfProd vjp).term.prod ((adjoint contr vfProd vjp).term.vf t y) (fun j => (c j : ℂ))).1 s =
      star (((adjoint contr vfProd vjp).term.vfProd t y (fun j => (c j : ℂ))).1 s) := by
  have h1 := linear_eq_sum (vfProd t y.1) (ha t y.1) (hs t y.1) (fun j => (c j : ℂ))
  show (∑ j, star (vfProd t y.1 (Pi.single j 1) s) * (c j : ℂ)) = star (vfProd t y.1 (fun j => (c j : ℂ)) s)
  rw [h1]
  simp [Finset.sum_apply, mul_comm]

/-! ### Conversion to an ODE -/

/-- **C50.** If the control is a differentiable path, the ODE that `to_ode` gives has the same contributions: for a vector
field `v` that does not depend on time, the integral over `[a, b]` of the right-hand side of the ODE, at a fixed state, is
the contribution of the control term. -/
theorem C50_to_ode {L : Type} {S C : L → Type} [∀ i, Fintype (C i)] (v : ((i : L) → S i → ℝ) → (i : L) → S i → C i → ℝ)
    (x x' : (i : L) → C i → ℝ → ℝ) (hx : ∀ i j t, HasDerivAt (x i j) (x' i j t) t) (hc : ∀ i j, Continuous (x' i j))
    (a b : ℝ) (y : (i : L) → S i → ℝ) (i : L) (s : S i) :
    let k := control (fun _ => v) (fun t0 t1 i j => x i j t1 - x i j t0)
    ∫ t in a..b, (toOde k fun t i j => x' i j t).term.vf t y i s =
      k.term.vfProd a y (k.term.contr a b) i s := by
  intro k
  have e : ∀ t, (toOde k fun t i j => x' i j t).term.vf t y i s = ∑ j, v y i s j * x' i j t := fun t => rfl
  simp only [e]
  rw [intervalIntegral.integral_finsetSum fun j _ => (((hc i j).const_mul _).intervalIntegrable _ _)]
  refine Finset.sum_congr rfl fun j _ => ?_
  rw [intervalIntegral.integral_const_mul]
  congr 1
  exact intervalIntegral.integral_eq_sub_of_hasDerivAt (fun t _ => hx i j t) ((hc i j).intervalIntegrable _ _)

/-! ### Examples -/

/-- An SDE with two-dimensional noise, backwards in time. -/
example : BuiltIn (𝕜 := ℝ) (fun _ _ x => AddsUp x) (Unit → Fin 1 → ℝ) inferInstance inferInstance
    (wrap (-1) (multi ![ode fun t y => t • y,
      control (C := fun _ : Unit => Fin 2) (fun t y i s j => y i s + t * (j : ℝ))
        (fun t0 t1 _ j => (j + 1 : ℝ) * (t1 ^ 2 - t0 ^ 2))])) := by
  refine .wrap (-1) (Or.inr rfl) _ (.multi _ fun i => ?_)
  match i with
  | 0 => exact .ode _
  | 1 =>
    refine .control _ _ ?_
    intro a b c
    funext i j
    simp only [Pi.add_apply]
    ring

/-- The hypotheses of `C50_adjoint`: the equation `dy = p y dx`, with `p = 3`. -/
example : let vfProd : ℝ → (Unit → ℝ) → (Unit → ℝ) → Unit → ℝ := fun _ y c s => 3 * y s * c ()
    let vjp : ℝ → (Unit → ℝ) → (Unit → ℝ) → (Unit → ℝ) → (Unit → ℝ) × (Unit → ℝ) :=
      fun _ y c a => (fun s => 3 * a s * c (), fun _ => y () * a () * c ())
    (∀ t y c c', vfProd t y (c + c') = vfProd t y c + vfProd t y c') ∧
    (∀ t y (x : ℝ) c, vfProd t y (x • c) = x • vfProd t y c) ∧
    (∀ t y c c' a, vjp t y (c + c') a = vjp t y c a + vjp t y c' a) ∧
    (∀ t y (x : ℝ) c a, vjp t y (x • c) a = x • vjp t y c a) := by
  refine ⟨?_, ?_, ?_, ?_⟩ <;> intros
  · funext s; simp; ring
  · funext s; simp; ring
  · ext s <;> simp <;> ring
  · ext s <;> simp <;> ring

end Verif
