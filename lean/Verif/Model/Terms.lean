import Verif.Model.Front
import Mathlib.Algebra.BigOperators.Fin
import Mathlib.Algebra.Star.Basic
import Mathlib.Algebra.Star.Module
import Mathlib.Algebra.Module.Pi
import Mathlib.Algebra.Module.Prod
import Mathlib.Algebra.Module.LinearMap.Defs

/-!
# Model of the terms (`/repo/diffrax/_term.py`)

A pytree of arrays with leaves `L`, the leaf `i` having the index set `S i`, is a function `(i : L) → S i → 𝕜`; `star` is
`jnp.conj` (the identity for real numbers). `args` is fixed. Left out: checks of structures and shapes (there are no
wrong ones here), dtype promotion, `is_vf_expensive` except for `MultiTerm`, error messages. A path is what its method
`evaluate(t0, t1)` returns; its `derivative` is given separately.
-/

namespace Verif

/-- A term together with its kinds of vector field and control. -/
structure AnyTerm (𝕜 T Y : Type) [CommRing 𝕜] where
  VF : Type
  Ct : Type
  [grpVF : AddCommGroup VF]
  [modVF : Module 𝕜 VF]
  [grpCt : AddCommGroup Ct]
  [modCt : Module 𝕜 Ct]
  term : Term T Y VF Ct

attribute [instance] AnyTerm.grpVF AnyTerm.modVF AnyTerm.grpCt AnyTerm.modCt

namespace AnyTerm
variable {𝕜 T Y : Type} [CommRing 𝕜] [AddCommGroup Y] [Module 𝕜 Y]

/-- `ODETerm` (174-226), for times that are numbers of `𝕜`. The default `vf_prod` is 133-140. -/
def ode (f : 𝕜 → Y → Y) : AnyTerm 𝕜 𝕜 Y where
  VF := Y
  Ct := 𝕜
  term :=
    { vf := f
      contr := fun t0 t1 => t1 - t0
      prod := fun v c => c • v
      vfProd := fun t y c => c • f t y }

/-- `ControlTerm` (271-555) whose vector field returns arrays; `_prod` is 267-268. -/
def control [StarRing 𝕜] {L : Type} {S C : L → Type} [∀ i, Fintype (C i)]
    (f : T → ((i : L) → S i → 𝕜) → (i : L) → S i → C i → 𝕜) (path : T → T → (i : L) → C i → 𝕜) :
    AnyTerm 𝕜 T ((i : L) → S i → 𝕜) where
  VF := (i : L) → S i → C i → 𝕜
  Ct := (i : L) → C i → 𝕜
  term :=
    let prod := fun (v : (i : L) → S i → C i → 𝕜) (c : (i : L) → C i → 𝕜) (i : L) (s : S i) =>
      ∑ j, star (v i s j) * c i j
    { vf := f
      contr := path
      prod := prod
      vfProd := fun t y c => prod (f t y) c }

/-- `ControlTerm` whose vector field returns a linear operator. -/
def operator {Ct : Type} [AddCommGroup Ct] [Module 𝕜 Ct] (f : T → Y → Ct →ₗ[𝕜] Y) (path : T → T → Ct) :
    AnyTerm 𝕜 T Y where
  VF := Ct →ₗ[𝕜] Y
  Ct := Ct
  term :=
    { vf := f
      contr := path
      prod := fun v c => v c
      vfProd := fun t y c => f t y c }

/-- `WeaklyDiagonalControlTerm` (579-641): a diagonal operator. -/
def weaklyDiagonal {I : Type} (f : T → (I → 𝕜) → I → 𝕜) (path : T → T → I → 𝕜) : AnyTerm 𝕜 T (I → 𝕜) :=
  operator (fun t y =>
    { toFun := fun c i => f t y i * c i
      map_add' := fun a b => by funext i; simp [mul_add]
      map_smul' := fun a b => by funext i; simp [mul_left_comm] }) path

/-- `_sum` (659-660). -/
def sumOf {n : ℕ} (x : Fin (n + 1) → Y) : Y := (List.ofFn fun i : Fin n => x i.succ).foldl (· + ·) (x 0)

/-- `MultiTerm` (666-731), of at least one term. -/
def multi {n : ℕ} (terms : Fin (n + 1) → AnyTerm 𝕜 T Y) : AnyTerm 𝕜 T Y where
  VF := (i : Fin (n + 1)) → (terms i).VF
  Ct := (i : Fin (n + 1)) → (terms i).Ct
  term :=
    { vf := fun t y i => (terms i).term.vf t y
      contr := fun t0 t1 i => (terms i).term.contr t0 t1
      prod := fun v c => sumOf fun i => (terms i).term.prod (v i) (c i)
      vfProd := fun t y c => sumOf fun i => (terms i).term.vfProd t y (c i)
      vfExpensive := (List.ofFn fun i => (terms i).term.vfExpensive).any id }

/-- `WrapTerm` (734-764). -/
def wrap [Ring T] (dir : ℤ) (k : AnyTerm 𝕜 T Y) : AnyTerm 𝕜 T Y where
  VF := k.VF
  Ct := k.Ct
  term :=
    { vf := fun t y => k.term.vf (t * dir) y
      contr := fun t0 t1 =>
        let t0' := if dir = 1 then t0 else -t1
        let t1' := if dir = 1 then t1 else -t0
        dir • k.term.contr t0' t1'
      prod := k.term.prod
      vfProd := fun t y c => k.term.vfProd (t * dir) y c
      vfExpensive := k.term.vfExpensive }

/-- `UnderdampedLangevinDriftTerm` (1030-1110), after `gamma` and `u` have been broadcast. -/
def langevinDrift {I : Type} (gamma u : I → 𝕜) (gradF : (I → 𝕜) → I → 𝕜) : AnyTerm 𝕜 𝕜 ((I → 𝕜) × (I → 𝕜)) where
  VF := (I → 𝕜) × (I → 𝕜)
  Ct := 𝕜
  term :=
    let vf := fun (_ : 𝕜) (y : (I → 𝕜) × (I → 𝕜)) => (y.2, fun i => -gamma i * y.2 i - u i * gradF y.1 i)
    let prod := fun (v : (I → 𝕜) × (I → 𝕜)) (c : 𝕜) => ((fun i => c * v.1 i), (fun i => c * v.2 i))
    { vf := vf
      contr := fun t0 t1 => t1 - t0
      prod := prod
      vfProd := fun t y c => prod (vf t y) c }

/-- `UnderdampedLangevinDiffusionTerm` (950-1027), likewise; `sqrt` is `jnp.sqrt`. -/
def langevinDiffusion {I : Type} (sqrt : 𝕜 → 𝕜) (gamma u : I → 𝕜) (path : T → T → I → 𝕜) :
    AnyTerm 𝕜 T ((I → 𝕜) × (I → 𝕜)) where
  VF := I → 𝕜
  Ct := I → 𝕜
  term :=
    let vf := fun (_ : T) (_ : (I → 𝕜) × (I → 𝕜)) (i : I) => sqrt (2 * gamma i * u i)
    let prod := fun (v c : I → 𝕜) => ((fun _ => 0 : I → 𝕜), fun i => v i * c i)
    { vf := vf
      contr := path
      prod := prod
      vfProd := fun t y c => prod (vf t y) c }

/-- `AdjointTerm` (767-910) of a term whose control is an array with index set `C`. The state is `(y, a_y, a_args, a_term)`
with index set `S` in all; `vjp t y c a` is what `jax.vjp` of `vf_prod` with respect to `y`, `args` and the parameters of
the term returns for the cotangent `a`. -/
def adjoint [StarRing 𝕜] {C S P : Type} [Fintype C] [DecidableEq C] (contr : T → T → C → 𝕜)
    (vfProd : T → (S → 𝕜) → (C → 𝕜) → S → 𝕜) (vjp : T → (S → 𝕜) → (C → 𝕜) → (S → 𝕜) → (S → 𝕜) × (P → 𝕜)) :
    AnyTerm 𝕜 T ((S → 𝕜) × (S → 𝕜) × (P → 𝕜)) where
  VF := C → (S → 𝕜) × (S → 𝕜) × (P → 𝕜)
  Ct := C → 𝕜
  term :=
    let vfp := fun (t : T) (y : (S → 𝕜) × (S → 𝕜) × (P → 𝕜)) (c : C → 𝕜) => (vfProd t y.1 c, vjp t y.1 c (-y.2.1))
    { -- the Jacobian of a function that is linear in the control: its values at the unit vectors
      vf := fun t y j => vfp t y (Pi.single j 1)
      contr := contr
      prod := fun v c => (fun s => ∑ j, star ((v j).1 s) * c j, fun s => ∑ j, star ((v j).2.1 s) * c j,
        fun s => ∑ j, star ((v j).2.2 s) * c j)
      vfProd := vfp
      vfExpensive := !decide (Fintype.card C ≤ 1) }

/-- `ControlTerm.to_ode` (529-541) with `_ControlToODE` (644-649), `derivative` being the method of the path. -/
def toOde (k : AnyTerm 𝕜 𝕜 Y) (derivative : 𝕜 → k.Ct) : AnyTerm 𝕜 𝕜 Y :=
  ode fun t y => k.term.vfProd t y (derivative t)

end AnyTerm
end Verif
