import Verif.Model.Compat

/-!
# Terms that a solver can use

A single expected class is matched by a term of that class whose vector field and control have the expected
types; an expected `MultiTerm` by a `MultiTerm` with the same number of terms, each of which matches; an
expected tuple by a tuple of terms together with a tuple of states.
-/

namespace Verif.Compat

variable {τ : Type}

/-- The value has the type. -/
inductive Fits (W : World τ) (x : τ) : Annot → Prop
  | any : Fits W x .any
  | cls {c : Nat} : W.val x c = true → Fits W x (.cls c)
  | generic {c : Nat} : W.val x c = true → Fits W x (.generic c)
  | union {l : List Annot} {a : Annot} : a ∈ l → Fits W x a → Fits W x (.union l)

/-- The annotation has no part that cannot be checked. -/
inductive Annot.Plain : Annot → Prop
  | any : Plain .any
  | cls (c : Nat) : Plain (.cls c)
  | generic (c : Nat) : Plain (.generic c)
  | union {l : List Annot} : (∀ a ∈ l, Plain a) → Plain (.union l)

/-- The terms are those that the structure describes. -/
inductive Matches (W : World τ) : Struct → Terms τ → Kwargs → State → Prop
  | cls {c : Nat} {va ca : Annot} {t : Terms τ} {i : Info τ} {levy : Bool} {y : State} {v u : τ} :
      t.info? = some i → W.inst i.cls c = true → i.vf y = .ok v → Fits W v va →
      i.contr levy = .ok u → Fits W u ca → Matches W (.cls c va ca) t (.dict levy) y
  | multi {l : List Struct} {i : Info τ} {ts : List (Terms τ)} {ks : List Kwargs} {y : State} :
      ts.length = l.length → ks.length = l.length →
      (∀ (j : Nat) (s : Struct) (t : Terms τ) (k : Kwargs), l[j]? = some s → ts[j]? = some t →
        ks[j]? = some k → Matches W s t k y) →
      Matches W (.multi l) (.multi i ts) (.tuple ks) y
  | tuple {l : List Struct} {ts : List (Terms τ)} {ks : List Kwargs} {ys : List State} :
      ts.length = l.length → ks.length = l.length → ys.length = l.length →
      (∀ (j : Nat) (s : Struct) (t : Terms τ) (k : Kwargs) (y : State), l[j]? = some s → ts[j]? = some t →
        ks[j]? = some k → ys[j]? = some y → Matches W s t k y) →
      Matches W (.tuple l) (.tuple ts) (.tuple ks) (.tuple ys)

/-- No type in the structure is one that cannot be checked. -/
inductive Struct.Plain : Struct → Prop
  | cls {c : Nat} {va ca : Annot} : va.Plain → ca.Plain → Plain (.cls c va ca)
  | multi {l : List Struct} : (∀ s ∈ l, Plain s) → Plain (.multi l)
  | tuple {l : List Struct} : (∀ s ∈ l, Plain s) → Plain (.tuple l)

/-- The vector fields and controls can be evaluated. -/
inductive Terms.Total : Terms τ → Prop
  | term {i : Info τ} : (∀ y, ∃ v, i.vf y = .ok v) → (∀ b, ∃ u, i.contr b = .ok u) → Total (.term i)
  | multi {i : Info τ} {l : List (Terms τ)} : (∀ y, ∃ v, i.vf y = .ok v) → (∀ b, ∃ u, i.contr b = .ok u) →
      (∀ t ∈ l, Total t) → Total (.multi i l)
  | tuple {l : List (Terms τ)} : (∀ t ∈ l, Total t) → Total (.tuple l)
  | other : Total .other

/-- Wherever a `MultiTerm` is expected and given, it has the expected number of terms. -/
inductive SameCount : Struct → Terms τ → Prop
  | cls {c : Nat} {va ca : Annot} {t : Terms τ} : SameCount (.cls c va ca) t
  | multi {l : List Struct} {i : Info τ} {ts : List (Terms τ)} : ts.length = l.length →
      (∀ (j : Nat) (s : Struct) (t : Terms τ), l[j]? = some s → ts[j]? = some t → SameCount s t) →
      SameCount (.multi l) (.multi i ts)
  | noMulti {l : List Struct} {t : Terms τ} : (∀ i ts, t ≠ .multi i ts) → SameCount (.multi l) t
  | tuple {l ts} : (∀ (j : Nat) (s : Struct) (t : Terms τ), l[j]? = some s → ts[j]? = some t → SameCount s t) →
      SameCount (.tuple l) (.tuple ts)
  | noTuple {l : List Struct} {t : Terms τ} : (∀ ts, t ≠ .tuple ts) → SameCount (.tuple l) t

/-- The keyword arguments have the shape of the structure. -/
inductive Shaped : Struct → Kwargs → Prop
  | cls {c : Nat} {va ca : Annot} {b : Bool} : Shaped (.cls c va ca) (.dict b)
  | multi {l : List Struct} {ks : List Kwargs} : ks.length = l.length →
      (∀ (j : Nat) (s : Struct) (k : Kwargs), l[j]? = some s → ks[j]? = some k → Shaped s k) →
      Shaped (.multi l) (.tuple ks)
  | tuple {l : List Struct} {ks : List Kwargs} : ks.length = l.length →
      (∀ (j : Nat) (s : Struct) (k : Kwargs), l[j]? = some s → ks[j]? = some k → Shaped s k) →
      Shaped (.tuple l) (.tuple ks)

/-- No term is asked for its Lévy area. -/
inductive Kwargs.NoLevy : Kwargs → Prop
  | dict : NoLevy (.dict false)
  | tuple {l : List Kwargs} : (∀ k ∈ l, NoLevy k) → NoLevy (.tuple l)

end Verif.Compat
