import Verif.Spec.Preflight
import Mathlib.Tactic.Linarith

/-!
# C107, C108: the checks before a solve
-/

namespace Verif.Preflight

variable {V : Type}

/-! ## Finding paths in the terms -/

section Trees

mutual
theorem flatten_any (p : PyTree → Bool) (q : Kind → Prop) (hleaf : p .leaf = false)
    (hp : ∀ k cs, p (.node k cs) = true ↔ q k) : ∀ t, (flatten p t).any p = true ↔ Contains q t
  | .leaf => by
    simp only [flatten, List.any_cons, hleaf, List.any_nil, Bool.or_self, Bool.false_eq_true, false_iff]
    intro h; cases h
  | .node k cs => by
    unfold flatten
    by_cases h : p (.node k cs) = true
    · rw [if_pos h]
      simp only [List.any_cons, h, List.any_nil, Bool.or_false, true_iff]
      exact .here ((hp k cs).1 h)
    · rw [if_neg h, flattenAll_any p q hleaf hp cs]
      constructor
      · rintro ⟨t, ht, hc⟩; exact .child ht hc
      · intro hc
        cases hc with
        | here hk => exact absurd ((hp k cs).2 hk) h
        | child ht hc => exact ⟨_, ht, hc⟩
theorem flattenAll_any (p : PyTree → Bool) (q : Kind → Prop) (hleaf : p .leaf = false)
    (hp : ∀ k cs, p (.node k cs) = true ↔ q k) :
    ∀ ts, (flattenAll p ts).any p = true ↔ ∃ t ∈ ts, Contains q t
  | [] => by simp [flattenAll]
  | t :: ts => by
    rw [flattenAll, List.any_append, Bool.or_eq_true, flatten_any p q hleaf hp t,
      flattenAll_any p q hleaf hp ts]
    simp
end

/-- **C107**: terms are taken for a stochastic equation exactly if a Brownian path occurs somewhere among
them, however deep. -/
theorem C107_is_sde (t : PyTree) : isSde t = true ↔ Stochastic t :=
  flatten_any isBrownian _ rfl (by intro k cs; cases k <;> simp [isBrownian]) t

/-- **C107**: `UnsafeBrownianPath` is found wherever it occurs, also inside of another Brownian path. -/
theorem C107_is_unsafe (t : PyTree) : isUnsafeSde t = true ↔ UsesUnsafe t :=
  flatten_any isUnsafeBrownian _ rfl (by intro k cs; cases k <;> simp [isUnsafeBrownian]) t

mutual
theorem cde_any : ∀ t, (flatten isPath t).any (fun l => isPath l && !isBrownian l) = true ↔ Controlled t
  | .leaf => by
    simp only [flatten, List.any_cons, isPath, Bool.false_and, List.any_nil, Bool.or_self,
      Bool.false_eq_true, false_iff]
    intro h; cases h
  | .node k cs => by
    unfold flatten
    cases k with
    | other =>
      rw [if_neg (by simp [isPath]), cdeAll_any cs]
      constructor
      · rintro ⟨t, ht, hc⟩; exact .child ht hc
      · intro hc
        cases hc with
        | child ht hc => exact ⟨_, ht, hc⟩
    | path => simp only [isPath, isBrownian, if_true]; simp; exact .here
    | brownian => simp only [isPath, isBrownian, if_true]; simp; intro h; cases h
    | unsafeBrownian => simp only [isPath, isBrownian, if_true]; simp; intro h; cases h
theorem cdeAll_any :
    ∀ ts, (flattenAll isPath ts).any (fun l => isPath l && !isBrownian l) = true ↔ ∃ t ∈ ts, Controlled t
  | [] => by simp [flattenAll]
  | t :: ts => by
    rw [flattenAll, List.any_append, Bool.or_eq_true, cde_any t, cdeAll_any ts]
    simp
end

/-- **C107**: terms are taken for a controlled equation exactly if an outermost path is not Brownian. -/
theorem C107_is_cde (t : PyTree) : isCde t = true ↔ Controlled t := cde_any t

end Trees

/-- `MultiTerm(ODETerm(f), ControlTerm(g, path))`. -/
def drivenBy (k : Kind) : PyTree :=
  .node .other [.node .other [.leaf], .node .other [.leaf, .node k [.leaf]]]

theorem drivenBy_stochastic {k : Kind} (h : k = .brownian ∨ k = .unsafeBrownian) : Stochastic (drivenBy k) :=
  .child (t := .node .other [.leaf, .node k [.leaf]]) (by simp)
    (.child (t := .node k [.leaf]) (by simp) (.here h))

example : Stochastic (drivenBy .brownian) := drivenBy_stochastic (.inl rfl)
example : UsesUnsafe (drivenBy .unsafeBrownian) :=
  .child (t := .node .other [.leaf, .node .unsafeBrownian [.leaf]]) (by simp)
    (.child (t := .node .unsafeBrownian [.leaf]) (by simp) (.here rfl))
example : isSde (drivenBy .path) = false ∧ isCde (drivenBy .path) = true := ⟨rfl, rfl⟩

/-! ## What `isinstance` says -/

/-- How many levels of class statements are above a class. -/
def rank : Cls → Nat
  | .solver => 0
  | .implicit | .ito | .stratonovich | .adaptive | .wrapped | .srk => 1
  | .rungeKutta | .langevin | .half => 2
  | .erk | .dirk => 3
  | .sdirk | .esdirk => 4
  | _ => 5

theorem rank_lt (c : Cls) : ∀ b ∈ bases c, rank b < rank c := by cases c <;> decide

theorem rank_le (c : Cls) : rank c ≤ 5 := by cases c <;> decide

theorem subFuel_sub : ∀ (n : Nat) (c d : Cls), subFuel n c d = true → Sub c d
  | 0, c, d, h => by
    have : c = d := by simpa [subFuel] using h
    subst this; exact .refl
  | n + 1, c, d, h => by
    rw [subFuel, Bool.or_eq_true, List.any_eq_true] at h
    rcases h with h | ⟨b, hb, h⟩
    · have : c = d := by simpa using h
      subst this; exact .refl
    · exact (subFuel_sub n b d h).head hb

theorem sub_subFuel {c d : Cls} (h : Sub c d) : ∀ n, rank c ≤ n → subFuel n c d = true := by
  induction h using Relation.ReflTransGen.head_induction_on with
  | refl => intro n _; cases n <;> simp [subFuel]
  | head hb _ ih =>
    intro n hn
    have := rank_lt _ _ hb
    cases n with
    | zero => omega
    | succ n =>
      rw [subFuel, Bool.or_eq_true, List.any_eq_true]
      exact .inr ⟨_, hb, ih n (by omega)⟩

/-- `issubclass` follows the class statements. -/
theorem issub_iff (c d : Cls) : issub c d = true ↔ Sub c d :=
  ⟨subFuel_sub 6 c d, fun h => sub_subFuel h 6 ((rank_le c).trans (by omega))⟩

instance (c d : Cls) : Decidable (Sub c d) := decidable_of_iff _ (issub_iff c d)

theorem isinstance_base (k c : Cls) (f : Fields V) : isinstance (.base k f) c = true ↔ (Solver.base k f).Is c :=
  issub_iff k c

/-- **C107**: `isinstance` never claims something of a solver that neither it nor the solvers wrapped in it
are. -/
theorem C107_isinstance_sound (s : Solver V) (c : Cls) (h : isinstance s c = true) : s.Is c := by
  cases s with
  | base k f => exact (issub_iff k c).1 h
  | half s =>
    simp only [isinstance, Bool.or_eq_true, issub_iff] at h
    rcases h with h | h
    · exact .inl h
    · cases s with
      | base k f => exact .inr h
      | half s => exact .inl h

/-- **C107** (partial): for a solver that is wrapped at most once, `isinstance` forwards to the wrapped
solver. Missing: solvers that are wrapped more than once, see `C107_isinstance_nested`. -/
theorem C107_isinstance_partial (s : Solver V) (c : Cls) (h : s.depth ≤ 1) :
    isinstance s c = true ↔ s.Is c := by
  refine ⟨C107_isinstance_sound s c, fun hi => ?_⟩
  cases s with
  | base k f => exact (issub_iff k c).2 hi
  | half s =>
    cases s with
    | base k f =>
      simp only [isinstance, Bool.or_eq_true, issub_iff]
      exact hi
    | half s => simp [Solver.depth] at h

/-- **C107** (violated): for a solver that is wrapped more than once `isinstance` tells nothing about the
solver inside: it says what it says of every wrapper. -/
theorem C107_isinstance_nested (s : Solver V) (c : Cls) :
    isinstance (.half (.half s)) c = true ↔ Sub .half c := by
  simp [isinstance, Solver.cls, issub_iff]

/-- Fields of a solver that has neither a root finder nor a `scan_kind`. -/
def plain (V : Type) : Fields V := ⟨none, none⟩

/-- `HalfSolver(Euler())` is an instance of `Euler`, as `test/test_solver.py` 29 requires;
`HalfSolver(HalfSolver(Euler()))` is not. -/
theorem C107_isinstance_violated :
    (Solver.half (.half (.base .euler (plain V)))).Is .euler ∧
      isinstance (.half (.half (.base .euler (plain V)))) .euler = false ∧
      isinstance (.half (.base .euler (plain V))) .euler = true :=
  ⟨.inr (.inr .refl), rfl, rfl⟩

/-! ## Stochastic equations -/

/-- **C107**: whatever is refused by the checks for stochastic equations is refused for the documented
reason. -/
theorem C107_sde_refusals (t : PyTree) (s : Solver V) (c : Ctrl V) (e : Err)
    (h : sdeChecks t s c = .error e) :
    c.adaptive = true ∧
      ((e = .sdeEuler ∧ Stochastic t ∧ s.Is .euler) ∨ (e = .unsafeAdaptive ∧ UsesUnsafe t)) := by
  unfold sdeChecks at h
  dsimp only at h
  split at h
  · next hc =>
    simp only [Bool.and_eq_true] at hc
    cases h
    exact ⟨hc.1.2, .inl ⟨rfl, (C107_is_sde t).1 hc.1.1, C107_isinstance_sound s _ hc.2⟩⟩
  · split at h
    · next hc =>
      simp only [Bool.and_eq_true] at hc
      cases h
      exact ⟨hc.2, .inr ⟨rfl, (C107_is_unsafe t).1 hc.1⟩⟩
    · cases h

/-- **C107** (partial): for a solver that is wrapped at most once, the checks for stochastic equations pass
exactly if it is not the case that steps are adaptive and the solver is Euler's method or the path is an
`UnsafeBrownianPath`; there is a warning exactly if the solver is marked neither as Itô nor as
Stratonovich. Missing: solvers that are wrapped more than once, see `C107_sde_violated`. -/
theorem C107_sde_partial (t : PyTree) (s : Solver V) (c : Ctrl V) (w : Bool) (hd : s.depth ≤ 1) :
    sdeChecks t s c = .ok w ↔
      ¬ (c.adaptive = true ∧ Stochastic t ∧ s.Is .euler) ∧ ¬ (c.adaptive = true ∧ UsesUnsafe t) ∧
        (w = true ↔ Stochastic t ∧ ¬ s.Is .ito ∧ ¬ s.Is .stratonovich) := by
  rw [← C107_is_sde, ← C107_is_unsafe, ← C107_isinstance_partial s _ hd, ← C107_isinstance_partial s _ hd,
    ← C107_isinstance_partial s _ hd]
  unfold sdeChecks
  generalize isSde t = a
  generalize isUnsafeSde t = b
  generalize c.adaptive = d
  generalize isinstance s .euler = e
  generalize isinstance s .ito = i
  generalize isinstance s .stratonovich = r
  dsimp only
  cases a <;> cases b <;> cases d <;> cases e <;> cases i <;> cases r <;> cases w <;> simp

example : sdeChecks (drivenBy .brownian) (.half (.base .heun (⟨none, some none⟩ : Fields ℚ))) (.pid 1 1 1) =
    .ok false := by decide
example : sdeChecks (drivenBy .brownian) (.half (.base .euler (plain Nat))) (.pid 1 1 1) = .error .sdeEuler := by
  decide

/-- **C107** (violated): for every stochastic equation without `UnsafeBrownianPath`, Euler's method wrapped
twice is accepted with adaptive steps, although "an SDE should not be solved with adaptive step sizes with
Euler's method, as it may not converge to the correct solution"; the comment in the code (`_integrate.py`
1144) says that the check is meant to work through `HalfSolver`. -/
theorem C107_sde_violated (t : PyTree) (c : Ctrl V) (f : Fields V) (hs : Stochastic t)
    (hu : ¬ UsesUnsafe t) :
    sdeChecks t (.half (.half (.base .euler f))) c = .ok true := by
  have h₁ := (C107_is_sde t).2 hs
  have h₂ : isUnsafeSde t = false := by
    rw [← Bool.not_eq_true]; exact fun h => hu ((C107_is_unsafe t).1 h)
  have h₃ : ∀ d, ¬ Sub .half d → isinstance (.half (.half (.base .euler f))) d = false := by
    intro d hd
    rw [← Bool.not_eq_true]
    exact fun h => hd ((C107_isinstance_nested _ d).1 h)
  unfold sdeChecks
  rw [h₁, h₂, h₃ .euler (by decide), h₃ .ito (by decide), h₃ .stratonovich (by decide)]
  simp

example : Stochastic (drivenBy .brownian) ∧ ¬ UsesUnsafe (drivenBy .brownian) :=
  ⟨drivenBy_stochastic (.inl rfl), fun h => absurd ((C107_is_unsafe _).2 h) (by decide)⟩

/-! ## Adjoints -/

/-- **C107** (partial): `BacksolveAdjoint` accepts a solver wrapped at most once exactly if there is no
`UnsafeBrownianPath` and the solver is not an Itô solver for a stochastic equation; the solver is left as it
is. Missing: solvers that are wrapped more than once, see `C107_backsolve_violated`. -/
theorem C107_backsolve_partial (t : PyTree) (s s' : Solver V) (w : Bool) (hd : s.depth ≤ 1) :
    adjointChecks .backsolve t s = .ok (w, s') ↔
      ¬ UsesUnsafe t ∧ ¬ (Stochastic t ∧ s.Is .ito) ∧ s' = s ∧
        (w = true ↔ Stochastic t ∧ ¬ s.Is .stratonovich) := by
  rw [← C107_is_sde, ← C107_is_unsafe, ← C107_isinstance_partial s _ hd, ← C107_isinstance_partial s _ hd]
  simp only [adjointChecks]
  generalize isSde t = a
  generalize isUnsafeSde t = b
  generalize isinstance s .ito = i
  generalize isinstance s .stratonovich = r
  cases a <;> cases b <;> cases i <;> cases r <;> cases w <;> simp [eq_comm]

/-- **C107** (violated): an Itô solver wrapped twice is accepted by `BacksolveAdjoint`, which only supports
Stratonovich equations. -/
theorem C107_backsolve_violated (t : PyTree) (f : Fields V) (k : Cls) (hs : Stochastic t)
    (hu : ¬ UsesUnsafe t) (hk : Sub k .ito) :
    (Solver.half (.half (.base k f))).Is .ito ∧
      adjointChecks .backsolve t (.half (.half (.base k f))) = .ok (true, .half (.half (.base k f))) := by
  refine ⟨.inr (.inr hk), ?_⟩
  have h₁ := (C107_is_sde t).2 hs
  have h₂ : isUnsafeSde t = false := by
    rw [← Bool.not_eq_true]; exact fun h => hu ((C107_is_unsafe t).1 h)
  have h₃ : ∀ d, ¬ Sub .half d → isinstance (.half (.half (.base k f))) d = false := by
    intro d hd
    rw [← Bool.not_eq_true]
    exact fun h => hd ((C107_isinstance_nested _ d).1 h)
  simp only [adjointChecks]
  rw [h₁, h₂, h₃ .ito (by decide), h₃ .stratonovich (by decide)]
  simp

example : Sub .itoMilstein .ito := by decide

/-- **C107** (partial): `DirectAdjoint` and `ForwardMode` accept every solver that is not wrapped. They only
fill in how the stages are looped over, and only if this was left open. Missing: wrapped solvers, see
`C107_forward_violated`. -/
theorem C107_forward_partial (t : PyTree) (k : Cls) (f : Fields V)
    (hb : (Solver.base k f).Built) :
    (∃ f', adjointChecks .direct t (.base k f) = .ok (false, .base k f') ∧ f'.rootFinder = f.rootFinder ∧
        (f'.scanKind = f.scanKind ∨ f.scanKind = some none ∧ f'.scanKind = some (some .bounded))) ∧
      ∃ f', adjointChecks .forward t (.base k f) = .ok (false, .base k f') ∧ f'.rootFinder = f.rootFinder ∧
        (f'.scanKind = f.scanKind ∨ f.scanKind = some none ∧ f'.scanKind = some (some .lax)) := by
  have key : ∀ sc : Scan, ∃ f', (setScan sc (.base k f)).map (fun s => (false, s)) = .ok (false, .base k f') ∧
      f'.rootFinder = f.rootFinder ∧
        (f'.scanKind = f.scanKind ∨ f.scanKind = some none ∧ f'.scanKind = some (some sc)) := by
    intro sc
    unfold setScan
    split
    · next h =>
      rw [Bool.or_eq_true, isinstance_base, isinstance_base] at h
      have := hb.scan h
      simp only [Solver.scanKind]
      have hs : f.scanKind.isSome := this
      match hf : f.scanKind, hs with
      | some none, _ => exact ⟨{ f with scanKind := some (some sc) }, rfl, rfl, .inr ⟨rfl, rfl⟩⟩
      | some (some x), _ => exact ⟨f, rfl, rfl, .inl hf⟩
    · exact ⟨f, rfl, rfl, .inl rfl⟩
  exact ⟨key .bounded, key .lax⟩

/-- Heun's method, as `Heun()` makes it. -/
def heunSolver (V : Type) : Solver V := .base .heun ⟨none, some none⟩

theorem heunSolver_built : (heunSolver V).Built := ⟨show ¬ Sub .heun .wrapped by decide, fun h => absurd h (show ¬ Sub .heun .implicit by decide), fun _ => rfl⟩

example : (heunSolver Nat).Built := heunSolver_built

/-- **C107** (violated): a Runge-Kutta solver, for ordinary or stochastic equations, inside a `HalfSolver`
cannot be used with `DirectAdjoint` nor with `ForwardMode`: whatever the terms are, the `scan_kind` of the
`HalfSolver` is asked for, which has none. -/
theorem C107_forward_violated (t : PyTree) (k : Cls) (f : Fields V)
    (hk : Sub k .rungeKutta ∨ Sub k .srk) :
    adjointChecks .direct t (.half (.base k f)) = .error .attribute ∧
      adjointChecks .forward t (.half (.base k f)) = .error .attribute := by
  have h : (isinstance (.half (.base k f)) .rungeKutta || isinstance (.half (.base k f)) .srk) = true := by
    rw [Bool.or_eq_true, C107_isinstance_partial _ _ (by simp [Solver.depth]),
      C107_isinstance_partial _ _ (by simp [Solver.depth])]
    exact hk.imp .inr .inr
  simp [adjointChecks, setScan, h, Solver.scanKind, Except.map]

/-- **C107**: solvers that are not Runge-Kutta methods, wrapped or not, are used with `DirectAdjoint` and
`ForwardMode` as they are. -/
theorem C107_forward_others (t : PyTree) (s : Solver V) (h₁ : ¬ s.Is .rungeKutta) (h₂ : ¬ s.Is .srk) :
    adjointChecks .direct t s = .ok (false, s) ∧ adjointChecks .forward t s = .ok (false, s) := by
  have h : ¬ (isinstance s .rungeKutta || isinstance s .srk) = true := by
    rw [Bool.or_eq_true]
    rintro (h | h)
    · exact h₁ (C107_isinstance_sound s _ h)
    · exact h₂ (C107_isinstance_sound s _ h)
  simp only [adjointChecks, setScan, if_neg h]
  exact ⟨rfl, rfl⟩

example : ¬ (Solver.half (.base .itoMilstein (plain Nat))).Is .rungeKutta := by
  simp only [Solver.Is]; decide

/-- The solvers concerned, among the stochastic ones: the approach to adaptive steps that the guide
(`docs/usage/getting-started.md` 102-110) calls typical. -/
example : Sub .heun .rungeKutta ∧ Sub .generalShark .srk ∧ Sub .spark .srk := by decide

/-! ## Tolerances of implicit solvers -/

theorem tols_eq {c : Ctrl V} {r a n : V} (h : c.Tols r a n) :
    c.adaptive = true ∧ c.rtol = some r ∧ c.atol = some a ∧ c.norm = some n := by
  induction h with
  | pid r a n => exact ⟨rfl, rfl, rfl, rfl⟩
  | clip _ ih => exact ⟨rfl, ih.2.1, ih.2.2.1, ih.2.2.2⟩

/-- **C108**: every adaptive controller that can be built has tolerances and a norm, those given to the
`PIDController` inside; a controller that is not adaptive cannot be clipped. -/
theorem C108_controllers (c : Ctrl V) (hb : c.Built) :
    (c.adaptive = true ↔ ∃ r a n, c.Tols r a n) ∧
      (c.adaptive = false → mkClip c = .error .clipFixed) := by
  constructor
  · induction hb with
    | constant => simp only [Ctrl.adaptive, Bool.false_eq_true, false_iff]; rintro ⟨r, a, n, h⟩; cases h
    | stepTo => simp only [Ctrl.adaptive, Bool.false_eq_true, false_iff]; rintro ⟨r, a, n, h⟩; cases h
    | pid r a n => exact ⟨fun _ => ⟨r, a, n, .pid r a n⟩, fun _ => rfl⟩
    | clip _ h ih =>
      unfold mkClip at h
      split at h
      · next ha =>
        cases h
        obtain ⟨r, a, n, ht⟩ := ih.1 ha
        exact ⟨fun _ => ⟨r, a, n, .clip ht⟩, fun _ => rfl⟩
      · cases h
  · intro h
    simp [mkClip, h]

theorem copyTol_eq (own : Attr V) (v : V) (h : own ≠ .missing) : copyTol own (some v) = .ok (own.filled v) := by
  cases own <;> simp_all [copyTol, Attr.filled]

theorem filled_given (own : Attr V) (v : V) (h : own ≠ .missing) : (own.filled v).Given := by
  cases own with
  | missing => exact absurd rfl h
  | stepsize => exact ⟨v, rfl⟩
  | val w => exact ⟨w, rfl⟩

/-- **C108** (partial): for an implicit solver that is not wrapped and a controller with tolerances `r`, `a`
and norm `n`, the solve uses the same solver, except that every attribute of the root finder which was left
to the controller has the value of the controller; none is left open. Missing: implicit solvers inside a
`HalfSolver`, see `C108_half_violated`. -/
theorem C108_adaptive_partial (k : Cls) (f : Fields V) (rf : RootFinder V) (c : Ctrl V) {r a n : V}
    (hk : Sub k .implicit) (hf : f.rootFinder = some rf) (hc : rf.Complete) (ht : c.Tols r a n) :
    ∃ rf' : RootFinder V, setTols (.base k f) c = .ok (.base k { f with rootFinder := some rf' }) ∧
      rf'.rtol = rf.rtol.filled r ∧ rf'.atol = rf.atol.filled a ∧ rf'.norm = rf.norm.filled n ∧
      rf'.Given := by
  obtain ⟨h₁, h₂, h₃⟩ := hc
  obtain ⟨t₀, t₁, t₂, t₃⟩ := tols_eq ht
  refine ⟨⟨rf.rtol.filled r, rf.atol.filled a, rf.norm.filled n⟩, ?_, rfl, rfl, rfl,
    filled_given _ _ h₁, filled_given _ _ h₂, filled_given _ _ h₃⟩
  unfold setTols
  rw [if_pos ((isinstance_base k _ f).2 hk)]
  simp only [Solver.rootFinder, hf, t₀, if_true, t₁, t₂, t₃, copyTol_eq _ _ h₁, copyTol_eq _ _ h₂,
    copyTol_eq _ _ h₃]
  rfl

/-- `Kvaerno5()`. -/
def kvaerno5 (V : Type) : Fields V := ⟨some (withTols V), some none⟩

example : setTols (.base .kvaerno5 (kvaerno5 Nat)) (.clip (.pid 3 6 0)) =
    .ok (.base .kvaerno5 ⟨some ⟨.val 3, .val 6, .val 0⟩, some none⟩) := by decide
example : Sub .kvaerno5 .implicit ∧ (withTols Nat).Complete :=
  ⟨by decide, by simp [withTols, RootFinder.Complete]⟩

theorem unset_eq (own : Attr V) : (unset own = .ok false ↔ own.Given) ∧
    (own ≠ .missing → ¬ own.Given → unset own = .ok true) := by
  cases own <;> simp [unset, Attr.Given]

/-- **C108** (partial): with fixed steps an implicit solver that is not wrapped is accepted exactly if all
three attributes of its root finder have values, and then it is used as it is; if some were left to the
controller, the error says so. Missing: implicit solvers inside a `HalfSolver`, see
`C108_half_violated`. -/
theorem C108_fixed_partial (k : Cls) (f : Fields V) (rf : RootFinder V) (c : Ctrl V)
    (hk : Sub k .implicit) (hf : f.rootFinder = some rf) (hc : c.adaptive = false) :
    (setTols (.base k f) c = .ok (.base k f) ↔ rf.Given) ∧
      (rf.Complete → ¬ rf.Given → setTols (.base k f) c = .error .noTols) := by
  have h : setTols (.base k f) c = (do
        let b₁ ← unset rf.rtol
        let b₂ ← unset rf.atol
        let b₃ ← unset rf.norm
        if b₁ || b₂ || b₃ then .error .noTols else .ok (.base k f)) := by
    unfold setTols
    rw [if_pos ((isinstance_base k _ f).2 hk)]
    simp only [Solver.rootFinder, hf, hc, Bool.false_eq_true, if_false]
  rw [h]
  obtain ⟨r, a, n⟩ := rf
  cases r <;> cases a <;> cases n <;>
    simp [unset, RootFinder.Given, RootFinder.Complete, Attr.Given, bind, Except.bind]

example : setTols (.base .kvaerno5 (kvaerno5 Nat)) .constant = .error .noTols := by decide
example : setTols (.base .kvaerno5 ⟨some ⟨.val 3, .val 6, .val 0⟩, some none⟩) (.constant : Ctrl Nat) =
    .ok (.base .kvaerno5 ⟨some ⟨.val 3, .val 6, .val 0⟩, some none⟩) := by decide

/-- **C108**: a solver that is not implicit, wrapped or not, is used as it is. -/
theorem C108_explicit (s : Solver V) (c : Ctrl V) (h : ¬ s.Is .implicit) : setTols s c = .ok s := by
  unfold setTols
  rw [if_neg fun hi => h (C107_isinstance_sound s _ hi)]

example : ¬ (Solver.half (heunSolver Nat)).Is .implicit := by
  simp only [heunSolver, Solver.Is]; decide

/-- **C108** (violated): an implicit solver inside a `HalfSolver` cannot be used at all: with whatever
controller and whatever root finder, the `root_finder` of the `HalfSolver` is asked for, which has none. -/
theorem C108_half_violated (k : Cls) (f : Fields V) (c : Ctrl V) (hk : Sub k .implicit) :
    setTols (.half (.base k f)) c = .error .attribute := by
  unfold setTols
  have h : (Solver.half (.base k f)).Is .implicit := .inr hk
  rw [if_pos ((C107_isinstance_partial _ _ (by simp [Solver.depth])).2 h)]
  rfl

/-- **C108** (violated): an implicit solver that is wrapped twice is accepted with every controller, but
starts the solve without tolerances, if it had none of its own. -/
theorem C108_nested_violated (k : Cls) (f : Fields V) (c : Ctrl V) (hf : f.rootFinder = some (withTols V)) :
    ∃ s', setTols (.half (.half (.base k f))) c = .ok s' ∧ s'.core.2.rootFinder = some (withTols V) ∧
      ¬ (withTols V).Given := by
  refine ⟨.half (.half (.base k f)), ?_, hf, ?_⟩
  · unfold setTols
    rw [if_neg fun hi => absurd ((C107_isinstance_nested _ _).1 hi) (by decide)]
  · rintro ⟨⟨v, hv⟩, -⟩
    cases hv

example : (kvaerno5 Nat).rootFinder = some (withTols Nat) := rfl

/-! ## All checks together -/

/-- **C107**: an ordinary or controlled equation, with an explicit solver that is not wrapped, passes all
checks with every controller and every adjoint, without a warning. -/
theorem C107_ode_accepted (a : Adj) (t : PyTree) (k : Cls) (f : Fields V) (c : Ctrl V)
    (ht : ¬ Stochastic t) (hk : ¬ Sub k .implicit) (hb : (Solver.base k f).Built) :
    ∃ f', preflight a t (.base k f) c = .ok (false, .base k f') ∧ f'.rootFinder = f.rootFinder := by
  have hu : ¬ UsesUnsafe t := by
    intro h
    apply ht
    unfold UsesUnsafe at h
    induction h with
    | here h => exact .here (.inr h)
    | child hm _ ih => exact .child hm (ih fun h => ht (.child hm h))
  have hsde : sdeChecks t (.base k f) c = .ok false :=
    (C107_sde_partial t _ c false (by simp [Solver.depth])).2
      ⟨fun h => ht h.2.1, fun h => hu h.2, by simp [ht]⟩
  have htol := C108_explicit (.base k f) c hk
  obtain ⟨⟨f₁, h₁, r₁, -⟩, f₂, h₂, r₂, -⟩ := C107_forward_partial t k f hb
  have hu' : isUnsafeSde t = false := by
    rw [← Bool.not_eq_true]; exact fun h => hu ((C107_is_unsafe t).1 h)
  have hback := (C107_backsolve_partial t (.base k f) (.base k f) false (by simp [Solver.depth])).2
    ⟨hu, fun h => ht h.1, rfl, by simp [ht]⟩
  unfold preflight
  rw [hsde, show (Except.ok false >>= fun w => setTols (.base k f) c >>= fun s =>
    adjointChecks a t s >>= fun x => (.ok (w || x.1, x.2) : Except Err (Bool × Solver V))) =
    (setTols (.base k f) c >>= fun s => adjointChecks a t s >>= fun x => .ok (false || x.1, x.2)) from rfl,
    htol]
  cases a with
  | recursiveCheckpoint =>
    exact ⟨f, by simp [adjointChecks, hu', bind, Except.bind], rfl⟩
  | direct => exact ⟨f₁, by simp [h₁, bind, Except.bind], r₁⟩
  | backsolve => exact ⟨f, by simp [hback, bind, Except.bind], rfl⟩
  | forward => exact ⟨f₂, by simp [h₂, bind, Except.bind], r₂⟩

example : ¬ Stochastic (drivenBy .path) := fun h => absurd ((C107_is_sde _).2 h) (by decide)

/-- **C107**: `RecursiveCheckpointAdjoint` accepts every solver, wrapped or not, as it is, exactly if there is no
`UnsafeBrownianPath`. -/
theorem C107_recursive (t : PyTree) (s s' : Solver V) (w : Bool) :
    adjointChecks .recursiveCheckpoint t s = .ok (w, s') ↔ ¬ UsesUnsafe t ∧ w = false ∧ s' = s := by
  rw [← C107_is_unsafe]
  simp only [adjointChecks]
  generalize isUnsafeSde t = b
  cases b <;> cases w <;> simp [eq_comm]

theorem adjoint_base (a : Adj) (t : PyTree) (k : Cls) (f : Fields V) (hb : (Solver.base k f).Built) :
    (∃ r, adjointChecks a t (.base k f) = .ok r) ↔
      ¬ (UsesUnsafe t ∧ (a = .recursiveCheckpoint ∨ a = .backsolve)) ∧
        ¬ (a = .backsolve ∧ Stochastic t ∧ Sub k .ito) := by
  obtain ⟨⟨f₁, h₁, -, -⟩, f₂, h₂, -, -⟩ := C107_forward_partial t k f hb
  cases a with
  | recursiveCheckpoint =>
    simp only [Prod.exists, C107_recursive, true_or, and_true, reduceCtorEq, false_and, not_false_eq_true]
    exact ⟨fun ⟨_, _, h, _⟩ => h, fun h => ⟨_, _, h, rfl, rfl⟩⟩
  | direct => simp [h₁]
  | forward => simp [h₂]
  | backsolve =>
    simp only [Prod.exists, C107_backsolve_partial t (.base k f) _ _ (show (Solver.base k f).depth ≤ 1 by
      simp [Solver.depth]), or_true, and_true, true_and]
    refine ⟨fun ⟨_, _, h, h', _⟩ => ⟨h, h'⟩, fun ⟨h, h'⟩ => ?_⟩
    by_cases hw : Stochastic t ∧ ¬ (Solver.base k f).Is .stratonovich
    · exact ⟨true, _, h, h', rfl, by simp [hw]⟩
    · exact ⟨false, _, h, h', rfl, by simp [hw]⟩

/-- **C107**: for an explicit solver that is not wrapped, all checks together pass exactly if none of the
documented reasons against it applies: adaptive steps with Euler's method for a stochastic equation,
`UnsafeBrownianPath` with adaptive steps or with an adjoint that visits the path twice, and an Itô solver with
`BacksolveAdjoint`. -/
theorem C107_accepted (a : Adj) (t : PyTree) (k : Cls) (f : Fields V) (c : Ctrl V)
    (hk : ¬ Sub k .implicit) (hb : (Solver.base k f).Built) :
    (∃ r, preflight a t (.base k f) c = .ok r) ↔
      ¬ (c.adaptive = true ∧ Stochastic t ∧ Sub k .euler) ∧
      ¬ (UsesUnsafe t ∧ (c.adaptive = true ∨ a = .recursiveCheckpoint ∨ a = .backsolve)) ∧
      ¬ (a = .backsolve ∧ Stochastic t ∧ Sub k .ito) := by
  have ha := adjoint_base a t k f hb
  have hs := fun w => C107_sde_partial t (.base k f) c w (by simp [Solver.depth])
  have hpre : preflight a t (.base k f) c = (sdeChecks t (.base k f) c >>= fun w =>
      adjointChecks a t (.base k f) >>= fun x => .ok (w || x.1, x.2)) := by
    unfold preflight
    rw [C108_explicit (.base k f) c hk]
    rfl
  have key : (∃ r, preflight a t (.base k f) c = .ok r) ↔
      (∃ w, sdeChecks t (.base k f) c = .ok w) ∧ ∃ r, adjointChecks a t (.base k f) = .ok r := by
    rw [hpre]
    cases sdeChecks t (.base k f) c <;> cases adjointChecks a t (.base k f) <;>
      simp [bind, Except.bind]
  rw [key, ha]
  have hsw : (∃ w, sdeChecks t (.base k f) c = .ok w) ↔
      ¬ (c.adaptive = true ∧ Stochastic t ∧ Sub k .euler) ∧ ¬ (c.adaptive = true ∧ UsesUnsafe t) := by
    constructor
    · rintro ⟨w, h⟩
      exact ⟨((hs w).1 h).1, ((hs w).1 h).2.1⟩
    · rintro ⟨h, h'⟩
      by_cases hw : Stochastic t ∧ ¬ (Solver.base k f).Is .ito ∧ ¬ (Solver.base k f).Is .stratonovich
      · exact ⟨true, (hs true).2 ⟨h, h', by simp [hw]⟩⟩
      · exact ⟨false, (hs false).2 ⟨h, h', by simp [hw]⟩⟩
  rw [hsw]
  constructor
  · rintro ⟨⟨h₁, h₂⟩, h₃, h₄⟩
    exact ⟨h₁, fun ⟨hu, h⟩ => h.elim (fun h => h₂ ⟨h, hu⟩) fun h => h₃ ⟨hu, h⟩, h₄⟩
  · rintro ⟨h₁, h₂, h₃⟩
    exact ⟨⟨h₁, fun ⟨h, hu⟩ => h₂ ⟨hu, .inl h⟩⟩, fun ⟨hu, h⟩ => h₂ ⟨hu, .inr h⟩, h₃⟩

example : ∃ r, preflight .forward (drivenBy .unsafeBrownian) (heunSolver Nat) .constant = .ok r :=
  ⟨(false, .base .heun ⟨none, some (some .lax)⟩), by decide⟩

/-- **C107**: an `UnsafeBrownianPath` is refused with adaptive steps, and with `RecursiveCheckpointAdjoint` or
`BacksolveAdjoint`, whatever the solver is and however often it is wrapped. -/
theorem C107_unsafe_refused (a : Adj) (t : PyTree) (s : Solver V) (c : Ctrl V) (hu : UsesUnsafe t)
    (h : c.adaptive = true ∨ a = .recursiveCheckpoint ∨ a = .backsolve) :
    ∃ e, preflight a t s c = .error e := by
  have h₂ := (C107_is_unsafe t).2 hu
  rcases h with h | h
  · have : ∃ e, sdeChecks t s c = .error e := by
      unfold sdeChecks
      dsimp only
      split
      · exact ⟨_, rfl⟩
      · rw [h₂, h]; exact ⟨_, rfl⟩
    obtain ⟨e, he⟩ := this
    exact ⟨e, by simp [preflight, he, bind, Except.bind]⟩
  · have : ∀ s : Solver V, adjointChecks a t s = .error .adjointUnsafe := by
      intro s
      rcases h with h | h <;> subst h <;> simp [adjointChecks, h₂]
    unfold preflight
    cases sdeChecks t s c with
    | error e => exact ⟨e, rfl⟩
    | ok w =>
      cases setTols s c with
      | error e => exact ⟨e, by simp [bind, Except.bind]⟩
      | ok s' => exact ⟨.adjointUnsafe, by simp [this, bind, Except.bind]⟩

example : UsesUnsafe (drivenBy .unsafeBrownian) := (C107_is_unsafe _).1 (by decide)

/-- **C108** (partial): in a whole solve of an ordinary or controlled equation, with an implicit solver that is not
wrapped, an adaptive controller and any adjoint: the solver that makes the steps has a root finder with the
tolerances it had, or those of the controller where it had none. Missing: implicit solvers inside a `HalfSolver`, see
`C108_half_violated`. -/
theorem C108_solve_partial (a : Adj) (t : PyTree) (k : Cls) (f : Fields V) (rf : RootFinder V) (c : Ctrl V)
    {r b n : V} (ht : ¬ Stochastic t) (hk : Sub k .implicit) (hb : (Solver.base k f).Built)
    (hf : f.rootFinder = some rf) (hc : rf.Complete) (hto : c.Tols r b n) :
    ∃ f' rf', preflight a t (.base k f) c = .ok (false, .base k f') ∧ f'.rootFinder = some rf' ∧
      rf'.rtol = rf.rtol.filled r ∧ rf'.atol = rf.atol.filled b ∧ rf'.norm = rf.norm.filled n := by
  have hu : ¬ UsesUnsafe t := by
    intro h
    apply ht
    unfold UsesUnsafe at h
    induction h with
    | here h => exact .here (.inr h)
    | child hm _ ih => exact .child hm (ih fun h => ht (.child hm h))
  have hsde : sdeChecks t (.base k f) c = .ok false :=
    (C107_sde_partial t _ c false (by simp [Solver.depth])).2
      ⟨fun h => ht h.2.1, fun h => hu h.2, by simp [ht]⟩
  obtain ⟨rf', hset, e₁, e₂, e₃, -⟩ := C108_adaptive_partial k f rf c hk hf hc hto
  have hb' : (Solver.base k { f with rootFinder := some rf' }).Built := ⟨hb.notHalf, fun _ => rfl, hb.scan⟩
  obtain ⟨⟨f₁, h₁, r₁, -⟩, f₂, h₂, r₂, -⟩ := C107_forward_partial t k _ hb'
  have hrec := (C107_recursive t (.base k { f with rootFinder := some rf' }) _ false).2 ⟨hu, rfl, rfl⟩
  have hback := (C107_backsolve_partial t (.base k { f with rootFinder := some rf' }) _ false
    (by simp [Solver.depth])).2 ⟨hu, fun h => ht h.1, rfl, by simp [ht]⟩
  have hpre : preflight a t (.base k f) c =
      (adjointChecks a t (.base k { f with rootFinder := some rf' }) >>= fun x => .ok (x.1, x.2)) := by
    unfold preflight
    rw [hsde]
    simp [hset, bind, Except.bind]
  rw [hpre]
  cases a with
  | recursiveCheckpoint => exact ⟨_, rf', by rw [hrec]; rfl, rfl, e₁, e₂, e₃⟩
  | direct => exact ⟨f₁, rf', by rw [h₁]; rfl, r₁, e₁, e₂, e₃⟩
  | backsolve => exact ⟨_, rf', by rw [hback]; rfl, rfl, e₁, e₂, e₃⟩
  | forward => exact ⟨f₂, rf', by rw [h₂]; rfl, r₂, e₁, e₂, e₃⟩

example : preflight .direct (drivenBy .path) (.base .kvaerno5 (kvaerno5 Nat)) (.pid 3 6 0) =
    .ok (false, .base .kvaerno5 ⟨some ⟨.val 3, .val 6, .val 0⟩, some (some .bounded)⟩) := by decide

/-- The classes that are not abstract. -/
def Cls.Concrete (k : Cls) : Prop :=
  k ∉ [.solver, .implicit, .ito, .stratonovich, .adaptive, .wrapped, .rungeKutta, .erk, .dirk, .sdirk, .esdirk, .srk,
    .langevin, .half]

instance (k : Cls) : Decidable k.Concrete := inferInstanceAs (Decidable (k ∉ _))

/-- **C107**: the markings of the solvers of the library. No solver is marked both as Itô and as Stratonovich. The
Itô solvers are `Euler` and `ItoMilstein`. The solvers without a marking are the symplectic ones, the implicit ones,
and `Bosh3`, `Tsit5`, `Dopri5` and `Dopri8`. -/
theorem C107_markings (k : Cls) (h : k.Concrete) :
    ¬ (Sub k .ito ∧ Sub k .stratonovich) ∧
    (Sub k .ito ↔ k = .euler ∨ k = .itoMilstein) ∧
    (¬ Sub k .ito ∧ ¬ Sub k .stratonovich ↔ k ∈ [.semiImplicit, .leapfrog, .bosh3, .tsit5, .dopri5, .dopri8,
      .implicitEuler, .kvaerno3, .kvaerno4, .kvaerno5, .kencarp3, .kencarp4, .kencarp5, .sil3]) ∧
    (Sub k .implicit ↔ k ∈ [.implicitEuler, .kvaerno3, .kvaerno4, .kvaerno5, .kencarp3, .kencarp4, .kencarp5,
      .sil3]) ∧
    (Sub k .rungeKutta → Sub k .adaptive) ∧ ¬ (Sub k .rungeKutta ∧ Sub k .srk) := by
  revert h
  cases k <;> decide

example : Cls.Concrete .spark := by decide

end Verif.Preflight
