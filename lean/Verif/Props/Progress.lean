import Verif.Model.Progress
import Verif.Props.Loop
import Verif.Model.LocalInterp
import Verif.Props.Constant
import Mathlib.Algebra.Order.Field.Rat
import Mathlib.Tactic.FieldSimp
import Mathlib.Data.Fin.VecNotation
import Mathlib.Data.Fin.Tuple.Basic
import Mathlib.Tactic.Linarith
import Mathlib.Tactic.NormNum

/-!
# Progress meters (C52, C53)
-/

set_option linter.unusedSectionVars false

namespace Verif

section manager
variable {Tid B P O : Type} [DecidableEq Tid]

/-- Every index held by a solve has been handed out, no two solves hold the same one, and only indices that have been
handed out have bars. -/
structure MeterSys.Inv (s : MeterSys Tid B) : Prop where
  le : ∀ τ i, s.held τ = some i → i ≤ s.manager.idx
  inj : ∀ τ σ i, s.held τ = some i → s.held σ = some i → τ = σ
  none : ∀ i, s.manager.idx < i → s.manager.bars i = none

theorem MeterSys.start_inv : (MeterSys.start : MeterSys Tid B).Inv :=
  ⟨by simp [start], by simp [start], by simp [start, Manager.new]⟩

theorem MeterSys.call_inv (f : MeterFns B P O) (s : MeterSys Tid B) (hs : s.Inv) (τ : Tid) (c : MeterCall P) :
    (s.call f τ c).1.Inv := by
  cases c with
  | init =>
    refine ⟨?_, ?_, ?_⟩
    · intro σ i h
      simp only [call, Manager.init, Manager.set] at h ⊢
      split at h
      · cases h; exact le_rfl
      · have := hs.le σ i h; omega
    · intro σ ρ i h h'
      simp only [call, Manager.init, Manager.set] at h h'
      split at h <;> split at h'
      · rename_i a b; rw [a, b]
      · cases h; have := hs.le ρ _ h'; omega
      · cases h'; have := hs.le σ _ h; omega
      · exact hs.inj _ _ _ h h'
    · intro i h
      simp only [call, Manager.init, Manager.set] at h ⊢
      rw [if_neg (by omega)]
      exact hs.none i (by omega)
  | step p =>
    simp only [call]
    split
    · exact hs
    · rename_i i hi
      simp only [Manager.step]
      split
      · exact hs
      · refine ⟨hs.le, hs.inj, ?_⟩
        intro j hj
        have := hs.le τ i hi
        have hj' : s.manager.idx < j := hj
        simp only [Manager.set]
        rw [if_neg (by omega)]
        exact hs.none j hj
  | close =>
    simp only [call]
    split
    · exact hs
    · rename_i i hi
      simp only [Manager.close]
      split
      · exact hs
      · rename_i r hr
        cases hb : s.manager.bars i with
        | none => rw [hb] at hr; cases hr
        | some b =>
          rw [hb] at hr
          cases hr
          refine ⟨hs.le, hs.inj, ?_⟩
          intro j hj
          have hj' : s.manager.idx < j := hj
          simp only [Manager.set]
          split
          · rfl
          · exact hs.none j hj

theorem MeterSys.run_inv (f : MeterFns B P O) (s : MeterSys Tid B) (hs : s.Inv) (cs : List (Tid × MeterCall P)) :
    (s.run f cs).1.Inv := by
  induction cs generalizing s with
  | nil => exact hs
  | cons c cs ih => exact ih _ (call_inv f s hs c.1 c.2)

/-- **C52.** Whatever the calls and their interleaving, no two solves ever hold the same index. -/
theorem C52_own_index (f : MeterFns B P O) (cs : List (Tid × MeterCall P)) (τ σ : Tid) (i : ℕ)
    (h : ((MeterSys.start.run f cs).1.held τ) = some i) (h' : ((MeterSys.start.run f cs).1.held σ) = some i) : τ = σ :=
  (MeterSys.run_inv f _ MeterSys.start_inv cs).inj τ σ i h h'

/-- The bar of a solve. -/
def MeterSys.bar (s : MeterSys Tid B) (τ : Tid) : Option B := (s.held τ).bind s.manager.bars

/-- What the meter of one solve does, all by itself. -/
def soloCall (f : MeterFns B P O) : Bool × Option B → MeterCall P → (Bool × Option B) × MeterEvent O
  | _, .init => ((true, some f.initBar.1), .printed f.initBar.2)
  | (false, b), .step _ => ((false, b), .printed [])
  | (true, none), .step _ => ((true, none), .printed [])
  | (true, some b), .step p => ((true, some (f.stepBar b p).1), .printed (f.stepBar b p).2)
  | (false, b), .close => ((false, b), .printed [])
  | (true, none), .close => ((true, none), .keyError)
  | (true, some b), .close => ((true, none), .printed (f.closeBar b))

theorem MeterSys.call_own (f : MeterFns B P O) (s : MeterSys Tid B) (hs : s.Inv) (τ : Tid) (c : MeterCall P) :
    (((s.call f τ c).1.held τ).isSome, (s.call f τ c).1.bar τ) = (soloCall f ((s.held τ).isSome, s.bar τ) c).1 ∧
      (s.call f τ c).2 = (soloCall f ((s.held τ).isSome, s.bar τ) c).2 := by
  cases c with
  | init => simp [call, soloCall, bar, Manager.init, Manager.set]
  | step p =>
    cases hh : s.held τ with
    | none => simp [call, soloCall, bar, hh]
    | some i =>
      cases hb : s.manager.bars i with
      | none => simp [call, soloCall, bar, hh, Manager.step, hb]
      | some b => simp [call, soloCall, bar, hh, Manager.step, hb, Manager.set]
  | close =>
    cases hh : s.held τ with
    | none => simp [call, soloCall, bar, hh]
    | some i =>
      cases hb : s.manager.bars i with
      | none => simp [call, soloCall, bar, hh, Manager.close, hb]
      | some b => simp [call, soloCall, bar, hh, Manager.close, hb, Manager.set]

theorem MeterSys.call_other (f : MeterFns B P O) (s : MeterSys Tid B) (hs : s.Inv) {τ σ : Tid} (h : σ ≠ τ)
    (c : MeterCall P) : (s.call f τ c).1.held σ = s.held σ ∧ (s.call f τ c).1.bar σ = s.bar σ := by
  cases c with
  | init =>
    refine ⟨by simp [call, h], ?_⟩
    cases hh : s.held σ with
    | none => simp [call, bar, h, hh]
    | some i =>
      have := hs.le σ i hh
      simp only [call, bar, h, hh, if_false, Option.bind_some, Manager.init, Manager.set]
      rw [if_neg (by omega)]
  | step p =>
    cases ht : s.held τ with
    | none => simp [call, ht]
    | some i =>
      refine ⟨by simp [call, ht], ?_⟩
      cases hb : s.manager.bars i with
      | none => simp [call, bar, ht, Manager.step, hb]
      | some b =>
        cases hh : s.held σ with
        | none => simp [call, bar, ht, hh, Manager.step, hb]
        | some j =>
          have hij : j ≠ i := by rintro rfl; exact h (hs.inj σ τ j hh ht)
          simp [call, bar, ht, hh, Manager.step, hb, Manager.set, hij]
  | close =>
    cases ht : s.held τ with
    | none => simp [call, ht]
    | some i =>
      cases hb : s.manager.bars i with
      | none => simp [call, ht, Manager.close, hb]
      | some b =>
        refine ⟨by simp [call, ht, Manager.close, hb], ?_⟩
        cases hh : s.held σ with
        | none => simp [call, bar, ht, hh, Manager.close, hb]
        | some j =>
          have hij : j ≠ i := by rintro rfl; exact h (hs.inj σ τ j hh ht)
          simp [call, bar, ht, hh, Manager.close, hb, Manager.set, hij]

/-- One meter by itself. -/
def soloRun (f : MeterFns B P O) : Bool × Option B → List (MeterCall P) → (Bool × Option B) × List (MeterEvent O)
  | s, [] => (s, [])
  | s, c :: cs => ((soloRun f (soloCall f s c).1 cs).1, (soloCall f s c).2 :: (soloRun f (soloCall f s c).1 cs).2)

/-- The calls of one solve among all. -/
def callsOf (τ : Tid) (cs : List (Tid × MeterCall P)) : List (MeterCall P) := (cs.filter (·.1 = τ)).map (·.2)

/-- The events of one solve among all. -/
def eventsOf (τ : Tid) (es : List (Tid × MeterEvent O)) : List (MeterEvent O) := (es.filter (·.1 = τ)).map (·.2)

theorem MeterSys.run_solo (f : MeterFns B P O) (s : MeterSys Tid B) (hs : s.Inv) (cs : List (Tid × MeterCall P)) (τ : Tid) :
    eventsOf τ (s.run f cs).2 = (soloRun f ((s.held τ).isSome, s.bar τ) (callsOf τ cs)).2 ∧
      (s.run f cs).1.bar τ = (soloRun f ((s.held τ).isSome, s.bar τ) (callsOf τ cs)).1.2 := by
  induction cs generalizing s with
  | nil => simp [run, eventsOf, callsOf, soloRun]
  | cons c cs ih =>
    obtain ⟨σ, c⟩ := c
    have hs' := call_inv f s hs σ c
    have := ih _ hs'
    by_cases h : σ = τ
    · subst h
      obtain ⟨h1, h2⟩ := call_own f s hs σ c
      rw [h1] at this
      simp only [run, eventsOf, callsOf, soloRun, List.filter_cons, decide_true, if_true, List.map_cons] at this ⊢
      rw [h2]
      exact ⟨by rw [this.1], this.2⟩
    · obtain ⟨h1, h2⟩ := call_other f s hs (Ne.symm h) c
      rw [h1, h2] at this
      simpa [run, eventsOf, callsOf, h] using this

/-- **C52.** Solves do not see each other's meters: whatever other solves there are and however the calls are
interleaved, what happens for a solve (what is printed, and whether there is a `KeyError`) is what would happen if it
were the only one. -/
theorem C52_independent (f : MeterFns B P O) (cs : List (Tid × MeterCall P)) (τ : Tid) :
    eventsOf τ ((MeterSys.start : MeterSys Tid B).run f cs).2 =
      eventsOf τ ((MeterSys.start : MeterSys Tid B).run f (cs.filter (·.1 = τ))).2 := by
  rw [(MeterSys.run_solo f _ MeterSys.start_inv cs τ).1, (MeterSys.run_solo f _ MeterSys.start_inv _ τ).1]
  congr 2
  simp [callsOf]

/-- The calls of a solve: `init`, some steps, `close`, and maybe further steps, which happens when callbacks run again in
a backward pass. -/
def IsSolve (cs : List (MeterCall P)) : Prop :=
  ∃ ps qs : List P, cs = .init :: ps.map .step ++ .close :: qs.map .step

theorem soloRun_append (f : MeterFns B P O) (s : Bool × Option B) (cs ds : List (MeterCall P)) :
    soloRun f s (cs ++ ds) =
      ((soloRun f (soloRun f s cs).1 ds).1, (soloRun f s cs).2 ++ (soloRun f (soloRun f s cs).1 ds).2) := by
  induction cs generalizing s with
  | nil => simp [soloRun]
  | cons c cs ih => simp [soloRun, ih]

theorem soloRun_steps (f : MeterFns B P O) (b : B) (ps : List P) :
    (soloRun f (true, some b) (ps.map .step)).1 = (true, some (ps.foldl (fun b p => (f.stepBar b p).1) b)) ∧
      ∀ e ∈ (soloRun f (true, some b) (ps.map .step)).2, ∃ o, e = MeterEvent.printed o := by
  induction ps generalizing b with
  | nil => simp [soloRun]
  | cons p ps ih =>
    simp only [List.map_cons, soloRun, soloCall, List.foldl_cons, List.mem_cons]
    refine ⟨(ih _).1, ?_⟩
    rintro e (rfl | h)
    · exact ⟨_, rfl⟩
    · exact (ih _).2 e h

theorem soloRun_closed (f : MeterFns B P O) (ps : List P) :
    soloRun f (true, none) (ps.map .step) = ((true, none), ps.map fun _ => .printed []) := by
  induction ps with
  | nil => rfl
  | cons p ps ih => simp [soloRun, soloCall, ih]

/-- **C52.** If every solve makes the calls that a solve makes, there is no `KeyError`, steps after the close print
nothing, and in the end no bar is left. -/
theorem C52_cleaned_up (f : MeterFns B P O) (cs : List (Tid × MeterCall P))
    (hcs : ∀ τ, callsOf τ cs = [] ∨ IsSolve (callsOf τ cs)) :
    (∀ e ∈ ((MeterSys.start : MeterSys Tid B).run f cs).2, ∃ o, e.2 = MeterEvent.printed o) ∧
      ∀ i, ((MeterSys.start : MeterSys Tid B).run f cs).1.manager.bars i = none := by
  have hsolo : ∀ τ, (∀ e ∈ (soloRun f ((false, none) : Bool × Option B) (callsOf τ cs)).2, ∃ o, e = MeterEvent.printed o) ∧
      (soloRun f ((false, none) : Bool × Option B) (callsOf τ cs)).1.2 = none := by
    intro τ
    rcases hcs τ with h | ⟨ps, qs, h⟩
    · rw [h]; simp [soloRun]
    · rw [h]
      obtain ⟨h1, h2⟩ := soloRun_steps f f.initBar.1 ps
      simp only [List.cons_append, soloRun, soloRun_append, soloCall, h1, soloRun_closed, List.mem_cons, List.mem_append,
        List.mem_map]
      refine ⟨?_, trivial⟩
      rintro e (rfl | h | rfl | ⟨_, _, rfl⟩)
      · exact ⟨_, rfl⟩
      · exact h2 e h
      · exact ⟨_, rfl⟩
      · exact ⟨_, rfl⟩
  constructor
  · rintro ⟨τ, e⟩ he
    have h := (MeterSys.run_solo f _ MeterSys.start_inv cs τ).1
    have he' : e ∈ eventsOf τ ((MeterSys.start : MeterSys Tid B).run f cs).2 := by
      simp only [eventsOf, List.mem_map, List.mem_filter, decide_eq_true_eq]
      exact ⟨(τ, e), ⟨he, rfl⟩, rfl⟩
    rw [h] at he'
    exact (hsolo τ).1 e he'
  · -- every bar belongs to a solve
    have hown : ∀ (cs : List (Tid × MeterCall P)) (s : MeterSys Tid B), s.Inv →
        (∀ i, s.manager.bars i ≠ none → ∃ τ, s.held τ = some i) →
        (∀ τ, s.held τ = none ∨ ∀ c ∈ callsOf τ cs, c ≠ .init) →
        (∀ τ, (callsOf τ cs).tail.all (fun c => match c with | .init => false | _ => true)) →
        ∀ i, (s.run f cs).1.manager.bars i ≠ none → ∃ τ, (s.run f cs).1.held τ = some i := by
      intro cs
      induction cs with
      | nil => intro s _ h _ _; exact h
      | cons c cs ih =>
        obtain ⟨σ, c⟩ := c
        intro s hs h hnew htail
        have hother : ∀ τ, τ ≠ σ → callsOf τ ((σ, c) :: cs) = callsOf τ cs := by
          intro τ hτ; simp [callsOf, Ne.symm hτ]
        have hself : callsOf σ ((σ, c) :: cs) = c :: callsOf σ cs := by simp [callsOf]
        apply ih _ (MeterSys.call_inv f s hs σ c)
        · intro i hi
          by_cases hc : c = .init
          · subst hc
            have hnone : s.held σ = none := by
              rcases hnew σ with h' | h'
              · exact h'
              · exact absurd rfl (h' .init (by rw [hself]; exact List.mem_cons_self))
            simp only [MeterSys.call, Manager.init, Manager.set] at hi ⊢
            by_cases hii : i = s.manager.idx + 1
            · exact ⟨σ, by simp [hii]⟩
            · rw [if_neg hii] at hi
              obtain ⟨τ, hτ⟩ := h i hi
              refine ⟨τ, ?_⟩
              have : τ ≠ σ := by rintro rfl; rw [hnone] at hτ; cases hτ
              simp [this, hτ]
          · have hheld : (s.call f σ c).1.held = s.held := by
              cases c with
              | init => exact absurd rfl hc
              | step p => simp only [MeterSys.call]; split <;> rfl
              | close => simp only [MeterSys.call]; split <;> [rfl; (split <;> rfl)]
            rw [hheld]
            apply h i
            intro hnone
            apply hi
            cases c with
            | init => exact absurd rfl hc
            | step p =>
              simp only [MeterSys.call]
              split
              · exact hnone
              · rename_i j _
                simp only [Manager.step]
                split
                · exact hnone
                · rename_i b hb
                  simp only [Manager.set]
                  split
                  · rename_i hij; rw [hij, hb] at hnone; cases hnone
                  · exact hnone
            | close =>
              simp only [MeterSys.call]
              split
              · exact hnone
              · rename_i j _
                cases hb : s.manager.bars j with
                | none => simpa [Manager.close, hb] using hnone
                | some b =>
                  simp only [Manager.close, hb, Manager.set]
                  split
                  · rfl
                  · exact hnone
        · intro τ
          by_cases hτ : τ = σ
          · subst hτ
            right
            have := htail τ
            rw [hself, List.tail_cons, List.all_eq_true] at this
            intro c' hc' h'
            have := this c' hc'
            rw [h'] at this
            cases this
          · rw [(MeterSys.call_other f s hs hτ c).1]
            rcases hnew τ with h' | h'
            · exact Or.inl h'
            · right; rwa [hother τ hτ] at h'
        · intro τ
          by_cases hτ : τ = σ
          · subst hτ
            have := htail τ
            rw [hself, List.tail_cons] at this
            cases hl : callsOf τ cs with
            | nil => rfl
            | cons a l =>
              rw [hl, List.all_cons, Bool.and_eq_true] at this
              exact this.2
          · have := htail τ
            rwa [hother τ hτ] at this
    intro i
    by_contra hi
    obtain ⟨τ, hτ⟩ := hown cs MeterSys.start MeterSys.start_inv (by simp [MeterSys.start, Manager.new])
      (by intro τ; left; rfl)
      (by intro τ
          rcases hcs τ with h | ⟨ps, qs, h⟩
          · rw [h]; rfl
          · rw [h]; simp) i hi
    have hb := (MeterSys.run_solo f _ MeterSys.start_inv cs τ).2
    have : ((MeterSys.start : MeterSys Tid B).run f cs).1.bar τ = none := by
      rw [hb]; exact (hsolo τ).2
    simp only [MeterSys.bar, hτ, Option.bind_some] at this
    exact hi this

end manager

section text
variable {K : Type} [Field K] [LinearOrder K] [IsStrictOrderedRing K]

/-- The numbers printed. -/
def printedOf {O : Type} (es : List (MeterEvent O)) : List O :=
  es.flatMap fun e => match e with | .printed o => o | .keyError => []

/-- Everything that a solve with a text meter prints, when `ps` is the progress after each attempted step. -/
def textPrinted (minInc : K) (ps : List K) : List K :=
  printedOf (soloRun textFns (false, none) (textSolve minInc ps)).2

/-- **C53.** What such a solve prints does not depend on other solves. -/
theorem C53_any_interleaving {Tid : Type} [DecidableEq Tid] (minInc : K) (ps : List K)
    (cs : List (Tid × MeterCall K)) (τ : Tid) (h : callsOf τ cs = textSolve minInc ps) :
    printedOf (eventsOf τ (MeterSys.start.run textFns cs).2) = textPrinted minInc ps := by
  rw [(MeterSys.run_solo textFns _ MeterSys.start_inv cs τ).1, h]
  rfl

/-- What is printed between the initial 0% and the close, and the number printed last. -/
def textMiddle (minInc : K) : K → List K → List K
  | _, [] => []
  | last, p :: ps =>
    match (textStep minInc last p).2 with
    | none => textMiddle minInc last ps
    | some q => q :: textMiddle minInc q ps

theorem textStep_cases (minInc last p : K) :
    ((minInc < p - last ∨ p = 1) ∧ textStep minInc last p = (p, some p)) ∨
      (p - last ≤ minInc ∧ p ≠ 1 ∧ textStep minInc last p = (last, none)) := by
  unfold textStep
  split
  · rename_i h; exact Or.inl ⟨h, rfl⟩
  · rename_i h; push Not at h; exact Or.inr ⟨h.1, h.2, rfl⟩

theorem textCalls_solo (minInc last : K) (ps : List K) :
    printedOf (soloRun textFns (true, some last) (textCalls minInc last ps)).2 =
      textMiddle minInc last ps ++
        if (last :: textMiddle minInc last ps).getLast (by simp) = 1 then [] else [1] := by
  induction ps generalizing last with
  | nil =>
    by_cases h : last = 1 <;> simp [textCalls, soloRun, soloCall, textFns, textMiddle, printedOf, h]
  | cons p ps ih =>
    rcases textStep_cases minInc last p with ⟨-, h⟩ | ⟨-, -, h⟩
    · have := ih p
      simp only [textCalls, textMiddle, h, soloRun, soloCall, textFns, printedOf, List.flatMap_cons] at this ⊢
      rw [this]
      simp
    · have := ih last
      simp only [textCalls, textMiddle, h] at this ⊢
      exact this

theorem textPrinted_eq (minInc : K) (ps : List K) :
    textPrinted minInc ps = 0 :: textMiddle minInc 0 ps ++
        if (0 :: textMiddle minInc 0 ps).getLast (by simp) = 1 then [] else [1] := by
  have := textCalls_solo minInc 0 ps
  simp only [textPrinted, textSolve, soloRun, soloCall, printedOf, List.flatMap_cons] at this ⊢
  simp only [textFns] at this ⊢
  rw [this]
  simp

theorem textMiddle_chain (minInc last : K) (ps : List K) :
    List.IsChain (fun a b => minInc < b - a ∨ b = 1) (last :: textMiddle minInc last ps) := by
  induction ps generalizing last with
  | nil => simp [textMiddle]
  | cons p ps ih =>
    rcases textStep_cases minInc last p with ⟨h', h⟩ | ⟨-, -, h⟩
    · simp only [textMiddle, h]
      exact List.IsChain.cons_cons h' (ih p)
    · simp only [textMiddle, h]
      exact ih last

/-- **C53.** For every sequence of progress values: what is printed begins with 0% and ends with 100%, and each number
printed is more than `minimum_increase` above the number before it, or is 100%. -/
theorem C53_throttled (minInc : K) (ps : List K) :
    (textPrinted minInc ps).head? = some 0 ∧ (textPrinted minInc ps).getLast? = some 1 ∧
      List.IsChain (fun a b => minInc < b - a ∨ b = 1) (textPrinted minInc ps) := by
  rw [textPrinted_eq]
  refine ⟨rfl, ?_, ?_⟩
  · split
    · rename_i h
      rw [List.append_nil, List.getLast?_eq_getLast_of_ne_nil (by simp), h]
    · rw [List.getLast?_append]; rfl
  · split
    · rw [List.append_nil]
      exact textMiddle_chain minInc 0 ps
    · refine List.IsChain.append (textMiddle_chain minInc 0 ps) (by simp) ?_
      intro a _ b hb
      simp only [List.head?_cons, Option.mem_def, Option.some.injEq] at hb
      exact Or.inr hb.symm

/-- **C53.** The display is never behind by more than `minimum_increase`: after the step with progress `p`, the number
last printed is at least `p - minimum_increase`; and it is one of the progress values so far, or the initial 0. -/
theorem C53_up_to_date (minInc : K) (hm : 0 ≤ minInc) (ps : List K) (p : K) :
    p - (0 :: textMiddle minInc 0 (ps ++ [p])).getLast (by simp) ≤ minInc ∧
      ∀ q ∈ textMiddle minInc 0 (ps ++ [p]), q ∈ ps ++ [p] := by
  constructor
  · suffices h : ∀ last, p - (last :: textMiddle minInc last (ps ++ [p])).getLast (by simp) ≤ minInc from h 0
    induction ps with
    | nil =>
      intro last
      rcases textStep_cases minInc last p with ⟨-, h⟩ | ⟨h', -, h⟩
      · simp only [List.nil_append, textMiddle, h]; simpa using hm
      · simp only [List.nil_append, textMiddle, h]; simpa using h'
    | cons a ps ih =>
      intro last
      rcases textStep_cases minInc last a with ⟨-, h⟩ | ⟨-, -, h⟩
      · simp only [List.cons_append, textMiddle, h]
        rw [List.getLast_cons (by simp)]
        exact ih a
      · simp only [List.cons_append, textMiddle, h]
        exact ih last
  · suffices h : ∀ (ps : List K) (last : K), ∀ q ∈ textMiddle minInc last ps, q ∈ ps from h _ 0
    intro ps
    induction ps with
    | nil => simp [textMiddle]
    | cons a ps ih =>
      intro last q hq
      rcases textStep_cases minInc last a with ⟨-, h⟩ | ⟨-, -, h⟩
      · simp only [textMiddle, h, List.mem_cons] at hq ⊢
        exact hq.imp id (ih a q)
      · simp only [textMiddle, h] at hq
        exact List.mem_cons_of_mem _ (ih last q hq)

theorem textMiddle_append (minInc last : K) (ps qs : List K) :
    textMiddle minInc last (ps ++ qs) = textMiddle minInc last ps ++
      textMiddle minInc ((last :: textMiddle minInc last ps).getLast (by simp)) qs := by
  induction ps generalizing last with
  | nil => simp [textMiddle]
  | cons a ps ih =>
    rcases textStep_cases minInc last a with ⟨-, h⟩ | ⟨-, -, h⟩
    · simp only [List.cons_append, textMiddle, h]
      rw [ih]
      simp
    · simp only [List.cons_append, textMiddle, h]
      exact ih last

theorem textMiddle_mem (minInc : K) (ps : List K) (last : K) : ∀ q ∈ textMiddle minInc last ps, q ∈ ps := by
  induction ps generalizing last with
  | nil => simp [textMiddle]
  | cons a ps ih =>
    intro q hq
    rcases textStep_cases minInc last a with ⟨-, h⟩ | ⟨-, -, h⟩
    · simp only [textMiddle, h, List.mem_cons] at hq ⊢
      exact hq.imp id (ih a q)
    · simp only [textMiddle, h] at hq
      exact List.mem_cons_of_mem _ (ih last q hq)

theorem chain_lt_of {R : K → K → Prop} {l : List K} (h : l.IsChain R)
    (h' : ∀ a b, a ∈ l → b ∈ l → R a b → a < b) : l.IsChain (· < ·) := by
  induction l with
  | nil => exact List.IsChain.nil
  | cons a l ih =>
    cases l with
    | nil => exact List.IsChain.singleton a
    | cons b l =>
      rw [List.isChain_cons_cons] at h ⊢
      exact ⟨h' a b (by simp) (by simp) h.1,
        ih h.2 fun c d hc hd => h' c d (List.mem_cons_of_mem _ hc) (List.mem_cons_of_mem _ hd)⟩

/-- **C53.** If the progress is below 1 except perhaps after the last step, the numbers printed increase strictly, each but
the last by more than `minimum_increase`; in particular 100% is printed exactly once, at the end. -/
theorem C53_increasing (minInc : K) (hm : 0 ≤ minInc) (ps : List K) (hlt : ∀ p ∈ ps.dropLast, p < 1)
    (hle : ∀ p ∈ ps, p ≤ 1) :
    (textPrinted minInc ps).IsChain (· < ·) ∧
      (textPrinted minInc ps).dropLast.IsChain (fun a b => minInc < b - a) ∧
      ∀ q ∈ (textPrinted minInc ps).dropLast, q < 1 := by
  have hL : ∃ L : List K, textPrinted minInc ps = 0 :: L ++ [1] ∧ (∀ q ∈ L, q < 1) ∧
      List.IsChain (fun a b => minInc < b - a ∨ b = 1) (0 :: L) := by
    rw [textPrinted_eq]
    rcases List.eq_nil_or_concat ps with rfl | ⟨qs, p, rfl⟩
    · exact ⟨[], by simp [textMiddle], by simp, by simp⟩
    · rw [List.concat_eq_append] at hlt hle ⊢
      rw [List.dropLast_concat] at hlt
      have hq : ∀ q ∈ textMiddle minInc 0 qs, q < 1 := fun q hq => hlt q (textMiddle_mem minInc qs 0 q hq)
      have hch := textMiddle_chain minInc 0 (qs ++ [p])
      rw [textMiddle_append] at hch ⊢
      rcases textStep_cases minInc ((0 :: textMiddle minInc 0 qs).getLast (by simp)) p with ⟨-, h⟩ | ⟨-, -, h⟩
      · simp only [textMiddle, h] at hch ⊢
        by_cases hp : p = 1
        · subst hp
          refine ⟨textMiddle minInc 0 qs, by simp, hq, ?_⟩
          exact List.IsChain.left_of_append (l₂ := [1]) (by simpa using hch)
        · refine ⟨textMiddle minInc 0 qs ++ [p], by simp [hp], ?_, hch⟩
          intro q hq'
          rcases List.mem_append.1 hq' with h' | h'
          · exact hq q h'
          · rw [List.mem_singleton.1 h']
            exact lt_of_le_of_ne (hle p (by simp)) hp
      · simp only [textMiddle, h, List.append_nil] at hch ⊢
        refine ⟨textMiddle minInc 0 qs, ?_, hq, hch⟩
        rw [if_neg]
        intro h1
        rcases List.mem_cons.1 (List.getLast_mem (l := 0 :: textMiddle minInc 0 qs) (by simp)) with h' | h'
        · rw [h'] at h1; exact zero_ne_one h1
        · exact absurd h1 (hq _ h').ne
  obtain ⟨L, hL, hlt', hch⟩ := hL
  have h0 : ∀ q ∈ (0 :: L), q < 1 := by
    intro q hq
    rcases List.mem_cons.1 hq with rfl | h
    · exact zero_lt_one
    · exact hlt' q h
  have hch' : List.IsChain (fun a b => minInc < b - a) (0 :: L) := by
    have : ∀ (l : List K), (∀ q ∈ l, q < 1) → List.IsChain (fun a b => minInc < b - a ∨ b = 1) l →
        List.IsChain (fun a b => minInc < b - a) l := by
      intro l
      induction l with
      | nil => intro _ _; exact List.IsChain.nil
      | cons a l ih =>
        cases l with
        | nil => intro _ _; exact List.IsChain.singleton a
        | cons b l =>
          intro hl h
          rw [List.isChain_cons_cons] at h ⊢
          refine ⟨h.1.resolve_right (hl b (by simp)).ne, ih (fun q hq => hl q (List.mem_cons_of_mem _ hq)) h.2⟩
    exact this _ h0 hch
  rw [hL, List.dropLast_concat]
  refine ⟨?_, hch', h0⟩
  have hlast : List.IsChain (fun a b => minInc < b - a ∨ (a < 1 ∧ b = 1)) (0 :: L ++ [1]) := by
    refine List.IsChain.append (hch'.imp fun _ _ h => Or.inl h) (by simp) ?_
    intro a ha b hb
    simp only [List.head?_cons, Option.mem_def, Option.some.injEq] at hb
    exact Or.inr ⟨h0 a (List.mem_of_getLast? ha), hb.symm⟩
  refine chain_lt_of hlast ?_
  rintro a b - - (h | ⟨h, rfl⟩)
  · linarith
  · exact h

/-- The progress reported after each attempted step of a solve (`_integrate.py` 412-417). -/
def progressOf {Y E D S C O F : Type} [LinearOrder F] [Zero F] (cfg : Cfg K Y E D S C O F) (y0 : Y) (tnext : K) (ctrl : C)
    (ss : S) (mj : Bool) : List K :=
  (callLog cfg y0 tnext ctrl ss mj).map fun c => linearRescale cfg.t0 (min (c.answer cfg).tprev cfg.t1) cfg.t1

/-- C53 for solves whose steps all start before `t1`. -/
theorem C53_solve_of_lt {Y E D S C O F : Type} [LinearOrder F] [Zero F] (cfg : Cfg K Y E D S C O F)
    (hwf : cfg.WF) (y0 : Y) (tnext : K) (ctrl : C) (ss : S) (mj : Bool)
    (htn : cfg.t0 ≤ tnext)
    (hc : ∀ c ∈ callLog cfg y0 tnext ctrl ss mj, (c.answer cfg).Forward c.ctrlT0 c.ctrlT1)
    (hlt : ∀ c ∈ callLog cfg y0 tnext ctrl ss mj, c.solverT0 < cfg.t1) (minInc : K) (hm : 0 ≤ minInc) :
    (textPrinted minInc (progressOf cfg y0 tnext ctrl ss mj)).head? = some 0 ∧
    (textPrinted minInc (progressOf cfg y0 tnext ctrl ss mj)).getLast? = some 1 ∧
    (textPrinted minInc (progressOf cfg y0 tnext ctrl ss mj)).IsChain (· < ·) ∧
    (textPrinted minInc (progressOf cfg y0 tnext ctrl ss mj)).dropLast.IsChain (fun a b => minInc < b - a) := by
  obtain ⟨h1, h2, -⟩ := C53_throttled minInc (progressOf cfg y0 tnext ctrl ss mj)
  obtain ⟨hin, -, hchain, -⟩ := C01_time_forward cfg hwf y0 tnext ctrl ss mj htn hc
  have hle : ∀ x : K, linearRescale cfg.t0 (min x cfg.t1) cfg.t1 ≤ 1 := by
    intro x
    unfold linearRescale
    by_cases h : cfg.t0 = cfg.t1
    · simp [h]
    · have : 0 < cfg.t1 - cfg.t0 := sub_pos.2 (lt_of_le_of_ne hwf.le h)
      simp only [h, if_false]
      rw [div_le_one this]
      have := min_le_right x cfg.t1
      linarith
  obtain ⟨h3, h4, -⟩ := C53_increasing minInc hm (progressOf cfg y0 tnext ctrl ss mj) (by
      intro p hp
      unfold progressOf at hp
      rw [← List.map_dropLast] at hp
      obtain ⟨c, hc, rfl⟩ := List.mem_map.1 hp
      have hnext : ∀ (l : List (CallLog K Y E S C)), (∀ c ∈ l, c.solverT0 < cfg.t1) →
          List.IsChain (fun c d : CallLog K Y E S C => d.solverT0 = min (c.answer cfg).tprev cfg.t1) l →
          ∀ c ∈ l.dropLast, min (c.answer cfg).tprev cfg.t1 < cfg.t1 := by
        intro l
        induction l with
        | nil => simp
        | cons a l ih =>
          cases l with
          | nil => simp
          | cons b l =>
            intro hl hch c hc
            rw [List.isChain_cons_cons] at hch
            rw [List.dropLast_cons_cons] at hc
            rcases List.mem_cons.1 hc with rfl | hc
            · rw [← hch.1]; exact hl b (by simp)
            · exact ih (fun c hc => hl c (List.mem_cons_of_mem _ hc)) hch.2 c hc
      have hlt' := hnext _ hlt (hchain.imp fun _ _ h => h.1) c hc
      have ht0 : cfg.t0 < cfg.t1 := by
        have hmem := List.mem_of_mem_dropLast hc
        exact lt_of_le_of_lt (hin c hmem).1 (hlt c hmem)
      unfold linearRescale
      simp only [ht0.ne, if_false]
      rw [div_lt_one (sub_pos.2 ht0)]
      linarith)
    (by
      intro p hp
      obtain ⟨c, -, rfl⟩ := List.mem_map.1 hp
      exact hle _)
  exact ⟨h1, h2, h3, h4⟩

/-- **C53.** In a solve, whatever the solver, the controller (other than `StepTo`) and the events, and whether or not it
succeeds, the numbers printed increase strictly from 0% to 100%, each but the last by more than `minimum_increase`. -/
theorem C53_solve {Y E D S C O F : Type} [LinearOrder F] [Zero F] (cfg : Cfg K Y E D S C O F)
    (hst : cfg.controller.stepTo = none) (hwf : cfg.WF) (y0 : Y) (tnext : K) (ctrl : C) (ss : S) (mj : Bool)
    (htn : cfg.t0 ≤ tnext)
    (hc : ∀ c ∈ callLog cfg y0 tnext ctrl ss mj, (c.answer cfg).Forward c.ctrlT0 c.ctrlT1)
    (minInc : K) (hm : 0 ≤ minInc) :
    (textPrinted minInc (progressOf cfg y0 tnext ctrl ss mj)).head? = some 0 ∧
    (textPrinted minInc (progressOf cfg y0 tnext ctrl ss mj)).getLast? = some 1 ∧
    (textPrinted minInc (progressOf cfg y0 tnext ctrl ss mj)).IsChain (· < ·) ∧
    (textPrinted minInc (progressOf cfg y0 tnext ctrl ss mj)).dropLast.IsChain (fun a b => minInc < b - a) := by
  refine C53_solve_of_lt cfg hwf y0 tnext ctrl ss mj htn hc ?_ minInc hm
  rw [log_eq_history]
  intro c hc
  obtain ⟨s, hs, rfl⟩ := List.mem_map.1 hc
  have := attempts_cond cfg _ _ s hs
  simp only [condFun, hst, Bool.and_eq_true, decide_eq_true_eq] at this
  exact this.1

/-! ### Batched solves -/

/-- The lanes of a batched solve, row by row: a lane that has stopped stays stopped; a lane that has stopped had reached the
end, and one that reaches the end stops; and while there are rows, some lane is running. -/
def BatchOK {n : ℕ} : List ((Fin (n + 1) → K) × (Fin (n + 1) → Bool)) → Prop
  | [] => True
  | r :: rest => (∃ i, r.2 i = true) ∧ (∀ i, r.1 i ≤ 1) ∧ (∀ i, r.2 i = false → r.1 i = 1) ∧
      (∀ s ∈ rest.head?, ∀ i, s.2 i = true → r.2 i = true ∧ r.1 i < 1) ∧ BatchOK rest

theorem textBatchRun_chain {n : ℕ} (minInc : K) (hm : 0 ≤ minInc) (rows : List ((Fin (n + 1) → K) × (Fin (n + 1) → Bool)))
    (hrows : BatchOK rows) (last : Fin (n + 1) → K) (a : K)
    (ha : ∀ r ∈ rows.head?, ∀ i, r.2 i = true → a ≤ last i) (ha1 : rows ≠ [] → a < 1) :
    List.IsChain (fun a b => a < b ∧ (minInc < b - a ∨ b = 1)) (a :: textBatchRun minInc last rows) := by
  induction rows generalizing last a with
  | nil => simp [textBatchRun]
  | cons r rest ih =>
    obtain ⟨⟨j, hj⟩, hle, hstop, hnext, hrest⟩ := hrows
    have hrun : ∀ s ∈ rest.head?, ∀ i, s.2 i = true → r.2 i = true ∧ r.1 i < 1 := hnext
    simp only [List.head?_cons, Option.mem_def, Option.some.injEq, forall_eq'] at ha
    have ha1 : a < 1 := ha1 (by simp)
    by_cases hp : ∀ i, minInc < r.1 i - last i ∨ r.1 i = 1
    · have e : textBatch minInc last r.1 r.2 =
          (fun i => if r.2 i then r.1 i else last i, some (Finset.univ.inf' Finset.univ_nonempty r.1)) := by
        unfold textBatch; rw [if_pos hp]
      simp only [textBatchRun, e, Option.toList_some, List.singleton_append]
      obtain ⟨k, -, hk⟩ := Finset.exists_mem_eq_inf' (Finset.univ_nonempty (α := Fin (n + 1))) r.1
      refine List.IsChain.cons_cons ?_ (ih hrest _ _ ?_ ?_)
      · rw [hk]
        rcases hp k with h | h
        · cases hr : r.2 k with
          | true =>
            have := ha k hr
            exact ⟨by linarith, Or.inl (by linarith)⟩
          | false => rw [hstop k hr]; exact ⟨ha1, Or.inr rfl⟩
        · rw [h]; exact ⟨ha1, Or.inr rfl⟩
      · intro s hs i hi
        obtain ⟨h1, -⟩ := hrun s hs i hi
        simp only [h1, if_true]
        exact Finset.inf'_le _ (Finset.mem_univ i)
      · intro hne
        obtain ⟨s, rest', rfl⟩ := List.exists_cons_of_ne_nil hne
        obtain ⟨i, hi⟩ := hrest.1
        exact lt_of_le_of_lt (Finset.inf'_le _ (Finset.mem_univ i)) (hrun s rfl i hi).2
    · have e : textBatch minInc last r.1 r.2 = (last, none) := by unfold textBatch; rw [if_neg hp]
      simp only [textBatchRun, e, Option.toList_none, List.nil_append]
      refine ih hrest last a ?_ fun _ => ha1
      intro s hs i hi
      exact ha i (hrun s hs i hi).1

/-- **C53.** A batched solve in which every lane goes on to the end prints numbers that increase strictly, each more than
`minimum_increase` above the one before or 100%. -/
theorem C53_batched_partial {n : ℕ} (minInc : K) (hm : 0 ≤ minInc)
    (rows : List ((Fin (n + 1) → K) × (Fin (n + 1) → Bool))) (hrows : BatchOK rows) :
    List.IsChain (fun a b => a < b ∧ (minInc < b - a ∨ b = 1)) (0 :: textBatchRun minInc (fun _ => 0) rows) :=
  textBatchRun_chain minInc hm rows hrows _ 0 (fun _ _ _ _ => le_rfl) fun _ => zero_lt_one

end text

/-- **C53 does not hold** for a batched solve in which a lane stops early (through an event or a failure). Its state is
frozen while its progress is computed again and again: the same percentage is printed each time the other lane has moved
by `minimum_increase`. Here the second lane stops at one half, before anything is printed. -/
theorem C53_violated_repeats (minInc : ℚ) (h0 : 0 ≤ minInc) (h1 : minInc < 1 / 2) (qs : List ℚ) (a : ℚ) (ha : 1 / 2 ≤ a + minInc)
    (hqs : List.IsChain (fun a b => minInc < b - a) (a :: qs)) :
    textBatchRun minInc ![a, 0] (qs.map fun q => ((![q, 1 / 2] : Fin 2 → ℚ), (![true, false] : Fin 2 → Bool))) =
      List.replicate qs.length (1 / 2) := by
  induction qs generalizing a with
  | nil => rfl
  | cons q qs ih =>
    rw [List.isChain_cons_cons] at hqs
    have e : textBatch minInc ![a, 0] (![q, 1 / 2] : Fin 2 → ℚ) ![true, false] = (![q, 0], some (1 / 2)) := by
      unfold textBatch
      rw [if_pos]
      · have hq : (1 : ℚ) / 2 ≤ q := by linarith [hqs.1]
        refine Prod.ext ?_ (congrArg some ?_)
        · funext i
          match i with
          | 0 => simp
          | 1 => simp
        · apply le_antisymm
          · exact Finset.inf'_le _ (Finset.mem_univ (1 : Fin 2))
          · apply Finset.le_inf'
            intro i _
            match i with
            | 0 => simpa using hq
            | 1 => simp
      · intro i
        match i with
        | 0 => left; simpa using hqs.1
        | 1 => left; simpa using h1
    simp only [List.map_cons, textBatchRun, e, Option.toList_some, List.singleton_append, List.length_cons,
      List.replicate_succ]
    rw [ih q ?_ hqs.2]
    linarith [hqs.1]

/-- It may also happen that nothing is printed any more, however far the other lane goes. Here the second lane stops just
after the number 1/2 has been printed. -/
theorem C53_violated_silent (minInc : ℚ) (h1 : 1 / 100 ≤ minInc) (qs : List ℚ) (a : ℚ) :
    textBatchRun minInc ![a, 1 / 2] (qs.map fun q =>
      ((![q, 51 / 100] : Fin 2 → ℚ), (![true, false] : Fin 2 → Bool))) = [] := by
  induction qs with
  | nil => rfl
  | cons q qs ih =>
    have e : textBatch minInc ![a, 1 / 2] (![q, 51 / 100] : Fin 2 → ℚ) ![true, false] = (![a, 1 / 2], none) := by
      unfold textBatch
      rw [if_neg]
      intro h
      rcases h 1 with h | h <;> norm_num at h
      linarith
    simp only [List.map_cons, textBatchRun, e, Option.toList_none, List.nil_append]
    exact ih

/-- For a single solve the requirement that the progress is 1 only after the last step is needed: otherwise 100% is printed
again and again. -/
theorem C53_ones (minInc : ℚ) (k : ℕ) : textPrinted minInc (List.replicate (k + 1) 1) = 0 :: List.replicate (k + 1) 1 := by
  have h : ∀ (k : ℕ) (a : ℚ), textMiddle minInc a (List.replicate k 1) = List.replicate k 1 := by
    intro k
    induction k with
    | zero => intro a; rfl
    | succ k ih =>
      intro a
      have e : textStep minInc a 1 = (1, some 1) := by simp [textStep]
      simp only [List.replicate_succ, textMiddle, e, ih]
  rw [textPrinted_eq, h]
  simp [List.replicate_succ']

/-! ### Examples -/

example : textPrinted (1 / 10 : ℚ) [1 / 20, 3 / 10, 7 / 20, 19 / 20, 1] = [0, 3 / 10, 19 / 20, 1] := by
  norm_num [textPrinted, textSolve, textCalls, textStep, soloRun, soloCall, textFns, printedOf]

example : (∀ p ∈ ([1 / 20, 3 / 10, 7 / 20, 19 / 20, 1] : List ℚ).dropLast, p < 1) ∧
    ∀ p ∈ ([1 / 20, 3 / 10, 7 / 20, 19 / 20, 1] : List ℚ), p ≤ 1 := by
  norm_num [List.dropLast]

/-- Two solves, interleaved. -/
example : ∀ τ : Bool, callsOf τ ([(true, .init), (false, .init), (false, .step (1 / 2)), (true, .step 1),
    (true, .close), (false, .close)] : List (Bool × MeterCall ℚ)) = [] ∨ IsSolve (callsOf τ
    ([(true, .init), (false, .init), (false, .step (1 / 2)), (true, .step 1), (true, .close), (false, .close)] :
      List (Bool × MeterCall ℚ))) := by
  intro τ
  right
  cases τ with
  | true => exact ⟨[1], [], rfl⟩
  | false => exact ⟨[1 / 2], [], rfl⟩

example : BatchOK ([(![1 / 4, 1], ![true, true]), (![1, 1], ![true, false])] :
    List ((Fin 2 → ℚ) × (Fin 2 → Bool))) := by
  refine ⟨⟨0, rfl⟩, ?_, ?_, ?_, ⟨0, rfl⟩, ?_, ?_, ?_, trivial⟩
  all_goals (simp [Fin.forall_fin_two] <;> norm_num)

example : List.IsChain (fun a b : ℚ => 1 / 50 < b - a) (1 / 2 :: [3 / 5, 4 / 5]) := by norm_num

/-- A controller that accepts every step and asks for steps of length 3/10. -/
def tenths : Controller ℚ ℚ ℚ Unit where
  adapt _ b _ _ _ c :=
    { keep := true, tprev := b, tnext := b + 3 / 10, madeJump := false, state := c, result := .successful }

example : (constCfg Unit tenths).controller.stepTo = none ∧ (constCfg Unit tenths).WF ∧
    (constCfg Unit tenths).t0 ≤ 3 / 10 ∧
    (∀ c ∈ callLog (constCfg Unit tenths) 0 (3 / 10) () 0 false,
      (c.answer (constCfg Unit tenths)).Forward c.ctrlT0 c.ctrlT1) ∧
    progressOf (constCfg Unit tenths) 0 (3 / 10) () 0 false = [3 / 10, 3 / 5, 9 / 10, 1] := by
  refine ⟨rfl, ⟨?_, ?_, ?_, ?_⟩, ?_, ?_, by decide +kernel⟩
  · norm_num [constCfg]
  · norm_num [constCfg]
  · intro a h; simp only [constCfg] at *; linarith
  · intro a h; simp only [constCfg] at *; linarith
  · norm_num [constCfg]
  · intro c _
    refine ⟨fun _ => le_rfl, fun h => (by cases h), ?_⟩
    simp only [CallLog.answer, constCfg, tenths]
    linarith

end Verif
