import Verif.Spec.EventRoot
import Verif.Props.Event

/-!
# The time of an event: C111
-/

set_option linter.unusedSectionVars false

namespace Verif

variable {T Y E D S C O F : Type} [LinearOrder T] [LinearOrder F] [Zero F]

/-- The value of the condition `e` handed to the root finder, if it is the one that decides. -/
def rootValue (cfg : Cfg T Y E D S C O F) (s : Core T Y D S C F) (t : T) (e : EventCond T Y F) : F :=
  match e with
  | .bool _ => cfg.dist s.tnext t
  | .flt c _ => c t (cfg.solver.interp s.tprev s.tnext (solverOut cfg s).dense t)

/-- The first condition that triggers on the last step decides alone: all values handed to the root finder vanish
exactly where this condition locates the event. -/
theorem root_problem (cfg : Cfg T Y E D S C O F) (hdist : ∀ a b, cfg.dist a b = 0 ↔ a = b)
    (y0 : Y) (tnext : T) (ctrl : C) (ss : S) (mj : Bool)
    (s : Core T Y D S C F) (hs : s ∈ history cfg y0 tnext ctrl ss mj)
    (i : Nat) (e : EventCond T Y F) (he : cfg.events[i]? = some e)
    (hi : ShouldTrigger e s.tprev s.y (nextT cfg s) (nextY cfg s))
    (hfirst : ∀ (j : Nat) (e' : EventCond T Y F), j < i → cfg.events[j]? = some e' →
      ¬ ShouldTrigger e' s.tprev s.y (nextT cfg s) (nextY cfg s)) (t : T) :
    (∀ x ∈ toRootFind cfg (coreBody cfg s).1 true t, x = 0) ↔
      e.LocatedAt (cfg.solver.interp s.tprev s.tnext (solverOut cfg s).dense) s.tnext t := by
  have htr : ∀ (j : Nat) (e' : EventCond T Y F), cfg.events[j]? = some e' → ((triggered cfg s)[j]? = some true ↔
      ShouldTrigger e' s.tprev s.y (nextT cfg s) (nextY cfg s)) := by
    intro j e' he'
    rw [triggered_get cfg y0 tnext ctrl ss mj s hs, List.getElem?_map, he', Option.map_some, ← triggers_iff]
    simp
  have hmi : (coreBody cfg s).1.evMask[i]? = some true := by
    rw [coreBody_mask, firstTrue_get]
    refine ⟨(htr i e he).2 hi, fun j hj hjt => ?_⟩
    have hlt : i < cfg.events.length := (List.getElem?_eq_some_iff.1 he).1
    have hej : cfg.events[j]? = some (cfg.events[j]'(by omega)) := List.getElem?_eq_getElem (by omega)
    exact hfirst j _ hj hej ((htr j _ hej).1 hjt)
  have hone : ∀ j : Nat, (coreBody cfg s).1.evMask[j]? = some true → j = i := by
    intro j hj
    rw [coreBody_mask, firstTrue_get] at hj hmi
    rcases Nat.lt_trichotomy j i with h | h | h
    · exact absurd hj.1 (hmi.2 j h)
    · exact h
    · exact absurd hmi.1 (hj.2 i h)
  have hget : ∀ j : Nat, (toRootFind cfg (coreBody cfg s).1 true t)[j]? =
      match (coreBody cfg s).1.evMask[j]?, cfg.events[j]? with
      | some m, some e' => some (if m then rootValue cfg s t e' else 0)
      | _, _ => none := by
    intro j
    unfold toRootFind
    rw [List.getElem?_zipWith]
    cases (coreBody cfg s).1.evMask[j]? <;> cases cfg.events[j]? <;> rfl
  have hat : (toRootFind cfg (coreBody cfg s).1 true t)[i]? = some (rootValue cfg s t e) := by
    rw [hget, hmi, he]
    rfl
  have hloc : rootValue cfg s t e = 0 ↔
      e.LocatedAt (cfg.solver.interp s.tprev s.tnext (solverOut cfg s).dense) s.tnext t := by
    cases e with
    | bool c => exact (hdist _ _).trans eq_comm
    | flt c d => exact Iff.rfl
  rw [← hloc]
  constructor
  · intro h
    exact h _ (List.mem_of_getElem? hat)
  · intro h x hx
    obtain ⟨j, hj⟩ := List.mem_iff_getElem?.1 hx
    by_cases hji : j = i
    · subst hji
      rw [hat] at hj
      rw [← Option.some.inj hj]
      exact h
    · rw [hget] at hj
      cases hm : (coreBody cfg s).1.evMask[j]? with
      | none => rw [hm] at hj; simp at hj
      | some m =>
        cases hev : cfg.events[j]? with
        | none => rw [hm, hev] at hj; simp at hj
        | some e' =>
          cases m with
          | true => exact absurd (hone j hm) hji
          | false =>
            rw [hm, hev] at hj
            simpa using hj.symm

theorem finalise_event (cfg : Cfg T Y E D S C O F) (f) (hroot : cfg.rootFinder = some f)
    (y0 : Y) (tnext : T) (ctrl : C) (ss : S) (mj : Bool)
    (s : Core T Y D S C F) (hl : (history cfg y0 tnext ctrl ss mj).getLast? = some s)
    (htr : ∃ e ∈ cfg.events, ShouldTrigger e s.tprev s.y (nextT cfg s) (nextY cfg s)) :
    let out := solve cfg y0 tnext ctrl ss mj
    let r := f (toRootFind cfg (coreBody cfg s).1 true) s.tprev s.tnext
    out.tfinal = r.1 ∧ out.yfinal = cfg.solver.interp s.tprev s.tnext (solverOut cfg s).dense r.1 ∧
      out.result = r.2.getD .eventOccurred := by
  dsimp only
  have hs : s ∈ history cfg y0 tnext ctrl ss mj := List.mem_of_getLast? hl
  have htr' : (triggered cfg s).any id = true := by
    rw [triggered_get cfg y0 tnext ctrl ss mj s hs]
    simp only [List.any_map, List.any_eq_true, Function.comp, id]
    obtain ⟨e, he, h⟩ := htr
    exact ⟨e, he, (triggers_iff e _ _ _ _).2 h⟩
  have hcore : (solve cfg y0 tnext ctrl ss mj).core = (coreBody cfg s).1 := by
    rw [solve_core, coreRun_eq_last]
    unfold history at hl
    rw [hl]
  have hm : (coreBody cfg s).1.evMask.any id = true := by
    rw [coreBody_mask, firstTrue_any]; exact htr'
  have hns : ¬ (coreBody cfg s).1.numSteps = 0 := by rw [coreBody_numSteps]; omega
  have hres := coreBody_result cfg s (condFun_succ cfg s (attempts_cond _ _ _ _ hs))
  rw [htr', if_pos rfl] at hres
  have hcf : condFun cfg (coreBody cfg s).1 = false := by
    simp [condFun, hres, Result.isSuccessful]
  rw [solve_result, solve_yfinal, solve_tfinal, hcore, hcf]
  unfold finalise
  rw [hroot]
  simp only [hm, if_true, if_neg hns, Bool.false_eq_true, if_false, hres]
  refine ⟨rfl, rfl, ?_⟩
  have e2 : (coreBody cfg s).1.evTprev = s.tprev := rfl
  have e3 : (coreBody cfg s).1.evTnext = s.tnext := rfl
  rw [e2, e3]
  cases (f (toRootFind cfg (coreBody cfg s).1 true) s.tprev s.tnext).2 <;> rfl

/-- **C111**: if a solve with a root finder reports an event on the step from `s.tprev` to `s.tnext`, and the `i`-th
condition is the first that triggered on it, then the event is where this condition alone puts it: a real-valued
condition is zero at the reported time and value; for a boolean one the reported time is the end of the step. The
other conditions have no influence, whether they triggered as well or not. -/
theorem C111_event_time (cfg : Cfg T Y E D S C O F) (hown : cfg.OwnCodes) (f) (hroot : cfg.rootFinder = some f)
    (hf : FindsRoots f) (hdist : ∀ a b, cfg.dist a b = 0 ↔ a = b)
    (y0 : Y) (tnext : T) (ctrl : C) (ss : S) (mj : Bool)
    (s : Core T Y D S C F) (hl : (history cfg y0 tnext ctrl ss mj).getLast? = some s)
    (i : Nat) (e : EventCond T Y F) (he : cfg.events[i]? = some e)
    (hi : ShouldTrigger e s.tprev s.y (nextT cfg s) (nextY cfg s))
    (hfirst : ∀ (j : Nat) (e' : EventCond T Y F), j < i → cfg.events[j]? = some e' →
      ¬ ShouldTrigger e' s.tprev s.y (nextT cfg s) (nextY cfg s))
    (hocc : (solve cfg y0 tnext ctrl ss mj).result = .eventOccurred) :
    e.LocatedAt (fun _ => (solve cfg y0 tnext ctrl ss mj).yfinal) s.tnext (solve cfg y0 tnext ctrl ss mj).tfinal := by
  have hs : s ∈ history cfg y0 tnext ctrl ss mj := List.mem_of_getLast? hl
  obtain ⟨h1, h2, h3⟩ := finalise_event cfg f hroot y0 tnext ctrl ss mj s hl ⟨e, List.mem_of_getElem? he, hi⟩
  have hnone : (f (toRootFind cfg (coreBody cfg s).1 true) s.tprev s.tnext).2 = none := by
    cases hr : (f (toRootFind cfg (coreBody cfg s).1 true) s.tprev s.tnext).2 with
    | none => rfl
    | some r =>
      rw [h3, hr] at hocc
      exact absurd hocc (hown.root f (by rw [hroot]; rfl) _ _ _ r hr).2.1
  have hz := (root_problem cfg hdist y0 tnext ctrl ss mj s hs i e he hi hfirst _).1 (hf _ _ _ hnone)
  rw [← h1] at hz h2
  rw [h2]
  cases e with
  | bool c => exact hz
  | flt c d => exact hz

/-- **C111**: with a root finder that finds roots between the ends of the step, the solve reports the event whenever
there is such a root: if the first condition that triggered is boolean, always; if it is real-valued, as soon as it
vanishes somewhere on the interpolation of the step. -/
theorem C111_reported (cfg : Cfg T Y E D S C O F) (f) (hroot : cfg.rootFinder = some f)
    (hf : FindsIfAny f) (hdist : ∀ a b, cfg.dist a b = 0 ↔ a = b)
    (y0 : Y) (tnext : T) (ctrl : C) (ss : S) (mj : Bool)
    (s : Core T Y D S C F) (hl : (history cfg y0 tnext ctrl ss mj).getLast? = some s)
    (hle : s.tprev ≤ s.tnext)
    (i : Nat) (e : EventCond T Y F) (he : cfg.events[i]? = some e)
    (hi : ShouldTrigger e s.tprev s.y (nextT cfg s) (nextY cfg s))
    (hfirst : ∀ (j : Nat) (e' : EventCond T Y F), j < i → cfg.events[j]? = some e' →
      ¬ ShouldTrigger e' s.tprev s.y (nextT cfg s) (nextY cfg s))
    (hex : ∀ c d, e = .flt c d → ∃ t, s.tprev ≤ t ∧ t ≤ s.tnext ∧
      c t (cfg.solver.interp s.tprev s.tnext (solverOut cfg s).dense t) = 0) :
    (solve cfg y0 tnext ctrl ss mj).result = .eventOccurred := by
  have hs : s ∈ history cfg y0 tnext ctrl ss mj := List.mem_of_getLast? hl
  obtain ⟨-, -, h3⟩ := finalise_event cfg f hroot y0 tnext ctrl ss mj s hl ⟨e, List.mem_of_getElem? he, hi⟩
  have key := root_problem cfg hdist y0 tnext ctrl ss mj s hs i e he hi hfirst
  have : ∃ t, s.tprev ≤ t ∧ t ≤ s.tnext ∧ ∀ x ∈ toRootFind cfg (coreBody cfg s).1 true t, x = 0 := by
    cases e with
    | bool c => exact ⟨s.tnext, hle, le_refl _, (key _).2 rfl⟩
    | flt c d =>
      obtain ⟨t, a, b, h⟩ := hex c d rfl
      exact ⟨t, a, b, (key t).2 h⟩
  rw [h3, hf _ _ _ this]
  rfl

theorem toyRoot_finds : FindsRoots toyRoot ∧ FindsIfAny toyRoot := by
  constructor
  · intro g a b h x hx
    unfold toyRoot at h hx
    cases hk : (List.range (b - a + 1).toNat).find? (fun k => (g (a + k)).all (· == 0)) with
    | none => rw [hk] at h; simp at h
    | some k =>
      rw [hk] at hx
      have := List.find?_some hk
      rw [List.all_eq_true] at this
      simpa using this x hx
  · rintro g a b ⟨t, h1, h2, h3⟩
    unfold toyRoot
    cases hk : (List.range (b - a + 1).toNat).find? (fun k => (g (a + k)).all (· == 0)) with
    | some k => rfl
    | none =>
      rw [List.find?_eq_none] at hk
      have := hk (t - a).toNat (by
        rw [List.bind_eq_flatMap, List.mem_flatMap]
        exact ⟨(t - a).toNat, by rw [List.mem_range]; omega, by simp⟩)
      have e : a + ((t - a).toNat : Int) = t := by omega
      rw [e] at this
      exact absurd (List.all_eq_true.2 fun x hx => by simpa using h3 x hx) this

/-- Non-vacuity: the event at time 4 on the step from 3 to 5. -/
example : (∀ a b, toyEventCfg.dist a b = 0 ↔ a = b) ∧ FindsRoots toyRoot ∧ FindsIfAny toyRoot ∧
    ∃ s, (history toyEventCfg 100 3 0 0 false).getLast? = some s ∧ (triggered toyEventCfg s).any id = true ∧
    (solve toyEventCfg 100 3 0 0 false).result = .eventOccurred ∧
    (solve toyEventCfg 100 3 0 0 false).tfinal = 4 := by
  refine ⟨fun a b => ?_, toyRoot_finds.1, toyRoot_finds.2, _, rfl, by decide, by decide, by decide⟩
  show a - b = 0 ↔ a = b
  omega

end Verif
