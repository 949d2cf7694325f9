import Verif.Model.EventNan
import Verif.Spec.Loop
import Mathlib.Algebra.Order.Ring.Rat
import Mathlib.Tactic.Linarith

/-!
# NaN values of event conditions: C115
-/

namespace Verif

variable {K : Type} [Field K] [LinearOrder K] [IsStrictOrderedRing K]

/-- The sign of a floating point value that is not NaN. -/
def XVal.IsPos : XVal K → Prop
  | .fin x => 0 < x
  | .pinf => True
  | _ => False

/-- Negative. -/
def XVal.IsNeg : XVal K → Prop
  | .fin x => x < 0
  | .ninf => True
  | _ => False

/-- **C115** (partial): numbers and infinities. The condition triggers exactly if it leaves the strict sign it had (`None`), becomes
positive (`True`), or ceases to be positive (`False`). Missing: NaN, see `C115_violated` and `C115_nan`. -/
theorem C115_numbers_partial (old new : XVal K) (ho : old ≠ .nan) (hn : new ≠ .nan) :
    (condTriggers none old new = true ↔ ¬ ((old.IsPos ↔ new.IsPos) ∧ (old.IsNeg ↔ new.IsNeg))) ∧
    (condTriggers (some true) old new = true ↔ ¬ old.IsPos ∧ new.IsPos) ∧
    (condTriggers (some false) old new = true ↔ old.IsPos ∧ ¬ new.IsPos) := by
  have h10 : ¬ (1 : K) ≤ 0 := not_le.2 one_pos
  have hm1 : (-1 : K) ≤ 0 := by linarith [one_pos (α := K)]
  have hm0 : (-1 : K) ≠ 0 := neg_ne_zero.2 one_ne_zero
  have hmm : (-1 : K) ≠ 1 := by
    intro h
    have := one_pos (α := K)
    linarith
  have hlt : ¬ (0 : K) < -1 := not_lt.2 hm1
  have key : ∀ v : XVal K, v ≠ .nan →
      (v.sign = .fin 1 ∧ v.IsPos ∧ ¬ v.IsNeg) ∨ (v.sign = .fin (-1) ∧ ¬ v.IsPos ∧ v.IsNeg) ∨ (v.sign = .fin 0 ∧ ¬ v.IsPos ∧ ¬ v.IsNeg) := by
    intro v hv
    cases v with
    | nan => exact absurd rfl hv
    | ninf => exact .inr (.inl ⟨rfl, id, trivial⟩)
    | pinf => exact .inl ⟨rfl, trivial, id⟩
    | fin x =>
      simp only [XVal.sign, XVal.IsPos, XVal.IsNeg]
      rcases lt_trichotomy x 0 with h | h | h
      · exact .inr (.inl ⟨by rw [if_pos h], h.not_gt, h⟩)
      · exact .inr (.inr ⟨by simp [h], by simp [h], by simp [h]⟩)
      · exact .inl ⟨by rw [if_neg h.not_gt, if_pos h], h, h.not_gt⟩
  rcases key old ho with ⟨a1, a2, a3⟩ | ⟨a1, a2, a3⟩ | ⟨a1, a2, a3⟩ <;>
    rcases key new hn with ⟨b1, b2, b3⟩ | ⟨b1, b2, b3⟩ | ⟨b1, b2, b3⟩ <;>
    simp [condTriggers, a1, a2, a3, b1, b2, b3, XVal.ne, XVal.le, XVal.lt, h10, hm1, hm0, hmm, hmm.symm, hm0.symm, hlt]

/-- **C115**: with NaN before or after the step, an event in both directions always triggers, and one in a single direction
never. -/
theorem C115_nan (old new : XVal K) (h : old = .nan ∨ new = .nan) :
    condTriggers none old new = true ∧ condTriggers (some true) old new = false ∧ condTriggers (some false) old new = false := by
  rcases h with rfl | rfl
  · exact ⟨rfl, rfl, rfl⟩
  · cases old <;> refine ⟨rfl, ?_, ?_⟩ <;> simp [condTriggers, XVal.sign, XVal.lt, XVal.le]

/-- **C115** (violated): a condition that is positive whenever it is a number ends the solve (with `direction=None`) on the first
attempt after which it is NaN; and a crossing is missed (with `direction=True` or `False`) if the condition is NaN on any number
of steps between its two signs. -/
theorem C115_violated (pos : List K) (hpos : ∀ x ∈ pos, 0 < x) (v w : K) (hv : 0 < v) (_hw : w < 0) (n : ℕ) (rest : List (XVal K)) :
    firstEvent none (.fin v) (pos.map .fin ++ .nan :: rest) = some pos.length ∧
    firstEvent (some true) (.fin w) (List.replicate (n + 1) .nan ++ [.fin v]) = none ∧
    firstEvent (some false) (.fin v) (List.replicate (n + 1) .nan ++ [.fin w]) = none := by
  refine ⟨?_, ?_, ?_⟩
  · induction pos generalizing v with
    | nil => rfl
    | cons x xs ih =>
      have hx := hpos x List.mem_cons_self
      have hq : condTriggers none (.fin v) (.fin x) = false := by
        rw [← Bool.not_eq_true, (C115_numbers_partial _ _ (by simp) (by simp)).1, not_not]
        exact ⟨⟨fun _ => hx, fun _ => hv⟩, ⟨fun h => absurd h hv.not_gt, fun h => absurd h hx.not_gt⟩⟩
      simp only [List.map_cons, List.cons_append, firstEvent, hq, List.length_cons]
      rw [ih (fun y hy => hpos y (List.mem_cons_of_mem _ hy)) x hx]
      rfl
  · have h : ∀ n, firstEvent (some true) (.nan : XVal K) (List.replicate n .nan ++ [.fin v]) = none := by
      intro n
      induction n with
      | zero => rfl
      | succ n ih =>
        simp only [List.replicate_succ, List.cons_append, firstEvent, (C115_nan (.nan : XVal K) .nan (.inl rfl)).2.1, ih]
        rfl
    simp only [List.replicate_succ, List.cons_append, firstEvent, (C115_nan (.fin w) .nan (.inr rfl)).2.1, h]
    rfl
  · have h : ∀ n, firstEvent (some false) (.nan : XVal K) (List.replicate n .nan ++ [.fin w]) = none := by
      intro n
      induction n with
      | zero => rfl
      | succ n ih =>
        simp only [List.replicate_succ, List.cons_append, firstEvent, (C115_nan (.nan : XVal K) .nan (.inl rfl)).2.2, ih]
        rfl
    simp only [List.replicate_succ, List.cons_append, firstEvent, (C115_nan (.fin v) .nan (.inr rfl)).2.2, h]
    rfl

/-- The condition of `Model/Loop` is the one here, for numbers. -/
theorem condTriggers_loop {T Y : Type} (c : T → Y → K) (dir : Option Bool) (old : K) (t : T) (y : Y) :
    (EventCond.flt c dir).triggers (.flt old) t y = condTriggers dir (.fin old) (.fin (c t y)) := by
  have hs : ∀ x : K, (XVal.fin x).sign = .fin ((sgn x : Int) : K) := by
    intro x
    simp only [XVal.sign, sgn]
    rcases lt_trichotomy x 0 with h | h | h
    · simp [h, h.not_gt]
    · simp [h]
    · simp [h, h.not_gt]
  match dir with
  | none => simp [EventCond.triggers, condTriggers, hs, XVal.ne]
  | some true => simp [EventCond.triggers, condTriggers, hs, XVal.le, XVal.lt]
  | some false => simp [EventCond.triggers, condTriggers, hs, XVal.le, XVal.lt]

example : firstEvent none (.fin (1 : ℚ)) [.fin 2, .fin 3, .nan, .fin 1] = some 2 :=
  (C115_violated [2, 3] (by norm_num) (1 : ℚ) (-1) (by norm_num) (by norm_num) 0 [.fin 1]).1
example : firstEvent (some true) (.fin (-1 : ℚ)) [.nan, .nan, .fin 1] = none :=
  (C115_violated [2, 3] (by norm_num) (1 : ℚ) (-1) (by norm_num) (by norm_num) 1 []).2.1
example : condTriggers (some true) (.ninf : XVal ℚ) .pinf = true := by decide

end Verif
