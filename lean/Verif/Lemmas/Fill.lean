import Verif.Model.Fill
import Verif.Spec.Interp
import Mathlib.Tactic.Ring
import Mathlib.Tactic.FieldSimp

/-! # Helper lemmas: filling of missing data -/

set_option linter.unusedSectionVars false

namespace Verif

variable {α K : Type}

theorem fillScan_length (last : Option α) (ys : List (Option α)) :
    (fillScan last ys).length = ys.length := by
  induction ys generalizing last with
  | nil => rfl
  | cons y ys ih => simp [fillScan, ih]

theorem lastSome_cons (y : Option α) (l : List (Option α)) :
    lastSome (y :: l) = match lastSome l with
      | some v => some v
      | none => y := by
  unfold lastSome
  cases y with
  | none =>
    rw [List.filterMap_cons_none rfl]
    cases (List.filterMap id l).getLast? <;> rfl
  | some v =>
    rw [List.filterMap_cons_some (f := id) rfl]
    cases (List.filterMap id l) with
    | nil => rfl
    | cons a t => rw [List.getLast?_cons_cons, List.getLast?_eq_some_getLast (List.cons_ne_nil a t)]

theorem fillScan_get (last : Option α) (ys : List (Option α)) (i : Nat) (hi : i < ys.length) :
    (fillScan last ys)[i]? = some (match lastSome (ys.take (i + 1)) with
      | some v => some v
      | none => last) := by
  induction ys generalizing last i with
  | nil => simp at hi
  | cons y ys ih =>
    cases i with
    | zero =>
      simp only [fillScan, List.getElem?_cons_zero, Nat.zero_add, List.take_succ_cons, List.take_zero]
      cases y <;> rfl
    | succ i =>
      simp only [fillScan, List.getElem?_cons_succ, List.take_succ_cons]
      rw [ih _ i (by simpa using hi), lastSome_cons]
      cases lastSome (List.take (i + 1) ys) with
      | some v => rfl
      | none => cases y <;> rfl

section
variable [Field K] [LinearOrder K]

theorem revScan_length (c : K × Option K) (l : List (K × Option K)) :
    (revScan c l).length = l.length := by
  induction l with
  | nil => rfl
  | cons v vs ih => simp [revScan, ih]

theorem observations_cons (v : K × Option K) (l : List (K × Option K)) :
    observations (v :: l) = match v.2 with
      | none => observations l
      | some y => (v.1, y) :: observations l := by
  obtain ⟨t, y⟩ := v
  cases y <;> simp [observations]

theorem observations_append (a b : List (K × Option K)) :
    observations (a ++ b) = observations a ++ observations b := by
  simp [observations]

theorem revScan_get (c : K × Option K) (l : List (K × Option K)) (i : Nat) (hi : i < l.length) :
    (revScan c l)[i]? = some (match (observations (l.drop i)).head? with
      | some (t, y) => (t, some y)
      | none => c) := by
  induction l generalizing i with
  | nil => simp at hi
  | cons v vs ih =>
    cases i with
    | zero =>
      simp only [revScan, List.getElem?_cons_zero, List.drop_zero]
      rw [observations_cons]
      cases hv : v.2 with
      | some y => rfl
      | none =>
        simp only
        cases vs with
        | nil => simp [revScan, observations]
        | cons w ws =>
          have := ih 0 (by simp)
          rw [List.drop_zero] at this
          rw [← this]
          cases hr : revScan c (w :: ws) with
          | nil => have := revScan_length c (w :: ws); rw [hr] at this; simp at this
          | cons a b => simp
    | succ i =>
      simp only [revScan, List.getElem?_cons_succ, List.drop_succ_cons]
      exact ih i (by simpa using hi)

/-- One output of `linScan`, given the carry before it. -/
def linValue (c : K × Option K) (v n : K × Option K) : Option K :=
  let c' : K × Option K := match v.2 with
    | some y => (v.1, some y)
    | none => c
  let div : K := match v.2 with
    | none => n.1 - c'.1
    | some _ => 1
  do
    let cy ← c'.2
    let ny ← n.2
    pure (cy + (ny - cy) * (v.1 - c'.1) / div)

/-- The carry: the last observation, if any. -/
def lastObsOr (c : K × Option K) (l : List (K × Option K)) : K × Option K :=
  match (observations l).getLast? with
  | some (t, y) => (t, some y)
  | none => c

theorem lastObsOr_cons (c v : K × Option K) (l : List (K × Option K)) :
    lastObsOr c (v :: l) = lastObsOr (match v.2 with | none => c | some y => (v.1, some y)) l := by
  obtain ⟨t, y⟩ := v
  unfold lastObsOr
  rw [observations_cons]
  cases y with
  | none => rfl
  | some y =>
    cases hob : observations l with
    | nil => rfl
    | cons a b =>
      simp only [List.getLast?_cons_cons]
      rw [List.getLast?_eq_some_getLast (List.cons_ne_nil a b)]

theorem linScan_get (c : K × Option K) (l : List ((K × Option K) × (K × Option K))) (i : Nat)
    (v n : K × Option K) (hi : l[i]? = some (v, n)) :
    (linScan c l)[i]? = some (linValue (lastObsOr c ((l.take i).map Prod.fst)) v n) := by
  induction l generalizing c i with
  | nil => simp at hi
  | cons w vs ih =>
    obtain ⟨⟨t, y⟩, ⟨nt', ny'⟩⟩ := w
    cases i with
    | zero =>
      simp only [List.getElem?_cons_zero, Option.some.injEq, Prod.mk.injEq] at hi
      obtain ⟨rfl, rfl⟩ := hi
      cases y <;> rfl
    | succ i =>
      simp only [List.getElem?_cons_succ] at hi
      simp only [linScan, List.getElem?_cons_succ]
      rw [ih _ i hi, List.take_succ_cons, List.map_cons, lastObsOr_cons]
      cases y <;> rfl

theorem linScan_length (c : K × Option K) (l : List ((K × Option K) × (K × Option K))) :
    (linScan c l).length = l.length := by
  induction l generalizing c with
  | nil => rfl
  | cons v vs ih =>
    obtain ⟨⟨t, y⟩, ⟨nt', ny'⟩⟩ := v
    simp [linScan, ih]

/-- After the last observation the forward-filled "next value" is the last observation. -/
theorem revScan_lastSome (c : K × Option K) (hc : c.2 = none) (l : List (K × Option K)) (k : Nat)
    (hno : observations (l.drop k) = []) :
    lastSome (((revScan c l).map Prod.snd).take k)
      = ((observations (l.take k)).getLast?).map Prod.snd := by
  induction l generalizing k with
  | nil => simp [revScan, lastSome, observations]
  | cons v vs ih =>
    cases k with
    | zero => simp [lastSome, observations]
    | succ k =>
      rw [List.drop_succ_cons] at hno
      simp only [revScan, List.map_cons, List.take_succ_cons, lastSome_cons, observations_cons]
      rw [ih k hno]
      cases hob : (observations (vs.take k)).getLast? with
      | some q =>
        cases hv : v.2 with
        | none => simp [hob]
        | some y =>
          cases hl : observations (vs.take k) with
          | nil => rw [hl] at hob; simp at hob
          | cons a b => rw [hl] at hob; simp [List.getLast?_cons_cons, hob]
      | none =>
        rw [List.getLast?_eq_none_iff] at hob
        cases hv : v.2 with
        | some y => simp [hob]
        | none =>
          simp only [Option.map_none, hob, List.getLast?_nil]
          cases vs with
          | nil => simpa [revScan] using hc
          | cons w ws =>
            have hall : observations (w :: ws) = [] := by
              rw [← List.take_append_drop k (w :: ws), observations_append, hob, hno]; rfl
            have := revScan_get c (w :: ws) 0 (by simp)
            rw [List.drop_zero, hall] at this
            simp only [List.head?_nil] at this
            cases hr : revScan c (w :: ws) with
            | nil => rw [hr] at this; simp at this
            | cons a b =>
              rw [hr] at this
              simp only [List.getElem?_cons_zero, Option.some.injEq] at this
              simp [this, hc]

end
end Verif
