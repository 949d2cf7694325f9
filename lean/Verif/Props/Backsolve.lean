import Verif.Model.Backsolve
import Verif.Model.Solvers
import Mathlib.Algebra.BigOperators.Group.List.Basic
import Mathlib.Algebra.Order.BigOperators.Group.List
import Mathlib.Data.List.Sort
import Mathlib.Data.Rat.Defs
import Mathlib.Algebra.Order.Field.Rat
import Mathlib.Tactic.Ring
import Mathlib.Tactic.NormNum

/-!
# C51: the schedule of the backward pass of `BacksolveAdjoint`

A saved value is a triple `(t, y, g)`: its time, the value, and its cotangent.
-/

namespace Verif.Backsolve

section
variable {T Y P S : Type}

/-- The vals of the whole sweep, in the order of increasing time. -/
def chain (t0 : T) : List (T × Y × Y) → List (T × T × Y × Y)
  | [] => []
  | p :: ps => (t0, p) :: chain p.1 ps

theorem chain_append (t0 : T) (ps : List (T × Y × Y)) (p q : T × Y × Y) :
    chain t0 (ps ++ [p, q]) = chain t0 (ps ++ [p]) ++ [(p.1, q)] := by
  induction ps generalizing t0 with
  | nil => rfl
  | cons a ps ih => simp [chain, ih]

theorem chain_zip (t0 : T) (ps : List (T × Y × Y)) (p : T × Y × Y) :
    chain t0 (ps ++ [p]) =
      (t0 :: ps.map (·.1)).zip (((ps ++ [p]).map (·.1)).zip (((ps ++ [p]).map (·.2.1)).zip ((ps ++ [p]).map (·.2.2)))) := by
  induction ps generalizing t0 with
  | nil => rfl
  | cons a ps ih => simp [chain, ih]

variable [Add Y] [Zero Y] [Zero P]

/-- The whole sweep: all the vals from the last to the first; the first solve is marked. -/
def sweep (solve : Solve T Y P S) (vals : List (T × T × Y × Y)) : (Y × P) × Option S :=
  match vals.reverse with
  | [] => ((0, 0), none)
  | v :: vs => vs.foldl (fun st v => scanFun solve st v false) (scanFun solve ((0, 0), none) v true)

theorem backward_not_t0 (solve : Solve T Y P S) (t0 : T) (pts : List (T × Y × Y)) (h : pts ≠ []) :
    backward solve false t0 (pts.map (·.1)) (pts.map (·.2.1)) (pts.map (·.2.2)) = some (sweep solve (chain t0 pts)).1 := by
  rcases List.eq_nil_or_concat pts with rfl | ⟨ps, q, rfl⟩
  · exact absurd rfl h
  rcases List.eq_nil_or_concat ps with rfl | ⟨ps, p, rfl⟩
  · simp [backward, sweep, chain]
  · have e : (ps.concat p).concat q = ps ++ [p, q] := by simp
    rw [e]
    have h1 : ((ps ++ [p, q]).map (·.1)).length = ps.length + 2 := by simp
    have e1 : ((ps ++ [p, q]).map (·.1))[ps.length]? = some p.1 := by simp
    have e2 : ((ps ++ [p, q]).map (·.1))[ps.length + 1]? = some q.1 := by
      simp [List.getElem?_append]
    have e3 : ((ps ++ [p, q]).map (·.2.1))[ps.length + 1]? = some q.2.1 := by
      simp [List.getElem?_append]
    have e4 : ((ps ++ [p, q]).map (·.2.2))[ps.length + 1]? = some q.2.2 := by
      simp [List.getElem?_append]
    have d : ∀ {α : Type} (f : T × Y × Y → α), ((ps ++ [p, q]).map f).dropLast = (ps ++ [p]).map f := by
      intro α f
      rw [← List.map_dropLast]; congr 1
      rw [show ps ++ [p, q] = (ps ++ [p]) ++ [q] by simp, List.dropLast_concat]
    have d' : ∀ {α : Type} (f : T × Y × Y → α), ((ps ++ [p]).map f).dropLast = ps.map f := by
      intro α f; rw [← List.map_dropLast, List.dropLast_concat]
    simp only [backward, h1, show ps.length + 2 - 2 = ps.length by omega, show ps.length + 2 - 1 = ps.length + 1 by omega,
      e1, e2, e3, e4, d, d', show ps.length + 2 > 1 by omega, if_true, Bool.false_eq_true, if_false, Option.bind_eq_bind,
      Option.bind_some, scanRev]
    rw [← chain_zip, chain_append, sweep]
    simp

theorem backward_t0 (solve : Solve T Y P S) (t0 : T) (p0 : T × Y × Y) (pts : List (T × Y × Y)) :
    backward solve true t0 ((p0 :: pts).map (·.1)) ((p0 :: pts).map (·.2.1)) ((p0 :: pts).map (·.2.2)) =
      some ((sweep solve (chain p0.1 pts)).1.1 + p0.2.2, (sweep solve (chain p0.1 pts)).1.2) := by
  rcases List.eq_nil_or_concat pts with rfl | ⟨ps, q, rfl⟩
  · simp [backward, sweep, chain]
  rcases List.eq_nil_or_concat ps with rfl | ⟨ps, p, rfl⟩
  · simp [backward, sweep, chain]
  · have e : (ps.concat p).concat q = ps ++ [p, q] := by simp
    rw [e]
    have h1 : ((p0 :: (ps ++ [p, q])).map (·.1)).length = ps.length + 3 := by simp
    have e1 : ((p0 :: (ps ++ [p, q])).map (·.1))[ps.length + 1]? = some p.1 := by simp
    have e2 : ((p0 :: (ps ++ [p, q])).map (·.1))[ps.length + 2]? = some q.1 := by
      simp [List.getElem?_append]
    have e3 : ((p0 :: (ps ++ [p, q])).map (·.2.1))[ps.length + 2]? = some q.2.1 := by
      simp [List.getElem?_append]
    have e4 : ((p0 :: (ps ++ [p, q])).map (·.2.2))[ps.length + 2]? = some q.2.2 := by
      simp [List.getElem?_append]
    have e5 : ((p0 :: (ps ++ [p, q])).map (·.2.2))[0]? = some p0.2.2 := rfl
    have d : ∀ {α : Type} (f : T × Y × Y → α), ((p0 :: (ps ++ [p, q])).map f).dropLast = f p0 :: (ps ++ [p]).map f := by
      intro α f
      rw [← List.map_dropLast, show p0 :: (ps ++ [p, q]) = (p0 :: (ps ++ [p])) ++ [q] by simp, List.dropLast_concat]
      rfl
    have d' : ∀ {α : Type} (f : T × Y × Y → α), (f p0 :: (ps ++ [p]).map f).dropLast = f p0 :: ps.map f := by
      intro α f
      rw [show f p0 :: (ps ++ [p]).map f = (f p0 :: ps.map f) ++ [f p] by simp, List.dropLast_concat]
    simp only [backward, h1, show ps.length + 3 - 2 = ps.length + 1 by omega,
      show ps.length + 3 - 1 = ps.length + 2 by omega,
      e1, e2, e3, e4, e5, d, d', show ps.length + 3 > 2 by omega, if_true, Option.bind_eq_bind,
      Option.bind_some, scanRev, List.tail_cons]
    rw [← chain_zip, chain_append, sweep]
    simp

end

/-! ### Which solves are made -/

/-- A call of `diffeqsolve` in the backward pass. -/
structure Call (T Y S : Type) where
  /-- `t0` -/
  start : T
  /-- `t1` -/
  stop : T
  /-- the first component of `y0` -/
  y : Y
  state : Option S
  madeJump : Bool
  /-- the states returned -/
  ret : S

/-- The calls made so far. -/
structure Log (T Y S : Type) where
  calls : List (Call T Y S)

instance {T Y S : Type} : Zero (Log T Y S) := ⟨⟨[]⟩⟩

/-- `solve`, but it also writes down how it was called, next to the cotangent of the parameters. -/
def logged {T Y P S : Type} (solve : Solve T Y P S) : Solve T Y (P × Log T Y S) S := fun t0 t1 z st mj =>
  let r := solve t0 t1 (z.1, z.2.1, z.2.2.1) st mj
  ((r.1.1, r.1.2.1, r.1.2.2, ⟨z.2.2.2.calls ++ [⟨t0, t1, z.1, st, mj, r.2⟩]⟩), r.2)

section
variable {T Y P S : Type} [Add Y] [Zero Y] [Zero P]

/-- What is known of the calls after the vals `vs` (in the order in which they were treated). -/
structure LogInv (vs : List (T × T × Y × Y)) (x : (Y × P) × Option S) (x' : (Y × (P × Log T Y S)) × Option S) : Prop where
  same : x = ((x'.1.1, x'.1.2.1), x'.2)
  start : x'.1.2.2.calls.map (·.start) = vs.map (·.2.1)
  stop : x'.1.2.2.calls.map (·.stop) = vs.map (·.1)
  y : x'.1.2.2.calls.map (·.y) = vs.map (·.2.2.1)
  state : x'.1.2.2.calls.map (·.state) ++ [x'.2] = none :: x'.1.2.2.calls.map fun c => some c.ret
  jump : x'.1.2.2.calls.map (·.madeJump) = (List.range vs.length).map fun i => !decide (i = 0)

theorem LogInv.step {solve : Solve T Y P S} {vs : List (T × T × Y × Y)} {x : (Y × P) × Option S}
    {x' : (Y × (P × Log T Y S)) × Option S} (h : LogInv vs x x') (v : T × T × Y × Y) :
    LogInv (vs ++ [v]) (scanFun solve x v (decide (vs.length = 0))) (scanFun (logged solve) x' v (decide (vs.length = 0))) := by
  obtain ⟨same, start, stop, y, state, jump⟩ := h
  subst same
  refine ⟨rfl, ?_, ?_, ?_, ?_, ?_⟩
  · simp [scanFun, logged, start]
  · simp [scanFun, logged, stop]
  · simp [scanFun, logged, y]
  · simp only [scanFun, logged, List.map_append, List.map_cons, List.map_nil]
    rw [state]; simp
  · simp [scanFun, logged, jump, List.range_succ]

theorem LogInv.foldl {solve : Solve T Y P S} (ws : List (T × T × Y × Y)) {vs : List (T × T × Y × Y)} {x : (Y × P) × Option S}
    {x' : (Y × (P × Log T Y S)) × Option S} (h : LogInv vs x x') (hv : vs ≠ []) :
    LogInv (vs ++ ws) (ws.foldl (fun st v => scanFun solve st v false) x)
      (ws.foldl (fun st v => scanFun (logged solve) st v false) x') := by
  induction ws generalizing vs x x' with
  | nil => simpa using h
  | cons w ws ih =>
    have h1 := h.step (solve := solve) w
    rw [show decide (vs.length = 0) = false by simpa using hv] at h1
    have := ih h1 (by simp)
    simpa using this

theorem LogInv.sweep (solve : Solve T Y P S) (vals : List (T × T × Y × Y)) :
    LogInv vals.reverse (sweep solve vals) (sweep (logged solve) vals) := by
  have h0 : LogInv (T := T) (Y := Y) (P := P) (S := S) [] ((0, 0), none) ((0, (0, 0)), none) :=
    ⟨rfl, rfl, rfl, rfl, rfl, rfl⟩
  unfold Backsolve.sweep
  cases e : vals.reverse with
  | nil => exact h0
  | cons v vs => exact (h0.step (solve := solve) v).foldl vs (by simp)

/-- The saved values in the sweep: a value at `t0` that was asked for by `SaveAt(t0=True)` needs no solve. -/
def swept {α : Type} (saveatT0 : Bool) (l : List α) : List α := if saveatT0 then l.tail else l

theorem chain_stop (t0 : T) (pts : List (T × Y × Y)) :
    (chain t0 pts).map (·.1) = (t0 :: pts.map (·.1)).dropLast := by
  induction pts generalizing t0 with
  | nil => rfl
  | cons p ps ih =>
    cases ps with
    | nil => rfl
    | cons q ps => simp [chain] at ih ⊢; exact ih p.1

theorem chain_snd (t0 : T) (pts : List (T × Y × Y)) : (chain t0 pts).map (·.2) = pts := by
  induction pts generalizing t0 with
  | nil => rfl
  | cons p ps ih => simp [chain, ih]

theorem exists_pts (ts : List T) (ys gs : List Y) (hy : ys.length = ts.length) (hg : gs.length = ts.length) :
    ∃ pts : List (T × Y × Y), ts = pts.map (·.1) ∧ ys = pts.map (·.2.1) ∧ gs = pts.map (·.2.2) := by
  refine ⟨ts.zip (ys.zip gs), ?_, ?_, ?_⟩
  · rw [List.map_fst_zip]; simp [hy, hg]
  · rw [show ((fun x => x.2.1) : T × Y × Y → Y) = Prod.fst ∘ Prod.snd from rfl, ← List.map_map, List.map_snd_zip,
      List.map_fst_zip]
    · simp [hy, hg]
    · simp [hy, hg]
  · rw [show ((fun x => x.2.2) : T × Y × Y → Y) = Prod.snd ∘ Prod.snd from rfl, ← List.map_map, List.map_snd_zip,
      List.map_snd_zip]
    · simp [hy, hg]
    · simp [hy, hg]

/-- **C51.** The backward pass succeeds, and these are its solves, in order: one from each saved time (except the one of
`SaveAt(t0=True)`), the last first, down to the time saved before it or to `t0`, and starting from the saved value. The
first starts without a state of the solver and the controller, each of the others with the state that the one before it
ended with; all but the first are told of a jump. -/
theorem C51_schedule (solve : Solve T Y P S) (saveatT0 : Bool) (t0 : T) (ts : List T) (ys gs : List Y) (hts : ts ≠ [])
    (h0 : saveatT0 = true → ts.head? = some t0) (hy : ys.length = ts.length) (hg : gs.length = ts.length) :
    ∃ a p calls, backward solve saveatT0 t0 ts ys gs = some (a, p) ∧
      backward (logged solve) saveatT0 t0 ts ys gs = some (a, p, ⟨calls⟩) ∧
      calls.map (·.start) = (swept saveatT0 ts).reverse ∧
      calls.map (·.stop) = (t0 :: swept saveatT0 ts).dropLast.reverse ∧
      calls.map (·.y) = (swept saveatT0 ys).reverse ∧
      calls.map (·.state) = (none :: calls.map fun c => some c.ret).dropLast ∧
      ∀ i c, calls[i]? = some c → c.madeJump = !decide (i = 0) := by
  obtain ⟨pts, rfl, rfl, rfl⟩ := exists_pts ts ys gs hy hg
  have key : ∀ (a : Y) (pts' : List (T × Y × Y)), LogInv (chain t0 pts').reverse (Backsolve.sweep solve (chain t0 pts'))
      (Backsolve.sweep (logged solve) (chain t0 pts')) →
      let calls := (Backsolve.sweep (logged solve) (chain t0 pts')).1.2.2.calls
      calls.map (·.start) = (pts'.map (·.1)).reverse ∧
      calls.map (·.stop) = (t0 :: pts'.map (·.1)).dropLast.reverse ∧
      calls.map (·.y) = (pts'.map (·.2.1)).reverse ∧
      calls.map (·.state) = (none :: calls.map fun c => some c.ret).dropLast ∧
      ∀ i c, calls[i]? = some c → c.madeJump = !decide (i = 0) := by
    intro a pts' h
    refine ⟨?_, ?_, ?_, ?_, ?_⟩
    · rw [h.start, List.map_reverse, show ((fun x => x.2.1) : T × T × Y × Y → T) = (fun x => x.1) ∘ Prod.snd from rfl,
        ← List.map_map, chain_snd]
    · rw [h.stop, List.map_reverse, chain_stop]
    · rw [h.y, List.map_reverse, show ((fun x => x.2.2.1) : T × T × Y × Y → Y) = (fun x => x.2.1) ∘ Prod.snd from rfl,
        ← List.map_map, chain_snd]
    · rw [← h.state, List.dropLast_concat]
    · intro i c hc
      have := congrArg (·[i]?) h.jump
      simp only [List.getElem?_map, hc, Option.map_some, List.getElem?_range'] at this
      rw [List.getElem?_eq_some_iff.2 ⟨?_, rfl⟩] at this
      · simpa using this
      · have hl := congrArg List.length h.jump
        have := (List.getElem?_eq_some_iff.1 hc).1
        simp at hl ⊢
        omega
  cases saveatT0 with
  | false =>
    have hne : pts ≠ [] := fun h => hts (by rw [h]; rfl)
    have h := LogInv.sweep solve (chain t0 pts)
    refine ⟨(Backsolve.sweep (logged solve) (chain t0 pts)).1.1,
      (Backsolve.sweep (logged solve) (chain t0 pts)).1.2.1, (Backsolve.sweep (logged solve) (chain t0 pts)).1.2.2.calls, ?_, ?_,
      key 0 pts h⟩
    · rw [backward_not_t0 _ _ _ hne, h.same]
    · rw [backward_not_t0 _ _ _ hne]
  | true =>
    cases pts with
    | nil => exact absurd rfl hts
    | cons p0 pts =>
      have e : p0.1 = t0 := by simpa using h0 rfl
      have h := LogInv.sweep solve (chain t0 pts)
      refine ⟨(Backsolve.sweep (logged solve) (chain t0 pts)).1.1 + p0.2.2,
        (Backsolve.sweep (logged solve) (chain t0 pts)).1.2.1, (Backsolve.sweep (logged solve) (chain t0 pts)).1.2.2.calls, ?_, ?_,
        key 0 pts h⟩
      · rw [backward_t0, e, h.same]
      · rw [backward_t0, e]

/-- **C51.** Between `t0` and the last saved time every instant is passed exactly once, and no other is: the solves tile the
interval. Repeated times make empty solves. -/
theorem C51_once [LinearOrder T] (solve : Solve T Y P S) (saveatT0 : Bool) (t0 last : T) (ts : List T) (ys gs : List Y)
    (hs : (t0 :: ts).Pairwise (· ≤ ·)) (hlast : ts.getLast? = some last) (h0 : saveatT0 = true → ts.head? = some t0)
    (hy : ys.length = ts.length) (hg : gs.length = ts.length) :
    ∃ a p calls, backward (logged solve) saveatT0 t0 ts ys gs = some (a, p, ⟨calls⟩) ∧
      (∀ c ∈ calls, c.stop ≤ c.start) ∧
      ∀ x, calls.countP (fun c => decide (c.stop ≤ x ∧ x < c.start)) = if t0 ≤ x ∧ x < last then 1 else 0 := by
  have hne : ts ≠ [] := by rintro rfl; simp at hlast
  obtain ⟨a, p, calls, -, h, h1, h2, -⟩ := C51_schedule solve saveatT0 t0 ts ys gs hne h0 hy hg
  refine ⟨a, p, calls, h, ?_⟩
  -- the intervals, in the order of time
  have hz : calls.reverse.map (fun c => (c.stop, c.start)) = (t0 :: swept saveatT0 ts).dropLast.zip (swept saveatT0 ts) := by
    have e1 : calls.reverse.map (·.stop) = (t0 :: swept saveatT0 ts).dropLast := by
      rw [List.map_reverse, h2, List.reverse_reverse]
    have e2 : calls.reverse.map (·.start) = swept saveatT0 ts := by
      rw [List.map_reverse, h1, List.reverse_reverse]
    rw [← e1, ← e2, List.zip_map']
  have tile : ∀ (t0 : T) (l : List T), (t0 :: l).Pairwise (· ≤ ·) →
      (∀ q ∈ (t0 :: l).dropLast.zip l, q.1 ≤ q.2) ∧
      ∀ x, ((t0 :: l).dropLast.zip l).countP (fun q => decide (q.1 ≤ x ∧ x < q.2)) =
        if t0 ≤ x ∧ x < (t0 :: l).getLast (by simp) then 1 else 0 := by
    intro t0 l
    induction l generalizing t0 with
    | nil => intro _; refine ⟨by simp, fun x => ?_⟩; simp [← not_lt]
    | cons b l ih =>
      intro hp
      have hb : t0 ≤ b := (List.pairwise_cons.1 hp).1 b (by simp)
      obtain ⟨i1, i2⟩ := ih b (List.pairwise_cons.1 hp).2
      have hbl : b ≤ (b :: l).getLast (by simp) := by
        rcases List.mem_cons.1 (List.getLast_mem (l := b :: l) (by simp)) with h | h
        · exact h.ge
        · exact (List.pairwise_cons.1 (List.pairwise_cons.1 hp).2).1 _ h
      simp only [List.dropLast_cons_cons, List.zip_cons_cons, List.countP_cons, List.forall_mem_cons]
      refine ⟨⟨hb, i1⟩, fun x => ?_⟩
      have gl : (t0 :: b :: l).getLast (by simp) = (b :: l).getLast (by simp) := List.getLast_cons (by simp)
      rw [i2 x, gl]
      by_cases h1 : b ≤ x
      · have h2 : t0 ≤ x := hb.trans h1
        have h3 : ¬ x < b := not_lt.2 h1
        simp only [h1, h2, h3, true_and, and_false, decide_false, Bool.false_eq_true, if_false, add_zero]
      · have h2 := not_le.1 h1
        have h3 : x < (b :: l).getLast (by simp) := h2.trans_le hbl
        simp only [h1, h2, h3, false_and, and_true, decide_eq_true_eq, if_false, zero_add]
  have hs' : (t0 :: swept saveatT0 ts).Pairwise (· ≤ ·) ∧ (t0 :: swept saveatT0 ts).getLast (by simp) = last := by
    cases saveatT0 with
    | false =>
      refine ⟨hs, ?_⟩
      simp only [swept, Bool.false_eq_true, if_false]
      rw [List.getLast_cons hne]
      rw [List.getLast?_eq_some_getLast hne] at hlast
      exact Option.some.inj hlast
    | true =>
      cases ts with
      | nil => exact absurd rfl hne
      | cons b l =>
        have e : b = t0 := by simpa using h0 rfl
        subst e
        refine ⟨(List.pairwise_cons.1 hs).2, ?_⟩
        rw [List.getLast?_eq_some_getLast hne] at hlast
        exact Option.some.inj hlast
  obtain ⟨t1, t2⟩ := tile t0 (swept saveatT0 ts) hs'.1
  constructor
  · intro c hc
    have : (c.stop, c.start) ∈ calls.reverse.map fun c => (c.stop, c.start) :=
      List.mem_map.2 ⟨c, List.mem_reverse.2 hc, rfl⟩
    rw [hz] at this
    exact t1 _ this
  · intro x
    have := t2 x
    rw [← hz, List.countP_map, List.countP_reverse, hs'.2] at this
    exact this

end

/-! ### What the cotangents add up to -/

section
variable {T Y P S V : Type} [AddCommMonoid Y] [Zero P] [AddCommMonoid V]

/-- If a quantity is left alone by the solves, and adding the cotangent `g` at the time `t` adds `ψ t g` to it, then at the
end it is the sum over all the saved values. -/
theorem backward_sum (solve : Solve T Y P S) (saveatT0 : Bool) (t0 : T) (pts : List (T × Y × Y)) (hne : pts ≠ [])
    (h0 : saveatT0 = true → (pts.map (·.1)).head? = some t0) (φ : T → Y × P → V) (ψ : T → Y → V)
    (hz : ∀ t, φ t (0, 0) = 0) (hφ : ∀ t a g p, φ t (a + g, p) = φ t (a, p) + ψ t g)
    (hsolve : ∀ v ∈ chain t0 pts, ∀ a p st mj, φ v.1 (solve v.2.1 v.1 (v.2.2.1, a, p) st mj).1.2 = φ v.2.1 (a, p)) :
    ∃ r, backward solve saveatT0 t0 (pts.map (·.1)) (pts.map (·.2.1)) (pts.map (·.2.2)) = some r ∧
      φ t0 r = (pts.map fun q => ψ q.1 q.2.2).sum := by
  -- the sweep over the rest of the values
  have fold : ∀ (t0 : T) (pts : List (T × Y × Y)), (∀ v ∈ chain t0 pts, ∀ a p st mj,
      φ v.1 (solve v.2.1 v.1 (v.2.2.1, a, p) st mj).1.2 = φ v.2.1 (a, p)) →
      φ t0 (sweep solve (chain t0 pts)).1 = (pts.map fun q => ψ q.1 q.2.2).sum := by
    have one : ∀ (st : (Y × P) × Option S) (v : T × T × Y × Y) (b : Bool), (∀ a p st mj,
        φ v.1 (solve v.2.1 v.1 (v.2.2.1, a, p) st mj).1.2 = φ v.2.1 (a, p)) →
        φ v.1 (scanFun solve st v b).1 = φ v.2.1 st.1 + ψ v.2.1 v.2.2.2 := by
      intro st v b h
      simp only [scanFun]
      have := h (st.1.1 + v.2.2.2) st.1.2 st.2 (!b)
      rw [hφ] at this
      exact this
    intro t0 pts
    cases pts with
    | nil => intro _; simp [sweep, chain, hz]
    | cons q pts =>
      -- the sweep as one fold with a flag
      have sw : ∀ (t0 : T) (q : T × Y × Y) (pts : List (T × Y × Y)), (∀ v ∈ chain t0 (q :: pts), ∀ a p st mj,
          φ v.1 (solve v.2.1 v.1 (v.2.2.1, a, p) st mj).1.2 = φ v.2.1 (a, p)) →
          φ t0 (sweep solve (chain t0 (q :: pts))).1 = ((q :: pts).map fun q => ψ q.1 q.2.2).sum := by
        intro t0 q pts
        induction pts generalizing t0 q with
        | nil =>
          intro h
          have := one ((0, 0), none) (t0, q) true (h _ (by simp [chain]))
          simp only [hz, zero_add] at this
          simpa [sweep, chain] using this
        | cons q' pts ih =>
          intro h
          have i := ih q.1 q' fun v hv => h v (by rw [chain]; exact List.mem_cons_of_mem _ hv)
          have e : sweep solve (chain t0 (q :: q' :: pts)) =
              scanFun solve (sweep solve (chain q.1 (q' :: pts))) (t0, q) false := by
            have hr : ∃ v vs, (chain q.1 (q' :: pts)).reverse = v :: vs := by
              cases e : (chain q.1 (q' :: pts)).reverse with
              | nil => simp [chain] at e
              | cons v vs => exact ⟨v, vs, rfl⟩
            obtain ⟨v, vs, hr⟩ := hr
            have hr' : (chain t0 (q :: q' :: pts)).reverse = v :: (vs ++ [(t0, q)]) := by
              rw [chain, List.reverse_cons, hr]; rfl
            simp [sweep, hr, hr']
          rw [e]
          have := one (sweep solve (chain q.1 (q' :: pts))) (t0, q) false (h _ (by simp [chain]))
          simp only at this
          rw [this, i, List.map_cons (l := q' :: pts), List.sum_cons, add_comm]
      exact sw t0 q pts
  cases saveatT0 with
  | false => exact ⟨_, backward_not_t0 solve t0 pts hne, fold t0 pts hsolve⟩
  | true =>
    cases pts with
    | nil => exact absurd rfl hne
    | cons p0 pts =>
      have e : p0.1 = t0 := by simpa using h0 rfl
      refine ⟨_, backward_t0 solve t0 p0 pts, ?_⟩
      rw [hφ, List.map_cons, List.sum_cons, add_comm, e]
      congr 1
      refine fold t0 pts fun v hv => hsolve v ?_
      rw [chain, e]
      exact List.mem_cons_of_mem _ hv

end

section
variable {T Y P S : Type} [LinearOrder T] [AddCommMonoid Y] [AddCommMonoid P]

/-- What an exact solver of the adjoint equations does, backwards in time from `s` to `t`: along the trajectory `traj` of the
equation, linear in the cotangents, and one solve can be done in two parts. -/
structure ExactFlow (traj : T → Y) (E : T → T → Y × Y × P → Y × Y × P) : Prop where
  along : ∀ s t a p, t ≤ s → (E s t (traj s, a, p)).1 = traj t
  add : ∀ s t a p a' p', t ≤ s → (E s t (traj s, a + a', p + p')).2 = (E s t (traj s, a, p)).2 + (E s t (traj s, a', p')).2
  zero : ∀ s t, t ≤ s → (E s t (traj s, 0, 0)).2 = 0
  refl : ∀ t z, E t t z = z
  trans : ∀ s r t a p, t ≤ r → r ≤ s → E r t (E s r (traj s, a, p)) = E s t (traj s, a, p)

theorem chain_mem {traj : T → Y} (t0 : T) (pts : List (T × Y × Y)) (hs : (t0 :: pts.map (·.1)).Pairwise (· ≤ ·))
    (hy : ∀ q ∈ pts, q.2.1 = traj q.1) (v : T × T × Y × Y) (hv : v ∈ chain t0 pts) :
    t0 ≤ v.1 ∧ v.1 ≤ v.2.1 ∧ v.2.2.1 = traj v.2.1 ∧ v.2 ∈ pts := by
  induction pts generalizing t0 with
  | nil => simp [chain] at hv
  | cons q pts ih =>
    have hq : t0 ≤ q.1 := (List.pairwise_cons.1 hs).1 _ (by simp)
    rcases List.mem_cons.1 hv with rfl | hv
    · exact ⟨le_rfl, hq, hy q (by simp), by simp⟩
    · obtain ⟨h1, h2, h3, h4⟩ := ih q.1 (List.pairwise_cons.1 hs).2 (fun q' h => hy q' (by simp [h])) hv
      exact ⟨hq.trans h1, h2, h3, by simp [h4]⟩

/-- **C51.** If the solves are exact, the backward pass gives the sum over the saved values of what solving from their time
straight down to `t0` with their cotangent gives: each cotangent is added once, at its own time. -/
theorem C51_sum (solve : Solve T Y P S) (saveatT0 : Bool) (t0 : T) (ts : List T) (gs : List Y) (hts : ts ≠ [])
    (h0 : saveatT0 = true → ts.head? = some t0) (hs : (t0 :: ts).Pairwise (· ≤ ·)) (hg : gs.length = ts.length)
    (traj : T → Y) (E : T → T → Y × Y × P → Y × Y × P) (hE : ExactFlow traj E)
    (hsolve : ∀ s t a p st mj, t ≤ s → (solve s t (traj s, a, p) st mj).1 = E s t (traj s, a, p)) :
    backward solve saveatT0 t0 ts (ts.map traj) gs =
      some ((ts.zip gs).map fun q => (E q.1 t0 (traj q.1, q.2, 0)).2).sum := by
  obtain ⟨pts, h1, h2, h3⟩ := exists_pts ts (ts.map traj) gs (by simp) hg
  have hz : ts.zip gs = pts.map fun q => (q.1, q.2.2) := by rw [h1, h3, List.zip_map']
  have hy : ∀ q ∈ pts, q.2.1 = traj q.1 := by
    rw [h1, List.map_map] at h2
    intro q hq
    exact ((List.map_inj_left.1 h2) q hq).symm
  have hne : pts ≠ [] := by rintro rfl; exact hts (by rw [h1]; rfl)
  have hs' : (t0 :: pts.map (·.1)).Pairwise (· ≤ ·) := by rw [← h1]; exact hs
  -- a quantity that is only asked for at times from `t0` on
  have key := backward_sum solve saveatT0 t0 pts hne (by rw [← h1]; exact h0)
    (fun t x => if t0 ≤ t then (E t t0 (traj t, x.1, x.2)).2 else 0)
    (fun t g => if t0 ≤ t then (E t t0 (traj t, g, 0)).2 else 0)
    (by
      intro t; dsimp only; split
      · rename_i h; exact hE.zero t t0 h
      · simp)
    (by
      intro t a g p; dsimp only; split
      · rename_i h
        have := hE.add t t0 a p g 0 h
        rwa [add_zero] at this
      · simp)
    (by
      intro v hv a p st mj
      obtain ⟨c1, c2, c3, -⟩ := chain_mem t0 pts hs' hy v hv
      simp only [c1, c1.trans c2, if_true]
      rw [c3, hsolve _ _ _ _ _ _ c2, ← hE.trans v.2.1 v.1 t0 a p c1 c2]
      congr 2
      rw [← hE.along v.2.1 v.1 a p c2])
  obtain ⟨r, k1, k2⟩ := key
  rw [← h1, ← h2, ← h3] at k1
  rw [k1, hz, List.map_map]
  simp only [le_refl, if_true, hE.refl] at k2
  congr 1
  rw [show r = (r.1, r.2) from rfl, k2]
  congr 1
  refine List.map_congr_left fun q hq => ?_
  have : t0 ≤ q.1 := (List.pairwise_cons.1 hs').1 _ (List.mem_map.2 ⟨q, hq, rfl⟩)
  simp [this]

end

/-! ### A solver that keeps an earlier value -/

section

/-- `m` steps of a solver with constant steps of size `h`, downwards from `s`; `init` makes the state when there is none.
(The solves of the backward pass with `ConstantStepSize`, without the mirroring of time.) -/
def stepsDown {Z E D S : Type} (solver : Solver ℚ Z E D S) (init : ℚ → Z → S) (h : ℚ) :
    ℕ → ℚ → Z → Option S → Bool → Z × S
  | 0, s, z, st, _ => (z, st.getD (init s z))
  | m + 1, s, z, st, mj =>
    let o := solver.step s (s - h) z (st.getD (init s z)) mj
    stepsDown solver init h m (s - h) o.y (some o.state) false

/-- `stepsDown` as the solves of the backward pass. -/
def solveDown {Y P E D S : Type} (solver : Solver ℚ (Y × Y × P) E D S) (init : ℚ → Y × Y × P → S) (h : ℚ) (m : ℕ) :
    Solve ℚ Y P S := fun s _ z st mj => stepsDown solver init h m s z st mj

/-- `dy/dt = 0`, with its adjoint equations, which are trivial as well. -/
def stillTerm : Term ℚ (ℚ × ℚ × ℚ) (ℚ × ℚ × ℚ) ℚ := (AnyTerm.ode fun (_ : ℚ) (_ : ℚ × ℚ × ℚ) => 0).term

theorem stepsDown_leapfrog (interp : LocalLin ℚ (ℚ × ℚ × ℚ)) (h : ℚ) (m : ℕ) (s sp : ℚ) (z zp : ℚ × ℚ × ℚ) (mj : Bool) :
    (stepsDown (leapfrog stillTerm interp) leapfrogInit h m s z (some (sp, zp)) mj).1 = (if m % 2 = 0 then z else zp) ∧
    (stepsDown (leapfrog stillTerm interp) leapfrogInit h m s z (some (sp, zp)) mj).2.2 = (if m % 2 = 0 then zp else z) := by
  induction m generalizing s sp z zp mj with
  | zero => simp [stepsDown]
  | succ m ih =>
    have e : stepsDown (leapfrog stillTerm interp) leapfrogInit h (m + 1) s z (some (sp, zp)) mj =
        stepsDown (leapfrog stillTerm interp) leapfrogInit h m (s - h) zp (some (s, z)) false := by
      simp [stepsDown, leapfrog, stillTerm, AnyTerm.ode]
    rw [e]
    obtain ⟨h1, h2⟩ := ih (s - h) s zp z false
    rw [h1, h2]
    rcases Nat.mod_two_eq_zero_or_one m with hm | hm
    · simp [hm, show (m + 1) % 2 = 1 by omega]
    · simp [hm, show (m + 1) % 2 = 0 by omega]

/-- **C68 is false for `LeapfrogMidpoint`**, which steps from the value before the current one, and so from a value to which
the cotangent has not been added. For `dy/dt = 0`, two saved values, and any odd number of steps in each interval, the
cotangent of the first saved value is lost: the gradient should be `g1 + g2`, and is `g2`. -/
theorem C68_violated_leapfrog (interp : LocalLin ℚ (ℚ × ℚ × ℚ)) (h : ℚ) (m : ℕ) (hm : m % 2 = 1) (t0 t1 t2 y g1 g2 : ℚ) :
    backward (solveDown (leapfrog stillTerm interp) leapfrogInit h m) false t0 [t1, t2] [y, y] [g1, g2] =
      some (g2, 0) := by
  have e0 : ∀ (s : ℚ) (z : ℚ × ℚ × ℚ) mj, stepsDown (leapfrog stillTerm interp) leapfrogInit h m s z none mj =
      stepsDown (leapfrog stillTerm interp) leapfrogInit h m s z (some (s, z)) mj := by
    intro s z mj
    cases m <;> simp [stepsDown, leapfrogInit]
  have e1 : ∀ (s : ℚ) (z : ℚ × ℚ × ℚ) sp zp mj,
      (stepsDown (leapfrog stillTerm interp) leapfrogInit h m s z (some (sp, zp)) mj).1 = zp := by
    intro s z sp zp mj; rw [(stepsDown_leapfrog interp h m s sp z zp mj).1]; simp [hm]
  have e2 : ∀ (s : ℚ) (z : ℚ × ℚ × ℚ) sp zp mj,
      (stepsDown (leapfrog stillTerm interp) leapfrogInit h m s z (some (sp, zp)) mj).2.2 = z := by
    intro s z sp zp mj; rw [(stepsDown_leapfrog interp h m s sp z zp mj).2]; simp [hm]
  have e3 : ∀ (s : ℚ) (z : ℚ × ℚ × ℚ) (st : ℚ × ℚ × ℚ × ℚ) mj,
      (stepsDown (leapfrog stillTerm interp) leapfrogInit h m s z (some st) mj).1 = st.2 := fun s z st mj => e1 s z st.1 st.2 mj
  simp [backward, scanFun, scanRev, solveDown, e0, e3, e2]

/-- The exact flow of this equation. The gradient is `g1 + g2`. -/
example : ExactFlow (T := ℚ) (Y := ℚ) (P := ℚ) (fun _ => 5) (fun _ _ z => z) :=
  ⟨fun _ _ _ _ _ => rfl, fun _ _ _ _ _ _ _ => rfl, fun _ _ _ => rfl, fun _ _ => rfl, fun _ _ _ _ _ _ _ => rfl⟩

end

/-! ### Examples -/

/-- The exact flow of `dy/dt = p` for `p = 1` from `y(0) = 0`: the cotangent of `p` grows with the length of the solve. -/
example : ExactFlow (T := ℚ) (Y := ℚ) (P := ℚ) (fun t => t) (fun s t z => (z.1 - (s - t), z.2.1, z.2.2 + (s - t) * z.2.1)) where
  along := by intros; ring
  add := by intros; ext <;> simp; ring
  zero := by intros; simp
  refl := by intros; simp
  trans := by intros; ext <;> simp <;> ring

/-- Saved times with repetitions, one of them `t0` itself. -/
example : ((0 : ℚ) :: [0, 0, 1, 1, 2]).Pairwise (· ≤ ·) ∧ ([0, 0, 1, 1, 2] : List ℚ).getLast? = some 2 ∧
    (true = true → ([0, 0, 1, 1, 2] : List ℚ).head? = some 0) := by
  refine ⟨by decide +kernel, rfl, fun _ => rfl⟩

/-- With the flow of `dy/dt = p`, and cotangents 1, 2, 3, 4, 5 of the values at these times. -/
example : backward (S := Unit) (fun s t z _ _ => ((z.1 - (s - t), z.2.1, z.2.2 + (s - t) * z.2.1), ())) true (0 : ℚ)
    [0, 0, 1, 1, 2] [0, 0, 1, 1, 2] [1, 2, 3, 4, 5] = some ((15 : ℚ), (17 : ℚ)) := by
  norm_num [backward, scanFun, scanRev]

end Verif.Backsolve
