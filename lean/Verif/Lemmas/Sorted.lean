import Verif.Lemmas.Output

/-! # Helper lemmas: saved times are sorted -/

set_option linter.unusedSectionVars false

namespace Verif

variable {T Y E D S C O F : Type} [LinearOrder T] [LinearOrder F] [Zero F]

theorem dropWhile_gt (p : T) (rest : List T) (hsort : rest.Pairwise (· ≤ ·)) :
    ∀ t ∈ rest.dropWhile (fun t => decide (t ≤ p)), p < t := by
  induction rest with
  | nil => simp
  | cons x rest ih =>
    rw [List.pairwise_cons] at hsort
    by_cases hx : x ≤ p
    · rw [List.dropWhile_cons_of_pos (by simpa using hx)]; exact ih hsort.2
    · rw [List.dropWhile_cons_of_neg (by simpa using hx)]
      intro t ht
      rcases List.mem_cons.1 ht with rfl | ht
      · exact not_le.1 hx
      · exact lt_of_lt_of_le (not_le.1 hx) (hsort.1 t ht)

theorem stepEntries_sorted (sv : Solver T Y E D S) (sub : SubSaveAt T Y O) (ps : List (Piece T Y D))
    (k : Nat) (rest : List T) (lo : T) (hps : ps.Pairwise (fun p q => p.t1 ≤ q.t1))
    (hr : ∀ p ∈ ps, p.reached = p.t1) (hlo : ∀ p ∈ ps, lo ≤ p.t1)
    (hsort : rest.Pairwise (· ≤ ·)) (hrlo : ∀ t ∈ rest, lo ≤ t) :
    (∀ e ∈ stepEntries sv sub ps k rest, lo ≤ e.1) ∧
    (stepEntries sv sub ps k rest).Pairwise (fun a b => a.1 ≤ b.1) := by
  induction ps generalizing k rest lo with
  | nil => simp [stepEntries]
  | cons p ps ih =>
    rw [List.pairwise_cons] at hps
    have hd : (rest.dropWhile (· ≤ p.t1)).Pairwise (· ≤ ·) :=
      hsort.sublist (List.dropWhile_sublist _)
    have hgt := dropWhile_gt p.t1 rest hsort
    obtain ⟨i1, i2⟩ := ih (k + 1) (rest.dropWhile (· ≤ p.t1)) p.t1 hps.2
      (fun q hq => hr q (List.mem_cons_of_mem _ hq)) (fun q hq => hps.1 q hq) hd
      (fun t ht => le_of_lt (hgt t ht))
    have hpl : lo ≤ p.t1 := hlo p (by simp)
    have hpr : p.reached = p.t1 := hr p (by simp)
    have htake : ∀ e ∈ (rest.takeWhile (· ≤ p.t1)).map (fun t => (t, sub.fn t (p.eval sv t))),
        lo ≤ e.1 ∧ e.1 ≤ p.t1 := by
      intro e he
      obtain ⟨t, ht, rfl⟩ := List.mem_map.1 he
      exact ⟨hrlo t (List.takeWhile_sublist _ |>.subset ht), by simpa using List.mem_takeWhile_imp ht⟩
    have hmid : ∀ e ∈ (if sub.steps ≠ 0 ∧ sub.steps ∣ k + 1 then
        [(p.reached, sub.fn p.reached p.y)] else []), e.1 = p.t1 := by
      intro e he
      split at he
      · rw [List.mem_singleton] at he; rw [he]; exact hpr
      · simp at he
    simp only [stepEntries]
    constructor
    · intro e he
      rcases List.mem_append.1 he with he | he
      · rcases List.mem_append.1 he with he | he
        · exact (htake e he).1
        · rw [hmid e he]; exact hpl
      · exact le_trans hpl (i1 e he)
    · rw [List.pairwise_append]
      refine ⟨?_, i2, ?_⟩
      · rw [List.pairwise_append]
        refine ⟨?_, ?_, ?_⟩
        · rw [List.pairwise_map]
          exact hsort.sublist (List.takeWhile_sublist _)
        · split <;> simp
        · intro a ha b hb
          rw [hmid b hb]; exact (htake a ha).2
      · intro a ha b hb
        refine le_trans ?_ (i1 b hb)
        rcases List.mem_append.1 ha with ha | ha
        · exact (htake a ha).2
        · rw [hmid a ha]

/-- Accepted steps are in order of time. -/
theorem piecesFrom_sorted (cfg : Cfg T Y E D S C O F) (n : Nat) (s : Core T Y D S C F)
    (h : ∀ s' ∈ attempts cfg n s, (adaptOut cfg s').Exact s'.tprev s'.tnext ∧ s'.tprev ≤ s'.tnext ∧
      s'.tnext ≤ cfg.t1) :
    (piecesFrom cfg n s).Pairwise (fun p q => p.t1 ≤ q.t1) ∧
    (∀ p ∈ piecesFrom cfg n s, s.tprev ≤ p.t1 ∧ p.reached = p.t1) := by
  induction n generalizing s with
  | zero => simp [piecesFrom, attempts]
  | succ n ih =>
    by_cases hc : condFun cfg s = true
    · simp only [attempts, hc, if_true, List.mem_cons, forall_eq_or_imp] at h
      obtain ⟨⟨⟨hk, hrj⟩, hle, hle1⟩, hrest⟩ := h
      obtain ⟨i1, i2⟩ := ih (coreBody cfg s).1 hrest
      have e1 : (coreBody cfg s).1.tprev = min (adaptOut cfg s).tprev cfg.t1 := rfl
      cases ha : accepted cfg s with
      | true =>
        have hp : piecesFrom cfg (n + 1) s = piece cfg s :: piecesFrom cfg n (coreBody cfg s).1 := by
          simp [piecesFrom, attempts, hc, ha]
        have e2 : (coreBody cfg s).1.tprev = (piece cfg s).t1 := by
          rw [e1, hk ha, min_eq_left hle1]; rfl
        rw [hp, List.pairwise_cons]
        refine ⟨⟨fun q hq => e2 ▸ (i2 q hq).1, i1⟩, ?_⟩
        intro p hpm
        rcases List.mem_cons.1 hpm with rfl | hpm
        · refine ⟨hle, ?_⟩
          change min (adaptOut cfg s).tprev cfg.t1 = _
          rw [hk ha, min_eq_left hle1]; rfl
        · refine ⟨?_, (i2 p hpm).2⟩
          refine le_trans hle ?_
          have := (i2 p hpm).1
          rw [e2] at this
          exact this
      | false =>
        have hp : piecesFrom cfg (n + 1) s = piecesFrom cfg n (coreBody cfg s).1 := by
          simp [piecesFrom, attempts, hc, ha]
        rw [e1, hrj ha, min_eq_left (le_trans hle hle1)] at i2
        rw [hp]
        exact ⟨i1, i2⟩
    · have hc' : condFun cfg s = false := by simpa using hc
      simp [piecesFrom, attempts, hc']

theorem loopEntries_sorted (cfg : Cfg T Y E D S C O F) (y0 : Y) (tnext : T) (ctrl : C) (ss : S)
    (mj : Bool) (sub : SubSaveAt T Y O)
    (h : ∀ s ∈ history cfg y0 tnext ctrl ss mj, (adaptOut cfg s).Exact s.tprev s.tnext ∧
      s.tprev ≤ s.tnext ∧ s.tnext ≤ cfg.t1)
    (hsort : sub.ts.Pairwise (· ≤ ·)) (hlo : ∀ t ∈ sub.ts, cfg.t0 ≤ t) :
    (loopEntries cfg y0 (pieces cfg y0 tnext ctrl ss mj) sub).Pairwise (fun a b => a.1 ≤ b.1) := by
  obtain ⟨p1, p2⟩ := piecesFrom_sorted cfg cfg.maxSteps (initState cfg y0 tnext ctrl ss mj).core h
  rw [← pieces_eq] at p1 p2
  obtain ⟨q1, q2⟩ := stepEntries_sorted cfg.solver sub _ 0 sub.ts cfg.t0 p1 (fun p hp => (p2 p hp).2)
    (fun p hp => (p2 p hp).1) hsort hlo
  unfold loopEntries
  rw [List.pairwise_append]
  refine ⟨?_, q2, ?_⟩
  · split <;> simp
  · intro a ha b hb
    split at ha
    · rw [List.mem_singleton] at ha
      rw [ha]; exact q1 b hb
    · simp at ha

end Verif
