import Verif.Model.Interp
import Verif.Lemmas.Sorted
import Mathlib.Data.List.Basic

/-! # Helper lemmas: segment search, dense buffers -/

set_option linter.unusedSectionVars false

namespace Verif

variable {T Y E D S C O F : Type} [LinearOrder T] [LinearOrder F] [Zero F]

theorem countP_eq_findIdx_lt (l : List T) (t : T) (h : l.Pairwise (· ≤ ·)) :
    l.countP (fun x => decide (x < t)) = l.findIdx (fun x => decide (t ≤ x)) := by
  induction l with
  | nil => rfl
  | cons x l ih =>
    rw [List.pairwise_cons] at h
    by_cases hx : x < t
    · rw [List.countP_cons_of_pos (by simpa using hx), List.findIdx_cons, ih h.2]
      simp [not_le.2 hx]
    · rw [List.countP_cons_of_neg (by simpa using hx), List.findIdx_cons]
      have : l.countP (fun x => decide (x < t)) = 0 := by
        rw [List.countP_eq_zero]
        intro y hy
        simpa using le_trans (not_lt.1 hx) (h.1 y hy)
      simp [not_lt.1 hx, this]

theorem countP_eq_findIdx_le (l : List T) (t : T) (h : l.Pairwise (· ≤ ·)) :
    l.countP (fun x => decide (x ≤ t)) = l.findIdx (fun x => decide (t < x)) := by
  induction l with
  | nil => rfl
  | cons x l ih =>
    rw [List.pairwise_cons] at h
    by_cases hx : x ≤ t
    · rw [List.countP_cons_of_pos (by simpa using hx), List.findIdx_cons, ih h.2]
      simp [not_lt.2 hx]
    · rw [List.countP_cons_of_neg (by simpa using hx), List.findIdx_cons]
      have : l.countP (fun x => decide (x ≤ t)) = 0 := by
        rw [List.countP_eq_zero]
        intro y hy
        simpa using lt_of_lt_of_le (not_le.1 hx) (h.1 y hy)
      simp [not_le.1 hx, this]

theorem countP_knotLt (l : List T) (k : Nat) (t : T) :
    (l.map some ++ List.replicate k none).countP (knotLt t) = l.countP (fun x => decide (x < t)) := by
  rw [List.countP_append, List.countP_map]
  have : (List.replicate k (none : Option T)).countP (knotLt t) = 0 := by
    rw [List.countP_eq_zero]; intro x hx; rw [List.eq_of_mem_replicate hx]; simp [knotLt]
  rw [this]; rfl

theorem countP_knotLe (l : List T) (k : Nat) (t : T) :
    (l.map some ++ List.replicate k none).countP (knotLe t) = l.countP (fun x => decide (x ≤ t)) := by
  rw [List.countP_append, List.countP_map]
  have : (List.replicate k (none : Option T)).countP (knotLe t) = 0 := by
    rw [List.countP_eq_zero]; intro x hx; rw [List.eq_of_mem_replicate hx]; simp [knotLe]
  rw [this]; rfl

/-- The dense buffers hold exactly these accepted steps. -/
def DenseRep (max : Nat) (t0 : T) (ps : List (Piece T Y D)) (d : DenseState T D) : Prop :=
  ps.length ≤ max ∧ d.index = ps.length ∧
  d.ts = (t0 :: ps.map (·.reached)).map some ++ List.replicate (max - ps.length) none ∧
  d.infos = (ps.map (·.dense)).map some ++ List.replicate (max - ps.length) none

theorem denseRep_push {max : Nat} {t0 : T} {ps : List (Piece T Y D)} {d : DenseState T D}
    (h : DenseRep max t0 ps d) (hlt : ps.length < max) (p : Piece T Y D) :
    DenseRep max t0 (ps ++ [p])
      { ts := d.ts.set (d.index + 1) (some p.reached), infos := d.infos.set d.index (some p.dense)
        index := d.index + 1 } := by
  obtain ⟨-, h1, h2, h3⟩ := h
  have hm : max - ps.length = (max - (ps ++ [p]).length) + 1 := by
    simp only [List.length_append, List.length_singleton]; omega
  refine ⟨by simp; omega, by simp [h1], ?_, ?_⟩
  · rw [h2, h1, hm, List.replicate_succ]
    rw [List.set_append_right _ _ (by simp)]
    simp
  · rw [h3, h1, hm, List.replicate_succ]
    rw [List.set_append_right _ _ (by simp)]
    simp

theorem fold_saveDense (cfg : Cfg T Y E D S C O F) (max : Nat) (t0 : T) (n : Nat)
    (s : Core T Y D S C F) (d : DenseState T D) (done : List (Piece T Y D))
    (h : DenseRep max t0 done d) (hmax : done.length + n ≤ max) :
    DenseRep max t0 (done ++ piecesFrom cfg n s)
      ((attempts cfg n s).foldl (fun d c => saveDense true (coreBody cfg c).2 d) d) := by
  induction n generalizing s d done with
  | zero => simpa [piecesFrom, attempts] using h
  | succ n ih =>
    by_cases hc : condFun cfg s = true
    · have hat : attempts cfg (n + 1) s = s :: attempts cfg n (coreBody cfg s).1 := by
        simp [attempts, hc]
      rw [hat, List.foldl_cons]
      cases ha : accepted cfg s with
      | true =>
        have hp : piecesFrom cfg (n + 1) s = piece cfg s :: piecesFrom cfg n (coreBody cfg s).1 := by
          simp [piecesFrom, attempts, hc, ha]
        have hsd : saveDense true (coreBody cfg s).2 d
            = { ts := d.ts.set (d.index + 1) (some (piece cfg s).reached)
                infos := d.infos.set d.index (some (piece cfg s).dense), index := d.index + 1 } := by
          have hk : (coreBody cfg s).2.keep = true := ha
          unfold saveDense
          rw [hk]; rfl
        rw [hsd, hp, List.append_cons]
        exact ih _ _ _ (denseRep_push h (by omega) _) (by simp; omega)
      | false =>
        have hp : piecesFrom cfg (n + 1) s = piecesFrom cfg n (coreBody cfg s).1 := by
          simp [piecesFrom, attempts, hc, ha]
        rw [hp, saveDense_rejected true _ ha]
        exact ih _ _ _ h (by omega)
    · have hc' : condFun cfg s = false := by simpa using hc
      simpa [piecesFrom, attempts, hc'] using h

theorem solve_dense (cfg : Cfg T Y E D S C O F) (hd : cfg.dense = true) (y0 : Y) (tnext : T)
    (ctrl : C) (ss : S) (mj : Bool) :
    DenseRep cfg.maxSteps cfg.t0 (pieces cfg y0 tnext ctrl ss mj)
      (solve cfg y0 tnext ctrl ss mj).dense := by
  have h0 : DenseRep (Y := Y) cfg.maxSteps cfg.t0 []
      { ts := (List.replicate (cfg.maxSteps + 1) (none : Option T)).set 0 (some cfg.t0)
        infos := List.replicate cfg.maxSteps (none : Option D), index := 0 } := by
    refine ⟨by simp, rfl, ?_, ?_⟩
    · rw [List.replicate_succ]; simp
    · simp
  have := fold_saveDense cfg cfg.maxSteps cfg.t0 cfg.maxSteps
    (initState cfg y0 tnext ctrl ss mj).core _ [] h0 (by simp)
  rw [List.nil_append, ← pieces_eq] at this
  have e : (solve cfg y0 tnext ctrl ss mj).dense
      = (whileLoop cfg cfg.maxSteps
          { initState cfg y0 tnext ctrl ss mj with
            saves := List.zipWith (fun sub sv => saveT0 cfg y0 sub sv) cfg.subs
              (initState cfg y0 tnext ctrl ss mj).saves
            dense := if cfg.dense then
                { (initState cfg y0 tnext ctrl ss mj).dense with
                  ts := (initState cfg y0 tnext ctrl ss mj).dense.ts.set 0 (some cfg.t0) }
              else (initState cfg y0 tnext ctrl ss mj).dense }).dense := rfl
  rw [e, whileLoop_dense, hd, if_pos rfl]
  have e2 : (initState cfg y0 tnext ctrl ss mj).dense =
      { ts := List.replicate (cfg.maxSteps + 1) none, infos := List.replicate cfg.maxSteps none,
        index := 0 } := by
    unfold initState; simp [hd]
  rw [e2]
  exact this

/-- Each accepted step starts where the previous one ended. -/
theorem piecesFrom_chain (cfg : Cfg T Y E D S C O F) (n : Nat) (s : Core T Y D S C F)
    (h : ∀ s' ∈ attempts cfg n s, (accepted cfg s' = false → (adaptOut cfg s').tprev = s'.tprev) ∧
      s'.tprev ≤ cfg.t1) :
    ∀ (i : Nat) (p : Piece T Y D), (piecesFrom cfg n s)[i]? = some p →
      (s.tprev :: (piecesFrom cfg n s).map (·.reached))[i]? = some p.t0 := by
  induction n generalizing s with
  | zero => simp [piecesFrom, attempts]
  | succ n ih =>
    by_cases hc : condFun cfg s = true
    · simp only [attempts, hc, if_true, List.mem_cons, forall_eq_or_imp] at h
      have hi := ih (coreBody cfg s).1 h.2
      have e1 : (coreBody cfg s).1.tprev = min (adaptOut cfg s).tprev cfg.t1 := rfl
      cases ha : accepted cfg s with
      | true =>
        have hp : piecesFrom cfg (n + 1) s = piece cfg s :: piecesFrom cfg n (coreBody cfg s).1 := by
          simp [piecesFrom, attempts, hc, ha]
        rw [hp]
        intro i p hip
        cases i with
        | zero =>
          simp only [List.getElem?_cons_zero, Option.some.injEq] at hip ⊢
          rw [← hip]; rfl
        | succ i =>
          rw [List.getElem?_cons_succ] at hip
          rw [List.map_cons, List.getElem?_cons_succ]
          exact hi i p hip
      | false =>
        have hp : piecesFrom cfg (n + 1) s = piecesFrom cfg n (coreBody cfg s).1 := by
          simp [piecesFrom, attempts, hc, ha]
        rw [hp]
        rw [e1, h.1.1 ha, min_eq_left h.1.2] at hi
        exact hi
    · have hc' : condFun cfg s = false := by simpa using hc
      simp [piecesFrom, attempts, hc']

end Verif
