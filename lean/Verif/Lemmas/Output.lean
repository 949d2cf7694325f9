import Verif.Lemmas.Buffer
import Verif.Lemmas.Log
import Mathlib.Data.List.TakeWhile

/-! # Helper lemmas: the saved output of a whole solve -/

set_option linter.unusedSectionVars false

namespace Verif

variable {T Y E D S C O F : Type} [LinearOrder T] [LinearOrder F] [Zero F]

/-- What one `SubSaveAt` has saved when the loop ends. -/
def subLoop (cfg : Cfg T Y E D S C O F) (y0 : Y) (tnext : T) (ctrl : C) (ss : S) (mj : Bool)
    (sub : SubSaveAt T Y O) : SaveState T O :=
  (history cfg y0 tnext ctrl ss mj).foldl (subBody cfg sub)
    (saveT0 cfg y0 sub (allocate cfg.maxSteps sub))

theorem solve_saves (cfg : Cfg T Y E D S C O F) (y0 : Y) (tnext : T) (ctrl : C) (ss : S) (mj : Bool) :
    (solve cfg y0 tnext ctrl ss mj).saves = cfg.subs.map (fun sub =>
      saveT1 cfg (solve cfg y0 tnext ctrl ss mj).core.numAccepted
        (solve cfg y0 tnext ctrl ss mj).tfinal (solve cfg y0 tnext ctrl ss mj).yfinal sub
        (saveIfT0EqT1 cfg (solve cfg y0 tnext ctrl ss mj).yfinal sub
          (match cfg.rootFinder with
           | none => subLoop cfg y0 tnext ctrl ss mj sub
           | some _ => unsave (solve cfg y0 tnext ctrl ss mj).tfinal
              (subLoop cfg y0 tnext ctrl ss mj sub)))) := by
  set s0 : LState T Y D S C O F :=
    { initState cfg y0 tnext ctrl ss mj with
      saves := List.zipWith (fun sub sv => saveT0 cfg y0 sub sv) cfg.subs
        (initState cfg y0 tnext ctrl ss mj).saves
      dense := if cfg.dense then { (initState cfg y0 tnext ctrl ss mj).dense with
                  ts := (initState cfg y0 tnext ctrl ss mj).dense.ts.set 0 (some cfg.t0) }
               else (initState cfg y0 tnext ctrl ss mj).dense } with hs0
  have hlen0 : (initState cfg y0 tnext ctrl ss mj).saves.length = cfg.subs.length := by
    simp [initState]
  have hw : (whileLoop cfg cfg.maxSteps s0).saves
      = cfg.subs.map (subLoop cfg y0 tnext ctrl ss mj) := by
    rw [whileLoop_saves]
    · apply List.ext_getElem
      · simp [hs0, hlen0]
      · intro i h1 h2
        simp only [List.getElem_zipWith, List.getElem_map, hs0]
        simp only [initState, List.getElem_map]
        rfl
    · simp [hs0, hlen0]
  have hd : (solve cfg y0 tnext ctrl ss mj).saves = List.zipWith (fun sub sv =>
      saveT1 cfg (whileLoop cfg cfg.maxSteps s0).core.numAccepted
        (finalise cfg (whileLoop cfg cfg.maxSteps s0).core).1
        (finalise cfg (whileLoop cfg cfg.maxSteps s0).core).2.1 sub
        (saveIfT0EqT1 cfg (finalise cfg (whileLoop cfg cfg.maxSteps s0).core).2.1 sub sv)) cfg.subs
      (match cfg.rootFinder with
        | none => (whileLoop cfg cfg.maxSteps s0).saves
        | some _ => (whileLoop cfg cfg.maxSteps s0).saves.map
            (unsave (finalise cfg (whileLoop cfg cfg.maxSteps s0).core).1)) := rfl
  have hcore : (solve cfg y0 tnext ctrl ss mj).core = (whileLoop cfg cfg.maxSteps s0).core := rfl
  rw [hd, solve_tfinal, solve_yfinal, hcore, hw]
  cases cfg.rootFinder with
  | none => apply List.ext_getElem <;> simp
  | some f => apply List.ext_getElem <;> simp

theorem pieces_eq (cfg : Cfg T Y E D S C O F) (y0 : Y) (tnext : T) (ctrl : C) (ss : S) (mj : Bool) :
    pieces cfg y0 tnext ctrl ss mj
      = piecesFrom cfg cfg.maxSteps (initState cfg y0 tnext ctrl ss mj).core := rfl

theorem pieces_length (cfg : Cfg T Y E D S C O F) (y0 : Y) (tnext : T) (ctrl : C) (ss : S)
    (mj : Bool) :
    (pieces cfg y0 tnext ctrl ss mj).length = (solve cfg y0 tnext ctrl ss mj).core.numAccepted ∧
    (pieces cfg y0 tnext ctrl ss mj).length ≤ cfg.maxSteps := by
  have h := (coreRun_counts cfg cfg.maxSteps (initState cfg y0 tnext ctrl ss mj).core).2.1
  have e2 : (initState cfg y0 tnext ctrl ss mj).core.numAccepted = 0 := rfl
  rw [e2, Nat.zero_add] at h
  rw [solve_core, h]
  refine ⟨by simp [pieces, history], ?_⟩
  simp only [pieces, history, List.length_map]
  exact le_trans (List.length_filter_le _ _) (attempts_length_le _ _ _)

/-- The entries written during the loop. -/
def loopEntries (cfg : Cfg T Y E D S C O F) (y0 : Y) (ps : List (Piece T Y D))
    (sub : SubSaveAt T Y O) : List (T × O) :=
  (if sub.t0 then [(cfg.t0, sub.fn cfg.t0 y0)] else []) ++ stepEntries cfg.solver sub ps 0 sub.ts

theorem loopEntries_length (cfg : Cfg T Y E D S C O F) (y0 : Y) (ps : List (Piece T Y D))
    (sub : SubSaveAt T Y O) (h : ps.length ≤ cfg.maxSteps) :
    (loopEntries cfg y0 ps sub).length ≤ (if sub.t0 then 1 else 0) + sub.ts.length
      + (if sub.steps ≠ 0 then ps.length / sub.steps else 0) ∧
    (loopEntries cfg y0 ps sub).length ≤ allocSize cfg.maxSteps sub := by
  have h1 := stepEntries_length cfg.solver sub ps 0 sub.ts
  simp only [Nat.zero_add, Nat.zero_div, Nat.sub_zero] at h1
  have ht0 : (if sub.t0 = true then [(cfg.t0, sub.fn cfg.t0 y0)] else []).length
      = if sub.t0 = true then 1 else 0 := by split <;> rfl
  have hdiv : ps.length / sub.steps ≤ cfg.maxSteps / sub.steps := Nat.div_le_div_right h
  simp only [loopEntries, List.length_append, ht0, allocSize]
  by_cases hst : sub.steps = 0
  · simp only [hst, Nat.div_zero] at h1
    simp only [hst, ne_eq, not_true_eq_false, if_false]
    omega
  · simp only [ne_eq, hst, not_false_eq_true, if_true]
    omega

theorem allocate_rep (n : Nat) (sub : SubSaveAt T Y O) :
    Rep (allocSize n sub) [] (allocate n sub) :=
  ⟨by simp [allocate, padded], rfl, Nat.zero_le _⟩

theorem subLoop_rep (cfg : Cfg T Y E D S C O F) (y0 : Y) (tnext : T) (ctrl : C) (ss : S) (mj : Bool)
    (sub : SubSaveAt T Y O) :
    Rep (allocSize cfg.maxSteps sub) (loopEntries cfg y0 (pieces cfg y0 tnext ctrl ss mj) sub)
      (subLoop cfg y0 tnext ctrl ss mj sub) := by
  have hl := (loopEntries_length cfg y0 (pieces cfg y0 tnext ctrl ss mj) sub
    (pieces_length cfg y0 tnext ctrl ss mj).2).2
  have h0 := allocate_rep cfg.maxSteps sub
  have ht0 : Rep (allocSize cfg.maxSteps sub)
      (if sub.t0 then [(cfg.t0, sub.fn cfg.t0 y0)] else [])
      (saveT0 cfg y0 sub (allocate cfg.maxSteps sub)) ∧
      (saveT0 cfg y0 sub (allocate cfg.maxSteps sub)).tsIndex = 0 := by
    unfold saveT0
    cases ht : sub.t0 with
    | true =>
      have := rep_save h0 1 (by
        simp only [loopEntries, ht, if_true, List.length_append, List.length_singleton] at hl
        simp; omega) cfg.t0 y0 sub.fn
      exact ⟨by simpa using this, rfl⟩
    | false => exact ⟨by simpa using h0, rfl⟩
  unfold subLoop history
  have e2 : (initState cfg y0 tnext ctrl ss mj).core.numAccepted = 0 := rfl
  have := fold_subBody cfg sub (allocSize cfg.maxSteps sub) cfg.maxSteps
    (initState cfg y0 tnext ctrl ss mj).core _ sub.ts _ ht0.1 (by rw [ht0.2]; rfl) (by
      rw [e2, ← pieces_eq, ← List.length_append]; exact hl)
  rw [e2, ← pieces_eq] at this
  exact this

/-! ### A weaker representation, after entries may have been deleted -/

/-- A save state holds exactly the entries `es`, followed by padding of either kind. -/
def Rep' (size : Nat) (es : List (T × O)) (sv : SaveState T O) : Prop :=
  ∃ pad : List (Slot T O), sv.buf = es.map (fun e => .val e.1 e.2) ++ pad ∧
    (∀ x ∈ pad, x = .empty ∨ x = .deleted) ∧ sv.saveIndex = es.length ∧ sv.buf.length = size

theorem Rep.weaken {size : Nat} {es : List (T × O)} {sv : SaveState T O} (h : Rep size es sv) :
    Rep' size es sv := by
  obtain ⟨h1, h2, h3⟩ := h
  refine ⟨_, h1, ?_, h2, ?_⟩
  · intro x hx; left; exact List.eq_of_mem_replicate hx
  · rw [h1]; exact padded_length _ _ h3

theorem entriesOf_append (a b : List (Slot T O)) :
    entriesOf (a ++ b) = entriesOf a ++ entriesOf b := by simp [entriesOf]

theorem entriesOf_val (es : List (T × O)) :
    entriesOf (es.map (fun e => (Slot.val e.1 e.2 : Slot T O))) = es := by
  induction es with
  | nil => rfl
  | cons e es ih => simp only [entriesOf, List.map_cons, List.filterMap_cons] at ih ⊢; rw [ih]

theorem entriesOf_pad (pad : List (Slot T O)) (h : ∀ x ∈ pad, x = .empty ∨ x = .deleted) :
    entriesOf pad = [] := by
  induction pad with
  | nil => rfl
  | cons x pad ih =>
    have hx := h x (by simp)
    have := ih (fun y hy => h y (List.mem_cons_of_mem _ hy))
    simp only [entriesOf, List.filterMap_cons] at this ⊢
    rcases hx with rfl | rfl <;> simpa using this

theorem Rep'.entries {size : Nat} {es : List (T × O)} {sv : SaveState T O} (h : Rep' size es sv) :
    entriesOf sv.buf = es := by
  obtain ⟨pad, h1, h2, -, -⟩ := h
  rw [h1, entriesOf_append, entriesOf_val, entriesOf_pad pad h2, List.append_nil]

theorem Rep'.length_le {size : Nat} {es : List (T × O)} {sv : SaveState T O} (h : Rep' size es sv) :
    es.length ≤ size := by
  obtain ⟨pad, h1, -, -, h4⟩ := h
  rw [← h4, h1]; simp

theorem Rep'.save {size : Nat} {es : List (T × O)} {sv : SaveState T O} (h : Rep' size es sv)
    (rep : Nat) (hs : es.length + rep ≤ size) (t : T) (y : Y) (fn : T → Y → O) :
    Rep' size (es ++ List.replicate rep (t, fn t y)) (Verif.save t y fn sv rep true) := by
  obtain ⟨pad, h1, h2, h3, h4⟩ := h
  have hp : rep ≤ pad.length := by
    have : sv.buf.length = es.length + pad.length := by rw [h1]; simp
    omega
  have hbl : sv.buf.length = es.length + pad.length := by rw [h1]; simp
  have hm : min sv.saveIndex (sv.buf.length - rep) = es.length := by omega
  have hbuf : (Verif.save t y fn sv rep true).buf
      = (es ++ List.replicate rep (t, fn t y)).map (fun e => .val e.1 e.2) ++ pad.drop rep := by
    simp only [Verif.save, if_true, updateSlice, hm]
    rw [h1, List.take_append_of_le_length (by simp), List.take_of_length_le (by simp),
      List.drop_append, List.drop_eq_nil_of_le (by simp)]
    simp
  refine ⟨pad.drop rep, hbuf, fun x hx => h2 x (List.mem_of_mem_drop hx), by simp [Verif.save, h3], ?_⟩
  rw [hbuf]
  simp only [List.length_append, List.length_map, List.length_replicate, List.length_drop]
  omega

/-- Saving into a full buffer overwrites the last entry (the start index is clamped). -/
theorem Rep'.save_full {size : Nat} {es : List (T × O)} {sv : SaveState T O} (h : Rep' size es sv)
    (hs : es.length = size) (hpos : 0 < size) (t : T) (y : Y) (fn : T → Y → O) :
    entriesOf (Verif.save t y fn sv 1 true).buf = es.dropLast ++ [(t, fn t y)] := by
  obtain ⟨pad, h1, h2, h3, h4⟩ := h
  have hp : pad = [] := by
    have : sv.buf.length = es.length + pad.length := by rw [h1]; simp
    exact List.length_eq_zero_iff.1 (by omega)
  subst hp
  rw [List.append_nil] at h1
  have hm : min sv.saveIndex (sv.buf.length - 1) = es.length - 1 := by omega
  have hbuf : (Verif.save t y fn sv 1 true).buf
      = (es.dropLast ++ [(t, fn t y)]).map (fun e => .val e.1 e.2) := by
    simp only [Verif.save, if_true, updateSlice, hm]
    rw [h1, List.drop_eq_nil_of_le (by simp; omega), ← List.map_take, List.dropLast_eq_take]
    simp
  rw [hbuf, entriesOf_val]

/-! ### `unsave` -/

theorem filter_sorted_split (es : List (T × O)) (tf : T)
    (hsort : es.Pairwise (fun a b => a.1 ≤ b.1)) :
    ∃ a b, es = a ++ b ∧ (∀ e ∈ a, e.1 ≤ tf) ∧ (∀ e ∈ b, tf < e.1) ∧
      es.filter (fun e => decide (e.1 ≤ tf)) = a := by
  refine ⟨es.takeWhile (fun e => decide (e.1 ≤ tf)), es.dropWhile (fun e => decide (e.1 ≤ tf)),
    (List.takeWhile_append_dropWhile).symm, ?_, ?_, ?_⟩
  · intro e he; simpa using List.mem_takeWhile_imp he
  · induction es with
    | nil => simp
    | cons x es ih =>
      rw [List.pairwise_cons] at hsort
      by_cases hx : x.1 ≤ tf
      · rw [List.dropWhile_cons_of_pos (by simpa using hx)]; exact ih hsort.2
      · rw [List.dropWhile_cons_of_neg (by simpa using hx)]
        intro e he
        rcases List.mem_cons.1 he with rfl | he
        · exact not_le.1 hx
        · exact lt_of_lt_of_le (not_le.1 hx) (hsort.1 e he)
  · induction es with
    | nil => simp
    | cons x es ih =>
      rw [List.pairwise_cons] at hsort
      by_cases hx : x.1 ≤ tf
      · rw [List.takeWhile_cons_of_pos (by simpa using hx), List.filter_cons_of_pos (by simpa using hx),
          ih hsort.2]
      · rw [List.takeWhile_cons_of_neg (by simpa using hx), List.filter_cons_of_neg (by simpa using hx)]
        rw [List.filter_eq_nil_iff]
        intro e he
        have := hsort.1 e he
        simpa using lt_of_lt_of_le (not_le.1 hx) this

theorem countP_val (b : List (T × O)) (tf : T) (h : ∀ e ∈ b, tf < e.1) :
    (b.map (fun e => (Slot.val e.1 e.2 : Slot T O))).countP (Slot.after tf) = b.length := by
  induction b with
  | nil => rfl
  | cons x b ih =>
    rw [List.map_cons, List.countP_cons_of_pos (by simpa [Slot.after] using h x (by simp)),
      ih (fun e he => h e (List.mem_cons_of_mem _ he)), List.length_cons]

theorem countP_val_zero (b : List (T × O)) (tf : T) (h : ∀ e ∈ b, e.1 ≤ tf) :
    (b.map (fun e => (Slot.val e.1 e.2 : Slot T O))).countP (Slot.after tf) = 0 := by
  rw [List.countP_eq_zero]
  intro s hs
  obtain ⟨e, he, rfl⟩ := List.mem_map.1 hs
  simpa [Slot.after] using h e he

theorem countP_pad (pad : List (Slot T O)) (tf : T) (h : ∀ x ∈ pad, x = .empty ∨ x = .deleted) :
    pad.countP (Slot.after tf) = 0 := by
  rw [List.countP_eq_zero]
  intro s hs
  rcases h s hs with rfl | rfl <;> simp [Slot.after]

theorem Rep'.unsave {size : Nat} {es : List (T × O)} {sv : SaveState T O} (h : Rep' size es sv)
    (tf : T) (hsort : es.Pairwise (fun a b => a.1 ≤ b.1)) :
    Rep' size (es.filter (fun e => decide (e.1 ≤ tf))) (Verif.unsave tf sv) := by
  obtain ⟨pad, h1, h2, h3, h4⟩ := h
  obtain ⟨a, b, hab, ha, hb, hf⟩ := filter_sorted_split es tf hsort
  rw [hf]
  have hcnt : sv.buf.countP (Slot.after tf) = b.length := by
    rw [h1, hab, List.map_append, List.countP_append, List.countP_append, countP_val b tf hb,
      countP_val_zero a tf ha, countP_pad pad tf h2]
    omega
  have hmap : sv.buf.map (fun x => if x.after tf then Slot.deleted else x)
      = a.map (fun e => .val e.1 e.2) ++ (b.map (fun _ => Slot.deleted) ++ pad) := by
    rw [h1, hab, List.map_append, List.map_append, List.map_append, List.append_assoc]
    congr 1
    · rw [List.map_map]
      apply List.map_congr_left
      intro e he
      have := ha e he
      simp [Slot.after, not_lt.2 this]
    · congr 1
      · rw [List.map_map]
        apply List.map_congr_left
        intro e he
        have := hb e he
        simp [Slot.after, this]
      · have : ∀ x ∈ pad, (fun x => if Slot.after tf x then Slot.deleted else x) x = id x := by
          intro x hx
          rcases h2 x hx with rfl | rfl <;> simp [Slot.after]
        rw [List.map_congr_left this, List.map_id]
  refine ⟨b.map (fun _ => Slot.deleted) ++ pad, hmap, ?_, ?_, ?_⟩
  · intro x hx
    rcases List.mem_append.1 hx with hx | hx
    · obtain ⟨_, _, rfl⟩ := List.mem_map.1 hx; right; rfl
    · exact h2 x hx
  · simp only [Verif.unsave, hcnt, h3, hab, List.length_append]; omega
  · simp only [Verif.unsave, List.length_map]; exact h4

end Verif
