import Verif.Lemmas.Loop

/-!
# Helper lemmas: index-based buffers against plain lists of entries
-/

set_option linter.unusedSectionVars false

namespace Verif

variable {T Y E D S C O F : Type} [LinearOrder T] [LinearOrder F] [Zero F]

/-- A save state holds exactly the entries `es` in a buffer of size `size`. -/
def Rep (size : Nat) (es : List (T × O)) (sv : SaveState T O) : Prop :=
  sv.buf = padded size es ∧ sv.saveIndex = es.length ∧ es.length ≤ size

theorem padded_length (size : Nat) (es : List (T × O)) (h : es.length ≤ size) :
    (padded size es).length = size := by
  simp [padded]; omega

theorem padded_set (size : Nat) (es : List (T × O)) (t : T) (o : O) (h : es.length < size) :
    (padded size es).set es.length (.val t o) = padded size (es ++ [(t, o)]) := by
  obtain ⟨k, rfl⟩ : ∃ k, size = es.length + (k + 1) := ⟨size - es.length - 1, by omega⟩
  have e1 : es.length + (k + 1) - es.length = k + 1 := by omega
  have e2 : es.length + (k + 1) - (es ++ [(t, o)]).length = k := by simp; omega
  simp only [padded, e1, e2, List.replicate_succ]
  rw [List.set_append_right _ _ (by simp)]
  simp

theorem rep_push {size : Nat} {es : List (T × O)} {sv : SaveState T O} (h : Rep size es sv)
    (hs : es.length < size) (t : T) (o : O) (j : Nat) :
    Rep size (es ++ [(t, o)])
      { tsIndex := j, buf := sv.buf.set sv.saveIndex (.val t o), saveIndex := sv.saveIndex + 1 } := by
  obtain ⟨h1, h2, h3⟩ := h
  refine ⟨?_, by simp [h2], by simp; omega⟩
  simp only [h1, h2]
  exact padded_set size es t o hs

theorem updateSlice_padded (size : Nat) (es : List (T × O)) (t : T) (o : O) (rep : Nat)
    (h : es.length + rep ≤ size) :
    updateSlice (padded size es) rep (.val t o) es.length
      = padded size (es ++ List.replicate rep (t, o)) := by
  obtain ⟨k, rfl⟩ : ∃ k, size = es.length + (rep + k) := ⟨size - es.length - rep, by omega⟩
  have e0 : (padded (es.length + (rep + k)) es).length = es.length + (rep + k) :=
    padded_length _ _ (by omega)
  have e3 : min es.length ((padded (es.length + (rep + k)) es).length - rep) = es.length := by
    rw [e0]; omega
  simp only [updateSlice, e3]
  have e1 : es.length + (rep + k) - es.length = rep + k := by omega
  have e2 : es.length + (rep + k) - (es ++ List.replicate rep (t, o)).length = k := by
    simp only [List.length_append, List.length_replicate]; omega
  simp only [padded, e1, e2]
  have hlen : (es.map (fun e : T × O => (Slot.val e.1 e.2 : Slot T O))).length = es.length := by simp
  rw [List.take_append_of_le_length (by simp), List.take_of_length_le (by simp)]
  rw [List.drop_append, List.drop_eq_nil_of_le (by simp)]
  simp

theorem rep_save {size : Nat} {es : List (T × O)} {sv : SaveState T O} (h : Rep size es sv)
    (rep : Nat) (hs : es.length + rep ≤ size) (t : T) (y : Y) (fn : T → Y → O) :
    Rep size (es ++ List.replicate rep (t, fn t y)) (save t y fn sv rep true) := by
  obtain ⟨h1, h2, h3⟩ := h
  refine ⟨?_, by simp [save, h2], by simpa using hs⟩
  simp only [save, if_true, h1, h2]
  exact updateSlice_padded size es t _ rep hs

/-- `_save` with a false predicate leaves the buffer as it is, provided it has any entry at all. -/
theorem save_false_buf (buf : List (Slot T O)) (sv : SaveState T O) (hb : sv.buf = buf)
    (hpos : 0 < buf.length) (t : T) (y : Y) (fn : T → Y → O) :
    (save t y fn sv 1 false).buf = buf := by
  subst hb
  simp only [save, Bool.false_eq_true, if_false, updateSlice, readClamped, List.replicate_one]
  set s := min sv.saveIndex (sv.buf.length - 1) with hsdef
  have hs : s < sv.buf.length := by omega
  rw [List.getElem?_eq_getElem hs, Option.getD_some]
  rw [List.append_assoc, List.singleton_append, ← List.drop_eq_getElem_cons hs]
  exact List.take_append_drop _ _

/-! ### The inner `ts` loop -/

theorem saveTsLoop_spec (sub : SubSaveAt T Y O) (ip : T → Y) (tnext : T) (size : Nat) (fuel : Nat)
    (es : List (T × O)) (sv : SaveState T O) (h : Rep size es sv)
    (hfuel : (sub.ts.drop sv.tsIndex).length ≤ fuel)
    (hs : es.length + ((sub.ts.drop sv.tsIndex).takeWhile (· ≤ tnext)).length ≤ size) :
    Rep size (es ++ ((sub.ts.drop sv.tsIndex).takeWhile (· ≤ tnext)).map
        (fun t => (t, sub.fn t (ip t)))) (saveTsLoop sub ip true tnext fuel sv) ∧
    sub.ts.drop (saveTsLoop sub ip true tnext fuel sv).tsIndex
      = (sub.ts.drop sv.tsIndex).dropWhile (· ≤ tnext) := by
  induction fuel generalizing es sv with
  | zero =>
    have : sub.ts.drop sv.tsIndex = [] := List.length_eq_zero_iff.1 (by omega)
    simp [saveTsLoop, this, h]
  | succ fuel ih =>
    simp only [saveTsLoop]
    by_cases hlt : sv.tsIndex < sub.ts.length
    · have hdrop := List.drop_eq_getElem_cons hlt
      rw [List.getElem?_eq_getElem hlt]
      simp only [Bool.true_and]
      by_cases hle : sub.ts[sv.tsIndex] ≤ tnext
      · simp only [hle, decide_true, if_true]
        rw [hdrop] at hs hfuel ⊢
        simp only [hle, decide_true, List.takeWhile_cons_of_pos, List.dropWhile_cons_of_pos,
          List.length_cons, List.map_cons] at hs hfuel ⊢
        have hpush := rep_push h (by omega) sub.ts[sv.tsIndex]
          (sub.fn sub.ts[sv.tsIndex] (ip sub.ts[sv.tsIndex])) (sv.tsIndex + 1)
        have := ih _ (saveTsBody sub ip sub.ts[sv.tsIndex] sv) hpush (by
          simp only [saveTsBody]; omega) (by
          simp only [saveTsBody, List.length_append, List.length_singleton]; omega)
        simp only [saveTsBody] at this
        rw [List.append_assoc] at this
        exact this
      · simp only [hle, decide_false, Bool.false_eq_true, if_false]
        rw [hdrop]
        rw [List.takeWhile_cons_of_neg (by simpa using hle),
          List.dropWhile_cons_of_neg (by simpa using hle)]
        simpa using h
    · have hnil : sub.ts.drop sv.tsIndex = [] := List.drop_eq_nil_of_le (by omega)
      rw [List.getElem?_eq_none (by omega)]
      simp [hnil, h]

/-! ### The whole run -/

/-- The accepted steps of a run from an arbitrary state. -/
def piecesFrom (cfg : Cfg T Y E D S C O F) (n : Nat) (s : Core T Y D S C F) : List (Piece T Y D) :=
  ((attempts cfg n s).filter (accepted cfg)).map (piece cfg)

/-- Saving done by the body in state `c`, for one `SubSaveAt`. -/
def subBody (cfg : Cfg T Y E D S C O F) (sub : SubSaveAt T Y O) (sv : SaveState T O)
    (c : Core T Y D S C F) : SaveState T O :=
  saveSteps sub (coreBody cfg c).2 (saveTs cfg sub (coreBody cfg c).2 sv)

theorem subBody_rejected (cfg : Cfg T Y E D S C O F) (sub : SubSaveAt T Y O) (sv : SaveState T O)
    (c : Core T Y D S C F) (h : accepted cfg c = false) : subBody cfg sub sv c = sv :=
  save_rejected cfg sub _ h sv

theorem subBody_accepted (cfg : Cfg T Y E D S C O F) (sub : SubSaveAt T Y O) (sv : SaveState T O)
    (c : Core T Y D S C F) (hacc : accepted cfg c = true) (size : Nat) (es : List (T × O))
    (rest : List T) (h : Rep size es sv) (hrest : sub.ts.drop sv.tsIndex = rest)
    (news : List (T × O))
    (hnews : news = (rest.takeWhile (· ≤ (piece cfg c).t1)).map
        (fun t => (t, sub.fn t ((piece cfg c).eval cfg.solver t)))
      ++ (if sub.steps ≠ 0 ∧ sub.steps ∣ c.numAccepted + 1 then
          [((piece cfg c).reached, sub.fn (piece cfg c).reached (piece cfg c).y)] else []))
    (hs : es.length + news.length ≤ size) :
    Rep size (es ++ news) (subBody cfg sub sv c) ∧
    sub.ts.drop (subBody cfg sub sv c).tsIndex = rest.dropWhile (· ≤ (piece cfg c).t1) := by
  have hk : (coreBody cfg c).2.keep = true := hacc
  have hna : (coreBody cfg c).2.numAccepted = c.numAccepted + 1 := by
    change c.numAccepted + (if accepted cfg c then 1 else 0) = _
    rw [hacc]; rfl
  have hy : (coreBody cfg c).2.y = (piece cfg c).y := by
    change (if accepted cfg c then _ else _) = _
    rw [hacc]; rfl
  subst hrest
  subst hnews
  have h1 := saveTsLoop_spec sub ((piece cfg c).eval cfg.solver) (piece cfg c).t1 size sub.ts.length
    es sv h (by simp) (by
      simp only [List.length_append, List.length_map] at hs; omega)
  obtain ⟨hr, hd⟩ := h1
  have e1 : saveTs cfg sub (coreBody cfg c).2 sv
      = saveTsLoop sub ((piece cfg c).eval cfg.solver) true (piece cfg c).t1 sub.ts.length sv := by
    unfold saveTs; rw [hk]; rfl
  unfold subBody
  rw [e1]
  unfold saveSteps
  rw [hk, hna, hy]
  by_cases hst : sub.steps ≠ 0
  · by_cases hdv : (c.numAccepted + 1) % sub.steps = 0
    · have hcond : sub.steps ≠ 0 ∧ sub.steps ∣ c.numAccepted + 1 := ⟨hst, Nat.dvd_of_mod_eq_zero hdv⟩
      simp only [if_pos hst, hdv, decide_true, Bool.and_true, if_true, if_pos hcond] at hs ⊢
      rw [← List.append_assoc]
      refine ⟨rep_push hr ?_ _ _ _, hd⟩
      simp only [List.length_append, List.length_map, List.length_singleton] at hs ⊢
      omega
    · have hcond : ¬ (sub.steps ≠ 0 ∧ sub.steps ∣ c.numAccepted + 1) :=
        fun hh => hdv (Nat.mod_eq_zero_of_dvd hh.2)
      simp only [if_pos hst, hdv, decide_false, Bool.and_false, Bool.false_eq_true, if_false,
        if_neg hcond, List.append_nil]
      exact ⟨hr, hd⟩
  · have hcond : ¬ (sub.steps ≠ 0 ∧ sub.steps ∣ c.numAccepted + 1) := fun hh => hst hh.1
    simp only [if_neg hst, if_neg hcond, List.append_nil]
    exact ⟨hr, hd⟩

theorem fold_subBody (cfg : Cfg T Y E D S C O F) (sub : SubSaveAt T Y O) (size : Nat) (n : Nat)
    (s : Core T Y D S C F) (es : List (T × O)) (rest : List T) (sv : SaveState T O)
    (h : Rep size es sv) (hrest : sub.ts.drop sv.tsIndex = rest)
    (hs : es.length
      + (stepEntries cfg.solver sub (piecesFrom cfg n s) s.numAccepted rest).length ≤ size) :
    Rep size (es ++ stepEntries cfg.solver sub (piecesFrom cfg n s) s.numAccepted rest)
      ((attempts cfg n s).foldl (subBody cfg sub) sv) := by
  induction n generalizing s es rest sv with
  | zero => simpa [attempts, piecesFrom, stepEntries] using h
  | succ n ih =>
    by_cases hc : condFun cfg s = true
    · cases hacc : accepted cfg s with
      | true =>
        have hp : piecesFrom cfg (n + 1) s = piece cfg s :: piecesFrom cfg n (coreBody cfg s).1 := by
          simp [piecesFrom, attempts, hc, hacc]
        have hna : (coreBody cfg s).1.numAccepted = s.numAccepted + 1 := by
          rw [coreBody_numAccepted, hacc]; rfl
        simp only [attempts, hc, if_true, List.foldl_cons]
        rw [hp] at hs ⊢
        simp only [stepEntries] at hs ⊢
        rw [List.length_append] at hs
        have hb := subBody_accepted cfg sub sv s hacc size es rest h hrest _ rfl (by omega)
        have := ih (coreBody cfg s).1 _ _ _ hb.1 hb.2 (by
          rw [hna, List.length_append]; omega)
        rw [hna, List.append_assoc] at this
        exact this
      | false =>
        have hp : piecesFrom cfg (n + 1) s = piecesFrom cfg n (coreBody cfg s).1 := by
          simp [piecesFrom, attempts, hc, hacc]
        have hna : (coreBody cfg s).1.numAccepted = s.numAccepted := by
          rw [coreBody_numAccepted, hacc]; rfl
        simp only [attempts, hc, if_true, List.foldl_cons]
        rw [hp] at hs ⊢
        rw [subBody_rejected cfg sub sv s hacc]
        have := ih (coreBody cfg s).1 es rest sv h hrest (by rw [hna]; exact hs)
        rw [hna] at this
        exact this
    · have hc' : condFun cfg s = false := by simpa using hc
      have hp : piecesFrom cfg (n + 1) s = [] := by simp [piecesFrom, attempts, hc']
      rw [hp]
      simpa [attempts, hc', stepEntries] using h

/-! ### Capacity -/

theorem stepEntries_length (sv : Solver T Y E D S) (sub : SubSaveAt T Y O) (ps : List (Piece T Y D))
    (k : Nat) (rest : List T) :
    (stepEntries sv sub ps k rest).length
      ≤ rest.length + ((k + ps.length) / sub.steps - k / sub.steps) := by
  induction ps generalizing k rest with
  | nil => simp [stepEntries]
  | cons p ps ih =>
    have hw : (rest.takeWhile (· ≤ p.t1)).length + (rest.dropWhile (· ≤ p.t1)).length
        = rest.length := by
      rw [← List.length_append, List.takeWhile_append_dropWhile]
    have hi := ih (k + 1) (rest.dropWhile (· ≤ p.t1))
    have e : k + 1 + ps.length = k + (p :: ps).length := by simp; omega
    rw [e] at hi
    simp only [stepEntries, List.length_append, List.length_map]
    have hmono : (k + 1) / sub.steps ≤ (k + (p :: ps).length) / sub.steps :=
      Nat.div_le_div_right (by simp)
    have hmono' : k / sub.steps ≤ (k + 1) / sub.steps := Nat.div_le_div_right (by omega)
    split
    · rename_i hd
      have : (k + 1) / sub.steps = k / sub.steps + 1 := by
        rw [Nat.succ_div, if_pos hd.2]
      simp only [List.length_singleton]
      omega
    · simp only [List.length_nil]
      omega

theorem expectedEntries_length (sv : Solver T Y E D S) (sub : SubSaveAt T Y O) (t0 : T) (y0 : Y)
    (ps : List (Piece T Y D)) (tf : T) (yf : Y) (maxSteps : Nat) (h : ps.length ≤ maxSteps) :
    (expectedEntries sv sub t0 y0 ps tf yf).length ≤ allocSize maxSteps sub := by
  have h1 := stepEntries_length sv sub ps 0 sub.ts
  simp only [expectedEntries, List.length_append, allocSize]
  simp only [Nat.zero_add, Nat.zero_div, Nat.sub_zero] at h1
  have hdiv : ps.length / sub.steps ≤ maxSteps / sub.steps := Nat.div_le_div_right h
  have ht0 : (if sub.t0 = true then [(t0, sub.fn t0 y0)] else []).length
      = if sub.t0 = true then 1 else 0 := by split <;> rfl
  rw [ht0]
  by_cases hst : sub.steps = 0
  · simp only [hst, Nat.div_zero] at h1
    simp only [hst, ne_eq, not_true_eq_false, false_and, not_false_eq_true, and_true, if_false,
      true_or]
    by_cases ht1 : sub.t1 = true
    · simp only [ht1, if_true, List.length_singleton]; omega
    · simp only [if_neg ht1, List.length_nil]; omega
  · have hpos : 0 < sub.steps := Nat.pos_of_ne_zero hst
    simp only [ne_eq, hst, not_false_eq_true, true_and, if_true, false_or]
    by_cases ht1 : sub.t1 = true
    · by_cases hd : sub.steps ∣ ps.length
      · simp only [ht1, hd, not_true_eq_false, and_false, if_false, List.length_nil]
        omega
      · simp only [ht1, hd, not_false_eq_true, and_self, if_true, List.length_singleton, true_and]
        by_cases hm : maxSteps % sub.steps = 0
        · have : ps.length / sub.steps < maxSteps / sub.steps := by
            rw [Nat.div_lt_iff_lt_mul hpos, Nat.div_mul_cancel (Nat.dvd_of_mod_eq_zero hm)]
            refine lt_of_le_of_ne h ?_
            intro he
            exact hd (he ▸ Nat.dvd_of_mod_eq_zero hm)
          simp only [hm, not_true_eq_false, if_false]
          omega
        · simp only [hm, not_false_eq_true, if_true]
          omega
    · simp only [ht1, false_and, if_false, List.length_nil, Bool.false_eq_true]
      omega

end Verif
