import Verif.Lemmas.Dense
import Verif.Props.Loop
import Verif.Props.Save

/-!
# Properties of dense output: C13 and segment search: C33
-/

set_option linter.unusedSectionVars false

namespace Verif

variable {T Y E D S C O F : Type} [LinearOrder T] [LinearOrder F] [Zero F]

/-! ## C33: the segment containing the query -/

/-- For strictly increasing knots (followed by any amount of `inf` padding): between the first and last
knot the segment contains the query, as a half-open interval on the side given by `left`; before (or
at) the first knot the first segment is used, after (or at) the last one the last. The index is always
that of a segment. -/
theorem C33_segment (ts : List T) (k : Nat) (h2 : 2 ≤ ts.length) (hs : ts.Pairwise (· < ·)) (t : T)
    (left : Bool) :
    let i := segIndex (ts.map some ++ List.replicate k none) ts.length t left
    ∃ (a b first last : T), ts[i]? = some a ∧ ts[i + 1]? = some b ∧ ts.head? = some first ∧
      ts.getLast? = some last ∧ a < b ∧
      (left = true → first < t → t ≤ last → a < t ∧ t ≤ b) ∧
      (left = true → t ≤ first → i = 0) ∧
      (left = true → last < t → i + 2 = ts.length) ∧
      (left = false → first ≤ t → t < last → a ≤ t ∧ t < b) ∧
      (left = false → t < first → i = 0) ∧
      (left = false → last ≤ t → i + 2 = ts.length) := by
  intro i
  have hle : ts.Pairwise (· ≤ ·) := hs.imp le_of_lt
  have hi : i + 1 < ts.length := by
    have : i ≤ ts.length - 2 := Nat.min_le_right _ _
    omega
  have hne : ts ≠ [] := by intro h; rw [h] at h2; simp at h2
  have hmono : ∀ (p q : Nat) (hp : p < ts.length) (hq : q < ts.length), p < q → ts[p] < ts[q] :=
    fun p q hp hq hpq => List.pairwise_iff_getElem.1 hs p q hp hq hpq
  have hmono' : ∀ (p q : Nat) (hp : p < ts.length) (hq : q < ts.length), p ≤ q → ts[p] ≤ ts[q] := by
    intro p q hp hq hpq
    rcases Nat.lt_or_eq_of_le hpq with h | h
    · exact le_of_lt (hmono p q hp hq h)
    · subst h; exact le_refl _
  have hhead : ts.head? = some ts[0] := by
    rw [List.head?_eq_getElem?, List.getElem?_eq_getElem]
  have hlast : ts.getLast? = some (ts[ts.length - 1]'(by omega)) := by
    rw [List.getLast?_eq_getElem?, List.getElem?_eq_getElem]
  refine ⟨ts[i], ts[i + 1], ts[0], ts[ts.length - 1], List.getElem?_eq_getElem _,
    List.getElem?_eq_getElem _, hhead, hlast, hmono _ _ _ _ (by omega), ?_, ?_, ?_, ?_, ?_, ?_⟩
  · -- left, inside
    intro hl hft htl
    have hidx : i = min (ts.findIdx (fun x => decide (t ≤ x)) - 1) (ts.length - 2) := by
      simp only [i, segIndex, searchsorted, hl, if_true, countP_knotLt, countP_eq_findIdx_lt _ _ hle]
    have hlt : ts.findIdx (fun x => decide (t ≤ x)) < ts.length :=
      List.findIdx_lt_length_of_exists ⟨_, List.getElem_mem (by omega : ts.length - 1 < ts.length),
        by simpa using htl⟩
    have hpos : 0 < ts.findIdx (fun x => decide (t ≤ x)) := by
      rw [Nat.pos_iff_ne_zero]
      intro h0
      have := List.findIdx_getElem (xs := ts) (p := fun x => decide (t ≤ x)) (w := hlt)
      simp only [h0, decide_eq_true_eq] at this
      exact absurd hft (not_lt.2 this)
    have hidx' : i + 1 = ts.findIdx (fun x => decide (t ≤ x)) := by omega
    constructor
    · have := List.not_of_lt_findIdx (p := fun x => decide (t ≤ x)) (xs := ts) (i := i) (by omega)
      simpa using this
    · have := List.findIdx_getElem (xs := ts) (p := fun x => decide (t ≤ x)) (w := hlt)
      simp only [decide_eq_true_eq, ← hidx'] at this
      exact this
  · intro hl hft
    have : searchsorted (ts.map some ++ List.replicate k none) t left = 0 := by
      rw [searchsorted, if_pos hl, countP_knotLt, List.countP_eq_zero]
      intro x hx
      obtain ⟨j, hj, rfl⟩ := List.getElem_of_mem hx
      simpa using le_trans hft (hmono' 0 j (by omega) hj (Nat.zero_le _))
    simp [i, segIndex, this]
  · intro hl hlt
    have : searchsorted (ts.map some ++ List.replicate k none) t left = ts.length := by
      rw [searchsorted, if_pos hl, countP_knotLt, List.countP_eq_length]
      intro x hx
      obtain ⟨j, hj, rfl⟩ := List.getElem_of_mem hx
      simpa using lt_of_le_of_lt (hmono' j (ts.length - 1) hj (by omega) (by omega)) hlt
    simp only [i, segIndex, this]; omega
  · intro hl hft htl
    have hidx : i = min (ts.findIdx (fun x => decide (t < x)) - 1) (ts.length - 2) := by
      simp only [i, segIndex, searchsorted, hl, Bool.false_eq_true, if_false, countP_knotLe,
        countP_eq_findIdx_le _ _ hle]
    have hlt : ts.findIdx (fun x => decide (t < x)) < ts.length :=
      List.findIdx_lt_length_of_exists ⟨_, List.getElem_mem (by omega : ts.length - 1 < ts.length),
        by simpa using htl⟩
    have hpos : 0 < ts.findIdx (fun x => decide (t < x)) := by
      rw [Nat.pos_iff_ne_zero]
      intro h0
      have := List.findIdx_getElem (xs := ts) (p := fun x => decide (t < x)) (w := hlt)
      simp only [h0, decide_eq_true_eq] at this
      exact absurd this (not_lt.2 hft)
    have hidx' : i + 1 = ts.findIdx (fun x => decide (t < x)) := by omega
    constructor
    · have := List.not_of_lt_findIdx (p := fun x => decide (t < x)) (xs := ts) (i := i) (by omega)
      simpa using this
    · have := List.findIdx_getElem (xs := ts) (p := fun x => decide (t < x)) (w := hlt)
      simp only [decide_eq_true_eq, ← hidx'] at this
      exact this
  · intro hl hft
    have : searchsorted (ts.map some ++ List.replicate k none) t left = 0 := by
      rw [searchsorted, if_neg (by simp [hl]), countP_knotLe, List.countP_eq_zero]
      intro x hx
      obtain ⟨j, hj, rfl⟩ := List.getElem_of_mem hx
      simpa using lt_of_lt_of_le hft (hmono' 0 j (by omega) hj (Nat.zero_le _))
    simp [i, segIndex, this]
  · intro hl hlt
    have : searchsorted (ts.map some ++ List.replicate k none) t left = ts.length := by
      rw [searchsorted, if_neg (by simp [hl]), countP_knotLe, List.countP_eq_length]
      intro x hx
      obtain ⟨j, hj, rfl⟩ := List.getElem_of_mem hx
      simpa using le_trans (hmono' j (ts.length - 1) hj (by omega) (by omega)) hlt
    simp only [i, segIndex, this]; omega

example : [(1 : Int), 3, 4].Pairwise (· < ·) ∧ segIndex ([(1 : Int), 3, 4].map some) 3 3 true = 0 ∧
    segIndex ([(1 : Int), 3, 4].map some) 3 3 false = 1 ∧
    segIndex ([(1 : Int), 3, 4].map some) 3 9 true = 1 := by decide

/-! ## C13: dense output agrees with `SaveAt(ts=...)` -/

/-- What dense output looks up for a time, if the steps of the solve are made forwards and without jumps. -/
theorem dense_piece (cfg : Cfg T Y E D S C O F) (hd : cfg.dense = true)
    (y0 : Y) (tnext : T) (ctrl : C) (ss : S) (mj : Bool)
    (hhist : ∀ s ∈ history cfg y0 tnext ctrl ss mj, (adaptOut cfg s).Exact s.tprev s.tnext ∧
      s.tprev ≤ s.tnext ∧ s.tnext ≤ cfg.t1)
    (hne : 0 < (solve cfg y0 tnext ctrl ss mj).core.numAccepted) (t : T) :
    (denseOf cfg y0 (solve cfg y0 tnext ctrl ss mj)).tsSize ≠ 1 ∧
    (denseOf cfg y0 (solve cfg y0 tnext ctrl ss mj)).outOfBounds t
      = (decide (t < cfg.t0) || decide ((solve cfg y0 tnext ctrl ss mj).core.tprev < t)) ∧
    (cfg.t0 ≤ t → t ≤ (solve cfg y0 tnext ctrl ss mj).core.tprev →
      ∃ p i, firstCovering (pieces cfg y0 tnext ctrl ss mj) t = some p ∧
        segIndex (denseOf cfg y0 (solve cfg y0 tnext ctrl ss mj)).ts
          (denseOf cfg y0 (solve cfg y0 tnext ctrl ss mj)).tsSize t true = i ∧
        (denseOf cfg y0 (solve cfg y0 tnext ctrl ss mj)).ts[i]? = some (some p.t0) ∧
        (denseOf cfg y0 (solve cfg y0 tnext ctrl ss mj)).ts[i + 1]? = some (some p.t1) ∧
        (denseOf cfg y0 (solve cfg y0 tnext ctrl ss mj)).infos[i]? = some (some p.dense)) := by
  obtain ⟨-, r1, r2, r3⟩ := solve_dense cfg hd y0 tnext ctrl ss mj
  obtain ⟨p1, p2⟩ := piecesFrom_sorted cfg cfg.maxSteps (initState cfg y0 tnext ctrl ss mj).core hhist
  have p3 := piecesFrom_chain cfg cfg.maxSteps (initState cfg y0 tnext ctrl ss mj).core
    (fun s hs => ⟨(hhist s hs).1.2, le_trans (hhist s hs).2.1 (hhist s hs).2.2⟩)
  have p4 := last_piece_final cfg cfg.maxSteps (initState cfg y0 tnext ctrl ss mj).core
    (fun s hs => (hhist s hs).1.2) (fun s hs => le_trans (hhist s hs).2.1 (hhist s hs).2.2)
  rw [← pieces_eq] at p1 p2 p3 p4
  rw [← solve_core] at p4
  have hpl := (pieces_length cfg y0 tnext ctrl ss mj).1
  rw [← hpl] at hne
  generalize hps : pieces cfg y0 tnext ctrl ss mj = ps at *
  have ht0 : (initState cfg y0 tnext ctrl ss mj).core.tprev = cfg.t0 := rfl
  rw [ht0] at p2 p3
  have hreach : ps.map (·.reached) = ps.map (·.t1) :=
    List.map_congr_left fun p hp => (p2 p hp).2
  rw [hreach] at p3 r2
  have hsz : ps.length + 1 - 1 = ps.length := rfl
  -- the knots
  have hk0 : (solve cfg y0 tnext ctrl ss mj).dense.ts[0]? = some (some cfg.t0) := by rw [r2]; simp
  have hkl : (solve cfg y0 tnext ctrl ss mj).dense.ts[ps.length]?
      = some (some (solve cfg y0 tnext ctrl ss mj).core.tprev) := by
    rw [r2, List.getElem?_append_left (by simp)]
    obtain ⟨m, hm⟩ : ∃ m, ps.length = m + 1 := ⟨ps.length - 1, by omega⟩
    have hgl : ps.getLast? = ps[m]? := by rw [List.getLast?_eq_getElem?]; congr 1; omega
    obtain ⟨q, hpm⟩ : ∃ q, ps[m]? = some q :=
      ⟨ps[m]'(by omega), List.getElem?_eq_getElem (by omega)⟩
    rw [hgl, hpm] at p4
    simp only at p4
    rw [p4.1, (p2 q (List.mem_of_getElem? hpm)).2, hm, List.map_cons,
      List.getElem?_cons_succ]
    rw [List.getElem?_map, List.getElem?_map, hpm]; rfl
  have hev : (denseOf cfg y0 (solve cfg y0 tnext ctrl ss mj)).tsSize = ps.length + 1 := by
    simp [denseOf, r1]
  have hoob : (denseOf cfg y0 (solve cfg y0 tnext ctrl ss mj)).outOfBounds t
      = (decide (t < cfg.t0) || decide ((solve cfg y0 tnext ctrl ss mj).core.tprev < t)) := by
    unfold DenseInterp.outOfBounds
    rw [hev]
    have e1 : (denseOf cfg y0 (solve cfg y0 tnext ctrl ss mj)).ts[0]? = some (some cfg.t0) := hk0
    have e2 : (denseOf cfg y0 (solve cfg y0 tnext ctrl ss mj)).ts[ps.length + 1 - 1]?
      = some (some (solve cfg y0 tnext ctrl ss mj).core.tprev) := hkl
    rw [e1, e2]
    have h1 : decide (ps.length + 1 ≤ 1) = false := decide_eq_false (by omega)
    have h2 : (!decide (cfg.t0 ≤ t)) = decide (t < cfg.t0) := by
      rw [← decide_not]; simp only [not_le]
    simp only [knotLe, knotLt, h1, h2, Bool.false_or]
  refine ⟨by rw [hev]; omega, hoob, ?_⟩
  · intro hlo hhi
    -- some accepted step covers `t`
    have hex : ∃ p, firstCovering ps t = some p := by
      cases hfc : firstCovering ps t with
      | some p => exact ⟨p, rfl⟩
      | none =>
        exfalso
        rw [firstCovering, List.find?_eq_none] at hfc
        obtain ⟨q, hq⟩ : ∃ q, ps.getLast? = some q := by
          cases h : ps.getLast? with
          | none => rw [List.getLast?_eq_none_iff] at h; rw [h] at hne; simp at hne
          | some q => exact ⟨q, rfl⟩
        rw [hq] at p4
        have hqm := List.mem_of_getLast? hq
        have := hfc q hqm
        rw [p4.1, (p2 q hqm).2] at hhi
        simp at this
        exact absurd hhi (not_le.2 this)
    obtain ⟨p, hp⟩ := hex
    -- index of that step
    obtain ⟨i, hi, hip⟩ : ∃ i, i = ps.findIdx (fun p => decide (t ≤ p.t1)) ∧ ps[i]? = some p := by
      refine ⟨_, rfl, ?_⟩
      rw [firstCovering, List.find?_eq_some_iff_getElem] at hp
      obtain ⟨hpt, j, hj, hjp, hjlt⟩ := hp
      have : ps.findIdx (fun p => decide (t ≤ p.t1)) = j := by
        rw [List.findIdx_eq hj]
        refine ⟨by rw [hjp]; exact hpt, ?_⟩
        intro k hk
        have := hjlt k hk
        simpa using this
      rw [this, List.getElem?_eq_getElem hj, hjp]
    have hilt : i < ps.length := (List.getElem?_eq_some_iff.1 hip).1
    have hsorted : (cfg.t0 :: ps.map (·.t1)).Pairwise (· ≤ ·) := by
      rw [List.pairwise_cons]
      constructor
      · intro x hx
        obtain ⟨q, hq, rfl⟩ := List.mem_map.1 hx
        exact (p2 q hq).1
      · rw [List.pairwise_map]; exact p1
    have hseg : segIndex (denseOf cfg y0 (solve cfg y0 tnext ctrl ss mj)).ts
        (denseOf cfg y0 (solve cfg y0 tnext ctrl ss mj)).tsSize t true = i := by
      have e1 : (denseOf cfg y0 (solve cfg y0 tnext ctrl ss mj)).ts
        = (cfg.t0 :: ps.map (·.t1)).map some ++ List.replicate (cfg.maxSteps - ps.length) none := r2
      rw [hev, e1, segIndex, searchsorted, if_pos rfl, countP_knotLt, countP_eq_findIdx_lt _ _ hsorted,
        List.findIdx_cons]
      have hfi : (ps.map (·.t1)).findIdx (fun x => decide (t ≤ x)) = i := by
        rw [hi]
        clear * -
        induction ps with
        | nil => rfl
        | cons q qs ih => simp only [List.map_cons, List.findIdx_cons, ih]
      by_cases h0 : t ≤ cfg.t0
      · have hi0 : i = 0 := by
          rw [hi]
          cases hps0 : ps with
          | nil => rfl
          | cons q qs =>
            rw [List.findIdx_cons]
            have : t ≤ q.t1 := le_trans h0 ((p2 q (by rw [hps0]; simp)).1)
            simp [this]
        simp [h0, hi0]
      · simp only [h0, decide_false, cond_false, hfi]
        omega
    have ha : (denseOf cfg y0 (solve cfg y0 tnext ctrl ss mj)).ts[i]? = some (some p.t0) := by
      change (solve cfg y0 tnext ctrl ss mj).dense.ts[i]? = _
      rw [r2, List.getElem?_append_left (by simp; omega), List.getElem?_map, p3 i p hip]; rfl
    have hb : (denseOf cfg y0 (solve cfg y0 tnext ctrl ss mj)).ts[i + 1]? = some (some p.t1) := by
      change (solve cfg y0 tnext ctrl ss mj).dense.ts[i + 1]? = _
      rw [r2, List.getElem?_append_left (by simp; omega), List.getElem?_map, List.getElem?_cons_succ,
        List.getElem?_map, hip]; rfl
    have hinf : (denseOf cfg y0 (solve cfg y0 tnext ctrl ss mj)).infos[i]? = some (some p.dense) := by
      change (solve cfg y0 tnext ctrl ss mj).dense.infos[i]? = _
      rw [r3, List.getElem?_append_left (by simp; omega), List.getElem?_map, List.getElem?_map, hip]
      rfl
    exact ⟨p, i, hp, hseg, ha, hb, hinf⟩

/-- The value of dense output, if the steps of the solve are made forwards and without jumps. -/
theorem dense_value (cfg : Cfg T Y E D S C O F) (hd : cfg.dense = true)
    (y0 : Y) (tnext : T) (ctrl : C) (ss : S) (mj : Bool)
    (hhist : ∀ s ∈ history cfg y0 tnext ctrl ss mj, (adaptOut cfg s).Exact s.tprev s.tnext ∧
      s.tprev ≤ s.tnext ∧ s.tnext ≤ cfg.t1)
    (hne : 0 < (solve cfg y0 tnext ctrl ss mj).core.numAccepted) (t : T) :
    (cfg.t0 ≤ t → t ≤ (solve cfg y0 tnext ctrl ss mj).core.tprev →
      ∃ p, firstCovering (pieces cfg y0 tnext ctrl ss mj) t = some p ∧
        (denseOf cfg y0 (solve cfg y0 tnext ctrl ss mj)).evaluate t true
          = some (p.eval cfg.solver t)) ∧
    (t < cfg.t0 ∨ (solve cfg y0 tnext ctrl ss mj).core.tprev < t →
      (denseOf cfg y0 (solve cfg y0 tnext ctrl ss mj)).evaluate t true = none) := by
  obtain ⟨h1, h2, h3⟩ := dense_piece cfg hd y0 tnext ctrl ss mj hhist hne t
  have hnt : ¬ (t = (denseOf cfg y0 (solve cfg y0 tnext ctrl ss mj)).t0IfTrivial ∧
      (denseOf cfg y0 (solve cfg y0 tnext ctrl ss mj)).tsSize = 1) := fun h => h1 h.2
  unfold DenseInterp.evaluate
  rw [if_neg hnt, h2]
  constructor
  · intro hlo hhi
    obtain ⟨p, i, hp, hseg, ha, hb, hinf⟩ := h3 hlo hhi
    refine ⟨p, hp, ?_⟩
    simp only [not_lt.2 hlo, not_lt.2 hhi, decide_false, Bool.or_self, Bool.false_eq_true, if_false]
    rw [hseg, ha, hb, hinf]
    rfl
  · intro hout
    rcases hout with h | h <;> simp [h]

/-- Dense output at any time reached by the solve is the interpolation of the first accepted step
that ends at or after it. -/
theorem C13_dense_value (cfg : Cfg T Y E D S C O F) (hwf : cfg.WF) (hd : cfg.dense = true)
    (y0 : Y) (tnext : T) (ctrl : C) (ss : S) (mj : Bool) (htn : cfg.t0 ≤ tnext)
    (hc : ∀ c ∈ callLog cfg y0 tnext ctrl ss mj, (c.answer cfg).Forward c.ctrlT0 c.ctrlT1 ∧
      (c.answer cfg).Exact c.ctrlT0 c.ctrlT1)
    (hne : 0 < (solve cfg y0 tnext ctrl ss mj).core.numAccepted) (t : T) :
    (cfg.t0 ≤ t → t ≤ (solve cfg y0 tnext ctrl ss mj).core.tprev →
      ∃ p, firstCovering (pieces cfg y0 tnext ctrl ss mj) t = some p ∧
        (denseOf cfg y0 (solve cfg y0 tnext ctrl ss mj)).evaluate t true
          = some (p.eval cfg.solver t)) ∧
    (t < cfg.t0 ∨ (solve cfg y0 tnext ctrl ss mj).core.tprev < t →
      (denseOf cfg y0 (solve cfg y0 tnext ctrl ss mj)).evaluate t true = none) := by
  have hf1 := C01_time_forward cfg hwf y0 tnext ctrl ss mj htn (fun c hcm => (hc c hcm).1)
  rw [log_eq] at hc hf1
  have hhist : ∀ s ∈ history cfg y0 tnext ctrl ss mj, (adaptOut cfg s).Exact s.tprev s.tnext ∧
      s.tprev ≤ s.tnext ∧ s.tnext ≤ cfg.t1 := by
    intro s hs
    refine ⟨(hc _ (List.mem_map_of_mem hs)).2, ?_⟩
    exact (hf1.1 _ (List.mem_map_of_mem hs)).2
  exact dense_value cfg hd y0 tnext ctrl ss mj hhist hne t

/-- `SaveAt(ts=ts)` in the same solve stores, for every requested time that was reached, exactly what
the dense output of the solve evaluates to there. -/
theorem C13_dense_agrees_with_ts (cfg : Cfg T Y E D S C O F) (hwf : cfg.WF) (hlt : cfg.t0 < cfg.t1)
    (hroot : cfg.rootFinder = none) (hd : cfg.dense = true) (ts : List T) (fn : T → Y → O)
    (hts : ts ≠ []) (hsub : cfg.subs = [{ t0 := false, t1 := false, ts := ts, steps := 0, fn := fn }])
    (hsort : ts.Pairwise (· ≤ ·)) (hlo : ∀ t ∈ ts, cfg.t0 ≤ t)
    (y0 : Y) (tnext : T) (ctrl : C) (ss : S) (mj : Bool) (htn : cfg.t0 ≤ tnext)
    (hc : ∀ c ∈ callLog cfg y0 tnext ctrl ss mj, (c.answer cfg).Forward c.ctrlT0 c.ctrlT1 ∧
      (c.answer cfg).Exact c.ctrlT0 c.ctrlT1)
    (hne : 0 < (solve cfg y0 tnext ctrl ss mj).core.numAccepted) :
    (solve cfg y0 tnext ctrl ss mj).saves.map (fun sv => entriesOf sv.buf) =
      [ts.filterMap (fun t => ((denseOf cfg y0 (solve cfg y0 tnext ctrl ss mj)).evaluate t true).map
        (fun v => (t, fn t v)))] := by
  have h7 := C07_saveat_ts_any_end cfg hroot (ne_of_lt hlt) ts fn hts hsub hsort y0 tnext ctrl ss mj
  have hmap : (solve cfg y0 tnext ctrl ss mj).saves.map (fun sv => entriesOf sv.buf)
      = ((solve cfg y0 tnext ctrl ss mj).saves.map (·.buf)).map entriesOf := by
    rw [List.map_map]; rfl
  rw [hmap, h7, List.map_singleton, entriesOf_padded]
  congr 1
  have hcong : ∀ t ∈ ts, ((firstCovering (pieces cfg y0 tnext ctrl ss mj) t).map
        (fun p => (t, fn t (p.eval cfg.solver t)))) =
      (((denseOf cfg y0 (solve cfg y0 tnext ctrl ss mj)).evaluate t true).map
        (fun v => (t, fn t v))) := by
    intro t ht
    obtain ⟨hin, hout⟩ := C13_dense_value cfg hwf hd y0 tnext ctrl ss mj htn hc hne t
    by_cases hhi : t ≤ (solve cfg y0 tnext ctrl ss mj).core.tprev
    · obtain ⟨p, hp, hv⟩ := hin (hlo t ht) hhi
      rw [hp, hv]; rfl
    · rw [hout (Or.inr (not_le.1 hhi))]
      have hf1 := C01_time_forward cfg hwf y0 tnext ctrl ss mj htn (fun c hcm => (hc c hcm).1)
      rw [log_eq] at hc hf1
      have hhist : ∀ s ∈ history cfg y0 tnext ctrl ss mj, (adaptOut cfg s).Exact s.tprev s.tnext ∧
          s.tprev ≤ s.tnext ∧ s.tnext ≤ cfg.t1 := by
        intro s hs
        refine ⟨(hc _ (List.mem_map_of_mem hs)).2, ?_⟩
        exact (hf1.1 _ (List.mem_map_of_mem hs)).2
      obtain ⟨p1, p2⟩ := piecesFrom_sorted cfg cfg.maxSteps
        (initState cfg y0 tnext ctrl ss mj).core hhist
      have p4 := last_piece_final cfg cfg.maxSteps (initState cfg y0 tnext ctrl ss mj).core
        (fun s hs => (hhist s hs).1.2) (fun s hs => le_trans (hhist s hs).2.1 (hhist s hs).2.2)
      rw [← pieces_eq] at p1 p2 p4
      rw [← solve_core] at p4
      have hnone : firstCovering (pieces cfg y0 tnext ctrl ss mj) t = none := by
        rw [firstCovering, List.find?_eq_none]
        intro p hp
        cases hl : (pieces cfg y0 tnext ctrl ss mj).getLast? with
        | none => rw [List.getLast?_eq_none_iff] at hl; rw [hl] at hp; simp at hp
        | some q =>
          rw [hl] at p4
          have hqm := List.mem_of_getLast? hl
          have hle : p.t1 ≤ q.t1 := by
            obtain ⟨l, hl'⟩ := List.getLast?_eq_some_iff.1 hl
            rw [hl'] at p1 hp
            rw [List.pairwise_append] at p1
            rcases List.mem_append.1 hp with hp | hp
            · exact p1.2.2 p hp q (by simp)
            · rw [List.mem_singleton] at hp; rw [hp]
          rw [p4.1, (p2 q hqm).2] at hhi
          simpa using lt_of_le_of_lt hle (not_le.1 hhi)
      rw [hnone]; rfl
  exact List.filterMap_congr hcong

def toyDenseCfg : Cfg Int Int Int Int Int Int Int Int :=
  { toyTsCfg with dense := true }

example : (∀ c ∈ callLog toyDenseCfg 100 3 0 0 false,
      (c.answer toyDenseCfg).Forward c.ctrlT0 c.ctrlT1 ∧
      (c.answer toyDenseCfg).Exact c.ctrlT0 c.ctrlT1) ∧
    0 < (solve toyDenseCfg 100 3 0 0 false).core.numAccepted ∧
    ([-1, 0, 1, 2, 3, 4, 7, 8].map fun t => ((denseOf toyDenseCfg 100
      (solve toyDenseCfg 100 3 0 0 false)).evaluate t true).isSome)
      = [false, true, true, true, true, true, true, false] := by
  unfold AdaptOut.Forward AdaptOut.Exact; decide

end Verif
