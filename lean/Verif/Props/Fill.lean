import Verif.Lemmas.Fill
import Mathlib.Data.Rat.Defs
import Mathlib.Algebra.Order.Field.Rat
import Mathlib.Tactic.NormNum
import Mathlib.Tactic.Linarith

/-!
# Properties of missing-data filling: C36, C37, C38
-/

set_option linter.unusedSectionVars false

namespace Verif

variable {α K : Type}

/-! ## C37: forward filling -/

/-- Entry `i` of the output is the last observation at or before `i`; before the first observation it is
`replace_nans_at_start` if passed, else still missing. -/
theorem C37_fill_forward (ys : List (Option α)) (replace : Option (Option α)) :
    (fillForward ys replace).length = ys.length ∧
    ∀ i, i < ys.length →
      (∀ v, lastSome (ys.take (i + 1)) = some v → (fillForward ys replace)[i]? = some (some v)) ∧
      (lastSome (ys.take (i + 1)) = none →
        (fillForward ys replace)[i]? = some (match replace with
          | none => none
          | some r => r)) := by
  unfold fillForward
  refine ⟨fillScan_length _ _, fun i hi => ⟨fun v hv => ?_, fun hn => ?_⟩⟩
  · rw [fillScan_get _ _ _ hi, hv]
  · rw [fillScan_get _ _ _ hi, hn]
    cases replace with
    | some r => rfl
    | none =>
      cases ys with
      | nil => simp at hi
      | cons y ys =>
        rw [List.take_succ_cons, lastSome_cons] at hn
        cases h : lastSome (List.take i ys) with
        | some v => rw [h] at hn; simp at hn
        | none => rw [h] at hn; simp at hn; simp [hn]

/-- Observations are untouched. -/
theorem C37_observed_untouched (ys : List (Option α)) (replace : Option (Option α)) (i : Nat) (v : α)
    (hi : ys[i]? = some (some v)) : (fillForward ys replace)[i]? = some (some v) := by
  obtain ⟨hlt, hv⟩ := List.getElem?_eq_some_iff.1 hi
  refine ((C37_fill_forward ys replace).2 i hlt).1 v ?_
  rw [← List.take_append_getElem hlt, hv]
  simp [lastSome, List.filterMap_append]

/-- Filling twice is the same as filling once. -/
theorem C37_idempotent (ys : List (Option α)) (replace : Option (Option α)) :
    fillForward (fillForward ys replace) replace = fillForward ys replace := by
  have hl := (C37_fill_forward ys replace).1
  have h2 := C37_fill_forward (fillForward ys replace) replace
  apply List.ext_getElem?
  intro i
  by_cases hi : i < ys.length
  · cases hx : (fillForward ys replace)[i]? with
    | none => rw [List.getElem?_eq_none_iff] at hx; omega
    | some x =>
      cases x with
      | some v => exact C37_observed_untouched _ _ i v hx
      | none =>
        -- nothing present up to `i`
        have hn : lastSome ((fillForward ys replace).take (i + 1)) = none := by
          unfold lastSome
          rw [List.getLast?_eq_none_iff, List.filterMap_eq_nil_iff]
          intro a ha
          obtain ⟨j, hj, rfl⟩ := List.getElem_of_mem ha
          rw [List.length_take] at hj
          rw [List.getElem_take]
          have hjl : j < ys.length := by omega
          have hnone : lastSome (ys.take (i + 1)) = none := by
            cases h : lastSome (ys.take (i + 1)) with
            | none => rfl
            | some v => rw [((C37_fill_forward ys replace).2 i hi).1 v h] at hx; simp at hx
          have hnj : lastSome (ys.take (j + 1)) = none := by
            unfold lastSome at hnone ⊢
            rw [List.getLast?_eq_none_iff, List.filterMap_eq_nil_iff] at hnone ⊢
            intro a ha
            exact hnone a ((List.take_sublist_take_left (by omega)).subset ha)
          have e1 := ((C37_fill_forward ys replace).2 j hjl).2 hnj
          have e2 := ((C37_fill_forward ys replace).2 i hi).2 hnone
          rw [hx] at e2
          rw [List.getElem?_eq_getElem (by omega)] at e1
          simp only [Option.some.injEq] at e1 e2
          rw [e1, ← e2]; rfl
        rw [(h2.2 i (by omega)).2 hn]
        have hnone : lastSome (ys.take (i + 1)) = none := by
          cases h : lastSome (ys.take (i + 1)) with
          | none => rfl
          | some v => rw [((C37_fill_forward ys replace).2 i hi).1 v h] at hx; simp at hx
        rw [← hx]
        exact (((C37_fill_forward ys replace).2 i hi).2 hnone).symm
  · rw [List.getElem?_eq_none (by rw [h2.1, hl]; omega), List.getElem?_eq_none (by omega)]

example : fillForward [none, some (1 : Nat), none, none, some 2, none] none
      = [none, some 1, some 1, some 1, some 2, some 2] ∧
    fillForward [none, some (1 : Nat), none] (some (some 7)) = [some 7, some 1, some 1] := by decide

/-! ## C38: rectilinear interpolation -/

theorem flatMap_pair_get (l : List α) (i : Nat) :
    (l.flatMap (fun y => [y, y]))[2 * i]? = l[i]? ∧
    (l.flatMap (fun y => [y, y]))[2 * i + 1]? = l[i]? := by
  induction l generalizing i with
  | nil => simp
  | cons a l ih =>
    cases i with
    | zero => simp
    | succ i =>
      have h : 2 * (i + 1) = 2 * i + 2 := by omega
      rw [h]
      simpa using ih i

theorem flatMap_pair_length (l : List α) : (l.flatMap (fun y => [y, y])).length = 2 * l.length := by
  induction l with
  | nil => rfl
  | cons a l ih => simp [ih]; omega

/-- For `n` observations there are `2n - 1` points. Point `2i` is (time `i`, filled value `i`); point
`2i + 1` is (time `i + 1`, filled value `i`): first time advances, then the value. -/
theorem C38_rectilinear (ts : List K) (ys : List (Option α)) (replace : Option (Option α))
    (hlen : ts.length = ys.length) :
    (rectilinearTs ts).length = 2 * ts.length - 1 ∧
    (rectilinearYs ys replace).length = 2 * ts.length - 1 ∧
    (∀ i, i < ts.length → (rectilinearTs ts)[2 * i]? = ts[i]? ∧
      (rectilinearYs ys replace)[2 * i]? = (fillForward ys replace)[i]?) ∧
    (∀ i, i + 1 < ts.length → (rectilinearTs ts)[2 * i + 1]? = ts[i + 1]? ∧
      (rectilinearYs ys replace)[2 * i + 1]? = (fillForward ys replace)[i]?) := by
  have hf := (C37_fill_forward ys replace).1
  unfold rectilinearTs rectilinearYs
  refine ⟨?_, ?_, ?_, ?_⟩
  · rw [List.length_tail, flatMap_pair_length]
  · rw [List.length_dropLast, flatMap_pair_length, hf, hlen]
  · intro i hi
    constructor
    · rw [List.getElem?_tail]; exact (flatMap_pair_get ts i).2
    · rw [List.getElem?_dropLast, if_pos (by rw [flatMap_pair_length]; omega)]
      exact (flatMap_pair_get _ i).1
  · intro i hi
    constructor
    · rw [List.getElem?_tail]
      have : 2 * i + 1 + 1 = 2 * (i + 1) := by omega
      rw [this]; exact (flatMap_pair_get ts (i + 1)).1
    · rw [List.getElem?_dropLast, if_pos (by rw [flatMap_pair_length]; omega)]
      exact (flatMap_pair_get _ i).2

/-- Causality: point `j` only depends on the observations up to index `j / 2`. -/
theorem C38_causal (ys ys' : List (Option α)) (replace : Option (Option α)) (j : Nat)
    (hj : j + 1 < 2 * ys.length) (hl : ys.length = ys'.length)
    (hag : ys.take (j / 2 + 1) = ys'.take (j / 2 + 1)) :
    (rectilinearYs ys replace)[j]? = (rectilinearYs ys' replace)[j]? := by
  have key : ∀ zs : List (Option α), j + 1 < 2 * zs.length →
      (rectilinearYs zs replace)[j]? = (fillForward zs replace)[j / 2]? := by
    intro zs hz
    have hf := (C37_fill_forward zs replace).1
    unfold rectilinearYs
    rw [List.getElem?_dropLast, if_pos (by rw [flatMap_pair_length, hf]; omega)]
    rcases Nat.mod_two_eq_zero_or_one j with h | h
    · have : j = 2 * (j / 2) := by omega
      rw [this]
      simpa using (flatMap_pair_get (fillForward zs replace) (j / 2)).1
    · have : j = 2 * (j / 2) + 1 := by omega
      have h2 := (flatMap_pair_get (fillForward zs replace) (j / 2)).2
      rw [← this] at h2; exact h2
  rw [key ys hj, key ys' (by omega)]
  have h1 := (C37_fill_forward ys replace).2 (j / 2) (by omega)
  have h2 := (C37_fill_forward ys' replace).2 (j / 2) (by omega)
  rw [← hag] at h2
  cases h : lastSome (ys.take (j / 2 + 1)) with
  | some v => rw [h1.1 v h, h2.1 v h]
  | none => rw [h1.2 h, h2.2 h]

example : rectilinearTs [0, 1, 2] = [0, 1, 1, 2, 2] ∧
    rectilinearYs [some 5, none, some (6 : Nat)] none
      = [some 5, some 5, some 5, some 5, some 6] := by decide

/-! ## C36: linear interpolation over missing data -/

variable [Field K] [LinearOrder K] [IsStrictOrderedRing K]

/-- What `linear_interpolation` returns at each index: observed values are kept; a missing value between
two observations lies on the straight line through the nearest ones; after the last observation it is
the last observation if `fill_forward_nans_at_end`, else missing; before the first observation it stays
missing unless `replace_nans_at_start` is passed. -/
theorem C36_linear_fill (ts : List K) (ys : List (Option K)) (fillEnd : Bool)
    (replace : Option (Option K)) (hlen : ts.length = ys.length) :
    (linearFill ts ys fillEnd replace).length = ts.length ∧
    ∀ i t, ts[i]? = some t →
      (∀ y, ys[i]? = some (some y) → (linearFill ts ys fillEnd replace)[i]? = some (some y)) ∧
      (ys[i]? = some none →
        (∀ p q, (observations ((ts.zip ys).take i)).getLast? = some p →
          (observations ((ts.zip ys).drop i)).head? = some q →
          (linearFill ts ys fillEnd replace)[i]? = some (some (line p q t))) ∧
        (∀ p, (observations ((ts.zip ys).take i)).getLast? = some p →
          observations ((ts.zip ys).drop i) = [] →
          (linearFill ts ys fillEnd replace)[i]? = some (if fillEnd then some p.2 else none)) ∧
        (observations ((ts.zip ys).take i) = [] → replace = none →
          (linearFill ts ys fillEnd replace)[i]? = some none) ∧
        (observations (ts.zip ys) = [] → (linearFill ts ys fillEnd replace)[i]? = some none) ∧
        (∀ r q, observations ((ts.zip ys).take i) = [] → replace = some (some r) →
          (observations ((ts.zip ys).drop i)).head? = some q →
          (linearFill ts ys fillEnd replace)[i]? = some (some (line (ts.headD 0, r) q t)))) := by
  -- names for the intermediate arrays
  obtain ⟨y0, hy0⟩ : ∃ y0 : Option K, y0 = (match replace with
    | none => ys.headD none
    | some r => r) := ⟨_, rfl⟩
  obtain ⟨c, hcdef⟩ : ∃ c : K × Option K, c = (ts.getLastD 0, ys.getLastD none) := ⟨_, rfl⟩
  obtain ⟨nextYs, hny⟩ : ∃ l : List (Option K), l = (if fillEnd then
      fillForward ((revScan c (ts.zip ys)).map Prod.snd) none
    else (revScan c (ts.zip ys)).map Prod.snd) := ⟨_, rfl⟩
  have hdef : linearFill ts ys fillEnd replace = linScan (ts.headD 0, y0)
      ((ts.zip ys).zip (((revScan c (ts.zip ys)).map Prod.fst).zip nextYs)) := by
    rw [hny, hcdef, hy0]; rfl
  have hdl : (ts.zip ys).length = ts.length := by simp [hlen]
  have hnl : nextYs.length = ts.length := by
    rw [hny]; split
    · rw [(C37_fill_forward _ _).1]; simp [revScan_length, hlen]
    · simp [revScan_length, hlen]
  refine ⟨?_, ?_⟩
  · rw [hdef, linScan_length]; simp [revScan_length, hnl, hlen]
  intro i t ht
  obtain ⟨hit, -⟩ := List.getElem?_eq_some_iff.1 ht
  -- nothing observed from `i` on: the reverse scan's initial value is missing
  have hcn : observations ((ts.zip ys).drop i) = [] → c.2 = none := by
    intro hob
    rw [hcdef]
    cases hl : ys.getLast? with
    | none => rw [List.getLast?_eq_none_iff] at hl; rw [hl, List.length_nil] at hlen; omega
    | some y =>
      have hyl : ys[ts.length - 1]? = some y := by
        rw [List.getLast?_eq_getElem?] at hl; rw [hlen]; exact hl
      have htl : ts[ts.length - 1]? = some (ts[ts.length - 1]'(by omega)) :=
        List.getElem?_eq_getElem (by omega)
      have hmem : (ts[ts.length - 1]'(by omega), y) ∈ (ts.zip ys).drop i := by
        rw [List.mem_iff_getElem?]
        refine ⟨ts.length - 1 - i, ?_⟩
        rw [List.getElem?_drop]
        have e : i + (ts.length - 1 - i) = ts.length - 1 := by omega
        rw [e, List.getElem?_zip_eq_some]
        exact ⟨htl, hyl⟩
      unfold observations at hob
      rw [List.filterMap_eq_nil_iff] at hob
      have := hob _ hmem
      cases y with
      | none => simp [List.getLastD_eq_getLast?, hl]
      | some v => simp at this
  have hrev := revScan_get c (ts.zip ys) i (by omega)
  -- the i-th item of the forward scan
  have item : ∀ (y : Option K) (n : K × Option K), ys[i]? = some y →
      (revScan c (ts.zip ys))[i]?.map Prod.fst = some n.1 → nextYs[i]? = some n.2 →
      (linearFill ts ys fillEnd replace)[i]?
        = some (linValue (lastObsOr (ts.headD 0, y0) ((ts.zip ys).take i)) (t, y) n) := by
    intro y n hy hn1 hn2
    have hitem : ((ts.zip ys).zip (((revScan c (ts.zip ys)).map Prod.fst).zip nextYs))[i]?
        = some ((t, y), n) := by
      rw [List.getElem?_zip_eq_some]
      refine ⟨List.getElem?_zip_eq_some.2 ⟨ht, hy⟩, ?_⟩
      rw [List.getElem?_zip_eq_some, List.getElem?_map]
      exact ⟨hn1, hn2⟩
    rw [hdef, linScan_get _ _ i _ _ hitem, List.map_take, List.map_fst_zip]
    simp [revScan_length, hnl, hlen]
  -- next value when something is observed from `i` on
  have next1 : ∀ q, (observations ((ts.zip ys).drop i)).head? = some q →
      (revScan c (ts.zip ys))[i]? = some (q.1, some q.2) ∧ nextYs[i]? = some (some q.2) := by
    intro q hq
    rw [hq] at hrev
    refine ⟨hrev, ?_⟩
    have hm : ((revScan c (ts.zip ys)).map Prod.snd)[i]? = some (some q.2) := by
      rw [List.getElem?_map, hrev]; rfl
    rw [hny]
    split
    · exact C37_observed_untouched _ _ i _ hm
    · exact hm
  refine ⟨?_, ?_⟩
  · intro y hy
    have hq : (observations ((ts.zip ys).drop i)).head? = some (t, y) := by
      have hz : (ts.zip ys)[i]? = some (t, some y) := List.getElem?_zip_eq_some.2 ⟨ht, hy⟩
      obtain ⟨hl, hv⟩ := List.getElem?_eq_some_iff.1 hz
      rw [List.drop_eq_getElem_cons hl, observations_cons, hv]; rfl
    obtain ⟨n1, n2⟩ := next1 _ hq
    rw [item (some y) (t, some y) hy (by rw [n1]; rfl) n2]
    simp [linValue]
  · intro hy
    refine ⟨?_, ?_, ?_, ?_, ?_⟩
    · intro p q hp hq
      obtain ⟨n1, n2⟩ := next1 _ hq
      rw [item none (q.1, some q.2) hy (by rw [n1]; rfl) n2]
      simp [linValue, lastObsOr, hp, line]
    · intro p hp hno
      have hc2 := hcn hno
      rw [hno] at hrev
      simp only [List.head?_nil] at hrev
      rcases Bool.eq_false_or_eq_true fillEnd with hfe | hfe
      rotate_left
      · have hn2 : nextYs[i]? = some none := by
          rw [hny, if_neg (by simp [hfe]), List.getElem?_map, hrev, Option.map_some, hc2]
        rw [item none (c.1, none) hy (by rw [hrev]; rfl) hn2]
        simp [linValue, lastObsOr, hp, hfe]
      · have hno' : observations ((ts.zip ys).drop (i + 1)) = [] := by
          rw [← List.drop_drop]
          unfold observations at hno ⊢
          rw [List.filterMap_eq_nil_iff] at hno ⊢
          intro a ha
          exact hno a (List.mem_of_mem_drop ha)
        have hls := revScan_lastSome c hc2 (ts.zip ys) (i + 1) hno'
        have htake : (observations ((ts.zip ys).take (i + 1))).getLast? = some p := by
          have hz : (ts.zip ys)[i]? = some (t, none) := List.getElem?_zip_eq_some.2 ⟨ht, hy⟩
          obtain ⟨hl, hv⟩ := List.getElem?_eq_some_iff.1 hz
          rw [← List.take_append_getElem hl, observations_append, hv]
          simpa [observations] using hp
        rw [htake] at hls
        have hn2 : nextYs[i]? = some (some p.2) := by
          rw [hny, if_pos hfe]
          exact ((C37_fill_forward _ _).2 i (by simp [revScan_length, hlen]; omega)).1 _ hls
        rw [item none (c.1, some p.2) hy (by rw [hrev]; rfl) hn2]
        simp [linValue, lastObsOr, hp, hfe]
    · intro hno hr
      have hy0n : y0 = none := by
        rw [hy0, hr]
        cases hys : ys with
        | nil => rfl
        | cons a l =>
          cases a with
          | none => rfl
          | some v =>
            exfalso
            cases i with
            | zero => rw [hys] at hy; simp at hy
            | succ i =>
              cases hts : ts with
              | nil => rw [hts] at hit; simp at hit
              | cons b m =>
                rw [hys, hts, List.zip_cons_cons, List.take_succ_cons, observations_cons] at hno
                simp at hno
      obtain ⟨n, hn⟩ : ∃ n, (revScan c (ts.zip ys))[i]? = some n := ⟨_, hrev⟩
      obtain ⟨m, hm⟩ : ∃ m, nextYs[i]? = some m :=
        ⟨_, List.getElem?_eq_getElem (by omega : i < nextYs.length)⟩
      rw [item none (n.1, m) hy (by rw [hn]; rfl) hm]
      simp [linValue, lastObsOr, hno, hy0n]
    · intro hall
      have hdrop : observations ((ts.zip ys).drop i) = [] := by
        have := hall
        rw [← List.take_append_drop i (ts.zip ys), observations_append] at this
        exact (List.append_eq_nil_iff.1 this).2
      have hc2 := hcn hdrop
      rw [hdrop] at hrev
      simp only [List.head?_nil] at hrev
      have hnone : ∀ x ∈ (revScan c (ts.zip ys)).map Prod.snd, x = none := by
        intro x hx
        obtain ⟨j, hj, rfl⟩ := List.getElem_of_mem hx
        simp only [List.length_map, revScan_length] at hj
        have h := revScan_get c (ts.zip ys) j hj
        have hd : observations ((ts.zip ys).drop j) = [] := by
          have := hall
          rw [← List.take_append_drop j (ts.zip ys), observations_append] at this
          exact (List.append_eq_nil_iff.1 this).2
        rw [hd] at h
        simp only [List.head?_nil] at h
        rw [List.getElem_map]
        rw [List.getElem?_eq_getElem (by rw [revScan_length]; exact hj)] at h
        simp only [Option.some.injEq] at h
        rw [h]; exact hc2
      have hn2 : nextYs[i]? = some none := by
        have hm : ((revScan c (ts.zip ys)).map Prod.snd)[i]? = some none := by
          rw [List.getElem?_map, hrev, Option.map_some, hc2]
        rw [hny]
        split
        · have hls : lastSome (((revScan c (ts.zip ys)).map Prod.snd).take (i + 1)) = none := by
            unfold lastSome
            rw [List.getLast?_eq_none_iff, List.filterMap_eq_nil_iff]
            intro a ha
            rw [hnone a (List.mem_of_mem_take ha)]; rfl
          exact ((C37_fill_forward _ _).2 i (by simp [revScan_length, hlen]; omega)).2 hls
        · exact hm
      rw [item none (c.1, none) hy (by rw [hrev]; rfl) hn2]
      simp only [linValue]
      cases (lastObsOr (ts.headD 0, y0) (List.take i (ts.zip ys))).2 <;> rfl
    · intro r q hno hr hq
      obtain ⟨n1, n2⟩ := next1 _ hq
      rw [item none (q.1, some q.2) hy (by rw [n1]; rfl) n2]
      have : y0 = some r := by rw [hy0, hr]
      simp [linValue, lastObsOr, hno, this, line]

example : linearFill [0, 1, 2, 3, 4, (5 : ℚ)] [none, some 1, none, none, some 7, none] true none
      = [none, some 1, some 3, some 5, some 7, some 7] ∧
    linearFill [0, 1, 2, 3, 4, (5 : ℚ)] [none, some 1, none, none, some 7, none] false none
      = [none, some 1, some 3, some 5, some 7, none] := by decide +kernel

/-- The documentation of `replace_nans_at_start` ("it will be used to fill in such `NaN` values") is not
what happens: a leading run of missing values is filled by interpolating from the replacement at the
first time towards the first observation. -/
theorem C36_replace_violated :
    ∃ (ts : List ℚ) (ys : List (Option ℚ)), ts.Pairwise (· < ·) ∧ ys = [none, none, some 2] ∧
      linearFill ts ys false (some (some 0)) = [some 0, some 1, some 2] :=
  ⟨[0, 1, 2], _, by decide +kernel, rfl, by decide +kernel⟩

end Verif
