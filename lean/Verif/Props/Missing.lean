import Verif.Props.Hermite

/-!
# Cubic interpolation over missing data (C57) and `replace_nans_at_start` (C58)
-/

set_option linter.unusedSectionVars false

namespace Verif

variable {K : Type} [Field K] [LinearOrder K]

/-! ## C57 -/

/-- **C57 is false of the code.** Two consecutive missing values: the left and right limits of the path
at the second missing knot differ. -/
theorem C57_violated :
    ∃ (ts : List ℚ) (ys : List (Option ℚ)) (coeffs : List (ℚ × ℚ × ℚ × ℚ)),
      ts.Pairwise (· < ·) ∧ ys = [some 0, some 0, none, none, some 1] ∧
      backwardHermite ts ys false none none = coeffs.map Coef.ofReal ∧
      (⟨ts, coeffs⟩ : CubicInterp ℚ ℚ).evaluate 2 true = 16 / 27 - 1 / 54 ∧
      (⟨ts, coeffs⟩ : CubicInterp ℚ ℚ).evaluate 2 false = 16 / 27 := by
  refine ⟨[-1, 0, 1, 2, 3], _, [(0, 0, 0, 0), (-1 / 27, 2 / 9, 0, 0),
    (-1 / 54, 2 / 27, 1 / 3, 5 / 27), (1 / 27, -2 / 27, 4 / 9, 16 / 27)], ?_, rfl, ?_, ?_, ?_⟩ <;>
  decide +kernel

theorem hermScan_spec (carry : K × Option K × Option K)
    (hcy : ∃ y, carry.2.1 = some y) (hcd : ∃ d, carry.2.2 = some d)
    (items : List ((K × Option K) × (K × Option K))) (j : Nat)
    (it : (K × Option K) × (K × Option K)) (hit : items[j]? = some it) :
    ∃ t y d, (hermScan carry items)[j]? = some (t, some y, some d) ∧
      (∀ v, it.1.2 = some v → t = it.1.1 ∧ y = v) ∧
      (it.1.2 = none → (carry :: hermScan carry items)[j]? = some (t, some y, some d)) := by
  induction items generalizing carry j with
  | nil => simp at hit
  | cons x l ih =>
    obtain ⟨⟨ti, yi⟩, ⟨nt, ny⟩⟩ := x
    obtain ⟨tc, yc, dc⟩ := carry
    obtain ⟨y, hy⟩ := hcy
    obtain ⟨d, hd⟩ := hcd
    simp only at hy hd
    subst hy; subst hd
    cases j with
    | zero =>
      simp only [List.getElem?_cons_zero, Option.some.injEq] at hit
      subst hit
      cases yi with
      | none => exact ⟨tc, y, d, rfl, by simp, fun _ => rfl⟩
      | some v => exact ⟨ti, v, _, rfl, fun w hw => ⟨rfl, Option.some.inj hw⟩, by simp⟩
    | succ j =>
      rw [List.getElem?_cons_succ] at hit
      cases yi with
      | none =>
        obtain ⟨t', y', d', h1, h2, h3⟩ := ih (tc, some y, some d) ⟨_, rfl⟩ ⟨_, rfl⟩ j hit
        exact ⟨t', y', d', h1, h2, h3⟩
      | some v =>
        obtain ⟨t', y', d', h1, h2, h3⟩ := ih (ti, some v, some ((v - y) / (ti - tc)))
          ⟨_, rfl⟩ ⟨_, rfl⟩ j hit
        exact ⟨t', y', d', h1, h2, h3⟩

/-- The piece on segment `i` when the first value and some later value are observed: it is built from
a previous observation (the value at the knot itself if observed, otherwise the same one as the
previous piece) and the next observation. -/
theorem backwardHermite_piece (ts : List K) (ys : List (Option K)) (hlen : ts.length = ys.length)
    (fillEnd : Bool) (deriv0 : Option K) (y0 : K) (hy0 : ys[0]? = some (some y0)) :
    ∃ prev : Nat → K × K × K, ∀ i, i + 1 < ts.length →
      ∀ q, (observations ((ts.zip ys).drop (i + 1))).head? = some q →
        (∀ t, ts[i]? = some t →
          (backwardHermite ts ys fillEnd (deriv0.map some) none)[i]?
            = some (hermiteImpl (prev i).1 (some (prev i).2.1) (some (prev i).2.2) t q.1 (some q.2))) ∧
        (∀ v, ys[i]? = some (some v) → ts[i]? = some (prev i).1 ∧ (prev i).2.1 = v) ∧
        (∀ j, i = j + 1 → ys[i]? = some none → prev i = prev j) := by
  -- names for the intermediate arrays
  obtain ⟨x0, hx0⟩ : ∃ x, ts[0]? = some x := by
    obtain ⟨h, -⟩ := List.getElem?_eq_some_iff.1 hy0
    exact ⟨_, List.getElem?_eq_getElem (by omega)⟩
  obtain ⟨c, hc⟩ : ∃ c : K × Option K, c = (ts.getLastD 0, ys.getLastD none) := ⟨_, rfl⟩
  obtain ⟨next, hnext⟩ : ∃ l, l = revScan c (ts.tail.zip ys.tail) := ⟨_, rfl⟩
  obtain ⟨nextYs, hny⟩ : ∃ l : List (Option K), l = (if fillEnd then fillForward (next.map Prod.snd) none
    else next.map Prod.snd) := ⟨_, rfl⟩
  obtain ⟨d0, hd0⟩ : ∃ d : Option K, d = (match deriv0.map some with
    | none => do pure (((← nextYs.headD none) - (← some y0)) / ((next.map Prod.fst).headD 0 - x0))
    | some d => d) := ⟨_, rfl⟩
  obtain ⟨scan, hscan⟩ : ∃ l, l = hermScan (x0, some y0, d0)
    ((ts.dropLast.tail.zip ys.dropLast.tail).zip ((next.map Prod.fst).tail.zip nextYs.tail)) := ⟨_, rfl⟩
  have hh0 : ts.headD 0 = x0 := by
    cases ts with
    | nil => simp at hx0
    | cons a l => simpa using hx0
  have hhy : ys.headD none = some y0 := by
    cases ys with
    | nil => simp at hy0
    | cons a l => simpa using hy0
  have hdef : backwardHermite ts ys fillEnd (deriv0.map some) none
      = List.zipWith (fun p (x : K × K × Option K) => hermiteImpl p.1 p.2.1 p.2.2 x.1 x.2.1 x.2.2)
        ((x0, some y0, d0) :: scan) (ts.dropLast.zip ((next.map Prod.fst).zip nextYs)) := by
    rw [hscan, hd0, hny, hnext, hc]
    unfold backwardHermite
    rw [hh0, hhy]
    cases deriv0 <;> rfl
  have hzt : ts.tail.zip ys.tail = (ts.zip ys).tail := by
    cases ts <;> cases ys <;> simp
  have hnl : next.length = ts.length - 1 := by
    rw [hnext, revScan_length]; simp [hlen]
  have hnyl : nextYs.length = ts.length - 1 := by
    rw [hny]; split
    · rw [(C37_fill_forward _ _).1]; simp [hnl]
    · simp [hnl]
  -- the next observation
  have hnx : ∀ i, i + 1 < ts.length → ∀ q, (observations ((ts.zip ys).drop (i + 1))).head? = some q →
      next[i]? = some (q.1, some q.2) ∧ nextYs[i]? = some (some q.2) := by
    intro i hi q hq
    have h1 : next[i]? = some (q.1, some q.2) := by
      rw [hnext, hzt, revScan_get c _ i (by simp [hlen]; omega), List.drop_tail, hq]
    refine ⟨h1, ?_⟩
    have hm : (next.map Prod.snd)[i]? = some (some q.2) := by
      rw [List.getElem?_map, h1]; rfl
    rw [hny]; split
    · exact C37_observed_untouched _ _ i _ hm
    · exact hm
  -- the previous observations
  let get : Nat → K × K × K := fun i => match ((x0, some y0, d0) :: scan)[i]? with
    | some (t, some y, some d) => (t, y, d)
    | _ => (0, 0, 0)
  refine ⟨get, fun i hi q hq => ?_⟩
  obtain ⟨n1, n2⟩ := hnx i hi q hq
  -- the slope at the start is not NaN
  have hd0s : ∃ d, d0 = some d := by
    cases hdd : deriv0 with
    | some d => exact ⟨d, by rw [hd0, hdd]; rfl⟩
    | none =>
      obtain ⟨q', hq'⟩ : ∃ q', (observations ((ts.zip ys).drop (0 + 1))).head? = some q' := by
        cases h : (observations ((ts.zip ys).drop (0 + 1))).head? with
        | some q' => exact ⟨q', rfl⟩
        | none =>
          rw [List.head?_eq_none_iff] at h
          exfalso
          have : (observations ((ts.zip ys).drop (i + 1))) = [] := by
            unfold observations at h ⊢
            rw [List.filterMap_eq_nil_iff] at h ⊢
            intro a ha
            refine h a ?_
            have e : (ts.zip ys).drop (i + 1) = ((ts.zip ys).drop (0 + 1)).drop i := by
              rw [List.drop_drop]; congr 1; omega
            rw [e] at ha
            exact List.mem_of_mem_drop ha
          rw [this] at hq; simp at hq
      have hh := (hnx 0 (by omega) q' hq').2
      have : nextYs.headD none = some q'.2 := by
        cases hn : nextYs with
        | nil => rw [hn] at hh; simp at hh
        | cons a l => rw [hn] at hh; simpa using hh
      rw [this, hdd] at hd0
      exact ⟨_, hd0⟩
  obtain ⟨d, hd⟩ := hd0s
  -- the value of `get`
  have hpos : ∀ j, j < ts.length - 1 → 1 ≤ j → ∃ it t y d', ((x0, some y0, d0) :: scan)[j]? = some (t, some y, some d') ∧
      get j = (t, y, d') ∧ (ts.zip ys)[j]? = some it ∧
      (∀ v, it.2 = some v → t = it.1 ∧ y = v) ∧
      (it.2 = none → ((x0, some y0, d0) :: scan)[j - 1]? = some (t, some y, some d')) := by
    intro j hj hj1
    obtain ⟨k, rfl⟩ : ∃ k, j = k + 1 := ⟨j - 1, by omega⟩
    obtain ⟨it, hit⟩ : ∃ it, (ts.zip ys)[k + 1]? = some it :=
      ⟨_, List.getElem?_eq_getElem (by simp [hlen]; omega)⟩
    obtain ⟨n, hn⟩ : ∃ n, ((next.map Prod.fst).tail.zip nextYs.tail)[k]? = some n :=
      ⟨_, List.getElem?_eq_getElem (by simp [hnl, hnyl]; omega)⟩
    have hitem : ((ts.dropLast.tail.zip ys.dropLast.tail).zip
        ((next.map Prod.fst).tail.zip nextYs.tail))[k]? = some (it, n) := by
      rw [List.getElem?_zip_eq_some]
      refine ⟨?_, hn⟩
      rw [List.getElem?_zip_eq_some] at hit ⊢
      simp only [List.getElem?_tail, List.getElem?_dropLast]
      rw [if_pos (by omega), if_pos (by omega)]
      exact hit
    obtain ⟨t, y, d', h1, h2, h3⟩ := hermScan_spec (x0, some y0, d0) ⟨_, rfl⟩ ⟨d, hd⟩ _ k _ hitem
    rw [← hscan] at h1 h3
    have h1' : ((x0, some y0, d0) :: scan)[k + 1]? = some (t, some y, some d') := by
      rw [List.getElem?_cons_succ]; exact h1
    refine ⟨it, t, y, d', h1', ?_, hit, h2, h3⟩
    simp only [get, h1']
  have hzero : get 0 = (x0, y0, d) := by
    simp only [get, List.getElem?_cons_zero, hd]
  have hget : ∃ t y d', ((x0, some y0, d0) :: scan)[i]? = some (t, some y, some d') ∧ get i = (t, y, d') := by
    rcases Nat.eq_zero_or_pos i with h | h
    · subst h
      exact ⟨x0, y0, d, by simp [hd], hzero⟩
    · obtain ⟨it, t, y, d', h1, h2, -⟩ := hpos i (by omega) h
      exact ⟨t, y, d', h1, h2⟩
  refine ⟨?_, ?_, ?_⟩
  · intro t ht
    obtain ⟨tp, yp, dp, hg1, hg2⟩ := hget
    rw [hdef, List.getElem?_zipWith_eq_some]
    refine ⟨_, (t, q.1, some q.2), hg1, ?_, by rw [hg2]⟩
    rw [List.getElem?_zip_eq_some, List.getElem?_zip_eq_some, List.getElem?_map, n1]
    refine ⟨?_, rfl, n2⟩
    rw [List.getElem?_dropLast, if_pos (by omega)]; exact ht
  · intro v hv
    rcases Nat.eq_zero_or_pos i with h | h
    · subst h
      rw [hzero]
      rw [hy0] at hv
      simp only [Option.some.injEq] at hv
      exact ⟨hx0, hv⟩
    · obtain ⟨it, t, y, d', h1, h2, h3, h4, h5⟩ := hpos i (by omega) h
      rw [List.getElem?_zip_eq_some, hv] at h3
      rw [h2]
      obtain ⟨e1, e2⟩ := h4 v (Option.some.inj h3.2).symm
      exact ⟨by rw [h3.1, e1], e2⟩
  · intro j hj hnone
    subst hj
    obtain ⟨it, t, y, d', h1, h2, h3, h4, h5⟩ := hpos (j + 1) (by omega) (by omega)
    rw [List.getElem?_zip_eq_some, hnone] at h3
    have h6 := h5 (Option.some.inj h3.2).symm
    rw [h2]
    simp only [Nat.add_sub_cancel] at h6
    simp only [get, h6]

theorem hermiteImpl_real (tp yp dp ti nt ny : K) :
    hermiteImpl tp (some yp) (some dp) ti nt (some ny) =
      let g := hermiteTuple (nt - tp) yp dp ny
      let x := ti - tp
      Coef.ofReal (hermiteTuple (nt - ti) (g.2.2.2 + x * (g.2.2.1 + x * (g.2.1 + x * g.1)))
        (g.2.2.1 + x * (2 * g.2.1 + x * 3 * g.1)) ny) := by
  unfold hermiteImpl
  simp only [hermiteCoeffs_real]
  rw [← hermiteCoeffs_real]
  rfl

/-- Partial version of C57: when the first value is observed, on every segment followed by an
observation the path has no NaN coefficient; it passes through every observation (from both sides); and
it is continuous, with continuous derivative, at a missing knot whose predecessor is observed. Missing:
continuity at the second and later missing knots of a run, which fails by `C57_violated`. -/
theorem C57_partial (ts : List K) (ys : List (Option K)) (hlen : ts.length = ys.length)
    (hs : ts.Pairwise (· ≠ ·)) (fillEnd : Bool) (deriv0 : Option K) (y0 : K)
    (hy0 : ys[0]? = some (some y0)) (i : Nat) (s t : K) (hsi : ts[i]? = some s)
    (hti : ts[i + 1]? = some t) (hobs : observations ((ts.zip ys).drop (i + 1)) ≠ []) :
    ∃ q : K × K × K × K,
      (backwardHermite ts ys fillEnd (deriv0.map some) none)[i]? = some (Coef.ofReal q) ∧
      (∀ v, ys[i]? = some (some v) → (Coef.ofReal q).eval s s = some v) ∧
      (∀ v, ys[i + 1]? = some (some v) → (Coef.ofReal q).eval s t = some v) ∧
      (∀ v, ys[i]? = some (some v) → ys[i + 1]? = some none →
        ∃ r, (backwardHermite ts ys fillEnd (deriv0.map some) none)[i + 1]? = some r ∧
          r.eval t t = (Coef.ofReal q).eval s t ∧ r.deriv t t = (Coef.ofReal q).deriv s t) := by
  obtain ⟨prev, hprev⟩ := backwardHermite_piece ts ys hlen fillEnd deriv0 y0 hy0
  obtain ⟨hit, ht'⟩ := List.getElem?_eq_some_iff.1 hti
  obtain ⟨his, hs'⟩ := List.getElem?_eq_some_iff.1 hsi
  have hst : t - s ≠ 0 := by
    rw [sub_ne_zero, ← ht', ← hs']
    exact (List.pairwise_iff_getElem.1 hs i (i + 1) his hit (by omega)).symm
  obtain ⟨o, ho⟩ : ∃ o, (observations ((ts.zip ys).drop (i + 1))).head? = some o := by
    cases h : (observations ((ts.zip ys).drop (i + 1))) with
    | nil => exact absurd h hobs
    | cons a l => exact ⟨a, rfl⟩
  obtain ⟨p1, p2, -⟩ := hprev i hit o ho
  have h1 := p1 s hsi
  rw [hermiteImpl_real] at h1
  refine ⟨_, h1, ?_, ?_, ?_⟩
  · intro v hv
    obtain ⟨e1, e2⟩ := p2 v hv
    rw [hsi] at e1
    simp only [Option.some.injEq] at e1
    simp [Coef.eval, Coef.ofReal, hermiteTuple, ← e1, e2]
  · intro v hv
    have ho' : o = (t, v) := by
      have hz : (ts.zip ys)[i + 1]? = some (t, some v) := List.getElem?_zip_eq_some.2 ⟨hti, hv⟩
      obtain ⟨hl, hv'⟩ := List.getElem?_eq_some_iff.1 hz
      rw [List.drop_eq_getElem_cons hl, observations_cons, hv'] at ho
      simpa using ho.symm
    rw [ho']
    simp only [Coef.eval, Coef.ofReal]
    exact congrArg some (hermiteTuple_end (t - s) _ _ v hst).1
  · intro v hv hn
    obtain ⟨e1, e2⟩ := p2 v hv
    rw [hsi] at e1
    simp only [Option.some.injEq] at e1
    have hz : (ts.zip ys)[i + 1]? = some (t, none) := List.getElem?_zip_eq_some.2 ⟨hti, hn⟩
    have ho2 : (observations ((ts.zip ys).drop (i + 1 + 1))).head? = some o := by
      obtain ⟨hl, hv'⟩ := List.getElem?_eq_some_iff.1 hz
      rw [List.drop_eq_getElem_cons hl, observations_cons, hv'] at ho
      simpa using ho
    have hlt : i + 1 + 1 < ts.length := by
      by_contra hcon
      rw [List.drop_eq_nil_of_le (by simp [hlen]; omega)] at ho2
      simp [observations] at ho2
    obtain ⟨r1, -, r3⟩ := hprev (i + 1) hlt o ho2
    have h2 := r1 t hti
    rw [hermiteImpl_real, r3 i rfl hn] at h2
    refine ⟨_, h2, ?_, ?_⟩
    · simp [Coef.eval, Coef.ofReal, hermiteTuple, ← e1]
    · simp [Coef.deriv, Coef.ofReal, hermiteTuple, ← e1]

example : backwardHermite [0, 1, (2 : ℚ), 3] [some 0, none, some 4, some 5] false none none
    = [⟨some 0, some 0, some 2, some 0⟩, ⟨some 0, some 0, some 2, some 2⟩,
       ⟨some 1, some (-2), some 2, some 4⟩] := by
  decide +kernel

/-! ## C58 -/

/-- **C58 is false of the code** for `backward_hermite_coefficients`: an observed first value is
overwritten by the replacement. -/
theorem C58_violated :
    ∃ (ts : List ℚ) (vs : List ℚ), ts.Pairwise (· < ·) ∧
      backwardHermite ts (vs.map some) false none (some (some 0))
        ≠ backwardHermite ts (vs.map some) false none none :=
  ⟨[0, 1], [5, 6], by decide +kernel, by decide +kernel⟩

/-- Partial version of C58: it holds of `linear_interpolation`, `rectilinear_interpolation` and
`fill_forward`. Missing: `backward_hermite_coefficients`, which fails by `C58_violated`. -/
theorem C58_partial (ts : List K) (y : K) (ys : List (Option K)) (fillEnd : Bool)
    (replace : Option (Option K)) :
    linearFill ts (some y :: ys) fillEnd replace = linearFill ts (some y :: ys) fillEnd none ∧
    fillForward (some y :: ys) replace = fillForward (some y :: ys) none ∧
    rectilinearYs (some y :: ys) replace = rectilinearYs (some y :: ys) none := by
  refine ⟨?_, rfl, rfl⟩
  unfold linearFill
  cases ts with
  | nil => rfl
  | cons t ts =>
    have key : ∀ (c c' : K × Option K) (l : List ((K × Option K) × (K × Option K))) (it : _),
        it.1.2 = some y → linScan c (it :: l) = linScan c' (it :: l) := by
      intro c c' l it hit
      obtain ⟨⟨a, b⟩, n⟩ := it
      simp only at hit
      subst hit
      rfl
    simp only [List.zip_cons_cons]
    obtain ⟨a, b, hab⟩ : ∃ a b, revScan ((t :: ts).getLastD 0, (some y :: ys).getLastD none)
        ((t, some y) :: ts.zip ys) = a :: b := ⟨_, _, rfl⟩
    simp only [hab, List.map_cons]
    obtain ⟨a', b', hab'⟩ : ∃ a' b', (if fillEnd = true then fillForward (a.2 :: List.map Prod.snd b) none
        else a.2 :: List.map Prod.snd b) = a' :: b' := by
      split
      · exact ⟨_, _, rfl⟩
      · exact ⟨_, _, rfl⟩
    simp only [hab', List.zip_cons_cons]
    exact key _ _ _ _ rfl

end Verif
