import Verif.Lemmas.Hermite
import Verif.Props.Fill
import Mathlib.Analysis.Calculus.Deriv.Mul
import Mathlib.Analysis.Calculus.Deriv.Add

/-!
# Properties of backward Hermite cubic interpolation: C35, C57, C58
-/

set_option linter.unusedSectionVars false

namespace Verif

variable {K : Type} [Field K] [LinearOrder K]

theorem getD_zip_fst (ts vs : List K) (i : Nat) (h : i < ts.length) (h' : i < vs.length) :
    (ts.zip vs)[i]? = some (ts.getD i 0, vs.getD i 0) := by
  rw [List.getElem?_zip_eq_some]
  simp [List.getD_eq_getElem?_getD, List.getElem?_eq_getElem h, List.getElem?_eq_getElem h']

/-- The coefficients on segment `i`, for fully observed data. -/
theorem backwardHermite_get (ts vs : List K) (hlen : ts.length = vs.length) (fillEnd : Bool)
    (deriv0 : Option K) (i : Nat) (hi : i + 1 < ts.length) :
    (backwardHermite ts (vs.map some) fillEnd (deriv0.map some) none)[i]?
      = some (hermiteCoeffs (ts.getD i 0) (some (vs.getD i 0)) (some (knotSlope ts vs deriv0 i))
          (ts.getD (i + 1) 0) (some (vs.getD (i + 1) 0))) := by
  have hts : ts = (ts.zip vs).map Prod.fst := (List.map_fst_zip (by omega)).symm
  have hvs : vs.map some = (ts.zip vs).map (fun x => some x.2) := by
    conv_lhs => rw [← List.map_snd_zip (l₁ := ts) (l₂ := vs) (by omega)]
    simp
  obtain ⟨data, hdata⟩ : ∃ d, d = ts.zip vs := ⟨_, rfl⟩
  have hget : ∀ j, j < ts.length → data[j]? = some (ts.getD j 0, vs.getD j 0) := by
    intro j hj; rw [hdata]; exact getD_zip_fst ts vs j hj (by omega)
  have hdl : data.length = ts.length := by rw [hdata]; simp [hlen]
  rw [← hdata] at hts hvs
  cases hd : data with
  | nil => rw [hd] at hdl; simp at hdl; omega
  | cons x0 rest =>
    have hrl : rest.length + 1 = ts.length := by rw [← hdl, hd]; rfl
    have hne : rest ≠ [] := by intro h; rw [h] at hrl; simp at hrl; omega
    have h0 := hget 0 (by omega)
    have h1 := hget 1 (by omega)
    rw [hd] at h0 h1
    simp only [List.getElem?_cons_zero, Option.some.injEq, List.getElem?_cons_succ] at h0 h1
    have hfull := backwardHermite_full x0 rest hne fillEnd deriv0 (knotSlope ts vs deriv0 0) (by
      intro y hy
      rw [List.head?_eq_getElem?, h1] at hy
      cases hy
      rw [h0]; rfl)
    rw [← hd, ← hts, ← hvs] at hfull
    rw [hfull, List.getElem?_zipWith_eq_some]
    have hri : rest[i]? = some (ts.getD (i + 1) 0, vs.getD (i + 1) 0) := by
      have := hget (i + 1) hi
      rw [hd] at this; simpa using this
    cases i with
    | zero =>
      refine ⟨(x0.1, x0.2, knotSlope ts vs deriv0 0), _, by simp, hri, ?_⟩
      rw [h0]
    | succ i =>
      have hci : (x0 :: rest)[i]? = some (ts.getD i 0, vs.getD i 0) := by
        rw [← hd]; exact hget i (by omega)
      have hci1 : rest[i]? = some (ts.getD (i + 1) 0, vs.getD (i + 1) 0) := by
        have := hget (i + 1) (by omega)
        rw [hd] at this; simpa using this
      refine ⟨(ts.getD (i + 1) 0, vs.getD (i + 1) 0, knotSlope ts vs deriv0 (i + 1)), _, ?_, hri, rfl⟩
      rw [List.getElem?_cons_succ, List.getElem?_zipWith_eq_some]
      refine ⟨(ts.getD i 0, vs.getD i 0), (ts.getD (i + 1) 0, vs.getD (i + 1) 0), ?_, ?_, rfl⟩
      · rw [← List.dropLast_cons_of_ne_nil hne, List.getElem?_dropLast, if_pos (by simp; omega)]
        exact hci
      · rw [List.getElem?_dropLast, if_pos (by omega)]
        exact hci1

theorem backwardHermite_length (ts vs : List K) (hlen : ts.length = vs.length) (h2 : 2 ≤ ts.length)
    (fillEnd : Bool) (deriv0 : Option K) :
    (backwardHermite ts (vs.map some) fillEnd (deriv0.map some) none).length = ts.length - 1 := by
  have hts : ts = (ts.zip vs).map Prod.fst := (List.map_fst_zip (by omega)).symm
  have hvs : vs.map some = (ts.zip vs).map (fun x => some x.2) := by
    conv_lhs => rw [← List.map_snd_zip (l₁ := ts) (l₂ := vs) (by omega)]
    simp
  obtain ⟨data, hdata⟩ : ∃ d, d = ts.zip vs := ⟨_, rfl⟩
  have hdl : data.length = ts.length := by rw [hdata]; simp [hlen]
  rw [← hdata] at hts hvs
  cases hd : data with
  | nil => rw [hd] at hdl; simp at hdl; omega
  | cons x0 rest =>
    have hrl : rest.length + 1 = ts.length := by rw [← hdl, hd]; rfl
    have hne : rest ≠ [] := by intro h; rw [h] at hrl; simp at hrl; omega
    have hfull := backwardHermite_full x0 rest hne fillEnd deriv0
      (deriv0.getD (((rest.head hne).2 - x0.2) / ((rest.head hne).1 - x0.1))) (by
      intro y hy
      rw [List.head?_eq_some_head hne] at hy
      cases hy; rfl)
    rw [← hd, ← hts, ← hvs] at hfull
    rw [hfull]; simp; omega

/-- Coefficients none of which is NaN. -/
def Coef.ofReal (q : K × K × K × K) : Coef K := ⟨some q.1, some q.2.1, some q.2.2.1, some q.2.2.2⟩

/-- The cubic coefficients `d, c, b, a` matching value `v`, slope `m` at the start and value `v'`, slope
`(v' - v) / h` at the end of a segment of length `h`. -/
def hermiteTuple (h v m v' : K) : K × K × K × K :=
  (-((v' - v) / h - m) / h ^ 2, 2 * ((v' - v) / h - m) / h, m, v)

theorem hermiteCoeffs_real (s v m s' v' : K) :
    hermiteCoeffs s (some v) (some m) s' (some v') = Coef.ofReal (hermiteTuple (s' - s) v m v') := by
  simp [hermiteCoeffs, Coef.ofReal, hermiteTuple]

theorem hermiteTuple_end (h v m v' : K) (hh : h ≠ 0) :
    let q := hermiteTuple h v m v'
    q.2.2.2 + h * (q.2.2.1 + h * (q.2.1 + h * q.1)) = v' ∧
    q.2.2.1 + h * (2 * q.2.1 + h * 3 * q.1) = (v' - v) / h := by
  simp only [hermiteTuple]
  constructor
  · field_simp; ring
  · field_simp; ring

variable [IsStrictOrderedRing K]

/-- On each closed segment the path is the cubic of that segment, and the reported derivative is its
derivative, whichever side is asked for at the knots. -/
theorem cubic_on_segment (p : CubicInterp K K) (vs : List K) (deriv0 : Option K)
    (hlen : p.ts.length = vs.length) (hs : p.ts.Pairwise (· < ·))
    (hc : ∀ i, i + 1 < p.ts.length → p.coeffs[i]? = some (hermiteTuple
      (p.ts.getD (i + 1) 0 - p.ts.getD i 0) (vs.getD i 0) (knotSlope p.ts vs deriv0 i)
      (vs.getD (i + 1) 0)))
    (i : Nat) (hi : i + 1 < p.ts.length) (left : Bool) (t : K) (h1 : p.ts.getD i 0 ≤ t)
    (h2 : t ≤ p.ts.getD (i + 1) 0) :
    let q := hermiteTuple (p.ts.getD (i + 1) 0 - p.ts.getD i 0) (vs.getD i 0)
      (knotSlope p.ts vs deriv0 i) (vs.getD (i + 1) 0)
    let x := t - p.ts.getD i 0
    p.evaluate t left = q.2.2.2 + x * (q.2.2.1 + x * (q.2.1 + x * q.1)) ∧
    p.derivative t left = q.2.2.1 + x * (2 * q.2.1 + x * 3 * q.1) := by
  have hg : ∀ j, j < p.ts.length → p.ts[j]? = some (p.ts.getD j 0) := by
    intro j hj; simp [List.getD_eq_getElem?_getD, List.getElem?_eq_getElem hj]
  have hmono : ∀ j, j + 1 < p.ts.length → p.ts.getD j 0 < p.ts.getD (j + 1) 0 := by
    intro j hj
    have := List.pairwise_iff_getElem.1 hs j (j + 1) (by omega) hj (by omega)
    simpa [List.getD_eq_getElem?_getD, List.getElem?_eq_getElem hj,
      List.getElem?_eq_getElem (show j < p.ts.length by omega)] using this
  have hraw : ∀ j, j + 1 < p.ts.length → segIndex (p.ts.map some) p.ts.length t left = j →
      let q := hermiteTuple (p.ts.getD (j + 1) 0 - p.ts.getD j 0) (vs.getD j 0)
        (knotSlope p.ts vs deriv0 j) (vs.getD (j + 1) 0)
      let x := t - p.ts.getD j 0
      p.evaluate t left = q.2.2.2 + x * (q.2.2.1 + x * (q.2.1 + x * q.1)) ∧
      p.derivative t left = q.2.2.1 + x * (2 * q.2.1 + x * 3 * q.1) := by
    intro j hj hidx
    unfold CubicInterp.evaluate CubicInterp.derivative interpretT
    simp only [hidx, getD_of_get? _ (hc j hj), smul_eq_mul]
    exact ⟨trivial, trivial⟩
  rcases segIndex_cases p.ts hs i _ _ t (hg i (by omega)) (hg (i + 1) hi) h1 h2 left with
    h | ⟨-, ht, hidx⟩ | ⟨-, ht, hidx, hlt⟩
  · exact hraw i hi h
  · obtain ⟨j, hj⟩ : ∃ j, j = segIndex (p.ts.map some) p.ts.length t left := ⟨_, rfl⟩
    rw [← hj] at hidx
    subst hidx
    have hr := hraw j (by omega) hj.symm
    have he := hermiteTuple_end (p.ts.getD (j + 1) 0 - p.ts.getD j 0) (vs.getD j 0)
        (knotSlope p.ts vs deriv0 j) (vs.getD (j + 1) 0) (sub_ne_zero.2 (hmono j (by omega)).ne')
    simp only [ht] at hr he ⊢
    rw [hr.1, hr.2, he.1, he.2]
    constructor <;> simp [hermiteTuple, knotSlope]
  · have hr := hraw (i + 1) (by omega) hidx
    have he := hermiteTuple_end (p.ts.getD (i + 1) 0 - p.ts.getD i 0) (vs.getD i 0)
        (knotSlope p.ts vs deriv0 i) (vs.getD (i + 1) 0) (sub_ne_zero.2 (hmono i (by omega)).ne')
    simp only [ht] at hr he ⊢
    rw [hr.1, hr.2, he.1, he.2]
    constructor <;> simp [hermiteTuple, knotSlope]

/-- For fully observed data, `backward_hermite_coefficients` succeeds without NaN and the resulting
`CubicInterpolation` passes through every data point; its derivative at every knot after the first is
the preceding difference quotient, and at the first knot `deriv0` (default: the first difference
quotient). -/
theorem C35_interpolates (ts vs : List K) (hlen : ts.length = vs.length) (h2 : 2 ≤ ts.length)
    (hs : ts.Pairwise (· < ·)) (fillEnd : Bool) (deriv0 : Option K) :
    ∃ coeffs : List (K × K × K × K),
      backwardHermite ts (vs.map some) fillEnd (deriv0.map some) none = coeffs.map Coef.ofReal ∧
      coeffs.length + 1 = ts.length ∧
      ∀ left, let p : CubicInterp K K := ⟨ts, coeffs⟩
        (∀ (i : Nat) t v, ts[i]? = some t → vs[i]? = some v → p.evaluate t left = v) ∧
        (∀ (i : Nat) t v t' v', ts[i]? = some t → vs[i]? = some v → ts[i + 1]? = some t' →
          vs[i + 1]? = some v' → p.derivative t' left = (v' - v) / (t' - t)) ∧
        (∀ t v t' v', ts[0]? = some t → vs[0]? = some v → ts[1]? = some t' → vs[1]? = some v' →
          p.derivative t left = deriv0.getD ((v' - v) / (t' - t))) := by
  let coeffs : List (K × K × K × K) := (List.range (ts.length - 1)).map (fun i => hermiteTuple
      (ts.getD (i + 1) 0 - ts.getD i 0) (vs.getD i 0) (knotSlope ts vs deriv0 i) (vs.getD (i + 1) 0))
  have hcl : coeffs.length = ts.length - 1 := by simp [coeffs]
  have hc : ∀ i, i + 1 < ts.length → coeffs[i]? = some (hermiteTuple
      (ts.getD (i + 1) 0 - ts.getD i 0) (vs.getD i 0) (knotSlope ts vs deriv0 i)
      (vs.getD (i + 1) 0)) := by
    intro i hi
    simp only [coeffs, List.getElem?_map]
    rw [List.getElem?_range (by omega)]; rfl
  refine ⟨coeffs, ?_, by omega, ?_⟩
  · apply List.ext_getElem?
    intro i
    by_cases hi : i + 1 < ts.length
    · rw [backwardHermite_get ts vs hlen fillEnd deriv0 i hi, List.getElem?_map, hc i hi,
        hermiteCoeffs_real]; rfl
    · rw [List.getElem?_eq_none (by rw [backwardHermite_length ts vs hlen h2]; omega),
        List.getElem?_eq_none (by rw [List.length_map, hcl]; omega)]
  · intro left p
    have hg : ∀ (l : List K) (j : Nat) x, l[j]? = some x → l.getD j 0 = x := fun l j x h => getD_of_get? 0 h
    have hmono : ∀ j, j + 1 < ts.length → ts.getD j 0 < ts.getD (j + 1) 0 := by
      intro j hj
      have := List.pairwise_iff_getElem.1 hs j (j + 1) (by omega) hj (by omega)
      simpa [List.getD_eq_getElem?_getD, List.getElem?_eq_getElem hj,
        List.getElem?_eq_getElem (show j < ts.length by omega)] using this
    have hend : ∀ i, i + 1 < ts.length → p.evaluate (ts.getD (i + 1) 0) left = vs.getD (i + 1) 0 ∧
        p.derivative (ts.getD (i + 1) 0) left
          = (vs.getD (i + 1) 0 - vs.getD i 0) / (ts.getD (i + 1) 0 - ts.getD i 0) := by
      intro i hi
      have := cubic_on_segment p vs deriv0 hlen hs hc i hi left (ts.getD (i + 1) 0) (hmono i hi).le le_rfl
      have he := hermiteTuple_end (ts.getD (i + 1) 0 - ts.getD i 0) (vs.getD i 0)
        (knotSlope ts vs deriv0 i) (vs.getD (i + 1) 0) (sub_ne_zero.2 (hmono i (by omega)).ne')
      exact ⟨this.1.trans he.1, this.2.trans he.2⟩
    have hstart := cubic_on_segment p vs deriv0 hlen hs hc 0 h2 left (ts.getD 0 0) le_rfl (hmono 0 h2).le
    refine ⟨?_, ?_, ?_⟩
    · intro i t v ht hv
      obtain ⟨hit, -⟩ := List.getElem?_eq_some_iff.1 ht
      cases i with
      | zero =>
        rw [← hg _ _ _ ht, ← hg _ _ _ hv]
        rw [hstart.1]
        have : p.ts = ts := rfl
        rw [this]; simp [hermiteTuple]
      | succ i =>
        rw [← hg _ _ _ ht, ← hg _ _ _ hv]
        exact (hend i hit).1
    · intro i t v t' v' ht hv ht' hv'
      obtain ⟨hit, -⟩ := List.getElem?_eq_some_iff.1 ht'
      rw [← hg _ _ _ ht, ← hg _ _ _ hv, ← hg _ _ _ ht', ← hg _ _ _ hv']
      exact (hend i hit).2
    · intro t v t' v' ht hv ht' hv'
      rw [← hg _ _ _ ht, ← hg _ _ _ hv, ← hg _ _ _ ht', ← hg _ _ _ hv']
      rw [hstart.2]
      have : p.ts = ts := rfl
      rw [this]; simp [hermiteTuple, knotSlope]

/-- Causality: the piece on segment `i` depends only on the data up to index `i + 1`. -/
theorem C35_causal (ts ts' vs vs' : List K) (hlen : ts.length = vs.length)
    (hlen' : ts'.length = vs'.length) (fillEnd : Bool) (deriv0 : Option K) (i : Nat)
    (hi : i + 1 < ts.length) (hi' : i + 1 < ts'.length)
    (hts : ts.take (i + 2) = ts'.take (i + 2)) (hvs : vs.take (i + 2) = vs'.take (i + 2)) :
    (backwardHermite ts (vs.map some) fillEnd (deriv0.map some) none)[i]?
      = (backwardHermite ts' (vs'.map some) fillEnd (deriv0.map some) none)[i]? := by
  have hag : ∀ (l l' : List K), l.take (i + 2) = l'.take (i + 2) → ∀ j, j < i + 2 →
      l.getD j 0 = l'.getD j 0 := by
    intro l l' h j hj
    have := congrArg (fun x => x[j]?) h
    simp only [List.getElem?_take, if_pos hj] at this
    simp only [List.getD_eq_getElem?_getD, this]
  have ht := hag _ _ hts
  have hv := hag _ _ hvs
  have hslope : knotSlope ts vs deriv0 i = knotSlope ts' vs' deriv0 i := by
    cases i with
    | zero => simp only [knotSlope, ht 0 (by omega), ht 1 (by omega), hv 0 (by omega), hv 1 (by omega)]
    | succ i => simp only [knotSlope, ht i (by omega), ht (i + 1) (by omega), hv i (by omega),
        hv (i + 1) (by omega)]
  rw [backwardHermite_get ts vs hlen fillEnd deriv0 i hi,
    backwardHermite_get ts' vs' hlen' fillEnd deriv0 i hi', hslope, ht i (by omega),
    ht (i + 1) (by omega), hv i (by omega), hv (i + 1) (by omega)]

example : backwardHermite [0, 1, (3 : ℚ)] ([0, 2, 2].map some) false none none
    = [⟨some 0, some 0, some 2, some 0⟩, ⟨some (1 / 2), some (-2), some 2, some 2⟩] := by
  decide +kernel

/-! ### Continuous differentiability -/

theorem hasDerivAt_glue {f P Q : ℝ → ℝ} {d a b c : ℝ} (hab : a < b) (hbc : b < c)
    (h1 : ∀ t, a ≤ t → t ≤ b → f t = P t) (h2 : ∀ t, b ≤ t → t ≤ c → f t = Q t)
    (hP : HasDerivAt P d b) (hQ : HasDerivAt Q d b) : HasDerivAt f d b := by
  have l : HasDerivWithinAt f d (Set.Iic b) b := by
    have : HasDerivWithinAt f d (Set.Icc a b) b :=
      hP.hasDerivWithinAt.congr (fun t ht => h1 t ht.1 ht.2) (h1 b hab.le le_rfl)
    exact this.mono_of_mem_nhdsWithin (Icc_mem_nhdsLE hab)
  have r : HasDerivWithinAt f d (Set.Ici b) b := by
    have : HasDerivWithinAt f d (Set.Icc b c) b :=
      hQ.hasDerivWithinAt.congr (fun t ht => h2 t ht.1 ht.2) (h2 b le_rfl hbc.le)
    exact this.mono_of_mem_nhdsWithin (Icc_mem_nhdsGE hbc)
  have := l.union r
  rwa [Set.Iic_union_Ici, hasDerivWithinAt_univ] at this

theorem continuousAt_glue {f P Q : ℝ → ℝ} {a b c : ℝ} (hab : a < b) (hbc : b < c)
    (h1 : ∀ t, a ≤ t → t ≤ b → f t = P t) (h2 : ∀ t, b ≤ t → t ≤ c → f t = Q t)
    (hP : ContinuousAt P b) (hQ : ContinuousAt Q b) : ContinuousAt f b := by
  have l : ContinuousWithinAt f (Set.Iic b) b := by
    have : ContinuousWithinAt f (Set.Icc a b) b :=
      hP.continuousWithinAt.congr (fun t ht => h1 t ht.1 ht.2) (h1 b hab.le le_rfl)
    exact this.mono_of_mem_nhdsWithin (Icc_mem_nhdsLE hab)
  have r : ContinuousWithinAt f (Set.Ici b) b := by
    have : ContinuousWithinAt f (Set.Icc b c) b :=
      hQ.continuousWithinAt.congr (fun t ht => h2 t ht.1 ht.2) (h2 b le_rfl hbc.le)
    exact this.mono_of_mem_nhdsWithin (Icc_mem_nhdsGE hbc)
  have := l.union r
  rwa [Set.Iic_union_Ici, continuousWithinAt_univ] at this

theorem cubic_hasDerivAt (a b c d s t : ℝ) :
    HasDerivAt (fun t => a + (t - s) * (b + (t - s) * (c + (t - s) * d)))
      (b + (t - s) * (2 * c + (t - s) * 3 * d)) t := by
  have h : HasDerivAt (fun t : ℝ => t - s) 1 t := (hasDerivAt_id t).sub_const s
  have h3 := h.mul ((h.mul ((h.mul_const d).const_add c)).const_add b)
  have := h3.const_add a
  refine this.congr_deriv ?_
  simp only [Pi.mul_apply]
  ring

/-- The path is continuously differentiable: between the first and the last knot it has a derivative,
which is what `derivative` reports, and that is continuous. -/
theorem C35_continuously_differentiable (ts vs : List ℝ) (hlen : ts.length = vs.length)
    (hs : ts.Pairwise (· < ·)) (fillEnd : Bool) (deriv0 : Option ℝ)
    (coeffs : List (ℝ × ℝ × ℝ × ℝ))
    (hco : backwardHermite ts (vs.map some) fillEnd (deriv0.map some) none = coeffs.map Coef.ofReal)
    (left : Bool) (t first last : ℝ) (hf : ts.head? = some first) (hl : ts.getLast? = some last)
    (hft : first < t) (htl : t < last) :
    let p : CubicInterp ℝ ℝ := ⟨ts, coeffs⟩
    HasDerivAt (fun s => p.evaluate s left) (p.derivative t left) t ∧
    ContinuousAt (fun s => p.derivative s left) t := by
  intro p
  have h2 : 2 ≤ ts.length := by
    match ts, hf, hl with
    | [], hf, _ => simp at hf
    | [x], hf, hl =>
      simp at hf hl; subst hf; subst hl; exact absurd (hft.trans htl) (lt_irrefl _)
    | _ :: _ :: _, _, _ => simp
  have hc : ∀ i, i + 1 < ts.length → coeffs[i]? = some (hermiteTuple
      (ts.getD (i + 1) 0 - ts.getD i 0) (vs.getD i 0) (knotSlope ts vs deriv0 i)
      (vs.getD (i + 1) 0)) := by
    intro i hi
    have := backwardHermite_get ts vs hlen fillEnd deriv0 i hi
    rw [hco, hermiteCoeffs_real, List.getElem?_map] at this
    cases hq : coeffs[i]? with
    | none => rw [hq] at this; simp at this
    | some q =>
      rw [hq] at this
      simp only [Option.map_some, Option.some.injEq, Coef.ofReal, Coef.mk.injEq] at this
      obtain ⟨e1, e2, e3, e4⟩ := this
      rw [Option.some.injEq]
      exact Prod.ext e1 (Prod.ext e2 (Prod.ext e3 e4))
  have hmono : ∀ j, j + 1 < ts.length → ts.getD j 0 < ts.getD (j + 1) 0 := by
    intro j hj
    have := List.pairwise_iff_getElem.1 hs j (j + 1) (by omega) hj (by omega)
    simpa [List.getD_eq_getElem?_getD, List.getElem?_eq_getElem hj,
      List.getElem?_eq_getElem (show j < ts.length by omega)] using this
  have hseg := fun i hi t h1 h2 => cubic_on_segment p vs deriv0 hlen hs hc i hi left t h1 h2
  -- the segment containing `t`
  obtain ⟨a, b, f', l', ha, hb, hf', hl', hab, l1, -⟩ := C33_segment ts 0 h2 hs t true
  simp only [List.replicate_zero, List.append_nil] at ha hb
  obtain ⟨i, hi⟩ : ∃ i, i = segIndex (ts.map some) ts.length t true := ⟨_, rfl⟩
  rw [← hi] at ha hb
  rw [hf] at hf'; rw [hl] at hl'
  cases hf'; cases hl'
  obtain ⟨hat, htb⟩ := l1 rfl hft htl.le
  obtain ⟨hib, -⟩ := List.getElem?_eq_some_iff.1 hb
  have hA := getD_of_get? 0 ha
  have hB := getD_of_get? 0 hb
  have hpt : p.ts = ts := rfl
  rcases lt_or_eq_of_le htb with h | h
  · -- inside a segment
    have hnhds : Set.Ioo a b ∈ nhds t := Ioo_mem_nhds hat h
    have hs0 := hseg i hib
    rw [hpt, hA, hB] at hs0
    obtain ⟨q, hs1⟩ : ∃ q : ℝ × ℝ × ℝ × ℝ, ∀ t, a ≤ t → t ≤ b →
        p.evaluate t left = q.2.2.2 + (t - a) * (q.2.2.1 + (t - a) * (q.2.1 + (t - a) * q.1)) ∧
        p.derivative t left = q.2.2.1 + (t - a) * (2 * q.2.1 + (t - a) * 3 * q.1) := ⟨_, hs0⟩
    constructor
    · rw [(hs1 t hat.le h.le).2]
      refine (cubic_hasDerivAt q.2.2.2 _ _ _ a t).congr_of_eventuallyEq ?_
      filter_upwards [hnhds] with s hs
      exact (hs1 s hs.1.le hs.2.le).1
    · have hcont : ContinuousAt (fun s => q.2.2.1 + (s - a) * (2 * q.2.1 + (s - a) * 3 * q.1)) t := by
        fun_prop
      refine hcont.congr ?_
      filter_upwards [hnhds] with s hs
      exact (hs1 s hs.1.le hs.2.le).2.symm
  · -- at a knot
    have hi2 : i + 1 + 1 < ts.length := by
      by_contra hcon
      rw [List.getLast?_eq_getElem?] at hl
      have : ts.length - 1 = i + 1 := by omega
      rw [this, hb] at hl
      cases hl
      exact absurd htl (by rw [h]; exact lt_irrefl _)
    have hs1 := hseg i hib
    have hs2 := hseg (i + 1) hi2
    rw [hpt] at hs1 hs2
    have hm2 := hmono (i + 1) hi2
    rw [hA, hB] at hs1
    rw [hB] at hs2 hm2
    rw [h]
    constructor
    · refine hasDerivAt_glue hab hm2 (fun s h1 h2 => (hs1 s h1 h2).1) (fun s h1 h2 => (hs2 s h1 h2).1) ?_ ?_
      · rw [(hs1 b hab.le le_rfl).2]; exact cubic_hasDerivAt _ _ _ _ a b
      · rw [(hs2 b le_rfl hm2.le).2]; exact cubic_hasDerivAt _ _ _ _ b b
    · refine continuousAt_glue hab hm2 (fun s h1 h2 => (hs1 s h1 h2).2) (fun s h1 h2 => (hs2 s h1 h2).2) ?_ ?_
      · fun_prop
      · fun_prop

end Verif
