import Verif.Props.Brownian
import Verif.Lemmas.BrownianMap
import Verif.Lemmas.BrownianLaw
import Mathlib.Analysis.Matrix.Order
import Mathlib.Probability.Independence.InfinitePi
import Mathlib.Probability.Independence.Integration

/-!
# `VirtualBrownianTree` has the law of Brownian motion (C49)

The draws of distinct keys are taken to be independent standard normals, as are the entries of one draw.
-/

namespace Verif
open MeasureTheory ProbabilityTheory

noncomputable section

set_option linter.unusedSectionVars false

/-- Increment, space-time area, space-time-time area. -/
def Levy.part {Y : Type} (x : Levy Y) : Fin 3 → Y := ![x.W, x.H, x.K]

/-- The variance, over an interval of length one, of the increment and of those areas that there are: `1`, `1 / 12` and
`1 / 720`. -/
def LevyKind.var : LevyKind → Fin 3 → ℝ
  | .increment => ![1, 0, 0]
  | .spaceTime => ![1, 1 / 12, 0]
  | .spaceTimeTime => ![1, 1 / 12, 1 / 720]

/-- A tree whose draws are made of the numbers `ξ`; one for each key and entry. -/
def idealTree {ι : Type} (d : IdealPrng) (t0 t1 tol eps : ℝ) (kind : LevyKind) (key : List ℕ)
    (ξ : List ℕ × ι → ℝ) : VBT (List ℕ) (ι → ℝ) where
  t0 := t0
  t1 := t1
  tol := tol
  kind := kind
  key := key
  prng := d.prng fun k i => ξ (k, i)
  eps := eps

section law
variable {ι Ω : Type} [Fintype ι] [DecidableEq ι] [MeasurableSpace Ω] {P : Measure Ω} {ξ : List ℕ × ι → Ω → ℝ}

/-- The coefficients of an increment. -/
def coeffs (d : IdealPrng) (kind : LevyKind) (n : ℕ) (key : List ℕ) (r r' : ℝ) (i : ι) : LevyPiece (List ℕ × ι →₀ ℝ) :=
  incOf kind (d.prng fun k => Finsupp.single (k, i) (1 : ℝ)) n key r r'

theorem single_orthonormals (i : ι) : Orthonormals dot (fun k : List ℕ => Finsupp.single (k, i) (1 : ℝ)) := by
  intro k k'
  rw [dot_single]
  simp [Prod.ext_iff]

theorem inc_comb (d : IdealPrng) (kind : LevyKind) (n : ℕ) (key : List ℕ) (r r' : ℝ) (i : ι) (ω : Ω) :
    (incOf kind (d.prng fun k i => ξ (k, i) ω) n key r r').map (LinearMap.proj i) =
      (coeffs d kind n key r r' i).map (comb ξ ω) := by
  unfold coeffs
  rw [← incOf_map, ← incOf_map, ← ideal_map, ← ideal_map]
  congr 2
  funext k
  simp [comb]

theorem coeffs_perp (d : IdealPrng) (kind : LevyKind) (n : ℕ) (key : List ℕ) (r r' s s' : ℝ) {i j : ι} (hij : i ≠ j) :
    Perp dot (coeffs d kind n key r r' i) (coeffs d kind n key s s' j) := by
  refine Perp.of_mem (span_perp ?_) (incOf_mem kind n key r r') (incOf_mem kind n key s s')
  rintro _ ⟨k, rfl⟩ _ ⟨k', rfl⟩
  simp only
  rw [dot_single, if_neg]
  exact fun h => hij (congrArg Prod.snd h)

/-- The three parts of a piece. -/
def LevyPiece.part {Y : Type} (x : LevyPiece Y) : Fin 3 → Y := ![x.W, x.H, x.K]

theorem Perp.part {Y : Type} [AddCommGroup Y] [Module ℝ Y] {c : LinearMap.BilinForm ℝ Y} {p q : LevyPiece Y} (h : Perp c p q)
    (i j : Fin 3) : c (p.part i) (q.part j) = 0 := by
  obtain ⟨h1, h2, h3, h4, h5, h6, h7, h8, h9⟩ := h
  fin_cases i <;> fin_cases j <;> assumption

theorem Good.part_ne {Y : Type} [AddCommGroup Y] [Module ℝ Y] {c : LinearMap.BilinForm ℝ Y} (hc : ∀ x y, c x y = c y x)
    {kind : LevyKind} {h : ℝ} {p : LevyPiece Y} (hp : Good c kind h p) (i j : Fin 3) (hij : i ≠ j) :
    c (p.part i) (p.part j) = 0 := by
  fin_cases i <;> fin_cases j <;> first | exact absurd rfl hij | skip
  exacts [hp.wh, hp.wk, (hc _ _).trans hp.wh, hp.hk, (hc _ _).trans hp.wk, (hc _ _).trans hp.hk]

theorem Good.part_self {Y : Type} [AddCommGroup Y] [Module ℝ Y] {c : LinearMap.BilinForm ℝ Y}
    {kind : LevyKind} {h : ℝ} {p : LevyPiece Y} (hp : Good c kind h p) (i : Fin 3) :
    c (p.part i) (p.part i) = kind.var i * h ^ (2 * i.val + 1) := by
  fin_cases i
  · refine hp.ww.trans ?_; cases kind <;> simp [LevyKind.var]
  · refine hp.hh.trans ?_; cases kind <;> simp [LevyKind.var, LevyKind.a] <;> ring
  · refine hp.kk.trans ?_; cases kind <;> simp [LevyKind.var, LevyKind.k] <;> ring

/-- **C49.** Any number of times between each two of which there is a node of the tree: the increments from each to
the next, and the Lévy areas, entry by entry, are independent normals of mean zero. The variance is the length for the
increments, a twelfth of the length for the space-time areas, and a 720th for the space-time-time areas. For the areas,
the times are to be further apart than the square root of the machine precision, relative to `t1 - t0`. -/
theorem C49_law (d : IdealPrng) (hind : iIndepFun ξ P) (hlaw : ∀ k, HasLaw (ξ k) (gaussianReal 0 1) P)
    {t0 t1 tol eps : ℝ} (kind : LevyKind) (key : List ℕ) (ht : t0 < t1)
    {n fuel : ℕ} (hn : (2⁻¹ : ℝ) ^ n ≤ tol / (t1 - t0) ∧ ∀ m < n, tol / (t1 - t0) < (2⁻¹ : ℝ) ^ m) (hf : n ≤ fuel)
    (m : ℕ) (τ : ℕ → ℝ) (h0 : t0 ≤ τ 0) (hτ : ∀ q, q < m → τ q < τ (q + 1)) (h1 : τ m ≤ t1)
    (hnode : ∀ q, q < m → ∃ j : ℕ, τ q ≤ t0 + (t1 - t0) * j / 2 ^ n ∧ t0 + (t1 - t0) * j / 2 ^ n ≤ τ (q + 1))
    (hgap : ∀ q, q < m → eps ≤ ((τ (q + 1) - τ q) / (t1 - t0)) ^ 2) :
    ∃ X : Fin m → Ω → Levy (ι → ℝ),
      (∀ (q : Fin m) ω, (idealTree d t0 t1 tol eps kind key (fun k => ξ k ω)).evaluate fuel (τ q) (some (τ (q + 1))) = .ok (X q ω)) ∧
      iIndepFun (fun (q : Fin m × Fin 3 × ι) ω => (X q.1 ω).part q.2.1 q.2.2) P ∧
      ∀ q : Fin m × Fin 3 × ι, HasLaw (fun ω => (X q.1 ω).part q.2.1 q.2.2)
        (gaussianReal 0 (kind.var q.2.1 * (τ (q.1 + 1) - τ q.1)).toNNReal) P := by
  have hpos : 0 < t1 - t0 := by linarith
  set len := t1 - t0 with hlen
  have hmono : ∀ p q, p ≤ q → q ≤ m → τ p ≤ τ q := by
    intro p q hpq
    induction q, hpq using Nat.le_induction with
    | base => intro _; exact le_rfl
    | succ q _ ih => intro hq; exact (ih (by omega)).trans (hτ q (by omega)).le
  have hlow : ∀ q, q ≤ m → t0 ≤ τ q := fun q hq => h0.trans (hmono 0 q (by omega) hq)
  have hhigh : ∀ q, q ≤ m → τ q ≤ t1 := fun q hq => (hmono q m hq le_rfl).trans h1
  let res : ℝ → ℝ := fun t => (t - t0) / len
  have hresle : ∀ {s t}, s ≤ t → res s ≤ res t := fun {s t} h => div_le_div_of_nonneg_right (by linarith) hpos.le
  have hnode' : ∀ q, q < m → ∃ j : ℕ, res (τ q) ≤ j / 2 ^ n ∧ j / 2 ^ n ≤ res (τ (q + 1)) := by
    intro q hq
    obtain ⟨j, a, b⟩ := hnode q hq
    refine ⟨j, ?_, ?_⟩
    · rw [div_le_iff₀ hpos]; calc τ q - t0 ≤ len * j / 2 ^ n := by linarith
        _ = _ := by ring
    · rw [le_div_iff₀ hpos]; calc _ = len * j / 2 ^ n := by ring
        _ ≤ _ := by linarith
  have hres0 : ∀ q, q ≤ m → 0 ≤ res (τ q) := fun q hq => div_nonneg (by linarith [hlow q hq]) hpos.le
  have hres1 : ∀ q, q ≤ m → res (τ q) ≤ 1 := fun q hq => by
    rw [div_le_one hpos]; linarith [hhigh q hq]
  let coef : ℕ → Fin 3 → ℝ := fun q i => √len * (len / (τ (q + 1) - τ q)) ^ i.val
  let v : Fin m × Fin 3 × ι → List ℕ × ι →₀ ℝ := fun q =>
    coef q.1 q.2.1 • (coeffs d kind n key (res (τ q.1)) (res (τ (q.1 + 1))) q.2.2).part q.2.1
  have hgood : ∀ (q : Fin m) (i : ι), Good dot kind (res (τ (q + 1)) - res (τ q))
      (coeffs d kind n key (res (τ q)) (res (τ (q + 1))) i) := fun q i =>
    incOf_good dot_comm (single_orthonormals i) kind n key (hres0 _ q.2.le) (hresle (hτ q q.2).le)
      (hres1 _ q.2) (hnode' q q.2)
  have hlt : ∀ (q q' : Fin m) (i : ι), q < q' → Perp dot (coeffs d kind n key (res (τ q)) (res (τ (q + 1))) i)
      (coeffs d kind n key (res (τ q')) (res (τ (q' + 1))) i) := by
    intro q q' i hqq
    have hq : (q : ℕ) + 1 ≤ q' := hqq
    refine incOf_perp dot_comm (single_orthonormals i) kind n key (hres0 _ q.2.le) (hresle (hτ q q.2).le)
      (hresle (hmono _ _ hq q'.2.le)) (hresle (hτ q' q'.2).le) (hres1 _ q'.2) (hnode' q q.2) (hnode' q' q'.2) ?_
    rcases hq.eq_or_lt with h | h
    · left; rw [h]
    · right
      obtain ⟨j, a, b⟩ := hnode' (q + 1) (by omega)
      exact ⟨j, a, b.trans (hresle (hmono _ _ h q'.2.le))⟩
  have hv : ∀ x y, x ≠ y → dot (v x) (v y) = 0 := by
    rintro ⟨q, p, i⟩ ⟨q', p', i'⟩ hne
    simp only [v, map_smul, LinearMap.smul_apply, smul_eq_mul]
    have key0 : dot ((coeffs d kind n key (res (τ q)) (res (τ (q + 1))) i).part p)
        ((coeffs d kind n key (res (τ q')) (res (τ (q' + 1))) i').part p') = 0 := by
      by_cases hi : i = i'
      · subst hi
        rcases lt_trichotomy q q' with h | h | h
        · exact (hlt q q' i h).part p p'
        · subst h
          exact (hgood q i).part_ne dot_comm p p' (by rintro rfl; exact hne rfl)
        · exact ((hlt q' q i h).symm dot_comm).part p p'
      · exact (coeffs_perp d kind n key _ _ _ _ hi).part p p'
    rw [key0]; ring
  have hvar : ∀ x : Fin m × Fin 3 × ι, dot (v x) (v x) = kind.var x.2.1 * (τ (x.1 + 1) - τ x.1) := by
    rintro ⟨q, p, i⟩
    simp only [v, map_smul, LinearMap.smul_apply, smul_eq_mul]
    rw [(hgood q i).part_self p]
    have hg : τ (q + 1) - τ q ≠ 0 := (sub_pos.mpr (hτ q q.2)).ne'
    have hsq : √len * √len = len := Real.mul_self_sqrt hpos.le
    have e : res (τ (q + 1)) - res (τ q) = (τ (q + 1) - τ q) / len := by
      simp only [res]; rw [← sub_div]; congr 1; ring
    have hl : len ≠ 0 := hpos.ne'
    rw [e]
    simp only [coef]
    have : ∀ (s g u : ℝ), s * s = len → g ≠ 0 → s * (len / g) ^ p.val * (s * (len / g) ^ p.val * (u * (g / len) ^ (2 * p.val + 1))) = u * g := by
      intro s g u hs hg
      have h2 : (len / g) ^ p.val * (len / g) ^ p.val * (g / len) ^ (2 * p.val) = 1 := by
        rw [← pow_add, ← two_mul, ← mul_pow, div_mul_div_comm, mul_comm g len, div_self (mul_ne_zero hl hg), one_pow]
      calc _ = s * s * u * ((len / g) ^ p.val * (len / g) ^ p.val * (g / len) ^ (2 * p.val)) * (g / len) := by
            rw [pow_succ]; ring
        _ = u * g := by rw [h2, hs]; field_simp
    exact this _ _ _ hsq hg
  obtain ⟨hI, hL⟩ := comb_law hind hlaw v hv
  -- what is returned
  have hres : ∀ t, res t = (t - t0) / len := fun _ => rfl
  let X : Fin m → Ω → Levy (ι → ℝ) := fun q ω =>
    { dt := τ (q + 1) - τ q
      W := √len • (incOf kind (d.prng fun k i => ξ (k, i) ω) n key (res (τ q)) (res (τ (q + 1)))).W
      H := √len • guardedInv eps ((τ (q + 1) - τ q) / len) •
        (incOf kind (d.prng fun k i => ξ (k, i) ω) n key (res (τ q)) (res (τ (q + 1)))).H
      K := √len • guardedInv eps (((τ (q + 1) - τ q) / len) ^ 2) •
        (incOf kind (d.prng fun k i => ξ (k, i) ω) n key (res (τ q)) (res (τ (q + 1)))).K }
  have hX : ∀ (q : Fin m × Fin 3 × ι) ω, (X q.1 ω).part q.2.1 q.2.2 = comb ξ ω (v q) := by
    rintro ⟨q, p, i⟩ ω
    have hg : 0 < τ (q + 1) - τ q := sub_pos.mpr (hτ q q.2)
    have hgap' := hgap q q.2
    have hle1 : (τ (q + 1) - τ q) / len ≤ 1 := by
      rw [div_le_one hpos]; linarith [hlow q q.2.le, hhigh (q + 1) q.2]
    have hc := inc_comb (ξ := ξ) d kind n key (res (τ q)) (res (τ (q + 1))) i ω
    have hW := congrArg LevyPiece.W hc
    have hH := congrArg LevyPiece.H hc
    have hK := congrArg LevyPiece.K hc
    simp only [LevyPiece.map, LinearMap.proj_apply] at hW hH hK
    simp only [v, map_smul, smul_eq_mul]
    fin_cases p
    · simp [X, Levy.part, LevyPiece.part, coef, hW]
    · simp only [X, Levy.part, LevyPiece.part, coef]
      simp [hH, guardedInv_of_sq hgap' (by positivity) hle1]
      ring
    · simp only [X, Levy.part, LevyPiece.part, coef]
      simp only [Fin.reduceFinMk, Matrix.cons_val, Pi.smul_apply, hK, guardedInv_sq hgap', smul_eq_mul]
      rw [one_div, ← inv_pow, inv_div]
      ring
  refine ⟨X, ?_, ?_, ?_⟩
  · intro q ω
    set b := idealTree d t0 t1 tol eps kind key (fun k => ξ k ω) with hb
    have hD : b.Depth n := hn
    have := VBT.evaluate_eq b ht hD hf (hlow q q.2.le) (hhigh q q.2.le) (hlow (q + 1) q.2) (hhigh (q + 1) q.2)
    rw [this, VBT.rescale_eq b ht, VBT.rescale_eq b ht]
    rfl
  · have : (fun (q : Fin m × Fin 3 × ι) ω => (X q.1 ω).part q.2.1 q.2.2) = fun q ω => comb ξ ω (v q) := by
      funext q ω; exact hX q ω
    rw [this]; exact hI
  · intro q
    have : (fun ω => (X q.1 ω).part q.2.1 q.2.2) = fun ω => comb ξ ω (v q) := by
      funext ω; exact hX q ω
    rw [this, ← hvar q]
    exact hL q

/-- **C49.** There is a node between any two times that are at least the tolerance apart. -/
theorem C49_separated {t0 t1 tol s t : ℝ} (ht : t0 < t1) {n : ℕ} (hn : (2⁻¹ : ℝ) ^ n ≤ tol / (t1 - t0))
    (hs : t0 ≤ s) (h : s + tol ≤ t) :
    ∃ j : ℕ, s ≤ t0 + (t1 - t0) * j / 2 ^ n ∧ t0 + (t1 - t0) * j / 2 ^ n ≤ t := by
  have hpos : 0 < t1 - t0 := by linarith
  obtain ⟨j, a, b⟩ := exists_node (r := (s - t0) / (t1 - t0)) (r' := (t - t0) / (t1 - t0)) hn
    (div_nonneg (by linarith) hpos.le) (by rw [← add_div]; exact div_le_div_of_nonneg_right (by linarith) hpos.le)
  rw [div_le_iff₀ hpos] at a
  rw [le_div_iff₀ hpos] at b
  refine ⟨j, ?_, ?_⟩
  · calc s ≤ t0 + j / 2 ^ n * (t1 - t0) := by linarith
      _ = _ := by ring
  · calc _ = t0 + j / 2 ^ n * (t1 - t0) := by ring
      _ ≤ t := by linarith

/-- **C49.** The value at a time has the law of the increment since `t0`, at whichever time; values at two times at
least the tolerance apart have covariance `min s t - t0`. -/
theorem C49_cov (d : IdealPrng) (hind : iIndepFun ξ P) (hlaw : ∀ k, HasLaw (ξ k) (gaussianReal 0 1) P)
    {t0 t1 tol eps : ℝ} (kind : LevyKind) (key : List ℕ) (ht : t0 < t1)
    {n fuel : ℕ} (hn : (2⁻¹ : ℝ) ^ n ≤ tol / (t1 - t0) ∧ ∀ m < n, tol / (t1 - t0) < (2⁻¹ : ℝ) ^ m) (hf : n ≤ fuel)
    {s t : ℝ} (h0 : t0 < s) (hst : s < t) (h : s + tol ≤ t) (h1 : t ≤ t1)
    (hs : eps ≤ ((s - t0) / (t1 - t0)) ^ 2) (hd : eps ≤ ((t - s) / (t1 - t0)) ^ 2) :
    ∃ S T : Ω → Levy (ι → ℝ),
      (∀ ω, (idealTree d t0 t1 tol eps kind key (fun k => ξ k ω)).evaluate fuel t0 (some s) = .ok (S ω)) ∧
      (∀ ω, (idealTree d t0 t1 tol eps kind key (fun k => ξ k ω)).evaluate fuel t0 (some t) = .ok (T ω)) ∧
      ∀ i, HasLaw (fun ω => (S ω).W i) (gaussianReal 0 (s - t0).toNNReal) P ∧
        (∫ ω, (S ω).W i * (T ω).W i ∂P) = min s t - t0 := by
  let τ : ℕ → ℝ := fun q => if q = 0 then t0 else if q = 1 then s else t
  have hpos : 0 < t1 - t0 := by linarith
  obtain ⟨X, hX, hI, hL⟩ := C49_law d hind hlaw kind key ht hn hf 2 τ (by simp [τ])
    (by intro q hq; interval_cases q <;> simp [τ] <;> assumption) (by simpa [τ] using h1)
    (by intro q hq
        interval_cases q
        · exact ⟨0, by simp [τ], by simp [τ]; exact h0.le⟩
        · simpa [τ] using C49_separated ht hn.1 h0.le h)
    (by intro q hq; interval_cases q <;> simpa [τ])
  have hS := fun ω => hX 0 ω
  have hU := fun ω => hX 1 ω
  simp only [τ] at hS hU
  norm_num at hS hU
  have hTex : ∀ ω, ∃ T, (idealTree d t0 t1 tol eps kind key (fun k => ξ k ω)).evaluate fuel t0 (some t) = .ok T := by
    intro ω
    obtain ⟨x, hx, _⟩ := (C47_range (idealTree d t0 t1 tol eps kind key (fun k => ξ k ω)) ht fuel t0 t).mpr
      ⟨⟨le_rfl, ht.le⟩, by change t0 ≤ t; linarith, h1⟩
    exact ⟨x, hx⟩
  choose T hT using hTex
  refine ⟨X 0, T, hS, hT, fun i => ⟨?_, ?_⟩⟩
  · have := hL (0, 0, i)
    simp only [τ] at this
    have e : kind.var 0 = 1 := by cases kind <;> rfl
    simpa [Levy.part, e] using this
  · have hsum : ∀ ω, (T ω).W i = (X 0 ω).W i + (X 1 ω).W i := by
      intro ω
      have := (C47_increments _ fuel t0 s t _ _ _ (hS ω) (hU ω) (hT ω)).1
      rw [this]; rfl
    have e : kind.var 0 = 1 := by cases kind <;> rfl
    have l0 : HasLaw (fun ω => (X 0 ω).W i) (gaussianReal 0 (s - t0).toNNReal) P := by
      have := hL (0, 0, i)
      simp only [τ] at this
      simpa [Levy.part, e] using this
    have l1 : HasLaw (fun ω => (X 1 ω).W i) (gaussianReal 0 (t - s).toNNReal) P := by
      have := hL (1, 0, i)
      simp only [τ] at this
      simpa [Levy.part, e] using this
    have hprob : IsProbabilityMeasure P := hind.isProbabilityMeasure
    have hi : IndepFun (fun ω => (X 0 ω).W i) (fun ω => (X 1 ω).W i) P :=
      hI.indepFun (i := (0, 0, i)) (j := (1, 0, i)) (by simp)
    have m0 : MemLp (fun ω => (X 0 ω).W i) 2 P := by
      have := (memLp_id_gaussianReal' (μ := 0) (v := (s - t0).toNNReal) 2 (by simp))
      rw [← l0.map_eq] at this
      exact (memLp_map_measure_iff (by fun_prop) l0.aemeasurable).mp this
    have m1 : MemLp (fun ω => (X 1 ω).W i) 2 P := by
      have := (memLp_id_gaussianReal' (μ := 0) (v := (t - s).toNNReal) 2 (by simp))
      rw [← l1.map_eq] at this
      exact (memLp_map_measure_iff (by fun_prop) l1.aemeasurable).mp this
    have z0 : ∫ ω, (X 0 ω).W i ∂P = 0 := by rw [l0.integral_eq]; exact integral_id_gaussianReal
    have v0 : ∫ ω, (X 0 ω).W i * (X 0 ω).W i ∂P = s - t0 := by
      have h2 := l0.variance_eq
      rw [variance_of_integral_eq_zero l0.aemeasurable z0, variance_id_gaussianReal] at h2
      rw [Real.coe_toNNReal _ (by linarith)] at h2
      rw [← h2]
      exact integral_congr_ae (Filter.Eventually.of_forall fun ω => by simp [sq])
    have c01 : ∫ ω, (X 0 ω).W i * (X 1 ω).W i ∂P = 0 := by
      rw [hi.integral_fun_mul_eq_mul_integral m0.1 m1.1, z0, zero_mul]
    rw [min_eq_left hst.le]
    calc ∫ ω, (X 0 ω).W i * (T ω).W i ∂P = ∫ ω, ((X 0 ω).W i * (X 0 ω).W i + (X 0 ω).W i * (X 1 ω).W i) ∂P := by
          refine integral_congr_ae (Filter.Eventually.of_forall fun ω => ?_)
          simp only [hsum]; ring
      _ = _ := by
          have i0 : Integrable (fun ω => (X 0 ω).W i * (X 0 ω).W i) P := m0.integrable_mul m0
          have i1 : Integrable (fun ω => (X 0 ω).W i * (X 1 ω).W i) P := m0.integrable_mul m1
          rw [integral_add i0 i1, v0, c01, add_zero]

/-! ### Where it fails -/

/-- **C49.** Below the tolerance the values are not those of a Brownian motion: with the tolerance the whole interval
`[0, 1]`, the increments up to `1 / 5` and from there to `1 / 2` are correlated. -/
theorem C49_below_tolerance (d : IdealPrng) (hind : iIndepFun ξ P) (hlaw : ∀ k, HasLaw (ξ k) (gaussianReal 0 1) P)
    (key : List ℕ) (eps : ℝ) :
    ∃ S T : Ω → Levy (ι → ℝ),
      (∀ ω, (idealTree d 0 1 1 eps .increment key (fun k => ξ k ω)).evaluate 0 0 (some (1 / 5)) = .ok (S ω)) ∧
      (∀ ω, (idealTree d 0 1 1 eps .increment key (fun k => ξ k ω)).evaluate 0 (1 / 5) (some (1 / 2)) = .ok (T ω)) ∧
      ∀ i, (∫ ω, (S ω).W i * (T ω).W i ∂P) = 1 / 10 := by
  have hD : ∀ ω, (idealTree d 0 1 1 eps .increment key (fun k => ξ k ω)).Depth 0 := by
    intro ω; constructor
    · norm_num [VBT.tol', idealTree]
    · intro m hm; omega
  refine ⟨_, _, fun ω => VBT.evaluate_eq _ (by norm_num [idealTree]) (hD ω) le_rfl (by norm_num [idealTree])
    (by norm_num [idealTree]) (by norm_num [idealTree]) (by norm_num [idealTree]),
    fun ω => VBT.evaluate_eq _ (by norm_num [idealTree]) (hD ω) le_rfl (by norm_num [idealTree])
    (by norm_num [idealTree]) (by norm_num [idealTree]) (by norm_num [idealTree]), ?_⟩
  intro i
  have hprob : IsProbabilityMeasure P := hind.isProbabilityMeasure
  have hk : ((d.code 2 0 :: key, i) : List ℕ × ι) ≠ (d.code 2 1 :: key, i) := by
    intro h
    have := d.code_inj 2 0 1 (List.cons.inj (congrArg Prod.fst h)).1
    omega
  have hi := hind.indepFun hk
  have m : ∀ k, MemLp (ξ k) 2 P := by
    intro k
    have := (memLp_id_gaussianReal' (μ := 0) (v := 1) 2 (by simp))
    rw [← (hlaw k).map_eq] at this
    exact (memLp_map_measure_iff (by fun_prop) (hlaw k).aemeasurable).mp this
  have z : ∀ k, ∫ ω, ξ k ω ∂P = 0 := fun k => by rw [(hlaw k).integral_eq]; exact integral_id_gaussianReal
  have v : ∀ k, ∫ ω, ξ k ω * ξ k ω ∂P = 1 := by
    intro k
    have h2 := (hlaw k).variance_eq
    rw [variance_of_integral_eq_zero (hlaw k).aemeasurable (z k), variance_id_gaussianReal] at h2
    rw [NNReal.coe_one] at h2
    rw [← h2]
    exact integral_congr_ae (Filter.Eventually.of_forall fun ω => by simp [sq])
  have c := hi.integral_fun_mul_eq_mul_integral (m _).1 (m _).1
  rw [z, zero_mul] at c
  have s1 : √(1 / 5 * (1 - 1 / 5)) = (2 / 5 : ℝ) := by
    rw [show (1 / 5 * (1 - 1 / 5) : ℝ) = (2 / 5) ^ 2 by norm_num]; exact Real.sqrt_sq (by norm_num)
  have s2 : √(1 / 2 * (1 - 1 / 2)) = (1 / 2 : ℝ) := by
    rw [show (1 / 2 * (1 - 1 / 2) : ℝ) = (1 / 2) ^ 2 by norm_num]; exact Real.sqrt_sq (by norm_num)
  have e : ∀ ω,
      (√((idealTree d 0 1 1 eps .increment key (fun k => ξ k ω)).t1 - (idealTree d 0 1 1 eps .increment key (fun k => ξ k ω)).t0) •
        ((idealTree d 0 1 1 eps .increment key (fun k => ξ k ω)).inc 0
          ((idealTree d 0 1 1 eps .increment key (fun k => ξ k ω)).rescale 0)
          ((idealTree d 0 1 1 eps .increment key (fun k => ξ k ω)).rescale (1 / 5))).W) i *
      (√((idealTree d 0 1 1 eps .increment key (fun k => ξ k ω)).t1 - (idealTree d 0 1 1 eps .increment key (fun k => ξ k ω)).t0) •
        ((idealTree d 0 1 1 eps .increment key (fun k => ξ k ω)).inc 0
          ((idealTree d 0 1 1 eps .increment key (fun k => ξ k ω)).rescale (1 / 5))
          ((idealTree d 0 1 1 eps .increment key (fun k => ξ k ω)).rescale (1 / 2))).W) i =
      (3 / 50 : ℝ) * (ξ (d.code 2 1 :: key, i) ω * ξ (d.code 2 1 :: key, i) ω) +
        (2 / 50 * (ξ (d.code 2 0 :: key, i) ω * ξ (d.code 2 0 :: key, i) ω) +
          (1 / 50 + 6 / 50) * (ξ (d.code 2 0 :: key, i) ω * ξ (d.code 2 1 :: key, i) ω)) := by
    intro ω
    simp only [idealTree, VBT.inc, VBT.at', VBT.rescale, cut, rel, leafPiece, leafI, rootKey, rootCell, treeInit,
      TreeState.cell, IdealPrng.prng]
    norm_num [s1, s2]
    have s4 : √4 = (2 : ℝ) := by
      rw [show (4 : ℝ) = 2 ^ 2 by norm_num]; exact Real.sqrt_sq (by norm_num)
    have s25 : √25 = (5 : ℝ) := by
      rw [show (25 : ℝ) = 5 ^ 2 by norm_num]; exact Real.sqrt_sq (by norm_num)
    rw [s4, s25]
    ring
  simp only
  rw [integral_congr_ae (Filter.Eventually.of_forall e)]
  have i0 : Integrable (fun a => 3 / 50 * (ξ (d.code 2 1 :: key, i) a * ξ (d.code 2 1 :: key, i) a)) P :=
    ((m _).integrable_mul (m _)).const_mul _
  have i1 : Integrable (fun a => 2 / 50 * (ξ (d.code 2 0 :: key, i) a * ξ (d.code 2 0 :: key, i) a)) P :=
    ((m _).integrable_mul (m _)).const_mul _
  have i2 : Integrable (fun a => (1 / 50 + 6 / 50) * (ξ (d.code 2 0 :: key, i) a * ξ (d.code 2 1 :: key, i) a)) P :=
    ((m _).integrable_mul (m _)).const_mul _
  have i3 : Integrable (fun a => 2 / 50 * (ξ (d.code 2 0 :: key, i) a * ξ (d.code 2 0 :: key, i) a) +
      (1 / 50 + 6 / 50) * (ξ (d.code 2 0 :: key, i) a * ξ (d.code 2 1 :: key, i) a)) P := i1.add i2
  rw [integral_add i0 i3, integral_add i1 i2, integral_const_mul, integral_const_mul, integral_const_mul, v, v, c]
  norm_num

/-- **C49, violated** for times that are closer than the square root of the machine precision, relative to `t1 - t0`:
the space-time-time area is zero, where it should have the variance `(t - s) / 720`. -/
theorem C49_violated_small {Key Y : Type} [AddCommGroup Y] [Module ℝ Y] (b : VBT Key Y) (hb : b.t0 < b.t1) {n fuel : ℕ}
    (hn : b.Depth n) (hf : n ≤ fuel) {s t : ℝ} (hs : b.t0 ≤ s) (hst : s ≤ t) (ht : t ≤ b.t1)
    (hsmall : ((t - s) / (b.t1 - b.t0)) ^ 2 < b.eps) : ∃ x, b.evaluate fuel s (some t) = .ok x ∧ x.K = 0 := by
  refine ⟨_, VBT.evaluate_eq b hb hn hf hs (by linarith) (by linarith) ht, ?_⟩
  have : guardedInv b.eps (((t - s) / (b.t1 - b.t0)) ^ 2) = 0 := by
    unfold guardedInv
    rw [if_pos (by rwa [abs_of_nonneg (by positivity)])]
  simp only [this, zero_smul, smul_zero]

/-! ### `UnsafeBrownianPath` -/

/-- **C49.** The increment of an `UnsafeBrownianPath` over an interval, and the areas, are independent normals with the
variances of those of a Brownian motion. -/
theorem C49_unsafe (d : IdealPrng) (hind : iIndepFun ξ P) (hlaw : ∀ k, HasLaw (ξ k) (gaussianReal 0 1) P)
    (kind : LevyKind) (key : List ℕ) {t0 t1 : ℝ} (ht : t0 ≤ t1) :
    let X := fun ω => unsafeLeaf kind (d.prng fun k (i : ι) => ξ (k, i) ω) t0 t1 key
    (∀ ω, (X ω).dt = t1 - t0) ∧ iIndepFun (fun (q : Fin 3 × ι) ω => (X ω).part q.1 q.2) P ∧
      ∀ q : Fin 3 × ι, HasLaw (fun ω => (X ω).part q.1 q.2) (gaussianReal 0 (kind.var q.1 * (t1 - t0)).toNNReal) P := by
  intro X
  let kk : Fin 3 → List ℕ := match kind with
    | .increment => ![key, key, key]
    | .spaceTime => ![d.code 2 0 :: key, d.code 2 1 :: key, key]
    | .spaceTimeTime => ![d.code 3 0 :: key, d.code 3 1 :: key, d.code 3 2 :: key]
  let cf : Fin 3 → ℝ := match kind with
    | .increment => ![√(t1 - t0), 0, 0]
    | .spaceTime => ![√(t1 - t0), √(t1 - t0) / √12, 0]
    | .spaceTimeTime => ![√(t1 - t0), √(t1 - t0) / √12, √(t1 - t0) / √720]
  let v : Fin 3 × ι → List ℕ × ι →₀ ℝ := fun q => cf q.1 • Finsupp.single (kk q.1, q.2) 1
  have hX : ∀ (q : Fin 3 × ι) ω, (X ω).part q.1 q.2 = comb ξ ω (v q) := by
    rintro ⟨p, i⟩ ω
    simp only [v, map_smul, comb, Finsupp.linearCombination_single, smul_eq_mul, one_mul]
    cases kind <;> fin_cases p <;> simp [X, unsafeLeaf, Levy.part, IdealPrng.prng, cf, kk]
  have hne : ∀ n i j, i ≠ j → d.code n i ≠ d.code n j := fun n i j hij h => hij (d.code_inj n i j h)
  have hv : ∀ x y, x ≠ y → dot (v x) (v y) = 0 := by
    rintro ⟨p, i⟩ ⟨p', i'⟩ h
    simp only [v, map_smul, LinearMap.smul_apply, smul_eq_mul]
    rw [dot_single]
    by_cases hi : i = i'
    · subst hi
      have hp : p ≠ p' := by rintro rfl; exact h rfl
      cases kind <;> fin_cases p <;> fin_cases p' <;> first | exact absurd rfl hp | simp [cf, kk, hne]
    · rw [if_neg fun h => hi (congrArg Prod.snd h)]; simp
  have hvar : ∀ q : Fin 3 × ι, dot (v q) (v q) = kind.var q.1 * (t1 - t0) := by
    rintro ⟨p, i⟩
    simp only [v, map_smul, LinearMap.smul_apply, smul_eq_mul]
    rw [dot_single, if_pos rfl, mul_one]
    have h0 : √(t1 - t0) * √(t1 - t0) = t1 - t0 := Real.mul_self_sqrt (by linarith)
    have h12 : √(t1 - t0) / √12 * (√(t1 - t0) / √12) = 1 / 12 * (t1 - t0) := by
      rw [div_mul_div_comm, h0, Real.mul_self_sqrt (by norm_num)]; ring
    have h720 : √(t1 - t0) / √720 * (√(t1 - t0) / √720) = 1 / 720 * (t1 - t0) := by
      rw [div_mul_div_comm, h0, Real.mul_self_sqrt (by norm_num)]; ring
    cases kind <;> fin_cases p <;> simp only [cf, LevyKind.var] <;>
      first | exact h12 | exact h720 | exact h0.trans (one_mul _).symm | exact (zero_mul _).trans (zero_mul _).symm
  obtain ⟨hI, hL⟩ := comb_law hind hlaw v hv
  refine ⟨fun ω => by cases kind <;> rfl, ?_, ?_⟩
  · have : (fun (q : Fin 3 × ι) ω => (X ω).part q.1 q.2) = fun q ω => comb ξ ω (v q) := by
      funext q ω; exact hX q ω
    rw [this]; exact hI
  · intro q
    have : (fun ω => (X ω).part q.1 q.2) = fun ω => comb ξ ω (v q) := by
      funext ω; exact hX q ω
    rw [this, ← hvar q]
    exact hL q

end law

/-! ### An instance -/

section instances
open scoped MatrixOrder

/-- Numbers of keys that do not depend on how many there are, and the positive root of the covariance. -/
def someIdealPrng : IdealPrng where
  code _ i := i
  code_inj _ _ _ h := h
  root C := (CFC.sqrt (Matrix.of C : Matrix (Fin 3) (Fin 3) ℝ) : Matrix (Fin 3) (Fin 3) ℝ)
  root_mul C hs hp i j := by
    have hC : (Matrix.of C).PosSemidef := by
      refine Matrix.PosSemidef.of_dotProduct_mulVec_nonneg (Matrix.IsHermitian.ext fun i j => by simp [hs j i]) ?_
      intro x
      have := hp x
      simp only [dotProduct, Matrix.mulVec, Matrix.of_apply, star_trivial, Finset.mul_sum]
      refine this.trans_eq (Finset.sum_congr rfl fun i _ => Finset.sum_congr rfl fun j _ => by ring)
    have hsa : (CFC.sqrt (Matrix.of C)).IsHermitian := (Matrix.nonneg_iff_posSemidef.mp (CFC.sqrt_nonneg _)).1
    have h := CFC.sqrt_mul_sqrt_self (Matrix.of C) hC.nonneg
    have h' := congrFun (congrFun h i) j
    rw [Matrix.mul_apply] at h'
    refine (Finset.sum_congr rfl fun k _ => ?_).trans h'
    congr 1
    simpa using hsa.apply k j

/-- There are independent standard normals. -/
theorem exists_normals : ∃ (Ω : Type) (_ : MeasurableSpace Ω) (P : Measure Ω) (ξ : List ℕ × Fin 2 → Ω → ℝ),
    iIndepFun ξ P ∧ ∀ k, HasLaw (ξ k) (gaussianReal 0 1) P := by
  refine ⟨List ℕ × Fin 2 → ℝ, inferInstance, Measure.infinitePi fun _ => gaussianReal 0 1, fun k ω => ω k,
    iIndepFun_infinitePi (X := fun _ => id) fun _ => measurable_id, fun k => ⟨(measurable_pi_apply k).aemeasurable, ?_⟩⟩
  exact (measurePreserving_eval_infinitePi (fun _ => gaussianReal 0 1) k).map_eq

/-! With the normals of `exists_normals`: -/

variable {Ω : Type} [MeasurableSpace Ω] {P : Measure Ω} {ξ : List ℕ × Fin 2 → Ω → ℝ} (hind : iIndepFun ξ P)
  (hlaw : ∀ k, HasLaw (ξ k) (gaussianReal 0 1) P)
include hind hlaw

example := C49_law (eps := 1 / 10 ^ 6) someIdealPrng hind hlaw .spaceTimeTime [5] (t0 := 1) (t1 := 3) (tol := 1 / 2) (n := 2)
    (by norm_num) ⟨by norm_num, by intro m hm; interval_cases m <;> norm_num⟩ le_rfl 2 (fun q => 5 / 4 + q * (3 / 4))
    (by norm_num) (by intro q _; push_cast; linarith) (by norm_num)
    (by intro q hq
        interval_cases q
        · exact ⟨1, by norm_num, by norm_num⟩
        · exact ⟨2, by norm_num, by norm_num⟩)
    (by intro q hq; push_cast; ring_nf; norm_num)
example := C49_cov (eps := 1 / 10 ^ 6) someIdealPrng hind hlaw .spaceTimeTime [5] (t0 := 1) (t1 := 3) (tol := 1 / 2) (n := 2)
    (by norm_num) ⟨by norm_num, by intro m hm; interval_cases m <;> norm_num⟩ le_rfl (s := 9 / 8) (t := 2)
    (by norm_num) (by norm_num) (by norm_num) (by norm_num) (by norm_num) (by norm_num)
example := C49_below_tolerance someIdealPrng hind hlaw [5] 0
example := C49_unsafe someIdealPrng hind hlaw .spaceTime [5] (t0 := 1) (t1 := 3) (by norm_num)
omit hind hlaw

example := C49_separated (t0 := 1) (t1 := 3) (tol := 1 / 2) (s := 1.1) (t := 1.7) (n := 2) (by norm_num) (by norm_num)
  (by norm_num) (by norm_num)
example := C49_violated_small sampleVBT (by norm_num [sampleVBT]) sampleVBT_depth le_rfl (s := 2) (t := 2.001)
  (by norm_num [sampleVBT]) (by norm_num) (by norm_num [sampleVBT]) (by norm_num [sampleVBT])

end instances

end
end Verif
