import Verif.Model.UnsafePath
import Verif.Spec.UnsafePath
import Verif.Props.BrownianLaw

/-!
# Independence of the increments of `UnsafeBrownianPath` (C90)

The docs of `UnsafeBrownianPath` warn that increments over overlapping intervals are inconsistent, and otherwise
promise a Brownian motion. With times in float32 the increments over any distinct intervals are independent. With times
in float64 the two halves of a time are combined into one number that is folded into the key, different times may give
the same number, and there are equally spaced times on which all the increments are the same.
-/

namespace Verif
open MeasureTheory ProbabilityTheory

noncomputable section

set_option linter.unusedSectionVars false

section law
variable {ι Ω : Type} [Fintype ι] [DecidableEq ι] [MeasurableSpace Ω] {P : Measure Ω} {ξ : List ℕ × ι → Ω → ℝ}

/-- Draws of distinct keys. -/
theorem unsafe_family (d : IdealPrng) (hind : iIndepFun ξ P) (hlaw : ∀ k, HasLaw (ξ k) (gaussianReal 0 1) P)
    (kind : LevyKind) {J : Type} [Fintype J] [DecidableEq J] (key : J → List ℕ) (hkey : Function.Injective key)
    (t0 t1 : J → ℝ) (ht : ∀ j, t0 j ≤ t1 j) :
    let X := fun j ω => unsafeLeaf kind (d.prng fun k (i : ι) => ξ (k, i) ω) (t0 j) (t1 j) (key j)
    iIndepFun (fun (q : J × Fin 3 × ι) ω => (X q.1 ω).part q.2.1 q.2.2) P ∧
      ∀ q : J × Fin 3 × ι, HasLaw (fun ω => (X q.1 ω).part q.2.1 q.2.2)
        (gaussianReal 0 (kind.var q.2.1 * (t1 q.1 - t0 q.1)).toNNReal) P := by
  intro X
  let kk : J → Fin 3 → List ℕ := fun j => match kind with
    | .increment => ![key j, key j, key j]
    | .spaceTime => ![d.code 2 0 :: key j, d.code 2 1 :: key j, key j]
    | .spaceTimeTime => ![d.code 3 0 :: key j, d.code 3 1 :: key j, d.code 3 2 :: key j]
  let cf : J → Fin 3 → ℝ := fun j => match kind with
    | .increment => ![√(t1 j - t0 j), 0, 0]
    | .spaceTime => ![√(t1 j - t0 j), √(t1 j - t0 j) / √12, 0]
    | .spaceTimeTime => ![√(t1 j - t0 j), √(t1 j - t0 j) / √12, √(t1 j - t0 j) / √720]
  let v : J × Fin 3 × ι → List ℕ × ι →₀ ℝ := fun q => cf q.1 q.2.1 • Finsupp.single (kk q.1 q.2.1, q.2.2) 1
  have hX : ∀ (q : J × Fin 3 × ι) ω, (X q.1 ω).part q.2.1 q.2.2 = comb ξ ω (v q) := by
    rintro ⟨j, p, i⟩ ω
    simp only [v, map_smul, comb, Finsupp.linearCombination_single, smul_eq_mul, one_mul]
    cases kind <;> fin_cases p <;> simp [X, unsafeLeaf, Levy.part, IdealPrng.prng, cf, kk]
  have hne : ∀ n i j, i ≠ j → d.code n i ≠ d.code n j := fun n i j hij h => hij (d.code_inj n i j h)
  have hv : ∀ x y, x ≠ y → dot (v x) (v y) = 0 := by
    rintro ⟨j, p, i⟩ ⟨j', p', i'⟩ h
    simp only [v, map_smul, LinearMap.smul_apply, smul_eq_mul]
    rw [dot_single]
    by_cases hi : i = i'
    · subst hi
      by_cases hj : j = j'
      · subst hj
        have hp : p ≠ p' := by rintro rfl; exact h rfl
        cases kind <;> fin_cases p <;> fin_cases p' <;> first | exact absurd rfl hp | simp [cf, kk, hne]
      · have hk : key j ≠ key j' := fun e => hj (hkey e)
        cases kind <;> fin_cases p <;> fin_cases p' <;> simp [cf, kk, hk]
    · rw [if_neg fun h => hi (congrArg Prod.snd h)]; simp
  have hvar : ∀ q : J × Fin 3 × ι, dot (v q) (v q) = kind.var q.2.1 * (t1 q.1 - t0 q.1) := by
    rintro ⟨j, p, i⟩
    simp only [v, map_smul, LinearMap.smul_apply, smul_eq_mul]
    rw [dot_single, if_pos rfl, mul_one]
    have h0 : √(t1 j - t0 j) * √(t1 j - t0 j) = t1 j - t0 j := Real.mul_self_sqrt (by linarith [ht j])
    have h12 : √(t1 j - t0 j) / √12 * (√(t1 j - t0 j) / √12) = 1 / 12 * (t1 j - t0 j) := by
      rw [div_mul_div_comm, h0, Real.mul_self_sqrt (by norm_num)]; ring
    have h720 : √(t1 j - t0 j) / √720 * (√(t1 j - t0 j) / √720) = 1 / 720 * (t1 j - t0 j) := by
      rw [div_mul_div_comm, h0, Real.mul_self_sqrt (by norm_num)]; ring
    cases kind <;> fin_cases p <;> simp only [cf, LevyKind.var] <;>
      first | exact h12 | exact h720 | exact h0.trans (one_mul _).symm | exact (zero_mul _).trans (zero_mul _).symm
  obtain ⟨hI, hL⟩ := comb_law hind hlaw v hv
  constructor
  · have : (fun (q : J × Fin 3 × ι) ω => (X q.1 ω).part q.2.1 q.2.2) = fun q ω => comb ξ ω (v q) := by
      funext q ω; exact hX q ω
    rw [this]; exact hI
  · intro q
    have : (fun ω => (X q.1 ω).part q.2.1 q.2.2) = fun ω => comb ξ ω (v q) := by
      funext ω; exact hX q ω
    rw [this, ← hvar q]
    exact hL q

/-- The increments over intervals that fold into distinct keys. -/
theorem unsafe_independent (d : IdealPrng) (f : IdealFold) (hind : iIndepFun ξ P)
    (hlaw : ∀ k, HasLaw (ξ k) (gaussianReal 0 1) P) (kind : LevyKind) (key : List ℕ) {n : ℕ}
    (bitcast : BitVec n → BitVec 32) (val : BitVec n → ℝ) {J : Type} [Fintype J] [DecidableEq J] (t0 t1 : J → BitVec n)
    (ht : ∀ j, val (t0 j) ≤ val (t1 j))
    (hinj : ∀ j j', bitcast (t0 j) = bitcast (t0 j') → bitcast (t1 j) = bitcast (t1 j') → j = j') :
    let X := fun j ω =>
      unsafeEvaluate kind (d.prng fun k (i : ι) => ξ (k, i) ω) f.foldIn bitcast val key (t0 j) (t1 j)
    iIndepFun (fun (q : J × Fin 3 × ι) ω => (X q.1 ω).part q.2.1 q.2.2) P ∧
      ∀ q : J × Fin 3 × ι, HasLaw (fun ω => (X q.1 ω).part q.2.1 q.2.2)
        (gaussianReal 0 (kind.var q.2.1 * (val (t1 q.1) - val (t0 q.1))).toNNReal) P := by
  intro X
  refine unsafe_family d hind hlaw kind
    (fun j => d.code 1 0 :: f.code (bitcast (t1 j)) :: f.code (bitcast (t0 j)) :: key) ?_
    (fun j => val (t0 j)) (fun j => val (t1 j)) ht
  intro j j' h
  simp only [List.cons.injEq, true_and, and_true] at h
  exact hinj j j' (f.code_inj h.2) (f.code_inj h.1)

/-- **C90.** With times in float32, the increments over any finite number of distinct intervals, and the areas, are
independent normals with the variances of those of a Brownian motion. -/
theorem C90_float32 (d : IdealPrng) (f : IdealFold) (hind : iIndepFun ξ P)
    (hlaw : ∀ k, HasLaw (ξ k) (gaussianReal 0 1) P) (kind : LevyKind) (key : List ℕ) {J : Type} [Fintype J]
    [DecidableEq J] (t0 t1 : J → BitVec 32) (ht : ∀ j, val32 (t0 j) ≤ val32 (t1 j))
    (hne : ∀ j j', j ≠ j' → val32 (t0 j) ≠ val32 (t0 j') ∨ val32 (t1 j) ≠ val32 (t1 j')) :
    let X := fun j ω =>
      unsafeEvaluate kind (d.prng fun k (i : ι) => ξ (k, i) ω) f.foldIn forceBitcast32 val32 key (t0 j) (t1 j)
    iIndepFun (fun (q : J × Fin 3 × ι) ω => (X q.1 ω).part q.2.1 q.2.2) P ∧
      ∀ q : J × Fin 3 × ι, HasLaw (fun ω => (X q.1 ω).part q.2.1 q.2.2)
        (gaussianReal 0 (kind.var q.2.1 * (val32 (t1 q.1) - val32 (t0 q.1))).toNNReal) P := by
  refine unsafe_independent d f hind hlaw kind key forceBitcast32 val32 t0 t1 ht ?_
  intro j j' h0 h1
  by_contra hj
  rcases hne j j' hj with h | h
  · exact h (congrArg val32 h0)
  · exact h (congrArg val32 h1)

/-- Along increasing times, the steps begin at different times. -/
theorem steps_distinct {n N : ℕ} (val : BitVec n → ℝ) (t : ℕ → BitVec n) (ht : ∀ k < N, val (t k) < val (t (k + 1)))
    {j j' : Fin N} (hj : val (t j) = val (t j')) : j = j' := by
  have key : ∀ a b : ℕ, a < b → b ≤ N → val (t a) < val (t b) := by
    intro a b hab hb
    induction b, hab using Nat.le_induction with
    | base => exact ht a (by omega)
    | succ b hab ih => exact (ih (by omega)).trans (ht b (by omega))
  rcases lt_trichotomy (j : ℕ) j' with h | h | h
  · exact absurd hj (key _ _ h j'.2.le).ne
  · exact Fin.ext h
  · exact absurd hj (key _ _ h j.2.le).ne'

/-- **C90.** The increments over the steps of a solve, with times in float32. -/
theorem C90_grid (d : IdealPrng) (f : IdealFold) (hind : iIndepFun ξ P) (hlaw : ∀ k, HasLaw (ξ k) (gaussianReal 0 1) P)
    (kind : LevyKind) (key : List ℕ) {N : ℕ} (t : ℕ → BitVec 32) (ht : ∀ k < N, val32 (t k) < val32 (t (k + 1))) :
    let X := fun (j : Fin N) ω =>
      unsafeEvaluate kind (d.prng fun k (i : ι) => ξ (k, i) ω) f.foldIn forceBitcast32 val32 key (t j) (t (j + 1))
    iIndepFun (fun (q : Fin N × Fin 3 × ι) ω => (X q.1 ω).part q.2.1 q.2.2) P ∧
      ∀ q : Fin N × Fin 3 × ι, HasLaw (fun ω => (X q.1 ω).part q.2.1 q.2.2)
        (gaussianReal 0 (kind.var q.2.1 * (val32 (t (q.1 + 1)) - val32 (t q.1))).toNNReal) P :=
  C90_float32 d f hind hlaw kind key (fun j : Fin N => t j) (fun j => t (j + 1)) (fun j => (ht j j.2).le)
    fun _ _ hj => .inl fun h => hj (steps_distinct val32 t ht h)

/-- The two halves give back a float64 whose lower half is zero. -/
theorem forceBitcast64_inj {b b' : BitVec 64} (h : b.extractLsb' 0 32 = 0) (h' : b'.extractLsb' 0 32 = 0)
    (e : forceBitcast64 b = forceBitcast64 b') : b = b' := by
  simp only [forceBitcast64, h, h', BitVec.ofNat_eq_ofNat, BitVec.zero_xor] at e
  ext i hi
  rcases lt_or_ge i 32 with h32 | h32
  · have a := congrArg (fun v : BitVec 32 => v.getLsbD i) (h.trans h'.symm)
    simpa [BitVec.getLsbD_extractLsb', h32, BitVec.getLsbD_eq_getElem hi] using a
  · have a := congrArg (fun v : BitVec 32 => v.getLsbD (i - 32)) e
    have e1 : 32 + (i - 32) = i := by omega
    simpa [BitVec.getLsbD_extractLsb', (by omega : i - 32 < 32), e1, BitVec.getLsbD_eq_getElem hi] using a

/-- **C90.** With times in float64 it is true of times of at most 21 significant bits: those whose pattern ends in 32
zeros. -/
theorem C90_float64_partial (d : IdealPrng) (f : IdealFold) (hind : iIndepFun ξ P)
    (hlaw : ∀ k, HasLaw (ξ k) (gaussianReal 0 1) P) (kind : LevyKind) (key : List ℕ) {J : Type} [Fintype J]
    [DecidableEq J] (t0 t1 : J → BitVec 64) (ht : ∀ j, val64 (t0 j) ≤ val64 (t1 j))
    (h0 : ∀ j, (t0 j).extractLsb' 0 32 = 0) (h1 : ∀ j, (t1 j).extractLsb' 0 32 = 0)
    (hne : ∀ j j', j ≠ j' → val64 (t0 j) ≠ val64 (t0 j') ∨ val64 (t1 j) ≠ val64 (t1 j')) :
    let X := fun j ω =>
      unsafeEvaluate kind (d.prng fun k (i : ι) => ξ (k, i) ω) f.foldIn forceBitcast64 val64 key (t0 j) (t1 j)
    iIndepFun (fun (q : J × Fin 3 × ι) ω => (X q.1 ω).part q.2.1 q.2.2) P ∧
      ∀ q : J × Fin 3 × ι, HasLaw (fun ω => (X q.1 ω).part q.2.1 q.2.2)
        (gaussianReal 0 (kind.var q.2.1 * (val64 (t1 q.1) - val64 (t0 q.1))).toNNReal) P := by
  refine unsafe_independent d f hind hlaw kind key forceBitcast64 val64 t0 t1 ht ?_
  intro j j' e0 e1
  by_contra hj
  rcases hne j j' hj with h | h
  · exact h (congrArg val64 (forceBitcast64_inj (h0 j) (h0 j') e0))
  · exact h (congrArg val64 (forceBitcast64_inj (h1 j) (h1 j') e1))

/-! ### Times that all give the same key -/

/-- The pattern of `1 + k dt`. -/
def badTime (k : ℕ) : BitVec 64 := BitVec.ofNat 64 (0x3FF0000000000000 + k * 2 ^ 32 + k)

/-- The step. -/
def badDt : ℝ := 1 / 2 ^ 20 + 1 / 2 ^ 52

theorem badTime_toNat {k : ℕ} (hk : k < 2 ^ 20) : (badTime k).toNat = 0x3FF0000000000000 + k * 2 ^ 32 + k := by
  unfold badTime
  rw [BitVec.toNat_ofNat, Nat.mod_eq_of_lt (by norm_num at hk ⊢; omega)]

theorem badTime_val {k : ℕ} (hk : k < 2 ^ 20) : val64 (badTime k) = 1 + k * badDt := by
  have hn := badTime_toNat hk
  have hm : k * 2 ^ 32 + k < 2 ^ 52 := by norm_num at hk ⊢; omega
  have hf : (0x3FF0000000000000 + k * 2 ^ 32 + k) % 2 ^ 52 = k * 2 ^ 32 + k := by norm_num at hk ⊢; omega
  have hx : (0x3FF0000000000000 + k * 2 ^ 32 + k) / 2 ^ 52 % 2 ^ 11 = 1023 := by
    rw [show (0x3FF0000000000000 + k * 2 ^ 32 + k) / 2 ^ 52 = 1023 from
      Nat.div_eq_of_lt_le (by omega) (by omega)]
    norm_num
  have hs : (0x3FF0000000000000 + k * 2 ^ 32 + k) / 2 ^ (52 + 11) = 0 := by norm_num at hk ⊢; omega
  unfold val64 ieeeVal
  rw [hn, hf, hx, hs]
  norm_num [badDt]
  ring

theorem badTime_bits {k : ℕ} (hk : k < 2 ^ 20) : forceBitcast64 (badTime k) = 0x3FF00000#32 := by
  apply BitVec.eq_of_toNat_eq
  unfold forceBitcast64
  rw [BitVec.toNat_xor, BitVec.extractLsb'_toNat, BitVec.extractLsb'_toNat, badTime_toNat hk, Nat.shiftRight_zero,
    Nat.shiftRight_eq_div_pow]
  have h1 : (0x3FF0000000000000 + k * 2 ^ 32 + k) % 2 ^ 32 = k := by norm_num at hk ⊢; omega
  have h2 : (0x3FF0000000000000 + k * 2 ^ 32 + k) / 2 ^ 32 % 2 ^ 32 = 2 ^ 20 * 1023 + k := by
    rw [show (0x3FF0000000000000 + k * 2 ^ 32 + k) / 2 ^ 32 = 2 ^ 20 * 1023 + k from
      Nat.div_eq_of_lt_le (by omega) (by omega)]
    exact Nat.mod_eq_of_lt (by omega)
  rw [h1, h2]
  show _ = 2 ^ 20 * 1023
  apply Nat.eq_of_testBit_eq
  intro i
  rw [Nat.testBit_xor, Nat.testBit_two_pow_mul_add _ hk, Nat.testBit_two_pow_mul]
  split
  · next h => simp [show ¬ 20 ≤ i by omega]
  · next h =>
    have : k.testBit i = false := Nat.testBit_lt_two_pow (hk.trans_le (Nat.pow_le_pow_right (by norm_num) (by omega)))
    simp [this, show 20 ≤ i by omega]

/-- **C90.** Violated with times in float64: on the times `1`, `1 + dt`, `1 + 2 dt`, …, all the increments are the same
number, whatever the generator, and their sum does not have the variance of the time that has passed. -/
theorem C90_violated_float64 (d : IdealPrng) (f : IdealFold) (hind : iIndepFun ξ P)
    (hlaw : ∀ k, HasLaw (ξ k) (gaussianReal 0 1) P) (kind : LevyKind) (key : List ℕ) {N : ℕ} (hN : N < 2 ^ 20) (i : ι) :
    let X := fun (j : Fin N) ω =>
      unsafeEvaluate kind (d.prng fun k (i : ι) => ξ (k, i) ω) f.foldIn forceBitcast64 val64 key (badTime j)
        (badTime (j + 1))
    (∀ j : Fin N, val64 (badTime (j + 1)) - val64 (badTime j) = badDt) ∧
      (∀ j j' ω, (X j ω).W = (X j' ω).W ∧ (X j ω).H = (X j' ω).H ∧ (X j ω).K = (X j' ω).K) ∧
      HasLaw (fun ω => ∑ j, (X j ω).W i) (gaussianReal 0 (N ^ 2 * badDt).toNNReal) P := by
  intro X
  have hdt : ∀ j : Fin N, val64 (badTime (j + 1)) - val64 (badTime j) = badDt := by
    intro j
    rw [badTime_val (by omega), badTime_val (by omega)]
    push_cast
    ring
  have hX : ∀ (j : Fin N) ω, X j ω = { unsafeLeaf kind (d.prng fun k (i : ι) => ξ (k, i) ω) 0 badDt
      (d.code 1 0 :: f.code 0x3FF00000#32 :: f.code 0x3FF00000#32 :: key) with dt := badDt } := by
    intro j ω
    simp only [X, unsafeEvaluate, badTime_bits (show (j : ℕ) < 2 ^ 20 by omega),
      badTime_bits (show (j : ℕ) + 1 < 2 ^ 20 by omega), IdealFold.foldIn]
    cases kind <;> simp only [unsafeLeaf, hdt, sub_zero] <;> rfl
  refine ⟨hdt, fun j j' ω => by rw [hX, hX]; exact ⟨rfl, rfl, rfl⟩, ?_⟩
  have hpos : 0 ≤ badDt := by unfold badDt; positivity
  have h := (C49_unsafe d hind hlaw kind (d.code 1 0 :: f.code 0x3FF00000#32 :: f.code 0x3FF00000#32 :: key)
    hpos).2.2 (0, i)
  have hsum : (fun ω => ∑ j, (X j ω).W i) = fun ω => (N : ℝ) * (unsafeLeaf kind (d.prng fun k (i : ι) => ξ (k, i) ω)
      0 badDt (d.code 1 0 :: f.code 0x3FF00000#32 :: f.code 0x3FF00000#32 :: key)).part 0 i := by
    funext ω
    simp only [hX, Finset.sum_const, Finset.card_univ, Fintype.card_fin, nsmul_eq_mul, Levy.part]
    rfl
  rw [hsum]
  have hv : kind.var 0 = 1 := by cases kind <;> rfl
  simp only [hv, one_mul, sub_zero] at h
  have h2 := gaussianReal_const_mul h (N : ℝ)
  rw [mul_zero] at h2
  convert h2 using 2
  apply NNReal.eq
  rw [NNReal.coe_mul, Real.coe_toNNReal _ (by positivity), Real.coe_toNNReal _ hpos]
  rfl

end law

/-! ### Instances -/

section instances

/-- Float32 times `1 + k / 2 ^ 23`. -/
def fineTime (k : ℕ) : BitVec 32 := BitVec.ofNat 32 (0x3F800000 + k)

theorem fineTime_val {k : ℕ} (hk : k < 2 ^ 23) : val32 (fineTime k) = 1 + k / 2 ^ 23 := by
  have hn : (fineTime k).toNat = 0x3F800000 + k := by
    unfold fineTime
    rw [BitVec.toNat_ofNat, Nat.mod_eq_of_lt (by norm_num at hk ⊢; omega)]
  have hf : (0x3F800000 + k) % 2 ^ 23 = k := by norm_num at hk ⊢; omega
  have hx : (0x3F800000 + k) / 2 ^ 23 % 2 ^ 8 = 127 := by
    rw [show (0x3F800000 + k) / 2 ^ 23 = 127 from Nat.div_eq_of_lt_le (by omega) (by omega)]
    norm_num
  have hs : (0x3F800000 + k) / 2 ^ (23 + 8) = 0 := by norm_num at hk ⊢; omega
  unfold val32 ieeeVal
  rw [hn, hf, hx, hs]
  norm_num
  ring

theorem fineTime_lt {N : ℕ} (hN : N < 2 ^ 23) : ∀ k < N, val32 (fineTime k) < val32 (fineTime (k + 1)) := by
  intro k hk
  rw [fineTime_val (by omega), fineTime_val (by omega)]
  push_cast
  have : (k : ℝ) / 2 ^ 23 < (k + 1) / 2 ^ 23 := by gcongr; linarith
  linarith

/-- `1` and `2` in float64. -/
theorem val64_one : val64 0x3FF0000000000000#64 = 1 := by
  unfold val64 ieeeVal
  norm_num

theorem val64_two : val64 0x4000000000000000#64 = 2 := by
  unfold val64 ieeeVal
  norm_num

/-- The data itself. -/
def someFold : IdealFold := ⟨BitVec.toNat, fun _ _ h => BitVec.eq_of_toNat_eq h⟩

variable {Ω : Type} [MeasurableSpace Ω] {P : Measure Ω} {ξ : List ℕ × Fin 2 → Ω → ℝ} (hind : iIndepFun ξ P)
  (hlaw : ∀ k, HasLaw (ξ k) (gaussianReal 0 1) P)
include hind hlaw

example := C90_grid someIdealPrng someFold hind hlaw .spaceTime [5] (N := 1000) fineTime (fineTime_lt (by norm_num))
example := C90_float32 someIdealPrng someFold hind hlaw .spaceTimeTime [5] (fun j : Fin 2 => fineTime j)
  (fun _ => fineTime 7) (fun j => by rw [fineTime_val (by omega), fineTime_val (by norm_num)]; fin_cases j <;> norm_num)
  (fun j j' h => .inl (by
    rw [fineTime_val (by omega), fineTime_val (by omega)]
    fin_cases j <;> fin_cases j' <;> first | exact absurd rfl h | norm_num))
example := C90_float64_partial someIdealPrng someFold hind hlaw .increment [5]
  (fun j : Fin 2 => if j = 0 then 0x3FF0000000000000#64 else 0x4000000000000000#64) (fun _ => 0x4000000000000000#64)
  (fun j => by fin_cases j <;> simp [val64_one, val64_two]) (fun j => by fin_cases j <;> rfl) (fun _ => rfl)
  (fun j j' h => .inl (by
    fin_cases j <;> fin_cases j' <;> first | exact absurd rfl h | simp [val64_one, val64_two]))
example := C90_violated_float64 someIdealPrng someFold hind hlaw .spaceTime [5] (N := 1000000) (by norm_num) 0

end instances

end
end Verif
