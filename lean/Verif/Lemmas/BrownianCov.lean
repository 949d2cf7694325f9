import Verif.Lemmas.BrownianRel
import Verif.Spec.Brownian
import Mathlib.Data.List.Infix

/-!
# Second moments over the Brownian tree
-/

namespace Verif
noncomputable section

section ends
variable {Key Y : Type} [AddCommGroup Y] [Module ℝ Y]

/-- A normal of covariance zero is zero. -/
def ZeroCov (g : Prng Key Y) : Prop := ∀ key i, g.mvNormal key (fun _ _ => 0) i = 0

theorem leafCov_left (su : ℝ) : leafCov 0 su su = fun _ _ => 0 := by
  funext i j
  fin_cases i <;> fin_cases j <;> simp [leafCov]

theorem leafCov_right {su : ℝ} (hsu : su ≠ 0) : leafCov su 0 su = fun _ _ => 0 := by
  funext i j
  fin_cases i <;> fin_cases j <;> simp [leafCov, hsu]

theorem leafPiece_zero (kind : LevyKind) (g : Prng Key Y) (hg : ZeroCov g) (key : Key) (su : ℝ) (p : LevyPiece Y) :
    leafPiece kind g key su p 0 = LevyPiece.zero := by
  cases kind
  · ext <;> simp [leafPiece, leafI, LevyPiece.zero]
  · ext <;> simp [leafPiece, leafST, LevyPiece.zero, leafA, leafB, leafE]
  · have h := hg key
    rw [← leafCov_left su] at h
    ext <;> simp [leafPiece, leafSTT, LevyPiece.zero, h]

theorem leafPiece_end (kind : LevyKind) (g : Prng Key Y) (hg : ZeroCov g) (key : Key) {su : ℝ} (hsu : su ≠ 0)
    {p : LevyPiece Y} (hp : Proper kind p) : leafPiece kind g key su p su = p := by
  cases kind
  · ext
    · simp [leafPiece, leafI, hsu]
    · exact (hp.1 rfl).symm
    · exact (hp.2 rfl).symm
  · ext
    · simp [leafPiece, leafST, leafA, leafB, leafE, hsu]
    · simp [leafPiece, leafST, leafA, leafB, leafE, hsu]
    · exact (hp.2 rfl).symm
  · have h := hg key
    rw [← leafCov_right hsu] at h
    ext
    · simp [leafPiece, leafSTT, hsu, h]
    · simp [leafPiece, leafSTT, hsu, h]
    · simp only [leafPiece, leafSTT, sub_self, h, div_self hsu]
      rw [add_zero, smul_smul, one_pow, mul_one_div, div_self (pow_ne_zero 2 hsu), one_smul]

theorem rel_zero (kind : LevyKind) (g : Prng Key Y) (hg : ZeroCov g) (n : ℕ) (key : Key) {su : ℝ} (hsu : 0 < su)
    (p : LevyPiece Y) : rel kind g n key su p 0 = LevyPiece.zero := by
  induction n generalizing key su p with
  | zero => exact leafPiece_zero kind g hg key su p
  | succ n ih => rw [rel, if_neg (by linarith)]; exact ih _ (by linarith) _

theorem rel_end (kind : LevyKind) (g : Prng Key Y) (hg : ZeroCov g) (n : ℕ) (key : Key) {su : ℝ} (hsu : 0 < su)
    {p : LevyPiece Y} (hp : Proper kind p) : rel kind g n key su p su = p := by
  induction n generalizing key su p with
  | zero => exact leafPiece_end kind g hg key hsu.ne' hp
  | succ n ih =>
    rw [rel, if_pos (by linarith)]
    have e : su - su / 2 = su / 2 := by ring
    rw [e, ih _ (by linarith) (halves_proper kind g key su p).2, halves_chen kind g key hsu.ne' hp]

/-- Going deeper does not change the values at the nodes. -/
theorem rel_node (kind : LevyKind) (g : Prng Key Y) (hg : ZeroCov g) (n m : ℕ) (key : Key) {su : ℝ} (hsu : 0 < su)
    {p : LevyPiece Y} (hp : Proper kind p) (j : ℕ) (hj : j ≤ 2 ^ n) :
    rel kind g (n + m) key su p (j * su / 2 ^ n) = rel kind g n key su p (j * su / 2 ^ n) := by
  induction n generalizing key su p j with
  | zero =>
    have : j = 0 ∨ j = 1 := by simp at hj; omega
    rcases this with rfl | rfl
    · simp only [Nat.cast_zero, zero_mul, zero_div]; rw [rel_zero kind g hg _ _ hsu, rel_zero kind g hg _ _ hsu]
    · simp only [Nat.cast_one, one_mul, pow_zero, div_one]; rw [rel_end kind g hg _ _ hsu hp, rel_end kind g hg _ _ hsu hp]
  | succ n ih =>
    have hh := halves_proper kind g key su p
    have e : n + 1 + m = (n + m) + 1 := by omega
    rw [e, rel, rel]
    by_cases hlt : su / 2 < j * su / 2 ^ (n + 1)
    · rw [if_pos hlt, if_pos hlt]
      have hj' : 2 ^ n ≤ j := by
        by_contra hcon
        have : (j : ℝ) ≤ 2 ^ n := by exact_mod_cast (not_le.mp hcon).le
        have h2 : j * su / 2 ^ (n + 1) ≤ su / 2 := by
          rw [pow_succ, div_le_div_iff₀ (by positivity) (by norm_num)]
          nlinarith
        linarith
      have e2 : j * su / 2 ^ (n + 1) - su / 2 = ((j - 2 ^ n : ℕ) : ℝ) * (su / 2) / 2 ^ n := by
        rw [Nat.cast_sub hj']
        push_cast
        field_simp
        ring
      rw [e2, ih _ (by linarith) hh.2 _ (by rw [pow_succ] at hj; omega)]
    · rw [if_neg hlt, if_neg hlt]
      have e2 : j * su / 2 ^ (n + 1) = (j : ℝ) * (su / 2) / 2 ^ n := by field_simp; ring
      rw [e2]
      apply ih _ (by linarith) hh.1
      by_contra hcon
      have : (2 : ℝ) ^ n < j := by exact_mod_cast (not_le.mp hcon)
      apply hlt
      rw [pow_succ, div_lt_div_iff₀ (by norm_num) (by positivity)]
      nlinarith

/-- The value at a place in the interval of a later state, computed from the start. -/
theorem treeIter_node (kind : LevyKind) (g : Prng Key Y) (hg : ZeroCov g) (r : ℝ) (n m : ℕ) (st : TreeState Key Y)
    (hst : Consistent kind st) (h0 : st.s ≤ r) (h1 : r ≤ st.s + st.len) (y : ℝ) (hy0 : 0 ≤ y)
    (hy1 : y ≤ (treeIter kind g r n st).len) :
    chen kind (treeIter kind g r n st).s (treeIter kind g r n st).left y
      (rel kind g m (treeIter kind g r n st).key (treeIter kind g r n st).len (treeIter kind g r n st).cell y)
      = chen kind st.s st.left ((treeIter kind g r n st).s - st.s + y)
          (rel kind g (n + m) st.key st.len st.cell ((treeIter kind g r n st).s - st.s + y)) ∧
      st.s ≤ (treeIter kind g r n st).s ∧
      (treeIter kind g r n st).s + (treeIter kind g r n st).len ≤ st.s + st.len := by
  induction n generalizing st with
  | zero => simp [treeIter]
  | succ n ih =>
    have hc := treeBody_consistent kind g r st hst
    have hl := treeBody_len kind g r st
    have hpos := len_pos st
    have e : n + 1 + m = (n + m) + 1 := by omega
    by_cases hr : st.s + st.len / 2 < r
    · obtain ⟨e1, e2, e3, e4, e5⟩ := treeBody_right kind g r st hst hr
      obtain ⟨i1, i2, i3⟩ := ih (treeBody kind g r st) hc (by rw [e1]; exact hr.le) (by rw [e1, hl]; linarith) hy1
      rw [treeIter]
      set st' := treeIter kind g r n (treeBody kind g r st) with hst'
      refine ⟨?_, by rw [e1] at i2; linarith, by rw [e1, hl] at i3; linarith⟩
      rw [i1, e, rel]
      rw [e1] at i2
      by_cases hlt : st.len / 2 < st'.s - st.s + y
      · rw [if_pos hlt, e1, e2, e3, e4, hl, chen_assoc]
        have : st'.s - (st.s + st.len / 2) + y = st'.s - st.s + y - st.len / 2 := by ring
        rw [this]
        congr 1
        ring
      · have hz : st'.s - (st.s + st.len / 2) + y = 0 := by linarith
        have hz' : st'.s - st.s + y = st.len / 2 := by linarith
        rw [if_neg hlt, e1, hz, hz', rel_zero kind g hg _ _ (len_pos _), chen_zero, e3,
          rel_end kind g hg _ _ (by linarith) (halves_proper _ _ _ _ _).1]
    · obtain ⟨e1, e2, e3, e4, e5⟩ := treeBody_left kind g r st hst hr
      obtain ⟨i1, i2, i3⟩ := ih (treeBody kind g r st) hc (by rw [e1]; exact h0) (by rw [e1, hl]; linarith) hy1
      rw [treeIter]
      set st' := treeIter kind g r n (treeBody kind g r st) with hst'
      have hy1' : y ≤ st'.len := hy1
      rw [e1, hl] at i3
      refine ⟨?_, by rw [e1] at i2; linarith, by linarith⟩
      rw [i1, e, rel, if_neg (by linarith), e1, e2, e3, e4, hl]

end ends

/-! ### Moments -/

section moments
variable {Y : Type} [AddCommGroup Y] [Module ℝ Y] {c : LinearMap.BilinForm ℝ Y}

/-- `p`, and all normals of the key and of the keys split off from it. -/
def spanOf (N : List ℕ → Y) (key : List ℕ) (p : LevyPiece Y) : Submodule ℝ Y :=
  Submodule.span ℝ ({p.W, p.H, p.K} ∪ {y | ∃ k, key <:+ k ∧ y = N k})

def LevyPiece.Mem (S : Submodule ℝ Y) (p : LevyPiece Y) : Prop := p.W ∈ S ∧ p.H ∈ S ∧ p.K ∈ S

theorem LevyPiece.Mem.mono {S T : Submodule ℝ Y} {p : LevyPiece Y} (h : p.Mem S) (hST : S ≤ T) : p.Mem T :=
  ⟨hST h.1, hST h.2.1, hST h.2.2⟩

theorem mem_self (N : List ℕ → Y) (key : List ℕ) (p : LevyPiece Y) : p.Mem (spanOf N key p) :=
  ⟨Submodule.subset_span (Or.inl (by simp)), Submodule.subset_span (Or.inl (by simp)),
    Submodule.subset_span (Or.inl (by simp))⟩

theorem normal_mem (N : List ℕ → Y) {key k : List ℕ} (h : key <:+ k) (p : LevyPiece Y) : N k ∈ spanOf N key p :=
  Submodule.subset_span (Or.inr ⟨k, h, rfl⟩)

theorem spanOf_le (N : List ℕ → Y) {key key' : List ℕ} {p q : LevyPiece Y} (hk : key <:+ key') (hq : q.Mem (spanOf N key p)) :
    spanOf N key' q ≤ spanOf N key p := by
  apply Submodule.span_le.mpr
  rintro y (hy | ⟨k, hk', rfl⟩)
  · simp only [Set.mem_insert_iff, Set.mem_singleton_iff] at hy
    rcases hy with rfl | rfl | rfl
    · exact hq.1
    · exact hq.2.1
    · exact hq.2.2
  · exact normal_mem N (hk.trans hk') p

theorem LevyPiece.Mem.chen {S : Submodule ℝ Y} {kind : LevyKind} {h1 h2 : ℝ} {p q : LevyPiece Y} (hp : p.Mem S) (hq : q.Mem S) :
    (chen kind h1 p h2 q).Mem S := by
  obtain ⟨p1, p2, p3⟩ := hp
  obtain ⟨q1, q2, q3⟩ := hq
  refine ⟨?_, ?_, ?_⟩ <;> simp only [Verif.chen] <;>
    repeat' first | assumption | apply Submodule.add_mem | apply Submodule.sub_mem | apply Submodule.smul_mem

/-- Orthogonality of spans. -/
theorem span_perp {A B : Set Y} (h : ∀ x ∈ A, ∀ y ∈ B, c x y = 0) :
    ∀ x ∈ Submodule.span ℝ A, ∀ y ∈ Submodule.span ℝ B, c x y = 0 := by
  intro x hx y hy
  induction hx using Submodule.span_induction with
  | mem x hx =>
    induction hy using Submodule.span_induction with
    | mem y hy => exact h x hx y hy
    | zero => simp
    | add y z _ _ h1 h2 => rw [map_add, h1, h2, add_zero]
    | smul a y _ h1 => rw [map_smul, h1, smul_zero]
  | zero => simp
  | add y z _ _ h1 h2 => rw [map_add, LinearMap.add_apply, h1, h2, add_zero]
  | smul a y _ h1 => rw [map_smul, LinearMap.smul_apply, h1, smul_zero]

theorem Perp.of_mem {S T : Submodule ℝ Y} (h : ∀ x ∈ S, ∀ y ∈ T, c x y = 0) {p q : LevyPiece Y} (hp : p.Mem S)
    (hq : q.Mem T) : Perp c p q :=
  ⟨h _ hp.1 _ hq.1, h _ hp.1 _ hq.2.1, h _ hp.1 _ hq.2.2, h _ hp.2.1 _ hq.1, h _ hp.2.1 _ hq.2.1, h _ hp.2.1 _ hq.2.2,
    h _ hp.2.2 _ hq.1, h _ hp.2.2 _ hq.2.1, h _ hp.2.2 _ hq.2.2⟩

theorem Perp.chen {kind : LevyKind} {h1 h2 : ℝ} {p q r : LevyPiece Y} (hq : Perp c p q) (hr : Perp c p r) :
    Perp c p (chen kind h1 q h2 r) := by
  constructor <;> simp [Verif.chen, hq.ww, hq.wh, hq.wk, hq.hw, hq.hh, hq.hk, hq.kw, hq.kh, hq.kk, hr.ww, hr.wh, hr.wk,
    hr.hw, hr.hh, hr.hk, hr.kw, hr.kh, hr.kk]

theorem Perp.zero_left (p : LevyPiece Y) : Perp c LevyPiece.zero p := by constructor <;> simp [LevyPiece.zero]

/-- Different keys split off from one key have nothing in common below them. -/
theorem suffix_disjoint {key k : List ℕ} {i j : ℕ} (hij : i ≠ j) (hi : (i :: key) <:+ k) (hj : (j :: key) <:+ k) :
    False := by
  have := (List.suffix_of_suffix_length_le hi hj (by simp)).eq_of_length (by simp)
  exact hij (by simpa using (List.cons.inj this).1)

variable (d : IdealPrng) (N : List ℕ → Y)

/-- The normals are independent standard normals, as far as second moments go. -/
def Orthonormals (c : LinearMap.BilinForm ℝ Y) (N : List ℕ → Y) : Prop :=
  ∀ k k', c (N k) (N k') = if k = k' then 1 else 0

variable {d N}

theorem ideal_zeroCov (d : IdealPrng) (N : List ℕ → Y) : ZeroCov (d.prng N) := by
  intro key i
  have h0 : ∀ i k, d.root (fun _ _ => 0) i k = 0 := by
    intro i k
    have h := d.root_mul (fun _ _ => 0) (fun _ _ => rfl) (fun v => by simp) i i
    have h' := (Finset.sum_eq_zero_iff_of_nonneg (fun k _ => mul_self_nonneg _)).mp h k (Finset.mem_univ k)
    exact mul_self_eq_zero.mp h'
  simp [IdealPrng.prng, h0]

/-- `p` is independent of all that is drawn from `key` on. -/
def Fresh (c : LinearMap.BilinForm ℝ Y) (N : List ℕ → Y) (key : List ℕ) (p : LevyPiece Y) : Prop :=
  ∀ k, key <:+ k → PerpV c p (N k)

theorem PerpV.smul {p : LevyPiece Y} {x : Y} (h : PerpV c p x) (a : ℝ) : PerpV c p (a • x) :=
  ⟨by rw [map_smul, h.w, smul_zero], by rw [map_smul, h.h, smul_zero], by rw [map_smul, h.k, smul_zero]⟩

theorem PerpV.add {p : LevyPiece Y} {x y : Y} (h : PerpV c p x) (h' : PerpV c p y) : PerpV c p (x + y) :=
  ⟨by rw [map_add, h.w, h'.w, add_zero], by rw [map_add, h.h, h'.h, add_zero], by rw [map_add, h.k, h'.k, add_zero]⟩

theorem PerpV.neg {p : LevyPiece Y} {x : Y} (h : PerpV c p x) : PerpV c p (-x) :=
  ⟨by rw [map_neg, h.w, neg_zero], by rw [map_neg, h.h, neg_zero], by rw [map_neg, h.k, neg_zero]⟩

theorem PerpV.sum {ι : Type} {s : Finset ι} {p : LevyPiece Y} {x : ι → Y} (h : ∀ i, PerpV c p (x i)) :
    PerpV c p (∑ i ∈ s, x i) :=
  ⟨by rw [map_sum]; exact Finset.sum_eq_zero fun i _ => (h i).w, by rw [map_sum]; exact Finset.sum_eq_zero fun i _ => (h i).h,
    by rw [map_sum]; exact Finset.sum_eq_zero fun i _ => (h i).k⟩

theorem smul_sq (hN : Orthonormals c N) (k : List ℕ) {a b : ℝ} (hb : 0 ≤ b) (ha : a = √b) :
    c (a • N k) (a • N k) = b := by
  rw [map_smul, LinearMap.map_smul, LinearMap.smul_apply, hN, if_pos rfl, ha]
  simp [Real.mul_self_sqrt hb]

theorem smul_ne (hN : Orthonormals c N) {k k' : List ℕ} (h : k ≠ k') (a b : ℝ) : c (a • N k) (b • N k') = 0 := by
  rw [map_smul, LinearMap.map_smul, LinearMap.smul_apply, hN, if_neg h]
  simp

theorem cons_suffix (i : ℕ) (k : List ℕ) : k <:+ i :: k := ⟨[i], rfl⟩

/-- The two halves have the right moments. -/
theorem halves_good (hc : ∀ x y, c x y = c y x) (hN : Orthonormals c N) (kind : LevyKind) (key : List ℕ) {su : ℝ}
    (hsu : 0 < su) {p : LevyPiece Y} (hp : Good c kind su p) (hf : Fresh c N key p) :
    Good c kind (su / 2) (halves kind (d.prng N) key su p).1 ∧ Good c kind (su / 2) (halves kind (d.prng N) key su p).2 ∧
      Perp c (halves kind (d.prng N) key su p).1 (halves kind (d.prng N) key su p).2 := by
  have hs : ∀ n i, PerpV c p (N (d.code n i :: d.code 3 1 :: key)) :=
    fun n i => hf _ ((cons_suffix _ _).trans (cons_suffix _ _))
  have hne : ∀ n i j, i ≠ j → d.code n i :: d.code 3 1 :: key ≠ d.code n j :: d.code 3 1 :: key := by
    intro n i j hij h
    exact hij (d.code_inj n i j (List.cons.inj h).1)
  cases kind
  · apply archI_good hc hp (PerpV.smul (hf _ (cons_suffix _ _)) _)
    apply smul_sq hN _ (by positivity)
    rw [show su / 4 = su / 2 ^ 2 by norm_num, Real.sqrt_div hsu.le, Real.sqrt_sq (by norm_num)]
  · apply archST_good hc hsu.ne' hp (PerpV.smul (hs _ _) _) (PerpV.smul (hs _ _) _)
    · apply smul_sq hN _ (by positivity)
      rw [show su / 16 = su / 4 ^ 2 by norm_num, Real.sqrt_div hsu.le, Real.sqrt_sq (by norm_num)]
    · exact smul_sq hN _ (by positivity) rfl
    · exact smul_ne hN (hne _ _ _ (by norm_num)) _ _
  · apply archSTT_good hc hsu.ne' hp (PerpV.smul (hs _ _) _) (PerpV.smul (hs _ _) _) (PerpV.smul (hs _ _) _)
    · exact smul_sq hN _ (by positivity) rfl
    · exact smul_sq hN _ (by positivity) rfl
    · exact smul_sq hN _ (by positivity) rfl
    · exact smul_ne hN (hne _ _ _ (by norm_num)) _ _
    · exact smul_ne hN (hne _ _ _ (by norm_num)) _ _
    · exact smul_ne hN (hne _ _ _ (by norm_num)) _ _

/-- The two halves are made of `p` and of what is drawn from the midpoint key. -/
theorem halves_mem (kind : LevyKind) (key : List ℕ) (su : ℝ) (p : LevyPiece Y) :
    (halves kind (d.prng N) key su p).1.Mem (Submodule.span ℝ ({p.W, p.H, p.K} ∪ {y | ∃ k, (d.code 3 1 :: key) <:+ k ∧ y = N k})) ∧
    (halves kind (d.prng N) key su p).2.Mem (Submodule.span ℝ ({p.W, p.H, p.K} ∪ {y | ∃ k, (d.code 3 1 :: key) <:+ k ∧ y = N k})) := by
  have hs : ∀ n i, N (d.code n i :: d.code 3 1 :: key) ∈
      Submodule.span ℝ ({p.W, p.H, p.K} ∪ {y | ∃ k, (d.code 3 1 :: key) <:+ k ∧ y = N k}) :=
    fun n i => Submodule.subset_span (Or.inr ⟨_, cons_suffix _ _, rfl⟩)
  have h0 : N (d.code 3 1 :: key) ∈
      Submodule.span ℝ ({p.W, p.H, p.K} ∪ {y | ∃ k, (d.code 3 1 :: key) <:+ k ∧ y = N k}) :=
    Submodule.subset_span (Or.inr ⟨_, List.suffix_refl _, rfl⟩)
  obtain ⟨h1, h2, h3⟩ := mem_self N (d.code 3 1 :: key) p
  unfold spanOf at h1 h2 h3
  cases kind <;> refine ⟨⟨?_, ?_, ?_⟩, ⟨?_, ?_, ?_⟩⟩ <;>
    simp only [halves, archI, archST, archSTT, IdealPrng.prng] <;>
    repeat' first | assumption | apply hs | apply Submodule.add_mem | apply Submodule.sub_mem | apply Submodule.smul_mem | apply Submodule.zero_mem

theorem halves_spanOf (kind : LevyKind) (key : List ℕ) (su : ℝ) (p : LevyPiece Y) :
    (halves kind (d.prng N) key su p).1.Mem (spanOf N key p) ∧ (halves kind (d.prng N) key su p).2.Mem (spanOf N key p) := by
  have h := halves_mem (d := d) (N := N) kind key su p
  have hle : Submodule.span ℝ ({p.W, p.H, p.K} ∪ {y | ∃ k, (d.code 3 1 :: key) <:+ k ∧ y = N k}) ≤ spanOf N key p := by
    apply Submodule.span_mono
    apply Set.union_subset_union_right
    rintro y ⟨k, hk, rfl⟩
    exact ⟨k, (cons_suffix _ _).trans hk, rfl⟩
  exact ⟨h.1.mono hle, h.2.mono hle⟩

/-- The two halves are independent of what is drawn from the new keys. -/
theorem halves_fresh (hN : Orthonormals c N) (kind : LevyKind) (key : List ℕ) (su : ℝ) {p : LevyPiece Y}
    (hf : Fresh c N key p) (i : ℕ) (hi : i ≠ 1) :
    Fresh c N (d.code 3 i :: key) (halves kind (d.prng N) key su p).1 ∧
      Fresh c N (d.code 3 i :: key) (halves kind (d.prng N) key su p).2 := by
  have h := halves_mem (d := d) (N := N) kind key su p
  have hperp : ∀ x ∈ Submodule.span ℝ ({p.W, p.H, p.K} ∪ {y | ∃ k, (d.code 3 1 :: key) <:+ k ∧ y = N k}),
      ∀ y ∈ Submodule.span ℝ {y | ∃ k, (d.code 3 i :: key) <:+ k ∧ y = N k}, c x y = 0 := by
    apply span_perp
    rintro x hx y ⟨k, hk, rfl⟩
    have hk' := hf k ((cons_suffix _ _).trans hk)
    rcases hx with hx | ⟨k', hk'', rfl⟩
    · simp only [Set.mem_insert_iff, Set.mem_singleton_iff] at hx
      rcases hx with rfl | rfl | rfl
      · exact hk'.w
      · exact hk'.h
      · exact hk'.k
    · rw [hN, if_neg]
      rintro rfl
      exact suffix_disjoint (fun h => hi (d.code_inj 3 _ _ h).symm) hk'' hk
  constructor <;> intro k hk
  · exact ⟨hperp _ h.1.1 _ (Submodule.subset_span ⟨k, hk, rfl⟩), hperp _ h.1.2.1 _ (Submodule.subset_span ⟨k, hk, rfl⟩),
      hperp _ h.1.2.2 _ (Submodule.subset_span ⟨k, hk, rfl⟩)⟩
  · exact ⟨hperp _ h.2.1 _ (Submodule.subset_span ⟨k, hk, rfl⟩), hperp _ h.2.2.1 _ (Submodule.subset_span ⟨k, hk, rfl⟩),
      hperp _ h.2.2.2 _ (Submodule.subset_span ⟨k, hk, rfl⟩)⟩

/-- What is made of one half is independent of what is made of the other. -/
theorem spans_perp (hc : ∀ x y, c x y = c y x) (hN : Orthonormals c N) {key : List ℕ} {i j : ℕ} (hij : i ≠ j)
    {p q : LevyPiece Y} (hpq : Perp c p q) (hp : Fresh c N (j :: key) p) (hq : Fresh c N (i :: key) q) :
    ∀ x ∈ spanOf N (i :: key) p, ∀ y ∈ spanOf N (j :: key) q, c x y = 0 := by
  apply span_perp
  rintro x (hx | ⟨k, hk, rfl⟩) y (hy | ⟨k', hk', rfl⟩)
  · simp only [Set.mem_insert_iff, Set.mem_singleton_iff] at hx hy
    rcases hx with rfl | rfl | rfl <;> rcases hy with rfl | rfl | rfl
    exacts [hpq.ww, hpq.wh, hpq.wk, hpq.hw, hpq.hh, hpq.hk, hpq.kw, hpq.kh, hpq.kk]
  · simp only [Set.mem_insert_iff, Set.mem_singleton_iff] at hx
    have := hp k' hk'
    rcases hx with rfl | rfl | rfl
    exacts [this.w, this.h, this.k]
  · simp only [Set.mem_insert_iff, Set.mem_singleton_iff] at hy
    have := hq k hk
    rw [hc]
    rcases hy with rfl | rfl | rfl
    exacts [this.w, this.h, this.k]
  · rw [hN, if_neg]
    rintro rfl
    exact suffix_disjoint hij hk hk'

theorem leafD_sq {su x : ℝ} (h0 : 0 ≤ x) (h1 : x ≤ su) : leafD su x * leafD su x = x ^ 3 + (su - x) ^ 3 := by
  have : 0 ≤ su - x := by linarith
  exact Real.mul_self_sqrt (by positivity)

theorem leafD_pos {su x : ℝ} (hsu : 0 < su) (h0 : 0 ≤ x) (h1 : x ≤ su) : 0 < leafD su x := by
  have h2 : 0 ≤ su - x := by linarith
  apply Real.sqrt_pos.mpr
  rcases h0.lt_or_eq with h | h
  · positivity
  · rw [← h]; simp; positivity

/-- At a leaf. -/
theorem leaf_good (hc : ∀ x y, c x y = c y x) (hN : Orthonormals c N) (kind : LevyKind) (key : List ℕ) {su : ℝ}
    (hsu : 0 < su) {p : LevyPiece Y} (hpp : Proper kind p) (hp : Good c kind su p) (hf : Fresh c N key p) {x : ℝ}
    (h0 : 0 ≤ x) (h1 : x ≤ su) :
    Good c kind x (leafPiece kind (d.prng N) key su p x) ∧
      Good c kind (su - x) (cut kind x (leafPiece kind (d.prng N) key su p x) su p) ∧
      Perp c (leafPiece kind (d.prng N) key su p x) (cut kind x (leafPiece kind (d.prng N) key su p x) su p) := by
  have h2 : 0 ≤ su - x := by linarith
  cases kind
  · apply leafI_good hc hsu.ne' hp (PerpV.smul (hf _ (List.suffix_refl _)) _) _ (hpp.1 rfl) (hpp.2 rfl)
    exact smul_sq hN _ (by positivity) rfl
  · have hs : ∀ i, PerpV c p (N (d.code 2 i :: key)) := fun i => hf _ (cons_suffix _ _)
    have hD := leafD_sq h0 h1
    have hD0 := leafD_pos hsu h0 h1
    have hR : √(x * (su - x)) * √(x * (su - x)) = x * (su - x) := Real.mul_self_sqrt (by positivity)
    have hE : √(3 * x ^ 3 * (su - x) ^ 3) * √(3 * x ^ 3 * (su - x) ^ 3) = 3 * x ^ 3 * (su - x) ^ 3 :=
      Real.mul_self_sqrt (by positivity)
    have n12 : c (N (d.code 2 0 :: key)) (N (d.code 2 1 :: key)) = 0 := by
      rw [hN, if_neg]
      intro h
      have := d.code_inj 2 _ _ (List.cons.inj h).1
      omega
    have n21 := (hc _ _).trans n12
    have n11 : ∀ k, c (N k) (N k) = 1 := fun k => by rw [hN, if_pos rfl]
    apply leafST_good hc hsu.ne' hp (PerpV.smul (hs _) _) (PerpV.add (PerpV.neg (PerpV.smul (hs _) _)) (PerpV.smul (hs _) _)) (hpp.2 rfl)
    · simp only [IdealPrng.prng, map_smul, LinearMap.smul_apply, n11, smul_eq_mul, mul_one]
      have : leafA su x + leafB su x = leafD su x * √(x * (su - x)) / (2 * su) := by
        unfold leafA leafB
        field_simp
        linear_combination (-1 : ℝ) * √(x * (su - x)) * hD
      rw [this]
      field_simp
      linear_combination (leafD su x * leafD su x) * hR + (x * (su - x)) * hD
    · simp only [IdealPrng.prng, map_smul, map_add, map_neg, LinearMap.smul_apply, n11, n12, smul_eq_mul, mul_one]
      have : leafA su x + leafB su x = leafD su x * √(x * (su - x)) / (2 * su) := by
        unfold leafA leafB
        field_simp
        linear_combination (-1 : ℝ) * √(x * (su - x)) * hD
      rw [this]
      unfold leafA
      field_simp
      linear_combination (-1 : ℝ) * x ^ 3 * hR
    · simp only [IdealPrng.prng, map_smul, map_add, map_neg, LinearMap.smul_apply, LinearMap.add_apply, LinearMap.neg_apply,
        n11, n12, n21, smul_eq_mul, mul_one]
      unfold leafA leafE
      have hD' : x ^ 3 + (su - x) ^ 3 ≠ 0 := by rw [← hD]; positivity
      have e1 : (1 / (2 * su * leafD su x) * x ^ 3 * √(x * (su - x))) * (1 / (2 * su * leafD su x) * x ^ 3 * √(x * (su - x)))
          = x ^ 7 * (su - x) / (4 * su ^ 2 * (x ^ 3 + (su - x) ^ 3)) := by
        rw [← hD]
        field_simp
        linear_combination 4 * x ^ 6 * hR
      have e2 : √(3 * x ^ 3 * (su - x) ^ 3) / (6 * leafD su x) * (√(3 * x ^ 3 * (su - x) ^ 3) / (6 * leafD su x))
          = x ^ 3 * (su - x) ^ 3 / (12 * (x ^ 3 + (su - x) ^ 3)) := by
        rw [← hD]
        field_simp
        linear_combination 12 * hE
      simp only [mul_zero, neg_zero, zero_add, add_zero, mul_neg, neg_mul, neg_neg, e1, e2]
      field_simp
      ring
  · have hC : ∀ i j, c ((d.prng N).mvNormal key (leafCov x (su - x) su) i) ((d.prng N).mvNormal key (leafCov x (su - x) su) j)
        = leafCov x (su - x) su i j := by
      intro i j
      have hroot := d.root_mul (leafCov x (su - x) su) (by
        intro i j; fin_cases i <;> fin_cases j <;> rfl) (leafCov_nonneg hsu h0 h1) i j
      rw [← hroot]
      simp only [IdealPrng.prng, map_sum, LinearMap.sum_apply, map_smul, LinearMap.smul_apply, smul_eq_mul]
      have hN' : ∀ a b : Fin 3, c (N (a.val :: key)) (N (b.val :: key)) = if a = b then 1 else 0 := by
        intro a b
        rw [hN]
        congr 1
        simp [Fin.ext_iff]
      simp [hN', mul_comm]

    apply leafSTT_good hc hsu.ne' hp _ hC
    intro i
    simp only [IdealPrng.prng]
    exact PerpV.sum fun j => PerpV.smul (hf _ (cons_suffix _ _)) _

theorem leafPiece_mem (kind : LevyKind) (key : List ℕ) (su : ℝ) (p : LevyPiece Y) (x : ℝ) :
    (leafPiece kind (d.prng N) key su p x).Mem (spanOf N key p) := by
  have hs : ∀ i, N (i :: key) ∈ spanOf N key p := fun i => normal_mem N (cons_suffix _ _) p
  have h0 : N key ∈ spanOf N key p := normal_mem N (List.suffix_refl _) p
  obtain ⟨h1, h2, h3⟩ := mem_self N key p
  have hm : ∀ C i, (d.prng N).mvNormal key C i ∈ spanOf N key p := by
    intro C i
    simp only [IdealPrng.prng]
    exact Submodule.sum_mem _ fun j _ => Submodule.smul_mem _ _ (hs _)
  cases kind <;> refine ⟨?_, ?_, ?_⟩ <;> simp only [leafPiece, leafI, leafST, leafSTT] <;>
    repeat' first | assumption | apply hm | apply hs | apply Submodule.add_mem | apply Submodule.sub_mem | apply Submodule.neg_mem | apply Submodule.smul_mem | apply Submodule.zero_mem

theorem rel_mem (kind : LevyKind) (n : ℕ) (key : List ℕ) (su : ℝ) (p : LevyPiece Y) (x : ℝ) :
    (rel kind (d.prng N) n key su p x).Mem (spanOf N key p) := by
  induction n generalizing key su p x with
  | zero => exact leafPiece_mem kind key su p x
  | succ n ih =>
    have h := halves_spanOf (d := d) (N := N) kind key su p
    rw [rel]
    split
    · exact LevyPiece.Mem.chen h.1 ((ih _ _ _ _).mono (spanOf_le N (cons_suffix _ _) h.2))
    · exact (ih _ _ _ _).mono (spanOf_le N (cons_suffix _ _) h.1)

/-- The moments of the values in an interval. -/
theorem rel_moments (hc : ∀ x y, c x y = c y x) (hN : Orthonormals c N) (kind : LevyKind) (n : ℕ) (key : List ℕ) {su : ℝ}
    (hsu : 0 < su) {p : LevyPiece Y} (hpp : Proper kind p) (hp : Good c kind su p) (hf : Fresh c N key p) :
    (∀ x, 0 ≤ x → x ≤ su → Good c kind x (rel kind (d.prng N) n key su p x)) ∧
    ∀ x x', 0 ≤ x → x ≤ x' → x' ≤ su → (∃ j : ℕ, x ≤ j * su / 2 ^ n ∧ j * su / 2 ^ n ≤ x') →
      Good c kind (x' - x) (cut kind x (rel kind (d.prng N) n key su p x) x' (rel kind (d.prng N) n key su p x')) ∧
      Perp c (rel kind (d.prng N) n key su p x)
        (cut kind x (rel kind (d.prng N) n key su p x) x' (rel kind (d.prng N) n key su p x')) := by
  have hz := ideal_zeroCov d N
  induction n generalizing key su p with
  | zero =>
    have hleaf := fun x h0 h1 => leaf_good (d := d) hc hN kind key hsu hpp hp hf (x := x) h0 h1
    refine ⟨fun x h0 h1 => (hleaf x h0 h1).1, ?_⟩
    rintro x x' h0 hxx h1 ⟨j, hj1, hj2⟩
    simp only [pow_zero, div_one] at hj1 hj2
    rcases Nat.eq_zero_or_pos j with rfl | hj
    · have : x = 0 := by simp at hj1; linarith
      subst this
      rw [rel_zero kind _ hz _ _ hsu, cut_zero, sub_zero]
      exact ⟨(hleaf x' hxx h1).1, Perp.zero_left _⟩
    · have hj' : (1 : ℝ) ≤ j := by exact_mod_cast hj
      have : x' = su := by nlinarith
      subst this
      rw [rel_end kind _ hz _ _ hsu hpp]
      exact (hleaf x h0 hxx).2
  | succ n ih =>
    have hh := halves_proper kind (d.prng N) key su p
    obtain ⟨gL, gR, hLR⟩ := halves_good (d := d) hc hN kind key hsu hp hf
    have f2 := halves_fresh (d := d) hN kind key su hf 2 (by norm_num)
    have f0 := halves_fresh (d := d) hN kind key su hf 0 (by norm_num)
    have hperp := spans_perp hc hN (i := d.code 3 2) (j := d.code 3 0) (fun h => by
      have := d.code_inj 3 _ _ h
      omega) hLR f0.1 f2.2
    obtain ⟨iL1, iL2⟩ := ih (d.code 3 2 :: key) (su := su / 2) (by linarith) hh.1 gL f2.1
    obtain ⟨iR1, iR2⟩ := ih (d.code 3 0 :: key) (su := su / 2) (by linarith) hh.2 gR f0.2
    have eR : ∀ x, su / 2 < x → rel kind (d.prng N) (n + 1) key su p x =
        chen kind (su / 2) (halves kind (d.prng N) key su p).1 (x - su / 2)
          (rel kind (d.prng N) n (d.code 3 0 :: key) (su / 2) (halves kind (d.prng N) key su p).2 (x - su / 2)) := by
      intro x hx
      rw [rel, if_pos hx]
      rfl
    have eL : ∀ x, ¬ su / 2 < x → rel kind (d.prng N) (n + 1) key su p x =
        rel kind (d.prng N) n (d.code 3 2 :: key) (su / 2) (halves kind (d.prng N) key su p).1 x := by
      intro x hx
      rw [rel, if_neg hx]
      rfl
    have mR := fun x => rel_mem (d := d) (N := N) kind n (d.code 3 0 :: key) (su / 2) (halves kind (d.prng N) key su p).2 x
    have mL := fun x => rel_mem (d := d) (N := N) kind n (d.code 3 2 :: key) (su / 2) (halves kind (d.prng N) key su p).1 x
    constructor
    · intro x h0 h1
      by_cases hx : su / 2 < x
      · rw [eR x hx]
        have := Good.chen hc gL (iR1 (x - su / 2) (by linarith) (by linarith)) (Perp.of_mem hperp (mem_self _ _ _) (mR _))
        rwa [add_sub_cancel] at this
      · rw [eL x hx]
        exact iL1 x h0 (by linarith)
    · rintro x x' h0 hxx h1 ⟨j, hj1, hj2⟩
      have ej : (j : ℝ) * su / 2 ^ (n + 1) = j * (su / 2) / 2 ^ n := by field_simp; ring
      by_cases hx : su / 2 < x
      · have hx' : su / 2 < x' := by linarith
        have hj' : 2 ^ n ≤ j := by
          by_contra hcon
          have h3 : (j : ℝ) ≤ 2 ^ n := by exact_mod_cast (not_le.mp hcon).le
          have h2 : j * su / 2 ^ (n + 1) ≤ su / 2 := by
            rw [pow_succ, div_le_div_iff₀ (by positivity) (by norm_num)]
            nlinarith
          linarith
        have e2 : j * su / 2 ^ (n + 1) - su / 2 = ((j - 2 ^ n : ℕ) : ℝ) * (su / 2) / 2 ^ n := by
          rw [Nat.cast_sub hj']
          push_cast
          field_simp
          ring
        obtain ⟨a1, a2⟩ := iR2 (x - su / 2) (x' - su / 2) (by linarith) (by linarith) (by linarith)
          ⟨j - 2 ^ n, by rw [← e2]; linarith, by rw [← e2]; linarith⟩
        have hcut := cut_chen_chen kind (su / 2) (x - su / 2) (x' - su / 2) (halves kind (d.prng N) key su p).1
          (rel kind (d.prng N) n (d.code 3 0 :: key) (su / 2) (halves kind (d.prng N) key su p).2 (x - su / 2))
          (rel kind (d.prng N) n (d.code 3 0 :: key) (su / 2) (halves kind (d.prng N) key su p).2 (x' - su / 2))
        rw [add_sub_cancel, add_sub_cancel] at hcut
        rw [eR x hx, eR x' hx', hcut]
        refine ⟨by convert a1 using 1; ring, ?_⟩
        have hLD : Perp c (halves kind (d.prng N) key su p).1 (cut kind (x - su / 2)
            (rel kind (d.prng N) n (d.code 3 0 :: key) (su / 2) (halves kind (d.prng N) key su p).2 (x - su / 2)) (x' - su / 2)
            (rel kind (d.prng N) n (d.code 3 0 :: key) (su / 2) (halves kind (d.prng N) key su p).2 (x' - su / 2))) := by
          refine Perp.of_mem hperp (mem_self _ _ _) ?_
          obtain ⟨r1, r2, r3⟩ := mR (x - su / 2)
          obtain ⟨q1, q2, q3⟩ := mR (x' - su / 2)
          refine ⟨?_, ?_, ?_⟩ <;> simp only [cut] <;>
            repeat' first | assumption | apply Submodule.add_mem | apply Submodule.sub_mem | apply Submodule.smul_mem
        exact (Perp.chen (hLD.symm hc) (a2.symm hc)).symm hc
      · by_cases hx' : su / 2 < x'
        · rw [eL x hx, eR x' hx']
          obtain ⟨a1, a2⟩ := iL2 x (su / 2) h0 (by linarith) le_rfl ⟨2 ^ n, by
            push_cast; rw [mul_div_cancel_left₀ _ (by positivity)]; linarith, by
            push_cast; rw [mul_div_cancel_left₀ _ (by positivity)]⟩
          rw [rel_end kind _ hz _ _ (by linarith) hh.1] at a1 a2
          set rx := rel kind (d.prng N) n (d.code 3 2 :: key) (su / 2) (halves kind (d.prng N) key su p).1 x with hrx
          set ry := rel kind (d.prng N) n (d.code 3 0 :: key) (su / 2) (halves kind (d.prng N) key su p).2 (x' - su / 2) with hry
          have hD : cut kind x rx x' (chen kind (su / 2) (halves kind (d.prng N) key su p).1 (x' - su / 2) ry)
              = chen kind (su / 2 - x) (cut kind x rx (su / 2) (halves kind (d.prng N) key su p).1) (x' - su / 2) ry := by
            rw [← chen_cut_cut kind x (su / 2) x' rx (halves kind (d.prng N) key su p).1]
            congr 1
            have := cut_chen kind (su / 2) (x' - su / 2) (halves kind (d.prng N) key su p).1 ry
            rwa [add_sub_cancel] at this
          rw [hD]
          have hxy : Perp c rx ry := Perp.of_mem hperp (mL x) (mR _)
          refine ⟨?_, Perp.chen a2 hxy⟩
          have hcy : Perp c (cut kind x rx (su / 2) (halves kind (d.prng N) key su p).1) ry := by
            refine Perp.of_mem hperp ?_ (mR _)
            obtain ⟨r1, r2, r3⟩ := mL x
            obtain ⟨q1, q2, q3⟩ := mem_self N (d.code 3 2 :: key) (halves kind (d.prng N) key su p).1
            rw [← hrx] at r1 r2 r3
            refine ⟨?_, ?_, ?_⟩ <;> simp only [cut] <;>
              repeat' first | assumption | apply Submodule.add_mem | apply Submodule.sub_mem | apply Submodule.smul_mem
          have := Good.chen hc a1 (iR1 (x' - su / 2) (by linarith) (by linarith)) hcy
          convert this using 1
          ring
        · rw [eL x hx, eL x' hx']
          exact iL2 x x' h0 hxx (by linarith) ⟨j, by rw [← ej]; exact hj1, by rw [← ej]; exact hj2⟩

end moments
end
end Verif
