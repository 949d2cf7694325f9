import Verif.Props.Dense
import Mathlib.Tactic.Module
import Mathlib.Tactic.Abel
import Mathlib.Tactic.FieldSimp
import Mathlib.Tactic.Ring
import Mathlib.Tactic.Linarith
import Mathlib.Data.Rat.Defs
import Mathlib.Algebra.Order.Field.Rat
import Mathlib.Tactic.NormNum

/-!
# Property C34: `LinearInterpolation`
-/

set_option linter.unusedSectionVars false

namespace Verif

section
variable {T : Type} [LinearOrder T]

/-- The segment index for a query in a known segment: the segment itself, or the neighbour sharing the
query as a knot. -/
theorem segIndex_cases (ts : List T) (hs : ts.Pairwise (· < ·)) (i : Nat) (a b t : T)
    (ha : ts[i]? = some a) (hb : ts[i + 1]? = some b) (hat : a ≤ t) (htb : t ≤ b) (left : Bool) :
    segIndex (ts.map some) ts.length t left = i ∨
    (left = true ∧ t = a ∧ segIndex (ts.map some) ts.length t left + 1 = i) ∨
    (left = false ∧ t = b ∧ segIndex (ts.map some) ts.length t left = i + 1 ∧ i + 2 < ts.length) := by
  obtain ⟨hi, ha'⟩ := List.getElem?_eq_some_iff.1 ha
  obtain ⟨hi1, hb'⟩ := List.getElem?_eq_some_iff.1 hb
  have h33 := C33_segment ts 0 (by omega) hs t left
  simp only [List.replicate_zero, List.append_nil] at h33
  obtain ⟨j, hj⟩ : ∃ j, j = segIndex (ts.map some) ts.length t left := ⟨_, rfl⟩
  rw [← hj] at h33 ⊢
  obtain ⟨x, y, first, last, hx, hy, hf, hl, hxy, l1, l2, l3, r1, r2, r3⟩ := h33
  obtain ⟨hjl, hx'⟩ := List.getElem?_eq_some_iff.1 hx
  obtain ⟨hjl1, hy'⟩ := List.getElem?_eq_some_iff.1 hy
  have hmono : ∀ (p q : Nat) (hp : p < ts.length) (hq : q < ts.length), ts[p] < ts[q] → p < q := by
    intro p q hp hq h
    by_contra hc
    rcases Nat.lt_or_eq_of_le (Nat.le_of_not_lt hc) with h' | h'
    · exact absurd (List.pairwise_iff_getElem.1 hs q p hq hp h') (not_lt.2 h.le)
    · subst h'; exact lt_irrefl _ h
  have hmono' : ∀ (p q : Nat) (hp : p < ts.length) (hq : q < ts.length), ts[p] ≤ ts[q] → p ≤ q := by
    intro p q hp hq h
    by_contra hc
    exact absurd (List.pairwise_iff_getElem.1 hs q p hq hp (Nat.lt_of_not_le hc)) (not_lt.2 h)
  have hf' : first = ts[0]'(by omega) := by
    rw [List.head?_eq_getElem?, List.getElem?_eq_getElem (by omega)] at hf
    exact (Option.some.inj hf).symm
  have hl' : last = ts[ts.length - 1]'(by omega) := by
    rw [List.getLast?_eq_getElem?, List.getElem?_eq_getElem (by omega)] at hl
    exact (Option.some.inj hl).symm
  have hle : ∀ (p q : Nat) (hp : p < ts.length) (hq : q < ts.length), p ≤ q → ts[p] ≤ ts[q] := by
    intro p q hp hq hpq
    rcases Nat.lt_or_eq_of_le hpq with h | h
    · exact (List.pairwise_iff_getElem.1 hs p q hp hq h).le
    · subst h; exact le_refl _
  have hfa : first ≤ a := by rw [hf', ← ha']; exact hle _ _ _ _ (by omega)
  have hbl : b ≤ last := by rw [hl', ← hb']; exact hle _ _ _ _ (by omega)
  cases left with
  | true =>
    rcases eq_or_lt_of_le hat with h | h
    · rcases eq_or_lt_of_le hfa with h0 | h0
      · -- first knot
        have hj0 := l2 rfl (by rw [h0, h])
        have hi0 : i = 0 := by
          have := hmono' i 0 hi (by omega) (by rw [ha', ← hf', h0])
          omega
        left; omega
      · right; left
        refine ⟨rfl, h.symm, ?_⟩
        have hin := l1 rfl (h0.trans_le hat) (htb.trans hbl)
        have c1 : j < i := hmono j i hjl hi (by rw [hx', ha', h]; exact hin.1)
        have c2 : i ≤ j + 1 := hmono' i (j + 1) hi hjl1 (by rw [hy', ha', h]; exact hin.2)
        omega
    · left
      have hin := l1 rfl (hfa.trans_lt h) (htb.trans hbl)
      have c1 : j < i + 1 := hmono j (i + 1) hjl hi1 (by rw [hx', hb']; exact hin.1.trans_le htb)
      have c2 : i < j + 1 := hmono i (j + 1) hi hjl1 (by rw [hy', ha']; exact h.trans_le hin.2)
      omega
  | false =>
    rcases eq_or_lt_of_le htb with h | h
    · rcases eq_or_lt_of_le hbl with h0 | h0
      · have hj0 := r3 rfl (by rw [← h0, h])
        have : ts.length - 1 ≤ i + 1 := hmono' _ _ (by omega) hi1 (by rw [hb', ← hl', h0])
        left; omega
      · right; right
        have hin := r1 rfl (hfa.trans hat) (h ▸ h0)
        have c1 : j ≤ i + 1 := hmono' j (i + 1) hjl hi1 (by rw [hx', hb', ← h]; exact hin.1)
        have c2 : i + 1 < j + 1 := hmono (i + 1) (j + 1) hi1 hjl1 (by rw [hy', hb', ← h]; exact hin.2)
        exact ⟨rfl, h, by omega, by omega⟩
    · left
      have hin := r1 rfl (hfa.trans hat) (h.trans_le hbl)
      have c1 : j < i + 1 := hmono j (i + 1) hjl hi1 (by rw [hx', hb']; exact hin.1.trans_lt h)
      have c2 : i < j + 1 := hmono i (j + 1) hi hjl1 (by rw [hy', ha']; exact hat.trans_lt hin.2)
      omega

end

variable {K V : Type} [Field K] [LinearOrder K] [IsStrictOrderedRing K] [AddCommGroup V] [Module K V]

theorem getD_of_get? {α : Type} {l : List α} {i : Nat} {a : α} (d : α) (h : l[i]? = some a) :
    l.getD i d = a := by
  rw [List.getD_eq_getElem?_getD, h]; rfl

theorem LinearInterp.evaluate_of_index (p : LinearInterp K V) (t : K) (left : Bool) (j : Nat)
    (a b : K) (ya yb : V) (hj : segIndex (p.ts.map some) p.ts.length t left = j)
    (ha : p.ts[j]? = some a) (hb : p.ts[j + 1]? = some b)
    (hya : p.ys[j]? = some ya) (hyb : p.ys[j + 1]? = some yb) :
    p.evaluate t left = ya + ((t - a) / (b - a)) • (yb - ya) ∧
    p.derivative t left = (b - a)⁻¹ • (yb - ya) := by
  unfold LinearInterp.evaluate LinearInterp.derivative interpretT
  simp only [hj, getD_of_get? _ ha, getD_of_get? _ hb, getD_of_get? _ hya, getD_of_get? _ hyb]
  exact ⟨trivial, trivial⟩

/-- On every closed segment `LinearInterpolation.evaluate` is the affine function through the end
points (so in particular it passes through every data point, from both sides); `derivative` is its
slope, on the half-open segment selected by `left`; increments are differences, so they add up. -/
theorem C34_linear (p : LinearInterp K V) (hs : p.ts.Pairwise (· < ·))
    (hlen : p.ts.length = p.ys.length) (left : Bool) :
    (∀ (i : Nat) a b ya yb, p.ts[i]? = some a → p.ts[i + 1]? = some b → p.ys[i]? = some ya →
      p.ys[i + 1]? = some yb → ∀ t, a ≤ t → t ≤ b →
        p.evaluate t left = ya + ((t - a) / (b - a)) • (yb - ya) ∧
        ((left = true → a < t) → (left = false → t < b) →
          p.derivative t left = (b - a)⁻¹ • (yb - ya))) ∧
    (∀ a b, p.increment a b left = p.evaluate b left - p.evaluate a left) ∧
    (∀ a b c, p.increment a b left + p.increment b c left = p.increment a c left) := by
  refine ⟨?_, fun a b => rfl, fun a b c => ?_⟩
  · intro i a b ya yb ha hb hya hyb t hat htb
    have hab : a < b := by
      obtain ⟨hi, ha'⟩ := List.getElem?_eq_some_iff.1 ha
      obtain ⟨hi1, hb'⟩ := List.getElem?_eq_some_iff.1 hb
      rw [← ha', ← hb']; exact List.pairwise_iff_getElem.1 hs _ _ _ _ (by omega)
    rcases segIndex_cases p.ts hs i a b t ha hb hat htb left with h | ⟨h1, h2, h3⟩ | ⟨h1, h2, h3, h4⟩
    · have := p.evaluate_of_index t left i a b ya yb h ha hb hya hyb
      exact ⟨this.1, fun _ _ => this.2⟩
    · subst h3
      obtain ⟨hi, ha'⟩ := List.getElem?_eq_some_iff.1 ha
      obtain ⟨x, hx⟩ : ∃ x, p.ts[segIndex (p.ts.map some) p.ts.length t left]? = some x :=
        ⟨_, List.getElem?_eq_getElem (by omega)⟩
      obtain ⟨yx, hyx⟩ : ∃ x, p.ys[segIndex (p.ts.map some) p.ts.length t left]? = some x :=
        ⟨_, List.getElem?_eq_getElem (by omega)⟩
      have := p.evaluate_of_index t left _ x a yx ya rfl hx ha hyx hya
      refine ⟨?_, fun hc => absurd (hc h1) (by rw [h2]; exact lt_irrefl _)⟩
      have hxa : x < a := by
        obtain ⟨hi', hx'⟩ := List.getElem?_eq_some_iff.1 hx
        rw [← ha', ← hx']; exact List.pairwise_iff_getElem.1 hs _ _ _ _ (by omega)
      rw [this.1, h2, sub_self, zero_div, zero_smul, add_zero, div_self (sub_ne_zero.2 hxa.ne'), one_smul]
      abel
    · obtain ⟨x, hx⟩ : ∃ x, p.ts[i + 1 + 1]? = some x := ⟨_, List.getElem?_eq_getElem (by omega)⟩
      obtain ⟨yx, hyx⟩ : ∃ x, p.ys[i + 1 + 1]? = some x := ⟨_, List.getElem?_eq_getElem (by omega)⟩
      have := p.evaluate_of_index t left (i + 1) b x yb yx h3 hb hx hyb hyx
      refine ⟨?_, fun _ hc => absurd (hc h1) (by rw [h2]; exact lt_irrefl _)⟩
      rw [this.1, h2, sub_self, zero_div, zero_smul, add_zero, div_self (sub_ne_zero.2 hab.ne'), one_smul]
      abel
  · unfold LinearInterp.increment; abel

/-- It passes through every data point. -/
theorem C34_knots (p : LinearInterp K V) (hs : p.ts.Pairwise (· < ·)) (h2 : 2 ≤ p.ts.length)
    (hlen : p.ts.length = p.ys.length) (left : Bool) (i : Nat) (t : K) (y : V)
    (ht : p.ts[i]? = some t) (hy : p.ys[i]? = some y) : p.evaluate t left = y := by
  obtain ⟨hi, ht'⟩ := List.getElem?_eq_some_iff.1 ht
  obtain ⟨hiy, hy'⟩ := List.getElem?_eq_some_iff.1 hy
  by_cases hn : i + 1 < p.ts.length
  · have hb := List.getElem?_eq_getElem hn
    have hyb := List.getElem?_eq_getElem (l := p.ys) (i := i + 1) (by omega)
    have hlt : t ≤ p.ts[i + 1] := by
      rw [← ht']; exact (List.pairwise_iff_getElem.1 hs _ _ _ _ (by omega)).le
    rw [((C34_linear p hs hlen left).1 i t _ y _ ht hb hy hyb t le_rfl hlt).1, sub_self, zero_div,
      zero_smul, add_zero]
  · obtain ⟨j, rfl⟩ : ∃ j, i = j + 1 := ⟨i - 1, by omega⟩
    have ha := List.getElem?_eq_getElem (l := p.ts) (i := j) (by omega)
    have hya := List.getElem?_eq_getElem (l := p.ys) (i := j) (by omega)
    have hlt : p.ts[j] < t := by
      rw [← ht']; exact (List.pairwise_iff_getElem.1 hs _ _ _ _ (by omega))
    rw [((C34_linear p hs hlen left).1 j _ t _ y ha ht hya hy t hlt.le le_rfl).1,
      div_self (sub_ne_zero.2 hlt.ne'), one_smul]
    abel

example : let p : LinearInterp ℚ ℚ := ⟨[0, 1, 3], [0, 2, 6]⟩
    p.ts.Pairwise (· < ·) ∧ p.evaluate 2 true = 4 ∧ p.evaluate 1 true = 2 ∧ p.evaluate 1 false = 2 ∧
      p.derivative 2 true = 2 := by
  refine ⟨by decide +kernel, by decide +kernel, by decide +kernel, by decide +kernel, by decide +kernel⟩

end Verif
