import Verif.Model.TimeTypes
import Verif.Model.Constant
import Mathlib.Algebra.Order.Ring.Rat
import Mathlib.Algebra.Order.Floor.Ring
import Mathlib.Data.Rat.Floor
import Mathlib.Tactic.Linarith
import Mathlib.Tactic.NormNum
import Mathlib.Tactic.Positivity

/-!
# The sign of `dt0` for time arguments of every type: C116
-/

namespace Verif

variable {K : Type} [Field K] [LinearOrder K] [IsStrictOrderedRing K]

/-- `z` is a value of the integer type. -/
def IntTy.Holds : IntTy → Int → Prop
  | .py, _ => True
  | .uint k, z => 0 ≤ z ∧ z < 2 ^ bitsOf k
  | .sint k, z => -2 ^ (bitsOf k - 1) ≤ z ∧ z < 2 ^ (bitsOf k - 1)

/-- `z` is a value of the type that two types are promoted to. -/
def JoinHolds (x64 : Bool) (s s' : IntTy) (z : Int) : Prop := ∀ r, s.join x64 s' = some r → r.Holds z

theorem bits_pos (k : Nat) : 0 < bitsOf k := by unfold bitsOf; positivity

theorem two_half (k : Nat) : (2 : Int) ^ bitsOf k = 2 ^ (bitsOf k - 1) + 2 ^ (bitsOf k - 1) := by
  have h : bitsOf k = (bitsOf k - 1) + 1 := by have := bits_pos k; omega
  conv_lhs => rw [h, pow_succ]
  ring

/-- Values of the type do not wrap around. -/
theorem wrap_of_holds {r : IntTy} {z : Int} (h : r.Holds z) : r.wrap z = z := by
  cases r with
  | py => rfl
  | uint k => exact Int.emod_eq_of_lt h.1 h.2
  | sint k =>
    have h2 := two_half k
    obtain ⟨ha, hb⟩ := h
    simp only [IntTy.wrap]
    rw [Int.emod_eq_of_lt (by linarith) (by linarith)]
    ring

/-- **C116**: what integer arrays store is a value of the type that differs from the exact result by a multiple of `2 ^ bits`. -/
theorem C116_wrap (z : Int) (k : Nat) :
    ((IntTy.uint k).Holds ((IntTy.uint k).wrap z) ∧ (2 : Int) ^ bitsOf k ∣ z - (IntTy.uint k).wrap z) ∧
    ((IntTy.sint k).Holds ((IntTy.sint k).wrap z) ∧ (2 : Int) ^ bitsOf k ∣ z - (IntTy.sint k).wrap z) := by
  have hp : (0 : Int) < 2 ^ bitsOf k := by positivity
  have h2 := two_half k
  simp only [IntTy.wrap, IntTy.Holds]
  have a1 := Int.emod_nonneg (z + 2 ^ (bitsOf k - 1)) hp.ne'
  have a2 := Int.emod_lt_of_pos (z + 2 ^ (bitsOf k - 1)) hp
  refine ⟨⟨⟨Int.emod_nonneg _ hp.ne', Int.emod_lt_of_pos _ hp⟩, Int.dvd_self_sub_emod⟩,
    ⟨⟨by linarith, by linarith⟩, ?_⟩⟩
  have h3 : (2 : Int) ^ bitsOf k ∣ (z + 2 ^ (bitsOf k - 1)) - (z + 2 ^ (bitsOf k - 1)) % 2 ^ bitsOf k := Int.dvd_self_sub_emod
  have e : z - ((z + 2 ^ (bitsOf k - 1)) % 2 ^ bitsOf k - 2 ^ (bitsOf k - 1)) =
      (z + 2 ^ (bitsOf k - 1)) - (z + 2 ^ (bitsOf k - 1)) % 2 ^ bitsOf k := by ring
  rw [e]
  exact h3

/-- The type of `t1 - t0`, if that is an integer. -/
def diffTy (x64 : Bool) : TimeArg K → TimeArg K → Option (IntTy × Int)
  | .int s a, .int s' b => (s.join x64 s').map (fun r => (r, a - b))
  | _, _ => none

/-- Nothing overflows: the type of `t1 - t0` holds the difference, and, if `dt0` is an integer as well, the type of
`(t1 - t0) * dt0` the product. -/
def NoOverflow (x64 : Bool) (t0 t1 dt0 : TimeArg K) : Prop :=
  ∀ r z, diffTy x64 t1 t0 = some (r, z) → r.Holds z ∧ ∀ s d, dt0 = .int s d → JoinHolds x64 r s (z * d)

omit [LinearOrder K] [IsStrictOrderedRing K] in
theorem sub_val (x64 : Bool) (a b : TimeArg K) (h : ∀ r z, diffTy x64 a b = some (r, z) → r.Holds z) :
    (a.sub x64 b).val = a.val - b.val := by
  cases a <;> cases b <;> try rfl
  rename_i s a s' b
  simp only [diffTy] at h
  cases hj : s.join x64 s' with
  | none => simp [TimeArg.sub, hj, TimeArg.val]
  | some r =>
    have := h r (a - b) (by rw [hj]; rfl)
    simp [TimeArg.sub, hj, TimeArg.val, wrap_of_holds this]

omit [LinearOrder K] [IsStrictOrderedRing K] in
theorem mul_val (x64 : Bool) (a b : TimeArg K)
    (h : ∀ s z s' z', a = .int s z → b = .int s' z' → JoinHolds x64 s s' (z * z')) :
    (a.mul x64 b).val = a.val * b.val := by
  cases a <;> cases b <;> try rfl
  rename_i s a s' b
  cases hj : s.join x64 s' with
  | none => simp [TimeArg.mul, hj, TimeArg.val]
  | some r =>
    have := h s a s' b rfl rfl r hj
    simp [TimeArg.mul, hj, TimeArg.val, wrap_of_holds this]

omit [IsStrictOrderedRing K] in
/-- **C116** (partial): if no integer overflows then an error is raised exactly if the sign of `dt0` is wrong. Missing: overflow,
see `C116_unsigned` and `C116_violated`. -/
theorem C116_sign_partial (x64 : Bool) (t0 t1 dt0 : TimeArg K) (h : NoOverflow x64 t0 t1 dt0) :
    dt0SignRaises x64 t0 t1 dt0 = true ↔ (t1.val - t0.val) * dt0.val < 0 := by
  have hs := sub_val x64 t1 t0 (fun r z hz => (h r z hz).1)
  have hm : ((t1.sub x64 t0).mul x64 dt0).val = (t1.sub x64 t0).val * dt0.val := by
    refine mul_val x64 _ _ ?_
    intro s z s' z' h1 h2
    cases t1 <;> cases t0 <;> simp only [TimeArg.sub] at h1 <;> try exact absurd h1 (by simp)
    rename_i a x b y
    cases hj : a.join x64 b with
    | none => rw [hj] at h1; exact absurd h1 (by simp)
    | some r =>
      rw [hj] at h1
      have hd : diffTy (K := K) x64 (.int a x) (.int b y) = some (r, x - y) := by simp [diffTy, hj]
      obtain ⟨e1, e2⟩ := h r _ hd
      simp only [TimeArg.int.injEq] at h1
      rw [wrap_of_holds e1] at h1
      obtain ⟨rfl, rfl⟩ := h1
      exact e2 s' z' h2
  rw [dt0SignRaises, decide_eq_true_iff, hm, hs]

omit [IsStrictOrderedRing K] in
/-- **C116** (partial): Python numbers and floating point arrays, in any mixture, never overflow. -/
theorem C116_python_partial (x64 : Bool) (t0 t1 dt0 : TimeArg K)
    (h0 : ∀ s z, t0 = .int s z → s = .py) (h1 : ∀ s z, t1 = .int s z → s = .py) (hd : ∀ s z, dt0 = .int s z → s = .py) :
    dt0SignRaises x64 t0 t1 dt0 = true ↔ (t1.val - t0.val) * dt0.val < 0 := by
  refine C116_sign_partial x64 t0 t1 dt0 ?_
  intro r z hz
  cases t1 <;> cases t0 <;> simp only [diffTy] at hz <;> try contradiction
  obtain rfl := h0 _ _ rfl
  obtain rfl := h1 _ _ rfl
  simp only [IntTy.join, IntTy.canon, Option.map_some, Option.some.injEq, Prod.mk.injEq] at hz
  obtain ⟨rfl, -⟩ := hz
  refine ⟨trivial, ?_⟩
  intro s d hsd r hr
  obtain rfl := hd _ _ hsd
  simp only [IntTy.join, IntTy.canon, Option.some.injEq] at hr
  subst hr
  trivial

/-- An array type that JAX has. -/
def IntTy.IsArray : IntTy → Prop
  | .py => False
  | .uint k => k ≤ 3
  | .sint k => k ≤ 3

theorem bits_mono {j k : Nat} (h : j ≤ k) : bitsOf j ≤ bitsOf k := by
  unfold bitsOf
  exact Nat.mul_le_mul_left _ (Nat.pow_le_pow_right (by norm_num) h)

theorem bits_lt {j k : Nat} (h : j < k) : bitsOf j < bitsOf k := by
  unfold bitsOf
  exact Nat.mul_lt_mul_of_pos_left (Nat.pow_lt_pow_right (by norm_num) h) (by norm_num)

/-- An integer type is contained in another. -/
def IntTy.Within (s r : IntTy) : Prop := ∀ z, s.Holds z → r.Holds z

theorem within_uint {j k : Nat} : (IntTy.uint j).Within (.uint k) ↔ j ≤ k := by
  constructor
  · intro h
    by_contra hjk
    have h1 := (h (2 ^ bitsOf k) ⟨by positivity, pow_lt_pow_right₀ (by norm_num) (bits_lt (not_le.1 hjk))⟩).2
    exact lt_irrefl _ h1
  · intro h z hz
    exact ⟨hz.1, hz.2.trans_le (pow_le_pow_right₀ (by norm_num) (bits_mono h))⟩

theorem within_sint {j k : Nat} : (IntTy.sint j).Within (.sint k) ↔ j ≤ k := by
  constructor
  · intro h
    by_contra hjk
    have hlt := bits_lt (not_le.1 hjk)
    have hp := bits_pos k
    have h1 := (h (2 ^ (bitsOf k - 1)) ⟨by have : (0 : Int) < 2 ^ (bitsOf k - 1) := by positivity
                                           have : (0 : Int) < 2 ^ (bitsOf j - 1) := by positivity
                                           linarith, pow_lt_pow_right₀ (by norm_num) (by omega)⟩).2
    exact lt_irrefl _ h1
  · intro h z hz
    have : (2 : Int) ^ (bitsOf j - 1) ≤ 2 ^ (bitsOf k - 1) :=
      pow_le_pow_right₀ (by norm_num) (Nat.sub_le_sub_right (bits_mono h) 1)
    exact ⟨by linarith [hz.1], hz.2.trans_le this⟩

theorem within_uint_sint {j k : Nat} : (IntTy.uint j).Within (.sint k) ↔ j < k := by
  constructor
  · intro h
    by_contra hjk
    have hle := bits_mono (not_lt.1 hjk)
    have hp := bits_pos k
    have h1 := (h (2 ^ (bitsOf k - 1)) ⟨by positivity, pow_lt_pow_right₀ (by norm_num) (by omega)⟩).2
    exact lt_irrefl _ h1
  · intro h z hz
    have hl := bits_lt h
    have : (2 : Int) ^ bitsOf j ≤ 2 ^ (bitsOf k - 1) := pow_le_pow_right₀ (by norm_num) (by omega)
    have h0 : (0 : Int) < 2 ^ (bitsOf k - 1) := by positivity
    exact ⟨by linarith [hz.1], hz.2.trans_le this⟩

theorem not_within_sint_uint {j k : Nat} : ¬ (IntTy.sint j).Within (.uint k) := by
  intro h
  have h0 : (0 : Int) < 2 ^ (bitsOf j - 1) := by positivity
  have := (h (-1) ⟨by linarith, by linarith⟩).1
  norm_num at this

theorem within_antisymm {r q : IntTy} (hr : r.IsArray) (hq : q.IsArray) (h : r.Within q) (h' : q.Within r) : r = q := by
  cases r <;> cases q <;> simp only [IntTy.IsArray] at hr hq <;>
    simp only [within_uint, within_sint, within_uint_sint, not_within_sint_uint] at h h'
  · rw [le_antisymm h h']
  · rw [le_antisymm h h']

/-- `r` is the smallest array type with the values of both `s` and `s'`. -/
def IsLeastTy (s s' r : IntTy) : Prop :=
  r.IsArray ∧ s.Within r ∧ s'.Within r ∧ ∀ q : IntTy, q.IsArray → s.Within q → s'.Within q → r.Within q

theorem join_least {s s' : IntTy} (hs : s.IsArray) (hs' : s'.IsArray) :
    (∀ r, s.join true s' = some r → IsLeastTy s s' r) ∧
    (s.join true s' = none → ¬ ∃ q : IntTy, q.IsArray ∧ s.Within q ∧ s'.Within q) := by
  cases s with
  | py => exact hs.elim
  | uint j =>
    cases s' with
    | py => exact hs'.elim
    | uint k =>
      simp only [IntTy.IsArray] at hs hs'
      refine ⟨?_, by simp [IntTy.join]⟩
      intro r hr
      simp only [IntTy.join, IntTy.canon, if_true, Option.some.injEq] at hr
      subst hr
      refine ⟨by simp only [IntTy.IsArray]; omega, within_uint.2 (le_max_left _ _), within_uint.2 (le_max_right _ _), ?_⟩
      intro q hq a1 a2
      cases q <;> simp only [within_uint, within_uint_sint, IntTy.IsArray] at hq a1 a2 ⊢ <;> omega
    | sint k =>
      simp only [IntTy.IsArray] at hs hs'
      constructor
      · intro r hr
        simp only [IntTy.join, IntTy.canon, if_true, and_true] at hr
        split at hr
        · exact absurd hr (by simp)
        · simp only [Option.some.injEq] at hr
          subst hr
          refine ⟨by simp only [IntTy.IsArray]; omega, within_uint_sint.2 (by omega), within_sint.2 (le_max_right _ _), ?_⟩
          intro q hq a1 a2
          cases q <;>
            simp only [within_uint, within_sint, within_uint_sint, not_within_sint_uint, IntTy.IsArray] at hq a1 a2 ⊢ <;> omega
      · intro hn
        simp only [IntTy.join, and_true] at hn
        split at hn
        · rintro ⟨q, hq, h1, h2⟩
          cases q <;>
            simp only [within_uint, within_sint, within_uint_sint, not_within_sint_uint, IntTy.IsArray] at hq h1 h2
          omega
        · exact absurd hn (by simp)
  | sint k =>
    cases s' with
    | py => exact hs'.elim
    | sint j =>
      simp only [IntTy.IsArray] at hs hs'
      refine ⟨?_, by simp [IntTy.join]⟩
      intro r hr
      simp only [IntTy.join, IntTy.canon, if_true, Option.some.injEq] at hr
      subst hr
      refine ⟨by simp only [IntTy.IsArray]; omega, within_sint.2 (le_max_left _ _), within_sint.2 (le_max_right _ _), ?_⟩
      intro q hq a1 a2
      cases q <;> simp only [within_sint, not_within_sint_uint, IntTy.IsArray] at hq a1 a2 ⊢ <;> omega
    | uint j =>
      simp only [IntTy.IsArray] at hs hs'
      constructor
      · intro r hr
        simp only [IntTy.join, IntTy.canon, if_true, and_true] at hr
        split at hr
        · exact absurd hr (by simp)
        · simp only [Option.some.injEq] at hr
          subst hr
          refine ⟨by simp only [IntTy.IsArray]; omega, within_sint.2 (le_max_right _ _), within_uint_sint.2 (by omega), ?_⟩
          intro q hq a1 a2
          cases q <;>
            simp only [within_uint, within_sint, within_uint_sint, not_within_sint_uint, IntTy.IsArray] at hq a1 a2 ⊢ <;> omega
      · intro hn
        simp only [IntTy.join, and_true] at hn
        split at hn
        · rintro ⟨q, hq, h1, h2⟩
          cases q <;>
            simp only [within_sint, within_uint_sint, not_within_sint_uint, IntTy.IsArray] at hq h1 h2
          omega
        · exact absurd hn (by simp)

/-- **C116**: the type that a mixture of two array types is promoted to (with `jax_enable_x64`) is the smallest one that has the
values of both; it is a floating point type exactly if there is no such array type. So the operands themselves never overflow. -/
theorem C116_promotion (s s' : IntTy) (hs : s.IsArray) (hs' : s'.IsArray) :
    (∀ r, s.join true s' = some r ↔ IsLeastTy s s' r) ∧
    (s.join true s' = none ↔ ¬ ∃ q : IntTy, q.IsArray ∧ s.Within q ∧ s'.Within q) := by
  obtain ⟨h1, h2⟩ := join_least hs hs'
  cases hj : s.join true s' with
  | none =>
    have hn := h2 hj
    exact ⟨fun r => ⟨fun h => absurd h (by simp), fun h => absurd ⟨r, h.1, h.2.1, h.2.2.1⟩ hn⟩, fun _ => hn, fun _ => rfl⟩
  | some r0 =>
    have hl := h1 r0 hj
    refine ⟨fun r => ⟨fun h => ?_, fun h => ?_⟩, fun h => absurd h (by simp), fun h => absurd ⟨r0, hl.1, hl.2.1, hl.2.2.1⟩ h⟩
    · obtain rfl := Option.some.inj h
      exact hl
    · rw [within_antisymm hl.1 h.1 (hl.2.2.2 r h.1 h.2.1 h.2.2.1) (h.2.2.2 r0 hl.1 hl.2.1 hl.2.2.1)]

/-- An array type of at most 32 bits. -/
def IntTy.Upto32 : IntTy → Prop
  | .py => False
  | .uint k => k ≤ 2
  | .sint k => k ≤ 2

/-- The sizes of arrays. -/
theorem bits_sizes : bitsOf 0 = 8 ∧ bitsOf 1 = 16 ∧ bitsOf 2 = 32 ∧ bitsOf 3 = 64 := ⟨rfl, rfl, rfl, rfl⟩

/-- **C116**: without `jax_enable_x64`, array types of at most 32 bits are promoted in the same way, except that a 64-bit result is
cut to 32 bits; the operands may then overflow. -/
theorem C116_promotion_32 (s s' : IntTy) (hs : s.Upto32) (hs' : s'.Upto32) :
    ∃ r, IsLeastTy s s' r ∧ (r.Upto32 → s.join false s' = some r) ∧
      (¬ r.Upto32 → r = .sint 3 ∧ s.join false s' = some (.sint 2)) := by
  have ha : s.IsArray := by cases s <;> simp only [IntTy.Upto32] at hs <;> simp only [IntTy.IsArray] <;> omega
  have ha' : s'.IsArray := by cases s' <;> simp only [IntTy.Upto32] at hs' <;> simp only [IntTy.IsArray] <;> omega
  have hp := (C116_promotion s s' ha ha').1
  have key : ∃ r, s.join true s' = some r ∧ (r.Upto32 → s.join false s' = some r) ∧
      (¬ r.Upto32 → r = .sint 3 ∧ s.join false s' = some (.sint 2)) := by
    cases s <;> cases s' <;> simp only [IntTy.Upto32] at hs hs' <;> rename_i j k
    · refine ⟨_, rfl, fun _ => ?_, fun h => absurd h ?_⟩
      · simp [IntTy.join, IntTy.canon, hs, hs']
      · simp only [IntTy.canon, if_true, IntTy.Upto32]; omega
    · refine ⟨.sint (max (j + 1) k), ?_, fun h => ?_, fun h => ?_⟩
      · simp [IntTy.join, IntTy.canon]; omega
      · simp only [IntTy.Upto32] at h
        simp [IntTy.join, IntTy.canon]; omega
      · simp only [IntTy.Upto32] at h
        simp [IntTy.join, IntTy.canon]; omega
    · refine ⟨.sint (max (k + 1) j), ?_, fun h => ?_, fun h => ?_⟩
      · simp [IntTy.join, IntTy.canon]; omega
      · simp only [IntTy.Upto32] at h
        simp [IntTy.join, IntTy.canon]; omega
      · simp only [IntTy.Upto32] at h
        simp [IntTy.join, IntTy.canon]; omega
    · refine ⟨_, rfl, fun _ => ?_, fun h => absurd h ?_⟩
      · simp [IntTy.join, IntTy.canon, hs, hs']
      · simp only [IntTy.canon, if_true, IntTy.Upto32]; omega
  obtain ⟨r, h1, h2⟩ := key
  exact ⟨r, (hp r).1 h1, h2⟩

/-- `uint32` with `int32`. -/
example : (IntTy.uint 2).Upto32 ∧ (IntTy.sint 2).Upto32 := by simp [IntTy.Upto32]

/-- A Python integer takes the type of the array it is combined with. -/
theorem C116_promotion_python (x64 : Bool) (s : IntTy) (hs : s.canon x64 = s) :
    IntTy.py.join x64 s = some s ∧ s.join x64 .py = some s := by
  cases s <;> simp_all [IntTy.join]

/-- `uint8` with `int8` is `int16`. -/
example : IsLeastTy (.uint 0) (.sint 0) (.sint 1) :=
  ((C116_promotion (.uint 0) (.sint 0) (by simp [IntTy.IsArray]) (by simp [IntTy.IsArray])).1 _).1 rfl

/-- There is no array type for `uint64` with `int8`. -/
example : ¬ ∃ q : IntTy, q.IsArray ∧ (IntTy.uint 3).Within q ∧ (IntTy.sint 0).Within q :=
  (C116_promotion (.uint 3) (.sint 0) (by simp [IntTy.IsArray]) (by simp [IntTy.IsArray])).2.1 rfl

/-- The type of unsigned arrays as JAX stores them. -/
def Stored (x64 : Bool) (k : Nat) : Prop := x64 = true ∨ k ≤ 2

theorem join_uint {x64 : Bool} {k : Nat} (h : Stored x64 k) : (IntTy.uint k).join x64 (.uint k) = some (.uint k) := by
  rcases h with rfl | h
  · simp [IntTy.join, IntTy.canon]
  · simp [IntTy.join, IntTy.canon, h]

/-- **C116**: for a solve backwards in time with unsigned times it is the other way round: every `dt0` of the right sign is refused,
and every one of the wrong sign is accepted. -/
theorem C116_unsigned (x64 : Bool) (k : Nat) (hk : Stored x64 k) (a b : Int) (ha : (IntTy.uint k).Holds a)
    (hb : (IntTy.uint k).Holds b) (hab : b < a) (d : K) :
    dt0SignRaises x64 (.int (.uint k) a) (.int (.uint k) b) (.real d) = true ↔ d < 0 := by
  obtain ⟨ha0, ha1⟩ := ha
  obtain ⟨hb0, hb1⟩ := hb
  have hw : (IntTy.uint k).wrap (b - a) = b - a + 2 ^ bitsOf k := by
    simp only [IntTy.wrap]
    rw [← Int.add_emod_right, Int.emod_eq_of_lt (by linarith) (by linarith)]
  have hpos : (0 : K) < ((b - a + 2 ^ bitsOf k : Int) : K) := by
    have : (0 : Int) < b - a + 2 ^ bitsOf k := by linarith
    exact_mod_cast this
  rw [dt0SignRaises, decide_eq_true_iff]
  simp only [TimeArg.sub, join_uint hk, hw, TimeArg.mul, TimeArg.val]
  constructor
  · intro h
    by_contra hd
    exact absurd h (not_lt.2 (mul_nonneg hpos.le (not_lt.1 hd)))
  · exact fun h => mul_neg_of_pos_of_neg hpos h

section
variable [FloorRing K]

/-- The end of the `n`-th step of `ConstantStepSize`, counted from 0, if every step runs to its proposed end. -/
def constEnds (first : K × ConstState K) : Nat → K × ConstState K
  | 0 => first
  | n + 1 =>
    let prev := constEnds first n
    let r := constAdapt prev.1 prev.2
    (r.tnext, r.state)

/-- **C116**: what such a solve does with `ConstantStepSize`. It is accepted, and every step ends before the start of the solve (in
the direction of integration), so that the solve never gets to `t1`: for all unsigned `t1 < t0` and all `0 < dt0 ≤ t0 - t1`. -/
theorem C116_never_ends (x64 : Bool) (k : Nat) (hk : Stored x64 k) (a b : Int) (ha : (IntTy.uint k).Holds a)
    (hb : (IntTy.uint k).Holds b) (hab : b < a) (d : K) (hd : 0 < d) (hda : d ≤ (a : K) - b) (up : K → K)
    (hup : -d ≤ up (-d)) (hup0 : up (-d) < 0) :
    let t0 : TimeArg K := .int (.uint k) a
    let t1 : TimeArg K := .int (.uint k) b
    dt0SignRaises x64 t0 t1 (.real d) = false ∧
    ∃ first, constInit up (normTimes t0 t1 (.real d)).1 (some (normTimes t0 t1 (.real d)).2.1)
        (some (normTimes t0 t1 (.real d)).2.2) = some first ∧
      ∀ n, (constEnds first n).1 < (normTimes t0 t1 (.real d)).1 ∧
        (normTimes t0 t1 (.real d)).1 < (normTimes t0 t1 (.real d)).2.1 := by
  intro t0 t1
  have hab' : (b : K) < a := by exact_mod_cast hab
  have hb0 : (0 : K) ≤ b := by exact_mod_cast hb.1
  have hn : normTimes t0 t1 (.real d) = (-(a : K), -(b : K), -d) := by
    simp [normTimes, t0, t1, TimeArg.val, not_lt.2 hab'.le]
  constructor
  · rw [← Bool.not_eq_true]
    rw [C116_unsigned x64 k hk a b ha hb hab d]
    exact not_lt.2 hd.le
  rw [hn]
  refine ⟨_, rfl, ?_⟩
  simp only
  have hneg : ⌈(-(b : K) - -(a : K)) / up (-d)⌉ < 0 := by
    have : (-(b : K) - -(a : K)) / up (-d) ≤ -1 := by
      rw [div_le_iff_of_neg hup0]
      linarith
    have h2 : ⌈(-(b : K) - -(a : K)) / up (-d)⌉ ≤ -1 := by
      rw [Int.ceil_le]
      push_cast
      exact this
    omega
  set first : K × ConstState K := (-(a : K) + -d,
    { completed := 1, numSteps := ⌈(-(b : K) - -(a : K)) / up (-d)⌉, t0 := -(a : K), t1OrDt0 := -(b : K) }) with hf
  have inv : ∀ n, (constEnds first n).1 < -(a : K) ∧ (constEnds first n).2.numSteps < 0 ∧
      (constEnds first n).2.t1OrDt0 = -(b : K) := by
    intro n
    induction n with
    | zero => exact ⟨by simp only [constEnds, hf]; linarith, hneg, rfl⟩
    | succ n ih =>
      obtain ⟨h1, h2, h3⟩ := ih
      refine ⟨?_, h2, h3⟩
      simp only [constEnds, constAdapt, ge_iff_le, if_neg (not_le.2 h2), h3]
      linarith
  intro n
  exact ⟨(inv n).1, by linarith⟩
end

/-- **C116** is violated: for every size of unsigned arrays there is a backward solve whose `dt0` has the wrong sign and is
accepted, and one whose `dt0` has the right sign and is refused; and for every size of signed arrays there is a forward solve whose
`dt0` has the right sign and is refused. -/
theorem C116_violated (x64 : Bool) (k : Nat) (hk : Stored x64 k) :
    (∃ a b : Int, ∃ d : K, (IntTy.uint k).Holds a ∧ (IntTy.uint k).Holds b ∧ ((b : K) - a) * d < 0 ∧
      dt0SignRaises x64 (.int (.uint k) a) (.int (.uint k) b) (.real d) = false) ∧
    (∃ a b : Int, ∃ d : K, (IntTy.uint k).Holds a ∧ (IntTy.uint k).Holds b ∧ 0 < ((b : K) - a) * d ∧
      dt0SignRaises x64 (.int (.uint k) a) (.int (.uint k) b) (.real d) = true) ∧
    (∃ a b : Int, ∃ d : K, (IntTy.sint k).Holds a ∧ (IntTy.sint k).Holds b ∧ 0 < ((b : K) - a) * d ∧
      dt0SignRaises x64 (.int (.sint k) a) (.int (.sint k) b) (.real d) = true) := by
  have h1 : (1 : Int) < 2 ^ bitsOf k := one_lt_pow₀ (by norm_num) (bits_pos k).ne'
  have hu1 : (IntTy.uint k).Holds 1 := ⟨by norm_num, h1⟩
  have hu0 : (IntTy.uint k).Holds 0 := ⟨le_refl _, by linarith⟩
  refine ⟨⟨1, 0, 1, hu1, hu0, by norm_num, ?_⟩, ⟨1, 0, -1, hu1, hu0, by norm_num, ?_⟩, ?_⟩
  · rw [← Bool.not_eq_true, C116_unsigned x64 k hk 1 0 hu1 hu0 (by norm_num)]
    exact not_lt.2 zero_le_one
  · rw [C116_unsigned x64 k hk 1 0 hu1 hu0 (by norm_num)]
    norm_num
  · have h2 := two_half k
    have hh : (1 : Int) < 2 ^ (bitsOf k - 1) := by
      refine one_lt_pow₀ (by norm_num) ?_
      have : 8 ≤ bitsOf k := by unfold bitsOf; have := Nat.one_le_two_pow (n := k); omega
      omega
    have hj : (IntTy.sint k).join x64 (.sint k) = some (.sint k) := by
      rcases hk with rfl | h
      · simp [IntTy.join, IntTy.canon]
      · simp [IntTy.join, IntTy.canon, h]
    -- `t0 = -1` and `t1` the largest value
    refine ⟨-1, 2 ^ (bitsOf k - 1) - 1, 1, ⟨by linarith, by linarith⟩, ⟨by linarith, by linarith⟩, ?_, ?_⟩
    · have : (0 : Int) < (2 ^ (bitsOf k - 1) - 1 - -1) * 1 := by linarith
      exact_mod_cast this
    · have hw : (IntTy.sint k).wrap (2 ^ (bitsOf k - 1) - 1 - -1) = -2 ^ (bitsOf k - 1) := by
        simp only [IntTy.wrap]
        have : (2 : Int) ^ (bitsOf k - 1) - 1 - -1 + 2 ^ (bitsOf k - 1) = 2 ^ bitsOf k := by rw [h2]; ring
        rw [this, Int.emod_self]
        ring
      rw [dt0SignRaises, decide_eq_true_iff]
      simp only [TimeArg.sub, hj, hw, TimeArg.mul, TimeArg.val, mul_one]
      have : (-2 ^ (bitsOf k - 1) : Int) < 0 := by linarith
      exact_mod_cast this

/-- `t0 = 5`, `t1 = 3` as Python integers and as 8-bit arrays: `NoOverflow` for signed ones. -/
example : NoOverflow (K := ℚ) true (.int (.sint 0) 5) (.int (.sint 0) 3) (.real (-1 / 10)) := by
  intro r z h
  simp only [diffTy, IntTy.join, IntTy.canon, max_self, if_true, Option.map_some, Option.some.injEq, Prod.mk.injEq] at h
  obtain ⟨rfl, rfl⟩ := h
  refine ⟨?_, fun s d h => by simp at h⟩
  simp [IntTy.Holds, bitsOf]

/-- `C116_never_ends` at `t0 = 5`, `t1 = 3` as unsigned 32-bit arrays and `dt0 = 0.1`. -/
example : dt0SignRaises (K := ℚ) false (.int (.uint 2) 5) (.int (.uint 2) 3) (.real (1 / 10)) = false :=
  (C116_never_ends (K := ℚ) false 2 (.inr (le_refl _)) 5 3 (by simp [IntTy.Holds, bitsOf]) (by simp [IntTy.Holds, bitsOf])
    (by norm_num) (1 / 10) (by norm_num) (by norm_num) id (le_refl _) (by norm_num)).1

end Verif
