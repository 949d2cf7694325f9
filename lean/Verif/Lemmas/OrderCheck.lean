import Verif.Spec.Order
import Mathlib.Algebra.Field.Rat
import Mathlib.Algebra.Order.Ring.Rat
import Mathlib.Algebra.Order.Ring.Abs
import Mathlib.Algebra.Order.BigOperators.Group.Finset
import Mathlib.Algebra.Order.BigOperators.Ring.Finset
import Mathlib.Data.List.GetD
import Mathlib.Data.Real.Basic
import Mathlib.Data.Rat.Cast.CharZero
import Mathlib.Algebra.BigOperators.Field
import Mathlib.Tactic.Linarith
import Mathlib.Tactic.GCongr

/-!
# Computing the coefficients of all trees up to some order

The vectors of stage coefficients of all trees, up to the order of their branches, are enumerated; this
turns the (infinitely many) order conditions into finitely many comparisons of rational numbers. Trees
whose coefficients are within `η` of each other are treated together, keeping track of the error.
-/

set_option linter.unusedSectionVars false

namespace Verif
open Finset

/-- `sum_l x_l y_l`. -/
def ldot : List ℚ → List ℚ → ℚ
  | x :: xs, y :: ys => x * y + ldot xs ys
  | _, _ => 0

def qabs (x : ℚ) : ℚ := if x < 0 then -x else x

/-- A list of stage coefficients, bounds for their errors, and the exact coefficient. -/
structure Entry where
  vals : List ℚ
  errs : List ℚ
  exact : ℚ

namespace Entry

/-- Both trees have the same exact coefficient and nearly the same stage coefficients. -/
def close (η : ℚ) (x y : Entry) : Bool :=
  decide (x.exact = y.exact)
    && (List.zipWith (fun a b => decide (qabs (a - b) ≤ η)) x.vals y.vals).all id

/-- Let `y` stand for `x` as well. -/
def absorb (y x : Entry) : Entry where
  vals := y.vals
  errs := List.zipWith (fun (a b : ℚ) => if a ≤ b then b else a) y.errs
    (List.zipWith (fun e d => e + d) x.errs (List.zipWith (fun a b => qabs (a - b)) x.vals y.vals))
  exact := y.exact

def mul (x y : Entry) : Entry where
  vals := List.zipWith (· * ·) x.vals y.vals
  errs := List.zipWith (· + ·)
    (List.zipWith (fun a e => qabs a * e) x.vals y.errs)
    (List.zipWith (· * ·) x.errs (List.zipWith (fun a e => qabs a + e) y.vals y.errs))
  exact := x.exact * y.exact

def insert (η : ℚ) (x : Entry) : List Entry → List Entry
  | [] => [x]
  | y :: ys => if close η x y then y.absorb x :: ys else y :: insert η x ys

end Entry

/-- Remove (near) duplicates. -/
def entryDedup (η : ℚ) (l : List Entry) : List Entry := l.foldr (Entry.insert η) []

/-- An additive method: for each part whether it is constant, and its matrix. -/
abbrev Parts := List (Bool × List (List ℚ))

/-- The trees with `n + 1` nodes that have the given branches. -/
def childrenOf (parts : Parts) (n : ℕ) (fs : List Entry) : List Entry :=
  parts.flatMap fun P =>
    if P.1 && n != 0 then [] else fs.map fun f =>
      { vals := P.2.map fun row => ldot row f.vals
        errs := P.2.map fun row => ldot (row.map qabs) f.errs
        exact := f.exact / (n + 1) }

/-- All products of a tree with `j` nodes and a forest with `n - j` nodes. -/
def forestOf (η : ℚ) (cs fs : List (List Entry)) : List Entry :=
  entryDedup η ((List.zip cs fs).flatMap fun cf => cf.1.flatMap fun x => cf.2.map fun y => x.mul y)

/-- `([trees with 1 node, ..., n nodes], [forests with n nodes, ..., 0 nodes])` -/
def tables (s : ℕ) (η : ℚ) (parts : Parts) : ℕ → List (List Entry) × List (List Entry)
  | 0 => ([], [[{ vals := List.replicate s 1, errs := List.replicate s 0, exact := 1 }]])
  | n + 1 =>
    let t := tables s η parts n
    let cs := t.1 ++ [entryDedup η (childrenOf parts n (t.2.headD []))]
    (cs, forestOf η cs t.2 :: t.2)

/-- All trees with at most `n` nodes have coefficients within `ε` of what they should be (`exact` times
`q`), where `bs` are the final weights of each part. -/
def checkOrder (s : ℕ) (η : ℚ) (parts : Parts) (bs : List (Bool × List ℚ)) (q ε : ℚ) (n : ℕ) : Bool :=
  ((tables s η parts n).2.tail.zip ((List.range n).reverse)).all fun fk =>
    bs.all fun b => (b.1 && fk.2 != 0) || fk.1.all fun f =>
      decide (qabs (ldot b.2 f.vals - q * (f.exact / (fk.2 + 1))) + ldot (b.2.map qabs) f.errs ≤ ε)

/-! ### Soundness -/

theorem qabs_eq (x : ℚ) : qabs x = |x| := by
  unfold qabs
  split
  · rw [abs_of_neg (by assumption)]
  · rw [abs_of_nonneg (by linarith)]

theorem ldot_eq (row l : List ℚ) (s : ℕ) (h : l.length = s) :
    ldot row l = ∑ i ∈ range s, row.getD i 0 * l.getD i 0 := by
  induction s generalizing row l with
  | zero => cases row <;> cases l <;> simp_all [ldot]
  | succ s ih =>
    cases l with
    | nil => simp at h
    | cons y ys =>
      rw [sum_range_succ']
      cases row with
      | nil => simp [ldot]
      | cons x xs =>
        simp only [ldot]
        rw [ih xs ys (by simpa using h)]
        simp [add_comm]

theorem getD_zipWith (g : ℚ → ℚ → ℚ) (a b : List ℚ) (s j : ℕ) (ha : a.length = s) (hb : b.length = s)
    (hj : j < s) : (List.zipWith g a b).getD j 0 = g (a.getD j 0) (b.getD j 0) := by
  rw [List.getD_eq_getElem (hn := by simp; omega), List.getElem_zipWith,
    List.getD_eq_getElem (hn := by omega), List.getD_eq_getElem (hn := by omega)]

/-- The entry is about the stage coefficients `v` and the exact coefficient `ex`. -/
structure Entry.Covers (s : ℕ) (v : ℕ → ℚ) (ex : ℚ) (e : Entry) : Prop where
  exact : e.exact = ex
  vals : e.vals.length = s
  errs : e.errs.length = s
  bound : ∀ j < s, |v j - e.vals.getD j 0| ≤ e.errs.getD j 0

theorem Entry.absorb_left {s : ℕ} {v : ℕ → ℚ} {ex : ℚ} {x y : Entry} (hy : y.Covers s v ex)
    (hx : x.vals.length = s) (hx' : x.errs.length = s) : (y.absorb x).Covers s v ex := by
  refine ⟨hy.exact, hy.vals, by simp [absorb, hy.errs, hx, hx', hy.vals], ?_⟩
  intro j hj
  have h1 := hy.bound j hj
  show _ ≤ (List.zipWith _ _ _).getD j 0
  rw [getD_zipWith _ _ _ s j hy.errs (by simp [hx, hx', hy.vals]) hj]
  refine h1.trans ?_
  split <;> linarith

theorem Entry.absorb_right {s : ℕ} {v : ℕ → ℚ} {ex : ℚ} {x y : Entry} (hx : x.Covers s v ex)
    (hy : y.vals.length = s) (hy' : y.errs.length = s) (he : x.exact = y.exact) :
    (y.absorb x).Covers s v ex := by
  refine ⟨he ▸ hx.exact, hy, by simp [absorb, hy, hy', hx.vals, hx.errs], ?_⟩
  intro j hj
  have h1 := hx.bound j hj
  show _ ≤ (List.zipWith _ _ _).getD j 0
  rw [getD_zipWith _ _ _ s j hy' (by simp [hx.vals, hx.errs, hy]) hj,
    getD_zipWith _ _ _ s j hx.errs (by simp [hx.vals, hy]) hj, getD_zipWith _ _ _ s j hx.vals hy hj, qabs_eq]
  have h2 : |v j - (y.absorb x).vals.getD j 0| ≤ x.errs.getD j 0 + |x.vals.getD j 0 - y.vals.getD j 0| := by
    have e : v j - (y.absorb x).vals.getD j 0
        = (v j - x.vals.getD j 0) + (x.vals.getD j 0 - y.vals.getD j 0) := by
      simp [absorb]
    rw [e]
    exact (abs_add_le _ _).trans (by linarith)
  refine h2.trans ?_
  split <;> linarith

/-- All lists have the right length. -/
def Entry.Sized (s : ℕ) (e : Entry) : Prop := e.vals.length = s ∧ e.errs.length = s

theorem Entry.Covers.sized {s : ℕ} {v : ℕ → ℚ} {ex : ℚ} {e : Entry} (h : e.Covers s v ex) : e.Sized s :=
  ⟨h.vals, h.errs⟩

theorem insert_sized {s : ℕ} {η : ℚ} (x : Entry) (hx : x.Sized s) (l : List Entry)
    (hl : ∀ y ∈ l, y.Sized s) : ∀ y ∈ Entry.insert η x l, y.Sized s := by
  induction l with
  | nil => simpa [Entry.insert] using hx
  | cons y ys ih =>
    intro z hz
    simp only [Entry.insert] at hz
    have hy := hl y (by simp)
    split at hz
    · rcases List.mem_cons.1 hz with rfl | hz
      · exact ⟨hy.1, by simp [Entry.absorb, hy.1, hy.2, hx.1, hx.2]⟩
      · exact hl z (by simp [hz])
    · rcases List.mem_cons.1 hz with rfl | hz
      · exact hy
      · exact ih (fun w hw => hl w (by simp [hw])) z hz

theorem dedup_sized {s : ℕ} {η : ℚ} (l : List Entry) (hl : ∀ y ∈ l, y.Sized s) :
    ∀ y ∈ entryDedup η l, y.Sized s := by
  induction l with
  | nil => simp [entryDedup]
  | cons x xs ih =>
    exact insert_sized x (hl x (by simp)) _ (ih (fun y hy => hl y (by simp [hy])))

theorem insert_new {s : ℕ} {η : ℚ} {v : ℕ → ℚ} {ex : ℚ} (x : Entry) (hx : x.Covers s v ex)
    (l : List Entry) (hl : ∀ y ∈ l, y.Sized s) : ∃ y ∈ Entry.insert η x l, y.Covers s v ex := by
  induction l with
  | nil => exact ⟨x, by simp [Entry.insert], hx⟩
  | cons y ys ih =>
    have hy := hl y (by simp)
    simp only [Entry.insert]
    split
    · rename_i hc
      refine ⟨_, List.mem_cons_self, Entry.absorb_right hx hy.1 hy.2 ?_⟩
      simp only [Entry.close, Bool.and_eq_true, decide_eq_true_eq] at hc
      exact hc.1
    · obtain ⟨z, hz, hc⟩ := ih (fun w hw => hl w (by simp [hw]))
      exact ⟨z, List.mem_cons_of_mem _ hz, hc⟩

theorem insert_old {s : ℕ} {η : ℚ} {v : ℕ → ℚ} {ex : ℚ} (x : Entry) (hx : x.Sized s)
    (l : List Entry) (hl : ∃ y ∈ l, y.Covers s v ex) :
    ∃ y ∈ Entry.insert η x l, y.Covers s v ex := by
  induction l with
  | nil => simp at hl
  | cons y ys ih =>
    obtain ⟨z, hz, hc⟩ := hl
    simp only [Entry.insert]
    rcases List.mem_cons.1 hz with rfl | hz
    · split
      · exact ⟨_, List.mem_cons_self, Entry.absorb_left hc hx.1 hx.2⟩
      · exact ⟨_, List.mem_cons_self, hc⟩
    · split
      · exact ⟨z, List.mem_cons_of_mem _ hz, hc⟩
      · obtain ⟨w, hw, hc⟩ := ih ⟨z, hz, hc⟩
        exact ⟨w, List.mem_cons_of_mem _ hw, hc⟩

theorem dedup_covers {s : ℕ} {η : ℚ} {v : ℕ → ℚ} {ex : ℚ} (l : List Entry) (hs : ∀ y ∈ l, y.Sized s)
    (hl : ∃ y ∈ l, y.Covers s v ex) : ∃ y ∈ entryDedup η l, y.Covers s v ex := by
  induction l with
  | nil => simp at hl
  | cons x xs ih =>
    obtain ⟨z, hz, hc⟩ := hl
    have hs' : ∀ y ∈ xs, y.Sized s := fun y hy => hs y (by simp [hy])
    rcases List.mem_cons.1 hz with rfl | hz
    · exact insert_new _ hc _ (dedup_sized xs hs')
    · exact insert_old x (hs x (by simp)) _ (ih hs' ⟨z, hz, hc⟩)

theorem mul_sized {s : ℕ} {x y : Entry} (hx : x.Sized s) (hy : y.Sized s) : (x.mul y).Sized s := by
  constructor <;> simp [Entry.mul, hx.1, hx.2, hy.1, hy.2]

theorem mul_covers {s : ℕ} {v w : ℕ → ℚ} {a b : ℚ} {x y : Entry} (hx : x.Covers s v a)
    (hy : y.Covers s w b) : (x.mul y).Covers s (fun j => v j * w j) (a * b) := by
  refine ⟨by rw [← hx.exact, ← hy.exact]; rfl, (mul_sized hx.sized hy.sized).1,
    (mul_sized hx.sized hy.sized).2, ?_⟩
  intro j hj
  have h1 := hx.bound j hj
  have h2 := hy.bound j hj
  simp only [Entry.mul]
  rw [getD_zipWith _ _ _ s j hx.vals hy.vals hj,
    getD_zipWith _ _ _ s j (by simp [hx.vals, hy.errs]) (by simp [hx.errs, hy.vals, hy.errs]) hj,
    getD_zipWith _ _ _ s j hx.vals hy.errs hj,
    getD_zipWith _ _ _ s j hx.errs (by simp [hy.vals, hy.errs]) hj,
    getD_zipWith _ _ _ s j hy.vals hy.errs hj, qabs_eq, qabs_eq]
  set x' := x.vals.getD j 0
  set y' := y.vals.getD j 0
  have hw : |w j| ≤ |y'| + y.errs.getD j 0 := by
    have : w j = y' + (w j - y') := by ring
    rw [this]
    exact (abs_add_le _ _).trans (by linarith)
  have e : v j * w j - x' * y' = x' * (w j - y') + (v j - x') * w j := by ring
  rw [e]
  refine (abs_add_le _ _).trans ?_
  rw [abs_mul, abs_mul]
  have h0 : 0 ≤ x.errs.getD j 0 := (abs_nonneg _).trans h1
  exact add_le_add (mul_le_mul_of_nonneg_left h2 (abs_nonneg _))
    (mul_le_mul h1 hw (abs_nonneg _) h0)

theorem ldot_bound (s : ℕ) (row : List ℚ) (v : ℕ → ℚ) (vals errs : List ℚ) (h1 : vals.length = s)
    (h2 : errs.length = s) (h : ∀ j < s, |v j - vals.getD j 0| ≤ errs.getD j 0) :
    |∑ l ∈ range s, row.getD l 0 * v l - ldot row vals| ≤ ldot (row.map qabs) errs := by
  rw [ldot_eq row vals s h1, ldot_eq _ errs s h2, ← sum_sub_distrib]
  refine (abs_sum_le_sum_abs _ _).trans (sum_le_sum (fun l hl => ?_))
  have e : (row.map qabs).getD l 0 = |row.getD l 0| := by
    have : (0 : ℚ) = qabs 0 := by simp [qabs]
    conv_lhs => rw [this]
    rw [List.getD_map, qabs_eq]
  rw [← mul_sub, abs_mul, e]
  exact mul_le_mul_of_nonneg_left (h l (mem_range.1 hl)) (abs_nonneg _)

section
variable (s : ℕ) (η : ℚ) (parts : Parts)

def Parts.const (p : Fin parts.length) : Bool := parts[p].1

/-- The matrix of a part. -/
def Parts.a (p : Fin parts.length) (i j : ℕ) : ℚ := (parts[p].2.getD i []).getD j 0

/-- No constant part has arguments. -/
def PTree.Adm {ι : Type} (const : ι → Bool) : PTree ι → Prop
  | .node p n ch => (const p = true → n = 0) ∧ ∀ i, Adm const (ch i)

def forestAt (k : ℕ) : List Entry := (tables s η parts k).2.headD []

def childAt (k : ℕ) : List Entry := entryDedup η (childrenOf parts k (forestAt s η parts k))

theorem tables_eq (n : ℕ) : (tables s η parts n).1 = (List.range n).map (childAt s η parts) ∧
    (tables s η parts n).2 = (List.range (n + 1)).reverse.map (forestAt s η parts) := by
  induction n with
  | zero => simp [tables, forestAt]
  | succ n ih =>
    constructor
    · rw [List.range_succ, List.map_append, ← ih.1]
      simp only [tables, List.map_cons, List.map_nil]
      rfl
    · rw [List.range_succ, List.reverse_append, List.map_append, ← ih.2]
      simp [tables, forestAt]

/-- The products that the next forests are made of. -/
def forestPre (n : ℕ) : List Entry :=
  (List.zip ((List.range (n + 1)).map (childAt s η parts))
    ((List.range (n + 1)).reverse.map (forestAt s η parts))).flatMap fun cf =>
      cf.1.flatMap fun x => cf.2.map fun y => x.mul y

theorem forestAt_succ (n : ℕ) : forestAt s η parts (n + 1) = entryDedup η (forestPre s η parts n) := by
  have h : forestAt s η parts (n + 1) = forestOf η (tables s η parts (n + 1)).1 (tables s η parts n).2 := by
    simp [forestAt, tables]
  rw [h, (tables_eq s η parts (n + 1)).1, (tables_eq s η parts n).2]
  rfl

theorem mem_forestPre {n j : ℕ} (hj : j ≤ n) {x y : Entry} (hx : x ∈ childAt s η parts j)
    (hy : y ∈ forestAt s η parts (n - j)) : x.mul y ∈ forestPre s η parts n := by
  unfold forestPre
  rw [List.mem_flatMap]
  refine ⟨(childAt s η parts j, forestAt s η parts (n - j)), ?_, ?_⟩
  · rw [List.mem_iff_getElem]
    refine ⟨j, by simp; omega, ?_⟩
    simp only [List.getElem_zip, List.getElem_map, List.getElem_range, List.getElem_reverse,
      List.length_range]
    congr 2
  · rw [List.mem_flatMap]
    exact ⟨x, hx, List.mem_map.2 ⟨y, hy, rfl⟩⟩

theorem of_mem_forestPre {n : ℕ} {z : Entry} (hz : z ∈ forestPre s η parts n) :
    ∃ j ≤ n, ∃ x ∈ childAt s η parts j, ∃ y ∈ forestAt s η parts (n - j), z = x.mul y := by
  unfold forestPre at hz
  rw [List.mem_flatMap] at hz
  obtain ⟨cf, hcf, hz⟩ := hz
  rw [List.mem_iff_getElem] at hcf
  obtain ⟨j, hj, rfl⟩ := hcf
  simp only [List.length_zip, List.length_map, List.length_range, List.length_reverse] at hj
  simp only [List.getElem_zip, List.getElem_map, List.getElem_range, List.getElem_reverse,
    List.length_range, List.mem_flatMap, List.mem_map] at hz
  obtain ⟨x, hx, y, hy, rfl⟩ := hz
  refine ⟨j, by omega, x, hx, y, ?_, rfl⟩
  have e : n - j = n + 1 - 1 - j := by omega
  rw [e]
  exact hy

/-- The coefficient of a tree at stage `j`. -/
def stageCoeff (t : PTree (Fin parts.length)) (j : ℕ) : ℚ :=
  t.weight s parts.a (fun p => parts.a p j)

theorem stageWeight_node (p : Fin parts.length) (n : ℕ) (ch : Fin n → PTree (Fin parts.length)) (j : ℕ) :
    (PTree.node p n ch).stageWeight s parts.a j = ∏ i, stageCoeff s parts (ch i) j := rfl

variable (hs : ∀ P ∈ parts, P.2.length = s)
include hs

theorem forestAt_sized (k : ℕ) : ∀ e ∈ forestAt s η parts k, e.Sized s := by
  induction k using Nat.strong_induction_on with
  | _ k ih =>
    have hchild : ∀ j < k, ∀ e ∈ childAt s η parts j, e.Sized s := by
      intro j hj
      apply dedup_sized
      intro e he
      unfold childrenOf at he
      rw [List.mem_flatMap] at he
      obtain ⟨P, hP, he⟩ := he
      split at he
      · simp at he
      · obtain ⟨f, -, rfl⟩ := List.mem_map.1 he
        exact ⟨by simp [hs P hP], by simp [hs P hP]⟩
    cases k with
    | zero =>
      intro e he
      simp only [forestAt, tables, List.headD_cons, List.mem_singleton] at he
      subst he
      exact ⟨by simp, by simp⟩
    | succ n =>
      rw [forestAt_succ]
      apply dedup_sized
      intro z hz
      obtain ⟨j, hj, x, hx, y, hy, rfl⟩ := of_mem_forestPre s η parts hz
      exact mul_sized (hchild j (by omega) x hx) (ih (n - j) (by omega) y hy)

theorem childrenOf_sized (k : ℕ) (fs : List Entry) : ∀ e ∈ childrenOf parts k fs, e.Sized s := by
  intro e he
  unfold childrenOf at he
  rw [List.mem_flatMap] at he
  obtain ⟨P, hP, he⟩ := he
  split at he
  · simp at he
  · obtain ⟨f, -, rfl⟩ := List.mem_map.1 he
    exact ⟨by simp [hs P hP], by simp [hs P hP]⟩

theorem mem_childAt {k : ℕ} (p : Fin parts.length) (n : ℕ) (ch : Fin n → PTree (Fin parts.length))
    (hadm : parts.const p = true → n = 0) (hk : ∑ i, (ch i).order = k)
    (hf : ∃ e ∈ forestAt s η parts k,
      e.Covers s (fun j => ∏ i, stageCoeff s parts (ch i) j) (∏ i, (ch i).exact)) :
    ∃ e ∈ childAt s η parts k, e.Covers s (stageCoeff s parts (.node p n ch)) (PTree.node p n ch).exact := by
  obtain ⟨f, hf, hc⟩ := hf
  apply dedup_covers _ (childrenOf_sized s parts hs k _)
  unfold childrenOf
  refine ⟨{ vals := parts[p].2.map fun row => ldot row f.vals
            errs := parts[p].2.map fun row => ldot (row.map qabs) f.errs
            exact := f.exact / (k + 1) }, ?_, ?_⟩
  · rw [List.mem_flatMap]
    refine ⟨parts[p], List.getElem_mem _, ?_⟩
    have hcond : ¬ ((parts[p].1 && k != 0) = true) := by
      intro h
      simp only [Bool.and_eq_true, bne_iff_ne, ne_eq] at h
      obtain ⟨h1, h2⟩ := h
      have := hadm h1
      subst this
      simp at hk
      omega
    rw [if_neg hcond, List.mem_map]
    exact ⟨f, hf, rfl⟩
  · have hlen := hs _ (List.getElem_mem p.2)
    refine ⟨?_, by simpa using hlen, by simpa using hlen, ?_⟩
    · simp only [PTree.exact]
      rw [hk, hc.exact]
      push_cast
      rw [add_comm]
    · intro j hj
      have hj' : j < parts[p].2.length := by simpa [hlen] using hj
      simp only
      rw [List.getD_eq_getElem (hn := by simpa using hj'), List.getElem_map,
        List.getD_eq_getElem (hn := by simpa using hj'), List.getElem_map]
      have := ldot_bound s (parts[p].2[j]) (fun j => ∏ i, stageCoeff s parts (ch i) j) f.vals f.errs
        hc.vals hc.errs hc.bound
      convert this using 3
      unfold stageCoeff PTree.weight
      simp only [stageWeight_node, PTree.root]
      apply sum_congr rfl
      intro l _
      congr 1
      unfold Parts.a
      rw [List.getD_eq_getElem (hn := hj')]

theorem mem_forestAt_all (k : ℕ) : ∀ (n : ℕ) (ch : Fin n → PTree (Fin parts.length)),
    (∀ i, (ch i).Adm parts.const) → ∑ i, (ch i).order = k →
    ∃ e ∈ forestAt s η parts k,
      e.Covers s (fun j => ∏ i, stageCoeff s parts (ch i) j) (∏ i, (ch i).exact) := by
  induction k using Nat.strong_induction_on with
  | _ k ih =>
    intro n ch hadm hk
    cases n with
    | zero =>
      simp only [univ_eq_empty, sum_empty] at hk
      subst hk
      refine ⟨_, List.mem_singleton.2 rfl, ⟨by simp, by simp, by simp, ?_⟩⟩
      intro j hj
      simp [List.getD, hj]
    | succ n =>
      rw [Fin.sum_univ_succ] at hk
      obtain ⟨p, m, c, hc⟩ : ∃ p m c, ch 0 = PTree.node p m c := by
        cases h : ch 0 with
        | node p m c => exact ⟨p, m, c, rfl⟩
      have ho : (ch 0).order = 1 + ∑ i, (c i).order := by rw [hc]; rfl
      obtain ⟨k', rfl⟩ : ∃ k', k = k' + 1 := ⟨k - 1, by omega⟩
      have hadm0 := hadm 0
      rw [hc] at hadm0
      obtain ⟨ha1, ha2⟩ := hadm0
      have h1 := ih (∑ i, (c i).order) (by omega) m c ha2 rfl
      obtain ⟨x, hx, hxc⟩ := mem_childAt s η parts hs p m c ha1 rfl h1
      obtain ⟨y, hy, hyc⟩ := ih (∑ i : Fin n, (ch i.succ).order) (by omega) n (fun i => ch i.succ)
        (fun i => hadm _) rfl
      have hidx : ∑ i : Fin n, (ch i.succ).order = k' - ∑ i, (c i).order := by omega
      rw [hidx] at hy
      rw [forestAt_succ]
      apply dedup_covers
      · intro z hz
        obtain ⟨j, hj, x, hx, y, hy, rfl⟩ := of_mem_forestPre s η parts hz
        refine mul_sized ?_ (forestAt_sized s η parts hs _ y hy)
        exact dedup_sized _ (childrenOf_sized s parts hs _ _) x hx
      · refine ⟨_, mem_forestPre s η parts (n := k') (j := ∑ i, (c i).order) (by omega) hx hy, ?_⟩
        have := mul_covers hxc hyc
        rw [← hc] at this
        simpa only [Fin.prod_univ_succ] using this

/-- If the computation succeeds, all order conditions hold up to `ε`. -/
theorem checkOrder_sound (bs : List (Bool × List ℚ)) (hbs : bs.length = parts.length)
    (hconst : ∀ (i : ℕ) (h : i < bs.length) (h' : i < parts.length), bs[i].1 = true → parts[i].1 = true)
    (q ε : ℚ) (n : ℕ) (hck : checkOrder s η parts bs q ε n = true) (t : PTree (Fin parts.length))
    (hadm : t.Adm parts.const) (ho : t.order ≤ n) :
    |t.weight s parts.a (fun p j => (bs[p].2).getD j 0) - q * t.exact| ≤ ε := by
  cases t with
  | node p m ch =>
    obtain ⟨ha1, ha2⟩ := hadm
    simp only [PTree.order] at ho
    obtain ⟨f, hf, hfc⟩ := mem_forestAt_all s η parts hs (∑ i, (ch i).order) m ch ha2 rfl
    set k := ∑ i, (ch i).order with hk
    unfold checkOrder at hck
    rw [(tables_eq s η parts n).2, List.range_succ, List.reverse_append, List.map_append] at hck
    simp only [List.reverse_cons, List.reverse_nil, List.nil_append, List.map_cons, List.map_nil,
      List.cons_append, List.tail_cons, List.all_eq_true] at hck
    have hmem : (forestAt s η parts k, k) ∈
        (List.map (forestAt s η parts) (List.range n).reverse).zip (List.range n).reverse := by
      rw [List.mem_iff_getElem]
      refine ⟨n - 1 - k, by simp; omega, ?_⟩
      simp only [List.getElem_zip, List.getElem_map, List.getElem_reverse, List.length_range,
        List.getElem_range]
      have : n - 1 - (n - 1 - k) = k := by omega
      rw [this]
    have hp : (p : ℕ) < bs.length := by rw [hbs]; exact p.2
    have h1 := hck _ hmem bs[p] (List.getElem_mem hp)
    rw [Bool.or_eq_true] at h1
    rcases h1 with h1 | h1
    · exfalso
      simp only [Bool.and_eq_true, bne_iff_ne, ne_eq] at h1
      have := ha1 (hconst p hp p.2 h1.1)
      subst this
      apply h1.2
      simp [hk]
    · simp only [List.all_eq_true, decide_eq_true_eq] at h1
      have h2 := h1 _ hf
      rw [qabs_eq, hfc.exact] at h2
      have h3 := ldot_bound s (bs[p].2) _ f.vals f.errs hfc.vals hfc.errs hfc.bound
      have e : (PTree.node p m ch).exact = (∏ i, (ch i).exact) / ((k : ℚ) + 1) := by
        simp only [PTree.exact]; rw [← hk]; push_cast; rw [add_comm]
      rw [e]
      have e2 : (PTree.node p m ch).weight s parts.a (fun p j => (bs[p].2).getD j 0)
          = ∑ l ∈ range s, (bs[p].2).getD l 0 * ∏ i, stageCoeff s parts (ch i) l := rfl
      rw [e2]
      set W := ∑ l ∈ range s, (bs[p].2).getD l 0 * ∏ i, stageCoeff s parts (ch i) l with hW
      have e3 : W - q * ((∏ i, (ch i).exact) / ((k : ℚ) + 1)) = (W - ldot bs[p].2 f.vals)
          + (ldot bs[p].2 f.vals - q * ((∏ i, (ch i).exact) / ((k : ℚ) + 1))) := by ring
      rw [e3]
      exact (abs_add_le _ _).trans (by linarith)

end

/-- Coefficients of trees commute with casts. -/
theorem PTree.stageWeight_cast {ι : Type} (s : ℕ) (a : ι → ℕ → ℕ → ℚ) (t : PTree ι) (j : ℕ) :
    t.stageWeight s (fun p i j => (a p i j : ℝ)) j = ((t.stageWeight s a j : ℚ) : ℝ) := by
  induction t generalizing j with
  | node p n ch ih =>
    simp only [PTree.stageWeight]
    push_cast
    apply prod_congr rfl
    intro i _
    apply sum_congr rfl
    intro l _
    rw [ih]

theorem PTree.weight_cast {ι : Type} (s : ℕ) (a : ι → ℕ → ℕ → ℚ) (b : ι → ℕ → ℚ) (t : PTree ι) :
    t.weight s (fun p i j => (a p i j : ℝ)) (fun p j => (b p j : ℝ)) = ((t.weight s a b : ℚ) : ℝ) := by
  unfold PTree.weight
  push_cast
  apply sum_congr rfl
  intro j _
  rw [PTree.stageWeight_cast]

theorem PTree.exact_cast {ι : Type} (t : PTree ι) : (t.exact : ℝ) = ((t.exact : ℚ) : ℝ) := by
  induction t with
  | node p n ch ih =>
    simp only [PTree.exact]
    push_cast
    rw [Finset.prod_congr rfl (fun i _ => ih i)]

end Verif
