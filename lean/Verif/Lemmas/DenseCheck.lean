import Verif.Lemmas.OrderRK

/-!
# Computing the coefficients of all trees, for one power of the interpolation variable

As in `Lemmas/OrderCheck.lean`, but the coefficient wanted of a tree is its exact one times a number that
may depend on the number of nodes.
-/

set_option linter.unusedSectionVars false

namespace Verif
open Finset

/-- All trees with at most `n` nodes have coefficients within `ε` of what they should be (`exact` times
`g`, at the number of nodes), where `bs` are the final weights of each part. -/
def checkTarget (s : ℕ) (η : ℚ) (parts : Parts) (bs : List (Bool × List ℚ)) (g : ℕ → ℚ) (ε : ℚ) (n : ℕ) :
    Bool :=
  ((tables s η parts n).2.tail.zip ((List.range n).reverse)).all fun fk =>
    bs.all fun b => (b.1 && fk.2 != 0) || fk.1.all fun f =>
      decide (qabs (ldot b.2 f.vals - g (fk.2 + 1) * (f.exact / (fk.2 + 1)))
        + ldot (b.2.map qabs) f.errs ≤ ε)

/-- If the computation succeeds, all these conditions hold up to `ε`. -/
theorem checkTarget_sound (s : ℕ) (η : ℚ) (parts : Parts) (hs : ∀ p ∈ parts, p.2.length = s)
    (bs : List (Bool × List ℚ)) (hbs : bs.length = parts.length)
    (hconst : ∀ (i : ℕ) (h : i < bs.length) (h' : i < parts.length), bs[i].1 = true → parts[i].1 = true)
    (g : ℕ → ℚ) (ε : ℚ) (n : ℕ) (hck : checkTarget s η parts bs g ε n = true)
    (t : PTree (Fin parts.length)) (hadm : t.Adm parts.const) (ho : t.order ≤ n) :
    |t.weight s parts.a (fun p j => (bs[p].2).getD j 0) - g t.order * t.exact| ≤ ε := by
  cases t with
  | node p m ch =>
    obtain ⟨ha1, ha2⟩ := hadm
    simp only [PTree.order] at ho
    obtain ⟨f, hf, hfc⟩ := mem_forestAt_all s η parts hs (∑ i, (ch i).order) m ch ha2 rfl
    have hord : (PTree.node p m ch).order = 1 + ∑ i, (ch i).order := rfl
    rw [hord]
    set k := ∑ i, (ch i).order with hk
    unfold checkTarget at hck
    rw [(tables_eq s η parts n).2, List.range_succ, List.reverse_append, List.map_append] at hck
    simp only [List.reverse_cons, List.reverse_nil, List.nil_append, List.map_cons, List.map_nil,
      List.cons_append, List.tail_cons, List.all_eq_true] at hck
    have hmem : (forestAt s η parts k, k) ∈
        (List.map (forestAt s η parts) (List.range n).reverse).zip (List.range n).reverse := by
      rw [List.mem_iff_getElem]
      refine ⟨n - 1 - k, by simp; omega, ?_⟩
      simp only [List.getElem_zip, List.getElem_map, List.getElem_reverse, List.length_range,
        List.getElem_range]
      have : n - 1 - (n - 1 - k) = k := by omega
      rw [this]
    have hp : (p : ℕ) < bs.length := by rw [hbs]; exact p.2
    have h1 := hck _ hmem bs[p] (List.getElem_mem hp)
    rw [Bool.or_eq_true] at h1
    rcases h1 with h1 | h1
    · exfalso
      simp only [Bool.and_eq_true, bne_iff_ne, ne_eq] at h1
      have := ha1 (hconst p hp p.2 h1.1)
      subst this
      apply h1.2
      simp [hk]
    · simp only [List.all_eq_true, decide_eq_true_eq] at h1
      have h2 := h1 _ hf
      rw [qabs_eq, hfc.exact] at h2
      have h3 := ldot_bound s (bs[p].2) _ f.vals f.errs hfc.vals hfc.errs hfc.bound
      have e : (PTree.node p m ch).exact = (∏ i, (ch i).exact) / ((k : ℚ) + 1) := by
        simp only [PTree.exact]; rw [← hk]; push_cast; rw [add_comm]
      rw [e, add_comm 1 k]
      have e2 : (PTree.node p m ch).weight s parts.a (fun p j => (bs[p].2).getD j 0)
          = ∑ l ∈ range s, (bs[p].2).getD l 0 * ∏ i, stageCoeff s parts (ch i) l := rfl
      rw [e2]
      set W := ∑ l ∈ range s, (bs[p].2).getD l 0 * ∏ i, stageCoeff s parts (ch i) l with hW
      have e3 : W - g (k + 1) * ((∏ i, (ch i).exact) / ((k : ℚ) + 1)) = (W - ldot bs[p].2 f.vals)
          + (ldot bs[p].2 f.vals - g (k + 1) * ((∏ i, (ch i).exact) / ((k : ℚ) + 1))) := by ring
      rw [e3]
      exact (abs_add_le _ _).trans (by linarith)

/-- `checkTarget_sound`, for parts given as a function. -/
theorem checkTarget_sound_fin {n : ℕ} (s : ℕ) (η : ℚ) (P : Fin n → Bool × List (List ℚ))
    (hs : ∀ p, (P p).2.length = s) (b : Fin n → Bool × List ℚ)
    (hc : ∀ p, (b p).1 = true → (P p).1 = true) (g : ℕ → ℚ) (ε : ℚ) (N : ℕ)
    (hck : checkTarget s η (List.ofFn P) (List.ofFn b) g ε N = true) (t : PTree (Fin n))
    (hadm : t.Adm (fun p => (P p).1)) (ho : t.order ≤ N) :
    |t.weight s (fun p i j => ((P p).2.getD i []).getD j 0) (fun p j => (b p).2.getD j 0)
      - g t.order * t.exact| ≤ ε := by
  have hlen : (List.ofFn P).length = n := List.length_ofFn
  have hlen' : (List.ofFn b).length = n := List.length_ofFn
  have hmain := checkTarget_sound s η (List.ofFn P) (by
      intro x hx
      obtain ⟨i, rfl⟩ := (List.mem_ofFn' P x).1 hx
      exact hs i) (List.ofFn b) (by rw [hlen, hlen']) (by
      intro i h h' hb
      rw [List.getElem_ofFn] at hb ⊢
      exact hc _ hb) g ε N hck (t.map (Fin.cast hlen.symm)) (by
      apply PTree.map_adm
      convert hadm using 2
      simp [Parts.const]) (by rw [PTree.map_order]; exact ho)
  rw [PTree.map_weight, PTree.map_exact, PTree.map_order] at hmain
  convert hmain using 4
  · funext p i j
    simp [Parts.a]
  · funext p j
    simp

section
variable {m : ℕ} (s : ℕ) (c : ℕ → ℚ) (tab : Fin m → Tableau ℚ)

/-- The weights of the `(j+1)`-st power of the interpolation variable. -/
def rowOf (rows : Tableau ℚ → List (List ℚ)) (j : ℕ) (t : Tableau ℚ) : List ℚ := (rows t).getD j []

/-- The part of the interpolant with the `(j+1)`-st power of the interpolation variable matches the terms with
`j+1` nodes, for all trees with up to `n` nodes, up to `ε`. -/
def rowOrder (η : ℚ) (rows : Tableau ℚ → List (List ℚ)) (ε : ℚ) (n : ℕ) (j : ℕ) : Bool :=
  checkTarget s η (List.ofFn (orderParts s c tab))
    (List.ofFn (orderWeights tab (rowOf rows j) (if j = 0 then 1 else 0)))
    (fun k => if k = j + 1 then 1 else 0) ε n

/-- All powers up to the `d`-th. -/
def rowsOrder (η : ℚ) (rows : Tableau ℚ → List (List ℚ)) (d : ℕ) (ε : ℚ) (n : ℕ) : Bool :=
  (List.range d).all (rowOrder s c tab η rows ε n)

theorem rowOrder_sound (η : ℚ) (rows : Tableau ℚ → List (List ℚ)) (ε : ℚ) (n j : ℕ)
    (hck : rowOrder s c tab η rows ε n j = true) (t : PTree (Fin (m + 1)))
    (hadm : t.Adm (fun p => decide (p = 0))) (ho : t.order ≤ n) :
    |t.weight s (orderA s c tab) (orderB tab (rowOf rows j) (if j = 0 then 1 else 0))
      - (if t.order = j + 1 then 1 else 0) * t.exact| ≤ ε := by
  apply checkTarget_sound_fin s η (orderParts s c tab) _
    (orderWeights tab (rowOf rows j) (if j = 0 then 1 else 0)) _
    (fun k => if k = j + 1 then 1 else 0) ε n hck t _ ho
  · intro p
    refine Fin.cases ?_ (fun p => ?_) p
    · simp [orderParts]
    · simp [orderParts, Tableau.matrix]
  · intro p
    refine Fin.cases ?_ (fun p => ?_) p
    · simp [orderParts]
    · simp [orderWeights]
  · convert hadm using 2 with p
    refine Fin.cases ?_ (fun p => ?_) p
    · simp [orderParts]
    · simp [orderParts, Fin.succ_ne_zero]

end
end Verif
