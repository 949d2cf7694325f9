import Verif.Lemmas.Fill
import Verif.Props.Interp
import Mathlib.Tactic.FieldSimp
import Mathlib.Tactic.Ring
import Mathlib.Tactic.LinearCombination

/-! # Lemmas about backward Hermite coefficients -/

set_option linter.unusedSectionVars false

namespace Verif

variable {K : Type} [Field K] [LinearOrder K]

/-- Fully observed data. -/
def emb (x : K × K) : K × Option K := (x.1, some x.2)

theorem revScan_full (c : K × Option K) (data : List (K × K)) :
    revScan c (data.map emb) = data.map emb := by
  induction data with
  | nil => rfl
  | cons x l ih => simp [revScan, emb, ih]

theorem fillScan_full {α : Type} (o : Option α) (l : List α) :
    fillScan o (l.map some) = l.map some := by
  induction l generalizing o with
  | nil => rfl
  | cons x l ih => simp [fillScan, ih]

theorem fillForward_full {α : Type} (l : List α) (r : Option (Option α)) :
    fillForward (l.map some) r = l.map some := fillScan_full _ _

theorem hermScan_full (x0 : K × K) (d0 : Option K) (data : List (K × K))
    (nexts : List (K × Option K)) (hl : nexts.length = data.length) :
    hermScan (x0.1, some x0.2, d0) ((data.map emb).zip nexts)
      = List.zipWith (fun p q => (q.1, some q.2, some ((q.2 - p.2) / (q.1 - p.1)))) (x0 :: data) data := by
  induction data generalizing x0 d0 nexts with
  | nil => simp [hermScan]
  | cons x l ih =>
    cases nexts with
    | nil => simp at hl
    | cons n nexts =>
      simp only [List.map_cons, List.zip_cons_cons, hermScan, emb, List.zipWith_cons_cons]
      refine List.cons_eq_cons.2 ⟨rfl, ?_⟩
      exact ih x _ nexts (by simpa using hl)

theorem hermiteImpl_self (s : K) (y d : K) (nt : K) (ny : K) :
    hermiteImpl s (some y) (some d) s nt (some ny)
      = hermiteCoeffs s (some y) (some d) nt (some ny) := by
  simp [hermiteImpl, hermiteCoeffs, Coef.eval, Coef.deriv]

/-- Closed form of the coefficients for fully observed data. -/
theorem backwardHermite_full (x0 : K × K) (rest : List (K × K)) (hne : rest ≠ []) (fillEnd : Bool)
    (deriv0 : Option K) (d0 : K)
    (hd0 : ∀ y, rest.head? = some y →
      d0 = deriv0.getD ((y.2 - x0.2) / (y.1 - x0.1))) :
    backwardHermite ((x0 :: rest).map Prod.fst) ((x0 :: rest).map (fun x => some x.2)) fillEnd
        (deriv0.map some) none
      = List.zipWith (fun (p : K × K × K) (y : K × K) =>
          hermiteCoeffs p.1 (some p.2.1) (some p.2.2) y.1 (some y.2))
        ((x0.1, x0.2, d0) :: List.zipWith (fun (p q : K × K) =>
            (q.1, q.2, (q.2 - p.2) / (q.1 - p.1))) (x0 :: rest.dropLast) rest.dropLast)
        rest := by
  have hzip : ∀ l : List (K × K), (l.map Prod.fst).zip (l.map (fun x => some x.2)) = l.map emb := by
    intro l; rw [List.zip_map']; rfl
  have hfst : ∀ l : List (K × K), (l.map emb).map Prod.fst = l.map Prod.fst := by
    intro l; simp [emb]
  have hsnd : ∀ l : List (K × K), (l.map emb).map Prod.snd = l.map (fun x => some x.2) := by
    intro l; simp [emb]
  have hff : ∀ l : List (K × K), fillForward (l.map (fun x => some x.2)) none
      = l.map (fun x => some x.2) := by
    intro l
    have : l.map (fun x => some x.2) = (l.map Prod.snd).map some := by simp
    rw [this, fillForward_full]
  cases rest with
  | nil => exact absurd rfl hne
  | cons x1 rest =>
    have hd := hd0 x1 rfl
    unfold backwardHermite
    simp only [List.map_cons, List.tail_cons, List.headD_cons]
    have e1 : (x1.1 :: List.map Prod.fst rest).zip (some x1.2 :: List.map (fun x => some x.2) rest)
        = (x1 :: rest).map emb := by
      rw [← hzip]; simp
    simp only [e1, revScan_full, hfst, hsnd]
    have e2 : (if fillEnd = true then fillForward (List.map (fun x => some x.2) (x1 :: rest)) none
        else List.map (fun x => some x.2) (x1 :: rest)) = List.map (fun x : K × K => some x.2) (x1 :: rest) := by
      split
      · exact hff _
      · rfl
    simp only [e2]
    simp only [List.map_cons, List.headD_cons, List.tail_cons]
    have e3 : ∀ z : K, (z :: x1.1 :: List.map Prod.fst rest).dropLast
        = z :: ((x1 :: rest).dropLast).map Prod.fst := by
      intro z
      rw [List.dropLast_cons_of_ne_nil (by simp), List.map_dropLast]; simp
    have e4 : ∀ z : Option K, (z :: some x1.2 :: List.map (fun x => some x.2) rest).dropLast
        = z :: ((x1 :: rest).dropLast).map (fun x => some x.2) := by
      intro z
      rw [List.dropLast_cons_of_ne_nil (by simp), List.map_dropLast]; simp
    simp only [e3, e4, List.tail_cons, hzip]
    have hdd : (match Option.map some deriv0 with
        | none => (do pure (((← some x1.2) - (← some x0.2)) / (x1.1 - x0.1)) : Option K)
        | some d => d) = some d0 := by
      cases deriv0 with
      | none => simpa using hd.symm
      | some d => simpa using hd.symm
    have hscan : ∀ d : Option K, hermScan (x0.1, some x0.2, d) ((List.map emb (x1 :: rest).dropLast).zip (List.map emb rest))
        = List.zipWith (fun p q => (q.1, some q.2, some ((q.2 - p.2) / (q.1 - p.1))))
          (x0 :: (x1 :: rest).dropLast) (x1 :: rest).dropLast :=
      fun d => hermScan_full _ _ _ _ (by simp)
    rw [hscan]
    cases hz : (x1 :: rest) with
    | nil => simp at hz
    | cons a l =>
      cases hz
      simp only [List.zip_cons_cons, List.zipWith_cons_cons]
      refine List.cons_eq_cons.2 ⟨?_, ?_⟩
      · have := hermiteImpl_self x0.1 x0.2 d0 x1.1 x1.2
        rw [← this, ← hdd]
        cases deriv0 <;> rfl
      · clear hd hd0 hdd hne e1 e2 e3 e4 hscan
        induction rest generalizing x0 x1 with
        | nil => simp
        | cons x2 rest ih =>
          rw [List.dropLast_cons_of_ne_nil (by simp)]
          simp only [List.zipWith_cons_cons, List.map_cons, List.zip_cons_cons]
          refine List.cons_eq_cons.2 ⟨?_, ?_⟩
          · exact hermiteImpl_self _ _ _ _ _
          · exact ih x1 x2

end Verif
