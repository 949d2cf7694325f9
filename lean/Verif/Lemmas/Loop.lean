import Verif.Spec.Loop
import Mathlib.Tactic.Common
import Mathlib.Data.List.Basic
import Mathlib.Order.Lattice

/-!
# Helper lemmas on the loop: the evolving state, traces, logs
-/

set_option linter.unusedSectionVars false

namespace Verif

variable {T Y E D S C O F : Type} [LinearOrder T] [LinearOrder F] [Zero F]

/-- The evolving state after at most `n` iterations. -/
def coreRun (cfg : Cfg T Y E D S C O F) : Nat → Core T Y D S C F → Core T Y D S C F
  | 0, s => s
  | n + 1, s => if condFun cfg s then coreRun cfg n (coreBody cfg s).1 else s

theorem whileLoop_core (cfg : Cfg T Y E D S C O F) (n : Nat) (s : LState T Y D S C O F) :
    (whileLoop cfg n s).core = coreRun cfg n s.core := by
  induction n generalizing s with
  | zero => rfl
  | succ n ih =>
    simp only [whileLoop, coreRun]
    split
    · rw [ih]; rfl
    · rfl

/-- Induction principle: an invariant preserved by attempted steps holds at all attempts and at the
end. -/
theorem run_inv (cfg : Cfg T Y E D S C O F) (P : Core T Y D S C F → Prop) (n : Nat)
    (s : Core T Y D S C F) (h0 : P s)
    (hstep : ∀ s' ∈ attempts cfg n s, condFun cfg s' = true → P s' → P (coreBody cfg s').1) :
    (∀ s' ∈ attempts cfg n s, P s') ∧ P (coreRun cfg n s) := by
  induction n generalizing s with
  | zero => exact ⟨by simp [attempts], h0⟩
  | succ n ih =>
    by_cases hc : condFun cfg s = true
    · simp only [attempts, coreRun, hc, if_true] at hstep ⊢
      have h1 : P (coreBody cfg s).1 := hstep s (by simp) hc h0
      obtain ⟨ha, hb⟩ := ih _ h1 (fun s' hs' => hstep s' (List.mem_cons_of_mem _ hs'))
      refine ⟨?_, hb⟩
      intro s' hs'
      rcases List.mem_cons.1 hs' with rfl | hs'
      · exact h0
      · exact ha s' hs'
    · have hc' : condFun cfg s = false := by simpa using hc
      simp [attempts, coreRun, hc', h0]

theorem attempts_cond (cfg : Cfg T Y E D S C O F) (n : Nat) (s : Core T Y D S C F) :
    ∀ s' ∈ attempts cfg n s, condFun cfg s' = true := by
  induction n generalizing s with
  | zero => simp [attempts]
  | succ n ih =>
    by_cases hc : condFun cfg s = true
    · simp only [attempts, hc, if_true, List.mem_cons, forall_eq_or_imp, true_and]
      exact ih _
    · have hc' : condFun cfg s = false := by simpa using hc
      simp [attempts, hc']

theorem attempts_length_le (cfg : Cfg T Y E D S C O F) (n : Nat) (s : Core T Y D S C F) :
    (attempts cfg n s).length ≤ n := by
  induction n generalizing s with
  | zero => simp [attempts]
  | succ n ih =>
    simp only [attempts]
    split
    · simpa using ih _
    · simp

/-- If the loop condition still holds at the end, all iterations were used. -/
theorem attempts_length_eq (cfg : Cfg T Y E D S C O F) (n : Nat) (s : Core T Y D S C F)
    (h : condFun cfg (coreRun cfg n s) = true) : (attempts cfg n s).length = n := by
  induction n generalizing s with
  | zero => rfl
  | succ n ih =>
    by_cases hc : condFun cfg s = true
    · simp only [attempts, coreRun, hc, if_true] at h ⊢
      simpa using ih _ h
    · simp [coreRun, hc] at h

theorem coreRun_add (cfg : Cfg T Y E D S C O F) (n k : Nat) (s : Core T Y D S C F)
    (h : condFun cfg (coreRun cfg n s) = false) : coreRun cfg (n + k) s = coreRun cfg n s := by
  induction n generalizing s with
  | zero =>
    simp only [coreRun] at h ⊢
    cases k <;> simp [coreRun, h]
  | succ n ih =>
    rw [Nat.succ_add]
    simp only [coreRun] at h ⊢
    split
    · rename_i hc
      simp only [hc, if_true] at h
      exact ih _ h
    · rfl

theorem attempts_add (cfg : Cfg T Y E D S C O F) (n k : Nat) (s : Core T Y D S C F)
    (h : condFun cfg (coreRun cfg n s) = false) : attempts cfg (n + k) s = attempts cfg n s := by
  induction n generalizing s with
  | zero =>
    simp only [coreRun] at h
    cases k <;> simp [attempts, h]
  | succ n ih =>
    rw [Nat.succ_add]
    simp only [coreRun, attempts] at h ⊢
    split
    · rename_i hc
      simp only [hc, if_true] at h
      rw [ih _ h]
    · rfl

/-- The end of the run is the last attempt's successor. -/
theorem coreRun_eq_last (cfg : Cfg T Y E D S C O F) (n : Nat) (s : Core T Y D S C F) :
    coreRun cfg n s = match (attempts cfg n s).getLast? with
      | none => s
      | some s' => (coreBody cfg s').1 := by
  induction n generalizing s with
  | zero => rfl
  | succ n ih =>
    by_cases hc : condFun cfg s = true
    · simp only [attempts, coreRun, hc, if_true]
      rw [ih]
      cases hl : attempts cfg n (coreBody cfg s).1 with
      | nil => simp
      | cons a l =>
        rw [List.getLast?_cons_cons, List.getLast?_eq_some_getLast (List.cons_ne_nil a l)]
    · have hc' : condFun cfg s = false := by simpa using hc
      simp [attempts, coreRun, hc']

/-! ### Counters -/

theorem coreBody_numSteps (cfg : Cfg T Y E D S C O F) (s : Core T Y D S C F) :
    (coreBody cfg s).1.numSteps = s.numSteps + 1 := rfl

theorem coreBody_numAccepted (cfg : Cfg T Y E D S C O F) (s : Core T Y D S C F) :
    (coreBody cfg s).1.numAccepted = s.numAccepted + (if accepted cfg s then 1 else 0) := rfl

theorem coreBody_numRejected (cfg : Cfg T Y E D S C O F) (s : Core T Y D S C F) :
    (coreBody cfg s).1.numRejected = s.numRejected + (if accepted cfg s then 0 else 1) := rfl

theorem coreRun_counts (cfg : Cfg T Y E D S C O F) (n : Nat) (s : Core T Y D S C F) :
    (coreRun cfg n s).numSteps = s.numSteps + (attempts cfg n s).length ∧
    (coreRun cfg n s).numAccepted
      = s.numAccepted + ((attempts cfg n s).filter (accepted cfg)).length ∧
    (coreRun cfg n s).numRejected
      = s.numRejected + ((attempts cfg n s).filter (fun s => !accepted cfg s)).length := by
  induction n generalizing s with
  | zero => simp [coreRun, attempts]
  | succ n ih =>
    by_cases hc : condFun cfg s = true
    · simp only [attempts, coreRun, hc, if_true]
      obtain ⟨h1, h2, h3⟩ := ih (coreBody cfg s).1
      rw [h1, h2, h3, coreBody_numSteps, coreBody_numAccepted, coreBody_numRejected]
      cases ha : accepted cfg s <;> simp [ha] <;> omega
    · have hc' : condFun cfg s = false := by simpa using hc
      simp [attempts, coreRun, hc']

/-! ### Saving, one `SubSaveAt` at a time -/

theorem stepInfo_keep (cfg : Cfg T Y E D S C O F) (s : Core T Y D S C F) :
    (coreBody cfg s).2.keep = accepted cfg s := rfl

theorem whileLoop_saves (cfg : Cfg T Y E D S C O F) (n : Nat) (s : LState T Y D S C O F)
    (hlen : s.saves.length = cfg.subs.length) :
    (whileLoop cfg n s).saves = List.zipWith (fun sub sv =>
      (attempts cfg n s.core).foldl (fun sv c =>
        saveSteps sub (coreBody cfg c).2 (saveTs cfg sub (coreBody cfg c).2 sv)) sv)
      cfg.subs s.saves := by
  induction n generalizing s with
  | zero =>
    simp only [whileLoop, attempts, List.foldl_nil]
    apply List.ext_getElem <;> simp [hlen]
  | succ n ih =>
    by_cases hc : condFun cfg s.core = true
    · simp only [whileLoop, attempts, hc, if_true, List.foldl_cons]
      rw [ih]
      · simp only [body]
        apply List.ext_getElem <;> simp [hlen]
      · simp [body, hlen]
    · have hc' : condFun cfg s.core = false := by simpa using hc
      simp only [whileLoop, attempts, hc', Bool.false_eq_true, if_false, List.foldl_nil]
      apply List.ext_getElem <;> simp [hlen]

theorem whileLoop_dense (cfg : Cfg T Y E D S C O F) (n : Nat) (s : LState T Y D S C O F) :
    (whileLoop cfg n s).dense =
      (attempts cfg n s.core).foldl (fun d c => saveDense cfg.dense (coreBody cfg c).2 d)
        s.dense := by
  induction n generalizing s with
  | zero => rfl
  | succ n ih =>
    by_cases hc : condFun cfg s.core = true
    · simp only [whileLoop, attempts, hc, if_true, List.foldl_cons]
      rw [ih]; rfl
    · have hc' : condFun cfg s.core = false := by simpa using hc
      simp [whileLoop, attempts, hc']

/-- A rejected step saves nothing. -/
theorem saveTsLoop_rejected (sub : SubSaveAt T Y O) (ip : T → Y) (t : T) (n : Nat)
    (s : SaveState T O) : saveTsLoop sub ip false t n s = s := by
  cases n with
  | zero => rfl
  | succ n =>
    simp only [saveTsLoop, Bool.false_and, Bool.false_eq_true, if_false]
    split <;> rfl

theorem save_rejected (cfg : Cfg T Y E D S C O F) (sub : SubSaveAt T Y O) (i : StepInfo T Y D)
    (hk : i.keep = false) (sv : SaveState T O) : saveSteps sub i (saveTs cfg sub i sv) = sv := by
  have h1 : saveTs cfg sub i sv = sv := by
    unfold saveTs; rw [hk]; exact saveTsLoop_rejected _ _ _ _ _
  rw [h1]; simp [saveSteps, hk]

theorem saveDense_rejected (b : Bool) (i : StepInfo T Y D) (hk : i.keep = false)
    (d : DenseState T D) : saveDense b i d = d := by
  simp [saveDense, hk]

/-- A fold that skips rejected steps is a fold over the accepted ones. -/
theorem foldl_accepted {α : Type} (cfg : Cfg T Y E D S C O F) (f : α → Core T Y D S C F → α)
    (hf : ∀ a c, accepted cfg c = false → f a c = a) (l : List (Core T Y D S C F)) (a : α) :
    l.foldl f a = (l.filter (accepted cfg)).foldl f a := by
  induction l generalizing a with
  | nil => rfl
  | cons c l ih =>
    cases hc : accepted cfg c with
    | true => simp [hc, ih]
    | false => simp [hc, hf a c hc, ih]

end Verif
