import Verif.Model.SaveShapes
import Verif.Props.Save

/-!
# Solves with any `SaveAt` start: C112
-/

set_option linter.unusedSectionVars false

namespace Verif

variable {T Y E D S C O F : Type} [LinearOrder T] [LinearOrder F] [Zero F]

/-- **C112**: exactly which `SubSaveAt`s fail before the solve starts: those without `t0` and `ts`, with more steps
between saved values than `max_steps`, and without `t1` (unless `max_steps` is zero), if `steps >= 2` or there is an event
with a root finder. -/
theorem C112_fails_iff (root : Bool) (maxSteps : Nat) (sub : SubSaveAt T Y O) :
    traceOk root maxSteps sub = false ↔
      sub.t0 = false ∧ sub.ts = [] ∧ maxSteps < sub.steps ∧ (sub.t1 = true → maxSteps = 0) ∧
        (2 ≤ sub.steps ∨ root = true) := by
  obtain ⟨t0, t1, ts, steps, fn⟩ := sub
  unfold traceOk tracedSaves saveT1Traced allocSize
  dsimp only
  match steps with
  | 0 =>
    cases t0 <;> cases t1 <;> by_cases h : ts = [] <;> simp [h]
    omega
  | 1 =>
    have hm : maxSteps % 1 = 0 := Nat.mod_one _
    have hd : maxSteps / 1 = maxSteps := Nat.div_one _
    cases t0 <;> cases t1 <;> cases root <;> by_cases h : ts = [] <;> simp [h, hm, hd] <;>
      omega
  | n + 2 =>
    have hd : maxSteps / (n + 2) = 0 ↔ maxSteps < n + 2 := by
      rw [Nat.div_eq_zero_iff]; omega
    have hmod : maxSteps < n + 2 → maxSteps % (n + 2) = maxSteps := Nat.mod_eq_of_lt
    generalize maxSteps / (n + 2) = q at *
    generalize maxSteps % (n + 2) = r at *
    cases t0 <;> cases t1 <;> by_cases h : ts = [] <;> by_cases hr : r = 0 <;> simp [h, hr] <;>
      omega

/-- **C112** (partial): if values are saved at least once in `max_steps` steps, or not via `steps`, or if there are also
`t0` or `ts`, tracing works. Missing: `SaveAt(steps=n)` with `max_steps < n`, see `C112_violated`. -/
theorem C112_starts_partial (root : Bool) (maxSteps : Nat) (sub : SubSaveAt T Y O)
    (h : sub.steps ≤ maxSteps ∨ sub.t0 = true ∨ sub.ts ≠ []) : traceOk root maxSteps sub = true := by
  rw [← Bool.not_eq_false, C112_fails_iff]
  rintro ⟨h1, h2, h3, -⟩
  rcases h with h | h | h
  · omega
  · rw [h1] at h; cases h
  · exact h h2

/-- **C112** (violated): `SaveAt(steps=n)` alone fails for every `max_steps < n` (`n >= 2`), instead of saving nothing,
although the solve could not take `n` steps. -/
theorem C112_violated (root : Bool) (maxSteps n : Nat) (hn : 2 ≤ n) (h : maxSteps < n) (fn : T → Y → O) :
    traceOk root maxSteps { t0 := false, t1 := false, ts := [], steps := n, fn := fn } = false :=
  (C112_fails_iff root maxSteps _).2 ⟨rfl, rfl, h, by simp, .inl hn⟩

example : traceOk false 4096 ({ t0 := false, t1 := false, ts := [], steps := 5000, fn := fun _ y => y } :
    SubSaveAt Int Int Int) = false := C112_violated _ _ _ (by decide) (by decide) _
example : traceOk false 4096 ({ t0 := false, t1 := true, ts := [], steps := 5000, fn := fun _ y => y } :
    SubSaveAt Int Int Int) = true := by decide

theorem updateSlice_length {α : Type} (buf : List α) (rep : Nat) (v : α) (idx : Nat) (h : rep ≤ buf.length) :
    (updateSlice buf rep v idx).length = buf.length := by
  simp only [updateSlice, List.length_append, List.length_take, List.length_replicate, List.length_drop]
  omega

/-- **C112**: if tracing works, the arrays returned for every `SubSaveAt` have exactly the allocated size, whatever
happens in the solve: one place for `t0`, one for each of `ts`, one for each `n`-th of `max_steps` steps, and one for `t1`
unless the last of these steps takes it. -/
theorem C112_sizes (cfg : Cfg T Y E D S C O F) (y0 : Y) (tnext : T) (ctrl : C) (ss : S) (mj : Bool)
    (h : ∀ sub ∈ cfg.subs, traceOk cfg.rootFinder.isSome cfg.maxSteps sub = true) :
    (solve cfg y0 tnext ctrl ss mj).saves.map (·.buf.length) = cfg.subs.map fun sub =>
      (if sub.t0 then 1 else 0) + sub.ts.length + (if sub.steps = 0 then 0 else cfg.maxSteps / sub.steps) +
        (if sub.t1 = true ∧ ¬ (sub.steps ≠ 0 ∧ sub.steps ∣ cfg.maxSteps) then 1 else 0) := by
  rw [solve_saves, List.map_map]
  apply List.map_congr_left
  intro sub hsub
  have hsize : allocSize cfg.maxSteps sub = (if sub.t0 then 1 else 0) + sub.ts.length +
      (if sub.steps = 0 then 0 else cfg.maxSteps / sub.steps) +
      (if sub.t1 = true ∧ ¬ (sub.steps ≠ 0 ∧ sub.steps ∣ cfg.maxSteps) then 1 else 0) := by
    unfold allocSize
    have e1 : (if sub.steps ≠ 0 then cfg.maxSteps / sub.steps else 0)
        = if sub.steps = 0 then 0 else cfg.maxSteps / sub.steps := by
      by_cases h0 : sub.steps = 0 <;> simp [h0]
    have e2 : (sub.t1 = true ∧ (sub.steps = 0 ∨ cfg.maxSteps % sub.steps ≠ 0)) ↔
        (sub.t1 = true ∧ ¬ (sub.steps ≠ 0 ∧ sub.steps ∣ cfg.maxSteps)) := by
      rw [Nat.dvd_iff_mod_eq_zero]; tauto
    rw [e1]
    simp only [e2]
  rw [← hsize]
  have htr := h sub hsub
  simp only [traceOk, List.all_eq_true, decide_eq_true_eq] at htr
  have hrep := subLoop_rep cfg y0 tnext ctrl ss mj sub
  have hlen : (subLoop cfg y0 tnext ctrl ss mj sub).buf.length = allocSize cfg.maxSteps sub :=
    hrep.weaken.choose_spec.2.2.2
  -- deleting keeps the size
  have h1 : ∀ sv : SaveState T O, sv.buf.length = allocSize cfg.maxSteps sub →
      (match cfg.rootFinder with
        | none => sv
        | some _ => unsave (solve cfg y0 tnext ctrl ss mj).tfinal sv).buf.length = allocSize cfg.maxSteps sub := by
    intro sv hsv
    cases cfg.rootFinder with
    | none => exact hsv
    | some f => simpa [unsave] using hsv
  have h2 : ∀ sv : SaveState T O, sv.buf.length = allocSize cfg.maxSteps sub →
      (saveIfT0EqT1 cfg (solve cfg y0 tnext ctrl ss mj).yfinal sub sv).buf.length = allocSize cfg.maxSteps sub := by
    intro sv hsv
    unfold saveIfT0EqT1
    split
    · split
      · next hts =>
        have := htr sub.ts.length (by simp [tracedSaves, hts])
        exact (updateSlice_length _ _ _ _ (by rw [hsv]; exact this)).trans hsv
      · exact hsv
    · exact hsv
  have h3 : ∀ sv : SaveState T O, sv.buf.length = allocSize cfg.maxSteps sub → ∀ k tf yf,
      (saveT1 cfg k tf yf sub sv).buf.length = allocSize cfg.maxSteps sub := by
    intro sv hsv k tf yf
    have hone : saveT1Traced cfg.rootFinder.isSome sub = true → ∀ tv yv p,
        (save tv yv sub.fn sv 1 p).buf.length = allocSize cfg.maxSteps sub := fun htrd tv yv p =>
      (updateSlice_length _ _ _ _ (by rw [hsv]; exact htr 1 (by simp [tracedSaves, htrd]))).trans hsv
    unfold saveT1
    unfold saveT1Traced at hone
    dsimp only
    generalize sub.steps = n at hone ⊢
    rcases hroot : cfg.rootFinder with _ | f <;> rw [hroot] at hone <;> dsimp only
    all_goals
      have hite : ∀ (b : Bool) (A : SaveState T O), (b = true → A.buf.length = allocSize cfg.maxSteps sub) →
          (if b = true then A else sv).buf.length = allocSize cfg.maxSteps sub := by
        intro b A hA
        cases b
        · exact hsv
        · exact hA rfl
      apply hite
      intro hp
      apply hone
      match n with
      | 0 => simpa using hp
      | 1 => revert hp; simp
      | n + 2 => rfl
  have h4 := h1 _ hlen
  simp only [Function.comp]
  revert h4
  cases cfg.rootFinder with
  | none => intro h4; exact h3 _ (h2 _ h4) _ _ _
  | some f => intro h4; exact h3 _ (h2 _ h4) _ _ _

/-- Non-vacuity. -/
example : (∀ sub ∈ toyCfg.subs, traceOk toyCfg.rootFinder.isSome toyCfg.maxSteps sub = true) ∧ toyCfg.subs ≠ [] := by
  decide

end Verif
