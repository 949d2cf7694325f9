import Verif.Spec.Conserved
import Verif.Lemmas.Log

/-!
# A solve stays in a set that steps and interpolations do not leave
-/

set_option linter.unusedSectionVars false

namespace Verif

variable {T Y E D S C O F : Type} [LinearOrder T] [LinearOrder F] [Zero F]

/-- The steps whose outcome can be seen: those that are accepted, and, if the time of an event is searched for, all. -/
def Visible (cfg : Cfg T Y E D S C O F) (s : Core T Y D S C F) : Prop :=
  accepted cfg s = true ∨ cfg.rootFinder ≠ none

/-- What has been saved is about states in `I`. -/
def SlotIn (I : Y → Prop) (sub : SubSaveAt T Y O) (x : Slot T O) : Prop :=
  ∀ t v, x = .val t v → ∃ y, I y ∧ v = sub.fn t y

def BufIn (I : Y → Prop) (sub : SubSaveAt T Y O) (s : SaveState T O) : Prop := ∀ x ∈ s.buf, SlotIn I sub x

def SavesIn (I : Y → Prop) (subs : List (SubSaveAt T Y O)) (l : List (SaveState T O)) : Prop :=
  ∀ (i : Nat) (sub : SubSaveAt T Y O) (sv : SaveState T O), subs[i]? = some sub → l[i]? = some sv → BufIn I sub sv

variable {I : Y → Prop}

theorem slotIn_val {sub : SubSaveAt T Y O} {t : T} {y : Y} (h : I y) : SlotIn I sub (.val t (sub.fn t y)) := by
  intro t' v e
  obtain ⟨rfl, rfl⟩ := Slot.val.inj e
  exact ⟨y, h, rfl⟩

theorem bufIn_set {sub : SubSaveAt T Y O} {s : SaveState T O} (h : BufIn I sub s) (i a b : Nat) {x : Slot T O}
    (hx : SlotIn I sub x) : BufIn I sub { tsIndex := a, buf := s.buf.set i x, saveIndex := b } := by
  intro z hz
  rcases List.mem_or_eq_of_mem_set hz with hz | rfl
  · exact h z hz
  · exact hx

theorem bufIn_save {sub : SubSaveAt T Y O} {s : SaveState T O} (h : BufIn I sub s) (t : T) {y : Y} (hy : I y) (n : Nat)
    (p : Bool) : BufIn I sub (save t y sub.fn s n p) := by
  have hv : SlotIn I sub (if p then .val t (sub.fn t y) else readClamped s.buf s.saveIndex) := by
    cases p with
    | true => exact slotIn_val hy
    | false =>
      show SlotIn I sub (readClamped s.buf s.saveIndex)
      unfold readClamped
      cases hr : s.buf[min s.saveIndex (s.buf.length - 1)]? with
      | none => intro t v e; cases e
      | some x => exact h x (List.mem_of_getElem? hr)
  intro z hz
  simp only [save, updateSlice, List.mem_append] at hz
  rcases hz with (hz | hz) | hz
  · exact h z (List.mem_of_mem_take hz)
  · rw [List.eq_of_mem_replicate hz]; exact hv
  · exact h z (List.mem_of_mem_drop hz)

theorem bufIn_tsLoop {sub : SubSaveAt T Y O} {ip : T → Y} {keep : Bool} {b : T} (hip : keep = true → ∀ t, I (ip t))
    (n : Nat) {s : SaveState T O} (h : BufIn I sub s) : BufIn I sub (saveTsLoop sub ip keep b n s) := by
  induction n generalizing s with
  | zero => exact h
  | succ n ih =>
    unfold saveTsLoop
    split
    · split
      · rename_i hk
        simp only [Bool.and_eq_true] at hk
        exact ih (bufIn_set h _ _ _ (slotIn_val (hip hk.1 _)))
      · exact h
    · exact h

theorem bufIn_steps {sub : SubSaveAt T Y O} {i : StepInfo T Y D} (hy : i.keep = true → I i.y) {s : SaveState T O}
    (h : BufIn I sub s) : BufIn I sub (saveSteps sub i s) := by
  unfold saveSteps
  split
  · dsimp only
    split
    · rename_i hk
      simp only [Bool.and_eq_true] at hk
      exact bufIn_set h _ _ _ (slotIn_val (hy hk.1))
    · exact h
  · exact h

theorem savesIn_zipWith {subs : List (SubSaveAt T Y O)} {l : List (SaveState T O)}
    {f : SubSaveAt T Y O → SaveState T O → SaveState T O} (h : SavesIn I subs l)
    (hf : ∀ sub sv, BufIn I sub sv → BufIn I sub (f sub sv)) : SavesIn I subs (List.zipWith f subs l) := by
  intro i sub sv h1 h2
  rw [List.getElem?_zipWith, h1] at h2
  cases hl : l[i]? with
  | none => simp [hl] at h2
  | some x =>
    simp only [hl, Option.some.injEq] at h2
    rw [← h2]
    exact hf _ _ (h i sub x h1 hl)

theorem savesIn_unsave {subs : List (SubSaveAt T Y O)} {l : List (SaveState T O)} (h : SavesIn I subs l) (t : T) :
    SavesIn I subs (l.map (unsave t)) := by
  intro i sub sv h1 h2
  rw [List.getElem?_map] at h2
  cases hl : l[i]? with
  | none => simp [hl] at h2
  | some x =>
    simp only [hl, Option.map_some, Option.some.injEq] at h2
    subst h2
    intro z hz
    simp only [unsave, List.mem_map] at hz
    obtain ⟨w, hw, rfl⟩ := hz
    split
    · intro t v e; cases e
    · exact h i sub x h1 hl w hw

variable {G : S → Prop} {H : D → Prop}

/-- What holds before every step. -/
structure Kept (cfg : Cfg T Y E D S C O F) (I : Y → Prop) (G : S → Prop) (H : D → Prop) (s : LState T Y D S C O F) :
    Prop where
  y : I s.core.y
  state : G s.core.solverState
  event : cfg.rootFinder ≠ none → s.core.numSteps ≠ 0 → H s.core.evDense
  saves : SavesIn I cfg.subs s.saves
  infos : ∀ d, some d ∈ s.dense.infos → H d

theorem kept_body (cfg : Cfg T Y E D S C O F) (hk : cfg.solver.Keeps I G H) (s : LState T Y D S C O F)
    (h : Kept cfg I G H s) (hok : Visible cfg s.core → (solverOut cfg s.core).result.isOkay = true) :
    Kept cfg I G H (body cfg s) := by
  have hs : Visible cfg s.core → I (solverOut cfg s.core).y ∧ G (solverOut cfg s.core).state ∧
      H (solverOut cfg s.core).dense := fun hv => hk.step _ _ _ _ _ h.y h.state (hok hv)
  have hy : I (coreBody cfg s.core).1.y := by
    show I (if accepted cfg s.core then (solverOut cfg s.core).y else s.core.y)
    split
    · rename_i ha; exact (hs (.inl ha)).1
    · exact h.y
  refine ⟨hy, ?_, fun hr _ => (hs (.inr hr)).2.2, ?_, ?_⟩
  · show G (if accepted cfg s.core then (solverOut cfg s.core).state else s.core.solverState)
    split
    · rename_i ha; exact (hs (.inl ha)).2.1
    · exact h.state
  · refine savesIn_zipWith h.saves fun sub sv hsv => bufIn_steps (fun _ => hy) (bufIn_tsLoop ?_ _ hsv)
    intro ha t
    exact hk.interp _ _ _ _ (hs (.inl ha)).2.2
  · intro d hd
    have hd' : some d ∈ (saveDense cfg.dense (coreBody cfg s.core).2 s.dense).infos := hd
    unfold saveDense at hd'
    split at hd'
    · rename_i hb
      simp only [Bool.and_eq_true] at hb
      rcases List.mem_or_eq_of_mem_set hd' with hd' | e
      · exact h.infos d hd'
      · rw [Option.some.inj e]
        exact (hs (.inl hb.2)).2.2
    · exact h.infos d hd'

theorem kept_loop (cfg : Cfg T Y E D S C O F) (hk : cfg.solver.Keeps I G H) (n : Nat) (s : LState T Y D S C O F)
    (h : Kept cfg I G H s)
    (hok : ∀ c ∈ attempts cfg n s.core, Visible cfg c → (solverOut cfg c).result.isOkay = true) :
    Kept cfg I G H (whileLoop cfg n s) := by
  induction n generalizing s with
  | zero => exact h
  | succ n ih =>
    unfold whileLoop
    unfold attempts at hok
    by_cases hc : condFun cfg s.core = true
    · rw [if_pos hc] at hok ⊢
      exact ih _ (kept_body cfg hk s h (hok _ (List.mem_cons_self ..))) fun c hc' => hok c (List.mem_cons_of_mem _ hc')
    · rw [if_neg hc]
      exact h

theorem solve_within (cfg : Cfg T Y E D S C O F) (hk : cfg.solver.Keeps I G H) (y0 : Y) (tnext : T) (ctrl : C) (ss : S)
    (mj : Bool) (hy : I y0) (hG : G ss)
    (hok : ∀ c ∈ history cfg y0 tnext ctrl ss mj, Visible cfg c → (solverOut cfg c).result.isOkay = true) :
    (solve cfg y0 tnext ctrl ss mj).Within cfg y0 I ∧
      (∀ c ∈ history cfg y0 tnext ctrl ss mj, I c.y ∧ G c.solverState) ∧
      I (solve cfg y0 tnext ctrl ss mj).core.y ∧ G (solve cfg y0 tnext ctrl ss mj).core.solverState := by
  set init := initState cfg y0 tnext ctrl ss mj with hinit
  set start : LState T Y D S C O F := { init with
      saves := List.zipWith (fun sub sv => saveT0 cfg init.core.y sub sv) cfg.subs init.saves
      dense := if cfg.dense then { init.dense with ts := init.dense.ts.set 0 (some cfg.t0) }
               else init.dense } with hstart
  have hinf : ∀ d, some d ∈ init.dense.infos → H d := by
    intro d hd
    have hd' : some d ∈ (if cfg.dense then
        ({ ts := List.replicate (cfg.maxSteps + 1) none, infos := List.replicate cfg.maxSteps none,
           index := 0 } : DenseState T D)
      else { ts := [], infos := [], index := 0 }).infos := hd
    split at hd'
    · have := List.eq_of_mem_replicate hd'
      cases this
    · cases hd'
  have h0 : Kept cfg I G H start := by
    refine ⟨hy, hG, fun _ hn => absurd rfl hn, ?_, ?_⟩
    · refine savesIn_zipWith ?_ ?_
      · intro i sub sv h1 h2 x hx
        have h2' : (cfg.subs.map (allocate cfg.maxSteps))[i]? = some sv := h2
        rw [List.getElem?_map, h1] at h2'
        simp only [Option.map_some, Option.some.injEq] at h2'
        subst h2'
        rw [List.eq_of_mem_replicate hx]
        intro t v e; cases e
      · intro sub sv h
        unfold saveT0
        split
        · exact bufIn_save h _ hy _ _
        · exact h
    · intro d hd
      refine hinf d ?_
      have hd' : some d ∈ (if cfg.dense then { init.dense with ts := init.dense.ts.set 0 (some cfg.t0) }
               else init.dense).infos := hd
      split at hd' <;> exact hd'
  have hfin := kept_loop cfg hk cfg.maxSteps start h0 hok
  set fin := whileLoop cfg cfg.maxSteps start with hfin'
  have hyf : I (finalise cfg fin.core).2.1 := by
    unfold finalise
    cases hr : cfg.rootFinder with
    | none => exact hfin.y
    | some find =>
      dsimp only
      split
      · dsimp only
        split
        · exact hfin.y
        · rename_i hn
          exact hk.interp _ _ _ _ (hfin.event (by simp [hr]) hn)
      · exact hfin.y
  have hmain := run_inv cfg (fun c => I c.y ∧ G c.solverState) cfg.maxSteps init.core ⟨hy, hG⟩ (by
    rintro c hc - ⟨h1, h2⟩
    have hs : accepted cfg c = true → I (solverOut cfg c).y ∧ G (solverOut cfg c).state := fun ha =>
      have := hk.step _ _ _ _ _ h1 h2 (hok c hc (.inl ha))
      ⟨this.1, this.2.1⟩
    show I (if accepted cfg c then (solverOut cfg c).y else c.y) ∧
      G (if accepted cfg c then (solverOut cfg c).state else c.solverState)
    split
    · rename_i ha; exact hs ha
    · exact ⟨h1, h2⟩)
  refine ⟨⟨hyf, ?_, ?_⟩, hmain.1, ?_⟩
  · intro i sub sv h1 h2 t v hv
    have hsv : SavesIn I cfg.subs (match cfg.rootFinder with
        | none => fin.saves
        | some _ => fin.saves.map (unsave (finalise cfg fin.core).1)) := by
      split
      · exact hfin.saves
      · exact savesIn_unsave hfin.saves _
    have := savesIn_zipWith hsv (f := fun sub sv => saveT1 cfg fin.core.numAccepted (finalise cfg fin.core).1
      (finalise cfg fin.core).2.1 sub (saveIfT0EqT1 cfg (finalise cfg fin.core).2.1 sub sv)) (by
        intro sub sv h
        have h' : BufIn I sub (saveIfT0EqT1 cfg (finalise cfg fin.core).2.1 sub sv) := by
          unfold saveIfT0EqT1
          split
          · split
            · exact bufIn_save h _ hyf _ _
            · exact h
          · exact h
        have key : ∀ p q : Bool, BufIn I sub (if p || q then save (finalise cfg fin.core).1 (finalise cfg fin.core).2.1
            sub.fn (saveIfT0EqT1 cfg (finalise cfg fin.core).2.1 sub sv) 1 p
            else saveIfT0EqT1 cfg (finalise cfg fin.core).2.1 sub sv) := by
          intro p q
          by_cases hpq : (p || q) = true
          · rw [if_pos hpq]; exact bufIn_save h' _ hyf _ _
          · rw [if_neg hpq]; exact h'
        exact key _ _)
    exact this i sub sv h1 h2 _ hv t v rfl
  · intro t left y he
    unfold DenseInterp.evaluate at he
    by_cases h1 : t = (denseOf cfg y0 (solve cfg y0 tnext ctrl ss mj)).t0IfTrivial ∧
        (denseOf cfg y0 (solve cfg y0 tnext ctrl ss mj)).tsSize = 1
    · rw [if_pos h1] at he
      rw [← Option.some.inj he]
      exact hy
    rw [if_neg h1] at he
    by_cases h2 : (denseOf cfg y0 (solve cfg y0 tnext ctrl ss mj)).outOfBounds t = true
    · rw [if_pos h2] at he
      cases he
    rw [if_neg h2] at he
    dsimp only at he
    split at he
    · rename_i a b info _ _ hi
      rw [← Option.some.inj he]
      exact hk.interp _ _ _ _ (hfin.infos info (List.mem_of_getElem? hi))
    · cases he
  · rw [solve_core]
    exact hmain.2

end Verif
