import Verif.Spec.Clip
import Verif.Lemmas.Log

/-!
# Lemmas on the model of `ClipStepSizeController`
-/

set_option linter.unusedSectionVars false

namespace Verif

section find
variable {T : Type} [LinearOrder T]

theorem findUp_spec (t : T) (ts : List T) (fuel i : Nat) (hi : i ≤ ts.length)
    (hf : ts.length ≤ i + fuel) :
    i ≤ findUp t ts fuel i ∧ findUp t ts fuel i ≤ ts.length ∧
    (∀ k x, i ≤ k → k < findUp t ts fuel i → ts[k]? = some x → x ≤ t) ∧
    (∀ x, ts[findUp t ts fuel i]? = some x → t < x) := by
  induction fuel generalizing i with
  | zero =>
    have : i = ts.length := by omega
    subst this
    refine ⟨le_refl _, le_refl _, ?_, ?_⟩
    · intro k x h1 h2; simp only [findUp] at h2; omega
    · intro x hx; simp [findUp] at hx
  | succ n ih =>
    unfold findUp
    cases hx : ts[i]? with
    | none =>
      refine ⟨le_refl _, hi, ?_, ?_⟩
      · intro k x h1 h2; dsimp only at h2; omega
      · intro x hx'; simp [hx] at hx'
    | some x =>
      have hlt : i < ts.length := by
        rw [List.getElem?_eq_some_iff] at hx; exact hx.1
      dsimp only
      split
      · rename_i hle
        obtain ⟨h1, h2, h3, h4⟩ := ih (i + 1) (by omega) (by omega)
        refine ⟨by omega, h2, ?_, h4⟩
        intro k z hk1 hk2 hz
        by_cases hki : k = i
        · subst hki; rw [hx] at hz; cases hz; exact hle
        · exact h3 k z (by omega) hk2 hz
      · rename_i hle
        refine ⟨le_refl _, hi, ?_, ?_⟩
        · intro k x h1 h2; omega
        · intro z hz; rw [hx] at hz; cases hz; exact not_le.1 hle

theorem findDown_spec (t : T) (ts : List T) (i : Nat) :
    findDown t ts i ≤ i ∧
    (∀ k x, findDown t ts i ≤ k → k < i → ts[k]? = some x → t < x) ∧
    (∀ x, 0 < findDown t ts i → ts[findDown t ts i - 1]? = some x → x ≤ t) := by
  induction i with
  | zero =>
    refine ⟨le_refl _, ?_, ?_⟩
    · intro k x _ h2; omega
    · intro x h; simp [findDown] at h
  | succ i ih =>
    unfold findDown
    cases hx : ts[i]? with
    | none =>
      refine ⟨le_refl _, ?_, ?_⟩
      · intro k x h1 h2; dsimp only at h1; omega
      · intro x _ hx'; simp [hx] at hx'
    | some x =>
      dsimp only
      split
      · rename_i hlt
        obtain ⟨h1, h2, h3⟩ := ih
        refine ⟨by omega, ?_, h3⟩
        intro k z hk1 hk2 hz
        by_cases hki : k = i
        · subst hki; rw [hx] at hz; cases hz; exact hlt
        · exact h2 k z hk1 (by omega) hz
      · rename_i hlt
        refine ⟨le_refl _, ?_, ?_⟩
        · intro k x h1 h2; omega
        · intro z _ hz; simp only [Nat.add_sub_cancel] at hz
          rw [hx] at hz; cases hz; exact not_lt.1 hlt

theorem sorted_get {ts : List T} (hs : ts.Pairwise (· ≤ ·)) {i j : Nat} {x y : T} (hij : i ≤ j)
    (hx : ts[i]? = some x) (hy : ts[j]? = some y) : x ≤ y := by
  rw [List.getElem?_eq_some_iff] at hx hy
  obtain ⟨h1, rfl⟩ := hx
  obtain ⟨h2, rfl⟩ := hy
  rcases Nat.lt_or_eq_of_le hij with h | h
  · exact List.pairwise_iff_getElem.1 hs i j h1 h2 h
  · subst h; exact le_refl _

theorem findIdx_spec (t : T) (ts : List T) (hint : Nat) (hs : ts.Pairwise (· ≤ ·))
    (hh : hint ≤ ts.length) :
    findIdx t ts hint ≤ ts.length ∧
    ∀ k x, ts[k]? = some x → (k < findIdx t ts hint ↔ x ≤ t) := by
  unfold findIdx
  obtain ⟨u1, u2, u3, u4⟩ := findUp_spec t ts ts.length hint hh (by omega)
  generalize findUp t ts ts.length hint = r at *
  obtain ⟨d1, d2, d3⟩ := findDown_spec t ts r
  generalize findDown t ts r = q at *
  refine ⟨by omega, ?_⟩
  intro k x hk
  constructor
  · intro hlt
    have hq : q - 1 < ts.length := by omega
    have := d3 ts[q - 1] (by omega) (List.getElem?_eq_getElem hq)
    exact le_trans (sorted_get hs (by omega : k ≤ q - 1) hk (List.getElem?_eq_getElem hq)) this
  · intro hle
    by_contra hge
    by_cases hr : k < r
    · exact absurd (d2 k x (by omega) hr hk) (not_lt.2 hle)
    · have hkl : k < ts.length := by
        rw [List.getElem?_eq_some_iff] at hk; exact hk.1
      have hrl : r < ts.length := by omega
      have h4 := u4 ts[r] (List.getElem?_eq_getElem hrl)
      have := sorted_get hs (by omega : r ≤ k) (List.getElem?_eq_getElem hrl) hk
      exact absurd (lt_of_lt_of_le h4 this) (not_lt.2 hle)

/-- A position that splits the list into times up to `t` and later ones gives the first time after
`t`. -/
theorem split_first {ts : List T} (hs : ts.Pairwise (· ≤ ·)) (t : T) (i : Nat) (hi : i ≤ ts.length)
    (h : ∀ k x, ts[k]? = some x → (k < i ↔ x ≤ t)) : IsFirstAfter ts t (getT i ts) := by
  unfold getT
  refine ⟨?_, ?_⟩
  · intro hn x hx
    obtain ⟨k, hk⟩ := List.mem_iff_getElem?.1 hx
    have h1 : k < ts.length := by rw [List.getElem?_eq_some_iff] at hk; exact hk.1
    rw [List.getElem?_eq_none_iff] at hn
    exact (h k x hk).1 (by omega)
  · intro x hx
    refine ⟨List.mem_of_getElem? hx, ?_, ?_⟩
    · by_contra hle
      have := (h i x hx).2 (not_lt.1 hle)
      omega
    · intro z hz htz
      obtain ⟨k, hk⟩ := List.mem_iff_getElem?.1 hz
      have : ¬ k < i := fun hlt => absurd ((h k z hk).1 hlt) (not_le.2 htz)
      exact sorted_get hs (by omega) hx hk

theorem split_unique {ts : List T} (t : T) (i j : Nat) (hi : i ≤ ts.length) (hj : j ≤ ts.length)
    (h : ∀ k x, ts[k]? = some x → (k < i ↔ x ≤ t))
    (h' : ∀ k x, ts[k]? = some x → (k < j ↔ x ≤ t)) : i = j := by
  rcases lt_trichotomy i j with hlt | heq | hlt
  · have hl : i < ts.length := by omega
    have := (h i _ (List.getElem?_eq_getElem hl)).2
      ((h' i _ (List.getElem?_eq_getElem hl)).1 hlt)
    omega
  · exact heq
  · have hl : j < ts.length := by omega
    have := (h' j _ (List.getElem?_eq_getElem hl)).2
      ((h j _ (List.getElem?_eq_getElem hl)).1 hlt)
    omega

theorem searchRight_spec (t : T) (ts : List T) (hs : ts.Pairwise (· ≤ ·)) :
    searchRight t ts ≤ ts.length ∧
    ∀ k x, ts[k]? = some x → (k < searchRight t ts ↔ x ≤ t) := by
  unfold searchRight
  refine ⟨List.countP_le_length, ?_⟩
  induction ts with
  | nil => intro k x h; simp at h
  | cons a l ih =>
    intro k x hk
    rw [List.pairwise_cons] at hs
    by_cases ha : a ≤ t
    · rw [List.countP_cons_of_pos (by simpa using ha)]
      cases k with
      | zero => simp at hk; subst hk; simp [ha]
      | succ k =>
        rw [List.getElem?_cons_succ] at hk
        rw [← ih hs.2 k x hk]; omega
    · rw [List.countP_cons_of_neg (by simpa using ha)]
      have h0 : l.countP (fun x => decide (x ≤ t)) = 0 := by
        rw [List.countP_eq_zero]
        intro z hz
        have := hs.1 z hz
        simp only [decide_eq_true_eq, not_le]
        exact lt_of_lt_of_le (not_le.1 ha) this
      rw [h0]
      cases k with
      | zero => simp at hk; subst hk; simp [ha]
      | succ k =>
        rw [List.getElem?_cons_succ] at hk
        have hx := hs.1 x (List.mem_of_getElem? hk)
        have : ¬ x ≤ t := fun h => ha (le_trans hx h)
        simp [this]

end find

section clip
variable {T Y E C : Type} [LinearOrder T] [SuccOrder T] [PredOrder T] [NoMaxOrder T] [NoMinOrder T]

theorem clipT_le (t : T) (o : Option T) (b : Bool) : clipT t o b ≤ t := by
  unfold clipT; split
  · exact le_refl _
  · exact min_le_right _ _

theorem clipT_le_of {ts : List T} {u t : T} {o : Option T} (h : IsFirstAfter ts u o) {s : T}
    (hs : s ∈ ts) (hu : u < s) : clipT t o false ≤ s := by
  cases ho : o with
  | none => exact absurd (h.1 ho s hs) (not_le.2 hu)
  | some x => exact le_trans (min_le_left _ _) ((h.2 x ho).2.2 s hs hu)

theorem clipT_pred_of {ts : List T} {u t : T} {o : Option T} (h : IsFirstAfter ts u o) {s : T}
    (hs : s ∈ ts) (hu : u < s) : clipT t o true ≤ Order.pred s := by
  cases ho : o with
  | none => exact absurd (h.1 ho s hs) (not_le.2 hu)
  | some x =>
    exact le_trans (min_le_left _ _) (Order.pred_le_pred ((h.2 x ho).2.2 s hs hu))

theorem lt_clipT {ts : List T} {u t m : T} {o : Option T} (h : IsFirstAfter ts u o) (hm : m < t)
    (hs : ∀ s ∈ ts, u < s → m < s) : m < clipT t o false := by
  cases ho : o with
  | none => exact hm
  | some x => exact lt_min (hs x (h.2 x ho).1 (h.2 x ho).2.1) hm

theorem lt_clipT_pred {ts : List T} {u t m : T} {o : Option T} (h : IsFirstAfter ts u o) (hm : m < t)
    (hs : ∀ s ∈ ts, u < s → m < Order.pred s) : m < clipT t o true := by
  cases ho : o with
  | none => exact hm
  | some x => exact lt_min (hs x (h.2 x ho).1 (h.2 x ho).2.1) hm

theorem bump_none {t : T} {ts : List T} (h1 : t ∉ ts) (h2 : Order.succ t ∉ ts) :
    bumpT0 t ts = (t, false) := by
  have e1 : ts.any (fun x => decide (Order.succ t = x)) = false := by
    rw [List.any_eq_false]; intro x hx; simp only [decide_eq_true_eq]; rintro rfl; exact h2 hx
  have e2 : ts.any (fun x => decide (t = x)) = false := by
    rw [List.any_eq_false]; intro x hx; simp only [decide_eq_true_eq]; rintro rfl; exact h1 hx
  simp [bumpT0, e1, e2]

theorem bump_on {t : T} {ts : List T} (h1 : t ∈ ts) : bumpT0 t ts = (Order.succ t, true) := by
  have e2 : ts.any (fun x => decide (t = x)) = true := by
    rw [List.any_eq_true]; exact ⟨t, h1, by simp⟩
  simp [bumpT0, e2]

theorem bump_before {t : T} {ts : List T} (h1 : t ∉ ts) (h2 : Order.succ t ∈ ts) :
    bumpT0 t ts = (Order.succ (Order.succ t), true) := by
  have e1 : ts.any (fun x => decide (Order.succ t = x)) = true := by
    rw [List.any_eq_true]; exact ⟨_, h2, by simp⟩
  have e2 : ts.any (fun x => decide (t = x)) = false := by
    rw [List.any_eq_false]; intro x hx; simp only [decide_eq_true_eq]; rintro rfl; exact h1 hx
  simp [bumpT0, e1, e2]

/-- The three cases of `_bump_next_t0`. -/
theorem bump_cases (t : T) (ts : List T) :
    (t ∉ ts ∧ Order.succ t ∉ ts ∧ bumpT0 t ts = (t, false)) ∨
    (t ∈ ts ∧ bumpT0 t ts = (Order.succ t, true)) ∨
    (t ∉ ts ∧ Order.succ t ∈ ts ∧ bumpT0 t ts = (Order.succ (Order.succ t), true)) := by
  by_cases h1 : t ∈ ts
  · exact Or.inr (Or.inl ⟨h1, bump_on h1⟩)
  · by_cases h2 : Order.succ t ∈ ts
    · exact Or.inr (Or.inr ⟨h1, h2, bump_before h1 h2⟩)
    · exact Or.inl ⟨h1, h2, bump_none h1 h2⟩

theorem le_bump (t : T) (ts : List T) : t ≤ (bumpT0 t ts).1 := by
  rcases bump_cases t ts with ⟨_, _, h⟩ | ⟨_, h⟩ | ⟨_, _, h⟩ <;> rw [h]
  · exact Order.le_succ t
  · exact le_trans (Order.le_succ t) (Order.le_succ _)

/-- A listed time that the bump does not leave ahead is one of the two next floats. -/
theorem bump_ge {t s : T} {ts : List T} (hts : t < s) (hb : s ≤ (bumpT0 t ts).1) :
    s = Order.succ t ∨ (s = Order.succ (Order.succ t) ∧ Order.succ t ∈ ts) := by
  have h1 := Order.succ_le_of_lt hts
  rcases bump_cases t ts with ⟨_, _, h⟩ | ⟨_, h⟩ | ⟨_, h2, h⟩ <;> rw [h] at hb
  · exact absurd hb (not_le.2 hts)
  · exact Or.inl (le_antisymm hb h1)
  · rcases eq_or_lt_of_le h1 with h3 | h3
    · exact Or.inl h3.symm
    · exact Or.inr ⟨le_antisymm hb (Order.succ_le_of_lt h3), h2⟩

theorem adaptStep_first {c : Clip T} {ts : List T} (hc : c.stepTs = some ts)
    (hs : ts.Pairwise (· ≤ ·)) (idx : Nat) (hi : idx ≤ ts.length) (a b : T) :
    (c.adaptStep idx a b).1 ≤ ts.length ∧ ∃ o, IsFirstAfter ts (bumpT0 a ts).1 o ∧
      (c.adaptStep idx a b).2 = clipT b o false := by
  unfold Clip.adaptStep
  rw [hc]
  obtain ⟨h1, h2⟩ := findIdx_spec (bumpT0 a ts).1 ts idx hs hi
  exact ⟨h1, _, split_first hs _ _ h1 h2, rfl⟩

theorem adaptStep_le (c : Clip T) (idx : Nat) (a b : T) : (c.adaptStep idx a b).2 ≤ b := by
  unfold Clip.adaptStep
  split
  · exact le_refl _
  · exact clipT_le _ _ _

theorem adaptReject_le (c : Clip T) (idx : Int) (ts : List T) (t1 nt1 : T) (keep : Bool)
    (r : Result) : (c.adaptReject idx ts t1 nt1 keep r).2.2.1 ≤ nt1 := by
  unfold Clip.adaptReject
  split
  · exact le_refl _
  · exact clipT_le _ _ _

theorem adaptJump_none {c : Clip T} (hc : c.jumpTs = none) (idx : Nat) (a b : T) (mj : Bool) :
    c.adaptJump idx a b mj = (idx, a, b, mj) := by
  unfold Clip.adaptJump; rw [hc]

theorem adaptJump_first {c : Clip T} {ts : List T} (hc : c.jumpTs = some ts)
    (hs : ts.Pairwise (· ≤ ·)) (idx : Nat) (hi : idx ≤ ts.length) (a b : T) (mj : Bool) :
    ∃ i o, i ≤ ts.length ∧ IsFirstAfter ts (bumpT0 a ts).1 o ∧
      c.adaptJump idx a b mj = (i, (bumpT0 a ts).1,
        clipT (max (Order.succ (bumpT0 a ts).1) b) o true, mj || (bumpT0 a ts).2) := by
  unfold Clip.adaptJump
  rw [hc]
  obtain ⟨h1, h2⟩ := findIdx_spec (bumpT0 a ts).1 ts idx hs hi
  exact ⟨_, _, h1, split_first hs _ _ h1 h2, rfl⟩

/-- New start and jump flag proposed: the inner controller's, bumped past the jumps. -/
theorem adapt_tprev (c : Clip T) (inner : Controller T Y E C) (a b : T) (y0 y1 : Y) (e : E)
    (st : ClipState T C) :
    (c.adapt inner a b y0 y1 e st).tprev
      = (bumpT0 (inner.adapt a b y0 y1 e st.inner).tprev c.jumps).1 ∧
    (c.adapt inner a b y0 y1 e st).madeJump
      = ((inner.adapt a b y0 y1 e st.inner).madeJump ||
          (bumpT0 (inner.adapt a b y0 y1 e st.inner).tprev c.jumps).2) := by
  unfold Clip.adapt Clip.adaptJump Clip.jumps
  cases c.jumpTs with
  | none => simp [bumpT0]
  | some ts => exact ⟨rfl, rfl⟩

theorem adapt_keep (c : Clip T) (inner : Controller T Y E C) (a b : T) (y0 y1 : Y) (e : E)
    (st : ClipState T C) :
    (c.adapt inner a b y0 y1 e st).keep = (inner.adapt a b y0 y1 e st.inner).keep := rfl

/-- Cached indices stay valid. -/
theorem adapt_inRange (c : Clip T) (hs : c.Sorted) (inner : Controller T Y E C) (a b : T) (y0 y1 : Y)
    (e : E) (st : ClipState T C) (hr : st.InRange c) :
    (c.adapt inner a b y0 y1 e st).state.InRange c := by
  constructor
  · have : (c.adapt inner a b y0 y1 e st).state.stepIdx = (c.adaptStep st.stepIdx
      (inner.adapt a b y0 y1 e st.inner).tprev (inner.adapt a b y0 y1 e st.inner).tnext).1 := rfl
    rw [this]
    cases hc : c.stepTs with
    | none =>
      have h := hr.step
      unfold Clip.adaptStep; rw [hc]; exact h
    | some ts =>
      have h := hr.step
      simp only [Clip.steps, hc, Option.getD_some] at h ⊢
      exact (adaptStep_first hc (hs.step ts (by simp [hc])) _ h _ _).1
  · cases hc : c.jumpTs with
    | none =>
      have h := hr.jump
      have : (c.adapt inner a b y0 y1 e st).state.jumpIdx = st.jumpIdx := by
        unfold Clip.adapt; simp [adaptJump_none hc]
      rw [this]; exact h
    | some ts =>
      have h := hr.jump
      simp only [Clip.jumps, hc, Option.getD_some] at h ⊢
      obtain ⟨i, o, h1, _, h3⟩ := adaptJump_first hc (hs.jump ts (by simp [hc])) _ h
        (inner.adapt a b y0 y1 e st.inner).tprev
        (c.adaptStep st.stepIdx (inner.adapt a b y0 y1 e st.inner).tprev
          (inner.adapt a b y0 y1 e st.inner).tnext).2 (inner.adapt a b y0 y1 e st.inner).madeJump
      have : (c.adapt inner a b y0 y1 e st).state.jumpIdx = i := by
        unfold Clip.adapt; simp [h3]
      rw [this]; exact h1

/-- Proposed steps end before the next jump. -/
theorem adapt_tnext_jump (c : Clip T) (hs : c.Sorted) (inner : Controller T Y E C) (a b : T)
    (y0 y1 : Y) (e : E) (st : ClipState T C) (hr : st.InRange c) (j : T) (hj : j ∈ c.jumps)
    (hlt : (c.adapt inner a b y0 y1 e st).tprev < j) :
    (c.adapt inner a b y0 y1 e st).tnext ≤ Order.pred j := by
  cases hc : c.jumpTs with
  | none => simp [Clip.jumps, hc] at hj
  | some ts =>
    have h := hr.jump
    rw [(adapt_tprev c inner a b y0 y1 e st).1] at hlt
    simp only [Clip.jumps, hc, Option.getD_some] at h hj hlt
    obtain ⟨i, o, h1, h2, h3⟩ := adaptJump_first hc (hs.jump ts (by simp [hc])) _ h
      (inner.adapt a b y0 y1 e st.inner).tprev
      (c.adaptStep st.stepIdx (inner.adapt a b y0 y1 e st.inner).tprev
        (inner.adapt a b y0 y1 e st.inner).tnext).2 (inner.adapt a b y0 y1 e st.inner).madeJump
    refine le_trans (adaptReject_le _ _ _ _ _ _ _) ?_
    rw [h3]
    exact clipT_pred_of h2 hj hlt

/-- Proposed steps end at or before the next requested time, unless it is very near. -/
theorem adapt_tnext_step (c : Clip T) (hs : c.Sorted) (inner : Controller T Y E C) (a b : T)
    (y0 y1 : Y) (e : E) (st : ClipState T C) (hr : st.InRange c) (s : T) (hm : s ∈ c.steps)
    (hlt : (inner.adapt a b y0 y1 e st.inner).tprev < s) :
    Near c (inner.adapt a b y0 y1 e st.inner).tprev s ∨
    ((c.adapt inner a b y0 y1 e st).tnext ≤ s ∧ (c.adapt inner a b y0 y1 e st).tprev < s) := by
  by_cases hnear : Near c (inner.adapt a b y0 y1 e st.inner).tprev s
  · exact Or.inl hnear
  right
  have hs2 : Order.succ (inner.adapt a b y0 y1 e st.inner).tprev < s := by
    rcases eq_or_lt_of_le (Order.succ_le_of_lt hlt) with h | h
    · exact absurd (Or.inl h.symm) hnear
    · exact h
  cases hc : c.stepTs with
  | none => simp [Clip.steps, hc] at hm
  | some ts =>
    have hr1 := hr.step
    simp only [Clip.steps, hc, Option.getD_some] at hr1 hm
    obtain ⟨h1, o, h2, h3⟩ := adaptStep_first hc (hs.step ts (by simp [hc])) _ hr1
      (inner.adapt a b y0 y1 e st.inner).tprev (inner.adapt a b y0 y1 e st.inner).tnext
    have hbs : (bumpT0 (inner.adapt a b y0 y1 e st.inner).tprev ts).1 < s := by
      by_contra hge
      rcases bump_ge hlt (not_lt.1 hge) with h | ⟨h, h'⟩
      · exact hnear (Or.inl h)
      · exact hnear (Or.inr ⟨h, Or.inl (by simpa [Clip.steps, hc] using h')⟩)
    have hle : (c.adaptStep st.stepIdx (inner.adapt a b y0 y1 e st.inner).tprev
        (inner.adapt a b y0 y1 e st.inner).tnext).2 ≤ s := by
      rw [h3]; exact clipT_le_of h2 hm hbs
    have hbj : (bumpT0 (inner.adapt a b y0 y1 e st.inner).tprev c.jumps).1 < s := by
      by_contra hge
      rcases bump_ge hlt (not_lt.1 hge) with h | ⟨h, h'⟩
      · exact hnear (Or.inl h)
      · exact hnear (Or.inr ⟨h, Or.inr h'⟩)
    refine ⟨?_, by rw [(adapt_tprev c inner a b y0 y1 e st).1]; exact hbj⟩
    refine le_trans (adaptReject_le _ _ _ _ _ _ _) ?_
    cases hj : c.jumpTs with
    | none => rw [adaptJump_none hj]; exact hle
    | some js =>
      have hr2 := hr.jump
      simp only [Clip.jumps, hj, Option.getD_some] at hr2 hbj
      obtain ⟨i, o', _, _, h6⟩ := adaptJump_first hj (hs.jump js (by simp [hj])) _ hr2
        (inner.adapt a b y0 y1 e st.inner).tprev
        (c.adaptStep st.stepIdx (inner.adapt a b y0 y1 e st.inner).tprev
          (inner.adapt a b y0 y1 e st.inner).tnext).2 (inner.adapt a b y0 y1 e st.inner).madeJump
      rw [h6]
      exact le_trans (clipT_le _ _ _) (max_le (Order.succ_le_of_lt hbj) hle)

theorem init_inRange (c : Clip T) (hs : c.Sorted) (t0 : T) (inner : T × C) :
    (c.init t0 inner).2.InRange c := by
  constructor
  · unfold Clip.init Clip.steps
    cases hc : c.stepTs with
    | none => simp
    | some ts => exact (searchRight_spec t0 ts (hs.step ts (by simp [hc]))).1
  · unfold Clip.init Clip.jumps
    cases hc : c.jumpTs with
    | none => simp
    | some ts => exact (searchRight_spec t0 ts (hs.jump ts (by simp [hc]))).1

theorem init_step (c : Clip T) (hs : c.Sorted) (t0 : T) (inner : T × C) (s : T) (hm : s ∈ c.steps)
    (hlt : t0 < s) : (c.init t0 inner).1 ≤ s := by
  cases hc : c.stepTs with
  | none => simp [Clip.steps, hc] at hm
  | some ts =>
    simp only [Clip.steps, hc, Option.getD_some] at hm
    obtain ⟨h1, h2⟩ := searchRight_spec t0 ts (hs.step ts (by simp [hc]))
    have h3 : clipT inner.1 (getT (searchRight t0 ts) ts) false ≤ s :=
      clipT_le_of (split_first (hs.step ts (by simp [hc])) t0 _ h1 h2) hm hlt
    have h4 : (c.init t0 inner).1 ≤ clipT inner.1 (getT (searchRight t0 ts) ts) false := by
      unfold Clip.init
      simp only [hc]
      cases c.jumpTs with
      | none => exact le_refl _
      | some js => exact clipT_le _ _ _
    exact le_trans h4 h3

theorem init_jump (c : Clip T) (hs : c.Sorted) (t0 : T) (inner : T × C) (j : T) (hm : j ∈ c.jumps)
    (hlt : t0 < j) : (c.init t0 inner).1 ≤ Order.pred j := by
  cases hc : c.jumpTs with
  | none => simp [Clip.jumps, hc] at hm
  | some ts =>
    simp only [Clip.jumps, hc, Option.getD_some] at hm
    obtain ⟨h1, h2⟩ := searchRight_spec t0 ts (hs.jump ts (by simp [hc]))
    unfold Clip.init
    simp only [hc]
    exact clipT_pred_of (split_first (hs.jump ts (by simp [hc])) t0 _ h1 h2) hm hlt

end clip

end Verif

namespace Verif

/-! ### The buffer of rejected times is a stack -/

section reject
variable {T Y E C : Type} [LinearOrder T]

/-- The buffer, from the index on, holds the stack. -/
structure RejRep (n : Nat) (st : List T) (idx : Int) (ts : List T) : Prop where
  nonneg : 0 ≤ idx
  le : idx ≤ n
  len : ts.length = n
  drop : ts.drop idx.toNat = st

theorem RejRep.length {n : Nat} {st : List T} {idx : Int} {ts : List T} (h : RejRep n st idx ts) :
    (st.length : Int) = n - idx := by
  have h1 := h.nonneg
  have h2 := h.le
  rw [← h.drop, List.length_drop, h.len]; omega

theorem RejRep.get {n : Nat} {st : List T} {idx : Int} {ts : List T} (h : RejRep n st idx ts) :
    getTR idx ts = st.head? := by
  have h1 := h.nonneg
  unfold getTR
  rw [if_neg (by omega), ← h.drop, List.head?_drop]

theorem RejRep.pop {n : Nat} {st : List T} {idx : Int} {ts : List T} (h : RejRep n st idx ts)
    (hne : st ≠ []) : RejRep n st.tail (idx + 1) ts := by
  have h1 := h.nonneg
  have h2 := h.le
  have h3 := h.length
  have h4 : 0 < st.length := List.length_pos_iff.2 hne
  refine ⟨by omega, by omega, h.len, ?_⟩
  have : (idx + 1).toNat = idx.toNat + 1 := by omega
  rw [this, ← h.drop, List.tail_drop]

theorem RejRep.push {n : Nat} {st : List T} {idx : Int} {ts : List T} (h : RejRep n st idx ts)
    (hlt : st.length < n) (b : T) : RejRep n (b :: st) (idx - 1) (setTR (idx - 1) b ts) := by
  have h1 := h.nonneg
  have h2 := h.le
  have h3 := h.length
  have hi : ¬ idx - 1 < 0 := by omega
  unfold setTR
  rw [if_neg hi]
  refine ⟨by omega, by omega, by simp [h.len], ?_⟩
  have hlen := h.len
  obtain ⟨k, hk⟩ : ∃ k, idx.toNat = k + 1 := ⟨idx.toNat - 1, by omega⟩
  have e : (idx - 1).toNat = k := by omega
  rw [e]
  have hkl : k < (ts.set k b).length := by simp; omega
  rw [List.drop_eq_getElem_cons hkl]
  simp only [List.getElem_set_self]
  congr 1
  rw [← h.drop, hk, List.drop_set_of_lt (by omega)]

variable [SuccOrder T] [PredOrder T] [NoMaxOrder T] [NoMinOrder T]

/-- The stack before a possible push. -/
def popped (st : List T) (b : T) : List T := if st.head? = some b then st.tail else st

theorem pend_eq (st : List T) (b : T) (keep : Bool) :
    pend st b keep = if keep then popped st b else b :: popped st b := rfl

theorem RejRep.popped {n : Nat} {st : List T} {idx : Int} {ts : List T} (h : RejRep n st idx ts)
    (b : T) : RejRep n (popped st b) (idx + (if getTR idx ts = some b then 1 else 0)) ts := by
  rw [h.get]
  unfold Verif.popped
  split
  · rename_i hh
    exact h.pop (by rintro rfl; simp at hh)
  · simpa using h

/-- What the block dealing with rejected times does, in terms of the stack. -/
theorem adaptReject_spec {c : Clip T} {n : Nat} (hc : c.storeRejected = some n) {st : List T}
    {idx : Int} {ts : List T} (h : RejRep n st idx ts) (t1 nt1 : T) (keep : Bool) (r : Result)
    (hr : r.isOkay = true) :
    ((∃ x, st.head? = some x ∧ x < t1) →
      (c.adaptReject idx ts t1 nt1 keep r).2.2.2 = .internalError) ∧
    ((∀ x, st.head? = some x → t1 ≤ x) → n < (pend st t1 keep).length →
      (c.adaptReject idx ts t1 nt1 keep r).2.2.2 = .maxStepsRejected) ∧
    ((∀ x, st.head? = some x → t1 ≤ x) → (pend st t1 keep).length ≤ n →
      (c.adaptReject idx ts t1 nt1 keep r).2.2.2 = r) ∧
    ((pend st t1 keep).length ≤ n →
      RejRep n (pend st t1 keep) (c.adaptReject idx ts t1 nt1 keep r).1
        (c.adaptReject idx ts t1 nt1 keep r).2.1 ∧
      (c.adaptReject idx ts t1 nt1 keep r).2.2.1
        = clipT nt1 (pend st t1 keep).head? false) := by
  have hp := h.popped t1
  have hlen := hp.length
  have hle := hp.le
  have hnn := hp.nonneg
  have hget := h.get
  unfold Clip.adaptReject
  rw [hc]
  dsimp only
  generalize hidx : idx + (if getTR idx ts = some t1 then 1 else 0) = idx' at *
  rw [hget]
  refine ⟨?_, ?_, ?_, ?_⟩
  · rintro ⟨x, hx, hlt⟩
    rw [hx]
    have hi : Result.internalError.isOkay = false := rfl
    simp [hlt, hr, hi, Result.where']
  · intro hle' hn
    have hov : st.head?.any (fun r => decide (r < t1)) = false := by
      cases hh : st.head? with
      | none => rfl
      | some x => simpa using hle' x hh
    have hneg : idx' - (if keep = true then 0 else 1) < 0 := by
      rw [pend_eq] at hn
      cases keep with
      | true => simp only [if_true] at hn; omega
      | false => simp at hn ⊢; omega
    rw [hov]
    simp only [Bool.false_and, Result.where', Bool.false_eq_true, if_false, hneg, decide_true, hr,
      Bool.and_self, if_true]
  · intro hle' hn
    have hov : st.head?.any (fun r => decide (r < t1)) = false := by
      cases hh : st.head? with
      | none => rfl
      | some x => simpa using hle' x hh
    have hneg : ¬ idx' - (if keep = true then 0 else 1) < 0 := by
      rw [pend_eq] at hn
      cases keep with
      | true => simp only [if_true] at hn ⊢; omega
      | false => simp at hn ⊢; omega
    rw [hov]
    simp only [Bool.false_and, Result.where', Bool.false_eq_true, if_false, hneg, decide_false]
  · intro hn
    rw [pend_eq] at hn ⊢
    cases keep with
    | true =>
      simp only [if_true, Int.sub_zero] at hn ⊢
      exact ⟨hp, by rw [hp.get]⟩
    | false =>
      simp only [Bool.false_eq_true, if_false, List.length_cons] at hn ⊢
      have := hp.push (by omega) t1
      exact ⟨this, by rw [this.get]⟩

/-- The result codes the block can produce. -/
theorem adaptReject_result (c : Clip T) (idx : Int) (ts : List T) (t1 nt1 : T) (keep : Bool)
    (r : Result) :
    (c.adaptReject idx ts t1 nt1 keep r).2.2.2 = r ∨
    (c.adaptReject idx ts t1 nt1 keep r).2.2.2 = .internalError ∨
    (c.adaptReject idx ts t1 nt1 keep r).2.2.2 = .maxStepsRejected := by
  have hw : ∀ (p : Bool) (a b : Result), Result.where' p a b = a ∨ Result.where' p a b = b := by
    intro p a b; cases p <;> simp [Result.where']
  unfold Clip.adaptReject
  split
  · exact Or.inl rfl
  · dsimp only
    rcases hw _ Result.maxStepsRejected _ with h | h
    · rw [h]; simp
    · rw [h]
      rcases hw _ Result.internalError r with h' | h'
      · rw [h']; simp
      · rw [h']; simp

theorem popped_mem {st : List T} {b r : T} (hr : r ∈ st) (hne : r ≠ b) : r ∈ popped st b := by
  unfold popped
  split
  · rename_i hh
    cases st with
    | nil => simp at hr
    | cons x l =>
      simp only [List.head?_cons, Option.some.injEq] at hh
      rcases List.mem_cons.1 hr with h | h
      · exact absurd (h.trans hh) hne
      · exact h
  · exact hr

theorem mem_popped {st : List T} {b r : T} (hr : r ∈ popped st b) : r ∈ st := by
  unfold popped at hr
  split at hr
  · exact List.mem_of_mem_tail hr
  · exact hr

theorem pend_mem {st : List T} {b r : T} {keep : Bool} (hr : r ∈ st) (hne : r ≠ b ∨ keep = false) :
    r ∈ pend st b keep := by
  rw [pend_eq]
  cases keep with
  | true =>
    simp only [if_true]
    exact popped_mem hr (hne.resolve_right (by simp))
  | false =>
    simp only [Bool.false_eq_true, if_false, List.mem_cons]
    by_cases h : r = b
    · exact Or.inl h
    · exact Or.inr (popped_mem hr h)

/-- As long as no attempt passes the top of the stack, the stack stays strictly increasing. -/
theorem pend_sorted {st : List T} (hs : st.Pairwise (· < ·)) (b : T) (keep : Bool)
    (hb : ∀ x, st.head? = some x → b ≤ x) : (pend st b keep).Pairwise (· < ·) := by
  have h1 : (popped st b).Pairwise (· < ·) ∧ ∀ x ∈ popped st b, b < x := by
    unfold popped
    cases st with
    | nil => simp
    | cons x l =>
      rw [List.pairwise_cons] at hs
      have hx := hb x rfl
      split
      · rename_i hh
        simp only [List.head?_cons, Option.some.injEq] at hh
        subst hh
        exact ⟨hs.2, hs.1⟩
      · rename_i hh
        simp only [List.head?_cons, Option.some.injEq] at hh
        have hlt : b < x := lt_of_le_of_ne hx (fun h => hh h.symm)
        refine ⟨List.pairwise_cons.2 hs, ?_⟩
        intro z hz
        rcases List.mem_cons.1 hz with rfl | hz
        · exact hlt
        · exact lt_trans hlt (hs.1 z hz)
  rw [pend_eq]
  cases keep with
  | true => exact h1.1
  | false => exact List.pairwise_cons.2 ⟨h1.2, h1.1⟩

theorem popped_gt {st : List T} (hs : st.Pairwise (· < ·)) (b : T)
    (hb : ∀ x, st.head? = some x → b ≤ x) : ∀ x ∈ popped st b, b < x := by
  have h := pend_sorted hs b false hb
  rw [pend_eq] at h
  simp only [Bool.false_eq_true, if_false] at h
  exact (List.pairwise_cons.1 h).1

theorem head_le {st : List T} (hs : st.Pairwise (· < ·)) {r : T} (hr : r ∈ st) :
    ∃ x, st.head? = some x ∧ x ≤ r := by
  cases st with
  | nil => simp at hr
  | cons x l =>
    refine ⟨x, rfl, ?_⟩
    rw [List.pairwise_cons] at hs
    rcases List.mem_cons.1 hr with rfl | h
    · exact le_refl _
    · exact le_of_lt (hs.1 r h)

end reject

/-! ### Runs -/

section run
variable {T Y E D S C O F : Type} [LinearOrder T] [LinearOrder F] [Zero F]

/-- What follows an attempt are the attempts made from its successor state. -/
theorem attempts_split (cfg : Cfg T Y E D S C O F) (n : Nat) (st : Core T Y D S C F)
    (l : List (Core T Y D S C F)) (s : Core T Y D S C F) (l' : List (Core T Y D S C F))
    (h : attempts cfg n st = l ++ s :: l') :
    ∃ m, l' = attempts cfg m (coreBody cfg s).1 ∧
      coreRun cfg n st = coreRun cfg m (coreBody cfg s).1 := by
  induction n generalizing st l with
  | zero => simp [attempts] at h
  | succ n ih =>
    by_cases hc : condFun cfg st = true
    · simp only [attempts, coreRun, hc, if_true] at h ⊢
      cases l with
      | nil =>
        simp only [List.nil_append, List.cons.injEq] at h
        obtain ⟨h1, h2⟩ := h
        subst h1
        exact ⟨n, h2.symm, rfl⟩
      | cons a l =>
        simp only [List.cons_append, List.cons.injEq] at h
        exact ih _ l h.2
    · simp [attempts, hc] at h

/-- A run that ends successfully was successful all along. -/
theorem run_successful (cfg : Cfg T Y E D S C O F) (n : Nat) (st : Core T Y D S C F)
    (h : (coreRun cfg n st).result = .successful) :
    ∀ s ∈ attempts cfg n st, (coreBody cfg s).1.result = .successful ∧
      (adaptOut cfg s).result = .successful := by
  intro s hs
  have h1 : (coreBody cfg s).1.result.isSuccessful = true := by
    by_contra hne
    have := (attempts_last cfg n st s hs (by simpa using hne)).2
    rw [this] at h
    rw [h] at hne
    exact hne rfl
  have h1' : (coreBody cfg s).1.result = .successful := by
    simpa [Result.isSuccessful] using h1
  refine ⟨h1', ?_⟩
  have h2 := coreBody_result cfg s (condFun_succ cfg s (attempts_cond cfg n st s hs))
  rw [h1'] at h2
  split at h2
  · simp at h2
  · split at h2
    · rename_i h3; rw [← h2] at h3; simp [Result.isOkay, Result.isSuccessful] at h3
    · exact h2.symm

end run

end Verif
