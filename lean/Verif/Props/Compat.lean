import Verif.Spec.Compat
import Mathlib.Tactic.Linarith

/-!
# C109: the terms are checked against the solver
-/

namespace Verif.Compat

variable {τ : Type} {W : World τ}

/-! ## Types -/

mutual
theorem better_fits (x : τ) : ∀ a, betterIsinstance W x a = .ok true → Fits W x a
  | .any, _ => .any
  | .cls c, h => .cls (by simpa [betterIsinstance] using h)
  | .generic c, h => .generic (by simpa [betterIsinstance] using h)
  | .special, h => by simp [betterIsinstance] at h
  | .union l, h => by
    obtain ⟨a, ha, hf⟩ := any_fits x l (by simpa only [betterIsinstance] using h)
    exact .union ha hf
theorem any_fits (x : τ) : ∀ l, anyInstance W x l = .ok true → ∃ a ∈ l, Fits W x a
  | [], h => by simp [anyInstance] at h
  | a :: l, h => by
    rw [anyInstance] at h
    split at h
    · cases h
    · next ha => exact ⟨a, by simp, better_fits x a ha⟩
    · obtain ⟨b, hb, hf⟩ := any_fits x l h
      exact ⟨b, by simp [hb], hf⟩
end

mutual
theorem better_total (x : τ) : ∀ a : Annot, a.Plain → ∃ b, betterIsinstance W x a = .ok b ∧ (Fits W x a → b = true)
  | .any, _ => ⟨true, rfl, fun _ => rfl⟩
  | .cls c, _ => ⟨W.val x c, rfl, fun h => by cases h; assumption⟩
  | .generic c, _ => ⟨W.val x c, rfl, fun h => by cases h; assumption⟩
  | .special, h => by cases h
  | .union l, h => by
    have hl : ∀ a ∈ l, a.Plain := by cases h; assumption
    obtain ⟨b, hb, hf⟩ := any_total x l hl
    refine ⟨b, by simpa only [betterIsinstance] using hb, fun h => ?_⟩
    cases h with
    | union ha h => exact hf ⟨_, ha, h⟩
theorem any_total (x : τ) : ∀ l : List Annot, (∀ a ∈ l, a.Plain) →
    ∃ b, anyInstance W x l = .ok b ∧ ((∃ a ∈ l, Fits W x a) → b = true)
  | [], _ => ⟨false, rfl, by simp⟩
  | a :: l, h => by
    obtain ⟨b, hb, hf⟩ := better_total x a (h a (by simp))
    rw [anyInstance, hb]
    cases b with
    | true => exact ⟨true, rfl, fun _ => rfl⟩
    | false =>
      obtain ⟨b', hb', hf'⟩ := any_total x l fun a ha => h a (by simp [ha])
      refine ⟨b', hb', ?_⟩
      rintro ⟨c, hc, hfc⟩
      rcases List.mem_cons.1 hc with rfl | hc
      · exact absurd (hf hfc) (by simp)
      · exact hf' ⟨c, hc, hfc⟩
end

/-- **C109**: `better_isinstance` decides whether a value has a type, for all types built from classes,
subscripted classes and unions, nested in any way. -/
theorem C109_types (x : τ) (a : Annot) (h : a.Plain) :
    ∃ b, betterIsinstance W x a = .ok b ∧ (b = true ↔ Fits W x a) := by
  obtain ⟨b, hb, hf⟩ := better_total (W := W) x a h
  exact ⟨b, hb, fun e => better_fits x a (by rw [hb, e]), hf⟩

example : (Annot.union [.cls 3, .union [.generic 4, .any]]).Plain :=
  .union fun a ha => by
    simp only [List.mem_cons, List.not_mem_nil, or_false] at ha
    rcases ha with rfl | rfl
    · exact .cls 3
    · refine .union fun b hb => ?_
      simp only [List.mem_cons, List.not_mem_nil, or_false] at hb
      rcases hb with rfl | rfl
      · exact .generic 4
      · exact .any

/-! ## Terms -/

theorem leaf_sound {c : Nat} {va ca : Annot} {t : Terms τ} {levy : Bool} {y : State}
    (h : checkLeaf W c va ca t levy y = .ok ()) : Matches W (.cls c va ca) t (.dict levy) y := by
  unfold checkLeaf at h
  split at h
  · cases h
  · next i hi =>
    split at h
    · next hc =>
      cases hv : i.vf y with
      | error e => simp [hv, bind, Except.bind] at h
      | ok v =>
        simp only [hv, bind, Except.bind] at h
        cases hb : betterIsinstance W v va with
        | error e => simp [hb] at h
        | ok b =>
          simp only [hb] at h
          cases b with
          | false => simp at h
          | true =>
            simp only [if_true] at h
            cases hu : i.contr levy with
            | error e => simp [hu] at h
            | ok u =>
              simp only [hu] at h
              cases hb' : betterIsinstance W u ca with
              | error e => simp [hb'] at h
              | ok b' =>
                cases b' with
                | false => simp [hb'] at h
                | true => exact .cls hi hc hv (better_fits v va hb) hu (better_fits u ca hb')
    · cases h

/-- What `check` does with terms that it does not refuse to look at. -/
theorem leaf_complete {c : Nat} {va ca : Annot} {t : Terms τ} {levy : Bool} {y : State}
    (hva : va.Plain) (hca : ca.Plain) (h : Matches W (.cls c va ca) t (.dict levy) y) :
    checkLeaf W c va ca t levy y = .ok () := by
  cases h with
  | cls hi hc hv hfv hu hfu =>
    obtain ⟨b, hb, hbf⟩ := better_total (W := W) _ va hva
    obtain ⟨b', hb', hbf'⟩ := better_total (W := W) _ ca hca
    rw [hbf hfv] at hb
    rw [hbf' hfu] at hb'
    simp [checkLeaf, hi, hc, hv, hb, hu, hb', bind, Except.bind]

theorem leaf_total {c : Nat} {va ca : Annot} {t : Terms τ} {levy : Bool} {y : State}
    (hva : va.Plain) (hca : ca.Plain) (ht : t.Total) :
    checkLeaf W c va ca t levy y = .ok () ∨ checkLeaf W c va ca t levy y = .error .incompatible := by
  have key : ∀ i : Info τ, t.info? = some i → (∃ v, i.vf y = .ok v) ∧ ∃ u, i.contr levy = .ok u := by
    intro i hi
    cases ht with
    | term h₁ h₂ => cases hi; exact ⟨h₁ y, h₂ levy⟩
    | multi h₁ h₂ _ => cases hi; exact ⟨h₁ y, h₂ levy⟩
    | tuple _ => cases hi
    | other => cases hi
  unfold checkLeaf
  split
  · exact .inr rfl
  · next i hi =>
    obtain ⟨⟨v, hv⟩, u, hu⟩ := key i hi
    obtain ⟨b, hb, -⟩ := better_total (W := W) v va hva
    obtain ⟨b', hb', -⟩ := better_total (W := W) u ca hca
    split
    · simp only [hv, hb, bind, Except.bind]
      cases b
      · exact .inr rfl
      · simp only [hu, hb', if_true]
        cases b' <;> simp
    · exact .inr rfl

theorem shaped_kwargs_aux : (∀ s, Shaped s (kwargsOf s)) ∧ ∀ l : List Struct,
    (kwargsAll l).length = l.length ∧ ∀ (j : Nat) (s : Struct) (k : Kwargs), l[j]? = some s →
      (kwargsAll l)[j]? = some k → Shaped s k := by
  have hl : ∀ l : List Struct, (∀ s ∈ l, Shaped s (kwargsOf s)) → (kwargsAll l).length = l.length ∧
      ∀ (j : Nat) (s : Struct) (k : Kwargs), l[j]? = some s → (kwargsAll l)[j]? = some k → Shaped s k := by
    intro l
    induction l with
    | nil => intro _; simp [kwargsAll]
    | cons s l ih =>
      intro h
      obtain ⟨h₁, h₂⟩ := ih fun s hs => h s (by simp [hs])
      refine ⟨by simp [kwargsAll, h₁], ?_⟩
      intro j s' k hs hk
      rw [kwargsAll] at hk
      cases j with
      | zero =>
        simp only [List.getElem?_cons_zero, Option.some.injEq] at hs hk
        subst hs hk
        exact h _ (by simp)
      | succ j => exact h₂ j s' k (by simpa using hs) (by simpa using hk)
  have hs : ∀ s, Shaped s (kwargsOf s) := by
    intro s
    induction s using Struct.rec (motive_2 := fun l => ∀ s ∈ l, Shaped s (kwargsOf s)) with
    | cls c va ca => exact .cls
    | multi l ih => rw [kwargsOf]; exact .multi (hl l ih).1 (hl l ih).2
    | tuple l ih => rw [kwargsOf]; exact .tuple (hl l ih).1 (hl l ih).2
    | nil s hs => cases hs
    | cons s l ih ih' s' hs' =>
      rcases List.mem_cons.1 hs' with rfl | hs'
      · exact ih
      · exact ih' s' hs'
  exact ⟨hs, fun l => hl l fun s _ => hs s⟩

mutual
theorem noLevy_kwargs : ∀ s : Struct, (kwargsOf s).NoLevy
  | .cls _ _ _ => by rw [kwargsOf]; exact .dict
  | .multi l => by rw [kwargsOf]; exact .tuple (noLevy_kwargsAll l)
  | .tuple l => by rw [kwargsOf]; exact .tuple (noLevy_kwargsAll l)
theorem noLevy_kwargsAll : ∀ (l : List Struct), ∀ k ∈ kwargsAll l, k.NoLevy
  | [] => by simp [kwargsAll]
  | s :: l => by
    rw [kwargsAll]
    intro k hk
    rcases List.mem_cons.1 hk with rfl | hk
    · exact noLevy_kwargs s
    · exact noLevy_kwargsAll l k hk
end

/-- **C109**: the keyword arguments that a solver uses by default have the shape of its term structure, and do not
ask for a Lévy area. -/
theorem C109_kwargs (s : Struct) : Shaped s (kwargsOf s) ∧ (kwargsOf s).NoLevy :=
  ⟨shaped_kwargs_aux.1 s, noLevy_kwargs s⟩

mutual
theorem check_sound : ∀ (s : Struct) (t : Terms τ) (k : Kwargs) (y : State), prefixOk s t k y = true →
    check W s t k y = .ok () → Matches W s t k y
  | .cls c va ca, t, .dict levy, y, _, h => by
    rw [check] at h
    exact leaf_sound h
  | .cls c va ca, t, .tuple ks, y, _, h => by rw [check] at h; cases h
  | .multi l, .multi i ts, k, y, _, h => by
    simp only [check] at h
    split at h
    · next h₁ =>
      split at h
      · split at h
        · next h₂ => exact .multi h₁ (h₂ ▸ h₁) (checkMulti_sound l ts _ y h₁ (h₂ ▸ h₁) h)
        · cases h
      · cases h
    · cases h
  | .multi l, .term i, k, y, _, h => by simp [check] at h
  | .multi l, .tuple ts, k, y, _, h => by simp [check] at h
  | .multi l, .other, k, y, _, h => by simp [check] at h
  | .tuple l, t, k, y, hp, h => by
    unfold prefixOk at hp
    split at hp
    · next l' ts ks ys e =>
      cases e
      rw [check] at h
      obtain ⟨h₁, h₂, h₃, h₄⟩ := checkTuple_sound l ts ks ys hp h
      exact .tuple h₁ h₂ h₃ h₄
    · cases hp
    · next hx _ => exact absurd rfl (hx l)
theorem checkMulti_sound : ∀ (l : List Struct) (ts : List (Terms τ)) (ks : List Kwargs) (y : State),
    ts.length = l.length → ks.length = l.length → checkMulti W l ts ks y = .ok () →
    ∀ (j : Nat) (s : Struct) (t : Terms τ) (k : Kwargs), l[j]? = some s → ts[j]? = some t →
        ks[j]? = some k → Matches W s t k y
  | [], _, _, _, _, _, _ => by intro j s t k hs; simp at hs
  | s :: l, [], _, _, h, _, _ => by simp at h
  | s :: l, _ :: _, [], _, _, h, _ => by simp at h
  | s :: l, t :: ts, k :: ks, y, h₁, h₂, h => by
    rw [checkMulti] at h
    split at h
    · next hp =>
      split at h
      · cases h
      · next hc =>
        intro j s' t' k' hs ht hk
        cases j with
        | zero =>
          simp only [List.getElem?_cons_zero, Option.some.injEq] at hs ht hk
          subst hs ht hk
          exact check_sound s t k y hp hc
        | succ j =>
          exact checkMulti_sound l ts ks y (by simpa using h₁) (by simpa using h₂) h j s' t' k'
            (by simpa using hs) (by simpa using ht) (by simpa using hk)
    · cases h
theorem checkTuple_sound : ∀ (l : List Struct) (ts : List (Terms τ)) (ks : List Kwargs) (ys : List State),
    prefixAll l ts ks ys = true → checkTuple W l ts ks ys = .ok () →
    ts.length = l.length ∧ ks.length = l.length ∧ ys.length = l.length ∧
    ∀ (j : Nat) (s : Struct) (t : Terms τ) (k : Kwargs) (y : State), l[j]? = some s → ts[j]? = some t →
        ks[j]? = some k → ys[j]? = some y → Matches W s t k y
  | [], ts, ks, ys, hp, _ => by
    unfold prefixAll at hp
    split at hp
    · refine ⟨rfl, rfl, rfl, ?_⟩
      intro j s t k y hs
      simp at hs
    · simp_all
    · cases hp
  | s :: l, [], ks, ys, hp, _ => by simp [prefixAll] at hp
  | s :: l, _ :: _, [], ys, hp, _ => by simp [prefixAll] at hp
  | s :: l, _ :: _, _ :: _, [], hp, _ => by simp [prefixAll] at hp
  | s :: l, t :: ts, k :: ks, y :: ys, hp, h => by
    rw [prefixAll, Bool.and_eq_true] at hp
    rw [checkTuple] at h
    split at h
    · cases h
    · next hc =>
      obtain ⟨h₁, h₂, h₃, h₄⟩ := checkTuple_sound l ts ks ys hp.2 h
      refine ⟨by simp [h₁], by simp [h₂], by simp [h₃], ?_⟩
      intro j s' t' k' y' hs ht hk hy
      cases j with
      | zero =>
        simp only [List.getElem?_cons_zero, Option.some.injEq] at hs ht hk hy
        subst hs ht hk hy
        exact check_sound s t k y hp.1 hc
      | succ j =>
        exact h₄ j s' t' k' y' (by simpa using hs) (by simpa using ht) (by simpa using hk) (by simpa using hy)
end

/-- **C109**: terms that pass the check are those that the solver expects, whatever the structure. -/
theorem C109_sound (s : Struct) (t : Terms τ) (k : Kwargs) (y : State)
    (h : assertCompatible W s t k y = .ok ()) : Matches W s t k y := by
  unfold assertCompatible at h
  split at h
  · next hp => exact check_sound s t k y hp h
  · cases h

mutual
theorem prefix_complete : ∀ (s : Struct) (t : Terms τ) (k : Kwargs) (y : State), Matches W s t k y →
    prefixOk s t k y = true
  | .cls .., t, k, y, _ => by simp [prefixOk]
  | .multi l, t, k, y, _ => by simp [prefixOk]
  | .tuple l, t, k, y, h => by
    cases h with
    | tuple h₁ h₂ h₃ h₄ => rw [prefixOk]; exact prefixAll_complete l _ _ _ h₁ h₂ h₃ h₄
theorem prefixAll_complete : ∀ (l : List Struct) (ts : List (Terms τ)) (ks : List Kwargs) (ys : List State),
    ts.length = l.length → ks.length = l.length → ys.length = l.length →
    (∀ (j : Nat) (s : Struct) (t : Terms τ) (k : Kwargs) (y : State), l[j]? = some s → ts[j]? = some t →
        ks[j]? = some k → ys[j]? = some y → Matches W s t k y) → prefixAll l ts ks ys = true
  | [], ts, ks, ys, h₁, h₂, h₃, _ => by
    rw [List.length_nil, List.length_eq_zero_iff] at h₁ h₂ h₃
    subst h₁ h₂ h₃
    rfl
  | s :: l, [], _, _, h, _, _, _ => by simp at h
  | s :: l, _ :: _, [], _, _, h, _, _ => by simp at h
  | s :: l, _ :: _, _ :: _, [], _, _, h, _ => by simp at h
  | s :: l, t :: ts, k :: ks, y :: ys, h₁, h₂, h₃, h => by
    rw [prefixAll, Bool.and_eq_true]
    refine ⟨prefix_complete s t k y (h 0 s t k y rfl rfl rfl rfl),
      prefixAll_complete l ts ks ys (by simpa using h₁) (by simpa using h₂) (by simpa using h₃) ?_⟩
    intro j s' t' k' y' hs ht hk hy
    exact h (j + 1) s' t' k' y' (by simpa using hs) (by simpa using ht) (by simpa using hk)
      (by simpa using hy)
end

mutual
theorem check_complete : ∀ (s : Struct) (t : Terms τ) (k : Kwargs) (y : State), s.Plain → Matches W s t k y →
    check W s t k y = .ok ()
  | .cls c va ca, t, k, y, hp, h => by
    have ⟨hva, hca⟩ : va.Plain ∧ ca.Plain := by cases hp; exact ⟨by assumption, by assumption⟩
    cases k with
    | dict b => rw [check]; exact leaf_complete hva hca h
    | tuple ks => cases h
  | .multi l, t, k, y, hp, h => by
    have hl : ∀ s ∈ l, s.Plain := by cases hp; assumption
    cases h with
    | multi h₁ h₂ h₃ =>
      rw [check, if_pos h₁]
      simp only [h₁.trans h₂.symm, if_true]
      exact checkMulti_complete l _ _ y hl h₁ h₂ h₃
  | .tuple l, t, k, y, hp, h => by
    have hl : ∀ s ∈ l, s.Plain := by cases hp; assumption
    cases h with
    | tuple h₁ h₂ h₃ h₄ => rw [check]; exact checkTuple_complete l _ _ _ hl h₄
theorem checkMulti_complete : ∀ (l : List Struct) (ts : List (Terms τ)) (ks : List Kwargs) (y : State),
    (∀ s ∈ l, s.Plain) → ts.length = l.length → ks.length = l.length →
    (∀ (j : Nat) (s : Struct) (t : Terms τ) (k : Kwargs), l[j]? = some s → ts[j]? = some t →
        ks[j]? = some k → Matches W s t k y) → checkMulti W l ts ks y = .ok ()
  | [], _, _, _, _, _, _, _ => by simp [checkMulti]
  | s :: l, [], _, _, _, h, _, _ => by simp at h
  | s :: l, _ :: _, [], _, _, _, h, _ => by simp at h
  | s :: l, t :: ts, k :: ks, y, hl, h₁, h₂, h => by
    have h0 := h 0 s t k rfl rfl rfl
    rw [checkMulti, if_pos (prefix_complete s t k y h0), check_complete s t k y (hl s (by simp)) h0]
    refine checkMulti_complete l ts ks y (fun s hs => hl s (by simp [hs])) (by simpa using h₁)
      (by simpa using h₂) ?_
    intro j s' t' k' hs ht hk
    exact h (j + 1) s' t' k' (by simpa using hs) (by simpa using ht) (by simpa using hk)
theorem checkTuple_complete : ∀ (l : List Struct) (ts : List (Terms τ)) (ks : List Kwargs) (ys : List State),
    (∀ s ∈ l, s.Plain) →
    (∀ (j : Nat) (s : Struct) (t : Terms τ) (k : Kwargs) (y : State), l[j]? = some s → ts[j]? = some t →
        ks[j]? = some k → ys[j]? = some y → Matches W s t k y) → checkTuple W l ts ks ys = .ok ()
  | [], _, _, _, _, _ => by simp [checkTuple]
  | s :: l, [], _, _, _, _ => by simp [checkTuple]
  | s :: l, _ :: _, [], _, _, _ => by simp [checkTuple]
  | s :: l, _ :: _, _ :: _, [], _, _ => by simp [checkTuple]
  | s :: l, t :: ts, k :: ks, y :: ys, hl, h => by
    rw [checkTuple, check_complete s t k y (hl s (by simp)) (h 0 s t k y rfl rfl rfl rfl)]
    refine checkTuple_complete l ts ks ys (fun s hs => hl s (by simp [hs])) ?_
    intro j s' t' k' y' hs ht hk hy
    exact h (j + 1) s' t' k' y' (by simpa using hs) (by simpa using ht) (by simpa using hk)
      (by simpa using hy)
end

/-- **C109**: the check accepts exactly the terms that the solver expects. -/
theorem C109_accepts (s : Struct) (t : Terms τ) (k : Kwargs) (y : State) (hp : s.Plain) :
    assertCompatible W s t k y = .ok () ↔ Matches W s t k y := by
  refine ⟨C109_sound s t k y, fun h => ?_⟩
  rw [assertCompatible, if_pos (prefix_complete s t k y h)]
  exact check_complete s t k y hp h

mutual
theorem check_total : ∀ (s : Struct) (t : Terms τ) (k : Kwargs) (y : State), s.Plain → t.Total →
    SameCount s t → Shaped s k → check W s t k y = .ok () ∨ check W s t k y = .error .incompatible
  | .cls c va ca, t, k, y, hp, ht, _, hk => by
    have ⟨hva, hca⟩ : va.Plain ∧ ca.Plain := by cases hp; exact ⟨by assumption, by assumption⟩
    cases hk
    rw [check]
    exact leaf_total hva hca ht
  | .multi l, t, k, y, hp, ht, hc, hk => by
    have hl : ∀ s ∈ l, s.Plain := by cases hp; assumption
    cases t with
    | term i => exact .inr (by simp [check])
    | tuple ts => exact .inr (by simp [check])
    | other => exact .inr (by simp [check])
    | multi i ts =>
      have hts : ∀ t ∈ ts, t.Total := by cases ht; assumption
      cases hk with
      | multi hk₁ hk₂ =>
        cases hc with
        | noMulti h => exact absurd rfl (h i ts)
        | multi h₁ h₂ =>
          rw [check, if_pos h₁]
          simp only [h₁.trans hk₁.symm, if_true]
          exact checkMulti_total l ts _ y hl hts h₂ hk₂
  | .tuple l, t, k, y, hp, ht, hc, hk => by
    have hl : ∀ s ∈ l, s.Plain := by cases hp; assumption
    cases hk with
    | tuple hk₁ hk₂ =>
      cases t with
      | term i => exact .inr (by simp [check])
      | multi i ts => exact .inr (by simp [check])
      | other => exact .inr (by simp [check])
      | tuple ts =>
        have hts : ∀ t ∈ ts, t.Total := by cases ht; assumption
        cases y with
        | array n => exact .inr (by simp [check])
        | tuple ys =>
          cases hc with
          | noTuple h => exact absurd rfl (h ts)
          | tuple h₂ => rw [check]; exact checkTuple_total l ts _ ys hl hts h₂ hk₂
theorem checkMulti_total : ∀ (l : List Struct) (ts : List (Terms τ)) (ks : List Kwargs) (y : State),
    (∀ s ∈ l, s.Plain) → (∀ t ∈ ts, t.Total) →
    (∀ (j : Nat) (s : Struct) (t : Terms τ), l[j]? = some s → ts[j]? = some t → SameCount s t) →
    (∀ (j : Nat) (s : Struct) (k : Kwargs), l[j]? = some s → ks[j]? = some k → Shaped s k) →
    checkMulti W l ts ks y = .ok () ∨ checkMulti W l ts ks y = .error .incompatible
  | [], _, _, _, _, _, _, _ => .inl (by simp [checkMulti])
  | s :: l, [], _, _, _, _, _, _ => .inl (by simp [checkMulti])
  | s :: l, _ :: _, [], _, _, _, _, _ => .inl (by simp [checkMulti])
  | s :: l, t :: ts, k :: ks, y, hl, hts, hc, hk => by
    rw [checkMulti]
    split
    · rcases check_total s t k y (hl s (by simp)) (hts t (by simp)) (hc 0 s t rfl rfl) (hk 0 s k rfl rfl)
        with h | h
      · rw [h]
        refine checkMulti_total l ts ks y (fun s hs => hl s (by simp [hs])) (fun t ht => hts t (by simp [ht]))
          ?_ ?_
        · intro j s' t' hs ht; exact hc (j + 1) s' t' (by simpa using hs) (by simpa using ht)
        · intro j s' k' hs hk'; exact hk (j + 1) s' k' (by simpa using hs) (by simpa using hk')
      · rw [h]; exact .inr rfl
    · exact .inr rfl
theorem checkTuple_total : ∀ (l : List Struct) (ts : List (Terms τ)) (ks : List Kwargs) (ys : List State),
    (∀ s ∈ l, s.Plain) → (∀ t ∈ ts, t.Total) →
    (∀ (j : Nat) (s : Struct) (t : Terms τ), l[j]? = some s → ts[j]? = some t → SameCount s t) →
    (∀ (j : Nat) (s : Struct) (k : Kwargs), l[j]? = some s → ks[j]? = some k → Shaped s k) →
    checkTuple W l ts ks ys = .ok () ∨ checkTuple W l ts ks ys = .error .incompatible
  | [], _, _, _, _, _, _, _ => .inl (by simp [checkTuple])
  | s :: l, [], _, _, _, _, _, _ => .inl (by simp [checkTuple])
  | s :: l, _ :: _, [], _, _, _, _, _ => .inl (by simp [checkTuple])
  | s :: l, _ :: _, _ :: _, [], _, _, _, _ => .inl (by simp [checkTuple])
  | s :: l, t :: ts, k :: ks, y :: ys, hl, hts, hc, hk => by
    rw [checkTuple]
    rcases check_total s t k y (hl s (by simp)) (hts t (by simp)) (hc 0 s t rfl rfl) (hk 0 s k rfl rfl)
      with h | h
    · rw [h]
      refine checkTuple_total l ts ks ys (fun s hs => hl s (by simp [hs])) (fun t ht => hts t (by simp [ht]))
        ?_ ?_
      · intro j s' t' hs ht; exact hc (j + 1) s' t' (by simpa using hs) (by simpa using ht)
      · intro j s' k' hs hk'; exact hk (j + 1) s' k' (by simpa using hs) (by simpa using hk')
    · rw [h]; exact .inr rfl
end

/-- **C109** (partial): terms that the solver does not expect are refused with `TermAndSolverIncompatible`,
which tells what was expected, if wherever a `MultiTerm` is expected and given it has the right number of
terms. Missing: a wrong number of terms, see `C109_count_violated`. -/
theorem C109_refuses_partial (s : Struct) (t : Terms τ) (k : Kwargs) (y : State) (hp : s.Plain)
    (ht : t.Total) (hc : SameCount s t) (hk : Shaped s k) (h : ¬ Matches W s t k y) :
    assertCompatible W s t k y = .error .incompatible := by
  have h' := mt (C109_sound s t k y) h
  unfold assertCompatible at h' ⊢
  split
  · next hpre =>
    rw [if_pos hpre] at h'
    exact (check_total s t k y hp ht hc hk).resolve_left h'
  · rfl

/-- **C109** (violated): if a `MultiTerm` is expected, then a `MultiTerm` with another number of terms is
refused with a bare `AssertionError`, whatever the terms are: there is no message. -/
theorem C109_count_violated (l : List Struct) (i : Info τ) (ts : List (Terms τ)) (k : Kwargs) (y : State)
    (h : ts.length ≠ l.length) :
    assertCompatible W (.multi l) (.multi i ts) k y = .error .assertion := by
  simp [assertCompatible, prefixOk, check, h]

/-! ## The deprecated pair of terms -/

/-- **C109** (partial): for `EulerHeun` and the Milstein solvers, a pair of terms that can be used as a
`MultiTerm` is replaced by it, with a warning, if the state is a pair of states with which the two terms can
be used one by one. Missing: all other states, see `C109_pair_violated`. -/
theorem C109_pair_partial (mk : List (Terms τ) → Terms τ) (ode anyTerm a b : Struct) (t₁ t₂ : Terms τ)
    (y₁ y₂ : State) (hs : (Struct.multi [a, b]).Plain) (ho : ode.Plain) (hany : anyTerm.Plain)
    (h₁ : Matches W ode t₁ (kwargsOf a) y₁) (h₂ : Matches W anyTerm t₂ (kwargsOf b) y₂)
    (hm : Matches W (.multi [a, b]) (mk [t₁, t₂]) (kwargsOf (.multi [a, b])) (.tuple [y₁, y₂])) :
    convertPair W mk ode anyTerm (.multi [a, b]) (.tuple [t₁, t₂]) (.tuple [y₁, y₂]) =
      .ok (true, mk [t₁, t₂]) := by
  have h : assertCompatible W (.tuple [ode, anyTerm]) (.tuple [t₁, t₂]) (kwargsOf (.multi [a, b]))
      (.tuple [y₁, y₂]) = .ok () := by
    have hp : (Struct.tuple [ode, anyTerm]).Plain := .tuple fun s hs => by
      simp only [List.mem_cons, List.not_mem_nil, or_false] at hs
      rcases hs with rfl | rfl <;> assumption
    refine (C109_accepts _ _ _ _ hp).2 ?_
    simp only [kwargsOf, kwargsAll]
    refine .tuple rfl rfl rfl ?_
    intro j s t k y e₁ e₂ e₃ e₄
    match j with
    | 0 =>
      simp only [List.getElem?_cons_zero, Option.some.injEq] at e₁ e₂ e₃ e₄
      subst e₁ e₂ e₃ e₄; exact h₁
    | 1 =>
      simp only [List.getElem?_cons_succ, List.getElem?_cons_zero, Option.some.injEq] at e₁ e₂ e₃ e₄
      subst e₁ e₂ e₃ e₄; exact h₂
    | j + 2 => simp at e₁
  unfold convertPair
  rw [h]
  simp only [(C109_accepts _ _ _ _ hs).2 hm]
  rfl

/-- **C109** (violated): if the state is an array, a pair of terms is never replaced by a `MultiTerm`: the
pair of classes with which the terms are compared is compared with the state as well. The solve is refused,
although the pair is only deprecated. -/
theorem C109_pair_violated (mk : List (Terms τ) → Terms τ) (ode anyTerm : Struct) (l : List Struct)
    (ts : List (Terms τ)) (n : Nat) :
    convertPair W mk ode anyTerm (.multi l) (.tuple ts) (.array n) = .error .incompatible := by
  simp [convertPair, assertCompatible, prefixOk, check, Except.map]

/-! ## Examples -/

/-- Terms are of class 0 (`AbstractTerm`), `ODETerm` is class 1, `MultiTerm` class 2, `ControlTerm` class 3.
Values are numbers standing for their class: 0 real scalars, 1 arrays. -/
def world : World Nat := ⟨fun c d => d == 0 || c == d, fun x c => x == c⟩

def odeTerm : Terms Nat := .term ⟨1, fun _ => .ok 1, fun _ => .ok 0⟩
def noiseTerm : Terms Nat := .term ⟨3, fun _ => .ok 1, fun _ => .ok 1⟩
def multiInfo : Info Nat := ⟨2, fun _ => .ok 5, fun _ => .ok 6⟩

/-- `MultiTerm[tuple[AbstractTerm[Any, RealScalarLike], AbstractTerm]]`, `euler_heun.py` 29-31. -/
def eulerHeunStruct : Struct := .multi [.cls 0 .any (.union [.cls 0, .cls 7]), .cls 0 .any .any]

theorem eulerHeun_plain : eulerHeunStruct.Plain := .multi fun s hs => by
  simp only [List.mem_cons, List.not_mem_nil, or_false] at hs
  rcases hs with rfl | rfl
  · refine .cls .any (.union fun a ha => ?_)
    simp only [List.mem_cons, List.not_mem_nil, or_false] at ha
    rcases ha with rfl | rfl
    · exact .cls 0
    · exact .cls 7
  · exact .cls .any .any

theorem eulerHeun_accepts : assertCompatible world eulerHeunStruct (.multi multiInfo [odeTerm, noiseTerm])
    (kwargsOf eulerHeunStruct) (.array 3) = .ok () := rfl

example : Matches world eulerHeunStruct (.multi multiInfo [odeTerm, noiseTerm]) (kwargsOf eulerHeunStruct)
    (.array 3) := (C109_accepts _ _ _ _ eulerHeun_plain).1 eulerHeun_accepts

/-- The terms in the wrong order are refused. -/
example : assertCompatible world eulerHeunStruct (.multi multiInfo [noiseTerm, odeTerm])
    (kwargsOf eulerHeunStruct) (.array 3) = .error .incompatible := by
  refine C109_refuses_partial _ _ _ _ eulerHeun_plain ?_ ?_ (C109_kwargs _).1 ?_
  · refine .multi (fun _ => ⟨5, rfl⟩) (fun _ => ⟨6, rfl⟩) fun t ht => ?_
    simp only [List.mem_cons, List.not_mem_nil, or_false] at ht
    rcases ht with rfl | rfl
    · exact .term (fun _ => ⟨1, rfl⟩) fun _ => ⟨1, rfl⟩
    · exact .term (fun _ => ⟨1, rfl⟩) fun _ => ⟨0, rfl⟩
  · refine .multi rfl fun j s t hs ht => ?_
    match j with
    | 0 => simp at hs; subst hs; exact .cls
    | 1 => simp at hs; subst hs; exact .cls
    | j + 2 => simp at hs
  · intro h
    have := (C109_accepts _ _ _ _ eulerHeun_plain).2 h
    simp [assertCompatible, prefixOk, check, checkMulti, checkLeaf, eulerHeunStruct, kwargsOf, kwargsAll,
      noiseTerm, Terms.info?, world, betterIsinstance, anyInstance, bind, Except.bind] at this

/-- Three terms for two. -/
example : assertCompatible world eulerHeunStruct (.multi multiInfo [odeTerm, noiseTerm, noiseTerm])
    (kwargsOf eulerHeunStruct) (.array 3) = .error .assertion :=
  C109_count_violated _ _ _ _ _ (by decide)

/-- The deprecated pair with a pair of states, and with an array. -/
example : convertPair world (.multi multiInfo) (.cls 1 .any .any) (.cls 0 .any .any) eulerHeunStruct
      (.tuple [odeTerm, noiseTerm]) (.tuple [.array 1, .array 1]) =
        .ok (true, .multi multiInfo [odeTerm, noiseTerm]) ∧
    convertPair world (.multi multiInfo) (.cls 1 .any .any) (.cls 0 .any .any) eulerHeunStruct
      (.tuple [odeTerm, noiseTerm]) (.array 1) = .error .incompatible := ⟨rfl, rfl⟩

/-- The hypotheses of `C109_pair_partial` hold in this case. -/
example : convertPair world (.multi multiInfo) (.cls 1 .any .any) (.cls 0 .any .any) eulerHeunStruct
      (.tuple [odeTerm, noiseTerm]) (.tuple [.array 1, .array 1]) =
        .ok (true, .multi multiInfo [odeTerm, noiseTerm]) :=
  C109_pair_partial _ _ _ _ _ _ _ _ _ eulerHeun_plain (.cls .any .any) (.cls .any .any)
    ((C109_accepts _ _ _ _ (.cls .any .any)).1 rfl) ((C109_accepts _ _ _ _ (.cls .any .any)).1 rfl)
    ((C109_accepts _ _ _ _ eulerHeun_plain).1 rfl)

end Verif.Compat
