import Verif.Spec.Typing
import Mathlib.Data.List.Basic
import Mathlib.Data.List.Nodup
import Mathlib.Tactic.Linarith

/-!
# C104: type arguments of generic classes
-/

namespace Verif.Typing

variable {α : Type} {H : Hier α} {b : Nat}

theorem lookup_zip (params : List Nat) (ps : List (Arg α)) (v : Nat) :
    ((params.zip ps).lookup v).getD .any = if v ∈ params then ps.getD (params.idxOf v) .any else .any := by
  induction params generalizing ps with
  | nil => simp
  | cons p params ih =>
    cases ps with
    | nil => simp
    | cons q ps =>
      by_cases h : p = v
      · subst h; simp
      · have h' : (v == p) = false := by simpa using fun e => h e.symm
        have h'' : v ≠ p := fun e => h e.symm
        rw [List.zip_cons_cons, List.lookup_cons, h', List.idxOf_cons_ne _ h]
        simpa [h''] using ih ps

theorem substArg_eq (params : List Nat) (ps : List (Arg α)) : substArg params ps = fill params ps := by
  funext a
  cases a with
  | tvar v => exact lookup_zip params ps v
  | any => rfl
  | ty a => rfl

theorem fill_any (params : List Nat) (k : Nat) : fill params (List.replicate k (.any : Arg α)) = fill [] [] := by
  funext a
  cases a with
  | tvar v =>
    simp only [fill, List.getD_eq_getElem?_getD, List.getElem?_replicate]
    split <;> [split <;> simp; simp]
  | any => rfl
  | ty a => rfl

theorem Specialises.inherits {c ps r} (h : Specialises H c ps b r) : Inherits H c b := by
  induction h with
  | refl => exact .refl
  | sub hm _ ih => exact Relation.ReflTransGen.head ⟨_, hm, rfl⟩ ih
  | plain hm _ ih => exact Relation.ReflTransGen.head ⟨_, hm, rfl⟩ ih

theorem Subscripted.specialises {c ps r} (h : Subscripted H c ps b r) : Specialises H c ps b r := by
  induction h with
  | refl => exact .refl _ _
  | sub hm _ ih => exact .sub hm ih

theorem Hier.WF.inherits_le (hw : H.WF) {c d} (h : Inherits H c d) : d ≤ c := by
  induction h with
  | refl => exact le_rfl
  | tail _ h ih => exact (hw.earlier _ _ h).le.trans ih

theorem isSubclass_iff (hw : H.WF) (c : Nat) : isSubclass H c b = true ↔ Inherits H c b := by
  unfold isSubclass
  rw [List.contains_iff_mem]
  exact hw.mro_mem c b

theorem origBases_own (hw : H.WF) {c : Nat} (h : hasOwn H c = true) : origBases H c = (H c).bases := by
  have hc : c ∈ (H c).mro := (hw.mro_mem c c).2 .refl
  unfold origBases
  obtain ⟨e, he⟩ := Option.isSome_iff_exists.1 (List.find?_isSome.2 ⟨c, hc, h⟩)
  rw [he]
  have hec : e = c := by
    obtain ⟨-, as, bs, e1, h1⟩ := List.find?_eq_some_iff_append.1 he
    by_contra hne
    rw [e1, List.mem_append, List.mem_cons] at hc
    rcases hc with hc | hc | hc
    · have := h1 c hc
      rw [h] at this; simp at this
    · exact hne hc.symm
    · have hp := hw.mro_order c
      rw [e1, List.pairwise_append] at hp
      refine (List.pairwise_cons.1 hp.2.1).1 c hc ((hw.mro_mem c e).1 ?_)
      rw [e1]; simp
  rw [hec]

/-- Inherited `__orig_bases__` belong to a class that is reached without type arguments. -/
theorem origBases_inherited (hw : H.WF) {c : Nat} (h : hasOwn H c = false) {x : Base α} (hx : x ∈ origBases H c) :
    ∃ e, x ∈ (H e).bases ∧ e < c ∧ ∀ r, Specialises H e (List.replicate (H e).params.length .any) b r →
      Specialises H c (List.replicate (H c).params.length .any) b r := by
  unfold origBases at hx
  split at hx
  next e he =>
    obtain ⟨hown, as, bs, e1, h1⟩ := List.find?_eq_some_iff_append.1 he
    have hce : Inherits H c e := (hw.mro_mem c e).1 (by rw [e1]; simp)
    have hne : e ≠ c := by rintro rfl; rw [h] at hown; cases hown
    refine ⟨e, hx, lt_of_le_of_ne (hw.inherits_le hce) hne, fun r hr => ?_⟩
    have key : ∀ y, Inherits H y e → Inherits H c y → Specialises H y (List.replicate (H y).params.length .any) b r := by
      intro y hy
      induction hy using Relation.ReflTransGen.head_induction_on with
      | refl => intro _; exact hr
      | head hyd hde ih =>
        rename_i y d
        intro hcy
        have hd := ih (hcy.tail hyd)
        have hlt := hw.earlier _ _ hyd
        have hle := hw.inherits_le hde
        have hnot : hasOwn H y = false := by
          have hym : y ∈ (H c).mro := (hw.mro_mem c y).2 hcy
          rw [e1, List.mem_append, List.mem_cons] at hym
          rcases hym with hym | hym | hym
          · simpa using h1 y hym
          · omega
          · have hp := hw.mro_order c
            rw [e1, List.pairwise_append] at hp
            exact absurd (Relation.ReflTransGen.head hyd hde) ((List.pairwise_cons.1 hp.2.1).1 y hym)
        obtain ⟨z, hz, rfl⟩ := hyd
        have hzs : z.isSub = false := by
          by_contra hs
          have : hasOwn H y = true := List.any_eq_true.2 ⟨z, hz, by simpa using hs⟩
          rw [hnot] at this; cases this
        cases z with
        | sub => cases hzs
        | cls d' => exact .plain hz hd
    exact key c hce .refl
  next => simp at hx

/-- What `collect` finds comes from one of the bases. -/
theorem collect_mem {params : List Nat} {ps : List (Arg α)} {rec : Nat → List (Arg α) → Except Err (Option (List (Arg α)))}
    {l : List (Base α)} {rs : List (List (Arg α))} (h : collect H b params ps rec l = .ok rs) {r : List (Arg α)} (hr : r ∈ rs) :
    ∃ d args, Base.sub d args ∈ l ∧ (d ≠ 0 ∧ d ≠ 1) ∧ rec d (args.map (substArg params ps)) = .ok (some r) := by
  induction l generalizing rs with
  | nil => simp only [collect, Except.ok.injEq] at h; subst h; simp at hr
  | cons x l ih =>
    have cont : ∀ {rs}, collect H b params ps rec l = .ok rs → r ∈ rs →
        ∃ d args, Base.sub d args ∈ x :: l ∧ (d ≠ 0 ∧ d ≠ 1) ∧ rec d (args.map (substArg params ps)) = .ok (some r) := fun h hr => by
      obtain ⟨d, args, hm, h'⟩ := ih h hr
      exact ⟨d, args, List.mem_cons_of_mem _ hm, h'⟩
    cases x with
    | cls d => exact cont h hr
    | sub d args =>
      simp only [collect] at h
      split at h
      · exact cont h hr
      · rename_i hd
        split at h
        · split at h
          · cases h
          · exact cont h hr
          · rename_i r' hr'
            split at h
            · cases h
            · rename_i rs' hrs'
              cases h
              rcases List.mem_cons.1 hr with rfl | hr
              · exact ⟨d, args, List.mem_cons_self, not_or.1 hd, hr'⟩
              · exact cont hrs' hr
        · exact cont h hr

/-- `collect` fails only if a recursive call does. -/
theorem collect_error {params : List Nat} {ps : List (Arg α)} {rec : Nat → List (Arg α) → Except Err (Option (List (Arg α)))}
    {l : List (Base α)} {e : Err} (h : collect H b params ps rec l = .error e) :
    ∃ d args, Base.sub d args ∈ l ∧ (d ≠ 0 ∧ d ≠ 1) ∧ rec d (args.map (substArg params ps)) = .error e := by
  induction l with
  | nil => simp only [collect] at h; cases h
  | cons x l ih =>
    have cont : collect H b params ps rec l = .error e →
        ∃ d args, Base.sub d args ∈ x :: l ∧ (d ≠ 0 ∧ d ≠ 1) ∧ rec d (args.map (substArg params ps)) = .error e := fun h => by
      obtain ⟨d, args, hm, h'⟩ := ih h
      exact ⟨d, args, List.mem_cons_of_mem _ hm, h'⟩
    cases x with
    | cls d => exact cont h
    | sub d args =>
      simp only [collect] at h
      split at h
      · exact cont h
      · rename_i hd
        split at h
        · split at h
          · rename_i e' he'; cases h; exact ⟨d, args, List.mem_cons_self, not_or.1 hd, he'⟩
          · exact cont h
          · split at h
            · rename_i e' he'; cases h; exact cont he'
            · cases h
        · exact cont h

/-- `collect` finds what the recursive calls find. -/
theorem collect_complete {params : List Nat} {ps : List (Arg α)} {rec : Nat → List (Arg α) → Except Err (Option (List (Arg α)))}
    {l : List (Base α)} {rs : List (List (Arg α))} (h : collect H b params ps rec l = .ok rs) {d args r}
    (hm : Base.sub d args ∈ l) (h0 : d ≠ 0) (h1 : d ≠ 1) (hs : isSubclass H d b = true)
    (hr : rec d (args.map (substArg params ps)) = .ok (some r)) : r ∈ rs := by
  induction l generalizing rs with
  | nil => simp at hm
  | cons x l ih =>
    rcases List.mem_cons.1 hm with rfl | hm'
    · simp only [collect, h0, h1, hs, hr, or_self, if_false, if_true] at h
      split at h
      · cases h
      · cases h; exact List.mem_cons_self
    · cases x with
      | cls d' => exact ih h hm'
      | sub d' args' =>
        simp only [collect] at h
        split at h
        · exact ih h hm'
        · split at h
          · split at h
            · cases h
            · exact ih h hm'
            · split at h
              · cases h
              · rename_i rs' hrs'
                cases h
                exact List.mem_cons_of_mem _ (ih hrs' hm')
          · exact ih h hm'

section
variable [DecidableEq α]

theorem impl_eq (n c : Nat) (ps : List (Arg α)) (h : c ≠ b) (hl : (H c).params.length = ps.length) :
    getArgsImpl H b (n + 1) c ps = match collect H b (H c).params ps (getArgsImpl H b n) (origBases H c) with
      | .error e => .error e
      | .ok [] => .ok none
      | .ok (r :: rs) => if rs.all (· == r) then .ok (some r) else .error .typeError := by
  simp only [getArgsImpl, if_neg h, hl, ne_eq, not_true_eq_false, if_false]
  rfl

omit [DecidableEq α] in
/-- The classes visited from `c`, with their arguments: everything found from them is found from `c`. -/
theorem visit (hw : H.WF) {c : Nat} {ps : List (Arg α)} (hl : (H c).params.length = ps.length) {d : Nat} {args : List (Arg α)}
    (hm : Base.sub d args ∈ origBases H c) (hd : d ≠ 0 ∧ d ≠ 1) :
    d < c ∧ (H d).params.length = (args.map (substArg (H c).params ps)).length ∧
    ∀ r, Specialises H d (args.map (substArg (H c).params ps)) b r → Specialises H c ps b r := by
  cases ho : hasOwn H c with
  | true =>
    rw [origBases_own hw ho] at hm
    refine ⟨hw.earlier _ _ ⟨_, hm, rfl⟩, by rw [List.length_map, hw.arity _ _ _ hm hd.1 hd.2], fun r hr => ?_⟩
    rw [substArg_eq] at hr
    exact .sub hm hr
  | false =>
    have hp : (H c).params = [] := hw.params c fun x hx => by
      cases x with
      | cls d => exact ⟨d, rfl⟩
      | sub d args =>
        have : hasOwn H c = true := List.any_eq_true.2 ⟨_, hx, rfl⟩
        rw [ho] at this; cases this
    obtain rfl : ps = [] := by rw [hp] at hl; exact List.length_eq_zero_iff.1 hl.symm
    obtain ⟨e, he, hlt, hall⟩ := origBases_inherited (b := b) hw ho hm
    refine ⟨(hw.earlier _ _ ⟨_, he, rfl⟩).trans hlt, by rw [List.length_map, hw.arity _ _ _ he hd.1 hd.2], fun r hr => ?_⟩
    have h1 := hall r (.sub he (by rw [fill_any]; rw [substArg_eq, hp] at hr; exact hr))
    rw [hp] at h1
    exact h1

theorem impl_sound (hw : H.WF) (n c : Nat) (ps r : List (Arg α)) (h : getArgsImpl H b n c ps = .ok (some r)) :
    Specialises H c ps b r := by
  induction n generalizing c ps r with
  | zero => cases h
  | succ n ih =>
    by_cases hc : c = b
    · subst hc
      simp only [getArgsImpl, if_true, Except.ok.injEq, Option.some.injEq] at h
      subst h; exact .refl _ _
    · by_cases hl : (H c).params.length = ps.length
      · rw [impl_eq n c ps hc hl] at h
        split at h
        · cases h
        · cases h
        · rename_i r' rs hrs
          split at h
          · cases h
            obtain ⟨d, args, hm, hd, hr⟩ := collect_mem hrs List.mem_cons_self
            exact (visit hw hl hm hd).2.2 r (ih _ _ _ hr)
          · cases h
      · simp only [getArgsImpl, if_neg hc, ne_eq, hl, not_false_eq_true, if_true] at h
        cases h

theorem impl_error (hw : H.WF) (n c : Nat) (ps : List (Arg α)) (hl : (H c).params.length = ps.length) (hn : c < n) {e : Err}
    (h : getArgsImpl H b n c ps = .error e) :
    e = .typeError ∧ ∃ r r', r ≠ r' ∧ Specialises H c ps b r ∧ Specialises H c ps b r' := by
  induction n generalizing c ps with
  | zero => omega
  | succ n ih =>
    by_cases hc : c = b
    · subst hc; simp only [getArgsImpl, if_true] at h; cases h
    · rw [impl_eq n c ps hc hl] at h
      split at h
      · rename_i e' he'
        cases h
        obtain ⟨d, args, hm, hd, hr⟩ := collect_error he'
        obtain ⟨h1, h2, h3⟩ := visit (b := b) hw hl hm hd
        obtain ⟨h4, r, r', h5, h6, h7⟩ := ih d _ h2 (by omega) hr
        exact ⟨h4, r, r', h5, h3 _ h6, h3 _ h7⟩
      · cases h
      · rename_i r rs hrs
        split at h
        · cases h
        · rename_i hall
          cases h
          refine ⟨rfl, ?_⟩
          have : ∃ r' ∈ rs, r' ≠ r := by
            by_contra hno
            refine hall (List.all_eq_true.2 fun x hx => ?_)
            by_contra hx'
            exact hno ⟨x, hx, by simpa using hx'⟩
          obtain ⟨r', hr', hne⟩ := this
          obtain ⟨d, args, hm, hd, hr⟩ := collect_mem hrs List.mem_cons_self
          obtain ⟨d', args', hm', hd', hr''⟩ := collect_mem hrs (List.mem_cons_of_mem _ hr')
          exact ⟨r, r', hne.symm, (visit hw hl hm hd).2.2 _ (impl_sound hw _ _ _ _ hr),
            (visit hw hl hm' hd').2.2 _ (impl_sound hw _ _ _ _ hr'')⟩

theorem impl_complete (hw : H.WF) (h0 : b ≠ 0) (h1 : b ≠ 1) (n c : Nat) (ps r : List (Arg α))
    (hl : (H c).params.length = ps.length) (hn : c < n) (hsub : Subscripted H c ps b r)
    (huniq : ∀ r', Specialises H c ps b r' → r' = r) : getArgsImpl H b n c ps = .ok (some r) := by
  induction n generalizing c ps with
  | zero => omega
  | succ n ih =>
    by_cases hc : c = b
    · subst hc
      simp only [getArgsImpl, if_true]
      rw [huniq ps (.refl _ _)]
    · cases hsub with
      | refl => exact absurd rfl hc
      | sub hm hsub =>
        rename_i d args
        have ho : hasOwn H c = true := List.any_eq_true.2 ⟨_, hm, rfl⟩
        have hm' := hm
        rw [← origBases_own hw ho] at hm'
        have hin := hsub.specialises.inherits
        have hd0 : d ≠ 0 := by
          rintro rfl
          rcases Relation.ReflTransGen.cases_head hin with h | ⟨x, ⟨y, hy, -⟩, -⟩
          · exact h0 h.symm
          · rw [hw.generic] at hy; simp at hy
        have hd1 : d ≠ 1 := by
          rintro rfl
          rcases Relation.ReflTransGen.cases_head hin with h | ⟨x, hx, hxb⟩
          · exact h1 h.symm
          · rw [hw.protocol x hx] at hxb
            have := hw.inherits_le hxb
            omega
        obtain ⟨v1, v2, v3⟩ := visit (b := b) hw hl hm' ⟨hd0, hd1⟩
        have hrec := ih d _ v2 (by omega) (by rw [substArg_eq]; exact hsub) (fun r' hr' => huniq r' (v3 r' hr'))
        rw [impl_eq n c ps hc hl]
        cases hcol : collect H b (H c).params ps (getArgsImpl H b n) (origBases H c) with
        | error e =>
          obtain ⟨d', args', hm'', hd', hr''⟩ := collect_error hcol
          obtain ⟨w1, w2, w3⟩ := visit (b := b) hw hl hm'' hd'
          obtain ⟨-, x, x', hne, hx, hx'⟩ := impl_error hw n d' _ w2 (by omega) hr''
          exact absurd ((huniq x (w3 _ hx)).trans (huniq x' (w3 _ hx')).symm) hne
        | ok rs =>
          have hall : ∀ x ∈ rs, x = r := fun x hx => by
            obtain ⟨d', args', hm'', hd', hr''⟩ := collect_mem hcol hx
            exact huniq x ((visit hw hl hm'' hd').2.2 _ (impl_sound hw _ _ _ _ hr''))
          have hmem := collect_complete hcol hm' hd0 hd1 ((isSubclass_iff hw d).2 hin) hrec
          cases rs with
          | nil => simp at hmem
          | cons x xs =>
            obtain rfl := hall x List.mem_cons_self
            have : xs.all (· == x) = true := List.all_eq_true.2 fun z hz => by
              simpa using hall z (List.mem_cons_of_mem _ hz)
            simp only [this, if_true]

/-- What `cls` and `cls[args]` mean: unfilled type variables are `Any`. -/
def target (H : Hier α) : Ann α → Option (Nat × List (Arg α))
  | .cls c => some (c, List.replicate (H c).params.length .any)
  | .sub c args => some (c, args.map fun a => match a with | .tvar _ => .any | a => a)
  | _ => none

theorem getArgsOf_eq {a : Ann α} {c : Nat} {ps : List (Arg α)} (ht : target H a = some (c, ps)) (hg : (H b).generic = true) :
    getArgsOf H b a = if isSubclass H c b then
        match getArgsImpl H b (c + 1) c ps with
        | .error e => .error e
        | .ok none => .ok (List.replicate (H b).params.length .any)
        | .ok (some r) => .ok r
      else .error .typeError := by
  cases a with
  | cls c' =>
    simp only [target, Option.some.injEq, Prod.mk.injEq] at ht
    obtain ⟨rfl, rfl⟩ := ht
    simp only [getArgsOf, getOrigin, hg]
    rfl
  | sub c' args =>
    simp only [target, Option.some.injEq, Prod.mk.injEq] at ht
    obtain ⟨rfl, rfl⟩ := ht
    simp only [getArgsOf, getOrigin, hg]
    rfl
  | _ => simp [target] at ht

/-- **C104.** What `get_args_of` returns is right: a `c` with these arguments is a `b` with the arguments returned, or nothing is
claimed about the arguments. -/
theorem C104_sound (hw : H.WF) {a : Ann α} {c : Nat} {ps r : List (Arg α)} (ht : target H a = some (c, ps))
    (h : getArgsOf H b a = .ok r) :
    Inherits H c b ∧ (Specialises H c ps b r ∨ r = List.replicate (H b).params.length .any) := by
  have hg : (H b).generic = true := by
    by_contra hg
    simp only [Bool.not_eq_true] at hg
    simp only [getArgsOf, hg, if_true] at h
    cases h
  rw [getArgsOf_eq ht hg] at h
  split at h
  · rename_i hs
    refine ⟨(isSubclass_iff hw c).1 hs, ?_⟩
    split at h
    · cases h
    · cases h; exact .inr rfl
    · rename_i r' hr'
      cases h
      exact .inl (impl_sound hw _ _ _ _ hr')
  · cases h

/-- **C104.** Errors are only raised if the base class is not generic, not a base class, or inherited in two different ways; in
particular no internal assertion fails. -/
theorem C104_errors (hw : H.WF) {a : Ann α} {c : Nat} {ps : List (Arg α)} (ht : target H a = some (c, ps))
    (hl : (H c).params.length = ps.length) {e : Err} (h : getArgsOf H b a = .error e) :
    e = .typeError ∧ ((H b).generic = false ∨ ¬ Inherits H c b ∨
      ∃ r r', r ≠ r' ∧ Specialises H c ps b r ∧ Specialises H c ps b r') := by
  by_cases hg : (H b).generic = true
  · rw [getArgsOf_eq ht hg] at h
    split at h
    · split at h
      · rename_i e' he'
        cases h
        obtain ⟨h1, h2⟩ := impl_error hw _ _ _ hl (by omega) he'
        exact ⟨h1, .inr (.inr h2)⟩
      · cases h
      · cases h
    · rename_i hs
      cases h
      exact ⟨rfl, .inr (.inl fun hi => hs ((isSubclass_iff hw c).2 hi))⟩
  · simp only [Bool.not_eq_true] at hg
    simp only [getArgsOf, hg, if_true] at h
    cases h
    exact ⟨rfl, .inl hg⟩

/-- A union or another special form, perhaps inside `Annotated`. -/
inductive IsSpecial : Ann α → Prop
  | union : IsSpecial .union
  | special : IsSpecial .special
  | annotated {a : Ann α} (args : List (Arg α)) : IsSpecial a → IsSpecial (.annotated a args)

theorem getOrigin_special {a : Ann α} (h : IsSpecial a) : getOrigin a = .error .notImplemented := by
  induction h with
  | union => rfl
  | special => rfl
  | annotated args _ ih => exact ih

/-- **C104.** Unions and other special forms are refused as not implemented, also inside `Annotated`. -/
theorem C104_specials {a : Ann α} (h : IsSpecial a) (hg : (H b).generic = true) :
    getArgsOf H b a = .error .notImplemented := by
  simp only [getArgsOf, hg, getOrigin_special h]
  rfl

/-- **C104.** The arguments are found if they are determined by the class, provided that type arguments are written in each class
statement on the way. (They should be found without this; see the violation below.) -/
theorem C104_complete_partial (hw : H.WF) (h0 : b ≠ 0) (h1 : b ≠ 1) (hg : (H b).generic = true) {a : Ann α} {c : Nat}
    {ps r : List (Arg α)} (ht : target H a = some (c, ps)) (hl : (H c).params.length = ps.length) (hsub : Subscripted H c ps b r)
    (huniq : ∀ r', Specialises H c ps b r' → r' = r) : getArgsOf H b a = .ok r := by
  rw [getArgsOf_eq ht hg, if_pos ((isSubclass_iff hw c).2 hsub.specialises.inherits),
    impl_complete hw h0 h1 (c + 1) c ps r hl (by omega) hsub huniq]

end

/-! ### Examples -/

/-- A list of class definitions; after it, classes without bases. -/
def ofList (l : List (ClassDef α)) : Hier α := fun c => l.getD c { generic := false, params := [], bases := [], mro := [c] }

/-- `Hier.WF`, computed. -/
def checkHier (l : List (ClassDef α)) : Bool :=
  (List.range l.length).all fun c =>
    let H := ofList l
    (H c).bases.all (fun x => decide (x.class < c) && (H c).mro.contains x.class && (H x.class).mro.all (H c).mro.contains &&
      match x with | .cls _ => true | .sub d args => d == 0 || d == 1 || args.length == (H d).params.length) &&
    (H c).mro.contains c &&
    (H c).mro.all (fun y => y == c || (H c).bases.any fun x => (H x.class).mro.contains y) &&
    decide ((H c).mro.Pairwise fun x y => (H y).mro.contains x = false) &&
    ((H c).bases.any Base.isSub || (H c).params.isEmpty) &&
    (c != 0 || (H c).bases.isEmpty) && (c != 1 || (H c).bases.all fun x => x.class == 0)

theorem checkHier_sound (l : List (ClassDef α)) (h : checkHier l = true) : (ofList l).WF := by
  have hout : ∀ c, l.length ≤ c → ofList l c = { generic := false, params := [], bases := [], mro := [c] } := fun c hc => by
    unfold ofList; rw [List.getD_eq_getElem?_getD, List.getElem?_eq_none hc]; rfl
  have hin : ∀ c, c < l.length → _ := fun c hc => List.all_eq_true.1 h c (List.mem_range.2 hc)
  simp only [Bool.and_eq_true, List.all_eq_true, decide_eq_true_eq, List.contains_iff_mem, beq_iff_eq, Bool.or_eq_true,
    bne_iff_ne, List.any_eq_true, List.isEmpty_iff] at hin
  set H := ofList l with hH
  have hlt : ∀ c d, IsBase H c d → d < c := by
    rintro c d ⟨x, hx, rfl⟩
    by_cases hc : c < l.length
    · exact ((hin c hc).1.1.1.1.1.1 x hx).1.1.1
    · rw [hout c (by omega)] at hx; simp at hx
  have hself : ∀ c, c ∈ (H c).mro := by
    intro c
    by_cases hc : c < l.length
    · exact (hin c hc).1.1.1.1.1.2
    · rw [hout c (by omega)]; simp
  have hsub : ∀ c d, IsBase H c d → ∀ y ∈ (H d).mro, y ∈ (H c).mro := by
    rintro c d ⟨x, hx, rfl⟩ y hy
    by_cases hc : c < l.length
    · exact ((hin c hc).1.1.1.1.1.1 x hx).1.2 y hy
    · rw [hout c (by omega)] at hx; simp at hx
  have hmro : ∀ c x, x ∈ (H c).mro ↔ Inherits H c x := by
    intro c
    induction c using Nat.strong_induction_on with
    | _ c ih =>
      intro x
      constructor
      · intro hx
        by_cases hc : c < l.length
        · rcases (hin c hc).1.1.1.1.2 x hx with rfl | ⟨y, hy, hyx⟩
          · exact .refl
          · exact Relation.ReflTransGen.head ⟨y, hy, rfl⟩ ((ih _ (hlt c _ ⟨y, hy, rfl⟩) x).1 hyx)
        · rw [hout c (by omega)] at hx
          simp at hx; subst hx; exact .refl
      · intro hx
        rcases Relation.ReflTransGen.cases_head hx with rfl | ⟨d, hd, hdx⟩
        · exact hself c
        · exact hsub c d hd x ((ih d (hlt c d hd) x).2 hdx)
  refine ⟨hlt, hmro, ?_, ?_, ?_, ?_, ?_⟩
  · intro c
    by_cases hc : c < l.length
    · refine (hin c hc).1.1.1.2.imp fun {x y} hxy hi => ?_
      have := List.contains_iff_mem.2 ((hmro y x).2 hi)
      rw [hxy] at this; cases this
    · rw [hout c (by omega)]; simp
  · intro c d args hm hd0 hd1
    by_cases hc : c < l.length
    · have := ((hin c hc).1.1.1.1.1.1 _ hm).2
      simpa [hd0, hd1] using this
    · rw [hout c (by omega)] at hm; simp at hm
  · intro c hall
    by_cases hc : c < l.length
    · rcases (hin c hc).1.1.2 with ⟨x, hx, hs⟩ | h
      · obtain ⟨d, rfl⟩ := hall x hx; cases hs
      · exact h
    · rw [hout c (by omega)]
  · by_cases hc : 0 < l.length
    · rcases (hin 0 hc).1.2 with h | h
      · exact absurd rfl h
      · exact h
    · rw [hout 0 (by omega)]
  · rintro d ⟨x, hx, rfl⟩
    by_cases hc : 1 < l.length
    · rcases (hin 1 hc).2 with h | h
      · exact absurd rfl h
      · exact h x hx
    · rw [hout 1 (by omega)] at hx; simp at hx

/-- All the ways in which `c` specialises `b`. -/
def allSpecs (H : Hier α) (b : Nat) : Nat → Nat → List (Arg α) → List (List (Arg α))
  | 0, _, _ => []
  | n + 1, c, ps => (if c = b then [ps] else []) ++ (H c).bases.flatMap fun x => match x with
    | .cls d => allSpecs H b n d (List.replicate (H d).params.length .any)
    | .sub d args => allSpecs H b n d (args.map (fill (H c).params ps))

theorem mem_allSpecs (hw : H.WF) {c ps r} (h : Specialises H c ps b r) (n : Nat) (hn : c < n) : r ∈ allSpecs H b n c ps := by
  induction h generalizing n with
  | refl =>
    obtain ⟨n, rfl⟩ := Nat.exists_eq_succ_of_ne_zero (by omega : n ≠ 0)
    simp [allSpecs]
  | sub hm _ ih =>
    obtain ⟨n, rfl⟩ := Nat.exists_eq_succ_of_ne_zero (by omega : n ≠ 0)
    have := hw.earlier _ _ ⟨_, hm, rfl⟩
    simp only [Base.class] at this
    exact List.mem_append_right _ (List.mem_flatMap.2 ⟨_, hm, ih n (by omega)⟩)
  | plain hm _ ih =>
    obtain ⟨n, rfl⟩ := Nat.exists_eq_succ_of_ne_zero (by omega : n ≠ 0)
    have := hw.earlier _ _ ⟨_, hm, rfl⟩
    simp only [Base.class] at this
    exact List.mem_append_right _ (List.mem_flatMap.2 ⟨_, hm, ih n (by omega)⟩)

/-- `2`: `class Foo(Generic[T])`; `3`: `class Bar(Generic[S])`; `4`: `class Mid(Foo[int])`; `5`: `class Leaf(Mid, Bar[S])`;
`6`: `class Pair(Foo[T], Bar[S])`; `7`: `class Last(Pair[T, int])`; `8`: `class Plain(Mid)`. The type `int` is `()`. -/
def classes : List (ClassDef Unit) :=
  [⟨false, [], [], [0]⟩, ⟨true, [], [.cls 0], [1, 0]⟩,
   ⟨true, [0], [.sub 0 [.tvar 0]], [2, 0]⟩, ⟨true, [1], [.sub 0 [.tvar 1]], [3, 0]⟩,
   ⟨true, [], [.sub 2 [.ty ()]], [4, 2, 0]⟩, ⟨true, [1], [.cls 4, .sub 3 [.tvar 1]], [5, 4, 2, 3, 0]⟩,
   ⟨true, [0, 1], [.sub 2 [.tvar 0], .sub 3 [.tvar 1]], [6, 2, 3, 0]⟩, ⟨true, [0], [.sub 6 [.tvar 0, .ty ()]], [7, 6, 2, 3, 0]⟩,
   ⟨true, [], [.cls 4], [8, 4, 2, 0]⟩]

theorem classes_WF : (ofList classes).WF := checkHier_sound _ (by decide +kernel)

/-- **C104, violated.** `Leaf` inherits from `Mid`, which is a `Foo[int]`, and in no other way from `Foo`. But since `Leaf` has
another base with type arguments, `Mid` is passed over, and it is not known that `Leaf` is a `Foo[int]`. (It is known of `Plain`,
which only inherits from `Mid`.) -/
theorem C104_violated : getArgsOf (ofList classes) 2 (.cls 5) = .ok [.any] ∧
    (∀ r, Specialises (ofList classes) 5 [.any] 2 r ↔ r = [.ty ()]) ∧
    getArgsOf (ofList classes) 2 (.cls 8) = .ok [.ty ()] := by
  refine ⟨by decide +kernel, fun r => ⟨fun h => ?_, ?_⟩, by decide +kernel⟩
  · have h1 := mem_allSpecs classes_WF h 6 (by omega)
    have h2 : ∀ x ∈ allSpecs (ofList classes) 2 6 5 [.any], x = [.ty ()] := by decide +kernel
    exact h2 r h1
  · rintro rfl
    exact .plain (d := 4) (by decide +kernel) (.sub (d := 2) (args := [.ty ()]) (by decide +kernel) (.refl _ _))

/-- **C104, violated.** For `Annotated[Foo[int], ...]`, which is supposed to stand for `Foo[int]`, the arguments of `Annotated` are
returned, although `Foo` has one parameter only; for `Annotated[Mid, ...]` an assertion fails. -/
theorem C104_violated_annotated :
    (getArgsOf (fun c => if c = 2 then ⟨true, [0], [.sub 0 [.tvar 0]], [2, 0]⟩ else ⟨false, [], [], [c]⟩) 2
      (.annotated (.sub 2 [.ty true]) [.ty false, .ty false]) = .ok [.ty false, .ty false]) ∧
    (∀ args, getArgsOf (ofList classes) 2 (.annotated (.cls 4) args) = .error .assertion) :=
  ⟨by decide +kernel, fun _ => rfl⟩

/-- `Last[int]` is a `Pair[int, int]`, hence a `Bar[int]`. -/
example : getArgsOf (ofList classes) 3 (.sub 7 [.tvar 5]) = .ok [.ty ()] := by
  refine C104_complete_partial classes_WF (by decide) (by decide) (by decide +kernel) (c := 7) (ps := [.any]) rfl (by decide +kernel)
    (.sub (d := 6) (args := [.tvar 0, .ty ()]) (by decide +kernel)
      (.sub (d := 3) (args := [.tvar 1]) (by decide +kernel) (.refl _ _))) fun r hr => ?_
  have h2 : ∀ x ∈ allSpecs (ofList classes) 3 8 7 [.any], x = [.ty ()] := by decide +kernel
  exact h2 r (mem_allSpecs classes_WF hr 8 (by omega))

/-- `Last` without type arguments is a `Foo[Any]`. -/
example : ∃ r, getArgsOf (ofList classes) 2 (.cls 7) = .ok r ∧ Specialises (ofList classes) 7 [.any] 2 r :=
  ⟨[.any], by decide +kernel, ((C104_sound classes_WF (a := .cls 7) (c := 7) (ps := [.any]) (r := [.any]) rfl
    (by decide +kernel)).2).elim id fun _ => .sub (d := 6) (args := [.tvar 0, .ty ()]) (by decide +kernel)
      (.sub (d := 2) (args := [.tvar 0]) (by decide +kernel) (.refl _ _))⟩

/-- `Bar` is not a base class of `Mid`. -/
example : getArgsOf (ofList classes) 3 (.cls 4) = .error .typeError ∧ ¬ Inherits (ofList classes) 4 3 := by
  have h : getArgsOf (ofList classes) 3 (.cls 4) = .error .typeError := by decide +kernel
  refine ⟨h, ?_⟩
  rcases (C104_errors classes_WF (c := 4) (ps := []) rfl rfl h).2 with h | h | ⟨r, r', -, h, -⟩
  · exact absurd h (by decide +kernel)
  · exact h
  · have h2 : allSpecs (ofList classes) 3 5 4 [] = [] := by decide +kernel
    have := mem_allSpecs classes_WF h 5 (by omega)
    rw [h2] at this; simp at this

example : getArgsOf (ofList classes) 2 (.annotated .union []) = .error .notImplemented :=
  C104_specials (.annotated [] .union) (by decide +kernel)

end Verif.Typing
