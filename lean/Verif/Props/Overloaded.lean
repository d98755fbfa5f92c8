import Verif.Model.Overloaded
/-!
# C116: `overloaded` with `std::visit`
-/
namespace Utki
namespace Overload
open Spec.Visit
variable {V β : Type}

/-- The parameter is taken by value or by const reference. -/
def Plain (p : Param) : Prop := p.pass = .value ∨ p.pass = .lref true

theorem betterSeq_asymm {s : Bool} {a b : ConvSeq} (h : betterSeq s a b = true) : betterSeq s b a = false := by
  obtain ⟨ra, ba⟩ := a
  obtain ⟨rb, bb⟩ := b
  rcases Nat.lt_trichotomy ra rb with hr | hr | hr
  · simp [betterSeq, Nat.not_lt.mpr (Nat.le_of_lt hr), Nat.ne_of_gt hr]
  · subst hr
    cases s
    · simp [betterSeq] at h
    · rcases ba with _ | ⟨x, y⟩ <;> rcases bb with _ | ⟨z, w⟩ <;> simp only [betterSeq] at h ⊢
      · simp at h
      · simp at h
      · simp at h
      · revert h; cases x <;> cases y <;> cases z <;> cases w <;> simp
  · simp [betterSeq, Nat.not_lt.mpr (Nat.le_of_lt hr), Nat.ne_of_gt hr] at h

theorem betterFn_asymm {t : Nat} {p q : Param} {a b : ConvSeq} (h : betterFn t p q a b = true) : betterFn t q p b a = false := by
  have hc : decide (paramType t p = paramType t q) = decide (paramType t q = paramType t p) := by simp [eq_comm]
  simp only [betterFn] at h ⊢
  rw [← hc]
  generalize decide (paramType t p = paramType t q) = s at h
  cases h1 : betterSeq s a b with
  | true => simp [betterSeq_asymm h1]
  | false =>
    rw [h1] at h
    cases h2 : betterSeq s b a with
    | true => rw [h2] at h; simp at h
    | false =>
      rw [h2] at h
      obtain ⟨tp, pp⟩ := p
      obtain ⟨tq, pq⟩ := q
      cases tp <;> cases tq <;> simp at h ⊢
      cases pp with
      | value => simp [moreSpecialized] at h
      | rref => simp [moreSpecialized] at h
      | lref x =>
        cases pq with
        | value => simp [moreSpecialized]
        | rref => simp [moreSpecialized]
        | lref y => cases x <;> cases y <;> simp_all [moreSpecialized]

/-- `p` is viable and better than all of these. -/
def Beats (conv : Convs) (t : Nat) (c : Cat) (p : Param) (qs : List Param) : Prop :=
  ∃ a, convSeq conv t c p = some a ∧ ∀ q ∈ qs, ∀ b, convSeq conv t c q = some b → betterFn t p q a b = true

theorem wins_iff {conv : Convs} {t : Nat} {c : Cat} {ps : List Param} {i : Nat} : wins conv t c ps i = true ↔
    ∃ p a, ps[i]? = some p ∧ convSeq conv t c p = some a ∧ ∀ j q b, j ≠ i → ps[j]? = some q → convSeq conv t c q = some b → betterFn t p q a b = true := by
  unfold wins
  cases hp : ps[i]? with
  | none => simp
  | some p =>
    cases ha : convSeq conv t c p with
    | none => simp [ha]
    | some a =>
      simp only [ha, List.all_eq_true, List.mem_range, Bool.or_eq_true, decide_eq_true_eq]
      constructor
      · intro h
        refine ⟨p, a, rfl, ha, fun j q b hj hq hb => ?_⟩
        have := h j (List.getElem?_eq_some_iff.mp hq).1
        rw [hq] at this
        simp only [hb] at this
        exact this.resolve_left hj
      · rintro ⟨p', a', h1, h2, h3⟩ j hj
        cases h1
        rw [ha] at h2
        cases h2
        by_cases hji : j = i
        · exact .inl hji
        · refine .inr ?_
          cases hq : ps[j]? with
          | none => rfl
          | some q =>
            cases hb : convSeq conv t c q with
            | none => simp [hb]
            | some b => simp only [hb]; exact h3 j q b hji hq hb

theorem wins_unique {conv : Convs} {t : Nat} {c : Cat} {ps : List Param} {i j : Nat} (hi : wins conv t c ps i = true) (hj : wins conv t c ps j = true) :
    i = j := by
  obtain ⟨p, a, p1, p2, p3⟩ := wins_iff.mp hi
  obtain ⟨q, b, q1, q2, q3⟩ := wins_iff.mp hj
  refine Decidable.byContradiction fun h => ?_
  have h1 := p3 j q b (fun e => h e.symm) q1 q2
  have h2 := q3 i p a h p1 p2
  rw [betterFn_asymm h1] at h2
  cases h2

theorem resolve_iff {conv : Convs} {t : Nat} {c : Cat} {ps : List Param} {i : Nat} : resolve conv t c ps = some i ↔ wins conv t c ps i = true := by
  unfold resolve
  constructor
  · intro h; exact List.find?_some h
  · intro h
    cases hf : (List.range ps.length).find? (wins conv t c ps) with
    | none =>
      obtain ⟨p, a, p1, _⟩ := wins_iff.mp h
      have := List.find?_eq_none.mp hf i (List.mem_range.mpr (List.getElem?_eq_some_iff.mp p1).1)
      exact absurd h this
    | some j => rw [wins_unique h (List.find?_some hf)]

theorem chosen_iff {conv : Convs} {t : Nat} {c : Cat} {fs : List (Functor V β)} {f : Functor V β} : chosen conv t c fs = some f ↔
    ∃ l m, fs = l ++ f :: m ∧ Beats conv t c f.param ((l ++ m).map (·.param)) := by
  unfold chosen
  rw [Option.bind_eq_some_iff]
  constructor
  · rintro ⟨i, hr, hf⟩
    obtain ⟨p, a, p1, p2, p3⟩ := wins_iff.mp (resolve_iff.mp hr)
    rw [List.getElem?_map, hf, Option.map_some, Option.some.injEq] at p1
    subst p1
    have hlt := (List.getElem?_eq_some_iff.mp hf).1
    have hsplit : fs = fs.take i ++ f :: fs.drop (i + 1) := by
      have := List.getElem?_eq_some_iff.mp hf
      rw [← this.2, List.getElem_cons_drop, List.take_append_drop]
    refine ⟨fs.take i, fs.drop (i + 1), hsplit, a, p2, fun q hq b hb => ?_⟩
    obtain ⟨g, hg, rfl⟩ := List.mem_map.mp hq
    rcases List.mem_append.mp hg with hg | hg
    · obtain ⟨j, hj, e⟩ := List.mem_iff_getElem.mp hg
      rw [List.length_take] at hj
      rw [List.getElem_take] at e
      exact p3 j g.param b (by omega) (by rw [List.getElem?_map, List.getElem?_eq_getElem (by omega), e]; rfl) hb
    · obtain ⟨j, hj, e⟩ := List.mem_iff_getElem.mp hg
      rw [List.length_drop] at hj
      rw [List.getElem_drop] at e
      exact p3 (i + 1 + j) g.param b (by omega) (by rw [List.getElem?_map, List.getElem?_eq_getElem (by omega), e]; rfl) hb
  · rintro ⟨l, m, rfl, a, h1, h2⟩
    refine ⟨l.length, resolve_iff.mpr (wins_iff.mpr ⟨f.param, a, by simp, h1, fun j q b hj hq hb => ?_⟩), by simp⟩
    refine h2 q ?_ b hb
    rw [List.getElem?_map, Option.map_eq_some_iff] at hq
    obtain ⟨g, hg, rfl⟩ := hq
    refine List.mem_map.mpr ⟨g, ?_, rfl⟩
    rw [List.mem_append]
    by_cases hjl : j < l.length
    · rw [List.getElem?_append_left hjl] at hg
      exact .inl (List.mem_of_getElem? hg)
    · rw [List.getElem?_append_right (by omega)] at hg
      obtain ⟨k, hk⟩ : ∃ k, j - l.length = k + 1 := ⟨j - l.length - 1, by omega⟩
      rw [hk, List.getElem?_cons_succ] at hg
      exact .inr (List.mem_of_getElem? hg)

theorem beats_congr {conv : Convs} {t : Nat} {c : Cat} {p : Param} {qs rs : List Param} (h : ∀ q, (convSeq conv t c q).isSome → q ∈ rs → q ∈ qs)
    (hb : Beats conv t c p qs) : Beats conv t c p rs := by
  obtain ⟨a, h1, h2⟩ := hb
  exact ⟨a, h1, fun q hq b hs => h2 q (h q (by simp [hs]) hq) b hs⟩

theorem chosen_perm {conv : Convs} {t : Nat} {c : Cat} {fs gs : List (Functor V β)} (h : fs.Perm gs) : chosen conv t c fs = chosen conv t c gs := by
  have one : ∀ {fs gs : List (Functor V β)}, fs.Perm gs → ∀ f, chosen conv t c fs = some f → chosen conv t c gs = some f := by
    intro fs gs h f hf
    obtain ⟨l, m, rfl, hb⟩ := chosen_iff.mp hf
    obtain ⟨l', m', rfl⟩ := List.append_of_mem (h.subset (List.mem_append_right l List.mem_cons_self))
    have hp : (l ++ m).Perm (l' ++ m') := (List.perm_middle.symm.trans (h.trans List.perm_middle)).cons_inv
    exact chosen_iff.mpr ⟨l', m', rfl, beats_congr (fun q _ hq => (hp.map _).mem_iff.mpr hq) hb⟩
  exact Option.ext fun f => ⟨one h f, one h.symm f⟩

theorem convSeq_plain_same {conv : Convs} {t : Nat} {c : Cat} {p : Param} (hp : Plain p) (h : p.ty = .type t ∨ p.ty = .any) :
    convSeq conv t c p = some ⟨0, if p.pass = .value then none else some (false, true)⟩ := by
  obtain ⟨ty, pass⟩ := p
  simp only at h
  rcases hp with hp | hp <;> simp only at hp <;> subst hp <;> rcases h with rfl | rfl <;> simp [convSeq, bindSame]

theorem convSeq_plain_other {conv : Convs} {t u : Nat} {c : Cat} {p : Param} (hp : Plain p) (h : p.ty = .type u) (hu : u ≠ t) :
    convSeq conv t c p = (conv t u).map fun r => ⟨r + 1, if p.pass = .value then none else some (false, true)⟩ := by
  obtain ⟨ty, pass⟩ := p
  simp only at h
  subst h
  rcases hp with hp | hp <;> simp only at hp <;> subst hp <;> cases hc : conv t u <;> simp [convSeq, bindConverted, hu, hc]

/-- Conversion sequences of parameters by value or const reference differ only by rank. -/
theorem betterSeq_plain (s : Bool) (m n : Nat) (P Q : Prop) [Decidable P] [Decidable Q] :
    betterSeq s ⟨m, if P then none else some (false, true)⟩ ⟨n, if Q then none else some (false, true)⟩ = decide (m < n) := by
  by_cases hP : P <;> by_cases hQ : Q <;> simp [betterSeq, hP, hQ]

theorem visit_congr {conv : Convs} {convert : Nat → Nat → V → V} {c : Cat} {alts : List Nat} {fs gs : List (Functor V β)}
    (h : ∀ t ∈ alts, chosen conv t c fs = chosen conv t c gs) (v : Variant V) : visit conv convert c fs alts v = visit conv convert c gs alts v := by
  have hc : compiles conv c fs alts = compiles conv c gs alts := by
    rw [Bool.eq_iff_iff]
    simp only [compiles, List.all_eq_true]
    exact ⟨fun a t ht => by rw [← h t ht]; exact a t ht, fun a t ht => by rw [h t ht]; exact a t ht⟩
  rcases v with _ | ⟨k, x⟩
  · simp [visit, hc]
  · cases hk : alts[k]? with
    | none => simp [visit, hc, hk]
    | some t => simp [visit, hc, hk, h t (List.mem_of_getElem? hk)]

end Overload
open Overload Spec.Visit
variable {V β : Type}

/-- **C116.** A visit of a variant that holds a value calls one functor, which depends on the type of the alternative only, and returns what it returns;
a variant without a value makes it throw. -/
theorem C116_visit (conv : Convs) (convert : Nat → Nat → V → V) (c : Cat) (fs : List (Functor V β)) (alts : List Nat) (hc : compiles conv c fs alts = true) :
    visit conv convert c fs alts none = some (.error ()) ∧
    ∀ t ∈ alts, ∃ f ∈ fs, ∀ k x, alts[k]? = some t → visit conv convert c fs alts (some (k, x)) = some (.ok (call convert t f x)) := by
  refine ⟨by simp [visit, hc], fun t ht => ?_⟩
  have := List.all_eq_true.mp hc t ht
  obtain ⟨f, hf⟩ := Option.isSome_iff_exists.mp this
  obtain ⟨l, m, e, _⟩ := chosen_iff.mp hf
  exact ⟨f, by simp [e], fun k x hk => by simp [visit, hc, hk, hf]⟩

/-- **C116.** It does not matter in which order the functors are given: neither whether the program compiles nor what a visit does. -/
theorem C116_order (conv : Convs) (convert : Nat → Nat → V → V) (c : Cat) (fs gs : List (Functor V β)) (h : fs.Perm gs) (alts : List Nat) (v : Variant V) :
    visit conv convert c fs alts v = visit conv convert c gs alts v :=
  visit_congr (fun _ _ => chosen_perm h) v

/-- **C116.** A functor for the very type of the value is the one called, whatever other functors there are, for any type or for types to which the value
could be converted, if all take their argument by value or const reference. It gets the value itself. -/
theorem C116_exact (conv : Convs) (convert : Nat → Nat → V → V) (c : Cat) (fs : List (Functor V β)) (hp : ∀ f ∈ fs, Plain f.param) (alts : List Nat)
    (hc : compiles conv c fs alts = true) (k t : Nat) (hk : alts[k]? = some t) (f : Functor V β) (hf : f ∈ fs) (ht : f.param.ty = .type t) (x : V) :
    visit conv convert c fs alts (some (k, x)) = some (.ok (f.body x)) := by
  have hs := List.all_eq_true.mp hc t (List.mem_of_getElem? hk)
  obtain ⟨g, hg⟩ := Option.isSome_iff_exists.mp hs
  have hgf : g = f := by
    obtain ⟨l, m, rfl, a, h1, h2⟩ := chosen_iff.mp hg
    have hpg := hp g (by simp)
    refine Classical.byContradiction fun hne => ?_
    have hf' : f ∈ l ++ m := by
      simp only [List.mem_append, List.mem_cons] at hf ⊢
      rcases hf with h | h | h
      · exact .inl h
      · exact absurd h.symm hne
      · exact .inr h
    have hbf := convSeq_plain_same (conv := conv) (c := c) (hp f hf) (.inl ht)
    have hb := h2 f.param (List.mem_map.mpr ⟨f, hf', rfl⟩) _ hbf
    cases hty : g.param.ty with
    | any =>
      rw [convSeq_plain_same hpg (.inr hty)] at h1
      cases h1
      simp [betterFn, betterSeq_plain, hty, ht] at hb
    | type u =>
      by_cases hu : u = t
      · rw [convSeq_plain_same hpg (.inl (hu ▸ hty))] at h1
        cases h1
        simp [betterFn, betterSeq_plain, hty, ht] at hb
      · rw [convSeq_plain_other hpg hty hu, Option.map_eq_some_iff] at h1
        obtain ⟨r, hr, rfl⟩ := h1
        simp [betterFn, betterSeq_plain, hty, ht] at hb
  simp [visit, hc, hk, hg, hgf, call, paramType, ht]

/-- **C116.** Such a program compiles as far as this alternative is concerned if and only if there is one functor for the type, not two. -/
theorem C116_exact_compiles (conv : Convs) (c : Cat) (fs : List (Functor V β)) (hp : ∀ f ∈ fs, Plain f.param) (t : Nat) (h : ∃ f ∈ fs, f.param.ty = .type t) :
    compiles conv c fs [t] = true ↔ ∃ i, Only (fun f : Functor V β => f.param.ty = .type t) fs i := by
  simp only [compiles, List.all_cons, List.all_nil, Bool.and_true, Option.isSome_iff_exists]
  constructor
  · rintro ⟨g, hg⟩
    unfold chosen at hg
    rw [Option.bind_eq_some_iff] at hg
    obtain ⟨i, hr, hgi⟩ := hg
    obtain ⟨p, a, p1, p2, p3⟩ := wins_iff.mp (resolve_iff.mp hr)
    rw [List.getElem?_map, hgi, Option.map_some, Option.some.injEq] at p1
    subst p1
    have hpg := hp g (List.mem_of_getElem? hgi)
    have no : ∀ j x, fs[j]? = some x → x.param.ty = .type t → j = i := by
      intro j x hj hx
      refine Decidable.byContradiction fun hne => ?_
      have hb := p3 j x.param _ hne (by rw [List.getElem?_map, hj]; rfl) (convSeq_plain_same (hp x (List.mem_of_getElem? hj)) (.inl hx))
      cases hty : g.param.ty with
      | any =>
        rw [convSeq_plain_same hpg (.inr hty)] at p2
        cases p2
        simp [betterFn, betterSeq_plain, hty, hx] at hb
      | type u =>
        by_cases hu : u = t
        · rw [convSeq_plain_same hpg (.inl (hu ▸ hty))] at p2
          cases p2
          simp [betterFn, betterSeq_plain, hty, hx] at hb
        · rw [convSeq_plain_other hpg hty hu, Option.map_eq_some_iff] at p2
          obtain ⟨r, hr, rfl⟩ := p2
          simp [betterFn, betterSeq_plain, hty, hx] at hb
    obtain ⟨f, hf, ht⟩ := h
    obtain ⟨j, hj⟩ := List.mem_iff_getElem?.mp hf
    have := no j f hj ht
    subst this
    exact ⟨j, ⟨f, hj, ht⟩, no⟩
  · rintro ⟨i, ⟨f, hf, ht⟩, no⟩
    refine ⟨f, ?_⟩
    unfold chosen
    rw [Option.bind_eq_some_iff]
    refine ⟨i, resolve_iff.mpr (wins_iff.mpr ⟨f.param, _, by rw [List.getElem?_map, hf]; rfl,
      convSeq_plain_same (hp f (List.mem_of_getElem? hf)) (.inl ht), fun j q b hj hq hb => ?_⟩), hf⟩
    rw [List.getElem?_map, Option.map_eq_some_iff] at hq
    obtain ⟨g, hg, rfl⟩ := hq
    have hpg := hp g (List.mem_of_getElem? hg)
    cases hty : g.param.ty with
    | any =>
      rw [convSeq_plain_same hpg (.inr hty)] at hb
      cases hb
      simp [betterFn, betterSeq_plain, hty, ht]
    | type u =>
      have hu : u ≠ t := by rintro rfl; exact hj (no j g hg hty)
      rw [convSeq_plain_other hpg hty hu, Option.map_eq_some_iff] at hb
      obtain ⟨r, hr, rfl⟩ := hb
      simp [betterFn, betterSeq_plain, ht]

/-- **C116.** If there is none for the very type, the functor for any type is called, rather than one to whose type the value could be converted. -/
theorem C116_generic (conv : Convs) (convert : Nat → Nat → V → V) (c : Cat) (fs : List (Functor V β)) (hp : ∀ f ∈ fs, Plain f.param) (alts : List Nat)
    (hc : compiles conv c fs alts = true) (k t : Nat) (hk : alts[k]? = some t) (hno : ∀ f ∈ fs, f.param.ty ≠ .type t) (f : Functor V β) (hf : f ∈ fs)
    (ht : f.param.ty = .any) (x : V) : visit conv convert c fs alts (some (k, x)) = some (.ok (f.body x)) := by
  have hs := List.all_eq_true.mp hc t (List.mem_of_getElem? hk)
  obtain ⟨g, hg⟩ := Option.isSome_iff_exists.mp hs
  have hgf : g = f := by
    obtain ⟨l, m, rfl, a, h1, h2⟩ := chosen_iff.mp hg
    have hpg := hp g (by simp)
    refine Classical.byContradiction fun hne => ?_
    have hf' : f ∈ l ++ m := by
      simp only [List.mem_append, List.mem_cons] at hf ⊢
      rcases hf with h | h | h
      · exact .inl h
      · exact absurd h.symm hne
      · exact .inr h
    have hbf := convSeq_plain_same (conv := conv) (t := t) (c := c) (hp f hf) (.inr ht)
    have hb := h2 f.param (List.mem_map.mpr ⟨f, hf', rfl⟩) _ hbf
    have hms : moreSpecialized g.param.pass f.param.pass = false := by
      rcases hpg with e | e <;> rcases hp f hf with e' | e' <;> simp [e, e', moreSpecialized]
    cases hty : g.param.ty with
    | any =>
      rw [convSeq_plain_same hpg (.inr hty)] at h1
      cases h1
      simp [betterFn, betterSeq_plain, hty, ht, hms] at hb
    | type u =>
      have hu : u ≠ t := by rintro rfl; exact hno g (by simp) hty
      rw [convSeq_plain_other hpg hty hu, Option.map_eq_some_iff] at h1
      obtain ⟨r, hr, rfl⟩ := h1
      simp [betterFn, betterSeq_plain] at hb
  simp [visit, hc, hk, hg, hgf, call, paramType, ht]

/-- **C116.** If there is neither, it is the functor to whose type the value is converted best; the program compiles only if no other is as good. -/
theorem C116_conversion (conv : Convs) (c : Cat) (fs : List (Functor V β)) (hp : ∀ f ∈ fs, Plain f.param) (t : Nat)
    (hno : ∀ f ∈ fs, ∃ u, f.param.ty = .type u ∧ u ≠ t) (i : Nat) :
    resolve conv t c (fs.map (·.param)) = some i ↔ ∃ f u r, fs[i]? = some f ∧ f.param.ty = .type u ∧ conv t u = some r ∧
      ∀ j g w q, j ≠ i → fs[j]? = some g → g.param.ty = .type w → conv t w = some q → r < q := by
  rw [resolve_iff, wins_iff]
  constructor
  · rintro ⟨p, a, p1, p2, p3⟩
    rw [List.getElem?_map, Option.map_eq_some_iff] at p1
    obtain ⟨f, hf, rfl⟩ := p1
    obtain ⟨u, hu, hut⟩ := hno f (List.mem_of_getElem? hf)
    rw [convSeq_plain_other (hp f (List.mem_of_getElem? hf)) hu hut, Option.map_eq_some_iff] at p2
    obtain ⟨r, hr, rfl⟩ := p2
    refine ⟨f, u, r, hf, hu, hr, fun j g w q hj hg hw hq => ?_⟩
    obtain ⟨w', hw', hwt⟩ := hno g (List.mem_of_getElem? hg)
    rw [hw] at hw'
    cases hw'
    have := p3 j g.param _ hj (by rw [List.getElem?_map, hg]; rfl)
      (by rw [convSeq_plain_other (hp g (List.mem_of_getElem? hg)) hw hwt, hq]; rfl)
    simpa [betterFn, betterSeq_plain, hu, hw] using this
  · rintro ⟨f, u, r, hf, hu, hr, h⟩
    obtain ⟨u', hu', hut⟩ := hno f (List.mem_of_getElem? hf)
    rw [hu] at hu'
    cases hu'
    refine ⟨f.param, _, by rw [List.getElem?_map, hf]; rfl, by rw [convSeq_plain_other (hp f (List.mem_of_getElem? hf)) hu hut, hr]; rfl,
      fun j p b hj hq hb => ?_⟩
    rw [List.getElem?_map, Option.map_eq_some_iff] at hq
    obtain ⟨g, hg, rfl⟩ := hq
    obtain ⟨w, hw, hwt⟩ := hno g (List.mem_of_getElem? hg)
    rw [convSeq_plain_other (hp g (List.mem_of_getElem? hg)) hw hwt, Option.map_eq_some_iff] at hb
    obtain ⟨q, hq, rfl⟩ := hb
    have := h j g w q hj hg hw hq
    simp [betterFn, betterSeq_plain, this]

/-- A functor that cannot be called with a value of this type has no influence. -/
theorem Overload.chosen_unrelated (conv : Convs) (t : Nat) (c : Cat) (f : Functor V β) (hf : ∃ u, f.param.ty = .type u ∧ u ≠ t ∧ conv t u = none) (l m : List (Functor V β)) :
    chosen conv t c (l ++ f :: m) = chosen conv t c (l ++ m) := by
  obtain ⟨u, hu, hut, hn⟩ := hf
  have hnone : convSeq conv t c f.param = none := by simp [convSeq, hu, hut, hn]
  rw [chosen_perm (List.perm_middle (l₁ := l) (l₂ := m) (a := f))]
  generalize l ++ m = fs
  refine Option.ext fun g => ?_
  rw [chosen_iff, chosen_iff]
  constructor
  · rintro ⟨a, b, e, hb⟩
    cases a with
    | nil =>
      rw [List.nil_append, List.cons.injEq] at e
      obtain ⟨s, hs, _⟩ := hb
      rw [← e.1, hnone] at hs
      cases hs
    | cons a0 a =>
      rw [List.cons_append, List.cons.injEq] at e
      exact ⟨a, b, e.2, beats_congr (fun q _ hq => by rw [List.cons_append, List.map_cons]; exact List.mem_cons_of_mem _ hq) hb⟩
  · rintro ⟨a, b, rfl, hb⟩
    refine ⟨f :: a, b, rfl, beats_congr (fun q hs hq => ?_) hb⟩
    rw [List.cons_append, List.map_cons, List.mem_cons] at hq
    rcases hq with rfl | hq
    · rw [hnone] at hs; cases hs
    · exact hq

/-- **C116.** Functors that cannot be called with any of the alternatives have no influence. -/
theorem C116_unrelated (conv : Convs) (convert : Nat → Nat → V → V) (c : Cat) (alts : List Nat) (f : Functor V β)
    (hf : ∀ t ∈ alts, ∃ u, f.param.ty = .type u ∧ u ≠ t ∧ conv t u = none) (l m : List (Functor V β)) (v : Variant V) :
    visit conv convert c (l ++ f :: m) alts v = visit conv convert c (l ++ m) alts v :=
  visit_congr (fun t ht => chosen_unrelated conv t c f (hf t ht) l m) v

/-- **C116.** The restriction to parameters by value or const reference is needed: functors `auto&` and `auto&&` are called in place of one for
`const T&` when a variant that is not const is visited; with a const variant they are not. -/
theorem C116_reference_takes_over (conv : Convs) (t : Nat) (pass : Pass) (hpass : pass = .lref false ∨ pass = .rref) :
    resolve conv t .lvalue [⟨.type t, .lref true⟩, ⟨.any, pass⟩] = some 1 ∧ resolve conv t .clvalue [⟨.type t, .lref true⟩, ⟨.any, pass⟩] = some 0 := by
  rcases hpass with rfl | rfl <;>
    simp [resolve, List.range_succ, wins, convSeq, bindSame, betterFn, betterSeq, paramType]

/-- The example of the documentation, variant.hpp:71-89: alternatives int 0, bool 1, double 2, string 3; bool is promoted to int, numbers are converted. -/
def Overload.docConv : Convs := fun a b => if a < 3 ∧ b < 3 then (if a = 1 ∧ b = 0 then some 0 else some 1) else none

def Overload.docFunctors : List (Functor Int String) :=
  [⟨⟨.any, .value⟩, fun _ => "auto"⟩, ⟨⟨.type 2, .value⟩, fun _ => "double"⟩, ⟨⟨.type 3, .lref true⟩, fun _ => "string"⟩]

/-- The program of the documentation compiles, and meets the hypotheses above: int and bool go to the functor for any type. -/
example : compiles docConv .lvalue docFunctors [0, 1, 2, 3] = true ∧ (∀ f ∈ docFunctors, Plain f.param) := by
  refine ⟨by decide, fun f hf => ?_⟩
  simp only [docFunctors, List.mem_cons, List.not_mem_nil, or_false] at hf
  rcases hf with rfl | rfl | rfl
  · exact .inl rfl
  · exact .inl rfl
  · exact .inr rfl
example : [0, 1, 2, 3].map (fun k => (chosen docConv k .lvalue docFunctors).map (·.body 0)) = [some "auto", some "auto", some "double", some "string"] := by decide
/-- Without it they are converted to double. -/
example : [0, 1, 2, 3].map (fun k => resolve docConv k .rvalue [⟨.type 2, .value⟩, ⟨.type 3, .lref true⟩]) = [some 0, some 0, some 0, some 1] := by decide
/-- With functors for int and double, bool is promoted to int; with functors for bool and double, int is ambiguous. -/
example : resolve docConv 1 .lvalue [⟨.type 2, .value⟩, ⟨.type 0, .value⟩] = some 1 ∧ resolve docConv 0 .lvalue [⟨.type 2, .value⟩, ⟨.type 1, .value⟩] = none := by decide

end Utki
