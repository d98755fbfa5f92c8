import Verif.Model.VisitMany
import Verif.Spec.VisitMany
import Verif.Props.Overloaded
/-!
# C125: `overloaded` with `std::visit` of several variants
-/
namespace Utki
namespace VisitMany
open Spec.Visit Spec.VisitMany
open Overload (Convs Variant)
variable {V β : Type}

theorem takes_nil (ts : List Nat) : Takes [] ts ↔ ts = [] := by
  constructor
  · intro h; exact List.length_eq_zero_iff.mp h.1.symm
  · rintro rfl; exact ⟨rfl, by simp⟩

theorem takes_cons (p : For) (ps : List For) (t : Nat) (ts : List Nat) : Takes (p :: ps) (t :: ts) ↔ (p = .any ∨ p = .type t) ∧ Takes ps ts := by
  constructor
  · rintro ⟨h1, h2⟩
    exact ⟨h2 0 p t rfl rfl, by simpa using h1, fun i q u hq hu => h2 (i + 1) q u hq hu⟩
  · rintro ⟨h0, h1, h2⟩
    refine ⟨by simp [h1], fun i q u hq hu => ?_⟩
    cases i with
    | zero => simp at hq hu; subst hq hu; exact h0
    | succ i => exact h2 i q u hq hu

theorem specific_cons (p : For) (ps : List For) (q : For) (qs : List For) :
    Specific (p :: ps) (q :: qs) ↔ (q = .any ∨ p = q) ∧ Specific ps qs := by
  constructor
  · rintro ⟨h1, h2⟩
    exact ⟨h2 0 p q rfl rfl, by simpa using h1, fun i q u hq hu => h2 (i + 1) q u hq hu⟩
  · rintro ⟨h0, h1, h2⟩
    refine ⟨by simp [h1], fun i q u hq hu => ?_⟩
    cases i with
    | zero => simp at hq hu; subst hq hu; exact h0
    | succ i => exact h2 i q u hq hu

theorem specific_nil : Specific [] [] := ⟨rfl, by simp⟩

theorem deducible_iff {ps qs : List For} (hl : ps.length = qs.length) : deducible ps qs = true ↔ Specific ps qs := by
  induction ps generalizing qs with
  | nil =>
    obtain rfl := List.length_eq_zero_iff.mp hl.symm
    simp [deducible, Specific]
  | cons p ps ih =>
    cases qs with
    | nil => simp at hl
    | cons q qs => simp [deducible, specific_cons, ih (by simpa using hl)]

theorem specific_antisymm {ps qs : List For} (h1 : Specific ps qs) (h2 : Specific qs ps) : ps = qs := by
  refine List.ext_getElem? fun i => ?_
  cases hp : ps[i]? with
  | none =>
    rw [List.getElem?_eq_none_iff] at hp
    rw [eq_comm, List.getElem?_eq_none_iff]
    have := h1.1
    omega
  | some p =>
    have hi : i < qs.length := by have := (List.getElem?_eq_some_iff.mp hp).1; have := h1.1; omega
    have hq : qs[i]? = some qs[i] := List.getElem?_eq_getElem hi
    rw [hq]
    have a := h1.2 i p qs[i] hp hq
    have b := h2.2 i qs[i] p hq hp
    rcases a with a | a
    · rcases b with b | b
      · rw [a, b]
      · rw [b]
    · rw [a]

theorem ranks_takes {conv : Convs} {ts : List Nat} {ps : List For} (h : Takes ps ts) : ranks conv ts ps = some (List.replicate ts.length 0) := by
  induction ts generalizing ps with
  | nil =>
    obtain rfl := List.length_eq_zero_iff.mp h.1
    rfl
  | cons t ts ih =>
    cases ps with
    | nil => exact absurd h.1 (by simp)
    | cons p ps =>
      obtain ⟨h0, h1⟩ := (takes_cons ..).mp h
      have : rank conv t p = some 0 := by rcases h0 with rfl | rfl <;> simp [rank]
      simp [ranks, this, ih h1, List.replicate_succ]

theorem ranks_length {conv : Convs} {ts : List Nat} {ps : List For} {a : List Nat} (h : ranks conv ts ps = some a) :
    ps.length = ts.length ∧ a.length = ts.length := by
  induction ts generalizing ps a with
  | nil => cases ps with
    | nil => simp [ranks] at h; simp [h]
    | cons p ps => simp [ranks] at h
  | cons t ts ih => cases ps with
    | nil => simp [ranks] at h
    | cons p ps =>
      simp only [ranks, Option.bind_eq_some_iff, Option.map_eq_some_iff] at h
      obtain ⟨r, _, b, hb, rfl⟩ := h
      have := ih hb
      simp [this]

theorem ranks_not_takes {conv : Convs} {ts : List Nat} {ps : List For} {a : List Nat} (h : ranks conv ts ps = some a) (hn : ¬ Takes ps ts) :
    someBetter (List.replicate ts.length 0) a = true := by
  induction ts generalizing ps a with
  | nil => cases ps with
    | nil => exact absurd ((takes_nil []).mpr rfl) hn
    | cons p ps => simp [ranks] at h
  | cons t ts ih => cases ps with
    | nil => simp [ranks] at h
    | cons p ps =>
      simp only [ranks, Option.bind_eq_some_iff, Option.map_eq_some_iff] at h
      obtain ⟨r, hr, b, hb, rfl⟩ := h
      rw [takes_cons] at hn
      by_cases hp : p = .any ∨ p = .type t
      · have := ih hb (fun h => hn ⟨hp, h⟩)
        simp [List.replicate_succ, someBetter, this]
      · cases p with
        | any => simp at hp
        | type u =>
          have hu : u ≠ t := fun e => hp (.inr (by rw [e]))
          simp only [rank, hu, if_false, Option.map_eq_some_iff] at hr
          obtain ⟨q, _, rfl⟩ := hr
          simp [List.replicate_succ, someBetter]

theorem notWorse_zeros (n : Nat) (a : List Nat) : notWorse (List.replicate n 0) a = true := by
  induction n generalizing a with
  | zero => simp [notWorse]
  | succ n ih => cases a <;> simp [List.replicate_succ, notWorse, ih]

theorem someBetter_zeros (n : Nat) (a : List Nat) : someBetter a (List.replicate n 0) = false := by
  induction n generalizing a with
  | zero => cases a <;> simp [someBetter]
  | succ n ih => cases a <;> simp [List.replicate_succ, someBetter, ih]

theorem notWorse_someBetter {a b : List Nat} (h : notWorse a b = true) : someBetter b a = false := by
  induction a generalizing b with
  | nil => cases b <;> simp [someBetter]
  | cons x a ih =>
    cases b with
    | nil => simp [someBetter]
    | cons y b =>
      simp only [notWorse, Bool.and_eq_true, decide_eq_true_eq] at h
      simp [someBetter, ih h.2, h.1]

theorem better_asymm {p q : List For} {a b : List Nat} (h : better p q a b = true) : better q p b a = false := by
  refine Bool.eq_false_iff.mpr fun h' => ?_
  simp only [better, Bool.and_eq_true] at h h'
  rw [notWorse_someBetter h.1] at h'
  rw [notWorse_someBetter h'.1] at h
  cases hp : isTemplate p <;> cases hq : isTemplate q <;> simp_all

theorem template_takes {ps : List For} {ts : List Nat} (h : Takes ps ts) : isTemplate ps = false ↔ ps = ts.map .type := by
  induction ts generalizing ps with
  | nil =>
    obtain rfl := List.length_eq_zero_iff.mp h.1
    simp [isTemplate]
  | cons t ts ih =>
    cases ps with
    | nil => exact absurd h.1 (by simp)
    | cons p ps =>
      obtain ⟨h0, h1⟩ := (takes_cons ..).mp h
      have := ih h1
      rcases h0 with rfl | rfl
      · simp [isTemplate]
      · simp only [isTemplate, List.any_cons, List.map_cons] at this ⊢
        simp [this]

theorem takes_types (ts : List Nat) : Takes (ts.map .type) ts := by
  induction ts with
  | nil => exact (takes_nil []).mpr rfl
  | cons t ts ih => exact (takes_cons ..).mpr ⟨.inr rfl, ih⟩

theorem types_specific {qs : List For} {ts : List Nat} (h : Takes qs ts) : Specific (ts.map .type) qs := by
  refine ⟨by simp [h.1], fun i p q hp hq => ?_⟩
  rw [List.getElem?_map, Option.map_eq_some_iff] at hp
  obtain ⟨t, ht, rfl⟩ := hp
  rcases h.2 i q t hq ht with h | h
  · exact .inl h
  · exact .inr h.symm

/-- Among functors that take the types, the better ones are the more specific ones. -/
theorem better_takes {ps qs : List For} {ts : List Nat} (hp : Takes ps ts) (hq : Takes qs ts) :
    better ps qs (List.replicate ts.length 0) (List.replicate ts.length 0) = true ↔ Specific ps qs ∧ ps ≠ qs := by
  have hl : ps.length = qs.length := by rw [hp.1, hq.1]
  simp only [better, notWorse_zeros, someBetter_zeros, Bool.true_and, Bool.false_or, Bool.or_eq_true, Bool.and_eq_true, Bool.not_eq_true',
    deducible_iff hl, Bool.eq_false_iff, ne_eq, deducible_iff hl.symm]
  rw [Bool.not_eq_true, template_takes hp]
  constructor
  · rintro (⟨rfl, h⟩ | ⟨⟨⟨h1, h2⟩, h3⟩, h4⟩)
    · refine ⟨types_specific hq, fun e => ?_⟩
      rw [← e, (template_takes (takes_types ts)).mpr rfl] at h
      cases h
    · exact ⟨h3, fun e => h4 (e ▸ h3)⟩
  · rintro ⟨h1, h2⟩
    have hq' : isTemplate qs = true := by
      rw [← Bool.not_eq_false]
      intro h
      rw [template_takes hq] at h
      subst h
      exact h2 (specific_antisymm h1 (types_specific hp))
    by_cases ht : isTemplate ps = true
    · exact .inr ⟨⟨⟨ht, hq'⟩, h1⟩, fun h => h2 (specific_antisymm h1 h)⟩
    · rw [Bool.not_eq_true, template_takes hp] at ht
      exact .inl ⟨ht, hq'⟩

theorem wins_iff {conv : Convs} {ts : List Nat} {ps : List (List For)} {i : Nat} : wins conv ts ps i = true ↔
    ∃ p a, ps[i]? = some p ∧ ranks conv ts p = some a ∧ ∀ j q b, j ≠ i → ps[j]? = some q → ranks conv ts q = some b → better p q a b = true := by
  unfold wins
  cases hp : ps[i]? with
  | none => simp
  | some p =>
    cases ha : ranks conv ts p with
    | none => simp [ha]
    | some a =>
      simp only [ha, List.all_eq_true, List.mem_range, Bool.or_eq_true, decide_eq_true_eq]
      constructor
      · intro h
        refine ⟨p, a, rfl, ha, fun j q b hj hq hb => ?_⟩
        have := h j (List.getElem?_eq_some_iff.mp hq).1
        rw [hq] at this
        simp only [hb] at this
        exact this.resolve_left hj
      · rintro ⟨p', a', h1, h2, h3⟩ j hj
        cases h1
        rw [ha] at h2
        cases h2
        by_cases hji : j = i
        · exact .inl hji
        · refine .inr ?_
          cases hq : ps[j]? with
          | none => rfl
          | some q =>
            cases hb : ranks conv ts q with
            | none => simp [hb]
            | some b => simp only [hb]; exact h3 j q b hji hq hb

theorem wins_unique {conv : Convs} {ts : List Nat} {ps : List (List For)} {i j : Nat} (hi : wins conv ts ps i = true) (hj : wins conv ts ps j = true) :
    i = j := by
  obtain ⟨p, a, p1, p2, p3⟩ := wins_iff.mp hi
  obtain ⟨q, b, q1, q2, q3⟩ := wins_iff.mp hj
  refine Decidable.byContradiction fun h => ?_
  have h1 := p3 j q b (fun e => h e.symm) q1 q2
  have h2 := q3 i p a h p1 p2
  rw [better_asymm h1] at h2
  cases h2

theorem resolve_iff {conv : Convs} {ts : List Nat} {ps : List (List For)} {i : Nat} : resolve conv ts ps = some i ↔ wins conv ts ps i = true := by
  unfold resolve
  constructor
  · intro h; exact List.find?_some h
  · intro h
    cases hf : (List.range ps.length).find? (wins conv ts ps) with
    | none =>
      obtain ⟨p, a, p1, _⟩ := wins_iff.mp h
      have := List.find?_eq_none.mp hf i (List.mem_range.mpr (List.getElem?_eq_some_iff.mp p1).1)
      exact absurd h this
    | some j => rw [wins_unique h (List.find?_some hf)]

/-- `f` is viable and better than all of these. -/
def Beats (conv : Convs) (ts : List Nat) (p : List For) (qs : List (List For)) : Prop :=
  ∃ a, ranks conv ts p = some a ∧ ∀ q ∈ qs, ∀ b, ranks conv ts q = some b → better p q a b = true

theorem chosen_iff {conv : Convs} {ts : List Nat} {fs : List (Fun V β)} {f : Fun V β} : chosen conv ts fs = some f ↔
    ∃ l m, fs = l ++ f :: m ∧ Beats conv ts f.params ((l ++ m).map (·.params)) := by
  unfold chosen
  rw [Option.bind_eq_some_iff]
  constructor
  · rintro ⟨i, hr, hf⟩
    obtain ⟨p, a, p1, p2, p3⟩ := wins_iff.mp (resolve_iff.mp hr)
    rw [List.getElem?_map, hf, Option.map_some, Option.some.injEq] at p1
    subst p1
    have hlt := (List.getElem?_eq_some_iff.mp hf).1
    have hsplit : fs = fs.take i ++ f :: fs.drop (i + 1) := by
      have := List.getElem?_eq_some_iff.mp hf
      rw [← this.2, List.getElem_cons_drop, List.take_append_drop]
    refine ⟨fs.take i, fs.drop (i + 1), hsplit, a, p2, fun q hq b hb => ?_⟩
    obtain ⟨g, hg, rfl⟩ := List.mem_map.mp hq
    rcases List.mem_append.mp hg with hg | hg
    · obtain ⟨j, hj, e⟩ := List.mem_iff_getElem.mp hg
      rw [List.length_take] at hj
      rw [List.getElem_take] at e
      exact p3 j g.params b (by omega) (by rw [List.getElem?_map, List.getElem?_eq_getElem (by omega), e]; rfl) hb
    · obtain ⟨j, hj, e⟩ := List.mem_iff_getElem.mp hg
      rw [List.length_drop] at hj
      rw [List.getElem_drop] at e
      exact p3 (i + 1 + j) g.params b (by omega) (by rw [List.getElem?_map, List.getElem?_eq_getElem (by omega), e]; rfl) hb
  · rintro ⟨l, m, rfl, a, h1, h2⟩
    refine ⟨l.length, resolve_iff.mpr (wins_iff.mpr ⟨f.params, a, by simp, h1, fun j q b hj hq hb => ?_⟩), by simp⟩
    refine h2 q ?_ b hb
    rw [List.getElem?_map, Option.map_eq_some_iff] at hq
    obtain ⟨g, hg, rfl⟩ := hq
    refine List.mem_map.mpr ⟨g, ?_, rfl⟩
    rw [List.mem_append]
    by_cases hjl : j < l.length
    · rw [List.getElem?_append_left hjl] at hg
      exact .inl (List.mem_of_getElem? hg)
    · rw [List.getElem?_append_right (by omega)] at hg
      obtain ⟨k, hk⟩ : ∃ k, j - l.length = k + 1 := ⟨j - l.length - 1, by omega⟩
      rw [hk, List.getElem?_cons_succ] at hg
      exact .inr (List.mem_of_getElem? hg)

theorem chosen_perm {conv : Convs} {ts : List Nat} {fs gs : List (Fun V β)} (h : fs.Perm gs) : chosen conv ts fs = chosen conv ts gs := by
  have one : ∀ {fs gs : List (Fun V β)}, fs.Perm gs → ∀ f, chosen conv ts fs = some f → chosen conv ts gs = some f := by
    intro fs gs h f hf
    obtain ⟨l, m, rfl, a, h1, h2⟩ := chosen_iff.mp hf
    obtain ⟨l', m', rfl⟩ := List.append_of_mem (h.subset (List.mem_append_right l List.mem_cons_self))
    have hp : (l ++ m).Perm (l' ++ m') := (List.perm_middle.symm.trans (h.trans List.perm_middle)).cons_inv
    exact chosen_iff.mpr ⟨l', m', rfl, a, h1, fun q hq => h2 q ((hp.map _).mem_iff.mpr hq)⟩
  exact Option.ext fun f => ⟨one h f, one h.symm f⟩

theorem args_takes (convert : Nat → Nat → V → V) {ps : List For} {hs : List (Nat × V)} (h : Takes ps (hs.map (·.1))) :
    args convert ps hs = hs.map (·.2) := by
  induction hs generalizing ps with
  | nil =>
    obtain rfl := List.length_eq_zero_iff.mp h.1
    rfl
  | cons x hs ih =>
    cases ps with
    | nil => exact absurd h.1 (by simp)
    | cons p ps =>
      obtain ⟨t, x⟩ := x
      obtain ⟨h0, h1⟩ := (takes_cons ..).mp h
      rcases h0 with rfl | rfl <;> simp [args, ih h1]

theorem args_passed (convert : Nat → Nat → V → V) {ps : List For} {ts : List Nat} {xs : List V} (h1 : ps.length = ts.length)
    (h2 : xs.length = ts.length) : Passed convert ps ts xs (args convert ps (ts.zip xs)) := by
  induction ts generalizing ps xs with
  | nil =>
    obtain rfl := List.length_eq_zero_iff.mp h1
    obtain rfl := List.length_eq_zero_iff.mp h2
    exact ⟨rfl, by simp⟩
  | cons t ts ih =>
    cases ps with
    | nil => simp at h1
    | cons p ps => cases xs with
      | nil => simp at h2
      | cons x xs =>
        obtain ⟨i1, i2⟩ := ih (ps := ps) (xs := xs) (by simpa using h1) (by simpa using h2)
        cases p with
        | any =>
          refine ⟨by simp [args, i1], fun k p' t' x' y' hp ht hx hy => ?_⟩
          cases k with
          | zero => simp [args] at hp ht hx hy; subst hp ht hx hy; simp
          | succ k => exact i2 k p' t' x' y' hp ht hx (by simpa [args] using hy)
        | type u =>
          refine ⟨by simp [args, i1], fun k p' t' x' y' hp ht hx hy => ?_⟩
          cases k with
          | zero =>
            simp [args] at hp ht hx hy
            subst hp ht hx hy
            by_cases hu : u = t
            · subst hu; simp; intro v h h'; exact absurd h'.symm h
            · simp [hu]; rintro v _ rfl; rfl
          | succ k => exact i2 k p' t' x' y' hp ht hx (by simpa [args] using hy)

theorem mem_combos {altss : List (List Nat)} {ts : List Nat} : ts ∈ combos altss ↔
    ts.length = altss.length ∧ ∀ (i : Nat) alts t, altss[i]? = some alts → ts[i]? = some t → t ∈ alts := by
  induction altss generalizing ts with
  | nil => cases ts <;> simp [combos]
  | cons alts altss ih =>
    simp only [combos, List.mem_flatMap, List.mem_map]
    constructor
    · rintro ⟨t, ht, us, hu, rfl⟩
      obtain ⟨h1, h2⟩ := ih.mp hu
      refine ⟨by simp [h1], fun i a u ha hu => ?_⟩
      cases i with
      | zero => simp at ha hu; subst ha hu; exact ht
      | succ i => exact h2 i a u ha hu
    · rintro ⟨h1, h2⟩
      cases ts with
      | nil => simp at h1
      | cons t ts =>
        exact ⟨t, h2 0 alts t rfl rfl, ts, ih.mpr ⟨by simpa using h1, fun i a u ha hu => h2 (i + 1) a u ha hu⟩, rfl⟩

theorem heldAll_types {altss : List (List Nat)} {vs : List (Variant V)} {hs : List (Nat × V)} (h : heldAll altss vs = some hs) :
    hs.map (·.1) ∈ combos altss := by
  induction altss generalizing vs hs with
  | nil => cases vs with
    | nil => simp [heldAll] at h; subst h; simp [combos]
    | cons v vs => simp [heldAll] at h
  | cons alts altss ih => cases vs with
    | nil => simp [heldAll] at h
    | cons v vs =>
      simp only [heldAll, Option.bind_eq_some_iff, Option.map_eq_some_iff] at h
      obtain ⟨⟨t, x⟩, h1, hs', h2, rfl⟩ := h
      simp only [combos, List.mem_flatMap, List.mem_map]
      refine ⟨t, ?_, hs'.map (·.1), ih h2, rfl⟩
      rcases v with _ | ⟨k, y⟩
      · simp [held] at h1
      · simp only [held, Option.map_eq_some_iff, Prod.mk.injEq] at h1
        obtain ⟨u, hu, rfl, _⟩ := h1
        exact List.mem_of_getElem? hu

theorem rank_iff {conv : Convs} {t : Nat} {p : For} {r : Nat} : rank conv t p = some r ↔ Cost conv t p r := by
  constructor
  · intro h
    cases p with
    | any => simp [rank] at h; subst h; exact .any
    | type u =>
      by_cases hu : u = t
      · subst hu; simp [rank] at h; subst h; exact .same
      · simp only [rank, hu, if_false, Option.map_eq_some_iff] at h
        obtain ⟨q, hq, rfl⟩ := h
        exact .convert hu hq
  · rintro (_ | _ | ⟨hu, h⟩)
    · rfl
    · simp [rank]
    · simp [rank, hu, h]

theorem ranks_iff {conv : Convs} {ts : List Nat} {ps : List For} {a : List Nat} : ranks conv ts ps = some a ↔ Costs conv ts ps a := by
  induction ts generalizing ps a with
  | nil =>
    cases ps with
    | nil => cases a <;> simp [ranks, Costs]
    | cons p ps => simp [ranks, Costs]
  | cons t ts ih =>
    cases ps with
    | nil => simp [ranks, Costs]
    | cons p ps =>
      simp only [ranks, Option.bind_eq_some_iff, Option.map_eq_some_iff]
      constructor
      · rintro ⟨r, hr, b, hb, rfl⟩
        obtain ⟨h1, h2, h3⟩ := ih.mp hb
        refine ⟨by simp [h1], by simp [h2], fun k t' p' c ht hp hc => ?_⟩
        cases k with
        | zero => simp at ht hp hc; subst ht hp hc; exact rank_iff.mp hr
        | succ k => exact h3 k t' p' c ht hp hc
      · rintro ⟨h1, h2, h3⟩
        cases a with
        | nil => simp at h2
        | cons c a =>
          exact ⟨c, rank_iff.mpr (h3 0 t p c rfl rfl rfl), a, ih.mpr ⟨by simpa using h1, by simpa using h2,
            fun k t' p' c ht hp hc => h3 (k + 1) t' p' c ht hp hc⟩, rfl⟩

theorem notWorse_iff (a b : List Nat) : notWorse a b = true ↔ ∀ (k x y : Nat), a[k]? = some x → b[k]? = some y → x ≤ y := by
  induction a generalizing b with
  | nil => simp [notWorse]
  | cons x a ih =>
    cases b with
    | nil => simp [notWorse]
    | cons y b =>
      simp only [notWorse, Bool.and_eq_true, decide_eq_true_eq, ih]
      constructor
      · rintro ⟨h0, h1⟩ k x' y' hx hy
        cases k with
        | zero => simp at hx hy; omega
        | succ k => exact h1 k x' y' hx hy
      · intro h
        exact ⟨h 0 x y rfl rfl, fun k x' y' hx hy => h (k + 1) x' y' hx hy⟩

theorem someBetter_iff (a b : List Nat) : someBetter a b = true ↔ ∃ k x y : Nat, a[k]? = some x ∧ b[k]? = some y ∧ x < y := by
  induction a generalizing b with
  | nil => simp [someBetter]
  | cons x a ih =>
    cases b with
    | nil => simp [someBetter]
    | cons y b =>
      simp only [someBetter, Bool.or_eq_true, decide_eq_true_eq, ih]
      constructor
      · rintro (h | ⟨k, x', y', h⟩)
        · exact ⟨0, x, y, rfl, rfl, h⟩
        · exact ⟨k + 1, x', y', h⟩
      · rintro ⟨k, x', y', hx, hy, h⟩
        cases k with
        | zero => simp at hx hy; left; omega
        | succ k => exact .inr ⟨k, x', y', hx, hy, h⟩

theorem chosen_compiles {conv : Convs} {fs : List (Fun V β)} {altss : List (List Nat)} (hc : compiles conv fs altss = true) {ts : List Nat}
    (h : ts ∈ combos altss) : ∃ f, chosen conv ts fs = some f := Option.isSome_iff_exists.mp (List.all_eq_true.mp hc ts h)

end VisitMany
open VisitMany Spec.Visit Spec.VisitMany
open Overload (Convs Variant)
variable {V β : Type}

namespace Spec.VisitMany
/-- The variants hold these values, of these types: variant `i` holds its alternative `k i`. -/
def Holds (altss : List (List Nat)) (vs : List (Variant V)) (ts : List Nat) (xs : List V) : Prop :=
  vs.length = altss.length ∧ ts.length = altss.length ∧ xs.length = altss.length ∧
  ∀ (i : Nat) alts v t x, altss[i]? = some alts → vs[i]? = some v → ts[i]? = some t → xs[i]? = some x → ∃ k, v = some (k, x) ∧ alts[k]? = some t
end Spec.VisitMany

theorem VisitMany.heldAll_holds {altss : List (List Nat)} {vs : List (Variant V)} {ts : List Nat} {xs : List V} (h : Holds altss vs ts xs) :
    heldAll altss vs = some (ts.zip xs) ∧ (ts.zip xs).map (·.1) = ts ∧ (ts.zip xs).map (·.2) = xs := by
  induction altss generalizing vs ts xs with
  | nil =>
    obtain ⟨h1, h2, h3, _⟩ := h
    obtain rfl := List.length_eq_zero_iff.mp h1
    obtain rfl := List.length_eq_zero_iff.mp h2
    obtain rfl := List.length_eq_zero_iff.mp h3
    exact ⟨rfl, rfl, rfl⟩
  | cons alts altss ih =>
    obtain ⟨h1, h2, h3, h4⟩ := h
    cases vs with
    | nil => simp at h1
    | cons v vs =>
      cases ts with
      | nil => simp at h2
      | cons t ts =>
        cases xs with
        | nil => simp at h3
        | cons x xs =>
          obtain ⟨k, rfl, hk⟩ := h4 0 alts v t x rfl rfl rfl rfl
          obtain ⟨i1, i2, i3⟩ := ih (vs := vs) (ts := ts) (xs := xs)
            ⟨by simpa using h1, by simpa using h2, by simpa using h3, fun i a v t x ha hv ht hx => h4 (i + 1) a v t x ha hv ht hx⟩
          simp [heldAll, held, hk, i1, i2, i3]

theorem VisitMany.heldAll_valueless {altss : List (List Nat)} {vs : List (Variant V)} (h : none ∈ vs) : heldAll altss vs = none := by
  induction vs generalizing altss with
  | nil => simp at h
  | cons v vs ih =>
    cases altss with
    | nil => rfl
    | cons alts altss =>
      rcases List.mem_cons.mp h with rfl | h
      · simp [heldAll, held]
      · simp only [heldAll, ih h]
        cases held alts v <;> rfl

/-- **C125.** If the program compiles then a visit of variants that all hold values calls one functor, which depends on the types only, once, with the
values in their order (converted where its parameters are of other types); a variant without a value makes it throw. -/
theorem C125_visit (conv : Convs) (convert : Nat → Nat → V → V) (fs : List (Fun V β)) (altss : List (List Nat)) (hc : compiles conv fs altss = true) :
    (∀ vs, none ∈ vs → visit conv convert fs altss vs = some (.error ())) ∧
    ∀ ts ∈ combos altss, ∃ f ∈ fs, f.params.length = ts.length ∧ ∀ vs xs, Holds altss vs ts xs →
      ∃ ys, Passed convert f.params ts xs ys ∧ visit conv convert fs altss vs = some (.ok (f.body ys)) := by
  refine ⟨fun vs h => by simp [visit, hc, heldAll_valueless h], fun ts hts => ?_⟩
  obtain ⟨f, hf⟩ := chosen_compiles hc hts
  obtain ⟨l, m, e, a, ha, _⟩ := chosen_iff.mp hf
  refine ⟨f, by simp [e], (ranks_length ha).1, fun vs xs hh => ?_⟩
  obtain ⟨h1, h2, _⟩ := heldAll_holds hh
  refine ⟨_, args_passed convert (ranks_length ha).1 (hh.2.2.1.trans hh.2.1.symm), ?_⟩
  simp only [visit, hc, if_true, h1, h2, hf, Option.map_some]

/-- **C125.** The order of the functors does not matter. -/
theorem C125_order (conv : Convs) (convert : Nat → Nat → V → V) (fs gs : List (Fun V β)) (h : fs.Perm gs) (altss : List (List Nat))
    (vs : List (Variant V)) : visit conv convert fs altss vs = visit conv convert gs altss vs := by
  have hc : compiles conv fs altss = compiles conv gs altss := by simp [compiles, chosen_perm h]
  simp only [visit, hc, chosen_perm h]

/-- **C125.** If any functor is declared for the types of the values (each parameter for the type itself or for any type), then the call compiles exactly
if one of these functors is the most specific one, and this one is called; conversions play no part. -/
theorem C125_resolve (conv : Convs) (ts : List Nat) (ps : List (List For)) (h : ∃ p ∈ ps, Takes p ts) (i : Nat) :
    resolve conv ts ps = some i ↔ MostSpecific ps ts i := by
  rw [resolve_iff, wins_iff]
  constructor
  · rintro ⟨p, a, h1, h2, h3⟩
    have hp : Takes p ts := by
      refine Classical.byContradiction fun hn => ?_
      obtain ⟨q, hq, hqt⟩ := h
      obtain ⟨j, hj⟩ := List.mem_iff_getElem?.mp hq
      have hji : j ≠ i := by
        rintro rfl
        rw [h1] at hj
        cases hj
        exact hn hqt
      have := h3 j q _ hji hj (ranks_takes hqt)
      simp only [better, Bool.and_eq_true] at this
      have h4 := notWorse_someBetter this.1
      rw [ranks_not_takes h2 hn] at h4
      cases h4
    refine ⟨⟨p, h1, hp⟩, fun p' j q hp' hji hj hq => ?_⟩
    rw [h1] at hp'
    cases hp'
    rw [ranks_takes hp] at h2
    cases h2
    exact (better_takes hp hq).mp (h3 j q _ hji hj (ranks_takes hq))
  · rintro ⟨⟨p, h1, h2⟩, h3⟩
    refine ⟨p, _, h1, ranks_takes h2, fun j q b hji hj hb => ?_⟩
    by_cases hq : Takes q ts
    · rw [ranks_takes hq] at hb
      cases hb
      exact (better_takes h2 hq).mpr (h3 p j q h1 hji hj hq)
    · simp [better, notWorse_zeros, ranks_not_takes hb hq]

/-- **C125.** A visit calls the most specific of the functors declared for the types of the values, if there are any, with the values as they are. -/
theorem C125_specific (conv : Convs) (convert : Nat → Nat → V → V) (fs : List (Fun V β)) (altss : List (List Nat)) (hc : compiles conv fs altss = true)
    (vs : List (Variant V)) (ts : List Nat) (xs : List V) (hh : Holds altss vs ts xs) (h : ∃ f ∈ fs, Takes f.params ts) :
    ∃ i f, fs[i]? = some f ∧ MostSpecific (fs.map (·.params)) ts i ∧ visit conv convert fs altss vs = some (.ok (f.body xs)) := by
  obtain ⟨e1, e2, e3⟩ := heldAll_holds hh
  have hts : ts ∈ combos altss := e2 ▸ heldAll_types e1
  obtain ⟨f, hf⟩ := chosen_compiles hc hts
  have hf' := hf
  unfold chosen at hf'
  obtain ⟨i, hi, hfi⟩ := Option.bind_eq_some_iff.mp hf'
  have hm := (C125_resolve conv ts _ (by obtain ⟨g, hg, ht⟩ := h; exact ⟨g.params, List.mem_map.mpr ⟨g, hg, rfl⟩, ht⟩) i).mp hi
  refine ⟨i, f, hfi, hm, ?_⟩
  have ht : Takes f.params ts := by
    obtain ⟨p, hp, ht⟩ := hm.1
    rw [List.getElem?_map, hfi] at hp
    cases hp
    exact ht
  have := args_takes convert (ps := f.params) (hs := ts.zip xs) (by rw [e2]; exact ht)
  simp only [visit, hc, if_true, e1, e2, hf, Option.map_some, this, e3]

/-- **C125.** The functor for just the types of the values is the one called, whatever the others are. -/
theorem C125_exact (conv : Convs) (convert : Nat → Nat → V → V) (fs : List (Fun V β)) (altss : List (List Nat)) (hc : compiles conv fs altss = true)
    (vs : List (Variant V)) (ts : List Nat) (xs : List V) (hh : Holds altss vs ts xs) (f : Fun V β) (hf : f ∈ fs) (ht : f.params = ts.map .type) :
    visit conv convert fs altss vs = some (.ok (f.body xs)) := by
  have hft : Takes f.params ts := ht ▸ takes_types ts
  obtain ⟨i, g, hg, hm, hv⟩ := C125_specific conv convert fs altss hc vs ts xs hh ⟨f, hf, hft⟩
  obtain ⟨j, hj⟩ := List.mem_iff_getElem?.mp hf
  by_cases hji : j = i
  · subst hji
    rw [hg] at hj
    cases hj
    exact hv
  · obtain ⟨⟨p, hp, htp⟩, h2⟩ := hm
    obtain ⟨h3, h4⟩ := h2 p j f.params hp hji (by simp [hj]) hft
    rw [ht] at h3 h4
    exact absurd (specific_antisymm h3 (types_specific htp)) h4

/-- **C125.** Without `auto` the functor called is the one to which the values can be passed so that, compared with any other to which they can be passed, no
value has a worse conversion and one has a better conversion; if there is none the program does not compile. -/
theorem C125_conversion (conv : Convs) (ts : List Nat) (ps : List (List For)) (h : ∀ p ∈ ps, For.any ∉ p) (i : Nat) :
    resolve conv ts ps = some i ↔ ∃ p a, ps[i]? = some p ∧ Costs conv ts p a ∧
      ∀ j q b, j ≠ i → ps[j]? = some q → Costs conv ts q b → Cheaper a b := by
  have ht : ∀ p ∈ ps, isTemplate p = false := by
    intro p hp
    have := h p hp
    simp only [isTemplate, List.any_eq_false, beq_iff_eq]
    exact fun x hx e => this (e ▸ hx)
  have hb : ∀ p q a b, p ∈ ps → (better p q a b = true ∧ q ∈ ps ↔ Cheaper a b ∧ q ∈ ps) := by
    intro p q a b hp
    refine and_congr_left fun hq => ?_
    simp only [better, ht p hp, ht q hq, Cheaper, Bool.and_eq_true, notWorse_iff]
    simp [someBetter_iff]
  rw [resolve_iff, wins_iff]
  simp only [ranks_iff]
  constructor
  · rintro ⟨p, a, h1, h2, h3⟩
    exact ⟨p, a, h1, h2, fun j q b hji hj hq =>
      ((hb p q a b (List.mem_of_getElem? h1)).mp ⟨h3 j q b hji hj hq, List.mem_of_getElem? hj⟩).1⟩
  · rintro ⟨p, a, h1, h2, h3⟩
    exact ⟨p, a, h1, h2, fun j q b hji hj hq =>
      ((hb p q a b (List.mem_of_getElem? h1)).mpr ⟨h3 j q b hji hj hq, List.mem_of_getElem? hj⟩).1⟩

/-- `int` 0, `double` 1, `bool` 2: for `(bool, double)` the functor for `(int, double)` is better than that for `(double, double)`, as the
promotion of the first value is better; `(int, double)` and `(double, int)` are ambiguous for `(bool, bool)`. -/
example : resolve (fun t u => if t = 2 ∧ u = 0 then some 0 else some 1) [2, 1] [[.type 1, .type 1], [.type 0, .type 1]] = some 1 ∧
    resolve (fun t u => if t = 2 ∧ u = 0 then some 0 else some 1) [2, 2] [[.type 1, .type 0], [.type 0, .type 1]] = none := by decide +kernel

/-- **C125.** Two functors each declared for the type of another value, and for any type for the rest, make the program not compile, unless there is one
for both: neither is the more specific one. -/
theorem C125_cross (conv : Convs) (t u : Nat) : resolve conv [t, u] [[.type t, .any], [.any, .type u]] = none ∧
    resolve conv [t, u] [[.type t, .any], [.any, .type u], [.type t, .type u]] = some 2 := by
  constructor
  · cases h : resolve conv [t, u] [[.type t, .any], [.any, .type u]] with
    | none => rfl
    | some i =>
      exfalso
      obtain ⟨⟨p, hp, _⟩, h2⟩ := (C125_resolve conv _ _ ⟨[.type t, .any], by simp, by simp [takes_cons, takes_nil]⟩ i).mp h
      match i, hp with
      | 0, hp =>
        have := (h2 p 1 _ hp (by simp) rfl (by simp [takes_cons, takes_nil])).1
        simp at hp
        subst hp
        simp [specific_cons] at this
      | 1, hp =>
        have := (h2 p 0 _ hp (by simp) rfl (by simp [takes_cons, takes_nil])).1
        simp at hp
        subst hp
        simp [specific_cons] at this
  · refine (C125_resolve conv _ _ ⟨[.type t, .any], by simp, by simp [takes_cons, takes_nil]⟩ 2).mpr ⟨⟨_, rfl, by simp [takes_cons, takes_nil]⟩, ?_⟩
    intro p j q hp hj hq _
    simp at hp
    subst hp
    match j, hq with
    | 0, hq => simp at hq; subst hq; simp [specific_cons, specific_nil]
    | 1, hq => simp at hq; subst hq; simp [specific_cons, specific_nil]
    | 2, _ => exact absurd rfl hj

/-- **C125.** With one variant, this is the choice of `C116`, for parameters by value or const reference. -/
theorem C125_one (conv : Convs) (t : Nat) (c : Overload.Cat) (ps : List Overload.Param) (hp : ∀ p ∈ ps, Overload.Plain p) :
    resolve conv [t] (ps.map fun p => [p.ty]) = Overload.resolve conv t c ps := by
  have hw : ∀ i, wins conv [t] (ps.map fun p => [p.ty]) i = Overload.wins conv t c ps i := by
    have hs : ∀ p ∈ ps, Overload.convSeq conv t c p = (rank conv t p.ty).map fun r => ⟨r, if p.pass = .value then none else some (false, true)⟩ := by
      intro p hpp
      cases hty : p.ty with
      | any => rw [Overload.convSeq_plain_same (hp p hpp) (.inr hty)]; rfl
      | type u =>
        by_cases hu : u = t
        · subst hu
          rw [Overload.convSeq_plain_same (hp p hpp) (.inl hty)]
          simp [rank]
        · rw [Overload.convSeq_plain_other (hp p hpp) hty hu]
          simp only [rank, hu, if_false, Option.map_map]
          rfl
    have hr : ∀ p : For, ranks conv [t] [p] = (rank conv t p).map fun r => [r] := by
      intro p
      cases h : rank conv t p <;> simp [ranks, h]
    intro i
    rw [Bool.eq_iff_iff, wins_iff, Overload.wins_iff]
    have hb : ∀ p ∈ ps, ∀ q ∈ ps, ∀ a b, better [p.ty] [q.ty] [a] [b] = Overload.betterFn t p q
        ⟨a, if p.pass = .value then none else some (false, true)⟩ ⟨b, if q.pass = .value then none else some (false, true)⟩ := by
      intro p hpp q hqq a b
      have h1 := hp p hpp
      have h2 := hp q hqq
      obtain ⟨tp, pp⟩ := p
      obtain ⟨tq, pq⟩ := q
      simp only [Overload.betterFn, Overload.betterSeq_plain]
      simp only [better, notWorse, someBetter, isTemplate, deducible]
      rw [Bool.eq_iff_iff]
      have hms : Overload.moreSpecialized pp pq = false := by
        rcases h1 with h1 | h1 <;> rcases h2 with h2 | h2 <;> simp only at h1 h2 <;> subst h1 h2 <;> rfl
      cases tp <;> cases tq <;> simp [hms] <;> omega
    constructor
    · rintro ⟨p, a, h1, h2, h3⟩
      rw [List.getElem?_map, Option.map_eq_some_iff] at h1
      obtain ⟨p, hi, rfl⟩ := h1
      have hpm := List.mem_of_getElem? hi
      rw [hr, Option.map_eq_some_iff] at h2
      obtain ⟨r, h2, rfl⟩ := h2
      refine ⟨p, _, hi, by rw [hs p hpm, h2]; rfl, fun j q b hji hj hb' => ?_⟩
      have hqm := List.mem_of_getElem? hj
      rw [hs q hqm, Option.map_eq_some_iff] at hb'
      obtain ⟨r', hr', rfl⟩ := hb'
      rw [← hb p hpm q hqm]
      exact h3 j [q.ty] [r'] hji (by simp [hj]) (by rw [hr, hr']; rfl)
    · rintro ⟨p, a, hi, h2, h3⟩
      have hpm := List.mem_of_getElem? hi
      rw [hs p hpm, Option.map_eq_some_iff] at h2
      obtain ⟨r, h2, rfl⟩ := h2
      refine ⟨[p.ty], [r], by simp [hi], by rw [hr, h2]; rfl, fun j q b hji hj hb' => ?_⟩
      rw [List.getElem?_map, Option.map_eq_some_iff] at hj
      obtain ⟨q, hj, rfl⟩ := hj
      have hqm := List.mem_of_getElem? hj
      rw [hr, Option.map_eq_some_iff] at hb'
      obtain ⟨r', hr', rfl⟩ := hb'
      rw [hb p hpm q hqm]
      exact h3 j q _ hji hj (by rw [hs q hqm, hr']; rfl)
  simp only [resolve, Overload.resolve, List.length_map]
  congr 1
  funext i
  exact hw i

/-- Shapes 0 circle, 1 square: functors for two circles, for a circle and anything, for anything and a circle would be ambiguous without the first one. -/
def VisitMany.shapes : List (Fun Int String) :=
  [⟨[.any, .any], fun _ => "any"⟩, ⟨[.type 0, .any], fun _ => "circle any"⟩, ⟨[.any, .type 0], fun _ => "any circle"⟩,
   ⟨[.type 0, .type 0], fun _ => "circles"⟩]

example : compiles (fun _ _ => none) shapes [[0, 1], [0, 1]] = true := by decide +kernel
example : compiles (fun _ _ => none) (shapes.take 3) [[0, 1], [0, 1]] = false := by decide +kernel
example : (visit (fun _ _ => none) (fun _ _ x => x) shapes [[0, 1], [0, 1]] [some (0, 5), some (1, 6)]) = some (.ok "circle any") := by rfl
example : Holds [[0, 1], [0, 1]] [some (0, (5 : Int)), some (1, 6)] [0, 1] [5, 6] := by
  refine ⟨rfl, rfl, rfl, fun i alts v t x h1 h2 h3 h4 => ?_⟩
  match i with
  | 0 => simp at h1 h2 h3 h4; subst h1 h2 h3 h4; exact ⟨0, rfl, rfl⟩
  | 1 => simp at h1 h2 h3 h4; subst h1 h2 h3 h4; exact ⟨1, rfl, rfl⟩

end Utki
