import Verif.Spec.VisitRefs
import Verif.Props.VisitMany
/-!
# C143: `overloaded` with `std::visit` of several variants, with references of all kinds
-/
namespace Utki
namespace VisitRefs
open Spec.Visit Spec.VisitRefs
open Overload (Convs Variant Param Pass Cat ConvSeq convSeq betterSeq paramType moreSpecialized bindSame bindConverted)
variable {V β : Type}

theorem beats_asymm {t : Arg} {p q : Param} {a b : ConvSeq} (h : beats t p q a b = true) : beats t q p b a = false := by
  unfold beats at *
  rw [show decide (paramType t.1 q = paramType t.1 p) = decide (paramType t.1 p = paramType t.1 q) by simp [eq_comm]]
  exact Overload.betterSeq_asymm h

theorem notWorse_someBetter {ts : List Arg} {p q : List Param} {a b : List ConvSeq} (h : notWorse ts p q a b = true) : someBetter ts q p b a = false := by
  induction ts generalizing p q a b with
  | nil => simp [someBetter]
  | cons t ts ih =>
    cases p <;> cases q <;> cases a <;> cases b <;> simp_all [someBetter, notWorse]

theorem better_asymm {ts : List Arg} {p q : List Param} {a b : List ConvSeq} (h : better ts p q a b = true) : better ts q p b a = false := by
  refine Bool.eq_false_iff.mpr fun h' => ?_
  simp only [better, Bool.and_eq_true] at h h'
  rw [notWorse_someBetter h.1] at h'
  rw [notWorse_someBetter h'.1] at h
  cases hp : isTemplate p <;> cases hq : isTemplate q <;> simp_all

theorem wins_iff {conv : Convs} {ts : List Arg} {ps : List (List Param)} {i : Nat} : wins conv ts ps i = true ↔
    ∃ p a, ps[i]? = some p ∧ seqs conv ts p = some a ∧ ∀ j q b, j ≠ i → ps[j]? = some q → seqs conv ts q = some b → better ts p q a b = true := by
  unfold wins
  cases hp : ps[i]? with
  | none => simp
  | some p =>
    cases ha : seqs conv ts p with
    | none => simp [ha]
    | some a =>
      simp only [ha, List.all_eq_true, List.mem_range, Bool.or_eq_true, decide_eq_true_eq]
      constructor
      · intro h
        refine ⟨p, a, rfl, ha, fun j q b hj hq hb => ?_⟩
        have := h j (List.getElem?_eq_some_iff.mp hq).1
        rw [hq] at this
        simp only [hb] at this
        exact this.resolve_left hj
      · rintro ⟨p', a', h1, h2, h3⟩ j hj
        cases h1
        rw [ha] at h2
        cases h2
        by_cases hji : j = i
        · exact .inl hji
        · refine .inr ?_
          cases hq : ps[j]? with
          | none => rfl
          | some q =>
            cases hb : seqs conv ts q with
            | none => simp [hb]
            | some b => simp only [hb]; exact h3 j q b hji hq hb

theorem wins_unique {conv : Convs} {ts : List Arg} {ps : List (List Param)} {i j : Nat} (hi : wins conv ts ps i = true) (hj : wins conv ts ps j = true) :
    i = j := by
  obtain ⟨p, a, p1, p2, p3⟩ := wins_iff.mp hi
  obtain ⟨q, b, q1, q2, q3⟩ := wins_iff.mp hj
  refine Decidable.byContradiction fun h => ?_
  have h1 := p3 j q b (fun e => h e.symm) q1 q2
  have h2 := q3 i p a h p1 p2
  rw [better_asymm h1] at h2
  cases h2

theorem resolve_iff {conv : Convs} {ts : List Arg} {ps : List (List Param)} {i : Nat} : resolve conv ts ps = some i ↔ wins conv ts ps i = true := by
  unfold resolve
  constructor
  · intro h; exact List.find?_some h
  · intro h
    cases hf : (List.range ps.length).find? (wins conv ts ps) with
    | none =>
      obtain ⟨p, a, p1, _⟩ := wins_iff.mp h
      have := List.find?_eq_none.mp hf i (List.mem_range.mpr (List.getElem?_eq_some_iff.mp p1).1)
      exact absurd h this
    | some j => rw [wins_unique h (List.find?_some hf)]

/-- `f` is viable and better than all of these. -/
def Beats (conv : Convs) (ts : List Arg) (p : List Param) (qs : List (List Param)) : Prop :=
  ∃ a, seqs conv ts p = some a ∧ ∀ q ∈ qs, ∀ b, seqs conv ts q = some b → better ts p q a b = true

theorem chosen_iff {conv : Convs} {ts : List Arg} {fs : List (Fun V β)} {f : Fun V β} : chosen conv ts fs = some f ↔
    ∃ l m, fs = l ++ f :: m ∧ Beats conv ts f.params ((l ++ m).map (·.params)) := by
  unfold chosen
  rw [Option.bind_eq_some_iff]
  constructor
  · rintro ⟨i, hr, hf⟩
    obtain ⟨p, a, p1, p2, p3⟩ := wins_iff.mp (resolve_iff.mp hr)
    rw [List.getElem?_map, hf, Option.map_some, Option.some.injEq] at p1
    subst p1
    have hlt := (List.getElem?_eq_some_iff.mp hf).1
    have hsplit : fs = fs.take i ++ f :: fs.drop (i + 1) := by
      have := List.getElem?_eq_some_iff.mp hf
      rw [← this.2, List.getElem_cons_drop, List.take_append_drop]
    refine ⟨fs.take i, fs.drop (i + 1), hsplit, a, p2, fun q hq b hb => ?_⟩
    obtain ⟨g, hg, rfl⟩ := List.mem_map.mp hq
    rcases List.mem_append.mp hg with hg | hg
    · obtain ⟨j, hj, e⟩ := List.mem_iff_getElem.mp hg
      rw [List.length_take] at hj
      rw [List.getElem_take] at e
      exact p3 j g.params b (by omega) (by rw [List.getElem?_map, List.getElem?_eq_getElem (by omega), e]; rfl) hb
    · obtain ⟨j, hj, e⟩ := List.mem_iff_getElem.mp hg
      rw [List.length_drop] at hj
      rw [List.getElem_drop] at e
      exact p3 (i + 1 + j) g.params b (by omega) (by rw [List.getElem?_map, List.getElem?_eq_getElem (by omega), e]; rfl) hb
  · rintro ⟨l, m, rfl, a, h1, h2⟩
    refine ⟨l.length, resolve_iff.mpr (wins_iff.mpr ⟨f.params, a, by simp, h1, fun j q b hj hq hb => ?_⟩), by simp⟩
    refine h2 q ?_ b hb
    rw [List.getElem?_map, Option.map_eq_some_iff] at hq
    obtain ⟨g, hg, rfl⟩ := hq
    refine List.mem_map.mpr ⟨g, ?_, rfl⟩
    rw [List.mem_append]
    by_cases hjl : j < l.length
    · rw [List.getElem?_append_left hjl] at hg
      exact .inl (List.mem_of_getElem? hg)
    · rw [List.getElem?_append_right (by omega)] at hg
      obtain ⟨k, hk⟩ : ∃ k, j - l.length = k + 1 := ⟨j - l.length - 1, by omega⟩
      rw [hk, List.getElem?_cons_succ] at hg
      exact .inr (List.mem_of_getElem? hg)

theorem chosen_perm {conv : Convs} {ts : List Arg} {fs gs : List (Fun V β)} (h : fs.Perm gs) : chosen conv ts fs = chosen conv ts gs := by
  have one : ∀ {fs gs : List (Fun V β)}, fs.Perm gs → ∀ f, chosen conv ts fs = some f → chosen conv ts gs = some f := by
    intro fs gs h f hf
    obtain ⟨l, m, rfl, a, h1, h2⟩ := chosen_iff.mp hf
    obtain ⟨l', m', rfl⟩ := List.append_of_mem (h.subset (List.mem_append_right l List.mem_cons_self))
    have hp : (l ++ m).Perm (l' ++ m') := (List.perm_middle.symm.trans (h.trans List.perm_middle)).cons_inv
    exact chosen_iff.mpr ⟨l', m', rfl, a, h1, fun q hq => h2 q ((hp.map _).mem_iff.mpr hq)⟩
  exact Option.ext fun f => ⟨one h f, one h.symm f⟩

theorem seqs_length {conv : Convs} {ts : List Arg} {ps : List Param} {a : List ConvSeq} (h : seqs conv ts ps = some a) : ps.length = ts.length := by
  induction ts generalizing ps a with
  | nil => cases ps with
    | nil => rfl
    | cons p ps => simp [seqs] at h
  | cons t ts ih => cases ps with
    | nil => simp [seqs] at h
    | cons p ps =>
      simp only [seqs, Option.bind_eq_some_iff, Option.map_eq_some_iff] at h
      obtain ⟨r, _, b, hb, rfl⟩ := h
      simp [ih hb]

theorem mem_combos {sh : List (List Nat × Cat)} {ts : List Nat} (hl : ts.length = sh.length) (h : ∀ (i : Nat) a t, sh[i]? = some a → ts[i]? = some t → t ∈ a.1) :
    ts.zip (sh.map (·.2)) ∈ combos sh := by
  induction sh generalizing ts with
  | nil => obtain rfl := List.length_eq_zero_iff.mp hl; simp [combos]
  | cons a sh ih =>
    cases ts with
    | nil => simp at hl
    | cons t ts =>
      simp only [combos, List.mem_flatMap, List.mem_map]
      exact ⟨t, h 0 a t rfl rfl, ts.zip (sh.map (·.2)), ih (by simpa using hl) fun i b u hb hu => h (i + 1) b u hb hu, rfl⟩

theorem heldAll_holds {gs : List (Given V)} {ts : List Nat} {xs : List V} (h : Holds gs ts xs) : heldAll gs = some ((ts.zip (gs.map (·.cat))).zip xs) := by
  induction h with
  | nil => rfl
  | cons h1 h2 _ ih => simp [heldAll, VisitMany.held, h1, h2, ih]

theorem paramType_iff {p : Param} {t : Nat} : paramType t p = t ↔ IsFor p t := by
  unfold paramType IsFor
  cases p.ty <;> simp

theorem args_passes (convert : Nat → Nat → V → V) {ps : List Param} {gs : List (Given V)} {ts : List Nat} {xs : List V} (h : Holds gs ts xs) (hl : ps.length = ts.length) :
    Passes convert ps ts xs (args convert ps ((ts.zip (gs.map (·.cat))).zip xs)) := by
  induction h generalizing ps with
  | nil => obtain rfl := List.length_eq_zero_iff.mp hl; exact .nil
  | @cons g gs ts xs i t x h1 h2 _ ih =>
    cases ps with
    | nil => simp at hl
    | cons p ps =>
      have := ih (ps := ps) (by simpa using hl)
      simp only [List.map_cons, List.zip_cons_cons, args]
      split
      · rename_i h; exact .same (paramType_iff.mp h) this
      · rename_i h
        cases hp : p.ty with
        | any => exact absurd (paramType_iff.mpr (.inl hp)) h
        | type u =>
          have hu : paramType t p = u := by simp [paramType, hp]
          rw [hu] at h ⊢
          exact .other hp h this

theorem passes_length {convert : Nat → Nat → V → V} {ps : List Param} {ts : List Nat} {xs ys : List V} (h : Passes convert ps ts xs ys) : ys.length = ps.length := by
  induction h <;> simp_all

theorem after_leaves (moved : V → V) (t : Nat) (c : Cat) (p : Param) (x y : V) : Leaves moved p t c x y (after moved (t, c) p x y) := by
  unfold after
  by_cases h : paramType t p = t
  · have hf := paramType_iff.mp h
    rw [if_pos h]
    obtain ⟨ty, pass⟩ := p
    rcases pass with _ | k | _
    · cases c
      · exact .stays (by simp [Refers]) (by simp [Moves])
      · exact .stays (by simp [Refers]) (by simp [Moves])
      · exact .moves ⟨hf, rfl, rfl⟩
    · cases k
      · cases c
        · exact .refers ⟨hf, .inl ⟨rfl, rfl⟩⟩
        · exact .stays (by simp [Refers]) (by simp [Moves])
        · exact .stays (by simp [Refers]) (by simp [Moves])
      · exact .stays (by simp [Refers]) (by simp [Moves])
    · cases c
      · exact .refers ⟨hf, .inr ⟨rfl, by simp⟩⟩
      · exact .stays (by simp [Refers]) (by simp [Moves])
      · exact .refers ⟨hf, .inr ⟨rfl, by simp⟩⟩
  · rw [if_neg h]
    exact .stays (fun h' => h (paramType_iff.mpr h'.1)) (fun h' => h (paramType_iff.mpr h'.1))

theorem written_after (moved : V → V) {ps : List Param} {ys : List V} {gs : List (Given V)} {ts : List Nat} {xs : List V} (h : Holds gs ts xs) (hl : ps.length = ts.length)
    (hy : ys.length = ts.length) : After moved ps ys gs (written moved ps ys gs) := by
  induction h generalizing ps ys with
  | nil =>
    obtain rfl := List.length_eq_zero_iff.mp hl
    obtain rfl := List.length_eq_zero_iff.mp hy
    exact .nil
  | @cons g gs ts xs i t x h1 h2 _ ih =>
    cases ps with
    | nil => simp at hl
    | cons p ps => cases ys with
      | nil => simp at hy
      | cons y ys =>
        have := ih (ps := ps) (ys := ys) (by simpa using hl) (by simpa using hy)
        simp only [written, VisitMany.held, h1, Option.map_some, h2]
        exact .cons h1 h2 (after_leaves moved t g.cat p x y) this

theorem heldAll_none {gs : List (Given V)} (h : ∃ g ∈ gs, g.val = none) : heldAll gs = none := by
  induction gs with
  | nil => simp at h
  | cons g gs ih =>
    obtain ⟨g', hg, hv⟩ := h
    rcases List.mem_cons.mp hg with rfl | hg
    · simp [heldAll, VisitMany.held, hv]
    · rw [heldAll, ih ⟨g', hg, hv⟩]
      simp

end VisitRefs

open Spec.Visit Spec.VisitRefs VisitRefs
open Overload (Convs Variant Param Pass Cat ConvSeq convSeq betterSeq paramType moreSpecialized bindSame bindConverted)
variable {V β : Type}

/-- **C143.** A visit that compiles throws `std::bad_variant_access` and changes nothing if a variant has no value. Otherwise it calls one of the functors, which depends only on the types of the values
and on how the variants are given; that gets the values, converted where a parameter is of another type. Each variant holds the same alternative afterwards, with the value the functor has left if the parameter
refers to it, what moving leaves if it was moved to the parameter, and as it was otherwise. -/
theorem C143_visit (conv : Convs) (convert : Nat → Nat → V → V) (moved : V → V) (fs : List (VisitRefs.Fun V β)) (shape : List (List Nat × Cat)) (hc : VisitRefs.compiles conv fs shape = true) :
    (∀ gs, gs.map (fun g => (g.alts, g.cat)) = shape → (∃ g ∈ gs, g.val = none) → VisitRefs.visit conv convert moved fs gs = some (.error (), gs)) ∧
    ∀ ts : List Nat, ts.length = shape.length → (∀ (i : Nat) a t, shape[i]? = some a → ts[i]? = some t → t ∈ a.1) →
      ∃ f ∈ fs, ∀ gs xs, gs.map (fun g => (g.alts, g.cat)) = shape → Holds gs ts xs →
        ∃ ys gs', Passes convert f.params ts xs ys ∧ VisitRefs.visit conv convert moved fs gs = some (.ok (f.body ys).1, gs') ∧
          ((f.body ys).2.length = ys.length → After moved f.params (f.body ys).2 gs gs') := by
  constructor
  · rintro gs rfl h
    simp [VisitRefs.visit, hc, heldAll_none h]
  · intro ts hl ht
    have hm := VisitRefs.mem_combos hl ht
    obtain ⟨f, hf⟩ := Option.isSome_iff_exists.mp (List.all_eq_true.mp hc _ hm)
    obtain ⟨l, m, e, a, ha, _⟩ := VisitRefs.chosen_iff.mp hf
    have hp := seqs_length ha
    rw [List.length_zip, List.length_map, hl, Nat.min_self, ← hl] at hp
    refine ⟨f, by simp [e], ?_⟩
    rintro gs xs rfl hh
    have hz : ((ts.zip (gs.map (·.cat))).zip xs).map (·.1) = ts.zip ((gs.map fun g => (g.alts, g.cat)).map (·.2)) := by
      rw [List.map_map]
      have : ∀ {gs : List (Given V)} {ts xs}, Holds gs ts xs → ((ts.zip (gs.map (·.cat))).zip xs).map (·.1) = ts.zip (gs.map (·.cat)) := by
        intro gs ts xs h
        induction h with
        | nil => rfl
        | cons _ _ _ ih => simp [ih]
      exact this hh
    have hpass := args_passes convert (ps := f.params) hh hp
    refine ⟨_, VisitRefs.written moved f.params (f.body (VisitRefs.args convert f.params ((ts.zip (gs.map (·.cat))).zip xs))).2 gs, hpass, ?_, fun hy => ?_⟩
    · rw [VisitRefs.visit, if_pos hc, heldAll_holds hh]
      simp only [hz, hf, Option.map_some]
    · exact written_after moved hh hp (by rw [hy, passes_length hpass, hp])

/-- **C143.** The order of the functors does not matter. -/
theorem C143_order (conv : Convs) (convert : Nat → Nat → V → V) (moved : V → V) (fs fs' : List (VisitRefs.Fun V β)) (h : fs.Perm fs') (gs : List (Given V)) :
    VisitRefs.visit conv convert moved fs gs = VisitRefs.visit conv convert moved fs' gs := by
  have : ∀ ts, VisitRefs.chosen conv ts fs = VisitRefs.chosen conv ts fs' := fun ts => VisitRefs.chosen_perm h
  have hc : VisitRefs.compiles conv fs (gs.map fun g => (g.alts, g.cat)) = VisitRefs.compiles conv fs' (gs.map fun g => (g.alts, g.cat)) := by simp only [VisitRefs.compiles, this]
  unfold VisitRefs.visit
  rw [hc]
  cases heldAll gs with
  | none => rfl
  | some hs => simp only [this]

/-- **C143.** A visit does not change a variant that is given as a const lvalue, nor one whose parameter is by const reference, by value if it is not given as an rvalue, or of another type. -/
theorem C143_unchanged {moved : V → V} {ps : List Param} {ys : List V} {gs gs' : List (Given V)} (h : After moved ps ys gs gs') (k : Nat) (g : Given V) (hg : gs[k]? = some g)
    (hk : g.cat = .clvalue ∨ ∀ p, ps[k]? = some p → p.pass = .lref true ∨ (p.pass = .value ∧ g.cat ≠ .rvalue) ∨ ∀ i x t, g.val = some (i, x) → g.alts[i]? = some t → ∃ u, u ≠ t ∧ p.ty = .type u) :
    gs'[k]? = some g := by
  induction h generalizing k with
  | nil => simp at hg
  | @cons p ps g0 gs gs' ys i t x y z h1 h2 h3 _ ih =>
    cases k with
    | succ k => exact ih k (by simpa using hg) hk
    | zero =>
      simp at hg
      subst hg
      have hn : ¬ Refers p t g0.cat ∧ ¬ Moves p t g0.cat := by
        rcases hk with hk | hk
        · simp [Refers, Moves, hk]
        · rcases hk p rfl with hk | hk | hk
          · simp [Refers, Moves, hk]
          · simp [Refers, Moves, hk.1, hk.2]
          · obtain ⟨u, hu, hp⟩ := hk i x t h1 h2
            have : ¬ IsFor p t := by simp [IsFor, hp, hu]
            exact ⟨fun h => this h.1, fun h => this h.1⟩
      cases h3 with
      | refers h => exact absurd h hn.1
      | moves h => exact absurd h hn.2
      | stays _ _ => simp [← h1]

theorem VisitRefs.better_one (t : Nat) (c : Cat) (p q : Param) (a b : ConvSeq) : VisitRefs.better [(t, c)] [p] [q] [a] [b] = Overload.betterFn t p q a b := by
  have hb : VisitRefs.beats (t, c) q p b a = betterSeq (decide (paramType t p = paramType t q)) b a := by
    unfold VisitRefs.beats
    rw [show decide (paramType t q = paramType t p) = decide (paramType t p = paramType t q) by simp [eq_comm]]
  simp only [VisitRefs.better, VisitRefs.notWorse, VisitRefs.someBetter, hb, Overload.betterFn, VisitRefs.isTemplate, VisitRefs.atLeast, List.any_cons, List.any_nil, Bool.or_false, Bool.and_true]
  rw [show VisitRefs.beats (t, c) p q a b = betterSeq (decide (paramType t p = paramType t q)) a b from rfl]
  cases h1 : betterSeq (decide (paramType t p = paramType t q)) a b with
  | true => simp [Overload.betterSeq_asymm h1]
  | false =>
    cases h2 : betterSeq (decide (paramType t p = paramType t q)) b a with
    | true => simp
    | false =>
      obtain ⟨pt, pp⟩ := p
      obtain ⟨qt, qp⟩ := q
      cases pt <;> cases qt <;> simp
      rcases pp with _ | k | _ <;> rcases qp with _ | k' | _ <;> (try cases k) <;> (try cases k') <;> simp [moreSpecialized]

/-- **C143.** With one variant and functors with one parameter it is the functor of C116. -/
theorem C143_one (conv : Convs) (t : Nat) (c : Cat) (ps : List Param) : VisitRefs.resolve conv [(t, c)] (ps.map ([·])) = Overload.resolve conv t c ps := by
  have hs : ∀ p, VisitRefs.seqs conv [(t, c)] [p] = (convSeq conv t c p).map ([·]) := by
    intro p
    simp only [VisitRefs.seqs]
    cases convSeq conv t c p <;> rfl
  have hw : ∀ i, VisitRefs.wins conv [(t, c)] (ps.map ([·])) i = Overload.wins conv t c ps i := by
    intro i
    unfold VisitRefs.wins Overload.wins
    simp only [List.getElem?_map, List.length_map]
    cases ps[i]? with
    | none => rfl
    | some p =>
      simp only [Option.map_some, hs]
      cases convSeq conv t c p with
      | none => rfl
      | some a =>
        simp only [Option.map_some]
        congr 1
        funext j
        cases ps[j]? with
        | none => rfl
        | some q =>
          simp only [Option.map_some, hs]
          cases convSeq conv t c q with
          | none => rfl
          | some b => simp only [Option.map_some, VisitRefs.better_one]
  unfold VisitRefs.resolve Overload.resolve
  rw [List.length_map]
  congr 1
  funext i
  exact hw i

theorem VisitRefs.seqs_plain {conv : Convs} {ts : List Arg} {ps : List Param} (hp : AllPlain ps) :
    VisitMany.ranks conv (ts.map (·.1)) (ps.map (·.ty)) = (VisitRefs.seqs conv ts ps).map (·.map (·.rank)) := by
  induction ts generalizing ps with
  | nil => cases ps <;> simp [VisitMany.ranks, VisitRefs.seqs]
  | cons t ts ih =>
    cases ps with
    | nil => simp [VisitMany.ranks, VisitRefs.seqs]
    | cons p ps =>
      have h0 : VisitMany.rank conv t.1 p.ty = (convSeq conv t.1 t.2 p).map (·.rank) := by
        obtain ⟨ty, pass⟩ := p
        have := hp ⟨ty, pass⟩ (by simp)
        rcases this with h | h <;> simp only at h <;> subst h <;> cases ty with
        | any => simp [VisitMany.rank, convSeq, bindSame]
        | type u =>
          by_cases hu : u = t.1
          · simp [VisitMany.rank, convSeq, bindSame, hu]
          · cases hc : conv t.1 u <;> simp [VisitMany.rank, convSeq, bindConverted, hu, hc]
      have := ih (ps := ps) (fun q hq => hp q (by simp [hq]))
      simp only [List.map_cons, VisitMany.ranks, VisitRefs.seqs, h0, this]
      cases convSeq conv t.1 t.2 p <;> cases VisitRefs.seqs conv ts ps <;> simp

theorem VisitRefs.convSeq_plain {conv : Convs} {t : Arg} {p : Param} {a : ConvSeq} (hp : p.pass = .value ∨ p.pass = .lref true) (h : convSeq conv t.1 t.2 p = some a) :
    a.bind = if p.pass = .value then none else some (false, true) := by
  obtain ⟨ty, pass⟩ := p
  rcases hp with hp | hp <;> simp only at hp <;> subst hp <;> cases ty with
  | any => simp [convSeq, bindSame] at h; simp [← h]
  | type u =>
    by_cases hu : u = t.1
    · simp [convSeq, bindSame, hu] at h; simp [← h]
    · cases hc : conv t.1 u <;> simp [convSeq, bindConverted, hu, hc] at h
      simp [← h]

theorem VisitRefs.beats_plain {conv : Convs} {t : Arg} {p q : Param} {a b : ConvSeq} (hp : p.pass = .value ∨ p.pass = .lref true) (hq : q.pass = .value ∨ q.pass = .lref true)
    (ha : convSeq conv t.1 t.2 p = some a) (hb : convSeq conv t.1 t.2 q = some b) : VisitRefs.beats t p q a b = decide (a.rank < b.rank) := by
  have h1 := convSeq_plain hp ha
  have h2 := convSeq_plain hq hb
  obtain ⟨ra, ba⟩ := a
  obtain ⟨rb, bb⟩ := b
  simp only at h1 h2
  subst h1 h2
  exact Overload.betterSeq_plain _ _ _ _ _

theorem VisitRefs.compare_plain {conv : Convs} {ts : List Arg} {p q : List Param} {a b : List ConvSeq} (hp : AllPlain p) (hq : AllPlain q)
    (ha : VisitRefs.seqs conv ts p = some a) (hb : VisitRefs.seqs conv ts q = some b) :
    VisitRefs.notWorse ts p q a b = VisitMany.notWorse (a.map (·.rank)) (b.map (·.rank)) ∧ VisitRefs.someBetter ts p q a b = VisitMany.someBetter (a.map (·.rank)) (b.map (·.rank)) ∧
      VisitRefs.atLeast p q = VisitMany.deducible (p.map (·.ty)) (q.map (·.ty)) := by
  induction ts generalizing p q a b with
  | nil =>
    cases p with
    | cons x p => simp [VisitRefs.seqs] at ha
    | nil => cases q with
      | cons x q => simp [VisitRefs.seqs] at hb
      | nil =>
        simp [VisitRefs.seqs] at ha hb
        subst ha hb
        simp [VisitRefs.notWorse, VisitRefs.someBetter, VisitRefs.atLeast, VisitMany.notWorse, VisitMany.someBetter, VisitMany.deducible]
  | cons t ts ih =>
    cases p with
    | nil => simp [VisitRefs.seqs] at ha
    | cons x p => cases q with
      | nil => simp [VisitRefs.seqs] at hb
      | cons y q =>
        simp only [VisitRefs.seqs, Option.bind_eq_some_iff, Option.map_eq_some_iff] at ha hb
        obtain ⟨a0, h1, a', h2, rfl⟩ := ha
        obtain ⟨b0, h3, b', h4, rfl⟩ := hb
        obtain ⟨i1, i2, i3⟩ := ih (fun z hz => hp z (by simp [hz])) (fun z hz => hq z (by simp [hz])) h2 h4
        have px := hp x (by simp)
        have py := hq y (by simp)
        have hm : moreSpecialized y.pass x.pass = false := by
          rcases px with e | e <;> rcases py with e' | e' <;> rw [e, e'] <;> rfl
        refine ⟨?_, ?_, ?_⟩
        · simp only [VisitRefs.notWorse, beats_plain py px h3 h1, i1, List.map_cons, VisitMany.notWorse]
          congr 1
          by_cases h : b0.rank < a0.rank
          · simp [h, Nat.not_le.mpr h]
          · simp [h, Nat.le_of_not_lt h]
        · simp only [VisitRefs.someBetter, beats_plain px py h1 h3, i2, List.map_cons, VisitMany.someBetter]
        · simp only [VisitRefs.atLeast, hm, i3, List.map_cons, VisitMany.deducible, Bool.and_false, Bool.not_false, Bool.and_true]

/-- **C143.** If all parameters are by value or const reference it is the functor of C125, however the variants are given. -/
theorem C143_plain (conv : Convs) (ts : List Arg) (pss : List (List Param)) (hp : ∀ ps ∈ pss, AllPlain ps) :
    VisitRefs.resolve conv ts pss = VisitMany.resolve conv (ts.map (·.1)) (pss.map (·.map (·.ty))) := by
  have ht : ∀ ps : List Param, VisitRefs.isTemplate ps = VisitMany.isTemplate (ps.map (·.ty)) := by
    intro ps; simp [VisitRefs.isTemplate, VisitMany.isTemplate, Function.comp_def]
  have hw : ∀ i, VisitRefs.wins conv ts pss i = VisitMany.wins conv (ts.map (·.1)) (pss.map (·.map (·.ty))) i := by
    intro i
    unfold VisitRefs.wins VisitMany.wins
    simp only [List.getElem?_map, List.length_map]
    cases hi : pss[i]? with
    | none => rfl
    | some p =>
      have pp := hp p (List.mem_of_getElem? hi)
      simp only [Option.map_some, VisitRefs.seqs_plain pp]
      cases ha : VisitRefs.seqs conv ts p with
      | none => rfl
      | some a =>
        simp only [Option.map_some]
        congr 1
        funext j
        cases hj : pss[j]? with
        | none => rfl
        | some q =>
          have pq := hp q (List.mem_of_getElem? hj)
          simp only [Option.map_some, VisitRefs.seqs_plain pq]
          cases hb : VisitRefs.seqs conv ts q with
          | none => rfl
          | some b =>
            obtain ⟨i1, i2, i3⟩ := VisitRefs.compare_plain pp pq ha hb
            obtain ⟨_, _, i6⟩ := VisitRefs.compare_plain pq pp hb ha
            simp only [Option.map_some, VisitRefs.better, VisitMany.better, i1, i2, i3, i6, ht]
  unfold VisitRefs.resolve VisitMany.resolve
  rw [List.length_map]
  congr 1
  funext i
  exact hw i

/-- A functor with a parameter of the very type for each argument, all of the same kind. -/
def VisitRefs.exactly (pass : Pass) (ts : List Arg) : List Param := ts.map fun t => ⟨.type t.1, pass⟩

theorem VisitRefs.seqs_const (conv : Convs) (ts : List Arg) : VisitRefs.seqs conv ts (exactly (.lref true) ts) = some (ts.map fun _ => ⟨0, some (false, true)⟩) := by
  induction ts with
  | nil => rfl
  | cons t ts ih => unfold exactly at *; simp [VisitRefs.seqs, convSeq, bindSame, ih]

theorem VisitRefs.seqs_ref (conv : Convs) (ts : List Arg) : VisitRefs.seqs conv ts (exactly (.lref false) ts) =
    if ∀ t ∈ ts, t.2 = Cat.lvalue then some (ts.map fun _ => ⟨0, some (false, false)⟩) else none := by
  induction ts with
  | nil => rfl
  | cons t ts ih =>
    obtain ⟨t, c⟩ := t
    unfold exactly at *
    simp only [List.map_cons, VisitRefs.seqs, ih]
    by_cases h : ∀ t ∈ ts, t.2 = Cat.lvalue
    · cases c <;> simp [convSeq, bindSame]
      rw [if_pos h, if_pos]
      intro x hx
      rcases List.mem_cons.mp hx with rfl | hx
      · rfl
      · exact h x hx
    · rw [if_neg h, if_neg (fun h' => h fun t ht => h' t (by simp [ht]))]
      simp

theorem VisitRefs.ref_better (ts : List Arg) (hn : ts ≠ []) :
    VisitRefs.better ts (exactly (.lref false) ts) (exactly (.lref true) ts) (ts.map fun _ => ⟨0, some (false, false)⟩) (ts.map fun _ => ⟨0, some (false, true)⟩) = true := by
  have h1 : ∀ ts : List Arg, VisitRefs.notWorse ts (exactly (.lref false) ts) (exactly (.lref true) ts) (ts.map fun _ => ⟨0, some (false, false)⟩) (ts.map fun _ => ⟨0, some (false, true)⟩) = true := by
    intro ts
    induction ts with
    | nil => rfl
    | cons t ts ih => unfold exactly at *; simp [VisitRefs.notWorse, ih, VisitRefs.beats, betterSeq]
  have h2 : VisitRefs.someBetter ts (exactly (.lref false) ts) (exactly (.lref true) ts) (ts.map fun _ => ⟨0, some (false, false)⟩) (ts.map fun _ => ⟨0, some (false, true)⟩) = true := by
    cases ts with
    | nil => exact absurd rfl hn
    | cons t ts => simp [exactly, VisitRefs.someBetter, VisitRefs.beats, betterSeq, paramType]
  simp [VisitRefs.better, h1, h2]

/-- **C143.** Of a functor that takes all values by `T&` and one that takes all by `const T&`, the first is called if all variants can be changed, the second if any of them is const or an rvalue. -/
theorem C143_const_overload (conv : Convs) (ts : List Arg) (hn : ts ≠ []) :
    VisitRefs.resolve conv ts [VisitRefs.exactly (.lref false) ts, VisitRefs.exactly (.lref true) ts] = some (if ∀ t ∈ ts, t.2 = Cat.lvalue then 0 else 1) := by
  rw [VisitRefs.resolve_iff, VisitRefs.wins_iff]
  by_cases h : ∀ t ∈ ts, t.2 = Cat.lvalue
  · rw [if_pos h]
    refine ⟨_, _, rfl, by rw [VisitRefs.seqs_ref, if_pos h], fun j q b hj hq hb => ?_⟩
    match j, hj, hq with
    | 1, _, hq =>
      simp at hq
      subst hq
      rw [VisitRefs.seqs_const] at hb
      cases hb
      exact VisitRefs.ref_better ts hn
  · rw [if_neg h]
    refine ⟨_, _, rfl, VisitRefs.seqs_const conv ts, fun j q b hj hq hb => ?_⟩
    match j, hj, hq with
    | 0, _, hq =>
      simp at hq
      subst hq
      rw [VisitRefs.seqs_ref, if_neg h] at hb
      cases hb
    | n + 2, _, hq => simp at hq

/-- **C143.** Two functors each of which can change another one of two variants are ambiguous when both variants can be changed, and the visit does not compile. -/
theorem C143_ambiguous (conv : Convs) (t u : Nat) :
    VisitRefs.resolve conv [(t, .lvalue), (u, .lvalue)] [[⟨.type t, .lref false⟩, ⟨.type u, .lref true⟩], [⟨.type t, .lref true⟩, ⟨.type u, .lref false⟩]] = none := by
  simp [VisitRefs.resolve, List.range_succ, VisitRefs.wins, VisitRefs.seqs, convSeq, bindSame, VisitRefs.better, VisitRefs.notWorse, VisitRefs.beats, betterSeq, paramType]

/-- Two variants, of int 0 and string 1, the second one const; a functor that adds the second to the first if both are int, and one for the rest. -/
def VisitRefs.sampleFs : List (VisitRefs.Fun Int String) :=
  [⟨[⟨.type 0, .lref false⟩, ⟨.type 0, .lref true⟩], fun | [x, y] => ("added", [x + y, y]) | xs => ("", xs)⟩, ⟨[⟨.any, .lref true⟩, ⟨.any, .lref true⟩], fun xs => ("other", xs)⟩]

example : VisitRefs.compiles (fun _ _ => none) VisitRefs.sampleFs [([0, 1], .lvalue), ([0, 1], .clvalue)] = true := by decide +kernel

example : (VisitRefs.visit (fun _ _ => none) (fun _ _ x => x) id VisitRefs.sampleFs [⟨[0, 1], .lvalue, some (0, 5)⟩, ⟨[0, 1], .clvalue, some (0, 7)⟩]).map (fun r => (r.1.toOption, r.2.map (·.val))) =
    some (some "added", [some (0, 12), some (0, 7)]) := by decide +kernel

example : (VisitRefs.visit (fun _ _ => none) (fun _ _ x => x) id VisitRefs.sampleFs [⟨[0, 1], .lvalue, some (0, 5)⟩, ⟨[0, 1], .clvalue, some (1, 7)⟩]).map (fun r => (r.1.toOption, r.2.map (·.val))) =
    some (some "other", [some (0, 5), some (1, 7)]) := by decide +kernel

example : Holds [(⟨[0, 1], .lvalue, some (0, 5)⟩ : Given Int), ⟨[0, 1], .clvalue, some (1, 7)⟩] [0, 1] [5, 7] := .cons rfl rfl (.cons rfl rfl .nil)

end Utki
