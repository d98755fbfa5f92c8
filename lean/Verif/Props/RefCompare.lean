import Verif.Model.RefCompare
import Verif.Spec.Order
import Verif.Spec.RefCompare
import Verif.Props.SharedRef
import Verif.Props.UniqueRef
/-!
# References as keys (C127)

Model: `Model/RefCompare`.
-/
namespace Utki
open RefCompare

/-! ### What the operators give, after any history -/

section
variable {σ : Type} {get : Nat → Meth σ Nat} {s : σ}

theorem refCompare_ops {v w a b : Nat} (hv : get v s = (.ok a, s)) (hw : get w s = (.ok b, s)) (less equal : Nat → Nat → Res Bool) :
    lt get less v w s = noexc (Meth.lift (less a b)) s ∧ ltObject get less v b s = noexc (Meth.lift (less a b)) s ∧
    eq get equal v w s = noexc (Meth.lift (equal a b)) s ∧ eqObject get equal v b s = noexc (Meth.lift (equal a b)) s := by
  have h1 : ltObject get less v b s = noexc (Meth.lift (less a b)) s := by
    unfold ltObject noexc; rw [Meth.bind_ok hv]
  refine ⟨?_, h1, ?_, ?_⟩
  · unfold lt
    rw [Meth.bind_ok (show toObject get w s = (.ok b, s) by unfold toObject noexc; rw [hw])]
    exact h1
  · unfold eq noexc; rw [Meth.bind_ok hv, Meth.bind_ok hw]
  · unfold eqObject noexc; rw [Meth.bind_ok hv]

end

/-- C127: after any history, shared references that were not moved from compare as the objects they refer to do: with each other and with an object.
Nothing changes. An exception of the objects' operator ends the program. -/
theorem C127_shared (dbg : Bool) (derives : Nat → Nat → Bool) (ops : List SharedRef.Op) (s : SharedRef.St)
    (hs : SharedRef.run dbg derives ops SharedRef.init = some s) {v w : Nat} {x y : SharedRef.Var}
    (hv : s.vars[v]? = some (some x)) (hvk : x.kind = .ref) (hvm : x.moved = false)
    (hw : s.vars[w]? = some (some y)) (hwk : y.kind = .ref) (hwm : y.moved = false) (less equal : Nat → Nat → Res Bool) :
    ∃ a b, x.p = some a ∧ y.p = some b ∧
      (∀ c, less a b = .ok c → lt (SharedRef.get dbg) less v w s = (.ok c, s) ∧ ltObject (SharedRef.get dbg) less v b s = (.ok c, s)) ∧
      (∀ c, equal a b = .ok c → eq (SharedRef.get dbg) equal v w s = (.ok c, s) ∧ eqObject (SharedRef.get dbg) equal v b s = (.ok c, s)) ∧
      (∀ e, less a b = .throw e → lt (SharedRef.get dbg) less v w s = (.terminate, s)) ∧
      (∀ e, equal a b = .throw e → eq (SharedRef.get dbg) equal v w s = (.terminate, s)) := by
  obtain ⟨a, _, ha, _, _, ga⟩ := C62_not_null dbg derives ops s hs v x hv hvk hvm
  obtain ⟨b, _, hb, _, _, gb⟩ := C62_not_null dbg derives ops s hs w y hw hwk hwm
  obtain ⟨h1, h2, h3, h4⟩ := refCompare_ops (ga dbg) (gb dbg) less equal
  refine ⟨a, b, ha, hb, fun c hc => ?_, fun c hc => ?_, fun e he => ?_, fun e he => ?_⟩
  · rw [h1, h2, hc]; exact ⟨rfl, rfl⟩
  · rw [h3, h4, hc]; exact ⟨rfl, rfl⟩
  · rw [h1, he]; rfl
  · rw [h3, he]; rfl

/-- C127: the same of unique references. -/
theorem C127_unique (dbg : Bool) (ops : List UniqueRef.Op) (s : UniqueRef.St)
    (hs : UniqueRef.run dbg ops UniqueRef.init = some s) {v w : Nat} {x y : UniqueRef.Var}
    (hv : s.vars[v]? = some (some x)) (hvk : x.kind = .ref) (hvm : x.moved = false)
    (hw : s.vars[w]? = some (some y)) (hwk : y.kind = .ref) (hwm : y.moved = false) (less equal : Nat → Nat → Res Bool) :
    ∃ a b, x.p = some a ∧ y.p = some b ∧
      (∀ c, less a b = .ok c → lt (UniqueRef.get dbg) less v w s = (.ok c, s) ∧ ltObject (UniqueRef.get dbg) less v b s = (.ok c, s)) ∧
      (∀ c, equal a b = .ok c → eq (UniqueRef.get dbg) equal v w s = (.ok c, s) ∧ eqObject (UniqueRef.get dbg) equal v b s = (.ok c, s)) ∧
      (∀ e, less a b = .throw e → lt (UniqueRef.get dbg) less v w s = (.terminate, s)) ∧
      (∀ e, equal a b = .throw e → eq (UniqueRef.get dbg) equal v w s = (.terminate, s)) := by
  obtain ⟨a, ha, _, ga⟩ := C63_not_null dbg ops s hs v x hv hvk hvm
  obtain ⟨b, hb, _, gb⟩ := C63_not_null dbg ops s hs w y hw hwk hwm
  obtain ⟨h1, h2, h3, h4⟩ := refCompare_ops (ga dbg) (gb dbg) less equal
  refine ⟨a, b, ha, hb, fun c hc => ?_, fun c hc => ?_, fun e he => ?_, fun e he => ?_⟩
  · rw [h1, h2, hc]; exact ⟨rfl, rfl⟩
  · rw [h3, h4, hc]; exact ⟨rfl, rfl⟩
  · rw [h1, he]; rfl
  · rw [h3, he]; rfl

/-- C127: comparing a shared reference that was moved from, on either side, ends a debug build and is undefined in a release build. -/
theorem C127_moved (less equal : Nat → Nat → Res Bool) (s : SharedRef.St) {v w : Nat} {x y : SharedRef.Var}
    (hv : s.vars[v]? = some (some x)) (hvk : x.kind = .ref) (hw : s.vars[w]? = some (some y)) (hwk : y.kind = .ref)
    (hn : x.p = none ∧ y.p = none ∨ x.p = none ∧ (∃ b, ∀ dbg, SharedRef.get dbg w s = (.ok b, s)) ∨ (∃ a, ∀ dbg, SharedRef.get dbg v s = (.ok a, s)) ∧ y.p = none) :
    (lt (SharedRef.get true) less v w s = (.abort, s) ∧ eq (SharedRef.get true) equal v w s = (.abort, s)) ∧
    (lt (SharedRef.get false) less v w s = (.ub .null_deref, s) ∧ eq (SharedRef.get false) equal v w s = (.ub .null_deref, s)) := by
  have null : ∀ (u : Nat) (z : SharedRef.Var), s.vars[u]? = some (some z) → z.kind = .ref → z.p = none →
      SharedRef.get true u s = (.abort, s) ∧ SharedRef.get false u s = (.ub .null_deref, s) := by
    intro u z hu hk hp
    constructor <;> simp [SharedRef.get, SharedRef.var, hu, hk, hp, SharedRef.assertNotNull, ASSERT, Meth.bind_apply, Meth.bind, Meth.lift]
  rcases hn with ⟨h1, h2⟩ | ⟨h1, b, h2⟩ | ⟨⟨a, h1⟩, h2⟩
  · obtain ⟨p1, p2⟩ := null v x hv hvk h1
    obtain ⟨q1, q2⟩ := null w y hw hwk h2
    simp [lt, eq, ltObject, toObject, noexc, Meth.bind_apply, Meth.bind, p1, p2, q1, q2]
  · obtain ⟨p1, p2⟩ := null v x hv hvk h1
    simp [lt, eq, ltObject, toObject, noexc, Meth.bind_apply, Meth.bind, p1, p2, h2]
  · obtain ⟨q1, q2⟩ := null w y hw hwk h2
    simp [lt, eq, ltObject, toObject, noexc, Meth.bind_apply, Meth.bind, q1, q2, h1]

/-- C127: the same of unique references. -/
theorem C127_moved_unique (less equal : Nat → Nat → Res Bool) (s : UniqueRef.St) {v w : Nat} {x y : UniqueRef.Var}
    (hv : s.vars[v]? = some (some x)) (hvk : x.kind = .ref) (hw : s.vars[w]? = some (some y)) (hwk : y.kind = .ref)
    (hn : x.p = none ∧ y.p = none ∨ x.p = none ∧ (∃ b, ∀ dbg, UniqueRef.get dbg w s = (.ok b, s)) ∨ (∃ a, ∀ dbg, UniqueRef.get dbg v s = (.ok a, s)) ∧ y.p = none) :
    (lt (UniqueRef.get true) less v w s = (.abort, s) ∧ eq (UniqueRef.get true) equal v w s = (.abort, s)) ∧
    (lt (UniqueRef.get false) less v w s = (.ub .null_deref, s) ∧ eq (UniqueRef.get false) equal v w s = (.ub .null_deref, s)) := by
  have null : ∀ (u : Nat) (z : UniqueRef.Var), s.vars[u]? = some (some z) → z.kind = .ref → z.p = none →
      UniqueRef.get true u s = (.abort, s) ∧ UniqueRef.get false u s = (.ub .null_deref, s) := by
    intro u z hu hk hp
    constructor <;> simp [UniqueRef.get, UniqueRef.var, hu, hk, hp, UniqueRef.assertNotNull, ASSERT, Meth.bind_apply, Meth.bind, Meth.lift]
  rcases hn with ⟨h1, h2⟩ | ⟨h1, b, h2⟩ | ⟨⟨a, h1⟩, h2⟩
  · obtain ⟨p1, p2⟩ := null v x hv hvk h1
    obtain ⟨q1, q2⟩ := null w y hw hwk h2
    simp [lt, eq, ltObject, toObject, noexc, Meth.bind_apply, Meth.bind, p1, p2, q1, q2]
  · obtain ⟨p1, p2⟩ := null v x hv hvk h1
    simp [lt, eq, ltObject, toObject, noexc, Meth.bind_apply, Meth.bind, p1, p2, h2]
  · obtain ⟨q1, q2⟩ := null w y hw hwk h2
    simp [lt, eq, ltObject, toObject, noexc, Meth.bind_apply, Meth.bind, q1, q2, h1]

/-- A reference that was moved from, and one that was not. -/
example : ∃ s, SharedRef.run true (fun a b => a == b) [.makeShared 0 false none, .move 0 none] SharedRef.init = some s ∧
    (∃ x y, s.vars[0]? = some (some x) ∧ x.kind = .ref ∧ x.p = none ∧ s.vars[1]? = some (some y) ∧ y.kind = .ref ∧ ∀ dbg, SharedRef.get dbg 1 s = (.ok 0, s)) := by
  refine ⟨_, rfl, _, _, rfl, rfl, rfl, rfl, rfl, ?_⟩
  intro dbg; cases dbg <;> rfl

/-! ### Sets of references -/

namespace RefCompare
open Spec Spec.RefCompare

variable {σ V : Type} {s : σ} {cmp : Nat → Nat → Meth σ Bool} {lt : V → V → Bool} {key : Nat → V}

theorem insert_keys (o : StrictWeakOrder lt) {k : Nat} : ∀ {l : List Nat},
    (∀ x ∈ l, cmp x k s = (.ok (lt (key x) (key k)), s) ∧ cmp k x s = (.ok (lt (key k) (key x)), s)) → Ascending lt key l →
    ∃ l', insert cmp k l s = (.ok l', s) ∧ Ascending lt key l' ∧ (∀ x, x ∈ l' ↔ x ∈ l ∨ x = k ∧ ∀ y ∈ l, ¬ Same lt (key y) (key k)) := by
  intro l
  induction l with
  | nil => intro _ _; exact ⟨[k], rfl, by simp [Ascending], by simp⟩
  | cons x l ih =>
    intro hc ha
    obtain ⟨hx, hl⟩ := List.pairwise_cons.mp ha
    obtain ⟨c1, c2⟩ := hc x (by simp)
    unfold insert
    rw [Meth.bind_ok c1]
    cases h1 : lt (key x) (key k) with
    | true =>
      obtain ⟨l', e, a', m⟩ := ih (fun y hy => hc y (List.mem_cons_of_mem _ hy)) hl
      simp only [if_true]
      rw [Meth.bind_ok e]
      refine ⟨x :: l', rfl, List.pairwise_cons.mpr ⟨fun y hy => ?_, a'⟩, fun y => ?_⟩
      · rcases (m y).mp hy with h | ⟨rfl, _⟩
        · exact hx y h
        · exact h1
      · rw [List.mem_cons, List.mem_cons, m y]
        simp only [List.forall_mem_cons, Same, h1]
        grind
    | false =>
      simp only [Bool.false_eq_true, if_false]
      rw [Meth.bind_ok c2]
      cases h2 : lt (key k) (key x) with
      | true =>
        refine ⟨k :: x :: l, rfl, List.pairwise_cons.mpr ⟨fun y hy => ?_, ha⟩, fun y => ?_⟩
        · rcases List.mem_cons.mp hy with rfl | hy
          · exact h2
          · exact o.trans _ _ _ h2 (hx y hy)
        · have hn : ∀ z ∈ x :: l, ¬ Same lt (key z) (key k) := by
            intro z hz hs
            rcases List.mem_cons.mp hz with rfl | hz
            · rw [hs.2] at h2; cases h2
            · have := o.trans _ _ _ h2 (hx z hz)
              rw [hs.2] at this; cases this
          rw [List.mem_cons]
          grind
      | false =>
        refine ⟨x :: l, rfl, ha, fun y => ?_⟩
        have : Same lt (key x) (key k) := ⟨h1, h2⟩
        constructor
        · exact .inl
        · rintro (h | ⟨_, h⟩)
          · exact h
          · exact absurd this (h x (by simp))

theorem first_snoc {p : List Nat} {k x : Nat} :
    First lt key (p ++ [k]) x ↔ First lt key p x ∨ x = k ∧ ∀ y ∈ p, ¬ Same lt (key y) (key k) := by
  constructor
  · rintro ⟨b, a, h, hn⟩
    rcases List.eq_nil_or_concat a with rfl | ⟨a', z, rfl⟩
    · obtain ⟨rfl, hx⟩ := List.append_inj' h rfl
      cases hx
      exact .inr ⟨rfl, hn⟩
    · rw [List.concat_eq_append, ← List.cons_append, ← List.append_assoc] at h
      obtain ⟨rfl, _⟩ := List.append_inj' h rfl
      exact .inl ⟨b, a', rfl, hn⟩
  · rintro (⟨b, a, rfl, hn⟩ | ⟨rfl, hn⟩)
    · exact ⟨b, a ++ [k], by simp, hn⟩
    · exact ⟨p, [], rfl, hn⟩

theorem same_trans (o : StrictWeakOrder lt) {a b c : V} (h1 : Same lt a b) (h2 : Same lt b c) : Same lt a c :=
  o.incomparable a b c h1.1 h1.2 h2.1 h2.2

theorem insertAll_keys (o : StrictWeakOrder lt) : ∀ (ks p l : List Nat),
    (∀ x ∈ p ++ ks, ∀ y ∈ p ++ ks, cmp x y s = (.ok (lt (key x) (key y)), s)) → Ascending lt key l →
    (∀ x, x ∈ l ↔ First lt key p x) → (∀ y ∈ p, ∃ x ∈ l, Same lt (key x) (key y)) →
    ∃ l', insertAll cmp ks l s = (.ok l', s) ∧ Ascending lt key l' ∧ (∀ x, x ∈ l' ↔ First lt key (p ++ ks) x) ∧
      ∀ y ∈ p ++ ks, ∃ x ∈ l', Same lt (key x) (key y) := by
  intro ks
  induction ks with
  | nil => intro p l _ ha hm hs; exact ⟨l, rfl, ha, by simpa using hm, by simpa using hs⟩
  | cons k ks ih =>
    intro p l hc ha hm hs
    have hlp : ∀ x ∈ l, x ∈ p := by
      intro x hx
      obtain ⟨b, a, rfl, _⟩ := (hm x).mp hx
      simp
    obtain ⟨l1, e1, a1, m1⟩ := insert_keys (s := s) (cmp := cmp) (k := k) o
      (fun x hx => ⟨hc x (by simp [hlp x hx]) k (by simp), hc k (by simp) x (by simp [hlp x hx])⟩) ha
    have hall : (∀ y ∈ l, ¬ Same lt (key y) (key k)) ↔ ∀ y ∈ p, ¬ Same lt (key y) (key k) := by
      constructor
      · intro h y hy hsy
        obtain ⟨x, hx, hxy⟩ := hs y hy
        exact h x hx (same_trans o hxy hsy)
      · exact fun h y hy => h y (hlp y hy)
    have hm1 : ∀ x, x ∈ l1 ↔ First lt key (p ++ [k]) x := by
      intro x
      rw [m1 x, first_snoc, hm x, hall]
    have hs1 : ∀ y ∈ p ++ [k], ∃ x ∈ l1, Same lt (key x) (key y) := by
      intro y hy
      rcases List.mem_append.mp hy with hy | hy
      · obtain ⟨x, hx, h⟩ := hs y hy
        exact ⟨x, (m1 x).mpr (.inl hx), h⟩
      · rw [List.mem_singleton] at hy
        subst hy
        by_cases hex : ∃ x ∈ l, Same lt (key x) (key y)
        · obtain ⟨x, hx, h⟩ := hex
          exact ⟨x, (m1 x).mpr (.inl hx), h⟩
        · exact ⟨y, (m1 y).mpr (.inr ⟨rfl, fun x hx h => hex ⟨x, hx, h⟩⟩), o.irrefl _, o.irrefl _⟩
    obtain ⟨l2, e2, a2, m2, s2⟩ := ih (p ++ [k]) l1 (by simpa using hc) a1 hm1 hs1
    refine ⟨l2, ?_, a2, by simpa using m2, by simpa using s2⟩
    unfold insertAll
    rw [Meth.bind_ok e1]
    exact e2

theorem contains_keys (o : StrictWeakOrder lt) {k : Nat} : ∀ {l : List Nat},
    (∀ x ∈ l, cmp x k s = (.ok (lt (key x) (key k)), s) ∧ cmp k x s = (.ok (lt (key k) (key x)), s)) → Ascending lt key l →
    ∃ b, contains cmp k l s = (.ok b, s) ∧ (b = true ↔ ∃ x ∈ l, Same lt (key x) (key k)) := by
  intro l
  induction l with
  | nil => intro _ _; exact ⟨false, rfl, by simp⟩
  | cons x l ih =>
    intro hc ha
    obtain ⟨hx, hl⟩ := List.pairwise_cons.mp ha
    obtain ⟨c1, c2⟩ := hc x (by simp)
    unfold contains
    rw [Meth.bind_ok c1]
    cases h1 : lt (key x) (key k) with
    | true =>
      obtain ⟨b, e, m⟩ := ih (fun y hy => hc y (List.mem_cons_of_mem _ hy)) hl
      simp only [if_true]
      refine ⟨b, e, ?_⟩
      rw [m]
      simp [Same, h1]
    | false =>
      simp only [Bool.false_eq_true, if_false]
      rw [Meth.bind_ok c2]
      cases h2 : lt (key k) (key x) with
      | true =>
        refine ⟨false, rfl, ?_⟩
        simp only [Bool.false_eq_true, false_iff, not_exists, not_and]
        intro z hz hs
        rcases List.mem_cons.mp hz with rfl | hz
        · rw [hs.2] at h2; cases h2
        · have := o.trans _ _ _ h2 (hx z hz)
          rw [hs.2] at this; cases this
      | false => exact ⟨true, rfl, by simp [Same, h1, h2]⟩

end RefCompare
open Spec Spec.RefCompare

/-- C127: a set of shared references, after any history: inserting references that were not moved from gives a set ordered by the values of the objects,
that has for each value the first reference inserted with it, no matter which object it refers to; `contains` tells whether there is one with the same
value. No comparison fails and nothing else changes. -/
theorem C127_set_shared {V : Type} (dbg : Bool) (derives : Nat → Nat → Bool) (ops : List SharedRef.Op) (s : SharedRef.St)
    (hs : SharedRef.run dbg derives ops SharedRef.init = some s) (lt : V → V → Bool) (o : StrictWeakOrder lt) (value : Nat → V) (key : Nat → V)
    (less : Nat → Nat → Res Bool) (hless : ∀ a b, less a b = .ok (lt (value a) (value b)))
    (refs : List Nat) (k : Nat) (hrefs : ∀ w ∈ k :: refs, ∃ (x : SharedRef.Var) (a : Nat), s.vars[w]? = some (some x) ∧ x.kind = .ref ∧ x.moved = false ∧ x.p = some a ∧ key w = value a) :
    ∃ l found, insertAll (RefCompare.lt (SharedRef.get dbg) less) refs [] s = (.ok l, s) ∧ Ascending lt key l ∧ (∀ x, x ∈ l ↔ First lt key refs x) ∧
      contains (RefCompare.lt (SharedRef.get dbg) less) k l s = (.ok found, s) ∧ (found = true ↔ ∃ x ∈ refs, Same lt (key x) (key k)) := by
  have hc : ∀ x ∈ k :: refs, ∀ y ∈ k :: refs, RefCompare.lt (SharedRef.get dbg) less x y s = (.ok (lt (key x) (key y)), s) := by
    intro x hx y hy
    obtain ⟨vx, a, h1, h2, h3, h4, h5⟩ := hrefs x hx
    obtain ⟨vy, b, g1, g2, g3, g4, g5⟩ := hrefs y hy
    obtain ⟨a', b', e1, e2, e3, _⟩ := C127_shared dbg derives ops s hs h1 h2 h3 g1 g2 g3 less less
    rw [h4] at e1; rw [g4] at e2; cases e1; cases e2
    exact (e3 _ (by rw [hless, h5, g5])).1
  obtain ⟨l, e, ha, hm, hsame⟩ := insertAll_keys (s := s) (key := key) o refs [] [] (fun x hx y hy => hc x (by simpa using .inr hx) y (by simpa using .inr hy))
    List.Pairwise.nil (by simp [First]) (by simp)
  have hl : ∀ x ∈ l, x ∈ refs := by
    intro x hx
    obtain ⟨b, a, hr, _⟩ := (hm x).mp hx
    rw [List.nil_append] at hr
    rw [hr]; simp
  obtain ⟨found, e2, hf⟩ := contains_keys (s := s) (key := key) (k := k) o (l := l)
    (fun x hx => ⟨hc x (List.mem_cons_of_mem _ (hl x hx)) k (by simp), hc k (by simp) x (List.mem_cons_of_mem _ (hl x hx))⟩) ha
  refine ⟨l, found, e, ha, by simpa using hm, e2, hf.trans ⟨fun ⟨x, hx, h⟩ => ⟨x, hl x hx, h⟩, fun ⟨x, hx, h⟩ => ?_⟩⟩
  obtain ⟨z, hz, hzx⟩ := hsame x (by simpa using hx)
  exact ⟨z, hz, same_trans o hzx h⟩

/-- C127: the same of unique references. -/
theorem C127_set_unique {V : Type} (dbg : Bool) (ops : List UniqueRef.Op) (s : UniqueRef.St)
    (hs : UniqueRef.run dbg ops UniqueRef.init = some s) (lt : V → V → Bool) (o : StrictWeakOrder lt) (value : Nat → V) (key : Nat → V)
    (less : Nat → Nat → Res Bool) (hless : ∀ a b, less a b = .ok (lt (value a) (value b)))
    (refs : List Nat) (k : Nat) (hrefs : ∀ w ∈ k :: refs, ∃ (x : UniqueRef.Var) (a : Nat), s.vars[w]? = some (some x) ∧ x.kind = .ref ∧ x.moved = false ∧ x.p = some a ∧ key w = value a) :
    ∃ l found, insertAll (RefCompare.lt (UniqueRef.get dbg) less) refs [] s = (.ok l, s) ∧ Ascending lt key l ∧ (∀ x, x ∈ l ↔ First lt key refs x) ∧
      contains (RefCompare.lt (UniqueRef.get dbg) less) k l s = (.ok found, s) ∧ (found = true ↔ ∃ x ∈ refs, Same lt (key x) (key k)) := by
  have hc : ∀ x ∈ k :: refs, ∀ y ∈ k :: refs, RefCompare.lt (UniqueRef.get dbg) less x y s = (.ok (lt (key x) (key y)), s) := by
    intro x hx y hy
    obtain ⟨vx, a, h1, h2, h3, h4, h5⟩ := hrefs x hx
    obtain ⟨vy, b, g1, g2, g3, g4, g5⟩ := hrefs y hy
    obtain ⟨a', b', e1, e2, e3, _⟩ := C127_unique dbg ops s hs h1 h2 h3 g1 g2 g3 less less
    rw [h4] at e1; rw [g4] at e2; cases e1; cases e2
    exact (e3 _ (by rw [hless, h5, g5])).1
  obtain ⟨l, e, ha, hm, hsame⟩ := insertAll_keys (s := s) (key := key) o refs [] [] (fun x hx y hy => hc x (by simpa using .inr hx) y (by simpa using .inr hy))
    List.Pairwise.nil (by simp [First]) (by simp)
  have hl : ∀ x ∈ l, x ∈ refs := by
    intro x hx
    obtain ⟨b, a, hr, _⟩ := (hm x).mp hx
    rw [List.nil_append] at hr
    rw [hr]; simp
  obtain ⟨found, e2, hf⟩ := contains_keys (s := s) (key := key) (k := k) o (l := l)
    (fun x hx => ⟨hc x (List.mem_cons_of_mem _ (hl x hx)) k (by simp), hc k (by simp) x (List.mem_cons_of_mem _ (hl x hx))⟩) ha
  refine ⟨l, found, e, ha, by simpa using hm, e2, hf.trans ⟨fun ⟨x, hx, h⟩ => ⟨x, hl x hx, h⟩, fun ⟨x, hx, h⟩ => ?_⟩⟩
  obtain ⟨z, hz, hzx⟩ := hsame x (by simpa using hx)
  exact ⟨z, hz, same_trans o hzx h⟩

/-- Four objects with the values 7, 3, 7, 5: the set has the references 1, 3 and 0, that is the values 3, 5, 7. -/
example : ∃ s, SharedRef.run true (fun a b => a == b) [.makeShared 0 false none, .makeShared 0 false none, .makeShared 0 false none, .makeShared 0 false none] SharedRef.init = some s ∧
    (∀ w ∈ [0, 1, 2, 3], ∃ (x : SharedRef.Var) (a : Nat), s.vars[w]? = some (some x) ∧ x.kind = .ref ∧ x.moved = false ∧ x.p = some a ∧ a = w) ∧
    (insertAll (RefCompare.lt (SharedRef.get true) (fun a b => .ok (decide ([7, 3, 7, 5].getD a 0 < [7, 3, 7, 5].getD b 0)))) [0, 1, 2, 3] [] s).1 = .ok [1, 3, 0] := by
  refine ⟨_, rfl, ?_, by decide +kernel⟩
  simp [SharedRef.init]

/-- The condition that the objects are not changed while they are in the set cannot be dropped: if the value of the object with the least value is
made the greatest, the set does not find the other one any more. -/
example : ∃ s, SharedRef.run true (fun a b => a == b) [.makeShared 0 false none, .makeShared 0 false none] SharedRef.init = some s ∧
    (insertAll (RefCompare.lt (SharedRef.get true) (fun a b => .ok (decide ([1, 2].getD a 0 < [1, 2].getD b 0)))) [0, 1] [] s).1 = .ok [0, 1] ∧
    (contains (RefCompare.lt (SharedRef.get true) (fun a b => .ok (decide ([9, 2].getD a 0 < [9, 2].getD b 0)))) 1 [0, 1] s).1 = .ok false :=
  ⟨_, rfl, by decide +kernel, by decide +kernel⟩

end Utki
