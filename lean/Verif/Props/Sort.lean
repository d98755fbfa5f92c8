import Verif.Lemmas.Sort
import Verif.Spec.Order
/-!
# Properties of `utki::sort` (C45, C46)

The sorted range is `seg` inside the memory block `pre ++ seg ++ post`. `fuel` is the number of loop or recursion steps that
are observed. Moving from an element leaves anything (`MovedFrom`): no moved-from value shows up in the range.
-/
namespace Utki
open Spec QSort

/-- C45: for a strict weak order `sort` terminates and leaves a sorted permutation; nothing else changes. -/
theorem C45_sort {α : Type} [MovedFrom α] (lt : α → α → Bool) (h : StrictWeakOrder lt) (pre seg post : List α) (fuel : Nat)
    (hf : seg.length < fuel) :
    ∃ sorted, sort (fun a b => (pure (lt a b) : Meth Unit Bool)) fuel pre.length (pre.length + seg.length) (pre ++ seg ++ post, ()) =
        (.ok (), (pre ++ sorted ++ post, ())) ∧ sorted.Perm seg ∧ Sorted lt sorted := by
  have hc : Comparator (fun a b => (pure (lt a b) : Meth Unit Bool)) True (fun a b => lt a b = true) True (fun _ => False) := by
    refine ⟨fun x y s => Sat.pure ⟨fun hb => ⟨fun _ => hb, fun _ he => ?_⟩, fun hb _ => by simp [hb]⟩⟩
    subst he; rw [h.irrefl] at hb; cases hb
  have hnt : ∀ a b c, lt a c = true → lt a b = true ∨ lt b c = true := by
    intro a b c hac
    cases h1 : lt a b with
    | true => exact .inl rfl
    | false =>
      cases h2 : lt b c with
      | true => exact .inr rfl
      | false =>
        exfalso
        cases h3 : lt b a with
        | true => rw [h.trans b a c h3 hac] at h2; cases h2
        | false =>
          cases h4 : lt c b with
          | true => rw [h.trans a c b hac h4] at h1; cases h1
          | false => rw [(h.incomparable a b c h1 h3 h2 h4).1] at hac; cases hac
  have := quick_sort_sat hc (.inl trivial) (fun _ => h.trans) (fun _ => hnt) fuel pre.length (pre.length + seg.length) pre seg post ()
    (.inl hf) rfl rfl
  rcases this.out with ⟨a, h1, seg', h2, h3, h4⟩ | ⟨_, h1, _⟩
  · refine ⟨seg', ?_, h3, ?_⟩
    · exact Prod.ext h1 (Prod.ext h2 rfl)
    · exact (h4 trivial).imp (fun hab => by simpa using hab)
  · exact h1.elim

/-- C46: for any comparator (it may be no order, answer differently from call to call, or throw): whatever happens, the
elements outside of the range are unchanged, those inside are permuted, and the outcome is a normal return, an abnormal
outcome of a call of the comparator, or non-termination; in particular nothing outside of the range is accessed. -/
theorem C46_only_range {α σ : Type} [MovedFrom α] (cmp : α → α → Meth σ Bool) (pre seg post : List α) (s : σ) (fuel : Nat) :
    let out := sort cmp fuel pre.length (pre.length + seg.length) (pre ++ seg ++ post, s)
    (∃ seg', out.2.1 = pre ++ seg' ++ post ∧ seg'.Perm seg) ∧
    (out.1 = .ok () ∨ out.1 = .diverge ∨ ∃ x y t, (∀ b, (cmp x y t).1 ≠ .ok b) ∧ out.1 = (cmp x y t).1.erase) := by
  have hc : Comparator cmp False (fun _ _ => True) False
      (fun r => r = .diverge ∨ ∃ x y t, (∀ b, (cmp x y t).1 ≠ .ok b) ∧ r = (cmp x y t).1.erase) := by
    refine ⟨fun x y t => ?_⟩
    unfold Sat
    split
    · exact ⟨fun _ => ⟨False.elim, False.elim⟩, fun _ => False.elim⟩
    · rename_i hne
      exact .inr ⟨x, y, t, hne, rfl⟩
  have := quick_sort_sat hc (.inr (.inl rfl)) False.elim False.elim fuel pre.length (pre.length + seg.length) pre seg post s
    (.inr (.inl rfl)) rfl rfl
  intro out
  have herase : ∀ r : Res Unit, r.erase = r := by intro r; cases r <;> rfl
  rcases this.out with ⟨a, h1, seg', h2, h3, _⟩ | ⟨_, h1, seg', h2, h3⟩
  · exact ⟨⟨seg', h2, h3⟩, .inl h1⟩
  · refine ⟨⟨seg', h2, h3⟩, .inr ?_⟩
    rw [herase] at h1
    exact h1

/-- C46: for a comparator that never says that an element is less than itself, and always returns, `sort` terminates. -/
theorem C46_terminates {α σ : Type} [MovedFrom α] (cmp : α → α → Meth σ Bool) (hret : ∀ x y s, ∃ b, (cmp x y s).1 = .ok b)
    (hirr : ∀ x s, (cmp x x s).1 ≠ .ok true) (pre seg post : List α) (s : σ) (fuel : Nat) (hf : seg.length < fuel) :
    (sort cmp fuel pre.length (pre.length + seg.length) (pre ++ seg ++ post, s)).1 = .ok () := by
  have hc : Comparator cmp False (fun _ _ => True) True (fun _ => False) := by
    refine ⟨fun x y t => ?_⟩
    obtain ⟨b, hb⟩ := hret x y t
    refine Sat.ok (a := b) (s' := (cmp x y t).2) (Prod.ext hb rfl) ⟨fun h => ⟨False.elim, fun _ he => ?_⟩, fun _ => False.elim⟩
    subst he; subst h; exact hirr x t hb
  have := quick_sort_sat hc (.inl trivial) False.elim False.elim fuel pre.length (pre.length + seg.length) pre seg post s
    (.inl hf) rfl rfl
  rcases this.out with ⟨a, h1, _⟩ | ⟨_, h1, _⟩
  · exact h1
  · exact h1.elim

/-- C46: irreflexivity is needed: two equal elements and a comparator like `<=` make `sort` run forever. -/
theorem C46_may_not_terminate {α : Type} [MovedFrom α] (le : α → α → Bool) (x : α) (hx : le x x = true) (fuel : Nat) :
    (sort (fun a b => (pure (le a b) : Meth Unit Bool)) fuel 0 2 ([x, x], ())).1 = .diverge := by
  suffices h : ∀ fuel, sort (fun a b => (pure (le a b) : Meth Unit Bool)) fuel 0 2 ([x, x], ()) = (.diverge, ([x, x], ())) by rw [h]
  have l0 : load (σ := Unit) 0 ([x, x], ()) = (.ok x, ([x, x], ())) := rfl
  have l1 : load (σ := Unit) 1 ([x, x], ()) = (.ok x, ([x, x], ())) := rfl
  have call1 : call (pure (le x x) : Meth Unit Bool) ([x, x], ()) = (.ok true, ([x, x], ())) := by rw [hx]; rfl
  intro fuel
  unfold sort
  induction fuel with
  | zero => rfl
  | succ fuel ih =>
    unfold quick_sort
    simp only
    rw [if_neg (by decide), show 0 + ((((2 : Nat) : Int) - ((0 : Nat) : Int)) / 2).toNat = 1 from rfl, Meth.bind_ok l1]
    have f : ∀ k, find_if_not (fun e => (pure (le e x) : Meth Unit Bool)) (k + 3) 0 2 ([x, x], ()) = (.ok 2, ([x, x], ())) := by
      intro k
      unfold find_if_not
      rw [if_neg (by decide), Meth.bind_ok l0, Meth.bind_ok call1, if_neg (by decide)]
      unfold find_if_not
      rw [if_neg (by decide), Meth.bind_ok l1, Meth.bind_ok call1, if_neg (by decide)]
      unfold find_if_not
      rw [if_pos (by decide)]; rfl
    match fuel, ih with
    | 0, _ =>
      have : partition (fun e => (pure (le e x) : Meth Unit Bool)) 1 0 2 ([x, x], ()) = (.diverge, ([x, x], ())) := by
        unfold partition find_if_not
        rw [if_neg (by decide)]
        simp only [Meth.bind_apply, Meth.bind, l0, call1]
        rfl
      simp only [Meth.bind_apply, Meth.bind, this]
    | 1, _ =>
      have : partition (fun e => (pure (le e x) : Meth Unit Bool)) 2 0 2 ([x, x], ()) = (.diverge, ([x, x], ())) := by
        unfold partition find_if_not
        rw [if_neg (by decide)]
        simp only [Meth.bind_apply, Meth.bind, l0, call1]
        rw [if_neg (by decide)]
        unfold find_if_not
        rw [if_neg (by decide)]
        simp only [Meth.bind_apply, Meth.bind, l1, call1]
        rfl
      simp only [Meth.bind_apply, Meth.bind, this]
    | k + 2, ih =>
      have p1 : partition (fun e => (pure (le e x) : Meth Unit Bool)) (k + 3) 0 2 ([x, x], ()) = (.ok 2, ([x, x], ())) := by
        unfold partition
        rw [Meth.bind_ok (f k), if_pos rfl]; rfl
      have p2 : partition (fun e => negated (pure (le x e) : Meth Unit Bool)) (k + 3) 2 2 ([x, x], ()) = (.ok 2, ([x, x], ())) := by
        unfold partition find_if_not
        rw [if_pos rfl, Meth.pure_bind, if_pos rfl]; rfl
      rw [Meth.bind_ok p1, Meth.bind_ok p2]
      simp only [Meth.bind_apply, Meth.bind, ih]

/-- A non-trivial strict weak order: pairs compared by the first component. -/
example : StrictWeakOrder (fun (a b : Nat × Nat) => decide (a.1 < b.1)) :=
  ⟨by simp, by simp; omega, by simp; omega⟩

/-- In the examples a moved-from number is 77. -/
local instance movedNat : MovedFrom Nat := ⟨fun _ => 77⟩

example : sort (fun a b : Nat => (pure (decide (a < b)) : Meth Unit Bool)) 9 1 7 ([9, 3, 1, 2, 3, 0, 7, 8], ()) =
    (.ok (), ([9, 0, 1, 2, 3, 3, 7, 8], ())) := by decide +kernel

/-- A comparator that throws on its fifth call, counted in its state. -/
example : sort (fun a b : Nat => (fun s : Nat => if s = 4 then (.throw (.user 1), s) else (.ok (decide (a < b)), s + 1) : Meth Nat Bool))
    9 0 4 ([4, 3, 2, 1], 0) = (.throw (.user 1), ([1, 3, 2, 4], 4)) := by decide +kernel

end Utki
