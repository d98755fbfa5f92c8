import Verif.Props.Sort
import Mathlib.Data.List.Sort
/-!
# C111: the result of `sort` is determined by the elements
-/
namespace Utki
open Spec QSort

/-- If only equal elements are equivalent, there is one sorted order. -/
theorem sorted_unique {α : Type} {lt : α → α → Bool} (htot : ∀ a b, lt a b = false → lt b a = false → a = b)
    {l₁ l₂ : List α} (hp : l₁.Perm l₂) (h₁ : Sorted lt l₁) (h₂ : Sorted lt l₂) : l₁ = l₂ :=
  hp.eq_of_pairwise (fun a b _ _ hab hba => htot a b hba hab) h₁ h₂

/-- `lt` is a strict weak order: what is less than something is less than everything else or everything else is less than that. -/
theorem cotrans {α : Type} {lt : α → α → Bool} (h : StrictWeakOrder lt) {a b : α} (hab : lt a b = true) (x : α) (hx : lt a x = false) : lt x b = true := by
  cases hxb : lt x b with
  | true => rfl
  | false =>
    exfalso
    cases hxa : lt x a with
    | true => rw [h.trans x a b hxa hab] at hxb; cases hxb
    | false =>
      cases hbx : lt b x with
      | true => rw [h.trans a b x hab hbx] at hx; cases hx
      | false =>
        have := (h.incomparable a x b hx hxa hxb hbx).1
        rw [hab] at this; cases this

/-- At the same place of two sorted orders of the same elements the element of the first is not less. -/
theorem sorted_place {α : Type} {lt : α → α → Bool} (h : StrictWeakOrder lt) {l₁ l₂ : List α} (hp : l₁.Perm l₂) (h₁ : Sorted lt l₁) (h₂ : Sorted lt l₂)
    (i : Nat) (a b : α) (ha : l₁[i]? = some a) (hb : l₂[i]? = some b) : lt a b = false := by
  cases hab : lt a b with
  | false => rfl
  | true =>
    exfalso
    obtain ⟨hi, rfl⟩ := List.getElem?_eq_some_iff.mp ha
    obtain ⟨hi', rfl⟩ := List.getElem?_eq_some_iff.mp hb
    have e1 : l₂.countP (fun x => lt x l₂[i]) ≤ i := by
      have hsplit : l₂.countP (fun x => lt x l₂[i]) = (l₂.take i).countP (fun x => lt x l₂[i]) + (l₂.drop i).countP (fun x => lt x l₂[i]) := by
        rw [← List.countP_append, List.take_append_drop]
      rw [hsplit]
      have z : (l₂.drop i).countP (fun x => lt x l₂[i]) = 0 := by
        rw [List.countP_eq_zero]
        intro x hx
        obtain ⟨k, hk, rfl⟩ := List.getElem_of_mem hx
        rw [List.getElem_drop]
        rcases Nat.eq_zero_or_pos k with rfl | hk0
        · simp [h.irrefl]
        · rw [List.length_drop] at hk
          have := (List.pairwise_iff_getElem.mp h₂) i (i + k) hi' (by omega) (by omega)
          simp [this]
      rw [z]
      exact (List.countP_le_length).trans (by simp)
    have e2 : i + 1 ≤ l₁.countP (fun x => lt x l₂[i]) := by
      have hsplit : l₁.countP (fun x => lt x l₂[i]) = (l₁.take (i + 1)).countP (fun x => lt x l₂[i]) + (l₁.drop (i + 1)).countP (fun x => lt x l₂[i]) := by
        rw [← List.countP_append, List.take_append_drop]
      rw [hsplit]
      have z : (l₁.take (i + 1)).countP (fun x => lt x l₂[i]) = i + 1 := by
        rw [List.countP_eq_length.mpr]
        · simp; omega
        · intro x hx
          obtain ⟨k, hk, rfl⟩ := List.getElem_of_mem hx
          rw [List.getElem_take]
          rw [List.length_take] at hk
          rcases Nat.lt_or_ge k i with hki | hki
          · exact cotrans h hab _ ((List.pairwise_iff_getElem.mp h₁) k i (by omega) hi hki)
          · obtain rfl : k = i := by omega
            exact hab
      omega
    rw [hp.countP_eq] at e2
    omega

/-- C111: if the comparator finds only equal elements equivalent, `sort` leaves exactly what any other correct sorting function, such as `std::sort`, leaves. -/
theorem C111_drop_in {α : Type} [MovedFrom α] (lt : α → α → Bool) (h : StrictWeakOrder lt) (htot : ∀ a b, lt a b = false → lt b a = false → a = b)
    (pre seg post : List α) (fuel : Nat) (hf : seg.length < fuel) (other : List α) (hp : other.Perm seg) (ho : Sorted lt other) :
    sort (fun a b => (pure (lt a b) : Meth Unit Bool)) fuel pre.length (pre.length + seg.length) (pre ++ seg ++ post, ()) =
      (.ok (), (pre ++ other ++ post, ())) := by
  obtain ⟨sorted, h1, h2, h3⟩ := C45_sort lt h pre seg post fuel hf
  rw [h1, sorted_unique htot (h2.trans hp.symm) h3 ho]

/-- C111: for such a comparator the result does not depend on the order in which the elements were. -/
theorem C111_any_order {α : Type} [MovedFrom α] (lt : α → α → Bool) (h : StrictWeakOrder lt) (htot : ∀ a b, lt a b = false → lt b a = false → a = b)
    (pre seg seg' post : List α) (hp : seg.Perm seg') (fuel : Nat) (hf : seg.length < fuel) :
    sort (fun a b => (pure (lt a b) : Meth Unit Bool)) fuel pre.length (pre.length + seg.length) (pre ++ seg ++ post, ()) =
      sort (fun a b => (pure (lt a b) : Meth Unit Bool)) fuel pre.length (pre.length + seg'.length) (pre ++ seg' ++ post, ()) := by
  obtain ⟨sorted, h1, h2, h3⟩ := C45_sort lt h pre seg' post fuel (by rw [← hp.length_eq]; exact hf)
  rw [h1]
  exact C111_drop_in lt h htot pre seg post fuel hf sorted (h2.trans hp.symm) h3

/-- C111: for any comparator: the elements of each class of equivalent ones take the same places in all sorted orders, so only the order within a class is
not determined. -/
theorem C111_classes {α : Type} [MovedFrom α] (lt : α → α → Bool) (h : StrictWeakOrder lt) (pre seg post : List α) (fuel : Nat) (hf : seg.length < fuel)
    (other : List α) (hp : other.Perm seg) (ho : Sorted lt other) :
    ∃ sorted, sort (fun a b => (pure (lt a b) : Meth Unit Bool)) fuel pre.length (pre.length + seg.length) (pre ++ seg ++ post, ()) =
        (.ok (), (pre ++ sorted ++ post, ())) ∧ sorted.length = other.length ∧
      ∀ (i : Nat) a b, sorted[i]? = some a → other[i]? = some b → lt a b = false ∧ lt b a = false := by
  obtain ⟨sorted, h1, h2, h3⟩ := C45_sort lt h pre seg post fuel hf
  have hp' : sorted.Perm other := h2.trans hp.symm
  exact ⟨sorted, h1, hp'.length_eq, fun i a b ha hb => ⟨sorted_place h hp' h3 ho i a b ha hb, sorted_place h hp'.symm ho h3 i b a hb ha⟩⟩

/-- Pairs, a moved-from one of which has lost its second part. -/
local instance movedPair111 : MovedFrom (Nat × Nat) := ⟨fun p => (p.1, 77)⟩

/-- C111: the order within a class is not kept: `sort` is not stable. -/
theorem C111_not_stable :
    sort (fun (a b : Nat × Nat) => (pure (decide (a.1 < b.1)) : Meth Unit Bool)) 4 0 3 ([(2, 0), (2, 1), (1, 2)], ()) =
      (.ok (), ([(1, 2), (2, 1), (2, 0)], ())) := by decide +kernel

local instance movedNat111 : MovedFrom Nat := ⟨fun _ => 77⟩

example : (∀ a b : Nat, decide (a < b) = false → decide (b < a) = false → a = b) ∧ [1, 2, 3].Perm [3, 1, 2] ∧ Sorted (fun a b => decide (a < b)) [1, 2, 3] ∧
    sort (fun (a b : Nat) => (pure (decide (a < b)) : Meth Unit Bool)) 4 1 4 ([9] ++ [3, 1, 2] ++ [0], ()) = (.ok (), ([9] ++ [1, 2, 3] ++ [0], ())) := by
  refine ⟨fun a b h1 h2 => ?_, by decide, by unfold Sorted; decide, by decide +kernel⟩
  simp at h1 h2
  omega

end Utki
