import Verif.Lemmas.SortCost
/-!
# Number of comparisons made by `utki::sort` (C87)

The comparator counts its own calls: in a component `count` of its state (C87_at_most), or as `counting lt`, whose state is
the number of calls. The sorted range is `seg` inside the memory block `pre ++ seg ++ post`.
-/
namespace Utki
open Spec QSort

/-- C87: a comparator that always returns and never says that an element is less than itself is called at most
`n ^ 2 + n - 2` times for `n` elements. -/
theorem C87_at_most {α σ : Type} [MovedFrom α] (cmp : α → α → Meth σ Bool) (count : σ → Nat) (hret : ∀ x y s, ∃ b, (cmp x y s).1 = .ok b)
    (hirr : ∀ x s, (cmp x x s).1 ≠ .ok true) (hcount : ∀ x y s, count (cmp x y s).2 = count s + 1)
    (pre seg post : List α) (s : σ) (fuel : Nat) (hf : seg.length < fuel) :
    count (sort cmp fuel pre.length (pre.length + seg.length) (pre ++ seg ++ post, s)).2.2 ≤ count s + (seg.length ^ 2 + seg.length - 2) := by
  have hc : Comparator cmp False (fun _ _ => True) True (fun _ => False) := by
    refine ⟨fun x y t => ?_⟩
    obtain ⟨b, hb⟩ := hret x y t
    refine Sat.ok (a := b) (s' := (cmp x y t).2) (Prod.ext hb rfl) ⟨fun h => ⟨False.elim, fun _ he => ?_⟩, fun _ => False.elim⟩
    subst he; subst h; exact hirr x t hb
  have h1 := quick_sort_sat hc (.inl trivial) False.elim False.elim fuel pre.length (pre.length + seg.length) pre seg post s
    (.inl hf) rfl rfl
  have h2 := quick_sort_count hc hcount fuel pre.length (pre.length + seg.length) pre seg post s rfl rfl (.inl hf)
  rcases (h1.and h2).out with ⟨_, _, _, _, _, _, h⟩ | ⟨_, h, _⟩
  · unfold costBound at h
    rw [pow_two]; exact h
  · exact h.1.elim

/-- C87: the bound is attained for every number of elements, even when all of them are different numbers compared by `<`: the
number of comparisons is not of the order `n log n`, as it is for `std::sort`. -/
theorem C87_attained [MovedFrom Nat] (n : Nat) (hn : 1 ≤ n) (pre post : List Nat) (calls fuel : Nat) (hf : n < fuel) :
    ∃ seg : List Nat, seg.length = n ∧ seg.Nodup ∧
      (sort (counting fun a b => decide (a < b)) fuel pre.length (pre.length + n) (pre ++ seg ++ post, calls)).1 = .ok () ∧
      (sort (counting fun a b => decide (a < b)) fuel pre.length (pre.length + n) (pre ++ seg ++ post, calls)).2.2 =
        calls + (n ^ 2 + n - 2) := by
  suffices h : ∀ base, ∃ seg : List Nat, seg.length = n ∧ seg.Nodup ∧ (∀ x ∈ seg, base ≤ x) ∧ ∀ pre calls fuel, n < fuel →
      (quick_sort (counting fun a b => decide (a < b)) fuel pre.length (pre.length + n) (pre ++ seg ++ post, calls)).1 = .ok () ∧
      (quick_sort (counting fun a b => decide (a < b)) fuel pre.length (pre.length + n) (pre ++ seg ++ post, calls)).2.2 =
        calls + (n ^ 2 + n - 2) by
    obtain ⟨seg, h1, h2, _, h3⟩ := h 0
    exact ⟨seg, h1, h2, h3 pre calls fuel hf⟩
  clear hf fuel calls pre
  induction n, hn using Nat.le_induction with
  | base =>
    intro base
    refine ⟨[base], rfl, by simp, by simp, fun pre calls fuel hf => ?_⟩
    obtain ⟨k, rfl⟩ : ∃ k, fuel = k + 1 := ⟨fuel - 1, by omega⟩
    rw [quick_sort_trivial _ k _ _ (by omega)]
    simp
  | succ n hn ih =>
    intro base
    obtain ⟨L, h1, h2, h3, h4⟩ := ih (base + 1)
    have hlt : (n + 1) / 2 - 1 < L.length := by omega
    obtain ⟨P, c, S, hL, hP⟩ : ∃ P c S, L = P ++ c :: S ∧ P.length = (n + 1) / 2 - 1 :=
      ⟨L.take ((n + 1) / 2 - 1), L[(n + 1) / 2 - 1], L.drop ((n + 1) / 2 - 1 + 1), by
        rw [List.getElem_cons_drop, List.take_append_drop], by simp; omega⟩
    subst hL
    have hlen : P.length + S.length + 1 = n := by simp at h1; omega
    have hmin : ∀ x ∈ P ++ c :: S, base < x := fun x hx => h3 x hx
    refine ⟨c :: (P ++ base :: S), by simp; omega, ?_, ?_, fun pre calls fuel hf => ?_⟩
    · have hnot : base ∉ P ++ c :: S := fun h => absurd (hmin base h) (lt_irrefl _)
      have : (base :: (P ++ c :: S)).Nodup := List.nodup_cons.mpr ⟨hnot, h2⟩
      have hperm : (base :: (P ++ c :: S)).Perm (c :: (P ++ base :: S)) :=
        (List.Perm.cons base List.perm_middle).trans ((List.Perm.swap c base (P ++ S)).trans (List.Perm.cons c List.perm_middle.symm))
      exact hperm.nodup_iff.mp this
    · intro x hx
      simp at hx
      rcases hx with rfl | hx | rfl | hx
      · exact (hmin x (by simp)).le
      · exact (hmin x (by simp [hx])).le
      · exact le_refl _
      · exact (hmin x (by simp [hx])).le
    · obtain ⟨k, rfl⟩ : ∃ k, fuel = k + 1 := ⟨fuel - 1, by omega⟩
      rw [show n + 1 = P.length + S.length + 2 by omega,
        quick_sort_worst _ pre post P S c base k pre.length calls rfl (by omega) (by simp)
          (fun x hx => by have := hmin x hx; simp; omega) (by omega)]
      have := h4 (pre ++ [base]) (calls + 2 * (P.length + S.length + 2)) k (by omega)
      rw [List.length_append, List.length_singleton, show pre.length + 1 + n = pre.length + (P.length + S.length + 2) by omega] at this
      refine ⟨this.1, this.2.trans ?_⟩
      rw [← hlen]
      have : (P.length + S.length + 2) ^ 2 = (P.length + S.length + 1) ^ 2 + 2 * (P.length + S.length + 1) + 1 := by ring
      have : 1 ≤ (P.length + S.length + 1) ^ 2 := Nat.one_le_pow _ _ (by omega)
      omega

/-- C87: a range that is sorted already is left as it is, elements that are equivalent included, and takes at most
`2 n log n` comparisons. -/
theorem C87_sorted_range {α : Type} [MovedFrom α] (lt : α → α → Bool) (h : StrictWeakOrder lt) (pre seg post : List α) (hs : Sorted lt seg)
    (calls fuel : Nat) (hf : seg.length < fuel) :
    ∃ k ≤ 2 * seg.length * Nat.log 2 seg.length,
      sort (counting lt) fuel pre.length (pre.length + seg.length) (pre ++ seg ++ post, calls) =
        (.ok (), (pre ++ seg ++ post, calls + k)) := by
  unfold sort
  induction fuel generalizing pre seg post calls with
  | zero => omega
  | succ fuel ih =>
    by_cases hn : seg.length ≤ 1
    · exact ⟨0, by simp, by rw [quick_sort_trivial _ fuel _ _ (by omega)]; rfl⟩
    · have hlt : seg.length / 2 < seg.length := by omega
      obtain ⟨pivot, hpiv⟩ : ∃ pivot, seg[seg.length / 2]? = some pivot := ⟨_, List.getElem?_eq_getElem hlt⟩
      have hnt : ∀ a b c, lt a c = true → lt a b = false → lt b c = true := by
        intro a b c hac hab
        cases h2 : lt b c with
        | true => rfl
        | false =>
          cases h3 : lt b a with
          | true => rw [h.trans b a c h3 hac] at h2; cases h2
          | false =>
            cases h4 : lt c b with
            | true => rw [h.trans a c b hac h4] at hab; cases hab
            | false => rw [(h.incomparable a b c hab h3 h2 h4).1] at hac; cases hac
      obtain ⟨A, R, hAR, hA, hR⟩ := split_while (fun x => lt x pivot) seg hs (by
        intro x y hxy hx
        cases hy : lt y pivot with
        | false => rfl
        | true => rw [hnt y x pivot hy hxy] at hx; cases hx)
      subst hAR
      have hsp := List.pairwise_append.mp hs
      obtain ⟨M, D, hMD, hM, hD⟩ := split_while (fun x => !lt pivot x) R hsp.2.1 (by
        intro x y hxy hx
        simp only [Bool.not_eq_eq_eq_not, Bool.not_false] at hx ⊢
        cases hy : lt pivot y with
        | true => rfl
        | false => rw [hnt pivot y x hx hy] at hxy; cases hxy)
      subst hMD
      have hsMD := List.pairwise_append.mp hsp.2.1
      rw [← List.append_assoc] at *
      simp only [List.length_append] at *
      have ha : A.length ≤ (A.length + M.length + D.length) / 2 := by
        by_contra hc
        rw [List.append_assoc, List.getElem?_append_left (by omega)] at hpiv
        have := hA pivot (List.mem_of_getElem? hpiv)
        rw [h.irrefl] at this; cases this
      have hm : (A.length + M.length + D.length) / 2 < A.length + M.length := by
        by_contra hc
        rw [List.getElem?_append_right (by simp; omega)] at hpiv
        have := hD pivot (List.mem_of_getElem? hpiv)
        rw [h.irrefl] at this; cases this
      obtain ⟨k1, hk1, e1⟩ := ih pre A (M ++ D ++ post) hsp.1 (calls + (A.length + M.length + D.length) + (M.length + D.length)) (by omega)
      obtain ⟨k2, hk2, e2⟩ := ih (pre ++ A ++ M) D post hsMD.2.1 (calls + (A.length + M.length + D.length) + (M.length + D.length) + k1) (by omega)
      refine ⟨A.length + M.length + D.length + (M.length + D.length) + k1 + k2, ?_, ?_⟩
      · have := log_step A.length D.length (A.length + M.length + D.length) ha (by omega) (by omega)
        omega
      · rw [quick_sort_done lt pre post A M D pivot fuel pre.length calls rfl (by omega) hpiv hA hR
          (fun x hx => by simpa using hM x hx) (fun x hx => by simpa using hD x hx) (by omega)]
        have x1 : pre ++ (A ++ M ++ D) ++ post = pre ++ A ++ (M ++ D ++ post) := by simp
        have x2 : pre ++ A ++ (M ++ D ++ post) = (pre ++ A ++ M) ++ D ++ post := by simp
        rw [x1, Meth.bind_ok e1, x2]
        simp only [List.length_append] at e2
        rw [show pre.length + (A.length + M.length + D.length) = pre.length + A.length + M.length + D.length by omega, e2]
        simp only [Prod.mk.injEq, true_and]
        omega

/-- C87: a range of equivalent elements is left as it is and takes exactly two comparisons for each element. -/
theorem C87_equivalent {α : Type} [MovedFrom α] (lt : α → α → Bool) (pre seg post : List α) (hs : ∀ x ∈ seg, ∀ y ∈ seg, lt x y = false)
    (calls fuel : Nat) (hf : seg.length < fuel) (hn : 2 ≤ seg.length) :
    sort (counting lt) fuel pre.length (pre.length + seg.length) (pre ++ seg ++ post, calls) =
      (.ok (), (pre ++ seg ++ post, calls + 2 * seg.length)) := by
  unfold sort
  obtain ⟨k, rfl⟩ : ∃ k, fuel = k + 2 := ⟨fuel - 2, by omega⟩
  have hlt : seg.length / 2 < seg.length := by omega
  obtain ⟨pivot, hpiv⟩ : ∃ pivot, seg[seg.length / 2]? = some pivot := ⟨_, List.getElem?_eq_getElem hlt⟩
  have hm := List.mem_of_getElem? hpiv
  have := quick_sort_done lt pre post [] seg [] pivot (k + 1) pre.length calls rfl (by simpa using hn) (by simpa using hpiv) (by simp)
    (by intro x hx; exact hs x (by simpa using hx) pivot hm) (fun x hx => hs pivot hm x hx) (by simp) (by simpa using hf)
  simp only [List.length_nil, Nat.zero_add, Nat.add_zero, List.nil_append, List.append_nil] at this
  rw [this, Meth.bind_ok (quick_sort_trivial _ k _ _ (by omega) _), quick_sort_trivial _ k _ _ (by omega)]
  simp only [Prod.mk.injEq, true_and]
  omega

/-- In the examples a moved-from number is 77. -/
local instance movedNat87 : MovedFrom Nat := ⟨fun _ => 77⟩

/-- Six different numbers that take `6 ^ 2 + 6 - 2 = 40` comparisons. -/
example : sort (counting fun a b => decide (a < b)) 9 0 6 ([1, 5, 3, 0, 2, 4], 0) = (.ok (), ([0, 1, 2, 3, 4, 5], 40)) := by decide +kernel

/-- Six numbers in order take fewer. -/
example : sort (counting fun a b => decide (a < b)) 9 0 6 ([0, 1, 2, 3, 4, 5], 0) = (.ok (), ([0, 1, 2, 3, 4, 5], 17)) := by decide +kernel

/-- Six equal numbers take twelve. -/
example : sort (counting fun a b => decide (a < b)) 9 0 6 ([4, 4, 4, 4, 4, 4], 0) = (.ok (), ([4, 4, 4, 4, 4, 4], 12)) := by decide +kernel

/-- The hypotheses of `C87_at_most` hold for a comparator that counts. -/
example : (∀ x y s, ∃ b, (counting (fun a b : Nat => decide (a < b)) x y s).1 = .ok b) ∧
    (∀ x s, (counting (fun a b : Nat => decide (a < b)) x x s).1 ≠ .ok true) ∧
    (∀ x y s, (counting (fun a b : Nat => decide (a < b)) x y s).2 = s + 1) :=
  ⟨fun _ _ _ => ⟨_, rfl⟩, fun x s => by simp [counting], fun _ _ _ => rfl⟩

end Utki
