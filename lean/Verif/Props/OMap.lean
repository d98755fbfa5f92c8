import Verif.Model.OMap
import Verif.Spec.Order
/-!
# Properties of `flip_map` and `contains` (C66, C67)
-/
namespace Utki
namespace Spec

/-- Strict total order. -/
structure StrictTotalOrder {α : Type} (lt : α → α → Bool) : Prop where
  irrefl : ∀ a, lt a a = false
  trans : ∀ a b c, lt a b = true → lt b c = true → lt a c = true
  total : ∀ a b, lt a b = true ∨ a = b ∨ lt b a = true

/-- A `std::map` with comparator `lt`: keys strictly increase in iteration order. -/
def IsMap {κ ν : Type} (lt : κ → κ → Bool) (m : List (κ × ν)) : Prop := m.Pairwise (fun a b => lt a.1 b.1 = true)

end Spec
open Spec OMap

variable {κ ν : Type}

theorem insert_mem_sub {lt : κ → κ → Bool} {k : κ} {v : ν} {m : List (κ × ν)} {p : κ × ν} (h : p ∈ OMap.insert lt k v m) : p = (k, v) ∨ p ∈ m := by
  induction m with
  | nil => simpa [OMap.insert] using h
  | cons q m ih =>
    obtain ⟨k', v'⟩ := q
    simp only [OMap.insert] at h
    split at h
    · rcases List.mem_cons.mp h with rfl | h
      · simp
      · rcases ih h with h | h <;> simp [h]
    · split at h <;> simp_all

theorem insert_isMap {lt : κ → κ → Bool} (o : StrictTotalOrder lt) {k : κ} {v : ν} {m : List (κ × ν)} (h : IsMap lt m) : IsMap lt (OMap.insert lt k v m) := by
  induction m with
  | nil => simp [OMap.insert, IsMap]
  | cons q m ih =>
    obtain ⟨k', v'⟩ := q
    have hc := List.pairwise_cons.mp h
    simp only [OMap.insert]
    split
    · rename_i hlt
      refine List.pairwise_cons.mpr ⟨?_, ih hc.2⟩
      intro p hp
      rcases insert_mem_sub hp with rfl | hp
      · exact hlt
      · exact hc.1 p hp
    · split
      · rename_i hlt
        refine List.pairwise_cons.mpr ⟨?_, h⟩
        intro p hp
        rcases List.mem_cons.mp hp with rfl | hp
        · exact hlt
        · exact o.trans _ _ _ hlt (hc.1 p hp)
      · exact h

/-- Insertion adds the element exactly if the key is missing. -/
theorem insert_mem {lt : κ → κ → Bool} (o : StrictTotalOrder lt) {k : κ} {v : ν} {m : List (κ × ν)} (h : IsMap lt m) (p : κ × ν) :
    p ∈ OMap.insert lt k v m ↔ p ∈ m ∨ (p = (k, v) ∧ ∀ q ∈ m, q.1 ≠ k) := by
  induction m with
  | nil => simp [OMap.insert]
  | cons q m ih =>
    obtain ⟨k', v'⟩ := q
    have hc := List.pairwise_cons.mp h
    simp only [OMap.insert]
    split
    · rename_i hlt
      have hne : k' ≠ k := by rintro rfl; rw [o.irrefl] at hlt; cases hlt
      rw [List.mem_cons, ih hc.2]
      simp only [List.mem_cons, forall_eq_or_imp]
      grind
    · split
      · rename_i hnlt hlt
        have hall : ∀ q ∈ (k', v') :: m, q.1 ≠ k := by
          intro q hq he
          rcases List.mem_cons.mp hq with rfl | hq
          · simp only at he; subst he; rw [o.irrefl] at hlt; cases hlt
          · have := o.trans _ _ _ hlt (hc.1 q hq)
            rw [he, o.irrefl] at this; cases this
        simp only [List.mem_cons] at hall ⊢
        grind
      · rename_i h1 h2
        have he : k' = k := by rcases o.total k' k with h | h | h <;> simp_all
        subst he
        simp only [List.mem_cons, forall_eq_or_imp]
        grind

/-- The flipped map after some elements. -/
theorem flip_foldl {ltv : ν → ν → Bool} (o : StrictTotalOrder ltv) (m : List (κ × ν)) (ret : List (ν × κ)) (h : IsMap ltv ret) :
    IsMap ltv (m.foldl (fun ret p => OMap.insert ltv (flipPair p).1 (flipPair p).2 ret) ret) ∧
    ∀ v k, (v, k) ∈ m.foldl (fun ret p => OMap.insert ltv (flipPair p).1 (flipPair p).2 ret) ret ↔
      (v, k) ∈ ret ∨ ((∀ q ∈ ret, q.1 ≠ v) ∧ ∃ a b, m = a ++ (k, v) :: b ∧ ∀ q ∈ a, q.2 ≠ v) := by
  induction m generalizing ret with
  | nil => refine ⟨h, ?_⟩; intro v k; simp
  | cons p m ih =>
    obtain ⟨k0, v0⟩ := p
    have h' : IsMap ltv (OMap.insert ltv v0 k0 ret) := insert_isMap o h
    obtain ⟨h1, h2⟩ := ih _ h'
    refine ⟨h1, ?_⟩
    intro v k
    simp only [List.foldl_cons, flipPair] at h2 ⊢
    rw [h2]
    have hm := fun q => insert_mem o (k := v0) (v := k0) h q
    constructor
    · rintro (hv | ⟨hn, a, b, rfl, ha⟩)
      · rcases (hm _).mp hv with hv | ⟨he, hn⟩
        · exact .inl hv
        · cases he
          exact .inr ⟨hn, [], m, rfl, by simp⟩
      · refine .inr ⟨fun q hq => hn q ((hm q).mpr (.inl hq)), (k0, v0) :: a, b, rfl, ?_⟩
        intro q hq
        rcases List.mem_cons.mp hq with rfl | hq
        · intro he
          simp only at he
          subst he
          by_cases hex : ∀ q ∈ ret, q.1 ≠ v0
          · exact hn (v0, k0) ((hm _).mpr (.inr ⟨rfl, hex⟩)) rfl
          · apply hex
            intro q hq
            exact hn q ((hm q).mpr (.inl hq))
        · exact ha q hq
    · rintro (hv | ⟨hn, a, b, he, ha⟩)
      · exact .inl ((hm _).mpr (.inl hv))
      · cases a with
        | nil =>
          simp only [List.nil_append, List.cons.injEq, Prod.mk.injEq] at he
          obtain ⟨⟨rfl, rfl⟩, rfl⟩ := he
          exact .inl ((hm _).mpr (.inr ⟨rfl, hn⟩))
        | cons c a =>
          simp only [List.cons_append, List.cons.injEq] at he
          obtain ⟨rfl, rfl⟩ := he
          refine .inr ⟨?_, a, b, rfl, fun q hq => ha q (List.mem_cons_of_mem _ hq)⟩
          intro q hq
          rcases (hm q).mp hq with hq | ⟨rfl, _⟩
          · exact hn q hq
          · exact ha (k0, v0) List.mem_cons_self

/-- C66: the result is a map that has exactly the values of `m` as keys, each with the smallest key of `m` that has this value. -/
theorem C66_flip (lt : κ → κ → Bool) (ltv : ν → ν → Bool) (o : StrictTotalOrder lt) (ov : StrictTotalOrder ltv) (m : List (κ × ν)) (hm : IsMap lt m) :
    IsMap ltv (flipMap ltv m) ∧
    ∀ v k, (v, k) ∈ flipMap ltv m ↔ (k, v) ∈ m ∧ ∀ k', (k', v) ∈ m → k' = k ∨ lt k k' = true := by
  obtain ⟨h1, h2⟩ := flip_foldl ov m [] (by simp [IsMap])
  refine ⟨h1, ?_⟩
  intro v k
  unfold flipMap
  rw [h2]
  constructor
  · rintro (h | ⟨_, a, b, rfl, ha⟩)
    · cases h
    · refine ⟨by simp, ?_⟩
      intro k' hk'
      rcases List.mem_append.mp hk' with h | h
      · exact absurd rfl (ha _ h)
      · rcases List.mem_cons.mp h with h | h
        · cases h; exact .inl rfl
        · have := (List.pairwise_append.mp hm).2.1
          exact .inr ((List.pairwise_cons.mp this).1 _ h)
  · rintro ⟨hk, hmin⟩
    obtain ⟨a, b, rfl⟩ := List.append_of_mem hk
    refine .inr ⟨by simp, a, b, rfl, ?_⟩
    rintro ⟨k', v'⟩ hq rfl
    have h1 := (List.pairwise_append.mp hm).2.2 _ hq _ (List.mem_cons_self ..)
    simp only at h1
    rcases hmin k' (by simp [hq]) with rfl | h
    · rw [o.irrefl] at h1; cases h1
    · have := o.trans _ _ _ h1 h
      rw [o.irrefl] at this; cases this

/-- Maps with the same elements are equal. -/
theorem isMap_ext {lt : κ → κ → Bool} (o : StrictTotalOrder lt) {m n : List (κ × ν)} (hm : IsMap lt m) (hn : IsMap lt n) (h : ∀ p, p ∈ m ↔ p ∈ n) :
    m = n := by
  induction m generalizing n with
  | nil =>
    cases n with
    | nil => rfl
    | cons q n => exact absurd ((h q).mpr List.mem_cons_self) (by simp)
  | cons p m ih =>
    cases n with
    | nil => exact absurd ((h p).mp List.mem_cons_self) (by simp)
    | cons q n =>
      have hmc := List.pairwise_cons.mp hm
      have hnc := List.pairwise_cons.mp hn
      have asym : ∀ a b, lt a b = true → lt b a = true → False := by
        intro a b h1 h2; have := o.trans _ _ _ h1 h2; rw [o.irrefl] at this; cases this
      have hpq : p = q := by
        rcases List.mem_cons.mp ((h p).mp List.mem_cons_self) with hp | hp
        · exact hp
        · rcases List.mem_cons.mp ((h q).mpr List.mem_cons_self) with hq | hq
          · exact hq.symm
          · exact absurd (hmc.1 q hq) (fun h1 => asym _ _ h1 (hnc.1 p hp))
      subst hpq
      congr 1
      apply ih hmc.2 hnc.2
      intro r
      constructor
      · intro hr
        rcases List.mem_cons.mp ((h r).mp (List.mem_cons_of_mem _ hr)) with rfl | h'
        · have := hmc.1 r hr; rw [o.irrefl] at this; cases this
        · exact h'
      · intro hr
        rcases List.mem_cons.mp ((h r).mpr (List.mem_cons_of_mem _ hr)) with rfl | h'
        · have := hnc.1 r hr; rw [o.irrefl] at this; cases this
        · exact h'

theorem key_unique {lt : κ → κ → Bool} (o : StrictTotalOrder lt) {m : List (κ × ν)} (hm : IsMap lt m) {k : κ} {v w : ν} (h1 : (k, v) ∈ m) (h2 : (k, w) ∈ m) :
    v = w := by
  induction m with
  | nil => cases h1
  | cons p m ih =>
    have hc := List.pairwise_cons.mp hm
    rcases List.mem_cons.mp h1 with e1 | h1' <;> rcases List.mem_cons.mp h2 with e2 | h2'
    · rw [← e1] at e2; cases e2; rfl
    · have := hc.1 _ h2'; rw [← e1] at this; simp only at this; rw [o.irrefl] at this; cases this
    · have := hc.1 _ h1'; rw [← e2] at this; simp only at this; rw [o.irrefl] at this; cases this
    · exact ih hc.2 h1' h2'

/-- C66: flipping twice gives the map back exactly if no value occurs twice. -/
theorem C66_twice (lt : κ → κ → Bool) (ltv : ν → ν → Bool) (o : StrictTotalOrder lt) (ov : StrictTotalOrder ltv) (m : List (κ × ν)) (hm : IsMap lt m) :
    flipMap lt (flipMap ltv m) = m ↔ ∀ k k' v, (k, v) ∈ m → (k', v) ∈ m → k = k' := by
  obtain ⟨h1, h2⟩ := C66_flip lt ltv o ov m hm
  obtain ⟨h3, h4⟩ := C66_flip ltv lt ov o (flipMap ltv m) h1
  constructor
  · intro he k k' v hk hk'
    have ha : (v, k) ∈ flipMap ltv m := by rw [← he] at hk; exact ((h4 k v).mp hk).1
    have hb : (v, k') ∈ flipMap ltv m := by rw [← he] at hk'; exact ((h4 k' v).mp hk').1
    exact key_unique ov h1 ha hb
  · intro hd
    apply isMap_ext o h3 hm
    rintro ⟨k, v⟩
    rw [h4]
    constructor
    · rintro ⟨ha, _⟩; exact ((h2 v k).mp ha).1
    · intro hk
      refine ⟨(h2 v k).mpr ⟨hk, fun k' hk' => .inl (hd _ _ _ hk' hk)⟩, ?_⟩
      intro v' hv'
      exact .inl (key_unique o hm ((h2 _ _).mp hv').1 hk)

theorem stdFind_le (eq : κ → κ → Bool) (x : κ) (l : List κ) : stdFind eq x l ≤ l.length := by
  induction l with
  | nil => simp [stdFind]
  | cons y l ih => simp only [stdFind, List.length_cons]; split <;> omega

theorem stdFind_ne (eq : κ → κ → Bool) (x : κ) (l : List κ) : stdFind eq x l ≠ l.length ↔ ∃ y ∈ l, eq y x = true := by
  induction l with
  | nil => simp [stdFind]
  | cons y l ih =>
    simp only [stdFind, List.length_cons]
    split
    · rename_i h; simp [h]
    · rename_i h
      rw [Ne, Nat.add_right_cancel_iff, ← Ne, ih]
      simp [h]

/-- C67: containers other than maps: some element equals the value. -/
theorem C67_contains (eq : κ → κ → Bool) (l : List κ) (x : κ) : contains eq l x = true ↔ ∃ y ∈ l, eq y x = true := by
  simp only [contains, bne_iff_ne]
  exact stdFind_ne eq x l

/-- C67: maps: some key is equivalent to the value under the comparator. -/
theorem C67_map_equivalent (lt : κ → κ → Bool) (o : StrictWeakOrder lt) (m : List (κ × ν)) (hm : IsMap lt m) (k : κ) :
    containsMap lt m k = true ↔ ∃ p ∈ m, lt p.1 k = false ∧ lt k p.1 = false := by
  simp only [containsMap, bne_iff_ne]
  induction m with
  | nil => simp [find]
  | cons q m ih =>
    obtain ⟨k', v'⟩ := q
    have hc := List.pairwise_cons.mp hm
    simp only [find, List.length_cons]
    split
    · rename_i h
      rw [Ne, Nat.add_right_cancel_iff, ← Ne, ih hc.2]
      simp [h]
    · split
      · rename_i h1 h2
        simp only [ne_eq, not_true_eq_false, List.mem_cons, exists_eq_or_imp, h2, Bool.true_eq_false, and_false, false_or, false_iff, not_exists, not_and]
        intro p hp _ h3
        have := o.trans _ _ _ h2 (hc.1 p hp)
        rw [this] at h3; cases h3
      · rename_i h1 h2
        simp [h1, h2]

/-- C67: maps with a total order: some key equals the value. -/
theorem C67_map (lt : κ → κ → Bool) (o : StrictTotalOrder lt) (m : List (κ × ν)) (hm : IsMap lt m) (k : κ) :
    containsMap lt m k = true ↔ ∃ v, (k, v) ∈ m := by
  have inc : ∀ a b, lt a b = false → lt b a = false → a = b := by
    intro a b h1 h2; rcases o.total a b with h | h | h <;> simp_all
  have sw : StrictWeakOrder lt := ⟨o.irrefl, o.trans, by
    intro a b c h1 h2 h3 h4
    have := inc a b h1 h2; subst this
    exact ⟨h3, h4⟩⟩
  rw [C67_map_equivalent lt sw m hm]
  constructor
  · rintro ⟨⟨k', v⟩, hp, h1, h2⟩
    have := inc _ _ h1 h2
    simp only at this; subst this
    exact ⟨v, hp⟩
  · rintro ⟨v, hv⟩
    exact ⟨_, hv, o.irrefl k, o.irrefl k⟩

/-- C67: hash maps: some key equals the value. -/
theorem C67_unordered_map (eq : κ → κ → Bool) (m : List (κ × ν)) (k : κ) :
    containsUnordered eq m k = true ↔ ∃ p ∈ m, eq p.1 k = true := by
  simp only [containsUnordered, bne_iff_ne]
  have := stdFind_ne eq k (m.map (·.1))
  rw [List.length_map] at this
  rw [this]
  simp

theorem natLt_total : StrictTotalOrder (fun a b : Nat => decide (a < b)) :=
  ⟨by simp, by simp; omega, by intro a b; simp; omega⟩

/-- A map with a repeated value: the smallest key wins. -/
example : flipMap (fun a b : Nat => decide (a < b)) [(1, 20), (2, 10), (3, 20)] = [(10, 2), (20, 1)] := by decide

example : IsMap (fun a b : Nat => decide (a < b)) [(1, 20), (2, 10), (3, 20)] := by
  simp [IsMap]

example : containsMap (fun a b : Nat => decide (a < b)) [(1, 20), (5, 10)] 5 = true ∧ containsMap (fun a b : Nat => decide (a < b)) [(1, 20), (5, 10)] 4 = false := by
  decide

end Utki
