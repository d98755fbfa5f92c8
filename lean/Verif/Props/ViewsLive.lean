import Verif.Model.ViewsLive
import Verif.Props.Views
/-! # C139: views that are kept -/
namespace Utki
namespace Spec

/-- The body is called for each of the given things, in order; an exception ends this. -/
def bodyForEach {σ ρ : Type} (body : ρ → Meth σ Unit) : List ρ → Meth σ Unit
  | [] => pure ()
  | r :: rs => do
    body r
    bodyForEach body rs

/-- The body does not change the sizes of the collections `ids`. -/
def KeepsSizes {σ ρ : Type} (size : σ → Nat → Nat) (ids : List Nat) (body : ρ → Meth σ Unit) : Prop := ∀ r s, ∀ k ∈ ids, size (body r s).2 k = size s k

end Spec
open Views ViewsLive Spec
variable {σ : Type} {size : σ → Nat → Nat}

theorem look_bind {α β : Type} {f : σ → Res α} {a : α} {s : σ} (h : f s = .ok a) (g : α → Meth σ β) : (look f >>= g) s = g a s := Meth.bind_ok (by rw [look, h])

theorem zipEndAt_ok (n : Nat) (hn : n < 2 ^ 64) (s : σ) : ∀ ids : List Nat, (∀ k ∈ ids, n ≤ size s k) → zipEndAt size n s ids = .ok (ids.map (fun _ => n)) := by
  intro ids
  induction ids with
  | nil => intro _; rfl
  | cons k ks ih =>
    intro h
    obtain ⟨steps, h1, -⟩ := C65_next 64 (size s k) 0 n (by omega) hn (by have := h k (by simp); omega)
    simp [zipEndAt, h1, ih (fun k hk => h k (by simp [hk]))]

theorem zipRefs_ok (i : Nat) (s : σ) : ∀ ids : List Nat, (∀ k ∈ ids, i < size s k) → zipRefs size s ids (ids.map (fun _ => i)) = .ok (ids.map (fun k => (k, i))) := by
  intro ids
  induction ids with
  | nil => intro _; rfl
  | cons k ks ih =>
    intro h
    simp [zipRefs, h k (by simp), ih (fun k hk => h k (by simp [hk]))]

theorem zipInc_ok (i : Nat) (s : σ) : ∀ ids : List Nat, (∀ k ∈ ids, i < size s k) → zipInc size s ids (ids.map (fun _ => i)) = .ok (ids.map (fun _ => i + 1)) := by
  intro ids
  induction ids with
  | nil => intro _; rfl
  | cons k ks ih =>
    intro h
    have h1 : advance 64 (size s k) i 1 = .ok (i + 1) := advance_ok (by omega) (by omega) (by simp) (by have := h k (by simp); omega)
    simp [zipInc, h1, ih (fun k hk => h k (by simp [hk]))]

theorem bind_congr_ok {α β : Type} {m : Meth σ α} {f g : α → Meth σ β} {s : σ} (h : ∀ a s', m s = (.ok a, s') → f a s' = g a s') : (m >>= f) s = (m >>= g) s := by
  rw [Meth.bind_apply, Meth.bind_apply, Meth.bind, Meth.bind]
  split <;> rename_i hm
  · exact h _ _ hm
  all_goals rfl

theorem zipRun_eq (body : List Ref → Meth σ Unit) (ids : List Nat) (hne : ids ≠ []) (n : Nat) (hb : KeepsSizes size ids body) (k : Nat) : ∀ (i fuel : Nat) (s : σ), i + k = n → k ≤ fuel →
    (∀ j ∈ ids, n ≤ size s j) → zipRun size body ids (ids.map (fun _ => n)) fuel (ids.map (fun _ => i)) s = bodyForEach body ((List.range' i k).map fun i => ids.map fun j => (j, i)) s := by
  have hd : ∀ a b : Nat, (ids.map (fun _ => a)).head? = (ids.map (fun _ => b)).head? ↔ a = b := by
    intro a b
    cases ids with
    | nil => exact absurd rfl hne
    | cons x xs => simp
  induction k with
  | zero =>
    intro i fuel s hi _ _
    rw [zipRun.eq_def]; dsimp only; rw [if_pos ((hd i n).mpr (by omega))]; rfl
  | succ k ih =>
    intro i fuel s hi hf hs
    obtain ⟨fuel, rfl⟩ : ∃ m, fuel = m + 1 := ⟨fuel - 1, by omega⟩
    rw [zipRun, if_neg (fun h => by have := (hd i n).mp h; omega)]
    rw [look_bind (f := fun s => zipRefs size s ids _) (zipRefs_ok i s ids (fun j hj => by have := hs j hj; omega)), List.range'_succ, List.map_cons, bodyForEach]
    apply bind_congr_ok
    intro u s' hbs
    have hs' : ∀ j ∈ ids, n ≤ size s' j := fun j hj => by
      have := hb (ids.map fun j => (j, i)) s j hj
      rw [hbs] at this
      simp only at this
      rw [this]; exact hs j hj
    rw [look_bind (f := fun s => zipInc size s ids _) (zipInc_ok i s' ids (fun j hj => by have := hs' j hj; omega))]
    exact ih (i + 1) fuel s' (by omega) (by omega) hs'

/-- C139: a zip view remembers the least of the sizes its collections have when it is made. -/
theorem C139_zip_made (ids : List Nat) (hne : ids ≠ []) (s : σ) :
    ∃ n, zipMake size ids s = (.ok ⟨ids, n⟩, s) ∧ (∀ k ∈ ids, n ≤ size s k) ∧ ∃ k ∈ ids, n = size s k := by
  cases ids with
  | nil => exact absurd rfl hne
  | cons k ks =>
    refine ⟨_, rfl, ?_⟩
    have : ∀ (ks : List Nat) (m : Nat), ks.foldl (fun m j => min m (size s j)) m ≤ m ∧ (∀ j ∈ ks, ks.foldl (fun m j => min m (size s j)) m ≤ size s j) ∧
        (ks.foldl (fun m j => min m (size s j)) m = m ∨ ∃ j ∈ ks, ks.foldl (fun m j => min m (size s j)) m = size s j) := by
      intro ks
      induction ks with
      | nil => intro m; simp
      | cons j ks ih =>
        intro m
        obtain ⟨h1, h2, h3⟩ := ih (min m (size s j))
        simp only [List.foldl_cons]
        refine ⟨by omega, fun x hx => ?_, ?_⟩
        · rcases List.mem_cons.mp hx with rfl | hx
          · omega
          · exact h2 x hx
        · rcases h3 with h3 | ⟨x, hx, h3⟩
          · by_cases hm : m ≤ size s j
            · left; omega
            · right; exact ⟨j, by simp, by omega⟩
          · right; exact ⟨x, by simp [hx], h3⟩
    obtain ⟨h1, h2, h3⟩ := this ks (size s k)
    refine ⟨fun x hx => ?_, ?_⟩
    · rcases List.mem_cons.mp hx with rfl | hx
      · exact h1
      · exact h2 x hx
    · rcases h3 with h3 | ⟨x, hx, h3⟩
      · exact ⟨k, by simp, h3⟩
      · exact ⟨x, by simp [hx], h3⟩

/-- C139: a loop over a zip view, whenever it is made, goes over just as many tuples as the view remembers, provided that all collections still have so many elements: its body is called with
references to the first elements, to the second elements and so on. Elements appended since then are not visited. -/
theorem C139_zip (v : ZipView) (hne : v.ids ≠ []) (hm : v.min < 2 ^ 64) (body : List Ref → Meth σ Unit) (hb : KeepsSizes size v.ids body) (fuel : Nat) (hf : v.min ≤ fuel) (s : σ)
    (hs : ∀ k ∈ v.ids, v.min ≤ size s k) :
    zipFor size v body fuel s = bodyForEach body ((List.range v.min).map fun i => v.ids.map fun k => (k, i)) s := by
  rw [zipFor, look_bind (f := fun s => zipEndAt size v.min s v.ids) (zipEndAt_ok v.min hm s v.ids hs), List.range_eq_range']
  exact zipRun_eq body v.ids hne v.min hb v.min 0 fuel s (by omega) hf hs

/-- C139: if a collection has fewer elements by now it is undefined. -/
theorem C139_zip_shrunk (v : ZipView) (hm : v.min < 2 ^ 64) (body : List Ref → Meth σ Unit) (fuel : Nat) (s : σ) (k : Nat) (hk : k ∈ v.ids) (hs : size s k < v.min) :
    zipFor size v body fuel s = (.ub .bad_iterator, s) := by
  have bad : ∀ ids : List Nat, k ∈ ids → zipEndAt size v.min s ids = .ub .bad_iterator := by
    intro ids
    induction ids with
    | nil => intro h; simp at h
    | cons j js ih =>
      intro h
      rw [zipEndAt]
      by_cases hj : v.min ≤ size s j
      · obtain ⟨steps, h1, -⟩ := C65_next 64 (size s j) 0 v.min (by omega) hm (by omega)
        rw [h1]
        rcases List.mem_cons.mp h with rfl | h
        · omega
        · simp [ih h]
      · have := (C65_outside 64 (size s j) 0 v.min (by omega) hm (by omega)).1 (by omega)
        rw [this]; rfl
  rw [zipFor, Meth.bind_ub (e := .bad_iterator) (s' := s)]
  rw [look, bad v.ids hk]

/-- C139: a loop over `skip_front<n>(c)` goes over the elements the collection has by then but for the first `n`. -/
theorem C139_skip_front (dbg : Bool) (n k : Nat) (hn : n < 2 ^ 64) (body : Ref → Meth σ Unit) (hb : KeepsSizes size [k] body) (s : σ) (hs : n ≤ size s k) (fuel : Nat) (hf : size s k ≤ fuel) :
    skipFor size dbg n k body fuel s = bodyForEach body ((List.range' n (size s k - n)).map fun i => (k, i)) s := by
  have run : ∀ (m i fuel : Nat) (s' : σ), size s' k = size s k → i + m = size s k → m ≤ fuel →
      forwardRun size body k (size s k) fuel i s' = bodyForEach body ((List.range' i m).map fun i => (k, i)) s' := by
    intro m
    induction m with
    | zero => intro i fuel s' _ hi _; rw [forwardRun.eq_def]; dsimp only; rw [if_pos (by omega)]; rfl
    | succ m ih =>
      intro i fuel s' hs' hi hf
      obtain ⟨fuel, rfl⟩ : ∃ m, fuel = m + 1 := ⟨fuel - 1, by omega⟩
      rw [forwardRun, if_neg (by omega)]
      rw [look_bind (f := fun s => if i < size s k then .ok () else .ub .bad_iterator) (a := ()) (if_pos (by omega)), List.range'_succ, List.map_cons, bodyForEach]
      apply bind_congr_ok
      intro u s'' hbs
      have hs'' : size s'' k = size s k := by
        have := hb (k, i) s' k (by simp)
        rw [hbs] at this
        simp only at this
        omega
      rw [look_bind (f := fun s => advance 64 (size s k) i 1) (a := i + 1) (advance_ok (by omega) (by omega) (by simp) (by omega))]
      exact ih (i + 1) fuel s'' hs'' (by omega) (by omega)
  obtain ⟨steps, h1, -⟩ := C65_next 64 (size s k) 0 n (by omega) hn (by omega)
  rw [skipFor, look_bind (f := fun s => ASSERT dbg (decide (n ≤ size s k))) (a := ()) (by simp [ASSERT, hs]), look_bind (f := fun s => next 64 (size s k) 0 n) h1,
    look_bind (f := fun s => .ok (size s k)) rfl]
  simp only [Nat.zero_add]
  exact run (size s k - n) n fuel s rfl (by omega) (by omega)

/-- C139: a loop over `reverse(c)` goes over the elements the collection has by then, the last first. -/
theorem C139_reverse (k : Nat) (body : Ref → Meth σ Unit) (hb : KeepsSizes size [k] body) (s : σ) (fuel : Nat) (hf : size s k ≤ fuel) :
    reverseFor size k body fuel s = bodyForEach body ((List.range (size s k)).reverse.map fun i => (k, i)) s := by
  have run : ∀ (m fuel : Nat) (s' : σ), m ≤ size s' k → m ≤ fuel → backwardRun size body k fuel m s' = bodyForEach body ((List.range m).reverse.map fun i => (k, i)) s' := by
    intro m
    induction m with
    | zero => intro fuel s' _ _; rw [backwardRun.eq_def]; dsimp only; rw [if_pos rfl]; rfl
    | succ m ih =>
      intro fuel s' hs' hf
      obtain ⟨fuel, rfl⟩ : ∃ m, fuel = m + 1 := ⟨fuel - 1, by omega⟩
      have adv : ∀ s'' : σ, m + 1 ≤ size s'' k → advance 64 (size s'' k) (m + 1) (-1) = .ok m := fun s'' h => advance_ok (by omega) (by omega) (by omega) (by omega)
      rw [backwardRun, if_neg (by omega)]
      rw [look_bind (f := fun s => advance 64 (size s k) (m + 1) (-1)) (adv s' hs'), look_bind (f := fun s => if m < size s k then .ok () else .ub .bad_iterator) (a := ()) (if_pos (by omega)), List.range_succ, List.reverse_append, List.reverse_singleton, List.singleton_append, List.map_cons, bodyForEach]
      apply bind_congr_ok
      intro u s'' hbs
      have hs'' : size s'' k = size s' k := by
        have := hb (k, m) s' k (by simp)
        rw [hbs] at this
        exact this
      rw [look_bind (f := fun s => advance 64 (size s k) (m + 1) (-1)) (adv s'' (by omega))]
      exact ih fuel s'' (by omega) (by omega)
  rw [reverseFor, look_bind (f := fun s => .ok (size s k)) rfl]
  exact run (size s k) fuel s (Nat.le_refl _) hf

/-! Collections of numbers, and a body that appends the numbers it is given to the last collection of all. -/
private def exSize (s : List (List Nat)) (k : Nat) : Nat := (s.getD k []).length
private def exNote (r : Ref) : Meth (List (List Nat) × List Nat) Unit := fun s => (.ok (), (s.1, s.2 ++ [(s.1.getD r.1 []).getD r.2 0]))
private def exNotes (rs : List Ref) : Meth (List (List Nat) × List Nat) Unit := fun s => (.ok (), (s.1, s.2 ++ rs.map (fun r => (s.1.getD r.1 []).getD r.2 0)))

/-- A zip view of a collection with itself and of a shorter one, and what a loop over it does after the shorter one has grown. -/
example : zipMake (fun s : List (List Nat) × List Nat => exSize s.1) [0, 0, 1] ([[1, 2, 3], [4, 5]], []) = (.ok ⟨[0, 0, 1], 2⟩, ([[1, 2, 3], [4, 5]], [])) := by decide +kernel

example : zipFor (fun s : List (List Nat) × List Nat => exSize s.1) ⟨[0, 0, 1], 2⟩ exNotes 5 ([[1, 2, 3], [4, 5, 6]], []) = (.ok (), ([[1, 2, 3], [4, 5, 6]], [1, 1, 4, 2, 2, 5])) := by decide +kernel

example : KeepsSizes (fun s : List (List Nat) × List Nat => exSize s.1) [0, 0, 1] exNotes := fun _ _ _ _ => rfl

example : zipFor (fun s : List (List Nat) × List Nat => exSize s.1) ⟨[0, 0, 1], 2⟩ exNotes 5 ([[1, 2, 3], [4]], []) = (.ub .bad_iterator, ([[1, 2, 3], [4]], [])) :=
  C139_zip_shrunk _ (by decide) _ _ _ 1 (by decide) (by decide)

/-- A loop over `skip_front<1>` or `reverse` of a collection of the current size three. -/
example : skipFor (fun s : List (List Nat) × List Nat => exSize s.1) true 1 0 exNote 5 ([[1, 2, 3], [4]], []) = (.ok (), ([[1, 2, 3], [4]], [2, 3])) := by decide +kernel

example : reverseFor (fun s : List (List Nat) × List Nat => exSize s.1) 0 exNote 5 ([[1, 2, 3], [4]], []) = (.ok (), ([[1, 2, 3], [4]], [3, 2, 1])) := by decide +kernel

example : KeepsSizes (fun s : List (List Nat) × List Nat => exSize s.1) [0] exNote := fun _ _ _ _ => rfl

end Utki
