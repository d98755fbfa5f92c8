import Verif.Model.ViewsNodes
import Verif.Props.ViewsLive
import Mathlib.Data.List.Dedup
import Mathlib.Data.List.TakeWhile
/-! # C145: views of lists whose elements come and go during the loop -/
namespace Utki
namespace Spec

/-- Whatever the body does when it is called with an element of the collection `k`, that element and those after it stay what they are. Those before it may be erased, and others inserted there. -/
def KeepsAfter {σ : Type} (nodes : σ → Nat → List Nat) (k : Nat) (body : Nat → Meth σ Unit) : Prop :=
  ∀ s s' u x v, nodes s k = u ++ x :: v → body x s = (.ok (), s') → ∃ u', nodes s' k = u' ++ x :: v

/-- Whatever the body does when it is called with an element of the collection `k`, that element and those before it stay what they are, and so does the one next to it (or that there is none).
Those after that one may be erased, and others inserted there. -/
def KeepsBefore {σ : Type} (nodes : σ → Nat → List Nat) (k : Nat) (body : Nat → Meth σ Unit) : Prop :=
  ∀ s s' u x v, nodes s k = u ++ x :: v → body x s = (.ok (), s') → ∃ v', nodes s' k = u ++ x :: v' ∧ v'.head? = v.head?

/-- The same as `KeepsAfter` for tuples of elements. -/
def KeepsAfterAll {σ : Type} (nodes : σ → Nat → List Nat) (body : List (Nat × Nat) → Meth σ Unit) : Prop :=
  ∀ s s' rs, body rs s = (.ok (), s') → ∀ k x, (k, x) ∈ rs → ∀ u v, nodes s k = u ++ x :: v → ∃ u', nodes s' k = u' ++ x :: v

end Spec
open Spec
open ViewsLive (look)
namespace ViewsNodes
variable {σ : Type} {nodes : σ → Nat → List Nat}

theorem dropWhile_at {u v : List Nat} {x : Nat} (h : (u ++ x :: v).Nodup) : (u ++ x :: v).dropWhile (· != x) = x :: v := by
  induction u with
  | nil => simp
  | cons a u ih =>
    rw [List.cons_append, List.nodup_cons] at h
    have : a ≠ x := fun e => h.1 (by simp [e])
    rw [List.cons_append, List.dropWhile_cons_of_pos (by simpa using this)]
    exact ih h.2

theorem takeWhile_at {u v : List Nat} {x : Nat} (h : (u ++ x :: v).Nodup) : (u ++ x :: v).takeWhile (· != x) = u := by
  induction u with
  | nil => simp
  | cons a u ih =>
    rw [List.cons_append, List.nodup_cons] at h
    have : a ≠ x := fun e => h.1 (by simp [e])
    rw [List.cons_append, List.takeWhile_cons_of_pos (by simpa using this), ih h.2]

theorem after_at {l u v : List Nat} {x : Nat} (hn : l.Nodup) (h : l = u ++ x :: v) : after l x = .ok v.head? := by
  subst h; rw [after, dropWhile_at hn]

theorem before_at {l u v : List Nat} {x : Nat} (hn : l.Nodup) (h : l = u ++ x :: v) : before l v.head? = .ok x := by
  subst h
  cases v with
  | nil => simp [before]
  | cons y v =>
    have h2 : (u ++ x :: y :: v) = (u ++ [x]) ++ y :: v := by simp
    simp only [List.head?_cons, before]
    rw [if_pos (by simp), h2, takeWhile_at (by rw [← h2]; exact hn)]
    simp

theorem same_ok {l : List Nat} {a b : It} (ha : ∀ x ∈ a, x ∈ l) (hb : ∀ x ∈ b, x ∈ l) : same l a b = .ok (decide (a = b)) := if_pos ⟨ha, hb⟩

theorem head_mem {l u v : List Nat} (h : l = u ++ v) : ∀ x ∈ v.head?, x ∈ l := by
  intro x hx; subst h
  exact List.mem_append_right _ (List.mem_of_mem_head? hx)

end ViewsNodes
open ViewsNodes
variable {σ : Type} {nodes : σ → Nat → List Nat}

/-- C145: a loop over `skip_front<n>(c)` visits the elements that were in the collection, but for the first `n`, in order, if its body changes nothing but what is in front of the element it is
called with. -/
theorem C145_skip_front (hn : ∀ s k, (nodes s k).Nodup) (dbg : Bool) (n k : Nat) (body : Nat → Meth σ Unit) (hb : KeepsAfter nodes k body) (s : σ) (hs : n ≤ (nodes s k).length) (fuel : Nat)
    (hf : (nodes s k).length ≤ fuel) : ViewsNodes.skipFor nodes dbg n k body fuel s = bodyForEach body ((nodes s k).drop n) s := by
  have run : ∀ (v u : List Nat) (fuel : Nat) (s : σ), nodes s k = u ++ v → v.length ≤ fuel → ViewsNodes.forwardRun nodes body k fuel v.head? s = bodyForEach body v s := by
    intro v
    induction v with
    | nil =>
      intro u fuel s h _
      rw [ViewsNodes.forwardRun.eq_def]; dsimp only
      rw [look_bind (f := fun s => same (nodes s k) _ none) (same_ok (by simp) (by simp))]
      rfl
    | cons x v ih =>
      intro u fuel s h hf
      obtain ⟨fuel, rfl⟩ : ∃ m, fuel = m + 1 := ⟨fuel - 1, by simp at hf; omega⟩
      rw [ViewsNodes.forwardRun.eq_def]; dsimp only
      rw [look_bind (f := fun s => same (nodes s k) _ none) (same_ok (head_mem h) (by simp))]
      rw [List.head?_cons, if_neg (by simp)]
      have hd : deref (nodes s k) (some x) = .ok x := if_pos (by rw [h]; simp)
      rw [look_bind (f := fun s => deref (nodes s k) _) hd, bodyForEach]
      apply bind_congr_ok
      intro _ s' hbs
      obtain ⟨u', hu'⟩ := hb s s' u x v h hbs
      rw [look_bind (f := fun s => after (nodes s k) x) (after_at (hn s' k) hu')]
      exact ih (u' ++ [x]) fuel s' (by rw [hu']; simp) (by simp at hf; omega)
  have ha : ASSERT dbg (decide (n ≤ (nodes s k).length)) = .ok () := by simp [ASSERT, hs]
  rw [ViewsNodes.skipFor, look_bind (f := fun s => ASSERT dbg (decide (n ≤ (nodes s k).length))) ha, look_bind (f := fun s => nextBegin (nodes s k) n) (if_pos hs)]
  rw [← List.head?_drop]
  exact run _ ((nodes s k).take n) fuel s (List.take_append_drop n _).symm (by simp; omega)

/-- C145: a loop over `reverse(c)` visits the elements that were in the collection, the last first, if its body keeps the element it is called with, those in front of it and the one next to it. -/
theorem C145_reverse (hn : ∀ s k, (nodes s k).Nodup) (k : Nat) (body : Nat → Meth σ Unit) (hb : KeepsBefore nodes k body) (s : σ) (fuel : Nat) (hf : (nodes s k).length ≤ fuel) :
    ViewsNodes.reverseFor nodes k body fuel s = bodyForEach body (nodes s k).reverse s := by
  have run : ∀ (r v : List Nat) (e : It) (fuel : Nat) (s : σ), nodes s k = r.reverse ++ v → e = (nodes s k).head? → r.length ≤ fuel →
      ViewsNodes.backwardRun nodes body k e fuel v.head? s = bodyForEach body r s := by
    intro r
    induction r with
    | nil =>
      intro v e fuel s h he _
      rw [ViewsNodes.backwardRun.eq_def]; dsimp only
      rw [look_bind (f := fun s => same (nodes s k) _ e) (same_ok (head_mem h) (by rw [he]; exact head_mem (u := []) rfl))]
      rw [if_pos (by rw [he, h]; simp)]; rfl
    | cons x r ih =>
      intro v e fuel s h he hf
      obtain ⟨fuel, rfl⟩ : ∃ m, fuel = m + 1 := ⟨fuel - 1, by simp at hf; omega⟩
      have h' : nodes s k = r.reverse ++ x :: v := by rw [h]; simp
      have hne : v.head? ≠ e := by
        rw [he, h']
        have := hn s k
        rw [h'] at this
        intro hc
        cases hr : r.reverse with
        | nil =>
          rw [hr] at this hc
          simp only [List.nil_append, List.head?_cons] at hc
          have hm := List.mem_of_mem_head? (Option.mem_def.mpr hc)
          exact (List.nodup_cons.mp this).1 hm
        | cons a t =>
          rw [hr] at this hc
          simp only [List.cons_append, List.head?_cons] at hc
          have hm := List.mem_of_mem_head? (Option.mem_def.mpr hc)
          exact (List.nodup_cons.mp this).1 (by simp [hm])
      rw [ViewsNodes.backwardRun.eq_def]; dsimp only
      rw [look_bind (f := fun s => same (nodes s k) _ e) (same_ok (head_mem h) (by rw [he]; exact head_mem (u := []) rfl))]
      rw [if_neg (by simpa using hne)]
      rw [look_bind (f := fun s => before (nodes s k) _) (before_at (hn s k) h'), bodyForEach]
      apply bind_congr_ok
      intro _ s' hbs
      obtain ⟨v', hv', hh⟩ := hb s s' _ x v h' hbs
      rw [← hh, look_bind (f := fun s => before (nodes s k) _) (before_at (hn s' k) hv')]
      refine ih (x :: v') e fuel s' hv' ?_ (by simp at hf; omega)
      rw [he, h', hv']
      cases r.reverse <;> simp
  rw [ViewsNodes.reverseFor, look_bind (f := fun s => .ok (nodes s k).head?) rfl]
  exact run (nodes s k).reverse [] _ fuel s (by simp) rfl (by simpa using hf)

theorem drop_at {l : List Nat} {i : Nat} (h : i < l.length) : l.drop i = l.getD i 0 :: l.drop (i + 1) := by
  rw [List.drop_eq_getElem_cons h]; simp [h]

theorem deref_at {l l' u v : List Nat} {i : Nat} (hl : i < l.length) (hu : l' = u ++ l.getD i 0 :: v) : deref l' l[i]? = .ok (l.getD i 0) := by
  have h : l[i]? = some (l.getD i 0) := by rw [List.getElem?_eq_getElem hl]; simp [hl]
  rw [h]
  exact if_pos (by rw [hu]; simp)

/-- C145: a loop over a zip view visits just as many tuples as the view remembers: of the elements that were first in their collections, then second and so on, if its body changes nothing but what
is in front of the elements it is called with. -/
theorem C145_zip (hn : ∀ s k, (nodes s k).Nodup) (ids : List Nat) (hne : ids ≠ []) (n : Nat) (body : List (Nat × Nat) → Meth σ Unit) (hb : KeepsAfterAll nodes body) (s : σ)
    (hs : ∀ k ∈ ids, n ≤ (nodes s k).length) (fuel : Nat) (hf : n ≤ fuel) :
    ViewsNodes.zipFor nodes ids n body fuel s = bodyForEach body ((List.range n).map fun i => ids.map fun k => (k, (nodes s k).getD i 0)) s := by
  have refs : ∀ (i : Nat) (s' : σ) (ids : List Nat), (∀ k ∈ ids, i < (nodes s k).length ∧ ∃ u, nodes s' k = u ++ (nodes s k).drop i) →
      ViewsNodes.zipRefs nodes s' ids (ids.map fun k => (nodes s k)[i]?) = .ok (ids.map fun k => (k, (nodes s k).getD i 0)) := by
    intro i s' ids
    induction ids with
    | nil => intro _; rfl
    | cons k ks ih =>
      intro h
      obtain ⟨hl, u, hu⟩ := h k (by simp)
      rw [drop_at hl] at hu
      rw [List.map_cons, ViewsNodes.zipRefs, deref_at hl hu, ih (fun k hk => h k (by simp [hk]))]
      rfl
  have inc : ∀ (i : Nat) (s' : σ) (ids : List Nat), (∀ k ∈ ids, i < (nodes s k).length ∧ ∃ u, nodes s' k = u ++ (nodes s k).drop i) →
      ViewsNodes.zipInc nodes s' ids (ids.map fun k => (nodes s k)[i]?) = .ok (ids.map fun k => (nodes s k)[i + 1]?) := by
    intro i s' ids
    induction ids with
    | nil => intro _; rfl
    | cons k ks ih =>
      intro h
      obtain ⟨hl, u, hu⟩ := h k (by simp)
      rw [drop_at hl] at hu
      have ha := after_at (hn s' k) hu
      rw [List.head?_drop] at ha
      rw [List.map_cons, ViewsNodes.zipInc, deref_at hl hu, ih (fun k hk => h k (by simp [hk]))]
      show (do let i' ← after (nodes s' k) ((nodes s k).getD i 0); _ : Res _) = _
      rw [ha]; rfl
  have ends : ∀ ids : List Nat, (∀ k ∈ ids, n ≤ (nodes s k).length) → ViewsNodes.zipEndAt nodes n s ids = .ok (ids.map fun k => (nodes s k)[n]?) := by
    intro ids
    induction ids with
    | nil => intro _; rfl
    | cons k ks ih =>
      intro h
      simp [ViewsNodes.zipEndAt, nextBegin, h k (by simp), ih (fun k hk => h k (by simp [hk]))]
  have cmp : ∀ (i : Nat) (s' : σ), i ≤ n → (∀ k ∈ ids, ∃ u, nodes s' k = u ++ (nodes s k).drop i) →
      ViewsNodes.zipSame nodes s' ids (ids.map fun k => (nodes s k)[i]?) (ids.map fun k => (nodes s k)[n]?) = .ok (decide (i = n)) := by
    intro i s' hi h
    cases ids with
    | nil => exact absurd rfl hne
    | cons k ks =>
      obtain ⟨u, hu⟩ := h k (by simp)
      have hl := hs k (by simp)
      simp only [List.map_cons, ViewsNodes.zipSame]
      rw [same_ok]
      · congr 1
        by_cases he : i = n
        · simp [he]
        · have hlt : i < (nodes s k).length := by omega
          have : (nodes s k)[i]? ≠ (nodes s k)[n]? := fun hc => he ((List.getElem?_inj hlt (hn s k)).mp hc)
          simp [he, this]
      · rw [← List.head?_drop]; exact head_mem hu
      · rw [← List.head?_drop]
        refine head_mem (u := u ++ ((nodes s k).drop i).take (n - i)) ?_
        rw [List.append_assoc, hu]
        have hd := List.take_append_drop (n - i) ((nodes s k).drop i)
        rw [List.drop_drop, show i + (n - i) = n by omega] at hd
        rw [hd]
  have run : ∀ (m i fuel : Nat) (s' : σ), i + m = n → m ≤ fuel → (∀ k ∈ ids, ∃ u, nodes s' k = u ++ (nodes s k).drop i) →
      ViewsNodes.zipRun nodes body ids (ids.map fun k => (nodes s k)[n]?) fuel (ids.map fun k => (nodes s k)[i]?) s' =
        bodyForEach body ((List.range' i m).map fun i => ids.map fun k => (k, (nodes s k).getD i 0)) s' := by
    intro m
    induction m with
    | zero =>
      intro i fuel s' hi _ h
      rw [ViewsNodes.zipRun.eq_def]; dsimp only
      rw [look_bind (f := fun s' => ViewsNodes.zipSame nodes s' ids _ _) (cmp i s' (by omega) h), if_pos (by simp; omega)]
      rfl
    | succ m ih =>
      intro i fuel s' hi hf h
      obtain ⟨fuel, rfl⟩ : ∃ m, fuel = m + 1 := ⟨fuel - 1, by omega⟩
      have h2 : ∀ k ∈ ids, i < (nodes s k).length ∧ ∃ u, nodes s' k = u ++ (nodes s k).drop i := fun k hk => ⟨by have := hs k hk; omega, h k hk⟩
      rw [ViewsNodes.zipRun.eq_def]; dsimp only
      rw [look_bind (f := fun s' => ViewsNodes.zipSame nodes s' ids _ _) (cmp i s' (by omega) h), if_neg (by simp; omega)]
      rw [look_bind (f := fun s' => ViewsNodes.zipRefs nodes s' ids _) (refs i s' ids h2), List.range'_succ, List.map_cons, bodyForEach]
      apply bind_congr_ok
      intro _ s'' hbs
      have h3 : ∀ k ∈ ids, ∃ u, nodes s'' k = u ++ (nodes s k).drop i := fun k hk => by
        obtain ⟨hl, u, hu⟩ := h2 k hk
        rw [drop_at hl] at hu
        obtain ⟨u', hu'⟩ := hb s' s'' _ hbs k _ (List.mem_map.mpr ⟨k, hk, rfl⟩) u _ hu
        exact ⟨u', by rw [hu', ← drop_at hl]⟩
      rw [look_bind (f := fun s' => ViewsNodes.zipInc nodes s' ids _) (inc i s'' ids fun k hk => ⟨(h2 k hk).1, h3 k hk⟩)]
      refine ih (i + 1) fuel s'' (by omega) (by omega) fun k hk => ?_
      obtain ⟨u, hu⟩ := h3 k hk
      rw [drop_at (h2 k hk).1] at hu
      exact ⟨u ++ [(nodes s k).getD i 0], by rw [hu]; simp⟩
  have hbeg : (ids.map fun k => (nodes s k).head?) = ids.map fun k => (nodes s k)[0]? := by simp [List.head?_eq_getElem?]
  rw [ViewsNodes.zipFor, look_bind (f := fun s => .ok (ids.map (fun k => (nodes s k).head?))) rfl, look_bind (f := fun s => ViewsNodes.zipEndAt nodes n s ids) (ends ids hs), hbeg, List.range_eq_range']
  exact run n 0 fuel s (by omega) hf fun k _ => ⟨[], by simp⟩

/-- C145: a body that erases the very element it is called with makes a loop over `skip_front<n>(c)` undefined, right after that. -/
theorem C145_skip_front_erased (dbg : Bool) (n k x : Nat) (body : Nat → Meth σ Unit) (s s' : σ) (hx : (nodes s k)[n]? = some x) (hb : body x s = (.ok (), s')) (he : x ∉ nodes s' k) (fuel : Nat)
    (hf : 0 < fuel) : ViewsNodes.skipFor nodes dbg n k body fuel s = (.ub .bad_iterator, s') := by
  obtain ⟨fuel, rfl⟩ : ∃ m, fuel = m + 1 := ⟨fuel - 1, by omega⟩
  obtain ⟨hl, hx'⟩ := List.getElem?_eq_some_iff.mp hx
  have hm : x ∈ nodes s k := hx' ▸ List.getElem_mem hl
  have ha : ASSERT dbg (decide (n ≤ (nodes s k).length)) = .ok () := by simp [ASSERT]; omega
  rw [ViewsNodes.skipFor, look_bind (f := fun s => ASSERT dbg (decide (n ≤ (nodes s k).length))) ha, look_bind (f := fun s => nextBegin (nodes s k) n) (if_pos (by omega)), hx]
  rw [ViewsNodes.forwardRun.eq_def]; dsimp only
  rw [look_bind (f := fun s => same (nodes s k) _ none) (same_ok (by simpa using hm) (by simp)), if_neg (by simp)]
  have hd : deref (nodes s k) (some x) = .ok x := if_pos hm
  rw [look_bind (f := fun s => deref (nodes s k) _) hd, Meth.bind_ok hb]
  have hu : after (nodes s' k) x = .ub .bad_iterator := by
    have : (nodes s' k).dropWhile (· != x) = [] := by
      rw [List.dropWhile_eq_nil_iff]
      intro y hy
      have : y ≠ x := fun e => he (e ▸ hy)
      simpa using this
    rw [after, this]
  rw [Meth.bind_apply, Meth.bind, look, hu]

/-- C145: a loop over `reverse(c)` whose body erases the last element, when called with it, goes on with the element before the last but one: the last but one is not visited. -/
theorem C145_reverse_erased (hn : ∀ s k, (nodes s k).Nodup) (k x y z : Nat) (u : List Nat) (body : Nat → Meth σ Unit) (s s' : σ) (hs : nodes s k = u ++ [z, y, x]) (hb : body x s = (.ok (), s'))
    (he : nodes s' k = u ++ [z, y]) (fuel : Nat) (hf : 2 ≤ fuel) :
    ∃ rest : Meth σ Unit, ViewsNodes.reverseFor nodes k body fuel s = (do body z; rest) s' := by
  obtain ⟨fuel, rfl⟩ : ∃ m, fuel = m + 2 := ⟨fuel - 2, by omega⟩
  have hN := hn s k
  have hN' := hn s' k
  rw [hs] at hN; rw [he] at hN'
  have hh : (nodes s k).head? = some ((u ++ [z]).head (by simp)) := by rw [hs]; cases u <;> simp
  have hy : y ∉ u ++ [z] := by
    have : (u ++ [z, y]) = (u ++ [z]) ++ [y] := by simp
    rw [this, List.nodup_append] at hN'
    intro hc; exact hN'.2.2 y hc y (by simp) rfl
  have h1 : before (nodes s k) none = .ok x := before_at (v := []) (hn s k) (u := u ++ [z, y]) (by rw [hs]; simp)
  have h2 : before (nodes s' k) none = .ok y := before_at (v := []) (hn s' k) (u := u ++ [z]) (by rw [he]; simp)
  have h3 : before (nodes s' k) (some y) = .ok z := before_at (v := [y]) (hn s' k) (u := u) he
  have hmem : (u ++ [z]).head (by simp) ∈ u ++ [z] := List.head_mem _
  have hmem' : (u ++ [z]).head (by simp) ∈ nodes s' k := by
    rw [he]
    have : (u ++ [z, y]) = (u ++ [z]) ++ [y] := by simp
    rw [this]; exact List.mem_append_left _ hmem
  refine ⟨do
    let b' ← look (fun s => before (nodes s k) (some y))
    ViewsNodes.backwardRun nodes body k (some ((u ++ [z]).head (by simp))) fuel (some b'), ?_⟩
  rw [ViewsNodes.reverseFor, look_bind (f := fun s => .ok (nodes s k).head?) rfl, ViewsNodes.backwardRun.eq_def]; dsimp only
  rw [look_bind (f := fun s => same (nodes s k) none _) (same_ok (by simp) (head_mem (u := []) rfl)), hh, if_neg (by simp)]
  rw [look_bind (f := fun s => before (nodes s k) _) h1, Meth.bind_ok hb, look_bind (f := fun s => before (nodes s k) _) h2]
  rw [ViewsNodes.backwardRun.eq_def]; dsimp only
  rw [look_bind (f := fun s => same (nodes s k) (some y) _) (same_ok (by rw [he]; simp) (by simpa using hmem')), if_neg (by
    simp only [decide_eq_true_eq, Option.some.injEq]
    intro hc; exact hy (hc ▸ hmem))]
  rw [look_bind (f := fun s => before (nodes s k) _) h3]

/-! Collections and a log; a body that notes the element and erases it. -/
private def nx (s : List (List Nat) × List Nat) (k : Nat) : List Nat := (s.1.getD k []).dedup
private def exErase (x : Nat) : Meth (List (List Nat) × List Nat) Unit := fun s => (.ok (), (s.1.map (·.filter (· != x)), s.2 ++ [x]))
/-- Notes the element and erases everything in front of the element. -/
private def exClean (x : Nat) : Meth (List (List Nat) × List Nat) Unit := fun s => (.ok (), (s.1.map (·.dropWhile (· != x)), s.2 ++ [x]))

example : ∀ s k, (nx s k).Nodup := fun _ _ => List.nodup_dedup _

example : ViewsNodes.skipFor nx true 1 0 exClean 5 ([[1, 2, 3, 4]], []) = (.ok (), ([[4]], [2, 3, 4])) := by decide +kernel
example : ViewsNodes.skipFor nx true 1 0 exErase 5 ([[1, 2, 3, 4]], []) = (.ub .bad_iterator, ([[1, 3, 4]], [2])) :=
  C145_skip_front_erased true 1 0 2 exErase _ _ (by decide +kernel) rfl (by decide +kernel) 5 (by decide)

/-- Every second element is visited and erased. -/
example : ViewsNodes.reverseFor nx 0 exErase 5 ([[1, 2, 3, 4]], []) = (.ok (), ([[1, 3]], [4, 2])) := by decide +kernel
/-- If the number is odd it is undefined in the end. -/
example : ViewsNodes.reverseFor nx 0 exErase 5 ([[1, 2, 3]], []) = (.ub .bad_iterator, ([[2]], [3, 1])) := by decide +kernel

/-- Notes the element and inserts a new one after the one it is called with, up to three elements altogether. -/
private def exGrow (x : Nat) : Meth (List (List Nat) × List Nat) Unit := fun s =>
  (.ok (), (s.1.map (fun l => if l.length < 3 then l.flatMap (fun y => if y = x then [y, y + 10] else [y]) else l), s.2 ++ [x]))

/-- An element inserted after the current one is visited by a forward loop; a backward loop visits the current one again. -/
example : ViewsNodes.skipFor nx true 0 0 exGrow 9 ([[1, 2]], []) = (.ok (), ([[1, 11, 2]], [1, 11, 2])) := by decide +kernel
example : ViewsNodes.reverseFor nx 0 exGrow 9 ([[1, 2]], []) = (.ok (), ([[1, 2, 12]], [2, 2, 1])) := by decide +kernel
/-- If the first element is erased before it is reached this is undefined. -/
example : ViewsNodes.reverseFor nx 0 exClean 9 ([[1, 2]], []) = (.ub .bad_iterator, ([[2]], [2])) := by decide +kernel

private def exClean2 (rs : List (Nat × Nat)) : Meth (List (List Nat) × List Nat) Unit := fun s =>
  (.ok (), (s.1.map (fun l => l.dropWhile (fun y => !rs.any (·.2 == y))), s.2 ++ rs.map (·.2)))
example : ViewsNodes.zipFor nx [0, 1] 2 exClean2 5 ([[1, 2, 3], [4, 5]], []) = (.ok (), ([[2, 3], [5]], [1, 4, 2, 5])) := by decide +kernel

/-! Bodies that meet the conditions: the state is a list of elements without repetitions. -/
private abbrev NL := {l : List Nat // l.Nodup}
private def nl (s : NL) (_ : Nat) : List Nat := s.1
/-- Erases what is in front of the element. -/
private def exFront (x : Nat) : Meth NL Unit := fun s => (.ok (), ⟨s.1.dropWhile (· != x), s.2.sublist (List.dropWhile_sublist _)⟩)
/-- Erases what is after the element next to it. -/
private def exBack (x : Nat) : Meth NL Unit := fun s => (.ok (), ⟨s.1.take (s.1.idxOf x + 2), s.2.sublist (List.take_sublist _ _)⟩)

example : ∀ s k, (nl s k).Nodup := fun s _ => s.2

example : KeepsAfter nl 0 exFront := by
  intro s s' u x v h hb
  have hs : (⟨s.1.dropWhile (· != x), s.2.sublist (List.dropWhile_sublist _)⟩ : NL) = s' := congrArg Prod.snd hb
  refine ⟨[], ?_⟩
  rw [← hs]
  have h' : s.1 = u ++ x :: v := h
  show s.1.dropWhile (· != x) = _
  rw [h', dropWhile_at (h' ▸ s.2)]; rfl

example : KeepsBefore nl 0 exBack := by
  intro s s' u x v h hb
  have hs : (⟨s.1.take (s.1.idxOf x + 2), s.2.sublist (List.take_sublist _ _)⟩ : NL) = s' := congrArg Prod.snd hb
  have h' : s.1 = u ++ x :: v := h
  have hx : x ∉ u := by
    have := s.2
    rw [h', List.nodup_append] at this
    intro hc; exact this.2.2 x hc x (by simp) rfl
  refine ⟨v.take 1, ?_, by cases v <;> simp⟩
  rw [← hs]
  show s.1.take (s.1.idxOf x + 2) = _
  rw [h', List.idxOf_append_of_notMem hx, List.idxOf_cons_self, Nat.add_zero, List.take_length_add_append]
  rfl

example : (ViewsNodes.skipFor nl true 1 0 exFront 5 ⟨[1, 2, 3], by decide⟩).2.1 = [3] := by decide +kernel
example : (ViewsNodes.reverseFor nl 0 exBack 5 ⟨[1, 2, 3], by decide⟩).2.1 = [1, 2] := by decide +kernel

/-- The last element is erased, and the last but one is not visited. -/
example : ∃ rest : Meth (List (List Nat) × List Nat) Unit, ViewsNodes.reverseFor nx 0 exErase 5 ([[7, 3, 2, 1]], []) = (do exErase 3; rest) ([[7, 3, 2]], [1]) :=
  C145_reverse_erased (fun _ _ => List.nodup_dedup _) 0 1 2 3 [7] exErase _ _ (by decide +kernel) rfl (by decide +kernel) 5 (by decide)

end Utki
