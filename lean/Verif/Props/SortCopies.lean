import Verif.Lemmas.SortCopies
import Verif.Spec.Order
/-!
# Properties of `utki::sort` with elements that throw, and of the number of copies (C134)

The sorted range is `seg` inside the memory block `pre ++ seg ++ post`; `L` objects made by others are counted in `live` before.
-/
namespace Utki
open Spec

namespace QSortX
variable {α σ : Type}

theorem negTrans {lt : α → α → Bool} (h : StrictWeakOrder lt) : ∀ a b c, lt a c = true → lt a b = true ∨ lt b c = true := by
  intro a b c hac
  cases h1 : lt a b with
  | true => exact .inl rfl
  | false =>
    cases h2 : lt b c with
    | true => exact .inr rfl
    | false =>
      exfalso
      cases h3 : lt b a with
      | true => rw [h.trans b a c h3 hac] at h2; cases h2
      | false =>
        cases h4 : lt c b with
        | true => rw [h.trans a c b hac h4] at h1; cases h1
        | false => rw [(h.incomparable a b c h1 h3 h2 h4).1] at hac; cases hac

theorem sat_of_rt {β : Type} {f : Meth σ β} {s : σ} {Q : β → σ → Prop} {A : Res Unit → σ → Prop} (h : ReturnsOrThrows f)
    (h1 : ∀ b, (f s).1 = .ok b → Q b (f s).2) (h2 : ∀ e, (f s).1 = .throw e → A (.throw e) (f s).2) : Sat f s Q A := by
  unfold Sat
  rcases h s with ⟨b, hb⟩ | ⟨e, he⟩
  · rw [hb]; exact h1 b hb
  · rw [he]; exact h2 e he

end QSortX
open QSortX

/-- C134: whatever comparisons, copies and moves of the elements do, and whichever of them throws: `sort` returns, or the exception thrown leaves it (or, with a
comparator that says an element is less than itself, it goes on forever); all objects that `sort` made are destroyed; nothing outside of the range is touched, no element
moved from is looked at; and all the elements are still in the range. Only if an assignment of elements threw, one of them may be lost. -/
theorem C134_exceptions {α σ : Type} (ops : Ops α σ) (hops : WellBehaved ops) (pre post : List (Option α)) (seg : List α) (env : σ) (L cp mv fuel : Nat) :
    let out := QSortX.sort ops fuel pre.length (pre.length + seg.length) ⟨pre ++ seg.map some ++ post, env, L, cp, mv⟩
    (out.1 = .ok () ∨ (∃ e, out.1 = .throw e ∧ ThrownBy ops e) ∨
      out.1 = .diverge ∧ ¬ ((∀ x s, (ops.less x x s).1 ≠ .ok true) ∧ seg.length < fuel)) ∧
    (out.1 ≠ .diverge → out.2.live = L) ∧
    ∃ seg', out.2.mem = pre ++ seg' ++ post ∧
      (AllThere seg' seg ∨ (∃ e x s, out.1 = .throw e ∧ (ops.assign x s).1 = .throw e) ∧ OneLost seg' seg) := by
  intro out
  let G : Prop := (∀ x s, (ops.less x x s).1 ≠ .ok true) ∧ seg.length < fuel
  let Bad : Res Unit → Prop := fun r => (∃ e, r = .throw e ∧ ThrownBy ops e) ∨ r = .diverge ∧ ¬ G
  let MB : Res Unit → Prop := fun r => ∃ e x s, r = .throw e ∧ (ops.assign x s).1 = .throw e
  have hk : Known ops False (fun _ _ => True) (∀ x s, (ops.less x x s).1 ≠ .ok true) Bad MB := by
    refine ⟨fun x y s => sat_of_rt (hops.less x y) ?_ ?_, fun x s => sat_of_rt (hops.copy x) ?_ ?_, fun s => sat_of_rt hops.copyCmp ?_ ?_,
      fun x s => sat_of_rt (hops.move x) ?_ ?_, fun x s => sat_of_rt (hops.assign x) ?_ ?_⟩
    · intro b hb
      refine ⟨fun h => ⟨False.elim, fun hi he => ?_⟩, fun _ => False.elim⟩
      subst he; subst h; exact hi x s hb
    · exact fun e he => .inl ⟨e, rfl, .inl ⟨x, y, s, he⟩⟩
    · exact fun _ _ => trivial
    · exact fun e he => .inl ⟨e, rfl, .inr (.inl ⟨x, s, he⟩)⟩
    · exact fun _ _ => trivial
    · exact fun e he => .inl ⟨e, rfl, .inr (.inr (.inl ⟨s, he⟩))⟩
    · exact fun _ _ => trivial
    · exact fun e he => .inl ⟨e, rfl, .inr (.inr (.inr (.inl ⟨x, s, he⟩)))⟩
    · exact fun _ _ => trivial
    · exact fun e he => ⟨.inl ⟨e, rfl, .inr (.inr (.inr (.inr ⟨x, s, he⟩)))⟩, e, x, s, rfl, he⟩
  have hI : (∀ x s, (ops.less x x s).1 ≠ .ok true) ∨ Bad .diverge := by
    by_cases h : ∀ x s, (ops.less x x s).1 ≠ .ok true
    · exact .inl h
    · exact .inr (.inr ⟨rfl, fun hg => h hg.1⟩)
  have hF : seg.length < fuel ∨ Bad .diverge := by
    by_cases h : seg.length < fuel
    · exact .inl h
    · exact .inr (.inr ⟨rfl, fun hg => h hg.2⟩)
  have key : Sat (QSortX.sort ops fuel pre.length (pre.length + seg.length)) ⟨pre ++ seg.map some ++ post, env, L, cp, mv⟩ _ _ :=
    copyCmp_sat hk (fun r h => left_same h) (fun e' => quick_sort_sat hk hI False.elim False.elim fuel pre.length (pre.length + seg.length)
      pre post seg e' L cp mv hF rfl rfl)
  have herase : ∀ r : Res Unit, r.erase = r := by intro r; cases r <;> rfl
  rcases key.out with ⟨a, h1, seg', k, w, e', h2, h3, -⟩ | ⟨-, h1, h2, seg', h3, h4⟩
  · refine ⟨.inl h1, fun _ => by show (QSortX.sort _ _ _ _ _).2.live = L; rw [h2], seg'.map some, by show (QSortX.sort _ _ _ _ _).2.mem = _; rw [h2], .inl (h3.map some)⟩
  · rw [herase] at h1 h2 h4
    refine ⟨.inr h2, fun hd => ?_, seg', h3, h4⟩
    rcases h2 with ⟨e, he, -⟩ | ⟨he, -⟩
    · exact h1 e he
    · exact absurd he hd

/-- C134: one element can be lost: an exception thrown while an element is assigned to another, as in the exchange of two elements, loses the one in the temporary. -/
theorem C134_can_lose : ∃ (ops : Ops Nat Nat), WellBehaved ops ∧
    let out := QSortX.sort ops 3 0 2 ⟨[some 2, some 1], 0, 0, 0, 0⟩
    out.1 = .throw .bad_alloc ∧ out.2.mem = [some 2, none] := by
  refine ⟨⟨fun a b s => (.ok (decide (a < b)), s), fun _ s => (.ok (), s), fun s => (.ok (), s), fun _ s => (.ok (), s), fun _ s => (.throw .bad_alloc, s)⟩,
    ⟨fun _ _ s => .inl ⟨_, rfl⟩, fun _ s => .inl ⟨_, rfl⟩, fun s => .inl ⟨_, rfl⟩, fun _ s => .inl ⟨_, rfl⟩, fun _ s => .inr ⟨_, rfl⟩⟩, ?_⟩
  constructor <;> decide +kernel

/-- C134: if the comparisons that return answer as a strict weak order, and `sort` returns, the range is sorted, whatever else the code of the elements does. -/
theorem C134_sorted {α σ : Type} (ops : Ops α σ) (hops : WellBehaved ops) (lt : α → α → Bool) (hlt : StrictWeakOrder lt)
    (hless : ∀ x y s b, (ops.less x y s).1 = .ok b → b = lt x y) (pre post : List (Option α)) (seg : List α) (env : σ) (L cp mv fuel : Nat)
    (hok : (QSortX.sort ops fuel pre.length (pre.length + seg.length) ⟨pre ++ seg.map some ++ post, env, L, cp, mv⟩).1 = .ok ()) :
    ∃ sorted, (QSortX.sort ops fuel pre.length (pre.length + seg.length) ⟨pre ++ seg.map some ++ post, env, L, cp, mv⟩).2.mem =
      pre ++ sorted.map some ++ post ∧ sorted.Perm seg ∧ Sorted lt sorted := by
  have hk : Known ops True (fun x y => lt x y = true) True (fun _ => True) (fun _ => True) := by
    refine ⟨fun x y s => sat_of_rt (hops.less x y) ?_ ?_, fun x s => sat_of_rt (hops.copy x) ?_ ?_, fun s => sat_of_rt hops.copyCmp ?_ ?_,
      fun x s => sat_of_rt (hops.move x) ?_ ?_, fun x s => sat_of_rt (hops.assign x) ?_ ?_⟩
    · intro b hb
      have := hless x y s b hb
      refine ⟨fun h => ⟨fun _ => this ▸ h, fun _ he => ?_⟩, fun h _ => by rw [← this, h]; simp⟩
      subst he; rw [hlt.irrefl] at this; rw [this] at h; cases h
    · exact fun _ _ => trivial
    · exact fun _ _ => trivial
    · exact fun _ _ => trivial
    · exact fun _ _ => trivial
    · exact fun _ _ => trivial
    · exact fun _ _ => trivial
    · exact fun _ _ => trivial
    · exact fun _ _ => trivial
    · exact fun _ _ => ⟨trivial, trivial⟩
  have key : Sat (QSortX.sort ops fuel pre.length (pre.length + seg.length)) ⟨pre ++ seg.map some ++ post, env, L, cp, mv⟩ _ _ :=
    copyCmp_sat hk (fun r h => left_same h) (fun e' => quick_sort_sat hk (.inl trivial) (fun _ => hlt.trans) (fun _ => negTrans hlt) fuel pre.length
      (pre.length + seg.length) pre post seg e' L cp mv (.inr trivial) rfl rfl)
  rcases key.out with ⟨a, h1, seg', k, w, e', h2, h3, h4, -⟩ | ⟨h1, -⟩
  · exact ⟨seg', by rw [h2], h3, (h4 trivial).imp (fun hab => by simpa using hab)⟩
  · exact absurd hok (h1 ())

/-- C134: if nothing throws and the comparator never says that an element is less than itself, then sorting `n` elements copies elements a multiple of five times, at
most `5 (n - 1)` times, but five times at least if `n ≥ 2`, and moves elements a multiple of three times, at most `3 n (n - 1) / 2` times. -/
theorem C134_copies {α σ : Type} (ops : Ops α σ) (hless : ∀ x y, AlwaysReturns (ops.less x y)) (hcopy : ∀ x, AlwaysReturns (ops.copy x))
    (hcmp : AlwaysReturns ops.copyCmp) (hmove : ∀ x, AlwaysReturns (ops.move x)) (hassign : ∀ x, AlwaysReturns (ops.assign x))
    (hirr : ∀ x s, (ops.less x x s).1 ≠ .ok true) (pre post : List (Option α)) (seg : List α) (env : σ) (L fuel : Nat) (hf : seg.length < fuel) :
    let out := QSortX.sort ops fuel pre.length (pre.length + seg.length) ⟨pre ++ seg.map some ++ post, env, L, 0, 0⟩
    out.1 = .ok () ∧ out.2.live = L ∧ (∃ calls, out.2.copies = 5 * calls ∧ calls ≤ seg.length - 1 ∧ (2 ≤ seg.length → 1 ≤ calls)) ∧
      ∃ swaps, out.2.moves = 3 * swaps ∧ 2 * swaps ≤ seg.length * (seg.length - 1) := by
  have rt : ∀ {β : Type} {f : Meth σ β}, AlwaysReturns f → ∀ s (Q : β → σ → Prop) (A : Res Unit → σ → Prop), (∀ b, (f s).1 = .ok b → Q b (f s).2) → Sat f s Q A := by
    intro β f h s Q A hq
    obtain ⟨b, hb⟩ := h s
    unfold Sat
    rw [hb]
    exact hq b hb
  have hk : Known ops False (fun _ _ => True) True (fun _ => False) (fun _ => False) := by
    refine ⟨fun x y s => rt (hless x y) _ _ _ ?_, fun x s => rt (hcopy x) _ _ _ ?_, fun s => rt hcmp _ _ _ ?_,
      fun x s => rt (hmove x) _ _ _ ?_, fun x s => rt (hassign x) _ _ _ ?_⟩
    · intro b hb
      refine ⟨fun h => ⟨False.elim, fun _ he => ?_⟩, fun _ => False.elim⟩
      subst he; subst h; exact hirr x s hb
    · exact fun _ _ => trivial
    · exact fun _ _ => trivial
    · exact fun _ _ => trivial
    · exact fun _ _ => trivial
  have key : Sat (QSortX.sort ops fuel pre.length (pre.length + seg.length)) ⟨pre ++ seg.map some ++ post, env, L, 0, 0⟩ _ _ :=
    copyCmp_sat hk (fun r h => left_same h) (fun e' => quick_sort_sat hk (.inl trivial) False.elim False.elim fuel pre.length
      (pre.length + seg.length) pre post seg e' L 0 0 (.inl hf) rfl rfl)
  intro out
  rcases key.out with ⟨a, h1, seg', k, w, e', h2, h3, -, h5, h6⟩ | ⟨-, -, h1, -⟩
  · refine ⟨h1, ?_, ⟨k, ?_, (h5 trivial).1, h6⟩, w, ?_, (h5 trivial).2⟩
    · show (QSortX.sort _ _ _ _ _).2.live = L; rw [h2]
    · show (QSortX.sort _ _ _ _ _).2.copies = _; rw [h2]; simp
    · show (QSortX.sort _ _ _ _ _).2.moves = _; rw [h2]; simp
  · exact h1.elim

/-! ## Examples -/

/-- The user's code numbers its calls; the call with the given number throws. -/
def nthThrows (n : Nat) : Ops Nat Nat where
  less a b s := if s = n then (.throw .bad_alloc, s + 1) else (.ok (decide (a < b)), s + 1)
  copy _ s := if s = n then (.throw .bad_alloc, s + 1) else (.ok (), s + 1)
  copyCmp s := if s = n then (.throw .bad_alloc, s + 1) else (.ok (), s + 1)
  move _ s := if s = n then (.throw .bad_alloc, s + 1) else (.ok (), s + 1)
  assign _ s := if s = n then (.throw .bad_alloc, s + 1) else (.ok (), s + 1)

theorem nthThrows_wellBehaved (n : Nat) : WellBehaved (nthThrows n) := by
  refine ⟨fun _ _ s => ?_, fun _ s => ?_, fun s => ?_, fun _ s => ?_, fun _ s => ?_⟩ <;>
    · by_cases h : s = n
      · exact .inr ⟨.bad_alloc, by simp [nthThrows, h]⟩
      · exact .inl ⟨_, by simp [nthThrows, h]; rfl⟩

/-- nothing throws: four elements between two others -/
example : let out := QSortX.sort (nthThrows 1000) 9 1 5 ⟨[some 9, some 4, some 3, some 2, some 1, some 0], 0, 7, 0, 0⟩
    out.1 = .ok () ∧ out.2.mem = [some 9, some 1, some 2, some 3, some 4, some 0] ∧ out.2.live = 7 ∧ out.2.copies = 10 ∧ out.2.moves = 6 := by
  decide +kernel

/-- the second copy throws, in the first call -/
example : let out := QSortX.sort (nthThrows 2) 9 0 4 ⟨[some 4, some 3, some 2, some 1], 0, 0, 0, 0⟩
    out.1 = .throw .bad_alloc ∧ out.2.mem = [some 4, some 3, some 2, some 1] ∧ out.2.live = 0 ∧ out.2.copies = 1 := by
  decide +kernel

/-- the second assignment of an exchange throws -/
example : let out := QSortX.sort (nthThrows 16) 3 0 2 ⟨[some 4, some 3], 0, 0, 0, 0⟩
    out.1 = .throw .bad_alloc ∧ out.2.mem = [none, some 4] ∧ out.2.live = 0 := by
  decide +kernel

end Utki
