import Mathlib.Data.List.Induction
import Verif.Model.SingletonThreads
import Verif.Spec.DataRace
/-!
# Singletons and threads (C109)
-/
namespace Utki
open Spec SingletonThreads

namespace SingletonThreads

variable {ε : Type} {thread : ε → Nat} {sync conflict : ε → ε → Prop}

theorem hb_lt {es : List ε} {i j : Nat} (h : OrderedBefore thread sync es i j) : i < j := by
  induction h with
  | program hij => exact hij
  | sync hij => exact hij
  | trans _ _ h1 h2 => omega

theorem hb_mem {es : List ε} {i j : Nat} (h : OrderedBefore thread sync es i j) : ∃ x y, es[i]? = some x ∧ es[j]? = some y := by
  induction h with
  | program _ hi hj => exact ⟨_, _, hi, hj⟩
  | sync _ hi hj => exact ⟨_, _, hi, hj⟩
  | trans _ _ h1 h2 =>
    obtain ⟨x, _, hx, _⟩ := h1
    obtain ⟨_, y, _, hy⟩ := h2
    exact ⟨x, y, hx, hy⟩

/-- Happens-before gets from one thread to another only by a synchronisation of the first. -/
theorem hb_leaves {es : List ε} {i j : Nat} (h : OrderedBefore thread sync es i j) :
    ∀ x y, es[i]? = some x → es[j]? = some y → thread x ≠ thread y →
      ∃ e z w, i ≤ e ∧ e < j ∧ es[e]? = some z ∧ thread z = thread x ∧ sync z w := by
  induction h with
  | program hij hi hj ht =>
    intro x y hx hy hne
    rw [hi] at hx; rw [hj] at hy
    cases hx; cases hy
    exact absurd ht hne
  | @sync i j a b hij hi hj hs =>
    intro x y hx hy hne
    rw [hi] at hx; cases hx
    exact ⟨i, a, b, Nat.le_refl _, hij, hi, rfl, hs⟩
  | @trans i k j h1 h2 ih1 ih2 =>
    intro x y hx hy hne
    obtain ⟨_, z, _, hz⟩ := hb_mem h1
    by_cases ht : thread x = thread z
    · obtain ⟨e, u, w, e1, e2, e3, e4, e5⟩ := ih2 z y hz hy (ht ▸ hne)
      exact ⟨e, u, w, by have := hb_lt h1; omega, e2, e3, e4.trans ht.symm, e5⟩
    · obtain ⟨e, u, w, e1, e2, e3, e4, e5⟩ := ih1 x z hx hz ht
      exact ⟨e, u, w, e1, by have := hb_lt h2; omega, e3, e4, e5⟩

theorem hb_prefix {es : List ε} {e : ε} {i j : Nat} (h : OrderedBefore thread sync (es ++ [e]) i j) (hj : j < es.length) :
    OrderedBefore thread sync es i j := by
  induction h with
  | program hij hi hj' ht =>
    rw [List.getElem?_append_left (by omega)] at hi hj'
    exact .program hij hi hj' ht
  | sync hij hi hj' hs =>
    rw [List.getElem?_append_left (by omega)] at hi hj'
    exact .sync hij hi hj' hs
  | trans h1 h2 ih1 ih2 => exact .trans (ih1 (by have := hb_lt h2; omega)) (ih2 hj)

theorem raceFree_prefix {es : List ε} {e : ε} (h : RaceFree thread sync conflict (es ++ [e])) : RaceFree thread sync conflict es := by
  intro i j x y hij hi hj ht hc
  have hjl : j < es.length := (List.getElem?_eq_some_iff.mp hj).1
  exact hb_prefix (h i j x y hij (by rw [List.getElem?_append_left (by omega)]; exact hi)
    (by rw [List.getElem?_append_left hjl]; exact hj) ht hc) hjl

/-- The last thing a thread did, and that it was an access to `instance`. -/
def LastAccess (es : List Event) (t : Nat) : Prop :=
  ∃ (i : Nat) (x : Event), es[i]? = some x ∧ x.thread = t ∧ x.access = some false ∧ ∀ (j : Nat) (y : Event), i < j → es[j]? = some y → y.thread ≠ t

theorem LastAccess.append {es : List Event} {t : Nat} {e : Event} (h : LastAccess es t) (he : e.thread ≠ t) : LastAccess (es ++ [e]) t := by
  obtain ⟨i, x, h1, h2, h3, h4⟩ := h
  have hil : i < es.length := (List.getElem?_eq_some_iff.mp h1).1
  refine ⟨i, x, by rw [List.getElem?_append_left hil]; exact h1, h2, h3, fun j y hij hj => ?_⟩
  by_cases hjl : j < es.length
  · rw [List.getElem?_append_left hjl] at hj
    exact h4 j y hij hj
  · have : j = es.length := by
      have := (List.getElem?_eq_some_iff.mp hj).1
      simp at this; omega
    subst this
    simp at hj
    subst hj
    exact he

theorem LastAccess.last {es : List Event} {e : Event} (he : e.access = some false) : LastAccess (es ++ [e]) e.thread := by
  refine ⟨es.length, e, by simp, rfl, he, fun j y hij hj => ?_⟩
  have := (List.getElem?_eq_some_iff.mp hj).1
  simp at this; omega

/-- If a thread is inside an operation, a write of another thread is a data race. -/
theorem LastAccess.race {es : List Event} {t : Nat} {e : Event} (h : LastAccess es t) (he : e.thread ≠ t) (hw : e.access = some true)
    (hr : RaceFree Event.thread Event.sync Event.conflict (es ++ [e])) : False := by
  obtain ⟨i, x, h1, h2, h3, h4⟩ := h
  have hil : i < es.length := (List.getElem?_eq_some_iff.mp h1).1
  have hi : (es ++ [e])[i]? = some x := by rw [List.getElem?_append_left hil]; exact h1
  have hj : (es ++ [e])[es.length]? = some e := by simp
  have hne : x.thread ≠ e.thread := by rw [h2]; exact fun h => he h.symm
  obtain ⟨k, z, w, k1, k2, k3, k4, k5⟩ := hb_leaves (hr i es.length x e hil hi hj hne ⟨_, _, h3, hw, .inr rfl⟩) x e hi hj hne
  rw [List.getElem?_append_left k2] at k3
  by_cases hk : k = i
  · subst hk
    rw [h1] at k3; cases k3
    obtain ⟨_, _, _, rfl, _⟩ := k5
    simp [Event.access] at h3
  · exact h4 k z (by omega) k3 (k4.trans h2)

/-- What holds as long as there is no data race. -/
structure Inv (es : List Event) (s : State) : Prop where
  inst : live es = s.inst.toList
  last : ∀ t, s.pc t ≠ .idle → LastAccess es t
  ctor : ∀ t a, s.pc t = .ctor a → s.inst = none
  dtor : ∀ t a, s.pc t = .dtor a → s.inst = some a
  got : ∀ t, s.pc t = .inst → s.inst ≠ none

theorem live_append (es : List Event) (e : Event) : live (es ++ [e]) = match e with
    | .stored _ a _ => live es ++ [a]
    | .cleared _ a => (live es).erase a
    | _ => live es := by
  unfold live
  rw [List.foldl_append]
  rfl

/-- What an event must be as long as there is no data race, by the objects that live before it. -/
def Sound (l : List Nat) : Event → Prop
  | .tested _ _ => l = []
  | .refused _ _ => l ≠ []
  | .stored _ _ old => old = none ∧ l = []
  | .asked _ b => b = !l.isEmpty
  | .asserted _ b => b = !l.isEmpty
  | .got _ r => r = l.head?
  | .checked _ a b => b = true ∧ l = [a]
  | .cleared _ a => l = [a]
  | _ => True

theorem goto_other {s : State} {t u : Nat} {p : Pc} (h : u ≠ t) : s.goto t p u = s.pc u := by simp [State.goto, h]
theorem goto_self {s : State} {t : Nat} {p : Pc} : s.goto t p t = p := by simp [State.goto]

theorem inv_step {dbg : Bool} {es : List Event} {s : State} (h : Run dbg es s)
    (hr : RaceFree Event.thread Event.sync Event.conflict es) :
    Inv es s ∧ ∀ pre e post, es = pre ++ e :: post → Sound (live pre) e := by
  have snoc : ∀ {es : List Event} {e : Event}, (∀ pre e post, es = pre ++ e :: post → Sound (live pre) e) → Sound (live es) e →
      ∀ pre e' post, es ++ [e] = pre ++ e' :: post → Sound (live pre) e' := by
    intro es e h1 h2 pre e' post heq
    rcases List.eq_nil_or_concat post with rfl | ⟨post', e'', rfl⟩
    · obtain ⟨rfl, h⟩ := List.append_inj' heq rfl
      cases h
      exact h2
    · rw [List.concat_eq_append, ← List.cons_append, ← List.append_assoc] at heq
      obtain ⟨h, -⟩ := List.append_inj' heq rfl
      exact h1 pre e' post' h
  -- an event that changes neither `instance` nor where the thread is
  have keep : ∀ {es : List Event} {s : State} {e : Event}, Inv es s → s.pc e.thread = .idle → live (es ++ [e]) = live es → Inv (es ++ [e]) s := by
    intro es s e hI hp hl
    refine ⟨by rw [hl]; exact hI.inst, fun t ht => (hI.last t ht).append ?_, hI.ctor, hI.dtor, hI.got⟩
    intro h; rw [h] at hp; exact ht hp
  -- a read, after which the thread is inside an operation
  have enter : ∀ {es : List Event} {s : State} {e : Event} {p : Pc}, Inv es s → live (es ++ [e]) = live es → e.access = some false →
      (∀ a, p = .ctor a → s.inst = none) → (∀ a, p = .dtor a → s.inst = some a) → (p = .inst → s.inst ≠ none) →
      Inv (es ++ [e]) { s with pc := s.goto e.thread p } := by
    intro es s e p hI hl ha h1 h2 h3
    refine ⟨by rw [hl]; exact hI.inst, fun t ht => ?_, fun t a ht => ?_, fun t a ht => ?_, fun t ht => ?_⟩
    · by_cases h : t = e.thread
      · subst h; exact .last ha
      · simp only at ht; rw [goto_other h] at ht; exact (hI.last t ht).append (fun h' => h h'.symm)
    all_goals
      by_cases h : t = e.thread
      · subst h
        simp only at ht
        rw [goto_self] at ht
        first | exact h1 _ ht | exact h2 _ ht | exact h3 ht
      · simp only at ht
        rw [goto_other h] at ht
        first | exact hI.ctor _ _ ht | exact hI.dtor _ _ ht | exact hI.got _ ht
  -- a write, after which the thread is between operations
  have write : ∀ {es : List Event} {s : State} {e : Event} {i : Option Nat}, Inv es s → e.access = some true →
      RaceFree Event.thread Event.sync Event.conflict (es ++ [e]) → live (es ++ [e]) = i.toList →
      Inv (es ++ [e]) ⟨i, s.goto e.thread .idle⟩ := by
    intro es s e i hI hw hr hl
    have hidle : ∀ t, s.goto e.thread .idle t = .idle := by
      intro t
      by_cases h : t = e.thread
      · subst h; exact goto_self
      · rw [goto_other h]
        cases hp : s.pc t with
        | idle => rfl
        | _ => exact ((hI.last t (by simp [hp])).race (fun h' => h h'.symm) hw hr).elim
    refine ⟨hl, fun t ht => absurd (hidle t) ht, fun t a ht => ?_, fun t a ht => ?_, fun t ht => ?_⟩
    all_goals
      have := (hidle t).symm.trans ht
      cases this
  induction h with
  | init =>
    exact ⟨⟨rfl, fun _ h => absurd rfl h, by simp, by simp, by simp⟩, fun pre e post h => by simp at h⟩
  | tested t a h hp hi hl ha ih =>
    obtain ⟨hI, hS⟩ := ih (raceFree_prefix hr)
    refine ⟨enter (e := .tested t a) hI (live_append _ _) rfl (fun _ _ => hi) (by simp) (by simp), snoc hS ?_⟩
    show live _ = []
    rw [hI.inst, hi]; rfl
  | refused t a b h hp hi ih =>
    obtain ⟨hI, hS⟩ := ih (raceFree_prefix hr)
    refine ⟨keep (e := .refused t a) hI hp (live_append _ _), snoc hS ?_⟩
    show live _ ≠ []
    rw [hI.inst, hi]; simp
  | stored t a h hp ih =>
    obtain ⟨hI, hS⟩ := ih (raceFree_prefix hr)
    have hn := hI.ctor t a hp
    refine ⟨write (e := .stored t a _) hI rfl hr (by rw [live_append]; simp [hI.inst, hn]), snoc hS ⟨hn, by rw [hI.inst, hn]; rfl⟩⟩
  | asked t h hp ih =>
    obtain ⟨hI, hS⟩ := ih (raceFree_prefix hr)
    refine ⟨keep (e := .asked t _) hI hp (live_append _ _), snoc hS ?_⟩
    show _ = _
    rw [hI.inst]
    rename_i s
    cases s.inst <;> rfl
  | @asserted es s t h hp hd ih =>
    obtain ⟨hI, hS⟩ := ih (raceFree_prefix hr)
    refine ⟨?_, snoc hS ?_⟩
    · by_cases hs : s.inst.isSome = true
      · simp only [hs, if_true]
        exact enter (e := .asserted t true) hI (live_append _ _) rfl (by simp) (by simp) (fun _ h => by rw [h] at hs; cases hs)
      · simp only [hs, Bool.false_eq_true, if_false]
        exact keep (e := .asserted t _) hI hp (live_append _ _)
    · show _ = _
      rw [hI.inst]
      cases s.inst <;> rfl
  | @got es s t h hp ih =>
    obtain ⟨hI, hS⟩ := ih (raceFree_prefix hr)
    refine ⟨enter (e := .got t _) hI (live_append _ _) rfl (by simp) (by simp) (by simp), snoc hS ?_⟩
    show _ = _
    rw [hI.inst]
    cases s.inst <;> rfl
  | @checked es s t a h hp hd hl ha ih =>
    obtain ⟨hI, hS⟩ := ih (raceFree_prefix hr)
    have hia : s.inst = some a := by
      rw [hI.inst] at hl
      simpa using hl
    have hb : (s.inst == some a) = true := by rw [hia]; simp
    simp only [hb, if_true]
    refine ⟨enter (e := .checked t a true) hI (live_append _ _) rfl (by simp) (fun b h => by cases h; exact hia) (by simp), snoc hS ⟨rfl, ?_⟩⟩
    rw [hI.inst, hia]; rfl
  | @cleared es s t a h hp ih =>
    obtain ⟨hI, hS⟩ := ih (raceFree_prefix hr)
    have hia : s.inst = some a := by
      rcases hp with hp | ⟨-, -, hl⟩
      · exact hI.dtor t a hp
      · rw [hI.inst] at hl
        simpa using hl
    have hl : live es = [a] := by rw [hI.inst, hia]; rfl
    exact ⟨write (e := .cleared t a) hI rfl hr (by rw [live_append]; simp [hl]), snoc hS hl⟩
  | released t m h hp ih =>
    obtain ⟨hI, hS⟩ := ih (raceFree_prefix hr)
    exact ⟨keep (e := .released t m) hI hp (live_append _ _), snoc hS trivial⟩
  | acquired t m h hp ih =>
    obtain ⟨hI, hS⟩ := ih (raceFree_prefix hr)
    exact ⟨keep (e := .acquired t m) hI hp (live_append _ _), snoc hS trivial⟩

/-- Who holds the mutex `m` after an event, if `h` does before. -/
def hold (m : Nat) (h : Option Nat) : Event → Option Nat
  | .acquired t m' => if m' = m then some t else h
  | .released _ m' => if m' = m then none else h
  | _ => h

/-- Who holds the mutex `m`. -/
def holder (m : Nat) (es : List Event) : Option Nat := es.foldl (hold m) none

/-- The singleton is used only by threads that have locked the mutex `m`; `acquired t m` is its `lock()`, `released t m` its `unlock()`. -/
structure Locked (m : Nat) (es : List Event) : Prop where
  access : ∀ (i : Nat) (e : Event), es[i]? = some e → e.access ≠ none → holder m (es.take i) = some e.thread
  lock : ∀ (i t : Nat), es[i]? = some (.acquired t m) → holder m (es.take i) = none
  unlock : ∀ (i t : Nat), es[i]? = some (.released t m) → holder m (es.take i) = some t

theorem holder_succ (m : Nat) (es : List Event) (i : Nat) (e : Event) (h : es[i]? = some e) : holder m (es.take (i + 1)) = hold m (holder m (es.take i)) e := by
  unfold holder
  rw [List.take_add_one, h, List.foldl_append]
  rfl

/-- If the mutex is held by one thread and later by another, the first has unlocked and then the second has locked it. -/
theorem locked_between {m : Nat} {es : List Event} (hL : Locked m es) {i t : Nat} (hi : holder m (es.take i) = some t) (k : Nat) (hk : i + k ≤ es.length) :
    holder m (es.take (i + k)) = some t ∨ ∃ e, i ≤ e ∧ e < i + k ∧ es[e]? = some (.released t m) ∧ (holder m (es.take (i + k)) = none ∨
      ∃ v f, e < f ∧ f < i + k ∧ es[f]? = some (.acquired v m) ∧ holder m (es.take (i + k)) = some v) := by
  induction k with
  | zero => exact .inl hi
  | succ k ih =>
    have hlt : i + k < es.length := by omega
    have hg : es[i + k]? = some es[i + k] := List.getElem?_eq_getElem hlt
    have hs := holder_succ m es (i + k) _ hg
    rw [show i + (k + 1) = i + k + 1 by omega, hs]
    generalize hx : es[i + k] = x at hg hs
    -- if the holder stays the same
    have stay : holder m (es.take (i + k + 1)) = holder m (es.take (i + k)) →
        holder m (es.take (i + k + 1)) = some t ∨ ∃ e, i ≤ e ∧ e < i + k + 1 ∧ es[e]? = some (.released t m) ∧
          (holder m (es.take (i + k + 1)) = none ∨ ∃ v f, e < f ∧ f < i + k + 1 ∧ es[f]? = some (.acquired v m) ∧ holder m (es.take (i + k + 1)) = some v) := by
      intro he
      rw [he]
      rcases ih (by omega) with h | ⟨e, e1, e2, e3, h | ⟨v, f, f1, f2, f3, f4⟩⟩
      · exact .inl h
      · exact .inr ⟨e, e1, by omega, e3, .inl h⟩
      · exact .inr ⟨e, e1, by omega, e3, .inr ⟨v, f, f1, by omega, f3, f4⟩⟩
    rw [← hs]
    cases x with
    | acquired v m' =>
      by_cases hm : m' = m
      · subst hm
        have hn := hL.lock (i + k) v hg
        simp only [hold, if_true] at hs
        rcases ih (by omega) with h | ⟨e, e1, e2, e3, -⟩
        · rw [hn] at h; cases h
        · exact .inr ⟨e, e1, by omega, e3, .inr ⟨v, i + k, e2, by omega, hg, hs⟩⟩
      · simp only [hold, if_neg hm] at hs
        exact stay hs
    | released v m' =>
      by_cases hm : m' = m
      · subst hm
        have hn := hL.unlock (i + k) v hg
        simp only [hold, if_true] at hs
        rcases ih (by omega) with h | ⟨e, e1, e2, e3, -⟩
        · rw [hn] at h
          cases h
          exact .inr ⟨i + k, by omega, by omega, hg, .inl hs⟩
        · exact .inr ⟨e, e1, by omega, e3, .inl hs⟩
      · simp only [hold, if_neg hm] at hs
        exact stay hs
    | _ => exact stay hs

end SingletonThreads

/-- C109: as long as there is no data race, at most one object lives, whatever the threads do. -/
theorem C109_at_most_one (dbg : Bool) (es : List SingletonThreads.Event) (s : SingletonThreads.State) (h : SingletonThreads.Run dbg es s)
    (hr : RaceFree Event.thread Event.sync Event.conflict es) : (live es).length ≤ 1 := by
  rw [(inv_step h hr).1.inst]
  cases s.inst <;> simp

/-- C109: as long as there is no data race: a constructor returns exactly if no object lives, when it looks and still when it stores the address (so that `reset`
deletes nothing), and otherwise throws. -/
theorem C109_construct (dbg : Bool) (es : List SingletonThreads.Event) (s : SingletonThreads.State) (h : SingletonThreads.Run dbg es s)
    (hr : RaceFree Event.thread Event.sync Event.conflict es) (pre post : List SingletonThreads.Event) (t a : Nat) :
    (es = pre ++ .tested t a :: post → live pre = []) ∧ (∀ old, es = pre ++ .stored t a old :: post → live pre = [] ∧ old = none) ∧
    (es = pre ++ .refused t a :: post → live pre ≠ []) := by
  have hS := (inv_step h hr).2
  exact ⟨fun he => hS pre _ post he, fun old he => (hS pre _ post he).symm, fun he => hS pre _ post he⟩

/-- C109: as long as there is no data race: `is_created()` says whether an object lives, `inst()` gives the object that lives, and the assertion in
the destructor holds. -/
theorem C109_use (dbg : Bool) (es : List SingletonThreads.Event) (s : SingletonThreads.State) (h : SingletonThreads.Run dbg es s)
    (hr : RaceFree Event.thread Event.sync Event.conflict es) (pre post : List SingletonThreads.Event) (t : Nat) :
    (∀ b, es = pre ++ .asked t b :: post → (b = true ↔ live pre ≠ [])) ∧ (∀ b, es = pre ++ .asserted t b :: post → (b = true ↔ live pre ≠ [])) ∧
    (∀ r, es = pre ++ .got t r :: post → live pre = r.toList) ∧ (∀ a b, es = pre ++ .checked t a b :: post → b = true ∧ live pre = [a]) ∧
    (∀ a, es = pre ++ .cleared t a :: post → live pre = [a] ∧ live (pre ++ [.cleared t a]) = []) := by
  have hS := (inv_step h hr).2
  refine ⟨fun b he => ?_, fun b he => ?_, fun r he => ?_, fun a b he => hS pre _ post he, fun a he => ?_⟩
  · have : b = _ := hS pre _ post he
    rw [this]; simp
  · have : b = _ := hS pre _ post he
    rw [this]; simp
  · have hg : r = _ := hS pre _ post he
    -- at most one object lives before
    have hlen : (live pre).length ≤ 1 := by
      have key : ∀ (post : List SingletonThreads.Event) (es : List SingletonThreads.Event) (s : SingletonThreads.State), SingletonThreads.Run dbg es s →
          RaceFree Event.thread Event.sync Event.conflict es → es = pre ++ post → (live pre).length ≤ 1 := by
        intro post
        induction post using List.reverseRecOn with
        | nil =>
          intro es s h hr he
          rw [List.append_nil] at he
          subst he
          exact C109_at_most_one dbg _ s h hr
        | append_singleton post e ih =>
          intro es s h hr he
          rw [← List.append_assoc] at he
          subst he
          have hp : ∃ s', SingletonThreads.Run dbg (pre ++ post) s' := by
            generalize hes : pre ++ post ++ [e] = es at h
            cases h with
            | init => simp at hes
            | _ => exact ⟨_, by rw [(List.append_inj' hes rfl).1]; assumption⟩
          obtain ⟨s', hs'⟩ := hp
          exact ih _ s' hs' (raceFree_prefix hr) rfl
      exact key _ es s h hr he
    rw [hg]
    match live pre, hlen with
    | [], _ => rfl
    | [_], _ => rfl
  · have hl : live pre = [a] := hS pre _ post he
    refine ⟨hl, ?_⟩
    rw [live_append]
    simp [hl]

/-- C109: there is no data race if the singleton is used only under one mutex. -/
theorem C109_locked (m : Nat) (es : List SingletonThreads.Event) (hL : Locked m es) : RaceFree Event.thread Event.sync Event.conflict es := by
  rintro i j x y hij hi hj hne ⟨a, b, ha, hb, -⟩
  have hjl : j < es.length := (List.getElem?_eq_some_iff.mp hj).1
  have h1 := hL.access i x hi (by simp [ha])
  have h2 := hL.access j y hj (by simp [hb])
  rcases locked_between hL h1 (j - i) (by omega) with h | ⟨e, e1, e2, e3, h⟩
  · rw [show i + (j - i) = j by omega, h2] at h
    exact absurd (Option.some.inj h).symm hne
  · rw [show i + (j - i) = j by omega] at h e2
    rw [h2] at h
    rcases h with h | ⟨v, f, f1, f2, f3, f4⟩
    · cases h
    · have hv : y.thread = v := Option.some.inj f4
      have hie : i ≠ e := by
        rintro rfl
        have hx := Option.some.inj (hi.symm.trans e3)
        rw [hx] at ha
        simp [Event.access] at ha
      exact .trans (.program (by omega) hi e3 rfl) (.trans (.sync f1 e3 f3 ⟨_, _, m, rfl, rfl⟩) (.program f2 f3 hj hv.symm))

/-- C109, without: two threads construct objects at the same time; both constructors return, and the second deletes the object of the first. -/
theorem C109_wrong : ∃ es s, SingletonThreads.Run true es s ∧ live es = [1, 2] ∧ SingletonThreads.Event.stored 1 2 (some 1) ∈ es := by
  have r1 := Run.tested (dbg := true) 0 1 .init rfl rfl (by simp [live]) (by simp)
  have r2 := Run.tested 1 2 r1 (by simp [State.goto]) rfl (by simp [live]) (by intro u; simp only [State.goto]; split <;> simp)
  have r3 := Run.stored 0 1 r2 (by simp [State.goto])
  have r4 := Run.stored 1 2 r3 (by simp [State.goto])
  exact ⟨_, _, r4, by decide +kernel, by simp⟩

/-- C109, without: `inst()` in one thread while another one constructs the object: a data race, although the object lives afterwards. -/
theorem C109_wrong_inst : ∃ es s, SingletonThreads.Run false es s ∧ live es = [1] ∧ SingletonThreads.Event.got 1 (some 1) ∈ es ∧
    ¬ RaceFree Event.thread Event.sync Event.conflict es := by
  have r1 := Run.tested (dbg := false) 0 1 .init rfl rfl (by simp [live]) (by simp)
  have r2 := Run.stored 0 1 r1 (by simp [State.goto])
  have r3 := Run.got 1 r2 (by simp [State.goto])
  refine ⟨_, _, r3, by decide +kernel, by simp, fun hr => ?_⟩
  have hb := hr 1 2 (.stored 0 1 none) (.got 1 (some 1)) (by omega) rfl rfl (by decide) ⟨true, false, rfl, rfl, .inl rfl⟩
  obtain ⟨e, z, w, e1, e2, e3, e4, t, u, m, rfl, -⟩ := hb_leaves hb _ _ rfl rfl (by decide)
  have : e = 1 := by omega
  subst this
  simp at e3

/-- A run of two threads in which the second uses the object that the first has constructed before, under a mutex. -/
example : ∃ es s, SingletonThreads.Run true es s ∧ SingletonThreads.Event.got 1 (some 5) ∈ es ∧ Locked 7 es ∧
    RaceFree Event.thread Event.sync Event.conflict es := by
  have r1 := Run.acquired (dbg := true) 0 7 .init rfl
  have r2 := Run.tested 0 5 r1 rfl rfl (by simp [live]) (by simp)
  have r3 := Run.stored 0 5 r2 (by simp [State.goto])
  have r4 := Run.released 0 7 r3 (by simp [State.goto])
  have r5 := Run.acquired 1 7 r4 (by simp [State.goto])
  have r6 := Run.asserted 1 r5 (by simp [State.goto]) rfl
  have r7 := Run.got 1 r6 (by simp [State.goto])
  have hL : Locked 7 [.acquired 0 7, .tested 0 5, .stored 0 5 none, .released 0 7, .acquired 1 7, .asserted 1 true, .got 1 (some 5)] := by
    refine ⟨fun i e he ha => ?_, fun i t he => ?_, fun i t he => ?_⟩
    all_goals
      have hi := (List.getElem?_eq_some_iff.mp he).1
      simp only [List.length_cons, List.length_nil] at hi
      have : i = 0 ∨ i = 1 ∨ i = 2 ∨ i = 3 ∨ i = 4 ∨ i = 5 ∨ i = 6 := by omega
      rcases this with rfl | rfl | rfl | rfl | rfl | rfl | rfl <;> simp at he <;> first | (subst he; revert ha; decide +kernel) | (subst he; decide +kernel)
  exact ⟨_, _, r7, by simp, hL, C109_locked 7 _ hL⟩

end Utki
