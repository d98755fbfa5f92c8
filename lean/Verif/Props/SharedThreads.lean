import Verif.Lemmas.SharedThreads
/-!
# C101: references to one object may be used from several threads

Theorems about all runs of any number of threads that make, copy, use, send, receive, lock and destroy references to any number of objects
(`Model/SharedThreads`).
-/
namespace Utki
open SharedThreads Spec

/-- C101, an object exists as long as there is a reference to it: nobody ever uses an object through a reference after it was destroyed, and nobody
destroys it twice. -/
theorem C101_alive (es : List Event) (s : State) (h : Run es s) (t o : Nat) : Event.usedDead t o ∉ es ∧ Event.destroyedTwice t o ∉ es :=
  ⟨fun hm => ((run_inv h).good _ hm).1 t o rfl, fun hm => ((run_inv h).good _ hm).2 t o rfl⟩

/-- C101: every object is destroyed at most once. -/
theorem C101_once (es : List Event) (s : State) (h : Run es s) (o : Nat) : es.countP (Ends o) ≤ 1 := by
  rw [(run_inv h).ended o]; split <;> omega

theorem run_prefix {es : List Event} {s : State} (h : Run es s) : ∀ pre post, es = pre ++ post → ∃ s', Run pre s' := by
  induction h with
  | nil =>
    intro pre post he
    obtain ⟨rfl, rfl⟩ := List.append_eq_nil_iff.mp he.symm
    exact ⟨_, .nil⟩
  | snoc es s e s' hr hs ih =>
    intro pre post he
    rcases List.eq_nil_or_concat post with rfl | ⟨post', e', rfl⟩
    · rw [List.append_nil] at he; rw [← he]; exact ⟨_, .snoc es s e s' hr hs⟩
    · rw [List.concat_eq_append, ← List.append_assoc] at he
      exact ih pre post' (List.append_inj_left' he rfl)

theorem run_last {es : List Event} {e : Event} {s : State} (h : Run (es ++ [e]) s) : ∃ s0, Run es s0 ∧ Step s0 e s := by
  generalize hx : es ++ [e] = l at h
  cases h with
  | nil => simp at hx
  | snoc es' s0 e' _ hr hs =>
    obtain ⟨rfl, h2⟩ := List.append_inj' hx rfl
    cases h2
    exact ⟨s0, hr, hs⟩

/-- C101, an object is destroyed only after the last reference to it: at that moment there is none, in any thread or on the way between threads, and
none ever comes into being again, not even from a weak pointer, nor is the object used again. -/
theorem C101_last (pre post : List Event) (t o : Nat) (s : State) (h : Run (pre ++ .destroyed t o :: post) s) :
    ¬ Referenced o pre ∧ ∀ e ∈ post, Gains o e = false ∧ Touches o e = false := by
  constructor
  · obtain ⟨s1, h1⟩ := run_prefix h (pre ++ [.destroyed t o]) post (by simp)
    obtain ⟨s0, h0, hs⟩ := run_last h1
    have hi := run_inv h0
    cases hs with
    | destroyed _ _ hd ha =>
      have hc := (hi.doomed o).2 (countP_pos_of_mem hd)
      have := hi.hist o
      unfold Referenced; omega
  · intro e he
    obtain ⟨p1, p2, rfl⟩ := List.append_of_mem he
    obtain ⟨s1, h1⟩ := run_prefix h ((pre ++ .destroyed t o :: p1) ++ [e]) p2 (by simp)
    obtain ⟨s0, h0, hs⟩ := run_last h1
    have hi := run_inv h0
    have hend : 0 < (pre ++ .destroyed t o :: p1).countP (Ends o) := List.countP_pos_iff.mpr ⟨.destroyed t o, by simp, by simp [Ends]⟩
    have h3 := hi.ended o
    have h4 : o < s0.objs ∧ s0.alive o = false := by
      by_contra hn; rw [if_neg hn] at h3; omega
    have hc : s0.count o = 0 := by
      by_contra hn
      have := (hi.alive o).mpr (.inl (by omega))
      rw [h4.2] at this; cases this
    cases hs <;> simp only [Gains, Touches, beq_eq_false_iff_ne, ne_eq, and_self]
    · omega
    · rename_i u v x hr; refine ⟨?_, trivial⟩; rintro rfl; have := hi.count_pos hr; omega
    · rename_i u x hr ha; refine ⟨trivial, ?_⟩; rintro rfl; have := hi.count_pos hr; omega
    · rename_i u x ho hx; refine ⟨?_, trivial⟩; rintro rfl; exact hx hc

/-- C101, no object is forgotten: once all the references to an object have been destroyed it has been destroyed, or some thread, which has destroyed a
reference to it, can do that next. -/
theorem C101_gone (es : List Event) (s : State) (h : Run es s) (t o : Nat) (hm : Event.made t o ∈ es) (hr : ¬ Referenced o es) :
    es.countP (Ends o) = 1 ∨ ∃ u, Event.dropped u o ∈ es ∧ Run (es ++ [.destroyed u o]) (destroy u o s) := by
  have hi := run_inv h
  have hg : 0 < es.countP (Gains o) := List.countP_pos_iff.mpr ⟨_, hm, by simp [Gains]⟩
  have ho : o < s.objs := by
    by_contra hn
    have := (hi.fresh o (by omega)).1
    omega
  have hc : s.count o = 0 := by have := hi.hist o; unfold Referenced at hr; omega
  cases ha : s.alive o with
  | false => left; rw [hi.ended o]; simp [ho, ha]
  | true =>
    right
    rcases (hi.alive o).mp ha with h1 | h1
    · omega
    · obtain ⟨⟨u, x⟩, h2, h3⟩ := List.countP_pos_iff.mp h1
      simp only [beq_iff_eq] at h3
      subst h3
      obtain ⟨d, hd, _⟩ := (run_inv2 h).doomed u x h2
      exact ⟨u, List.mem_of_getElem? hd, .snoc es s _ _ h (.destroyed s u x h2 ha)⟩

/-- C101: once all the references to an object have been destroyed, there are none for ever. -/
theorem C101_final (es more : List Event) (s : State) (h : Run (es ++ more) s) (t o : Nat) (hm : Event.made t o ∈ es) (hr : ¬ Referenced o es) :
    ¬ Referenced o (es ++ more) := by
  obtain ⟨n, hn⟩ : ∃ n, n = more.length := ⟨_, rfl⟩
  induction n generalizing more s with
  | zero => rw [List.length_eq_zero_iff.mp hn.symm, List.append_nil]; exact hr
  | succ n ih =>
    rcases List.eq_nil_or_concat more with rfl | ⟨more', e, rfl⟩
    · simp at hn
    · rw [List.concat_eq_append, ← List.append_assoc] at h ⊢
      obtain ⟨s0, h0, hs⟩ := run_last h
      have h1 := ih more' s0 h0 (by simpa using hn)
      have hi := run_inv h0
      have hc : s0.count o = 0 := by have := hi.hist o; unfold Referenced at h1; omega
      have hg : 0 < (es ++ more').countP (Gains o) := List.countP_pos_iff.mpr ⟨_, List.mem_append_left _ hm, by simp [Gains]⟩
      have ho : o < s0.objs := by
        by_contra hx
        have := (hi.fresh o (by omega)).1
        omega
      have hne : Gains o e = false := by
        cases hs <;> simp only [Gains, beq_eq_false_iff_ne, ne_eq]
        · omega
        · rename_i u v x hx; rintro rfl; have := hi.count_pos hx; omega
        · rename_i u x ho hx; rintro rfl; exact hx hc
      unfold Referenced at h1 ⊢
      rw [List.countP_append (l₂ := [e]), List.countP_append (l₂ := [e]), List.countP_singleton (p := Gains o), hne]
      simp only [Bool.false_eq_true, if_false]
      omega

/-- C101, a weak pointer gives a reference if and only if there is one at that moment. -/
theorem C101_lock (es : List Event) (s : State) (h : Run es s) (t o : Nat) (e : Event) (s' : State) (hs : Step s e s') :
    (e = .locked t o → Referenced o es) ∧ (e = .lockFailed t o → ¬ Referenced o es) := by
  have := (run_inv h).hist o
  unfold Referenced
  constructor
  · rintro rfl; cases hs; omega
  · rintro rfl; cases hs; omega

/-- C101, destruction is ordered: the construction of an object and every use of it by any thread happen before its destruction, so destructors need
no synchronisation of their own. -/
theorem C101_ordered (es : List Event) (s : State) (h : Run es s) (i j t o : Nat) (e : Event) (hi : es[i]? = some e) (ht : Touches o e = true)
    (hj : es[j]? = some (.destroyed t o)) : HappensBefore es i j :=
  (run_inv2 h).ended j t o hj i e hi ht

/-! ## A run

Thread 0 makes an object and starts thread 1 with a reference to it; both use it; thread 1 makes one more reference from a weak pointer and drops both;
thread 0 drops the last one and destroys the object; then a weak pointer gives no reference any more. -/

def sharedRun : List Event :=
  [.made 0 0, .copied 0 0 0, .sent 0 0 0, .received 1 0 0, .used 1 0, .used 0 0, .locked 1 0, .dropped 1 0, .dropped 1 0, .used 0 0, .dropped 0 0,
    .destroyed 0 0, .lockFailed 1 0]

theorem run_next {es l : List Event} {s s' : State} {e : Event} (h : Run es s) (hs : Step s e s') (hl : es ++ [e] = l) : Run l s' := hl ▸ .snoc es s e s' h hs

theorem sharedRun_run : ∃ s, Run sharedRun s :=
  ⟨_, run_next (run_next (run_next (run_next (run_next (run_next (run_next (run_next (run_next (run_next (run_next (run_next (run_next .nil
    (.made _ 0) rfl)
    (.copied _ 0 0 0 (by decide)) rfl)
    (.sent _ 0 0 (by decide)) rfl)
    (.received _ 1 0 0 (by decide)) rfl)
    (.used _ 1 0 (by decide) (by decide)) rfl)
    (.used _ 0 0 (by decide) (by decide)) rfl)
    (.locked _ 1 0 (by decide) (by decide)) rfl)
    (.dropped _ 1 0 (by decide)) rfl)
    (.dropped _ 1 0 (by decide)) rfl)
    (.used _ 0 0 (by decide) (by decide)) rfl)
    (.dropped _ 0 0 (by decide)) rfl)
    (.destroyed _ 0 0 (by decide) (by decide)) rfl)
    (.lockFailed _ 1 0 (by decide) (by decide)) rfl⟩

example : Event.usedDead 0 0 ∉ sharedRun := (C101_alive _ _ sharedRun_run.choose_spec 0 0).1
example : sharedRun.countP (Ends 0) ≤ 1 := C101_once _ _ sharedRun_run.choose_spec 0
example : ¬ Referenced 0 (sharedRun.take 11) :=
  (C101_last (sharedRun.take 11) [.lockFailed 1 0] 0 0 _ sharedRun_run.choose_spec).1
/-- Before the last reference is gone there is one. -/
example : Referenced 0 (sharedRun.take 10) := by unfold Referenced; decide
example : sharedRun.countP (Ends 0) = 1 ∨ ∃ u, Event.dropped u 0 ∈ sharedRun ∧ Run (sharedRun ++ [.destroyed u 0]) (destroy u 0 sharedRun_run.choose) :=
  C101_gone _ _ sharedRun_run.choose_spec 0 0 (by decide) (by unfold Referenced; decide)
/-- Just after the last reference is gone, thread 0 can destroy the object. -/
example : ∃ s, Run (sharedRun.take 11) s ∧ (sharedRun.take 11).countP (Ends 0) = 0 ∧ ∃ u, Run (sharedRun.take 11 ++ [.destroyed u 0]) (destroy u 0 s) := by
  obtain ⟨s, hs⟩ := run_prefix sharedRun_run.choose_spec (sharedRun.take 11) _ (List.take_append_drop 11 _).symm
  refine ⟨s, hs, by decide, ?_⟩
  rcases C101_gone _ _ hs 0 0 (by decide) (by unfold Referenced; decide) with h | ⟨u, _, h⟩
  · exact absurd h (by decide)
  · exact ⟨u, h⟩
example : ¬ Referenced 0 sharedRun :=
  C101_final (sharedRun.take 11) (sharedRun.drop 11) _ sharedRun_run.choose_spec 0 0 (by decide) (by unfold Referenced; decide)
/-- The use by thread 1 happens before the destruction by thread 0. -/
example : HappensBefore sharedRun 4 11 := C101_ordered _ _ sharedRun_run.choose_spec 4 11 0 0 (.used 1 0) rfl rfl rfl
/-- The uses by the two threads are not ordered. -/
example : ¬ HappensBefore sharedRun 4 5 := by
  have key : ∀ i j, HappensBefore sharedRun i j → i < j ∧ (i = 4 → j ≠ 5) := by
    intro i j h
    induction h with
    | thread i j a b hl h1 h2 h3 =>
      refine ⟨hl, ?_⟩
      rintro rfl rfl
      cases h1; cases h2; exact absurd h3 (by decide)
    | message i j t u o m hl h1 h2 => exact ⟨hl, by rintro rfl; cases h1⟩
    | counter i j t u o hl h1 h2 _ _ => exact ⟨hl, by rintro rfl; cases h1⟩
    | trans i j k _ _ h1 h2 => exact ⟨by omega, by omega⟩
  exact fun h => (key 4 5 h).2 rfl rfl

end Utki
