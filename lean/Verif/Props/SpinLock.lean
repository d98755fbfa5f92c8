import Verif.Model.SpinLock
/-!
# Properties of `spin_lock` (C58, C59)

The theorems are about all interleavings `Run es s` of any number of threads that unlock only what they have locked and use the
shared memory only between `lock()` and `unlock()`. They speak about the events.
-/
namespace Utki
open SpinLock

/-- The thread that holds the lock after the events: the one of the last return of `lock()` without a call of `unlock()` behind
it. -/
def holder (es : List SpinLock.Event) : Option Nat :=
  es.foldl (fun h e => match e with | .locked t => some t | .unlocked _ => none | _ => h) none

/-- The value last written to the location. -/
def lastWrite (l : Nat) (es : List SpinLock.Event) : Int :=
  es.foldl (fun v e => match e with | .write _ m w => if m = l then w else v | _ => v) 0

/-- The invariant. -/
structure LockInv (es : List SpinLock.Event) (s : State) : Prop where
  pc : ∀ t, (s.threads t).pc = .critical ↔ holder es = some t
  flag : s.flag = (holder es).isSome
  last : ∀ l, lastWrite l es = valueAt s l (s.mem l).length
  vle : ∀ t l, (s.threads t).view l ≤ (s.mem l).length
  fle : ∀ l, s.flagView l ≤ (s.mem l).length
  held : ∀ t, holder es = some t → ∀ l, (s.threads t).view l = (s.mem l).length
  free : holder es = none → ∀ l, s.flagView l = (s.mem l).length

theorem holder_snoc (es : List SpinLock.Event) (e : SpinLock.Event) :
    holder (es ++ [e]) = match e with | .locked t => some t | .unlocked _ => none | _ => holder es := by
  simp [holder, List.foldl_append]

theorem lastWrite_snoc (l : Nat) (es : List SpinLock.Event) (e : SpinLock.Event) :
    lastWrite l (es ++ [e]) = match e with | .write _ m w => if m = l then w else lastWrite l es | _ => lastWrite l es := by
  simp [lastWrite, List.foldl_append]

theorem attempt_critical (t : Nat) (s : State) (hp : (s.threads t).pc = .locking) :
    ((attempt t s).threads t).pc = .critical ↔ s.flag = false := by
  cases hf : s.flag <;> simp [attempt, testAndSet, setThread, hf, hp]

theorem lockInv_step {es : List SpinLock.Event} {s s' : State} {e : SpinLock.Event} (h : LockInv es s) (hs : Step s e s') : LockInv (es ++ [e]) s' := by
  cases hs with
  | call t hp =>
    refine ⟨?_, ?_, ?_, ?_, h.fle, ?_, ?_⟩
    · intro u
      rw [holder_snoc]
      by_cases e : u = t
      · subst e
        have := h.pc u
        simp [setThread]
        intro hh; rw [this.mpr hh] at hp; cases hp
      · simpa [setThread, e] using h.pc u
    · simpa [holder_snoc, setThread] using h.flag
    · intro l; rw [lastWrite_snoc]; exact h.last l
    · intro u l
      by_cases e : u = t
      · subst e; simpa [setThread] using h.vle u l
      · simpa [setThread, e] using h.vle u l
    · intro u hu l
      rw [holder_snoc] at hu
      by_cases e : u = t
      · subst e; simpa [setThread] using h.held u hu l
      · simpa [setThread, e] using h.held u hu l
    · intro hn l
      rw [holder_snoc] at hn
      exact h.free hn l
  | failed t hp hc =>
    have hflag : s.flag = true := by
      cases hf : s.flag
      · exact absurd ((attempt_critical t s hp).mpr hf) hc
      · rfl
    have he : attempt t s = { setThread s t { s.threads t with view := (s.threads t).view.join s.flagView } with flag := true } := by
      simp [attempt, testAndSet, hflag, Order.acquires, Order.releases]
      rfl
    rw [he]
    refine ⟨?_, ?_, ?_, ?_, h.fle, ?_, ?_⟩
    · intro u
      rw [holder_snoc]
      by_cases e : u = t
      · subst e; simpa [setThread] using h.pc u
      · simpa [setThread, e] using h.pc u
    · rw [holder_snoc]; have := h.flag; rw [hflag] at this; exact this
    · intro l; rw [lastWrite_snoc]; exact h.last l
    · intro u l
      by_cases e : u = t
      · subst e; have := h.vle u l; have := h.fle l; simp [setThread, View.join]; omega
      · simpa [setThread, e] using h.vle u l
    · intro u hu l
      rw [holder_snoc] at hu
      by_cases e : u = t
      · subst e
        have h1 := h.held u hu l; have h2 := h.fle l
        simp only [setThread, View.join, if_true]; omega
      · simpa [setThread, e] using h.held u hu l
    · intro hn l
      rw [holder_snoc] at hn
      exact h.free hn l
  | locked t hp hc =>
    have hflag : s.flag = false := (attempt_critical t s hp).mp hc
    have hnone : holder es = none := by
      have := h.flag
      rw [hflag] at this
      cases hh : holder es
      · rfl
      · rw [hh] at this; cases this
    have he : attempt t s = { setThread s t ⟨.critical, (s.threads t).view.join s.flagView⟩ with flag := true } := by
      simp only [attempt, testAndSet, hflag, Order.acquires, Order.releases, setThread]
      simp only [if_true, Bool.false_eq_true, if_false]
      congr 1
      funext u
      by_cases e : u = t <;> simp [e]
    rw [he]
    refine ⟨?_, ?_, ?_, ?_, h.fle, ?_, ?_⟩
    · intro u
      rw [holder_snoc]
      by_cases e : u = t
      · subst e; simp [setThread]
      · have := h.pc u
        rw [hnone] at this
        simp only [setThread, e, if_false, Option.some.injEq, Ne.symm e, iff_false]
        intro hx; cases this.mp hx
    · rw [holder_snoc]; rfl
    · intro l; rw [lastWrite_snoc]; exact h.last l
    · intro u l
      by_cases e : u = t
      · subst e; have := h.vle u l; have := h.fle l; simp [setThread, View.join]; omega
      · simpa [setThread, e] using h.vle u l
    · intro u hu l
      rw [holder_snoc] at hu
      simp only [Option.some.injEq] at hu
      subst hu
      have h1 := h.vle t l; have h2 := h.free hnone l
      simp only [setThread, View.join, if_true]; omega
    · intro hn; rw [holder_snoc] at hn; cases hn
  | unlocked t hp =>
    have hh : holder es = some t := (h.pc t).mp hp
    have he : unlock t s = { setThread s t ⟨.idle, (s.threads t).view⟩ with flag := false, flagView := (s.threads t).view } := by
      simp [unlock, SpinLock.clear, Order.releases, setThread]
    rw [he]
    refine ⟨?_, ?_, ?_, ?_, ?_, ?_, ?_⟩
    · intro u
      rw [holder_snoc]
      by_cases e : u = t
      · subst e; simp [setThread]
      · have := h.pc u
        rw [hh] at this
        simp only [Option.some.injEq, Ne.symm e, iff_false] at this
        simpa [setThread, e] using this
    · rw [holder_snoc]; rfl
    · intro l; rw [lastWrite_snoc]; exact h.last l
    · intro u l
      by_cases e : u = t
      · subst e; simpa [setThread] using h.vle u l
      · simpa [setThread, e] using h.vle u l
    · intro l; exact h.vle t l
    · intro u hu; rw [holder_snoc] at hu; cases hu
    · intro _ l; exact h.held t hh l
  | read t l n hp h1 h2 =>
    refine ⟨?_, ?_, ?_, h.vle, h.fle, ?_, ?_⟩
    · intro u; rw [holder_snoc]; exact h.pc u
    · rw [holder_snoc]; exact h.flag
    · intro l; rw [lastWrite_snoc]; exact h.last l
    · intro u hu; rw [holder_snoc] at hu; exact h.held u hu
    · intro hn; rw [holder_snoc] at hn; exact h.free hn
  | race t l hp hr =>
    refine ⟨?_, ?_, ?_, h.vle, h.fle, ?_, ?_⟩
    · intro u; rw [holder_snoc]; exact h.pc u
    · rw [holder_snoc]; exact h.flag
    · intro l; rw [lastWrite_snoc]; exact h.last l
    · intro u hu; rw [holder_snoc] at hu; exact h.held u hu
    · intro hn; rw [holder_snoc] at hn; exact h.free hn
  | write t l v hp =>
    have hh : holder es = some t := (h.pc t).mp hp
    have hlen : ∀ m, (if m = l then s.mem l ++ [v] else s.mem m).length = if m = l then (s.mem l).length + 1 else (s.mem m).length := by
      intro m; by_cases e : m = l <;> simp [e]
    refine ⟨?_, ?_, ?_, ?_, ?_, ?_, ?_⟩
    · intro u
      rw [holder_snoc]
      by_cases e : u = t
      · subst e; simpa [setThread] using h.pc u
      · simpa [setThread, e] using h.pc u
    · rw [holder_snoc]; exact h.flag
    · intro m
      rw [lastWrite_snoc]
      by_cases e : l = m
      · subst e; simp [setThread, valueAt]
      · have := h.last m
        simpa [setThread, valueAt, e, Ne.symm e] using this
    · intro u m
      by_cases e : u = t
      · subst e
        have := h.vle u m
        by_cases e2 : m = l
        · subst e2; simp [setThread]
        · simpa [setThread, e2] using this
      · have := h.vle u m
        by_cases e2 : m = l
        · subst e2; simp [setThread, e]; omega
        · simpa [setThread, e2, e] using this
    · intro m
      have := h.fle m
      by_cases e2 : m = l
      · subst e2; simp [setThread]; omega
      · simpa [setThread, e2] using this
    · intro u hu m
      rw [holder_snoc] at hu
      simp only [hh, Option.some.injEq] at hu
      subst hu
      by_cases e2 : m = l
      · subst e2; simp [setThread]
      · simpa [setThread, e2] using h.held t hh m
    · intro hn; rw [holder_snoc] at hn; simp [hh] at hn

theorem lockInv_run {es : List SpinLock.Event} {s : State} (h : Run es s) : LockInv es s := by
  induction h with
  | nil => exact ⟨by simp [init, holder], rfl, by simp [init, lastWrite, valueAt], by simp [init], by simp [init], by simp [holder], by simp [init]⟩
  | snoc es s e s' _ hs ih => exact lockInv_step ih hs

theorem run_split {es1 es2 : List SpinLock.Event} {e : SpinLock.Event} {s : State} (h : Run (es1 ++ e :: es2) s) :
    ∃ s1 s2, Run es1 s1 ∧ Step s1 e s2 := by
  generalize hl : es1 ++ e :: es2 = l at h
  induction h generalizing es2 with
  | nil => simp at hl
  | snoc l s0 e' s' hr hs ih =>
    rcases List.eq_nil_or_concat es2 with rfl | ⟨m, x, rfl⟩
    · obtain ⟨rfl, h2⟩ := List.append_inj' hl rfl
      cases h2
      exact ⟨_, _, hr, hs⟩
    · rw [List.concat_eq_append, ← List.cons_append, ← List.append_assoc] at hl
      exact ih (List.append_inj' hl rfl).1

/-- C58: mutual exclusion. When `lock()` returns nobody holds the lock; a thread that unlocks, reads or writes holds it. -/
theorem C58_mutual_exclusion (es : List SpinLock.Event) (s : State) (h : Run es s) (pre post : List SpinLock.Event) (t : Nat) :
    (es = pre ++ .locked t :: post → holder pre = none) ∧
    (es = pre ++ .unlocked t :: post → holder pre = some t) ∧
    (∀ l v, es = pre ++ .read t l v :: post → holder pre = some t) ∧
    (∀ l v, es = pre ++ .write t l v :: post → holder pre = some t) := by
  refine ⟨?_, ?_, ?_, ?_⟩
  · rintro rfl
    obtain ⟨s1, s2, hr, hs⟩ := run_split h
    have hi := lockInv_run hr
    cases hs with
    | locked _ hp hc =>
      have hf := (attempt_critical t s1 hp).mp hc
      rw [hi.flag] at hf
      cases hh : holder pre
      · rfl
      · rw [hh] at hf; cases hf
  · rintro rfl
    obtain ⟨s1, s2, hr, hs⟩ := run_split h
    cases hs with
    | unlocked _ hp => exact ((lockInv_run hr).pc t).mp hp
  · rintro l v rfl
    obtain ⟨s1, s2, hr, hs⟩ := run_split h
    cases hs with
    | read _ _ n hp _ _ => exact ((lockInv_run hr).pc t).mp hp
  · rintro l v rfl
    obtain ⟨s1, s2, hr, hs⟩ := run_split h
    cases hs with
    | write _ _ _ hp => exact ((lockInv_run hr).pc t).mp hp

/-- C58: at any moment at most one thread is between the return of `lock()` and `unlock()`: the holder. -/
theorem C58_one (es : List SpinLock.Event) (s : State) (h : Run es s) (t u : Nat) (ht : (s.threads t).pc = .critical)
    (hu : (s.threads u).pc = .critical) : t = u ∧ holder es = some t := by
  have hi := lockInv_run h
  have h1 := (hi.pc t).mp ht
  have h2 := (hi.pc u).mp hu
  rw [h1] at h2
  exact ⟨by simpa using h2, h1⟩

/-- C58: visibility. A read gives the value last written, by whatever thread; there are no data races. -/
theorem C58_visibility (es : List SpinLock.Event) (s : State) (h : Run es s) (pre post : List SpinLock.Event) (t l : Nat) :
    (∀ v, es = pre ++ .read t l v :: post → v = lastWrite l pre) ∧ .race t l ∉ es := by
  refine ⟨?_, ?_⟩
  · rintro v rfl
    obtain ⟨s1, s2, hr, hs⟩ := run_split h
    have hi := lockInv_run hr
    cases hs with
    | read _ _ n hp h1 h2 =>
      rw [hi.held t ((hi.pc t).mp hp) l] at h1
      rw [hi.last l, show n = (s1.mem l).length by omega]
  · intro hm
    obtain ⟨a, b, rfl⟩ := List.append_of_mem hm
    obtain ⟨s1, s2, hr, hs⟩ := run_split h
    have hi := lockInv_run hr
    cases hs with
    | race _ _ hp hne => exact hne (hi.held t ((hi.pc t).mp hp) l)

/-- C59: while nobody holds the lock, the next attempt of a thread in `lock()` succeeds, and cannot fail. -/
theorem C59_free (es : List SpinLock.Event) (s : State) (h : Run es s) (t : Nat) (ht : (s.threads t).pc = .locking) (hf : holder es = none) :
    Run (es ++ [.locked t]) (attempt t s) ∧ ∀ s', ¬ Step s (.failed t) s' := by
  have hi := lockInv_run h
  have hflag : s.flag = false := by rw [hi.flag, hf]; rfl
  have hc := (attempt_critical t s ht).mpr hflag
  refine ⟨.snoc _ _ _ _ h (.locked s t ht hc), ?_⟩
  intro s' hs
  cases hs with
  | failed _ _ hn => exact hn hc

/-- C59: from every state every thread in `lock()` can still get the lock. -/
theorem C59_no_deadlock (es : List SpinLock.Event) (s : State) (h : Run es s) (t : Nat) (ht : (s.threads t).pc = .locking) :
    ∃ es' s', Run (es ++ es' ++ [.locked t]) s' ∧ (s'.threads t).pc = .critical := by
  have hi := lockInv_run h
  cases hh : holder es with
  | none =>
    refine ⟨[], attempt t s, by simpa using (C59_free es s h t ht hh).1, ?_⟩
    exact (attempt_critical t s ht).mpr (by rw [hi.flag, hh]; rfl)
  | some u =>
    have hu : (s.threads u).pc = .critical := (hi.pc u).mpr hh
    have hne : t ≠ u := by rintro rfl; rw [hu] at ht; cases ht
    have h1 : Run (es ++ [.unlocked u]) (unlock u s) := .snoc _ _ _ _ h (.unlocked s u hu)
    have ht' : ((unlock u s).threads t).pc = .locking := by simpa [unlock, SpinLock.clear, setThread, hne] using ht
    have hn : holder (es ++ [.unlocked u]) = none := by rw [holder_snoc]
    refine ⟨[.unlocked u], attempt t (unlock u s), (C59_free _ _ h1 t ht' hn).1, ?_⟩
    exact (attempt_critical t _ ht').mpr (by rw [(lockInv_run h1).flag, hn]; rfl)

/-- C59: a failed attempt happens only while another thread holds the lock, and changes neither the lock nor the memory nor any other
thread, and leaves the thread in `lock()`. -/
theorem C59_failed (es : List SpinLock.Event) (s : State) (h : Run es s) (t : Nat) (s' : State) (hs : Step s (.failed t) s') :
    (∃ u, u ≠ t ∧ holder es = some u) ∧ s'.flag = s.flag ∧ s'.mem = s.mem ∧ (∀ u, u ≠ t → s'.threads u = s.threads u) ∧
    (s'.threads t).pc = .locking := by
  have hi := lockInv_run h
  cases hs with
  | failed _ hp hn =>
    have hflag : s.flag = true := by
      cases hf : s.flag
      · exact absurd ((attempt_critical t s hp).mpr hf) hn
      · rfl
    refine ⟨?_, ?_, ?_, ?_, ?_⟩
    · have := hi.flag
      rw [hflag] at this
      cases hh : holder es with
      | none => rw [hh] at this; cases this
      | some u =>
        refine ⟨u, ?_, rfl⟩
        rintro rfl
        rw [(hi.pc u).mpr hh] at hp; cases hp
    · simp [attempt, testAndSet, hflag]
    · simp [attempt, testAndSet, hflag, setThread]
    · intro u hu; simp [attempt, testAndSet, hflag, setThread, hu]
    · simpa [attempt, testAndSet, hflag, setThread] using hp

/-- A run in which two threads compete, the second one fails once, and reads what the first one wrote. -/
example : ∃ s, Run [.call 0, .call 1, .locked 0, .failed 1, .write 0 7 42, .unlocked 0, .locked 1, .read 1 7 42] s := by
  have h0 : Run [] init := .nil
  have h1 := Run.snoc _ _ _ _ h0 (.call _ 0 rfl)
  have h2 := Run.snoc _ _ _ _ h1 (.call _ 1 rfl)
  have h3 := Run.snoc _ _ _ _ h2 (.locked _ 0 rfl rfl)
  have h4 := Run.snoc _ _ _ _ h3 (.failed _ 1 rfl (by decide))
  have h5 := Run.snoc _ _ _ _ h4 (.write _ 0 7 42 rfl)
  have h6 := Run.snoc _ _ _ _ h5 (.unlocked _ 0 rfl)
  have h7 := Run.snoc _ _ _ _ h6 (.locked _ 1 rfl rfl)
  have h8 := Run.snoc _ _ _ _ h7 (.read _ 1 7 1 rfl (by decide) (by decide))
  exact ⟨_, h8⟩

end Utki
