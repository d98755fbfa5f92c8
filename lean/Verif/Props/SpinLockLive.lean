import Verif.Spec.SpinLockLive
import Verif.Props.SpinLock
/-!
# Liveness of `spin_lock` (C59)
-/
namespace Utki
open SpinLock Spec

/-- What has happened before time `n`. -/
def SpinLock.before (e : Nat → SpinLock.Event) (n : Nat) : List SpinLock.Event := (List.range n).map e

theorem SpinLock.before_succ (e : Nat → SpinLock.Event) (n : Nat) : before e (n + 1) = before e n ++ [e n] := by
  simp [before, List.range_succ]

theorem SpinLock.run_before {s : Nat → State} {e : Nat → SpinLock.Event} (h : Execution s e) (n : Nat) : Run (before e n) (s n) := by
  induction n with
  | zero => rw [h.start]; exact .nil
  | succ n ih => rw [before_succ]; exact .snoc _ _ _ _ ih (h.step n)

theorem SpinLock.holder_before {e : Nat → SpinLock.Event} {n u : Nat} (h : holder (before e n) = some u) :
    ∃ k < n, e k = .locked u ∧ ∀ m, k < m → m < n → ∀ v, e m ≠ .unlocked v := by
  induction n with
  | zero => simp [before, holder] at h
  | succ n ih =>
    rw [before_succ, holder_snoc] at h
    have go : holder (before e n) = some u → (∀ v, e n ≠ .unlocked v) →
        ∃ k < n + 1, e k = .locked u ∧ ∀ m, k < m → m < n + 1 → ∀ v, e m ≠ .unlocked v := by
      intro h1 h2
      obtain ⟨k, hk, e1, e2⟩ := ih h1
      refine ⟨k, by omega, e1, fun m h3 h4 => ?_⟩
      by_cases hm : m = n
      · subst hm; exact h2
      · exact e2 m h3 (by omega)
    cases he : e n with
    | locked t => rw [he] at h; cases h; exact ⟨n, by omega, he, fun m _ _ => by omega⟩
    | unlocked t => rw [he] at h; cases h
    | call t => rw [he] at h; exact go h (by simp [he])
    | failed t => rw [he] at h; exact go h (by simp [he])
    | read t l v => rw [he] at h; exact go h (by simp [he])
    | write t l v => rw [he] at h; exact go h (by simp [he])
    | race t l => rw [he] at h; exact go h (by simp [he])

/-- C59: in every infinite execution with a fair scheduler in which every holder releases the lock some time, whenever some thread waits, some
thread gets the lock later. -/
theorem C59_live (s : Nat → State) (e : Nat → SpinLock.Event) (h : Execution s e) (hf : Fair e) (hr : Releases e) (t n : Nat)
    (hw : Waiting e t n) : ∃ m ≥ n, ∃ u, e m = .locked u := by
  refine Classical.byContradiction fun hno => ?_
  have hno' : ∀ m ≥ n, ∀ u, e m ≠ .locked u := fun m hm u he => hno ⟨m, hm, u, he⟩
  have hwait : ∀ m ≥ n, Waiting e t m := by
    intro m hm
    obtain ⟨k, hk, e1, e2⟩ := hw
    refine ⟨k, by omega, e1, fun j h1 h2 => ?_⟩
    by_cases hj : j < n
    · exact e2 j h1 hj
    · exact hno' j (by omega) t
  have hfree : ∃ m ≥ n, holder (before e m) = none := by
    cases hh : holder (before e n) with
    | none => exact ⟨n, Nat.le_refl _, hh⟩
    | some u =>
      obtain ⟨k, hk, e1, e2⟩ := holder_before hh
      obtain ⟨m, hm, e3⟩ := hr u k e1
      have hmn : n ≤ m := by
        by_cases hmn : m < n
        · exact absurd e3 (e2 m hm hmn u)
        · omega
      exact ⟨m + 1, by omega, by rw [before_succ, holder_snoc, e3]⟩
  obtain ⟨m0, hm0, hfree⟩ := hfree
  have hstay : ∀ d, holder (before e (m0 + d)) = none := by
    intro d
    induction d with
    | zero => exact hfree
    | succ d ih =>
      rw [← Nat.add_assoc, before_succ, holder_snoc]
      have := hno' (m0 + d) (by omega)
      cases he : e (m0 + d) with
      | locked u => exact absurd he (this u)
      | unlocked u => rfl
      | call u => exact ih
      | failed u => exact ih
      | read u l v => exact ih
      | write u l v => exact ih
      | race u l => exact ih
  obtain ⟨j, hj, hatt⟩ := hf t m0 (fun m hm => hwait m (by omega))
  rcases hatt with hl | hl
  · exact hno' j (by omega) t hl
  · have hstep := h.step j
    rw [hl] at hstep
    obtain ⟨⟨u, -, hu⟩, -⟩ := C59_failed _ _ (run_before h j) t _ hstep
    have := hstay (j - m0)
    rw [show m0 + (j - m0) = j by omega, hu] at this
    cases this

/-- The lock as in the example below: thread 0 tries, thread 1 is at `p`. -/
def SpinLock.duel (held : Bool) (p : Pc) : State :=
  ⟨held, fun _ => 0, fun _ => [], fun t => ⟨if t = 0 then .locking else if t = 1 then p else .idle, fun _ => 0⟩⟩

/-- Thread 0 calls `lock()`; then thread 1 takes and releases the lock for ever, and thread 0 tries only while it is taken. -/
def SpinLock.unlucky : Nat → SpinLock.Event
  | 0 => .call 0
  | n + 1 => match n % 4 with
    | 0 => .call 1
    | 1 => .locked 1
    | 2 => .failed 0
    | _ => .unlocked 1

/-- The states of that execution. -/
def SpinLock.unluckyState : Nat → State
  | 0 => init
  | n + 1 => match n % 4 with
    | 0 => duel false .idle
    | 1 => duel false .locking
    | 2 => duel true .critical
    | _ => duel true .critical

theorem SpinLock.view_zero : View.join (fun _ => 0) (fun _ => 0) = fun _ => 0 := by
  funext l; simp [View.join]

theorem SpinLock.duel_attempt1 : attempt 1 (duel false .locking) = duel true .critical := by
  simp only [attempt, testAndSet, duel, setThread, Order.acquires, Order.releases, if_true, view_zero]
  simp only [Bool.false_eq_true, if_false, State.mk.injEq, true_and]
  funext u
  by_cases h0 : u = 0
  · subst h0; simp
  · by_cases h1 : u = 1
    · subst h1; simp
    · simp [h0, h1]

theorem SpinLock.duel_attempt0 : attempt 0 (duel true .critical) = duel true .critical := by
  simp only [attempt, testAndSet, duel, setThread, Order.acquires, Order.releases, if_true, view_zero]
  simp only [Bool.false_eq_true, if_false, State.mk.injEq, true_and]
  funext u
  by_cases h0 : u = 0
  · subst h0; simp
  · simp [h0]

/-- C59: nothing more can be promised: there is an execution with a fair scheduler, in which every holder releases the lock, and in which a thread
waits for ever. -/
theorem C59_starvation_possible : ∃ (s : Nat → State) (e : Nat → SpinLock.Event),
    Execution s e ∧ Fair e ∧ Releases e ∧ (∀ n ≥ 1, Waiting e 0 n) ∧ ∀ n, e n ≠ .locked 0 := by
  have hne : ∀ n, unlucky n ≠ .locked 0 := by
    intro n
    cases n with
    | zero => simp [unlucky]
    | succ n => simp only [unlucky]; split <;> simp
  have hcall : ∀ n t, unlucky n = .call t → t = 0 ∨ (t = 1 ∧ ∃ k, n = 4 * k + 1) := by
    intro n t h
    cases n with
    | zero => simp only [unlucky, Event.call.injEq] at h; exact .inl h.symm
    | succ n =>
      simp only [unlucky] at h
      split at h
      · rename_i h0
        simp only [Event.call.injEq] at h
        exact .inr ⟨h.symm, n / 4, by omega⟩
      all_goals cases h
  have hlock : ∀ k, unlucky (4 * k + 2) = .locked 1 := by
    intro k
    have : (4 * k + 1) % 4 = 1 := by omega
    simp only [unlucky, this]
  refine ⟨unluckyState, unlucky, ⟨rfl, ?_⟩, ?_, ?_, ?_, hne⟩
  · intro n
    cases n with
    | zero =>
      have : setThread init 0 { init.threads 0 with pc := .locking } = duel false .idle := by
        simp only [setThread, init, duel, State.mk.injEq, true_and]
        funext u
        by_cases h0 : u = 0 <;> simp [h0]
      have h := Step.call init 0 rfl
      rw [this] at h
      exact h
    | succ n =>
      have h4 : n % 4 = 0 ∨ n % 4 = 1 ∨ n % 4 = 2 ∨ n % 4 = 3 := by omega
      rcases h4 with h | h | h | h
      · have h' : (n + 1) % 4 = 1 := by omega
        simp only [unluckyState, unlucky, h, h']
        have : setThread (duel false .idle) 1 { (duel false .idle).threads 1 with pc := .locking } = duel false .locking := by
          simp only [setThread, duel, State.mk.injEq, true_and]
          funext u
          by_cases h0 : u = 1
          · subst h0; simp
          · simp [h0]
        have h := Step.call (duel false .idle) 1 rfl
        rw [this] at h
        exact h
      · have h' : (n + 1) % 4 = 2 := by omega
        simp only [unluckyState, unlucky, h, h']
        have h := Step.locked (duel false .locking) 1 rfl (by rw [duel_attempt1]; rfl)
        rw [duel_attempt1] at h
        exact h
      · have h' : (n + 1) % 4 = 3 := by omega
        simp only [unluckyState, unlucky, h, h']
        have h := Step.failed (duel true .critical) 0 rfl (by rw [duel_attempt0]; simp [duel])
        rw [duel_attempt0] at h
        exact h
      · have h' : (n + 1) % 4 = 0 := by omega
        simp only [unluckyState, unlucky, h, h']
        have : unlock 1 (duel true .critical) = duel false .idle := by
          simp only [unlock, clear, duel, setThread, Order.releases, if_true, State.mk.injEq, true_and]
          funext u
          by_cases h0 : u = 1
          · subst h0; simp
          · simp [h0]
        have h := Step.unlocked (duel true .critical) 1 rfl
        rw [this] at h
        exact h
  · intro t n hw
    obtain ⟨k, hk, hc, hnl⟩ := hw (n + 5) (by omega)
    rcases hcall k t hc with rfl | ⟨rfl, j, rfl⟩
    · refine ⟨4 * n + 3, by omega, .inr ?_⟩
      have : (4 * n + 2) % 4 = 2 := by omega
      simp only [unlucky, this]
    · obtain ⟨k', hk', hc', hnl'⟩ := hw (n + 4 * (4 * j + 1) + 10) (by omega)
      rcases hcall k' 1 hc' with h | ⟨-, j', rfl⟩
      · cases h
      · by_cases hin : 4 * j' + 2 < n + 4 * (4 * j + 1) + 10
        · exact absurd (hlock j') (hnl' _ (by omega) hin)
        · exact ⟨4 * j' + 2, by omega, .inl (hlock j')⟩
  · intro t n h
    cases n with
    | zero => simp [unlucky] at h
    | succ n =>
      simp only [unlucky] at h
      split at h
      · cases h
      · rename_i h1
        cases h
        refine ⟨n + 3, by omega, ?_⟩
        have : (n + 2) % 4 = 3 := by omega
        simp only [unlucky, this]
      · cases h
      · cases h
  · intro n hn
    exact ⟨0, by omega, rfl, fun m _ _ => hne m⟩

end Utki
