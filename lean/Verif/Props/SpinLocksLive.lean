import Verif.Spec.LocksLive
import Verif.Props.SpinLocks
/-!
# C114: progress with several locks
-/
namespace Utki
namespace SpinLocks
open Spec.Locks

/-- What has happened before time `n`. -/
def before (e : Nat → Option Event) (n : Nat) : List Event := (List.range n).filterMap e

theorem before_succ (e : Nat → Option Event) (n : Nat) : before e (n + 1) = before e n ++ (e n).toList := by
  rw [before, List.range_succ, List.filterMap_append, before]
  cases h : e n <;> simp [h]

theorem run_before {guard : Nat → Nat} {may : List Nat → Nat → Prop} {s : Nat → State} {e : Nat → Option Event} (h : Endless guard may s e) (n : Nat) :
    Run guard may (before e n) (s n) := by
  induction n with
  | zero => rw [h.start]; exact .nil
  | succ n ih =>
    rw [before_succ]
    cases he : e n with
    | none => rw [h.idle n he]; simpa using ih
    | some x => exact .snoc _ _ _ _ ih (h.step n x he)

theorem waiting_before {e : Nat → Option Event} {t k n : Nat} (h : InLock e t k n) : Waiting t k (before e n) := by
  obtain ⟨i, hi, e1, e2⟩ := h
  refine ⟨before e i, (List.range' (i + 1) (n - i - 1)).filterMap e, ?_, ?_⟩
  · have : List.range n = List.range i ++ i :: List.range' (i + 1) (n - i - 1) := by
      rw [List.range_eq_range', List.range_eq_range', ← List.range'_succ]
      rw [show n - i - 1 + 1 = n - i by omega]
      have := List.range'_append (s := 0) (m := i) (n := n - i) (step := 1)
      simp only [Nat.one_mul, Nat.zero_add] at this
      rw [this]
      congr 1; omega
    rw [before, this, List.filterMap_append, List.filterMap_cons_some e1]
    rfl
  · intro hm
    obtain ⟨m, hm1, hm2⟩ := List.mem_filterMap.mp hm
    rw [List.mem_range'_1] at hm1
    exact e2 m (by omega) (by omega) hm2

/-- Who holds a lock has got it some time, and nobody has unlocked it since. -/
theorem owner_before {e : Nat → Option Event} {k n u : Nat} (h : owner k (before e n) = some u) :
    ∃ i < n, e i = some (.locked u k) ∧ ∀ m, i < m → m < n → ∀ v, e m ≠ some (.unlocked v k) := by
  induction n with
  | zero => simp [before, owner] at h
  | succ n ih =>
    rw [before_succ] at h
    have go : owner k (before e n) = some u → (∀ v, e n ≠ some (.unlocked v k)) →
        ∃ i < n + 1, e i = some (.locked u k) ∧ ∀ m, i < m → m < n + 1 → ∀ v, e m ≠ some (.unlocked v k) := by
      intro h1 h2
      obtain ⟨i, hi, e1, e2⟩ := ih h1
      refine ⟨i, by omega, e1, fun m h3 h4 => ?_⟩
      by_cases hm : m = n
      · subst hm; exact h2
      · exact e2 m h3 (by omega)
    cases he : e n with
    | none => rw [he] at h; exact go (by simpa using h) (by simp [he])
    | some x =>
    rw [he, Option.toList_some, owner_snoc] at h
    cases x with
    | locked t j =>
      simp only at h
      by_cases hj : j = k
      · rw [if_pos hj] at h
        cases h
        subst hj
        exact ⟨n, by omega, he, fun m _ _ => by omega⟩
      · rw [if_neg hj] at h
        exact go h (by simp [he])
    | unlocked t j =>
      simp only at h
      by_cases hj : j = k
      · rw [if_pos hj] at h; cases h
      · rw [if_neg hj] at h
        exact go h (by simp [he, hj])
    | call t j => exact go h (by simp [he])
    | failed t j => exact go h (by simp [he])
    | read t l v => exact go h (by simp [he])
    | write t l v => exact go h (by simp [he])
    | race t l => exact go h (by simp [he])

/-- If nobody gets the lock, it can only become free. -/
theorem owner_later {e : Nat → Option Event} {k n : Nat} (hno : ∀ m ≥ n, ∀ u, e m ≠ some (.locked u k)) (d : Nat) :
    owner k (before e (n + d)) = none ∨ owner k (before e (n + d)) = owner k (before e n) := by
  induction d with
  | zero => exact .inr rfl
  | succ d ih =>
    rw [← Nat.add_assoc, before_succ]
    have hl := hno (n + d) (by omega)
    cases he : e (n + d) with
    | none => simpa using ih
    | some x =>
    rw [Option.toList_some, owner_snoc]
    cases x with
    | locked t j =>
      have hj : j ≠ k := by
        rintro rfl
        exact hl t he
      simpa [hj] using ih
    | unlocked t j =>
      by_cases hj : j = k
      · simp [hj]
      · simpa [hj] using ih
    | call t j => exact ih
    | failed t j => exact ih
    | read t l v => exact ih
    | write t l v => exact ih
    | race t l => exact ih

/-- An attempt fails only if somebody holds the lock. -/
theorem owner_failed {guard : Nat → Nat} {may : List Nat → Nat → Prop} {es : List Event} {s s' : State} {t k : Nat} (h : Run guard may es s)
    (hs : Step guard may s (.failed t k) s') : owner k es ≠ none := by
  intro hn
  have hI := inv_run h
  cases hs with
  | failed _ _ hw hf =>
    have := hI.flag k
    rw [hn] at this
    simp only [Option.isSome_none] at this
    simp [attempt, testAndSet, this] at hf

end SpinLocks
open SpinLocks Spec.Locks

/-- **C114.** In every endless execution with a fair scheduler, in which locks are taken in order and every holder that does not itself wait for ever releases
what it holds, a thread that waits for a lock is followed by a thread that gets this lock or a greater one: the threads cannot all come to a standstill. -/
theorem C114_live (guard : Nat → Nat) (s : Nat → State) (e : Nat → Option Event) (h : Endless guard InOrder s e) (hf : FairScheduler e)
    (hr : ReleasesUnlessStuck e) (t k n : Nat) (hw : InLock e t k n) : ∃ m ≥ n, ∃ u j, k ≤ j ∧ e m = some (.locked u j) := by
  refine Classical.byContradiction fun hno => ?_
  have hno' : ∀ m ≥ n, ∀ u j, k ≤ j → e m ≠ some (.locked u j) := fun m hm u j hj he => hno ⟨m, hm, u, j, hj, he⟩
  obtain ⟨M, hM⟩ := owner_bound (before e n)
  have key : ∀ d t k' n', M - k' ≤ d → k ≤ k' → n ≤ n' → ¬ InLock e t k' n' := by
    intro d
    induction d with
    | zero =>
      intro t k' n' hd hk hn hw
      -- the lock is free for ever
      have hfree : ∀ m ≥ n, owner k' (before e m) = none := by
        intro m hm
        have := owner_later (e := e) (k := k') (n := n) (fun m hm u => hno' m hm u k' hk) (m - n)
        rw [show n + (m - n) = m by omega] at this
        rcases this with h1 | h1
        · exact h1
        · cases h2 : owner k' (before e m) with
          | none => rfl
          | some v => have := hM k' v (h1 ▸ h2); omega
      have hwait : ∀ m ≥ n', InLock e t k' m := by
        intro m hm
        obtain ⟨i, hi, e1, e2⟩ := hw
        refine ⟨i, by omega, e1, fun j h1 h2 => ?_⟩
        by_cases hj : j < n'
        · exact e2 j h1 hj
        · exact hno' j (by omega) t k' hk
      obtain ⟨m, hm, ha⟩ := hf t k' n' hwait
      rcases ha with ha | ha
      · exact hno' m (by omega) t k' hk ha
      · exact owner_failed (run_before h m) (h.step m _ ha) (hfree m (by omega))
    | succ d ih =>
      intro t k' n' hd hk hn hw
      have hwait : ∀ m ≥ n', InLock e t k' m := by
        intro m hm
        obtain ⟨i, hi, e1, e2⟩ := hw
        refine ⟨i, by omega, e1, fun j h1 h2 => ?_⟩
        by_cases hj : j < n'
        · exact e2 j h1 hj
        · exact hno' j (by omega) t k' hk
      -- it is never free
      have hheld : ∀ m ≥ n', owner k' (before e m) ≠ none := by
        intro m hm hfree
        obtain ⟨i, hi, ha⟩ := hf t k' m (fun j hj => hwait j (by omega))
        rcases ha with ha | ha
        · exact hno' i (by omega) t k' hk ha
        · apply owner_failed (run_before h i) (h.step i _ ha)
          have := owner_later (e := e) (k := k') (n := m) (fun j hj u => hno' j (by omega) u k' hk) (i - m)
          rw [show m + (i - m) = i by omega, hfree] at this
          rcases this with h1 | h1 <;> exact h1
      have hsame : ∀ m ≥ n', owner k' (before e m) = owner k' (before e n) := by
        intro m hm
        have := owner_later (e := e) (k := k') (n := n) (fun m hm u => hno' m hm u k' hk) (m - n)
        rw [show n + (m - n) = m by omega] at this
        rcases this with h1 | h1
        · exact absurd h1 (hheld m hm)
        · exact h1
      cases ho : owner k' (before e n') with
      | none => exact hheld n' (Nat.le_refl _) ho
      | some u =>
        obtain ⟨i, hi, e1, e2⟩ := owner_before ho
        rcases hr u k' i e1 with ⟨m, hm, e3⟩ | ⟨j, m, hj⟩
        · have hmn : n' ≤ m := by
            by_cases hmn : m < n'
            · exact absurd e3 (e2 m hm hmn u)
            · omega
          apply hheld (m + 1) (by omega)
          rw [before_succ, e3, Option.toList_some, owner_unlocked, if_pos rfl]
        · -- the holder waits for a greater lock
          have hp := hj (max m n') (by omega)
          have hrun := run_before h (max m n')
          have hwant := want_of_waiting hrun (waiting_before hp)
          have howner : owner k' (before e (max m n')) = some u := by
            rw [hsame _ (by omega), ← hsame n' (Nat.le_refl _), ho]
          have hlt := want_gt hrun u j hwant k' (((inv_run hrun).held u k').mpr howner)
          have hkM : k' < M := hM k' u (by rw [← hsame n' (Nat.le_refl _), ho])
          exact ih u j (max m n') (by omega) (by omega) (by omega) hp
  exact key _ t k n (Nat.le_refl _) (Nat.le_refl _) (Nat.le_refl _) hw

namespace SpinLocks

/-- How many calls of `lock()` there were. -/
def calls (es : List Event) : Nat := es.countP fun e => match e with | .call _ _ => true | _ => false

/-- How many of them have returned. -/
def returns (es : List Event) : Nat := es.countP fun e => match e with | .locked _ _ => true | _ => false

/-- Every return of `lock()` belongs to a call: the others are the calls of the threads that wait. -/
theorem balance {guard : Nat → Nat} {may : List Nat → Nat → Prop} {es : List Event} {s : State} (h : Run guard may es s) :
    ∃ W : List Nat, W.Nodup ∧ (∀ t, t ∈ W ↔ (s.threads t).want ≠ none) ∧ returns es + W.length = calls es := by
  induction h with
  | nil => exact ⟨[], List.nodup_nil, by simp [init], rfl⟩
  | snoc es s e s' _ hs ih =>
    obtain ⟨W, h1, h2, h3⟩ := ih
    have same : (∀ t, (s'.threads t).want = (s.threads t).want) → returns (es ++ [e]) = returns es → calls (es ++ [e]) = calls es →
        ∃ W : List Nat, W.Nodup ∧ (∀ t, t ∈ W ↔ (s'.threads t).want ≠ none) ∧ returns (es ++ [e]) + W.length = calls (es ++ [e]) :=
      fun a b c => ⟨W, h1, fun t => by rw [a, h2], by omega⟩
    cases hs with
    | call t k hw hm =>
      refine ⟨t :: W, List.nodup_cons.mpr ⟨fun hm => (h2 t).mp hm hw, h1⟩, fun u => ?_, ?_⟩
      · by_cases hu : u = t
        · simp [hu, setThread]
        · simp [hu, setThread, h2 u]
      · have a : returns (es ++ [.call t k]) = returns es := by simp [returns]
        have b : calls (es ++ [.call t k]) = calls es + 1 := by simp [calls]
        rw [a, b, List.length_cons]; omega
    | failed t k hw hf =>
      refine same (fun u => ?_) (by simp [returns]) (by simp [calls])
      cases hc : (s.locks k).flag with
      | false => simp [attempt, testAndSet, hc] at hf
      | true =>
        by_cases hu : u = t
        · simp [attempt, testAndSet, hc, setThread, setLock, hu]
        · simp [attempt, testAndSet, hc, setThread, setLock, hu]
    | locked t k hw hf =>
      have ht : t ∈ W := (h2 t).mpr (by simp [hw])
      refine ⟨W.erase t, h1.erase t, fun u => ?_, ?_⟩
      · cases hc : (s.locks k).flag with
        | true => simp [attempt, testAndSet, hc] at hf
        | false =>
          rw [h1.mem_erase_iff]
          by_cases hu : u = t
          · simp [attempt, testAndSet, hc, setThread, setLock, hu]
          · simp [attempt, testAndSet, hc, setThread, setLock, hu, h2 u]
      · have a : returns (es ++ [.locked t k]) = returns es + 1 := by simp [returns]
        have b : calls (es ++ [.locked t k]) = calls es := by simp [calls]
        have := List.length_pos_of_mem ht
        rw [a, b, List.length_erase_of_mem ht]; omega
    | unlocked t k hw hk =>
      refine same (fun u => ?_) (by simp [returns]) (by simp [calls])
      by_cases hu : u = t
      · simp [unlock, clear, setThread, setLock, hu]
      · simp [unlock, clear, setThread, setLock, hu]
    | read t l n hw hg hv hn => exact same (fun u => rfl) (by simp [returns]) (by simp [calls])
    | write t l v hw hg =>
      refine same (fun u => ?_) (by simp [returns]) (by simp [calls])
      by_cases hu : u = t
      · simp [setThread, hu]
      · simp [setThread, hu]
    | race t l hw hg hv => exact same (fun u => rfl) (by simp [returns]) (by simp [calls])

theorem returns_mono (e : Nat → Option Event) (n d : Nat) : returns (before e n) ≤ returns (before e (n + d)) := by
  induction d with
  | zero => exact Nat.le_refl _
  | succ d ih =>
    rw [← Nat.add_assoc, before_succ, returns, returns, List.countP_append]
    exact Nat.le_trans ih (Nat.le_add_right _ _)

theorem calls_stop {e : Nat → Option Event} {N : Nat} (h : ∀ n ≥ N, ∀ t k, e n ≠ some (.call t k)) (d : Nat) :
    calls (before e (N + d)) = calls (before e N) := by
  induction d with
  | zero => rfl
  | succ d ih =>
    rw [← Nat.add_assoc, before_succ, calls, List.countP_append, ← calls, ih]
    cases he : e (N + d) with
    | none => rfl
    | some x =>
      cases x with
      | call t k => exact absurd he (h _ (by omega) t k)
      | _ => rfl

end SpinLocks

/-- **C114.** If from some time on no thread calls `lock()` any more, then, under the same conditions, all calls return: every thread that waits gets its
lock. -/
theorem C114_all_return (guard : Nat → Nat) (s : Nat → State) (e : Nat → Option Event) (h : Endless guard InOrder s e) (hf : FairScheduler e)
    (hr : ReleasesUnlessStuck e) (N : Nat) (hN : ∀ n ≥ N, ∀ t k, e n ≠ some (.call t k)) (t k n : Nat) (hw : InLock e t k n) :
    ∃ m ≥ n, e m = some (.locked t k) := by
  refine Classical.byContradiction fun hno => ?_
  have hwait : ∀ m ≥ n, InLock e t k m := by
    intro m hm
    obtain ⟨i, hi, e1, e2⟩ := hw
    refine ⟨i, by omega, e1, fun j h1 h2 h3 => ?_⟩
    by_cases hj : j < n
    · exact e2 j h1 hj h3
    · exact hno ⟨j, by omega, h3⟩
  have many : ∀ c, ∃ m ≥ n, c ≤ returns (before e m) := by
    intro c
    induction c with
    | zero => exact ⟨n, Nat.le_refl _, Nat.zero_le _⟩
    | succ c ih =>
      obtain ⟨m, hm, hc⟩ := ih
      obtain ⟨i, hi, u, j, _, he⟩ := C114_live guard s e h hf hr t k m (hwait m hm)
      refine ⟨i + 1, by omega, ?_⟩
      have := returns_mono e m (i - m)
      rw [show m + (i - m) = i by omega] at this
      have a : returns (before e (i + 1)) = returns (before e i) + 1 := by
        rw [before_succ, he, Option.toList_some, returns, List.countP_append]; rfl
      omega
  obtain ⟨m, hm, hc⟩ := many (calls (before e N) + 1)
  obtain ⟨W, _, _, hb⟩ := balance (run_before h (N + m))
  have h1 := calls_stop hN m
  have h2 := returns_mono e m N
  rw [Nat.add_comm m N] at h2
  omega

namespace SpinLocks

/-- What an event does to the state. -/
def exec (s : State) : Event → State
  | .call t k => setThread s t { s.threads t with want := some k }
  | .failed t k | .locked t k => (attempt t k s).2
  | .unlocked t k => unlock t k s
  | _ => s

/-- An example: thread 0 gets lock 1 and waits for lock 2, which thread 1 holds; in the end all is released. -/
def handOver : List Event := [.call 0 1, .locked 0 1, .call 1 2, .locked 1 2, .call 0 2, .failed 0 2, .unlocked 1 2, .locked 0 2, .unlocked 0 2, .unlocked 0 1]

theorem handOver_lt {n : Nat} {x : Event} (h : handOver[n]? = some x) : n < 10 := (List.getElem?_eq_some_iff.mp h).1

theorem handOver_endless : Endless id InOrder (fun n => (handOver.take n).foldl exec init) (fun n => handOver[n]?) := by
  refine ⟨rfl, fun n x h => ?_, fun n h => ?_⟩
  · have hn := handOver_lt h
    match n, hn with
    | 0, _ => cases h; exact .call _ 0 1 rfl (by intro j hj; cases hj)
    | 1, _ => cases h; exact .locked _ 0 1 rfl rfl
    | 2, _ => cases h; exact .call _ 1 2 rfl (by intro j hj; cases hj)
    | 3, _ => cases h; exact .locked _ 1 2 rfl rfl
    | 4, _ => cases h; exact .call _ 0 2 rfl (show ∀ j ∈ [1], j < 2 by decide)
    | 5, _ => cases h; exact .failed _ 0 2 rfl rfl
    | 6, _ => cases h; exact .unlocked _ 1 2 rfl (by decide)
    | 7, _ => cases h; exact .locked _ 0 2 rfl rfl
    | 8, _ => cases h; exact .unlocked _ 0 2 rfl (by decide)
    | 9, _ => cases h; exact .unlocked _ 0 1 rfl (by decide)
  · have hn : 10 ≤ n := List.getElem?_eq_none_iff.mp h
    show (handOver.take (n + 1)).foldl exec init = (handOver.take n).foldl exec init
    rw [List.take_of_length_le (show handOver.length ≤ n + 1 from Nat.le_succ_of_le hn), List.take_of_length_le (show handOver.length ≤ n from hn)]

theorem handOver_fair : FairScheduler (fun n => handOver[n]?) := by
  intro t k n hw
  obtain ⟨i, _, e1, e2⟩ := hw (n + 10) (by omega)
  have hi := handOver_lt e1
  match i, hi with
  | 0, _ => cases e1; exact absurd rfl (e2 1 (by omega) (by omega))
  | 2, _ => cases e1; exact absurd rfl (e2 3 (by omega) (by omega))
  | 4, _ => cases e1; exact absurd rfl (e2 7 (by omega) (by omega))
  | 1, _ | 3, _ | 5, _ | 6, _ | 7, _ | 8, _ | 9, _ => cases e1

theorem handOver_releases : ReleasesUnlessStuck (fun n => handOver[n]?) := by
  intro t k n h
  have hn := handOver_lt h
  match n, hn with
  | 1, _ => cases h; exact .inl ⟨9, by omega, rfl⟩
  | 3, _ => cases h; exact .inl ⟨6, by omega, rfl⟩
  | 7, _ => cases h; exact .inl ⟨8, by omega, rfl⟩
  | 0, _ | 2, _ | 4, _ | 5, _ | 6, _ | 8, _ | 9, _ => cases h

end SpinLocks

/-- The hypotheses can be met: thread 0, which holds lock 1, waits for lock 2, which another thread holds. -/
example : ∃ s e, Endless id InOrder s e ∧ FairScheduler e ∧ ReleasesUnlessStuck e ∧ (∃ N, ∀ n ≥ N, ∀ t k, e n ≠ some (.call t k)) ∧ InLock e 0 2 6 := by
  refine ⟨_, _, handOver_endless, handOver_fair, handOver_releases, ⟨10, fun n hn t k h => ?_⟩, 4, by omega, rfl, fun m h1 h2 => ?_⟩
  · have := handOver_lt h; omega
  · match m, h1, h2 with
    | 5, _, _ => simp [handOver]

namespace SpinLocks

/-- An example: thread 1 holds lock 1 and waits for lock 2, which thread 2 takes again and again; it is always held when thread 1 tries. -/
def chain : Nat → Option Event
  | 0 => some (.call 1 1)
  | 1 => some (.locked 1 1)
  | 2 => some (.call 0 1)
  | 3 => some (.call 1 2)
  | n + 4 => if n % 5 = 0 then some (.call 2 2) else if n % 5 = 1 then some (.locked 2 2) else if n % 5 = 2 then some (.failed 1 2)
      else if n % 5 = 3 then some (.failed 0 1) else some (.unlocked 2 2)

/-- The states of the example. -/
def chainState : Nat → State
  | 0 => init
  | n + 1 => match chain n with
    | some x => exec (chainState n) x
    | none => chainState n

theorem chain_at (p : Nat) : chain (5 * p + 4) = some (.call 2 2) ∧ chain (5 * p + 5) = some (.locked 2 2) ∧ chain (5 * p + 6) = some (.failed 1 2) ∧
    chain (5 * p + 7) = some (.failed 0 1) ∧ chain (5 * p + 8) = some (.unlocked 2 2) := by
  refine ⟨?_, ?_, ?_, ?_, ?_⟩
  · show (if 5 * p % 5 = 0 then _ else _) = _
    rw [if_pos (by omega)]
  · show (if (5 * p + 1) % 5 = 0 then _ else if (5 * p + 1) % 5 = 1 then _ else _) = _
    rw [if_neg (by omega), if_pos (by omega)]
  · show (if (5 * p + 2) % 5 = 0 then _ else if (5 * p + 2) % 5 = 1 then _ else if (5 * p + 2) % 5 = 2 then _ else _) = _
    rw [if_neg (by omega), if_neg (by omega), if_pos (by omega)]
  · show (if (5 * p + 3) % 5 = 0 then _ else if (5 * p + 3) % 5 = 1 then _ else if (5 * p + 3) % 5 = 2 then _ else if (5 * p + 3) % 5 = 3 then _ else _) = _
    rw [if_neg (by omega), if_neg (by omega), if_neg (by omega), if_pos (by omega)]
  · show (if (5 * p + 4) % 5 = 0 then _ else if (5 * p + 4) % 5 = 1 then _ else if (5 * p + 4) % 5 = 2 then _ else if (5 * p + 4) % 5 = 3 then _ else _) = _
    rw [if_neg (by omega), if_neg (by omega), if_neg (by omega), if_neg (by omega)]

/-- Every time is in the beginning or in some round. -/
theorem chain_times (n : Nat) : n = 0 ∨ n = 1 ∨ n = 2 ∨ n = 3 ∨ ∃ p, n = 5 * p + 4 ∨ n = 5 * p + 5 ∨ n = 5 * p + 6 ∨ n = 5 * p + 7 ∨ n = 5 * p + 8 := by
  by_cases h : n < 4
  · omega
  · exact .inr (.inr (.inr (.inr ⟨(n - 4) / 5, by omega⟩)))

/-- Who holds what and waits for what; `b`: thread 2 holds lock 2. -/
structure ChainInv (want2 : Option Nat) (b : Bool) (s : State) : Prop where
  flag1 : (s.locks 1).flag = true
  flag2 : (s.locks 2).flag = b
  want0 : (s.threads 0).want = some 1
  want1 : (s.threads 1).want = some 2
  want2 : (s.threads 2).want = want2
  held2 : (s.threads 2).held = if b then [2] else []

theorem chainInv_call {s : State} (h : ChainInv none false s) : ChainInv (some 2) false (exec s (.call 2 2)) := by
  obtain ⟨a, b, c, d, f, g⟩ := h
  constructor <;> simp_all [exec, setThread]

theorem chainInv_locked {s : State} (h : ChainInv (some 2) false s) : ChainInv none true (exec s (.locked 2 2)) := by
  obtain ⟨a, b, c, d, f, g⟩ := h
  constructor <;> simp_all [exec, attempt, testAndSet, setThread, setLock]

theorem chainInv_failed1 {s : State} (h : ChainInv none true s) : ChainInv none true (exec s (.failed 1 2)) := by
  obtain ⟨a, b, c, d, f, g⟩ := h
  constructor <;> simp_all [exec, attempt, testAndSet, setThread, setLock]

theorem chainInv_failed0 {s : State} (h : ChainInv none true s) : ChainInv none true (exec s (.failed 0 1)) := by
  obtain ⟨a, b, c, d, f, g⟩ := h
  constructor <;> simp_all [exec, attempt, testAndSet, setThread, setLock]

theorem chainInv_unlocked {s : State} (h : ChainInv none true s) : ChainInv none false (exec s (.unlocked 2 2)) := by
  obtain ⟨a, b, c, d, f, g⟩ := h
  constructor <;> simp_all [exec, unlock, clear, setThread, setLock]

theorem chainState_succ (n : Nat) (x : Event) (h : chain n = some x) : chainState (n + 1) = exec (chainState n) x := by
  rw [chainState, h]

theorem chain_inv (p : Nat) : ChainInv none false (chainState (5 * p + 4)) := by
  induction p with
  | zero => constructor <;> rfl
  | succ p ih =>
    obtain ⟨a, b, c, d, f⟩ := chain_at p
    rw [show 5 * (p + 1) + 4 = 5 * p + 8 + 1 by omega, chainState_succ _ _ f, chainState_succ _ _ d, chainState_succ _ _ c, chainState_succ _ _ b,
      chainState_succ _ _ a]
    exact chainInv_unlocked (chainInv_failed0 (chainInv_failed1 (chainInv_locked (chainInv_call ih))))

theorem chain_endless : Endless id InOrder chainState chain := by
  refine ⟨rfl, fun n x hx => ?_, fun n hn => ?_⟩
  · rw [chainState_succ n x hx]
    rcases chain_times n with rfl | rfl | rfl | rfl | ⟨p, hp⟩
    · cases hx; exact .call _ 1 1 rfl (by intro j hj; cases hj)
    · cases hx; exact .locked _ 1 1 rfl rfl
    · cases hx; exact .call _ 0 1 rfl (by intro j hj; cases hj)
    · cases hx; exact .call _ 1 2 rfl (show ∀ j ∈ [1], j < 2 by decide)
    · obtain ⟨a, b, c, d, f⟩ := chain_at p
      have i0 := chain_inv p
      have i1 := chainInv_call i0
      have i2 := chainInv_locked i1
      have i3 := chainInv_failed1 i2
      have i4 := chainInv_failed0 i3
      rw [← chainState_succ _ _ a] at i1 i2 i3 i4
      rw [← chainState_succ _ _ b] at i2 i3 i4
      rw [← chainState_succ _ _ c] at i3 i4
      rw [← chainState_succ _ _ d] at i4
      rcases hp with rfl | rfl | rfl | rfl | rfl
      · rw [a] at hx; cases hx
        exact .call _ 2 2 i0.want2 (by rw [i0.held2]; intro j hj; cases hj)
      · rw [b] at hx; cases hx
        exact .locked _ 2 2 i1.want2 (by simp [attempt, testAndSet, i1.flag2])
      · rw [c] at hx; cases hx
        exact .failed _ 1 2 i2.want1 (by simp [attempt, testAndSet, i2.flag2])
      · rw [d] at hx; cases hx
        exact .failed _ 0 1 i3.want0 (by simp [attempt, testAndSet, i3.flag1])
      · rw [f] at hx; cases hx
        exact .unlocked _ 2 2 i4.want2 (by rw [i4.held2]; exact List.mem_cons_self)
  · rw [chainState, hn]

theorem chain_locked {n t k : Nat} (h : chain n = some (.locked t k)) : (n = 1 ∧ t = 1 ∧ k = 1) ∨ (t = 2 ∧ k = 2 ∧ ∃ p, n = 5 * p + 5) := by
  rcases chain_times n with rfl | rfl | rfl | rfl | ⟨p, hp⟩
  · cases h
  · cases h; exact .inl ⟨rfl, rfl, rfl⟩
  · cases h
  · cases h
  · obtain ⟨a, b, c, d, f⟩ := chain_at p
    rcases hp with rfl | rfl | rfl | rfl | rfl
    · rw [a] at h; cases h
    · rw [b] at h; cases h; exact .inr ⟨rfl, rfl, p, rfl⟩
    · rw [c] at h; cases h
    · rw [d] at h; cases h
    · rw [f] at h; cases h

theorem chain_call {n t k : Nat} (h : chain n = some (.call t k)) :
    (n = 0 ∧ t = 1 ∧ k = 1) ∨ (n = 2 ∧ t = 0 ∧ k = 1) ∨ (n = 3 ∧ t = 1 ∧ k = 2) ∨ (t = 2 ∧ k = 2 ∧ ∃ p, n = 5 * p + 4) := by
  rcases chain_times n with rfl | rfl | rfl | rfl | ⟨p, hp⟩
  · cases h; exact .inl ⟨rfl, rfl, rfl⟩
  · cases h
  · cases h; exact .inr (.inl ⟨rfl, rfl, rfl⟩)
  · cases h; exact .inr (.inr (.inl ⟨rfl, rfl, rfl⟩))
  · obtain ⟨a, b, c, d, f⟩ := chain_at p
    rcases hp with rfl | rfl | rfl | rfl | rfl
    · rw [a] at h; cases h; exact .inr (.inr (.inr ⟨rfl, rfl, p, rfl⟩))
    · rw [b] at h; cases h
    · rw [c] at h; cases h
    · rw [d] at h; cases h
    · rw [f] at h; cases h

theorem chain_waits1 (m : Nat) (h : 4 ≤ m) : InLock chain 1 2 m :=
  ⟨3, by omega, rfl, fun i _ _ hl => by rcases chain_locked hl with ⟨_, _, h⟩ | ⟨h, _⟩ <;> omega⟩

end SpinLocks

/-- **C114.** More cannot be promised: under the same conditions a thread can wait for ever, even without anybody ever getting the lock that it waits for
again; then others take greater locks again and again. -/
theorem C114_greater_needed : ∃ s e, Endless id InOrder s e ∧ FairScheduler e ∧ ReleasesUnlessStuck e ∧ (∀ n ≥ 3, InLock e 0 1 n) ∧
    ∀ n ≥ 3, ∀ u, e n ≠ some (.locked u 1) := by
  refine ⟨chainState, chain, chain_endless, ?_, ?_, ?_, ?_⟩
  · intro t k n hw
    obtain ⟨a, b, c, d, f⟩ := chain_at n
    obtain ⟨i, hi, e1, e2⟩ := hw (5 * n + 9) (by omega)
    rcases chain_call e1 with ⟨rfl, rfl, rfl⟩ | ⟨rfl, rfl, rfl⟩ | ⟨rfl, rfl, rfl⟩ | ⟨rfl, rfl, p, rfl⟩
    · exact absurd rfl (e2 1 (by omega) (by omega))
    · exact ⟨5 * n + 7, by omega, .inr d⟩
    · exact ⟨5 * n + 6, by omega, .inr c⟩
    · exact absurd (chain_at p).2.1 (e2 (5 * p + 5) (by omega) (by omega))
  · intro t k n h
    rcases chain_locked h with ⟨rfl, rfl, rfl⟩ | ⟨rfl, rfl, p, rfl⟩
    · exact .inr ⟨2, 4, fun i hi => chain_waits1 i hi⟩
    · exact .inl ⟨5 * p + 8, by omega, (chain_at p).2.2.2.2⟩
  · intro n hn
    exact ⟨2, by omega, rfl, fun i _ _ hl => by rcases chain_locked hl with ⟨_, h, _⟩ | ⟨h, _⟩ <;> omega⟩
  · intro n hn u h
    rcases chain_locked h with ⟨h, _⟩ | ⟨_, h, _⟩ <;> omega

end Utki
