import Verif.Core
/-!
# `spin_lock`

Model of /repo/src/utki/spin_lock.hpp with threads that interleave and a memory with release/acquire synchronisation:
every thread has a view, the number of writes to each memory location that it is sure to see. An access to a location some of
whose writes are not in the view is a data race. Writes to the flag carry a view. The number of threads is not bounded.

Simplification: writes to the flag are appended to its modification order. Read-modify-write operations always read the last
write in that order, and the only plain store, `clear`, is done by the thread whose `test_and_set` started the current chain
of read-modify-writes, so it cannot go anywhere but to the end.
-/
namespace Utki
namespace SpinLock

/-- `std::memory_order`. -/
inductive Order where
  | relaxed | acquire | release | acq_rel | seq_cst
deriving DecidableEq, Repr

/-- The order makes a read acquire. -/
def Order.acquires : Order → Bool
  | .acquire | .acq_rel | .seq_cst => true
  | _ => false

/-- The order makes a write release. -/
def Order.releases : Order → Bool
  | .release | .acq_rel | .seq_cst => true
  | _ => false

/-- How many writes to each location are visible. -/
abbrev View := Nat → Nat

/-- Union of views. -/
def View.join (a b : View) : View := fun l => max (a l) (b l)

/-- Where a thread is. -/
inductive Pc where
  /-- does not use the lock -/
  | idle
  /-- in the loop of `lock()` -/
  | locking
  /-- `lock()` has returned, `unlock()` has not been called -/
  | critical
deriving DecidableEq, Repr

/-- A thread. -/
structure Thread where
  pc : Pc
  view : View

/-- The lock, the memory (all values written to each location, in order; they start with 0) and the threads. -/
structure State where
  flag : Bool
  flagView : View
  mem : Nat → List Int
  threads : Nat → Thread

/-- At the start nobody uses the lock. `ATOMIC_FLAG_INIT`, spin_lock.hpp 40. -/
def init : State := ⟨false, fun _ => 0, fun _ => [], fun _ => ⟨.idle, fun _ => 0⟩⟩

/-- Change a thread. -/
def setThread (s : State) (t : Nat) (x : Thread) : State := { s with threads := fun u => if u = t then x else s.threads u }

/-- `atomic_flag::test_and_set(o)` by thread `t`: returns the old value. The write continues the release sequence. -/
def testAndSet (o : Order) (t : Nat) (s : State) : Bool × State :=
  let th := s.threads t
  let view := if o.acquires then th.view.join s.flagView else th.view
  let s' := setThread s t { th with view := view }
  (s.flag, { s' with flag := true, flagView := if o.releases then s.flagView.join view else s.flagView })

/-- `atomic_flag::clear(o)` by thread `t`. -/
def clear (o : Order) (t : Nat) (s : State) : State :=
  { s with flag := false, flagView := if o.releases then (s.threads t).view else fun _ => 0 }

/-- One turn of the loop of `lock`, spin_lock.hpp 46-50. -/
def attempt (t : Nat) (s : State) : State :=
  let r := testAndSet .acquire t s
  if r.1 then r.2 else setThread r.2 t { (r.2.threads t) with pc := .critical }

/-- `unlock`, spin_lock.hpp 55-58. -/
def unlock (t : Nat) (s : State) : State :=
  let s := clear .release t s
  setThread s t { (s.threads t) with pc := .idle }

/-- The value of a location after `n` writes. -/
def valueAt (s : State) (l n : Nat) : Int := if n = 0 then 0 else (s.mem l).getD (n - 1) 0

/-- What threads do, as seen from outside. -/
inductive Event where
  | call (t : Nat)
  /-- an attempt in `lock()` failed -/
  | failed (t : Nat)
  /-- `lock()` returned -/
  | locked (t : Nat)
  | unlocked (t : Nat)
  | read (t l : Nat) (v : Int)
  | write (t l : Nat) (v : Int)
  /-- an access that is a data race: undefined behaviour -/
  | race (t l : Nat)
deriving DecidableEq, Repr

/-- The steps of threads that unlock only what they have locked and use the shared memory only while holding the lock. -/
inductive Step : State → Event → State → Prop where
  | call (s : State) (t : Nat) : (s.threads t).pc = .idle → Step s (.call t) (setThread s t { s.threads t with pc := .locking })
  | failed (s : State) (t : Nat) : (s.threads t).pc = .locking → ((attempt t s).threads t).pc ≠ .critical →
      Step s (.failed t) (attempt t s)
  | locked (s : State) (t : Nat) : (s.threads t).pc = .locking → ((attempt t s).threads t).pc = .critical →
      Step s (.locked t) (attempt t s)
  | unlocked (s : State) (t : Nat) : (s.threads t).pc = .critical → Step s (.unlocked t) (unlock t s)
  /- a read may give any value that is not older than what the thread has seen -/
  | read (s : State) (t l n : Nat) : (s.threads t).pc = .critical → (s.threads t).view l ≤ n → n ≤ (s.mem l).length →
      Step s (.read t l (valueAt s l n)) s
  | write (s : State) (t l : Nat) (v : Int) : (s.threads t).pc = .critical →
      Step s (.write t l v) (setThread { s with mem := fun m => if m = l then s.mem l ++ [v] else s.mem m } t
        { s.threads t with view := fun m => if m = l then (s.mem l).length + 1 else (s.threads t).view m })
  | race (s : State) (t l : Nat) : (s.threads t).pc = .critical → (s.threads t).view l ≠ (s.mem l).length → Step s (.race t l) s

/-- The states reached from the start, with what has happened. -/
inductive Run : List Event → State → Prop where
  | nil : Run [] init
  | snoc (es : List Event) (s : State) (e : Event) (s' : State) : Run es s → Step s e s' → Run (es ++ [e]) s'

end SpinLock
end Utki
