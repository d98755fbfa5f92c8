import Verif.Model.SpinLock
import Verif.Spec.Locks
/-!
# Several `spin_lock`s

Model of /repo/src/utki/spin_lock.hpp with any number of locks, which threads may hold at the same time. Memory and views as in
`Model/SpinLock.lean`, including the simplification stated there. Every memory location `l` is protected by the lock `guard l`: threads
use it only while they hold that lock. `may held k` says whether a thread that holds the locks `held` may call `lock()` of lock `k`.
-/
namespace Utki
namespace SpinLocks
open SpinLock (Order View)
open Spec.Locks (Event)

/-- `class spin_lock`, spin_lock.hpp 38-40: the flag, and the view that goes with its last write. -/
structure Lock where
  flag : Bool
  view : View

/-- A thread: what it is sure to see, the lock whose `lock()` it is in, the locks it holds. -/
structure Thread where
  view : View
  want : Option Nat
  held : List Nat

/-- The locks, the memory (all values written to each location, in order; they start with 0) and the threads. -/
structure State where
  locks : Nat → Lock
  mem : Nat → List Int
  threads : Nat → Thread

/-- At the start nobody uses a lock. `ATOMIC_FLAG_INIT`, spin_lock.hpp 40. -/
def init : State := ⟨fun _ => ⟨false, fun _ => 0⟩, fun _ => [], fun _ => ⟨fun _ => 0, none, []⟩⟩

/-- Change a thread. -/
def setThread (s : State) (t : Nat) (x : Thread) : State := { s with threads := fun u => if u = t then x else s.threads u }

/-- Change a lock. -/
def setLock (s : State) (k : Nat) (x : Lock) : State := { s with locks := fun j => if j = k then x else s.locks j }

/-- `flag.test_and_set(o)` of lock `k` by thread `t`: returns the old value. The write continues the release sequence. -/
def testAndSet (o : Order) (t k : Nat) (s : State) : Bool × State :=
  let th := s.threads t
  let lk := s.locks k
  let view := if o.acquires then th.view.join lk.view else th.view
  (lk.flag, setLock (setThread s t { th with view := view }) k ⟨true, if o.releases then lk.view.join view else lk.view⟩)

/-- `flag.clear(o)` of lock `k` by thread `t`. -/
def clear (o : Order) (t k : Nat) (s : State) : State :=
  setLock s k ⟨false, if o.releases then (s.threads t).view else fun _ => 0⟩

/-- One turn of the loop of `lock`, spin_lock.hpp 46-50: the flag as it was, and the state; the loop ends if it was not set. -/
def attempt (t k : Nat) (s : State) : Bool × State :=
  let r := testAndSet .acquire t k s
  if r.1 then r
  else (r.1, setThread r.2 t { r.2.threads t with want := none, held := k :: (r.2.threads t).held })

/-- `unlock`, spin_lock.hpp 55-58. -/
def unlock (t k : Nat) (s : State) : State :=
  let s := clear .release t k s
  setThread s t { s.threads t with held := (s.threads t).held.erase k }

/-- The value of a location after `n` writes. -/
def valueAt (s : State) (l n : Nat) : Int := if n = 0 then 0 else (s.mem l).getD (n - 1) 0

/-- The steps of threads that unlock only what they have locked and use a location only while they hold its lock. -/
inductive Step (guard : Nat → Nat) (may : List Nat → Nat → Prop) : State → Event → State → Prop where
  | call (s : State) (t k : Nat) : (s.threads t).want = none → may (s.threads t).held k →
      Step guard may s (.call t k) (setThread s t { s.threads t with want := some k })
  | failed (s : State) (t k : Nat) : (s.threads t).want = some k → (attempt t k s).1 = true → Step guard may s (.failed t k) (attempt t k s).2
  | locked (s : State) (t k : Nat) : (s.threads t).want = some k → (attempt t k s).1 = false → Step guard may s (.locked t k) (attempt t k s).2
  | unlocked (s : State) (t k : Nat) : (s.threads t).want = none → k ∈ (s.threads t).held → Step guard may s (.unlocked t k) (unlock t k s)
  /- a read may give any value that is not older than what the thread has seen -/
  | read (s : State) (t l n : Nat) : (s.threads t).want = none → guard l ∈ (s.threads t).held → (s.threads t).view l ≤ n → n ≤ (s.mem l).length →
      Step guard may s (.read t l (valueAt s l n)) s
  | write (s : State) (t l : Nat) (v : Int) : (s.threads t).want = none → guard l ∈ (s.threads t).held →
      Step guard may s (.write t l v) (setThread { s with mem := fun m => if m = l then s.mem l ++ [v] else s.mem m } t
        { s.threads t with view := fun m => if m = l then (s.mem l).length + 1 else (s.threads t).view m })
  | race (s : State) (t l : Nat) : (s.threads t).want = none → guard l ∈ (s.threads t).held → (s.threads t).view l ≠ (s.mem l).length →
      Step guard may s (.race t l) s

/-- The states reached from the start, with what has happened. -/
inductive Run (guard : Nat → Nat) (may : List Nat → Nat → Prop) : List Event → State → Prop where
  | nil : Run guard may [] init
  | snoc (es : List Event) (s : State) (e : Event) (s' : State) : Run guard may es s → Step guard may s e s' → Run guard may (es ++ [e]) s'

end SpinLocks
end Utki
