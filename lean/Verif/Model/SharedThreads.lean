import Verif.Model.SpinLock
/-!
# `shared_ref` used by several threads

Model of what /repo/src/utki/shared_ref.hpp and shared.hpp do with the counter of references when several threads copy, use and destroy `shared_ref`s to the
same objects. All these functions are those of `std::shared_ptr` (shared_ref.hpp 59-106, 234-258; shared.hpp 69-132): copying increments the counter of the
object, the destructor of a reference decrements it in one atomic operation, and whoever gets it to zero destroys the object; a weak pointer
gives a reference only if the counter is not zero, in one atomic operation. Each such operation is a step; steps of different threads interleave
in any way. The number of threads, objects and references is not bounded.

Simplifications: the counter of weak pointers, which governs the lifetime of the counters themselves, is left out; so are references that are members
of objects (see `Model/SharedRef`, one thread), and what destructors do. Between the decrement to zero and the destruction a thread may do other
things here, which the code does not.
-/
namespace Utki
namespace SharedThreads
open SpinLock (Order)

/-- References (shared_ref.hpp 64) and objects. `refs` are the references that exist: the thread that owns it, the object it refers to. `mail` are the references on their way
from one thread to another by some means of communication that synchronises the threads (a queue, the start or end of a thread): number of
the message, object. `doomed` are the objects whose counter a thread has got to zero. -/
structure State where
  objs : Nat
  count : Nat → Nat
  alive : Nat → Bool
  refs : List (Nat × Nat)
  mail : List (Nat × Nat)
  messages : Nat
  doomed : List (Nat × Nat)

/-- No object exists, no thread has called anything of shared_ref.hpp 58-238 yet. -/
def init : State := ⟨0, fun _ => 0, fun _ => false, [], [], 0, []⟩

/-- What threads do with `shared_ref`s (shared_ref.hpp 58-238, shared.hpp 69-132). -/
inductive Event where
  /-- `make_shared` -/
  | made (t o : Nat)
  /-- thread `t` copies a reference that thread `u` owns (or itself) -/
  | copied (t u o : Nat)
  /-- access to the object by `get()` -/
  | used (t o : Nat)
  /-- access to an object that does not exist any more: undefined behaviour -/
  | usedDead (t o : Nat)
  | sent (t o m : Nat)
  | received (t o m : Nat)
  /-- a reference made of a weak pointer, by `lock()` or `make_shared_from` -/
  | locked (t o : Nat)
  | lockFailed (t o : Nat)
  /-- destruction of a reference, up to the decrement of the counter -/
  | dropped (t o : Nat)
  /-- the destructor of the object runs -/
  | destroyed (t o : Nat)
  /-- the destructor is run for an object that does not exist any more: undefined behaviour -/
  | destroyedTwice (t o : Nat)
deriving DecidableEq, Repr

/-- The order of the decrement of the counter in the destructor of `std::shared_ptr` (shared_ref.hpp 64, 89). -/
def decrementOrder : Order := .acq_rel

/-- The counters (in the control blocks of the `std::shared_ptr`s, shared_ref.hpp 64) after a change of the one of `o`. -/
def setCount (s : State) (o n : Nat) : Nat → Nat := fun x => if x = o then n else s.count x

/-- `make_shared`, shared_ref.hpp 234-238: an object with counter 1. -/
def make (t : Nat) (s : State) : State :=
  { s with objs := s.objs + 1, count := setCount s s.objs 1, alive := fun x => if x = s.objs then true else s.alive x, refs := s.refs ++ [(t, s.objs)] }

/-- Copying a reference, shared_ref.hpp 83, 102-106, for thread `t`: the counter is incremented. -/
def copy (t o : Nat) (s : State) : State := { s with count := setCount s o (s.count o + 1), refs := s.refs ++ [(t, o)] }

/-- The destructor of a reference, shared_ref.hpp 89: the counter is decremented; the thread that gets it to zero destroys the object. -/
def drop (t o : Nat) (s : State) : State :=
  let old := s.count o
  let s := { s with count := setCount s o (old - 1), refs := s.refs.erase (t, o) }
  if old = 1 then { s with doomed := s.doomed ++ [(t, o)] } else s

/-- The destructor of the object, run by the destructor of the reference (shared_ref.hpp 89) that got the counter to zero; shared.hpp 61. -/
def destroy (t o : Nat) (s : State) : State :=
  { s with alive := fun x => if x = o then false else s.alive x, doomed := s.doomed.erase (t, o) }

/-- A reference leaves its thread: it is moved (shared_ref.hpp 86-87) into a queue or the like, without change of the counter. -/
def send (t o : Nat) (s : State) : State :=
  { s with refs := s.refs.erase (t, o), mail := s.mail ++ [(s.messages, o)], messages := s.messages + 1 }

/-- A reference arrives: it is moved (shared_ref.hpp 86-87) out of the queue. -/
def receive (t o m : Nat) (s : State) : State := { s with mail := s.mail.erase (m, o), refs := s.refs ++ [(t, o)] }

/-- The steps of the threads: calls of the functions at shared_ref.hpp 83-89, 157-171, 234-238 and shared.hpp 69-132. Only references that exist are used, copied, sent or destroyed; weak pointers to any object that was made may be around. -/
inductive Step : State → Event → State → Prop where
  | made (s : State) (t : Nat) : Step s (.made t s.objs) (make t s)
  | copied (s : State) (t u o : Nat) : (u, o) ∈ s.refs → Step s (.copied t u o) (copy t o s)
  | used (s : State) (t o : Nat) : (t, o) ∈ s.refs → s.alive o = true → Step s (.used t o) s
  | usedDead (s : State) (t o : Nat) : (t, o) ∈ s.refs → s.alive o = false → Step s (.usedDead t o) s
  | sent (s : State) (t o : Nat) : (t, o) ∈ s.refs → Step s (.sent t o s.messages) (send t o s)
  | received (s : State) (t o m : Nat) : (m, o) ∈ s.mail → Step s (.received t o m) (receive t o m s)
  | locked (s : State) (t o : Nat) : o < s.objs → s.count o ≠ 0 → Step s (.locked t o) (copy t o s)
  | lockFailed (s : State) (t o : Nat) : o < s.objs → s.count o = 0 → Step s (.lockFailed t o) s
  | dropped (s : State) (t o : Nat) : (t, o) ∈ s.refs → Step s (.dropped t o) (drop t o s)
  | destroyed (s : State) (t o : Nat) : (t, o) ∈ s.doomed → s.alive o = true → Step s (.destroyed t o) (destroy t o s)
  | destroyedTwice (s : State) (t o : Nat) : (t, o) ∈ s.doomed → s.alive o = false → Step s (.destroyedTwice t o) s

/-- The states reached from the start by calls of the functions of shared_ref.hpp 58-238 and shared.hpp 69-132 in any interleaving, with what has happened. -/
inductive Run : List Event → State → Prop where
  | nil : Run [] init
  | snoc (es : List Event) (s : State) (e : Event) (s' : State) : Run es s → Step s e s' → Run (es ++ [e]) s'

end SharedThreads
end Utki
