import Verif.Core
/-!
# `singleton` used by several threads

Model of /repo/src/utki/singleton.hpp 67-124 with any number of threads. Every access to the static member `instance`, an ordinary pointer that is
not atomic, is a step; steps of different threads interleave in any way. Between its operations on the singleton a thread may synchronise
with others (`released`, `acquired`: the start or end of a thread, a mutex, a message), which matters for whether there is a data race
(`Spec.RaceFree`). In a program that has a data race C++ promises nothing; the steps here then show one of the things that may happen.
-/
namespace Utki
namespace SingletonThreads

/-- What threads do. Objects are identified by their addresses. -/
inductive Event where
  /-- the constructor for the object at `a` finds `instance` null, singleton.hpp 74 -/
  | tested (t a : Nat)
  /-- the constructor for the object at `a` finds that `instance` is not null and throws `std::logic_error`, singleton.hpp 74-76 -/
  | refused (t a : Nat)
  /-- the constructor stores the address of the object, singleton.hpp 78; `unique_ptr::reset` deletes the object `old` to which `instance` pointed before -/
  | stored (t a : Nat) (old : Option Nat)
  /-- `is_created()` returns, singleton.hpp 102-105 -/
  | asked (t : Nat) (b : Bool)
  /-- the `ASSERT` in `inst()`, singleton.hpp 113-115; if it fails the program aborts -/
  | asserted (t : Nat) (b : Bool)
  /-- `inst()` returns, singleton.hpp 116; `none` stands for the dereferenced null pointer -/
  | got (t : Nat) (r : Option Nat)
  /-- the `ASSERT` in the destructor of the object at `a`, singleton.hpp 121; if it fails the program aborts -/
  | checked (t a : Nat) (b : Bool)
  /-- the destructor sets `instance` to null, singleton.hpp 122 -/
  | cleared (t a : Nat)
  /-- what the thread has done so far becomes visible to those who acquire `m` (the use of singleton.hpp by a program) -/
  | released (t m : Nat)
  | acquired (t m : Nat)
deriving DecidableEq, Repr

/-- The thread of an event. -/
def Event.thread : Event → Nat
  | .tested t _ | .refused t _ | .stored t _ _ | .asked t _ | .asserted t _ | .got t _ | .checked t _ _ | .cleared t _ | .released t _ | .acquired t _ => t

/-- Accesses to `instance`: `some true` for a write (singleton.hpp 78, 122), `some false` for a read (74, 104, 116, 121). -/
def Event.access : Event → Option Bool
  | .stored _ _ _ | .cleared _ _ => some true
  | .released _ _ | .acquired _ _ => none
  | _ => some false

/-- An `acquired` synchronises with every earlier `released` of the same name. -/
def Event.sync (x y : Event) : Prop := ∃ t u m, x = .released t m ∧ y = .acquired u m

/-- Two accesses to `instance`, one of them a write. -/
def Event.conflict (x y : Event) : Prop := ∃ a b, x.access = some a ∧ y.access = some b ∧ (a = true ∨ b = true)

/-- Where a thread is: between operations, in the constructor for `a` after the test (singleton.hpp 74-78), in the destructor after the `ASSERT` (121-122),
in `inst()` after the `ASSERT` (115-116). -/
inductive Pc where
  | idle
  | ctor (a : Nat)
  | dtor (a : Nat)
  | inst
deriving DecidableEq, Repr

/-- The static member `instance` (singleton.hpp 84, 172), and where the threads are. -/
structure State where
  inst : Option Nat
  pc : Nat → Pc

/-- Thread `t` gets to `p`. -/
def State.goto (s : State) (t : Nat) (p : Pc) : Nat → Pc := fun u => if u = t then p else s.pc u

/-- The objects that live: constructed (singleton.hpp 78) and not yet destroyed (122). -/
def live (es : List Event) : List Nat :=
  es.foldl (fun l e => match e with
    | .stored _ a _ => l ++ [a]
    | .cleared _ a => l.erase a
    | _ => l) []

/-- Runs of programs of any number of threads that construct objects of the class, each at an address of its own, and destroy objects that live (once);
singleton.hpp 72-123. -/
inductive Run (dbg : Bool) : List Event → State → Prop where
  | init : Run dbg [] ⟨none, fun _ => .idle⟩
  | tested {es s} (t a : Nat) (h : Run dbg es s) (hp : s.pc t = .idle) (hi : s.inst = none) (hl : a ∉ live es) (ha : ∀ u, s.pc u ≠ .ctor a) :
      Run dbg (es ++ [.tested t a]) { s with pc := s.goto t (.ctor a) }
  | refused {es s} (t a b : Nat) (h : Run dbg es s) (hp : s.pc t = .idle) (hi : s.inst = some b) : Run dbg (es ++ [.refused t a]) s
  | stored {es s} (t a : Nat) (h : Run dbg es s) (hp : s.pc t = .ctor a) : Run dbg (es ++ [.stored t a s.inst]) ⟨some a, s.goto t .idle⟩
  | asked {es s} (t : Nat) (h : Run dbg es s) (hp : s.pc t = .idle) : Run dbg (es ++ [.asked t s.inst.isSome]) s
  | asserted {es s} (t : Nat) (h : Run dbg es s) (hp : s.pc t = .idle) (hd : dbg = true) :
      Run dbg (es ++ [.asserted t s.inst.isSome]) { s with pc := if s.inst.isSome then s.goto t .inst else s.pc }
  | got {es s} (t : Nat) (h : Run dbg es s) (hp : s.pc t = if dbg then .inst else .idle) :
      Run dbg (es ++ [.got t s.inst]) { s with pc := s.goto t .idle }
  | checked {es s} (t a : Nat) (h : Run dbg es s) (hp : s.pc t = .idle) (hd : dbg = true) (hl : a ∈ live es) (ha : ∀ u, s.pc u ≠ .dtor a) :
      Run dbg (es ++ [.checked t a (s.inst == some a)]) { s with pc := if s.inst == some a then s.goto t (.dtor a) else s.pc }
  | cleared {es s} (t a : Nat) (h : Run dbg es s)
      (hp : s.pc t = .dtor a ∨ dbg = false ∧ s.pc t = .idle ∧ a ∈ live es) :
      Run dbg (es ++ [.cleared t a]) ⟨none, s.goto t .idle⟩
  | released {es s} (t m : Nat) (h : Run dbg es s) (hp : s.pc t = .idle) : Run dbg (es ++ [.released t m]) s
  | acquired {es s} (t m : Nat) (h : Run dbg es s) (hp : s.pc t = .idle) : Run dbg (es ++ [.acquired t m]) s

end SingletonThreads
end Utki
