import Verif.Core
/-!
# `signal`

Model of /repo/src/utki/signal.hpp. The nodes of the `std::list` of callbacks are named by numbers that are never used again,
so an iterator to an erased node is recognised as dangling. A callback is a value `c : γ` whose `std::function` runs the
program `body c a`; the program can use the signal itself (connect, disconnect, emit) and the state `σ` of the rest of the
program. The log is a ghost: it records what happens, in order.
-/
namespace Utki
namespace Signal

/-- What a callback does when called: a program that interacts with the signal and with the user's state. -/
inductive Prog (γ α σ : Type) where
  | ret
  | throw (e : Err)
  | upd (f : σ → σ) (k : Prog γ α σ)
  | read (k : σ → Prog γ α σ)
  | connect (c : γ) (k : Nat → Prog γ α σ)
  | disconnect (i : Nat) (k : Prog γ α σ)
  | emit (a : α) (k : Prog γ α σ)

/-- What happens at a signal. Emissions are numbered. -/
inductive Event (α : Type) where
  /-- a callback was connected under this id -/
  | connected (i : Nat)
  /-- `disconnect` was called for this id -/
  | disconnected (i : Nat)
  /-- emission `k` calls the callback `i` with the argument `a` -/
  | called (k i : Nat) (a : α)
  /-- that call returned or threw -/
  | returned (k i : Nat)
  /-- emission `k` came to its end without exception -/
  | finished (k : Nat)
deriving DecidableEq, Repr

/-- The world: the list of callbacks, signal.hpp 53, the user's state, and ghosts. -/
structure World (γ α σ : Type) where
  callbacks : List (Nat × γ)
  next : Nat
  user : σ
  log : List (Event α)
  emissions : Nat

variable {γ α σ : Type}

/-- The state of a new signal. -/
def new (s : σ) : World γ α σ := ⟨[], 0, s, [], 0⟩

/-- `connect`, signal.hpp 73-77. -/
def connect (c : γ) : Meth (World γ α σ) Nat := fun w =>
  (.ok w.next, { w with callbacks := w.callbacks ++ [(w.next, c)], next := w.next + 1, log := w.log ++ [.connected w.next] })

/-- `disconnect`, signal.hpp 83-86: erasing through an iterator that is not one of the list is undefined. -/
def disconnect (i : Nat) : Meth (World γ α σ) Unit := fun w =>
  if w.callbacks.any (fun n => n.1 == i) then
    (.ok (), { w with callbacks := w.callbacks.filter (fun n => n.1 != i), log := w.log ++ [.disconnected i] })
  else (.ub .use_after_free, { w with log := w.log ++ [.disconnected i] })

/-- `size`, signal.hpp 104-107. -/
def size (w : World γ α σ) : Nat := w.callbacks.length

/-- `empty`, signal.hpp 114-117. -/
def empty (w : World γ α σ) : Bool := size w == 0

/-- The destructor, signal.hpp 56-59. -/
def destroy (dbg : Bool) (w : World γ α σ) : Res Unit := ASSERT dbg (empty w)

/-- `++it` on the list: the node after node `i`; undefined if `i` is not a node of the list. -/
def following (i : Nat) : List (Nat × γ) → Option (Option Nat)
  | [] => none
  | n :: rest => if n.1 = i then some (rest.head?.map (·.1)) else following i rest

/-- Run the body of a callback; `emitF` is the emission it can start. -/
def exec (emitF : α → Meth (World γ α σ) Unit) : Prog γ α σ → Meth (World γ α σ) Unit
  | .ret => pure ()
  | .throw e => Meth.throw e
  | .upd f k => fun w => exec emitF k { w with user := f w.user }
  | .read k => fun w => exec emitF (k w.user) w
  | .connect c k => do
    let i ← connect c
    exec emitF (k i)
  | .disconnect i k => do
    disconnect i
    exec emitF k
  | .emit a k => do
    emitF a
    exec emitF k

/-- After a call of callback `i` returned or threw: if the callback was erased meanwhile, its `std::function` has been destroyed
while running and the iterator of the loop is dangling. -/
def afterCall (k i : Nat) (out : Res Unit × World γ α σ) : Res (Option Nat) × World γ α σ :=
  let w := { out.2 with log := out.2.log ++ [.returned k i] }
  match out.1 with
  | .ok _ =>
    match following i w.callbacks with
    | some n => (.ok n, w)
    | none => (.ub .use_after_free, out.2)
  | .throw e =>
    match following i w.callbacks with
    | some _ => (.throw e, w)
    | none => (.ub .use_after_free, out.2)
  | .ub u => (.ub u, out.2)
  | .abort => (.abort, out.2)
  | .terminate => (.terminate, out.2)
  | .diverge => (.diverge, out.2)

/-- Allocate the number of an emission (ghost) and take `begin()`. -/
def start : Meth (World γ α σ) (Nat × Option Nat) := fun w =>
  (.ok (w.emissions, w.callbacks.head?.map (·.1)), { w with emissions := w.emissions + 1 })

/-- The loop of `emit`, signal.hpp 95-97. `cur` is the node the iterator is at (none: the end). `moved a` is what is left of the
argument pack after it was forwarded to a callback: `std::forward<args_type>(a)` is an rvalue for by-value parameters, so the
parameter of `std::function::operator()` is move-constructed from it. -/
def emitLoop (body : γ → α → Prog γ α σ) (moved : α → α) : Nat → Nat → Option Nat → α → Meth (World γ α σ) Unit
  | 0, _, _, _ => Meth.lift .diverge
  | _ + 1, k, none, _ => fun w => (.ok (), { w with log := w.log ++ [.finished k] })
  | fuel + 1, k, some i, a => fun w =>
    match w.callbacks.find? (fun n => n.1 == i) with
    | none => (.ub .use_after_free, w)
    | some n =>
      let emitF (a' : α) : Meth (World γ α σ) Unit := do
        let (k', b) ← start
        emitLoop body moved fuel k' b a'
      let out := exec emitF (body n.2 a) { w with log := w.log ++ [.called k i a] }
      ((fun _ => afterCall k i out) >>= fun nx => emitLoop body moved fuel k nx (moved a) : Meth (World γ α σ) Unit) w

/-- `emit`, signal.hpp 93-98. -/
def emit (body : γ → α → Prog γ α σ) (moved : α → α) (fuel : Nat) (a : α) : Meth (World γ α σ) Unit := do
  let (k, b) ← start
  emitLoop body moved fuel k b a

end Signal
end Utki
