import Verif.Model.Signal
/-!
# Several signals, whose callbacks use them

Model of /repo/src/utki/signal.hpp for programs with any number of signals: a callback can create and destroy signals, connect to, disconnect from and emit
any of them while it is called. As in `Model/Signal.lean`, the nodes of the lists of callbacks are named by numbers that are never used again; here the names
are unique across signals. All signals have the same argument type `α` and the same type `γ` of callbacks; several types can be put together in one.
-/
namespace Utki
namespace SignalNet
open Signal (following)

/-- What a callback, or the rest of the program, does. -/
inductive Prog (γ α σ : Type) where
  | ret
  | throw (e : Err)
  | upd (f : σ → σ) (k : Prog γ α σ)
  | read (k : σ → Prog γ α σ)
  | create (k : Nat → Prog γ α σ)
  | destroy (s : Nat) (k : Prog γ α σ)
  | connect (s : Nat) (c : γ) (k : Nat → Prog γ α σ)
  | disconnect (s i : Nat) (k : Prog γ α σ)
  | emit (s : Nat) (a : α) (k : Prog γ α σ)

/-- What happens. -/
inductive Event (α : Type) where
  /-- a signal was created -/
  | created (s : Nat)
  /-- a member function of the signal was called -/
  | used (s : Nat)
  /-- the destructor of the signal was run to its end -/
  | destroyed (s : Nat)
  /-- an event of that signal -/
  | on (s : Nat) (e : Signal.Event α)
deriving DecidableEq, Repr

/-- The world: the lists of callbacks, signal.hpp 53 (none: destroyed), the user's state, and ghosts. -/
structure World (γ α σ : Type) where
  sigs : List (Option (List (Nat × γ)))
  next : Nat
  user : σ
  log : List (Event α)
  emissions : Nat

variable {γ α σ : Type}

/-- Nothing is created yet. -/
def new (s : σ) : World γ α σ := ⟨[], 0, s, [], 0⟩

/-- The list of callbacks of a signal that exists. -/
def World.get (w : World γ α σ) (s : Nat) : Option (List (Nat × γ)) := (w.sigs[s]?).join

/-- Note an event. -/
def World.add (w : World γ α σ) (e : Event α) : World γ α σ := { w with log := w.log ++ [e] }

/-- Change the list of callbacks of a signal. -/
def World.put (w : World γ α σ) (s : Nat) (cs : Option (List (Nat × γ))) : World γ α σ := { w with sigs := w.sigs.set s cs }

/-- The call of a member function: undefined if the signal does not exist (any more). Gives the list of callbacks. -/
def use (s : Nat) : Meth (World γ α σ) (List (Nat × γ)) := fun w =>
  match w.get s with
  | some cs => (.ok cs, w.add (.used s))
  | none => (.ub .use_after_free, w.add (.used s))

/-- The default constructor, signal.hpp 45-53. -/
def create : Meth (World γ α σ) Nat := fun w => (.ok w.sigs.length, { w with sigs := w.sigs ++ [some []] }.add (.created w.sigs.length))

/-- The destructor, signal.hpp 56-59. -/
def destroy (dbg : Bool) (s : Nat) : Meth (World γ α σ) Unit := do
  let cs ← use s
  Meth.lift (ASSERT dbg (cs.length == 0))
  fun w => (.ok (), (w.put s none).add (.destroyed s))

/-- `connect`, signal.hpp 73-77. -/
def connect (s : Nat) (c : γ) : Meth (World γ α σ) Nat := do
  let cs ← use s
  fun w => (.ok w.next, { w.put s (some (cs ++ [(w.next, c)])) with next := w.next + 1 }.add (.on s (.connected w.next)))

/-- `disconnect`, signal.hpp 83-86: erasing through an iterator that is not one of the list is undefined. -/
def disconnect (s i : Nat) : Meth (World γ α σ) Unit := do
  let cs ← use s
  if cs.any (fun n => n.1 == i) then
    fun w => (.ok (), (w.put s (some (cs.filter (fun n => n.1 != i)))).add (.on s (.disconnected i)))
  else fun w => (.ub .use_after_free, w.add (.on s (.disconnected i)))

/-- Run the body of a callback; `emitF` is the emission it can start. -/
def exec (dbg : Bool) (emitF : Nat → α → Meth (World γ α σ) Unit) : Prog γ α σ → Meth (World γ α σ) Unit
  | .ret => pure ()
  | .throw e => Meth.throw e
  | .upd f k => fun w => exec dbg emitF k { w with user := f w.user }
  | .read k => fun w => exec dbg emitF (k w.user) w
  | .create k => do
    let s ← create
    exec dbg emitF (k s)
  | .destroy s k => do
    destroy dbg s
    exec dbg emitF k
  | .connect s c k => do
    let i ← connect s c
    exec dbg emitF (k i)
  | .disconnect s i k => do
    disconnect s i
    exec dbg emitF k
  | .emit s a k => do
    emitF s a
    exec dbg emitF k

/-- After a call of callback `i` of signal `s` returned or threw: if the callback was erased meanwhile, or the signal destroyed, its `std::function` has been
destroyed while running and the iterator of the loop is dangling. -/
def afterCall (s k i : Nat) (out : Res Unit × World γ α σ) : Res (Option Nat) × World γ α σ :=
  match out.1 with
  | .ok _ =>
    match (out.2.get s).bind (following i) with
    | some n => (.ok n, out.2.add (.on s (.returned k i)))
    | none => (.ub .use_after_free, out.2)
  | .throw e =>
    match (out.2.get s).bind (following i) with
    | some _ => (.throw e, out.2.add (.on s (.returned k i)))
    | none => (.ub .use_after_free, out.2)
  | .ub u => (.ub u, out.2)
  | .abort => (.abort, out.2)
  | .terminate => (.terminate, out.2)
  | .diverge => (.diverge, out.2)

/-- `emit` up to the loop: take `begin()`, and the number of the emission (ghost). -/
def start (s : Nat) : Meth (World γ α σ) (Nat × Option Nat) := do
  let cs ← use s
  fun w => (.ok (w.emissions, cs.head?.map (·.1)), { w with emissions := w.emissions + 1 })

/-- The loop of `emit`, signal.hpp 95-97, as in `Signal.emitLoop`. -/
def emitLoop (dbg : Bool) (body : γ → α → Prog γ α σ) (moved : α → α) : Nat → (s k : Nat) → Option Nat → α → Meth (World γ α σ) Unit
  | 0, _, _, _, _ => Meth.lift .diverge
  | _ + 1, s, k, none, _ => fun w => (.ok (), w.add (.on s (.finished k)))
  | fuel + 1, s, k, some i, a => fun w =>
    match (w.get s).bind (fun cs => cs.find? (fun n => n.1 == i)) with
    | none => (.ub .use_after_free, w)
    | some n =>
      let emitF (s' : Nat) (a' : α) : Meth (World γ α σ) Unit := do
        let (k', b) ← start s'
        emitLoop dbg body moved fuel s' k' b a'
      let out := exec dbg emitF (body n.2 a) (w.add (.on s (.called k i a)))
      ((fun _ => afterCall s k i out) >>= fun nx => emitLoop dbg body moved fuel s k nx (moved a) : Meth (World γ α σ) Unit) w

/-- `emit`, signal.hpp 93-98. -/
def emit (dbg : Bool) (body : γ → α → Prog γ α σ) (moved : α → α) (fuel : Nat) (s : Nat) (a : α) : Meth (World γ α σ) Unit := do
  let (k, b) ← start s
  emitLoop dbg body moved fuel s k b a

/-- A program that uses signals. `body c a` is what the callback `c` does when it is called with `a`. -/
def program (dbg : Bool) (body : γ → α → Prog γ α σ) (moved : α → α) (fuel : Nat) (p : Prog γ α σ) : Meth (World γ α σ) Unit :=
  exec dbg (emit dbg body moved fuel) p

end SignalNet
end Utki
