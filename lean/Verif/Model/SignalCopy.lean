import Verif.Core
/-!
# Several signals, and copies of signals

Model of the implicit copy constructor and copy assignment of `signal`, /repo/src/utki/signal.hpp 44-118. The class declares a destructor and no
other special member, so copying copies the `std::list` of callbacks, and "moving" a signal copies it as well. Nodes of the lists are named by
numbers that are never used again. A `std::function` is the value `c : γ` of the function object it holds; `call c a u` is what calling it with the
argument `a` does: function objects may change their own value (a lambda that is `mutable`) and the state `u` of the rest of the program, and may
throw. Simplification: here callbacks do not use signals while they are called; `Model/Signal.lean` models that for one signal.
-/
namespace Utki
namespace SignalCopy

variable {γ α σ : Type}

/-- The signals (their lists, signal.hpp 53) in the order in which they were created (none: destroyed), the connections `connect` has returned so far, and the rest of the
program. -/
structure Sys (γ σ : Type) where
  sigs : List (Option (List (Nat × γ)))
  conns : List Nat
  next : Nat
  user : σ

/-- What a program does with signals through signal.hpp 44-118. Signals are named by the order of their creation, connections by the order in which `connect` returned them. -/
inductive Op (γ α : Type) where
  | create
  | copy (s : Nat)
  | assign (s t : Nat)
  | connect (s : Nat) (c : γ)
  | disconnect (s j : Nat)
  | emit (s : Nat) (a : α)
  | destroy (s : Nat)

/-- New nodes, numbered from `n`, that hold copies of the given function objects: a copy of the list of signal.hpp 53. -/
def fresh (n : Nat) : List γ → List (Nat × γ)
  | [] => []
  | c :: cs => (n, c) :: fresh (n + 1) cs

/-- The list of a signal that exists, signal.hpp 53; using one that was destroyed is undefined. -/
def getSig (s : Nat) : Meth (Sys γ σ) (List (Nat × γ)) := fun x =>
  match x.sigs[s]? with
  | some (some l) => (.ok l, x)
  | _ => (.ub .use_after_free, x)

/-- The loop of `emit`, signal.hpp 93-98. `moved` as in `Model/Signal.lean`. -/
def emitNodes (call : γ → α → σ → Res Unit × γ × σ) (moved : α → α) : List (Nat × γ) → α → σ → Res Unit × List (Nat × γ) × σ
  | [], _, u => (.ok (), [], u)
  | (i, c) :: rest, a, u =>
    match call c a u with
    | (.ok _, c', u') =>
      let (r, rest', u'') := emitNodes call moved rest (moved a) u'
      (r, (i, c') :: rest', u'')
    | (r, c', u') => (r, (i, c') :: rest, u')

/-- One operation of signal.hpp 44-118. `dbg`: debug build. -/
def step (dbg : Bool) (call : γ → α → σ → Res Unit × γ × σ) (moved : α → α) : Op γ α → Meth (Sys γ σ) Unit
  /- a new signal, signal.hpp 53 -/
  | .create => fun x => (.ok (), { x with sigs := x.sigs ++ [some []] })
  /- the implicit copy constructor: the copy constructor of `std::list` makes new nodes -/
  | .copy s => do
    let l ← getSig s
    let x ← Meth.get
    Meth.set { x with sigs := x.sigs ++ [some (fresh x.next (l.map (·.2)))], next := x.next + l.length }
  /- the implicit copy assignment `s = t`: that of `std::list` assigns or destroys the elements of `s`; iterators to them may not be used any
  more. (That implementations leave a list as it is when it is assigned to itself is not something a program may rely on.) -/
  | .assign s t => do
    let _ ← getSig s
    let l ← getSig t
    let x ← Meth.get
    Meth.set { x with sigs := x.sigs.set s (some (fresh x.next (l.map (·.2)))), next := x.next + l.length }
  /- `connect`, signal.hpp 73-77 -/
  | .connect s c => do
    let l ← getSig s
    let x ← Meth.get
    Meth.set { x with sigs := x.sigs.set s (some (l ++ [(x.next, c)])), conns := x.conns ++ [x.next], next := x.next + 1 }
  /- `disconnect`, signal.hpp 83-86: the connection must be an iterator into the list of this signal -/
  | .disconnect s j => do
    let l ← getSig s
    let x ← Meth.get
    match x.conns[j]? with
    | none => Meth.lift (.ub .use_after_free)
    | some i => if l.any (fun n => n.1 == i) then Meth.set { x with sigs := x.sigs.set s (some (l.filter (fun n => n.1 != i))) } else Meth.lift (.ub .use_after_free)
  /- `emit`, signal.hpp 93-98 -/
  | .emit s a => do
    let l ← getSig s
    let x ← Meth.get
    let r := emitNodes call moved l a x.user
    Meth.set { x with sigs := x.sigs.set s (some r.2.1), user := r.2.2 }
    Meth.lift r.1
  /- the destructor, signal.hpp 56-59 -/
  | .destroy s => do
    let l ← getSig s
    let x ← Meth.get
    Meth.lift (ASSERT dbg (l.length == 0))
    Meth.set { x with sigs := x.sigs.set s none }

/-- A history of operations (the program, not part of signal.hpp); exceptions thrown by callbacks are caught. None: something was undefined or an assertion failed. -/
def run (dbg : Bool) (call : γ → α → σ → Res Unit × γ × σ) (moved : α → α) : List (Op γ α) → Sys γ σ → Option (Sys γ σ)
  | [], x => some x
  | o :: os, x =>
    match step dbg call moved o x with
    | (.ok _, x') => run dbg call moved os x'
    | (.throw _, x') => run dbg call moved os x'
    | _ => none

/-- Before any signal is created. -/
def init (u : σ) : Sys γ σ := ⟨[], [], 0, u⟩

/-- The function objects connected to a signal (signal.hpp 53), in order; none if the signal does not exist. -/
def callbacks (x : Sys γ σ) (s : Nat) : Option (List γ) :=
  match x.sigs[s]? with
  | some (some l) => some (l.map (·.2))
  | _ => none

end SignalCopy
end Utki
