import Verif.Model.Singleton
/-!
# The end of the process and `singleton`

Model of what becomes of singleton objects when the process ends, with the static member `instance`, singleton.hpp 84, 172, a `std::unique_ptr` with
static storage duration whose destructor runs at the end of the process. The objects are automatic (a variable of `main`, as in the documentation,
singleton.hpp 61, 143), dynamic (made by `new`) or static. Simplified: one thread; automatic objects belong to functions that have not returned when the
process ends; nothing but singleton objects of one class is destroyed.
-/
namespace Utki
namespace SingletonExit
open Utki.Singleton

/-- How an object came to be. -/
inductive Storage where
  | automatic
  | dynamic
  | static
  deriving DecidableEq, Repr

/-- The state. -/
structure St where
  /-- the static member `instance`, singleton.hpp 84, 172 -/
  inst : Instance
  /-- the objects that exist, newest first -/
  live : List (Nat × Storage)
  /-- addresses are not used again -/
  next : Nat
  /-- the objects destroyed, in order: for stating properties only -/
  destroyed : List Nat
  deriving DecidableEq, Repr

def init : St := ⟨none, [], 0, []⟩

/-- A singleton object is made: the constructor singleton.hpp 72-79 runs; if it throws there is no object. -/
def create (sto : Storage) : Meth St Unit := fun s =>
  match ctor s.next s.inst with
  | (.ok _, i) => (.ok (), { s with inst := i, live := (s.next, sto) :: s.live, next := s.next + 1 })
  | (r, i) => (r, { s with inst := i, next := s.next + 1 })

/-- An object is destroyed: the destructor singleton.hpp 119-123 runs. -/
def destroy (dbg : Bool) (a : Nat) : Meth St Unit := fun s =>
  match dtor dbg a s.inst with
  | (.ok _, i) => (.ok (), { s with inst := i, live := s.live.filter (fun o => o.1 != a), destroyed := s.destroyed ++ [a] })
  | (r, i) => (r, { s with inst := i })

/-- Destroy these objects, in order. -/
def destroyAll (dbg : Bool) : List Nat → Meth St Unit
  | [] => pure ()
  | a :: as => do
    destroy dbg a
    destroyAll dbg as

/-- The destructor of `instance`, that is `std::unique_ptr::~unique_ptr()`: `delete` of the object, if the pointer is not null. It has to be one made by
`new`. `nulls`: the library sets the pointer to null before it calls `delete` (that of Clang does, those of GCC and MSVC do not). -/
def destroyInstance (dbg nulls : Bool) : Meth St Unit := fun s =>
  match s.inst with
  | none => (.ok (), s)
  | some a =>
    if (a, Storage.dynamic) ∈ s.live then destroy dbg a (if nulls then { s with inst := none } else s)
    else (.ub .bad_pointer, s)

/-- The objects of one storage duration, newest first. -/
def ofStorage (sto : Storage) (l : List (Nat × Storage)) : List Nat := (l.filter (fun o => o.2 == sto)).map (·.1)

/-- How `main` is left. -/
inductive Ending where
  | returns
  /-- `std::exit`, which does not destroy automatic objects -/
  | exits
  deriving DecidableEq, Repr

/-- The end of the process: automatic objects if `main` returns, then objects with static storage duration, newest first, `instance` among them:
`before` singleton objects go before it. Objects that go after it use it after its destruction. -/
def finish (dbg nulls : Bool) (ending : Ending) (before : Nat) : Meth St Unit := do
  let s ← Meth.get
  if ending = .returns then destroyAll dbg (ofStorage .automatic s.live)
  let statics := ofStorage .static s.live
  destroyAll dbg (statics.take before)
  destroyInstance dbg nulls
  if (statics.drop before).isEmpty then pure () else Meth.lift (.ub .use_after_free)

/-- What the program does before it ends. -/
inductive Op where
  | create (sto : Storage)
  /-- a scope is left or `delete` is called -/
  | destroy (a : Nat)
  deriving DecidableEq, Repr

/-- A history: exceptions are caught; only existing objects are destroyed, and static ones not before the end. -/
def run (dbg : Bool) : List Op → St → Option St
  | [], s => some s
  | .create sto :: ops, s =>
    match create sto s with
    | (.ok _, s') => run dbg ops s'
    | (.throw _, s') => run dbg ops s'
    | _ => none
  | .destroy a :: ops, s =>
    if (a, Storage.automatic) ∈ s.live ∨ (a, Storage.dynamic) ∈ s.live then
      match destroy dbg a s with
      | (.ok _, s') => run dbg ops s'
      | _ => none
    else none

end SingletonExit
end Utki
