import Verif.Core
/-!
# `singleton`

Model of /repo/src/utki/singleton.hpp 67-124 (`intrusive_singleton`; `singleton`, 150-178, only adds the static member
`instance`). Objects are identified by their addresses.
-/
namespace Utki
namespace Singleton

/-- The static member `instance`, singleton.hpp 84, 172: a `unique_ptr` that starts null and whose own destruction is not modelled
(its documented use is only to be null at the start). -/
abbrev Instance := Option Nat

/-- `intrusive_singleton()`, singleton.hpp 72-79, for the object at address `a`. -/
def ctor (a : Nat) : Meth Instance Unit := do
  let i ← Meth.get
  if i.isSome then Meth.throw .logic_error
  Meth.set (some a)

/-- `is_created()`, singleton.hpp 102-105. -/
def isCreated : Meth Instance Bool := do
  let i ← Meth.get
  pure i.isSome

/-- `inst()`, singleton.hpp 111-117: the address of the object. -/
def inst (dbg : Bool) : Meth Instance Nat := do
  Meth.lift (ASSERT dbg (← isCreated))
  match ← Meth.get with
  | some a => pure a
  | none => Meth.lift (.ub .null_deref)

/-- `~intrusive_singleton()`, singleton.hpp 119-123. -/
def dtor (dbg : Bool) (a : Nat) : Meth Instance Unit := do
  let i ← Meth.get
  Meth.lift (ASSERT dbg (i == some a))
  Meth.set none

/-- What a program does with singleton objects of one class. -/
inductive Op where
  /-- the constructor of the base class runs for the object at `a` -/
  | construct (a : Nat)
  /-- the object goes: its destructor is called, or its own constructor, which runs after that of the base class, throws -/
  | destroy (a : Nat)
  | isCreated
  | inst
deriving DecidableEq, Repr

/-- The result of an operation, if it returns. -/
inductive Val where
  | unit
  | bool (b : Bool)
  | obj (a : Nat)
deriving DecidableEq, Repr

/-- One operation. -/
def exec (dbg : Bool) : Op → Meth Instance Val
  | .construct a => do ctor a; pure .unit
  | .destroy a => do dtor dbg a; pure .unit
  | .isCreated => do let b ← isCreated; pure (.bool b)
  | .inst => do let a ← inst dbg; pure (.obj a)

end Singleton
end Utki
