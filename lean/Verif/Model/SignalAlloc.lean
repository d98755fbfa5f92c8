import Verif.Model.TreeAlloc
/-!
# Signals when memory runs out, /repo/src/utki/signal.hpp

The list of callbacks with the memory it owns: a block for each node of the `std::list`, and the blocks that the `std::function` in it and the function object
it holds own. A connection is named by the block of its node. The memory is that of `Model/TreeAlloc.lean`: requests may fail at any point, and giving back a block that
is not in use is undefined. Simplified: function objects own any number of blocks (none if they are small), copying one asks for as many, one after another, and gives
them back if one of the requests fails; moving and swapping takes them along and asks for no memory, as `std::function` does.
-/
namespace Utki.SignalAlloc
open TreeAlloc
variable {γ : Type}

/-- `callback_type`, signal.hpp 50: the function object and the blocks it owns. -/
structure Fn (γ : Type) where
  val : γ
  mem : List Nat
deriving DecidableEq, Repr

/-- A node of the list `callbacks`, signal.hpp 53. -/
structure Slot (γ : Type) where
  node : Nat
  fn : Fn γ
deriving DecidableEq, Repr

/-- The memory and the list of a signal, signal.hpp 53. -/
structure Sig (γ : Type) where
  mem : Mem
  slots : List (Slot γ)

/-- An operation on the memory only. -/
def inMemS {β : Type} (m : Meth Mem β) : Meth (Sig γ) β := fun s =>
  let r := m s.mem
  (r.1, { s with mem := r.2 })

/-- A copy of a callback. -/
def copyFn (f : Fn γ) : Meth Mem (Fn γ) := do
  let m ← copyValue f.mem
  return ⟨f.val, m⟩

/-- `connect(callback_type)`, signal.hpp 73-77. The parameter is an object of the function; it is moved to the node, and destroyed if an exception passes. -/
def connect (f : Fn γ) : Meth (Sig γ) Nat :=
  onFail
    (do
      let b ← inMemS alloc
      let s ← Meth.get
      Meth.set { s with slots := s.slots ++ [⟨b, f⟩] }
      return b)
    (inMemS (freeAll f.mem))

/-- A call of `connect` with a callback that lives on, so that the parameter is a copy of it, or with one that is moved to the parameter, signal.hpp 73. -/
def connectCall (keep : Bool) (f : Fn γ) : Meth (Sig γ) Nat :=
  if keep then do
    let g ← inMemS (copyFn f)
    connect g
  else connect f

/-- A node is destroyed. -/
def destroySlot (s : Slot γ) : Meth Mem Unit := do
  freeAll s.fn.mem
  free s.node

/-- Several nodes are destroyed. -/
def destroySlots : List (Slot γ) → Meth Mem Unit
  | [] => pure ()
  | s :: ss => do
    destroySlot s
    destroySlots ss

/-- `disconnect(connection)`, signal.hpp 83-86; the connection must be a node of the list. -/
def disconnect (conn : Nat) : Meth (Sig γ) Unit := do
  let s ← Meth.get
  match s.slots.find? (fun t => t.node == conn) with
  | none => Meth.lift (.ub .bad_iterator)
  | some t => do
    Meth.set { s with slots := s.slots.filter (fun t => t.node != conn) }
    inMemS (destroySlot t)

/-- `~signal`, signal.hpp 56-59. -/
def destroy (dbg : Bool) : Meth (Sig γ) Unit := do
  let s ← Meth.get
  Meth.lift (ASSERT dbg s.slots.isEmpty)
  Meth.set { s with slots := [] }
  inMemS (destroySlots s.slots)

/-- A copy of the nodes, one after another: memory for the node is requested first. -/
def copySlots : List (Slot γ) → Meth Mem (List (Slot γ))
  | [] => pure []
  | s :: ss => do
    let t ← (do
      let b ← alloc
      let f ← onFail (copyFn s.fn) (free b)
      return (⟨b, f⟩ : Slot γ))
    let ts ← onFail (copySlots ss) (destroySlot t)
    return t :: ts

/-- `list::operator=`, from the element number `i` on: callbacks are assigned to the elements that exist, each by making a copy and swapping; then the elements left over
are destroyed, or the missing ones made in a list of their own and appended. -/
def assignLoop : Nat → List (Slot γ) → Meth (Sig γ) Unit
  | i, [] => do
    let s ← Meth.get
    Meth.set { s with slots := s.slots.take i }
    inMemS (destroySlots (s.slots.drop i))
  | i, t :: ts => do
    let s ← Meth.get
    match s.slots[i]? with
    | some d => do
      let f ← inMemS (copyFn t.fn)
      let s ← Meth.get
      Meth.set { s with slots := s.slots.set i ⟨d.node, f⟩ }
      inMemS (freeAll d.fn.mem)
      assignLoop (i + 1) ts
    | none => do
      let l ← inMemS (copySlots (t :: ts))
      let s ← Meth.get
      Meth.set { s with slots := s.slots ++ l }

/-- The implicit copy assignment of signals, signal.hpp 44-118; the other signal is not the same. -/
def assign (src : List (Slot γ)) : Meth (Sig γ) Unit := assignLoop 0 src

end Utki.SignalAlloc
