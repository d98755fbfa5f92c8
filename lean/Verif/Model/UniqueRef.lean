import Verif.Core
/-!
# `unique_ref` and `make_unique`

Model of /repo/src/utki/unique_ref.hpp 56-192, together with the `std::unique_ptr` it is made of: the pointer's destructor deletes the object.
Objects may have members that are such references or pointers; these are destroyed with the object. Variables are numbered in the order of their
construction. Simplified: the address of an object and conversions between pointer types are not represented, only which object is meant; the static
type of a variable is not represented, except for the difference between `unique_ref` and `std::unique_ptr`; when an object is destroyed its members
are destroyed, in unspecified order.
-/
namespace Utki
namespace UniqueRef

inductive Kind where
  | ref
  | ptr
  deriving DecidableEq, Repr

/-- A variable of type `unique_ref` or `std::unique_ptr`. -/
structure Var where
  /-- the object of which it is a member, `none` for other variables -/
  owner : Option Nat
  kind : Kind
  /-- the object pointed to, `none` for null -/
  p : Option Nat
  /-- it was moved from (or made of one that was): not in the program, for stating properties only -/
  moved : Bool
  deriving DecidableEq, Repr

/-- The program's state. Destroyed variables are `none`. -/
structure St where
  /-- objects made so far, with whether they still exist -/
  objs : List Bool
  vars : List (Option Var)
  /-- objects destroyed, in order: for stating properties only -/
  destroyed : List Nat
  deriving DecidableEq, Repr

def init : St := ⟨[], [], []⟩

/-- The object to which a variable points. -/
def target : Option Var → Option Nat
  | some v => v.p
  | none => none

/-- Is the variable a member of object `o`? -/
def ownedBy (o : Nat) : Option Var → Bool
  | some v => v.owner == some o
  | none => false

/-- Objects pointed to by the members of `o`. -/
def members (o : Nat) (vars : List (Option Var)) : List Nat := (vars.filter (ownedBy o)).filterMap target

/-- `delete` of some objects, with their members, and what these point to. Deleting an object that does not exist any more is undefined. -/
def delete : Nat → St → List Nat → Res St
  | _, s, [] => .ok s
  | 0, _, _ :: _ => .diverge
  | fuel + 1, s, o :: rest =>
    match s.objs[o]? with
    | none => .ub .bad_pointer
    | some alive =>
      if alive = false then .ub .use_after_free
      else delete fuel ⟨s.objs.set o false, s.vars.map (fun v => if ownedBy o v then none else v), s.destroyed ++ [o]⟩ (members o s.vars ++ rest)

/-- `delete` as a statement; the fuel is enough. -/
def deleteM (os : List Nat) : Meth St Unit := fun s =>
  match delete (s.vars.length + os.length) s os with
  | .ok s' => (.ok (), s')
  | .throw e => (.throw e, s)
  | .ub u => (.ub u, s)
  | .abort => (.abort, s)
  | .terminate => (.terminate, s)
  | .diverge => (.diverge, s)

/-- A variable that exists and is of the given kind. Anything else does not compile, or is a dangling variable. -/
def var (k : Kind) (w : Nat) : Meth St Var := fun s =>
  match s.vars[w]? with
  | some (some v) => if v.kind = k then (.ok v, s) else (.ub .bad_argument, s)
  | _ => (.ub .bad_pointer, s)

/-- Construction of a variable; a member can be made only in an object that exists. -/
def construct (v : Var) : Meth St Unit := fun s =>
  match v.owner with
  | none => (.ok (), { s with vars := s.vars ++ [some v] })
  | some o =>
    match s.objs[o]? with
    | none => (.ub .bad_pointer, s)
    | some alive => if alive then (.ok (), { s with vars := s.vars ++ [some v] }) else (.ub .use_after_free, s)

/-- Assignment to a variable. -/
def assignVar (w : Nat) (v : Option Var) : Meth St Unit := fun s => (.ok (), { s with vars := s.vars.set w v })

/-- `utki::assert(p, SL)`. -/
def assertNotNull (dbg : Bool) (p : Option Nat) : Meth St Unit := Meth.lift (ASSERT dbg p.isSome)

/-- `make_unique<object_type>(args...)`, unique_ref.hpp 188-192, with the constructor at 71-75; `ctorThrows`: the object's constructor throws. -/
def makeUnique (ctorThrows : Bool) (owner : Option Nat) : Meth St Unit := fun s =>
  if ctorThrows then (.throw (.user 1), s)
  else construct ⟨owner, .ref, some s.objs.length, false⟩ { s with objs := s.objs ++ [true] }

/-- Move constructor of `unique_ref`, unique_ref.hpp 83; of `std::unique_ptr` for `k = .ptr`. -/
def move (k : Kind) (w : Nat) (owner : Option Nat) : Meth St Unit := do
  let r ← var k w
  assignVar w (some { r with p := none, moved := true })
  construct ⟨owner, k, r.p, r.moved⟩

/-- Move assignment of `unique_ref`, unique_ref.hpp 84: `p.reset(r.p.release())`. -/
def moveAssign (v w : Nat) : Meth St Unit := do
  let l ← var .ref v
  let r ← var .ref w
  if v = w then pure ()
  else do
    assignVar w (some { r with p := none, moved := true })
    assignVar v (some { l with p := r.p, moved := r.moved })
    deleteM l.p.toList

/-- Converting move constructor, unique_ref.hpp 92-103. -/
def convert (dbg : Bool) (w : Nat) (owner : Option Nat) : Meth St Unit := do
  let r ← var .ref w
  assignVar w (some { r with p := none, moved := true })
  assertNotNull dbg r.p
  construct ⟨owner, .ref, r.p, r.moved⟩

/-- `to_unique_ptr`, unique_ref.hpp 111-114. -/
def toPtr (w : Nat) (owner : Option Nat) : Meth St Unit := do
  let r ← var .ref w
  assignVar w (some { r with p := none, moved := true })
  construct ⟨owner, .ptr, r.p, false⟩

/-- `unique_ref(std::unique_ptr)`, unique_ref.hpp 71-75, moving the variable `w`. A null pointer is "undefined behaviour" by the documentation,
line 69. -/
def fromPtr (dbg : Bool) (w : Nat) (owner : Option Nat) : Meth St Unit := do
  let r ← var .ptr w
  assignVar w (some { r with p := none, moved := true })
  assertNotNull dbg r.p
  match r.p with
  | none => Meth.lift (.ub .null_deref)
  | some _ => construct ⟨owner, .ref, r.p, false⟩

/-- `get()`, unique_ref.hpp 121-125, also called by the conversion and comparison operators, lines 131-177: which object it refers to. -/
def get (dbg : Bool) (w : Nat) : Meth St Nat := do
  let r ← var .ref w
  assertNotNull dbg r.p
  match r.p with
  | none => Meth.lift (.ub .null_deref)
  | some o => do
    let s ← Meth.get
    match s.objs[o]? with
    | none => Meth.lift (.ub .bad_pointer)
    | some alive => if alive then pure o else Meth.lift (.ub .use_after_free)

/-- Destruction of a variable of any kind; unique_ref.hpp 86. -/
def destroy (w : Nat) : Meth St Unit := fun s =>
  match s.vars[w]? with
  | some (some v) => (do
      assignVar w none
      deleteM (target (some v)).toList) s
  | _ => (.ub .bad_pointer, s)

/-- One step of a program. -/
inductive Op where
  | makeUnique (ctorThrows : Bool) (owner : Option Nat)
  | move (k : Kind) (w : Nat) (owner : Option Nat)
  | moveAssign (v w : Nat)
  | convert (w : Nat) (owner : Option Nat)
  | toPtr (w : Nat) (owner : Option Nat)
  | fromPtr (w : Nat) (owner : Option Nat)
  | get (w : Nat)
  | destroy (w : Nat)

/-- The step. -/
def step (dbg : Bool) : Op → Meth St Unit
  | .makeUnique t owner => makeUnique t owner
  | .move k w owner => move k w owner
  | .moveAssign v w => moveAssign v w
  | .convert w owner => convert dbg w owner
  | .toPtr w owner => toPtr w owner
  | .fromPtr w owner => fromPtr dbg w owner
  | .get w => do let _ ← get dbg w; pure ()
  | .destroy w => destroy w

/-- A history: the program goes on after a step that returned or threw an exception (which was caught); anything else ends it. -/
def run (dbg : Bool) : List Op → St → Option St
  | [], s => some s
  | op :: ops, s =>
    match step dbg op s with
    | (.ok _, s') => run dbg ops s'
    | (.throw _, s') => run dbg ops s'
    | _ => none

end UniqueRef
end Utki
