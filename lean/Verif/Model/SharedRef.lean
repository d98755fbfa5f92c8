import Verif.Core
/-!
# `shared_ref`, `make_shared`, `dynamic_reference_cast`, `make_weak`, `make_shared_from`, `make_weak_from`

Model of /repo/src/utki/shared_ref.hpp 58-258 and /repo/src/utki/shared.hpp 69-132, together with the `std::shared_ptr` they are made of:
every object has a reference count; the object is destroyed when the count becomes 0. Objects may have members that are references or
pointers themselves; these are destroyed with the object. Variables are numbered in the order of their construction. Simplified: one thread; the
address of an object and conversions between pointer types are not represented, only which object is meant; the static type of a variable is not
represented, except for the difference between `shared_ref`, `std::shared_ptr` and `std::weak_ptr`; when an object is destroyed its members are
destroyed, in unspecified order.
-/
namespace Utki
namespace SharedRef

/-- An object made by `make_shared`, with its control block. -/
structure Obj where
  /-- its dynamic type -/
  dyn : Nat
  /-- the reference count in the control block -/
  count : Nat
  /-- it has not been destroyed -/
  alive : Bool
  deriving DecidableEq, Repr

inductive Kind where
  | ref
  | ptr
  | weak
  deriving DecidableEq, Repr

/-- A variable of type `shared_ref`, `std::shared_ptr` or `std::weak_ptr`. -/
structure Var where
  /-- the object of which it is a member, `none` for other variables -/
  owner : Option Nat
  kind : Kind
  /-- the object pointed to, `none` for null -/
  p : Option Nat
  /-- it was moved from (or is a copy of one that was): not in the program, for stating properties only -/
  moved : Bool
  deriving DecidableEq, Repr

/-- The program's state. Destroyed variables are `none`. -/
structure St where
  objs : List Obj
  vars : List (Option Var)
  /-- objects destroyed, in order: for stating properties only -/
  destroyed : List Nat
  deriving DecidableEq, Repr

def init : St := ⟨[], [], []⟩

/-- The object to which a variable holds a counted reference. -/
def target : Option Var → Option Nat
  | some v => if v.kind = .weak then none else v.p
  | none => none

/-- Is the variable a member of object `o`? -/
def ownedBy (o : Nat) : Option Var → Bool
  | some v => v.owner == some o
  | none => false

/-- Objects referred to by the members of `o`. -/
def members (o : Nat) (vars : List (Option Var)) : List Nat := (vars.filter (ownedBy o)).filterMap target

/-- Decrement of the reference counts of some objects, `shared_ptr::~shared_ptr`: if the count becomes 0 the object is destroyed, its members with it.
Decrementing the count of an object that does not exist any more is undefined. -/
def release : Nat → St → List Nat → Res St
  | _, s, [] => .ok s
  | 0, _, _ :: _ => .diverge
  | fuel + 1, s, o :: rest =>
    match s.objs[o]? with
    | none => .ub .bad_pointer
    | some ob =>
      if ob.alive = false ∨ ob.count = 0 then .ub .use_after_free
      else if ob.count = 1 then
        release fuel ⟨s.objs.set o { ob with count := 0, alive := false }, s.vars.map (fun v => if ownedBy o v then none else v), s.destroyed ++ [o]⟩
          (members o s.vars ++ rest)
      else release fuel { s with objs := s.objs.set o { ob with count := ob.count - 1 } } rest

/-- `release` as a statement; the fuel is enough. -/
def releaseM (os : List Nat) : Meth St Unit := fun s =>
  match release (s.vars.length + os.length) s os with
  | .ok s' => (.ok (), s')
  | .throw e => (.throw e, s)
  | .ub u => (.ub u, s)
  | .abort => (.abort, s)
  | .terminate => (.terminate, s)
  | .diverge => (.diverge, s)

/-- A variable that exists and is of the given kind. Anything else does not compile, or is a dangling variable. -/
def var (k : Kind) (w : Nat) : Meth St Var := fun s =>
  match s.vars[w]? with
  | some (some v) => if v.kind = k then (.ok v, s) else (.ub .bad_argument, s)
  | _ => (.ub .bad_pointer, s)

/-- `++count`, when a pointer is copied. -/
def addRef (p : Option Nat) : Meth St Unit := fun s =>
  match p with
  | none => (.ok (), s)
  | some o =>
    match s.objs[o]? with
    | none => (.ub .bad_pointer, s)
    | some ob => if ob.alive then (.ok (), { s with objs := s.objs.set o { ob with count := ob.count + 1 } }) else (.ub .use_after_free, s)

/-- Construction of a variable; a member can be made only in an object that exists. -/
def construct (v : Var) : Meth St Unit := fun s =>
  match v.owner with
  | none => (.ok (), { s with vars := s.vars ++ [some v] })
  | some o =>
    match s.objs[o]? with
    | none => (.ub .bad_pointer, s)
    | some ob => if ob.alive then (.ok (), { s with vars := s.vars ++ [some v] }) else (.ub .use_after_free, s)

/-- Assignment to a variable. -/
def assignVar (w : Nat) (v : Option Var) : Meth St Unit := fun s => (.ok (), { s with vars := s.vars.set w v })

/-- `utki::assert(p, SL)`. -/
def assertNotNull (dbg : Bool) (p : Option Nat) : Meth St Unit := Meth.lift (ASSERT dbg p.isSome)

/-- `make_shared<object_type>(args...)`, shared_ref.hpp 234-238, with the constructor at 73-77: a new object of dynamic type `dyn`; `ctorThrows`: its
constructor throws. -/
def makeShared (dyn : Nat) (ctorThrows : Bool) (owner : Option Nat) : Meth St Unit := fun s =>
  if ctorThrows then (.throw (.user 1), s)
  else construct ⟨owner, .ref, some s.objs.length, false⟩ { s with objs := s.objs ++ [⟨dyn, 1, true⟩] }

/-- Copy constructor of `shared_ref`, shared_ref.hpp 83. -/
def copy (w : Nat) (owner : Option Nat) : Meth St Unit := do
  let r ← var .ref w
  addRef r.p
  construct ⟨owner, .ref, r.p, r.moved⟩

/-- Copy assignment of `shared_ref`, shared_ref.hpp 84: `shared_ptr(r.p).swap(p)`. -/
def copyAssign (v w : Nat) : Meth St Unit := do
  let l ← var .ref v
  let r ← var .ref w
  addRef r.p
  assignVar v (some { l with p := r.p, moved := r.moved })
  releaseM l.p.toList

/-- Move constructor of `shared_ref`, shared_ref.hpp 86. -/
def move (w : Nat) (owner : Option Nat) : Meth St Unit := do
  let r ← var .ref w
  assignVar w (some { r with p := none, moved := true })
  construct ⟨owner, .ref, r.p, r.moved⟩

/-- Move assignment of `shared_ref`, shared_ref.hpp 87: `shared_ptr(std::move(r.p)).swap(p)`. -/
def moveAssign (v w : Nat) : Meth St Unit := do
  let l ← var .ref v
  let r ← var .ref w
  if v = w then pure ()
  else do
    assignVar w (some { r with p := none, moved := true })
    assignVar v (some { l with p := r.p, moved := r.moved })
    releaseM l.p.toList

/-- Conversion to `shared_ref` to a base, shared_ref.hpp 95-106. -/
def convert (dbg : Bool) (w : Nat) (owner : Option Nat) : Meth St Unit := do
  let r ← var .ref w
  assertNotNull dbg r.p
  addRef r.p
  construct ⟨owner, .ref, r.p, r.moved⟩

/-- `to_shared_ptr` or conversion to `std::shared_ptr`, copied to a variable: shared_ref.hpp 113-124, 137-141. -/
def toPtr (w : Nat) (owner : Option Nat) : Meth St Unit := do
  let r ← var .ref w
  addRef r.p
  construct ⟨owner, .ptr, r.p, false⟩

/-- `shared_ref(std::shared_ptr)`, shared_ref.hpp 73-77, from a copy of the variable `w`. A null pointer is "undefined behaviour" by the documentation,
line 71. -/
def fromPtr (dbg : Bool) (w : Nat) (owner : Option Nat) : Meth St Unit := do
  let r ← var .ptr w
  assertNotNull dbg r.p
  match r.p with
  | none => Meth.lift (.ub .null_deref)
  | some _ => do
    addRef r.p
    construct ⟨owner, .ref, r.p, false⟩

/-- `make_weak(ref)`, shared.hpp 80-84, and conversion to `std::weak_ptr`, shared_ref.hpp 129-132 and 146-150. -/
def makeWeak (w : Nat) (owner : Option Nat) : Meth St Unit := do
  let r ← var .ref w
  construct ⟨owner, .weak, r.p, false⟩

/-- `make_weak(ptr)`, shared.hpp 69-73; the pointer may be null. -/
def makeWeakPtr (w : Nat) (owner : Option Nat) : Meth St Unit := do
  let r ← var .ptr w
  construct ⟨owner, .weak, r.p, false⟩

/-- The pointer that `weak_ptr::lock` gives: null if the reference count is 0. -/
def lockPtr (s : St) : Option Nat → Option Nat
  | none => none
  | some o => match s.objs[o]? with | none => none | some ob => if 0 < ob.count then some o else none

/-- `weak_ptr::lock`, copied to a variable. -/
def lock (w : Nat) (owner : Option Nat) : Meth St Unit := do
  let r ← var .weak w
  let s ← Meth.get
  addRef (lockPtr s r.p)
  construct ⟨owner, .ptr, lockPtr s r.p, false⟩

/-- `make_shared_from(o)`, shared.hpp 94-108: `o` is a reference to an object, which has to exist. -/
def makeSharedFrom (o : Nat) (owner : Option Nat) : Meth St Unit := do
  addRef (some o)
  construct ⟨owner, .ref, some o, false⟩

/-- `make_weak_from(o)`, shared.hpp 118-132: for a type derived from `utki::shared`, line 128, a reference made by `make_shared_from` exists until the
weak pointer has been made of it. -/
def makeWeakFrom (o : Nat) (owner : Option Nat) : Meth St Unit := do
  addRef (some o)
  construct ⟨owner, .weak, some o, false⟩
  releaseM [o]

/-- `dynamic_reference_cast<dst>(r)`, shared_ref.hpp 249-258. `derives dyn dst`: an object of dynamic type `dyn` can be cast to `dst`. If the pointer
cast gives null, lines 253-256: `r.get()` asserts that `r` is not null; the reference cast of an existing object throws `std::bad_cast`. -/
def cast (dbg : Bool) (derives : Nat → Nat → Bool) (w : Nat) (dst : Nat) (owner : Option Nat) : Meth St Unit := do
  let r ← var .ref w
  match r.p with
  | none => do
    assertNotNull dbg r.p
    Meth.lift (.ub .null_deref)
  | some o => do
    let s ← Meth.get
    match s.objs[o]? with
    | none => Meth.lift (.ub .bad_pointer)
    | some ob =>
      if ob.alive = false then Meth.lift (.ub .use_after_free)
      else if derives ob.dyn dst then do
        addRef (some o)
        construct ⟨owner, .ref, some o, false⟩
      else Meth.throw .bad_cast

/-- `get()`, shared_ref.hpp 157-171; also called by the conversion and comparison operators, lines 177-223: which object it refers to. -/
def get (dbg : Bool) (w : Nat) : Meth St Nat := do
  let r ← var .ref w
  assertNotNull dbg r.p
  match r.p with
  | none => Meth.lift (.ub .null_deref)
  | some o => do
    let s ← Meth.get
    match s.objs[o]? with
    | none => Meth.lift (.ub .bad_pointer)
    | some ob => if ob.alive then pure o else Meth.lift (.ub .use_after_free)

/-- Destruction of a variable of any kind; shared_ref.hpp 89. -/
def destroy (w : Nat) : Meth St Unit := fun s =>
  match s.vars[w]? with
  | some (some v) => (do
      assignVar w none
      releaseM (target (some v)).toList) s
  | _ => (.ub .bad_pointer, s)

/-- One step of a program. -/
inductive Op where
  | makeShared (dyn : Nat) (ctorThrows : Bool) (owner : Option Nat)
  | copy (w : Nat) (owner : Option Nat)
  | copyAssign (v w : Nat)
  | move (w : Nat) (owner : Option Nat)
  | moveAssign (v w : Nat)
  | convert (w : Nat) (owner : Option Nat)
  | toPtr (w : Nat) (owner : Option Nat)
  | fromPtr (w : Nat) (owner : Option Nat)
  | makeWeak (w : Nat) (owner : Option Nat)
  | lock (w : Nat) (owner : Option Nat)
  | makeSharedFrom (o : Nat) (owner : Option Nat)
  | makeWeakPtr (w : Nat) (owner : Option Nat)
  | makeWeakFrom (o : Nat) (owner : Option Nat)
  | cast (w dst : Nat) (owner : Option Nat)
  | get (w : Nat)
  | destroy (w : Nat)

/-- The step. -/
def step (dbg : Bool) (derives : Nat → Nat → Bool) : Op → Meth St Unit
  | .makeShared dyn t owner => makeShared dyn t owner
  | .copy w owner => copy w owner
  | .copyAssign v w => copyAssign v w
  | .move w owner => move w owner
  | .moveAssign v w => moveAssign v w
  | .convert w owner => convert dbg w owner
  | .toPtr w owner => toPtr w owner
  | .fromPtr w owner => fromPtr dbg w owner
  | .makeWeak w owner => makeWeak w owner
  | .lock w owner => lock w owner
  | .makeSharedFrom o owner => makeSharedFrom o owner
  | .makeWeakPtr w owner => makeWeakPtr w owner
  | .makeWeakFrom o owner => makeWeakFrom o owner
  | .cast w dst owner => cast dbg derives w dst owner
  | .get w => do let _ ← get dbg w; pure ()
  | .destroy w => destroy w

/-- A history: the program goes on after a step that returned or threw an exception (which was caught); anything else ends it. -/
def run (dbg : Bool) (derives : Nat → Nat → Bool) : List Op → St → Option St
  | [], s => some s
  | op :: ops, s =>
    match step dbg derives op s with
    | (.ok _, s') => run dbg derives ops s'
    | (.throw _, s') => run dbg derives ops s'
    | _ => none

end SharedRef
end Utki
