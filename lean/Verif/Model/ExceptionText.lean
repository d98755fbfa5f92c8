import Verif.Model.Exception
/-!
# The text that `what()` of a stacked exception points to

Model of the member `description` of `stacked_exception`, exception.hpp 87, and of `what()`, lines 97-108, with the memory of the strings. A
`std::string` whose text does not fit in the string object keeps it in a buffer from the heap; the text of `what()` never fits (it has more than 22
bytes: `C93_long_text`; GCC and MSVC keep up to 15 bytes in the object, Clang's library up to 22). Buffers are numbered in the order of
allocation and the numbers are never used again.
-/
namespace Utki
namespace ExceptionText
open Exception

/-- A `char const*` given by `what()`. -/
inductive Ptr where
  /-- to the first byte of a buffer -/
  | buf (b : Nat)
  /-- to a string literal -/
  | lit (t : List Byte)
  deriving DecidableEq, Repr

/-- An object of type `stacked_exception<...>`. -/
structure Obj where
  /-- the exception: `nesting` and `nested`, exception.hpp 84-85 -/
  exc : Exc
  /-- the buffer of `description`, exception.hpp 87, if it has one -/
  description : Option Nat

/-- The program's state. -/
structure St where
  /-- the buffers; `none`: it was freed -/
  bufs : List (Option (List Byte))
  /-- the exception objects; `none`: destroyed -/
  objs : List (Option Obj)
  /-- what the calls of `what()` so far returned -/
  ptrs : List Ptr

def init : St := ⟨[], [], []⟩

/-- Free a buffer, if there is one. Freeing it twice is undefined. -/
def free : Option Nat → Meth St Unit
  | none => pure ()
  | some b => fun s =>
    match s.bufs[b]? with
    | some (some _) => (.ok (), { s with bufs := s.bufs.set b none })
    | _ => (.ub .use_after_free, s)

/-- Allocate a buffer for a text. -/
def alloc (t : List Byte) : Meth St Nat := fun s => (.ok s.bufs.length, { s with bufs := s.bufs ++ [some t] })

/-- The object `i`, which has to exist. -/
def obj (i : Nat) : Meth St Obj := fun s =>
  match s.objs[i]? with
  | some (some o) => (.ok o, s)
  | _ => (.ub .bad_pointer, s)

/-- The text in a buffer, which has to exist. -/
def textOf (b : Nat) : Meth St (List Byte) := fun s =>
  match s.bufs[b]? with
  | some (some t) => (.ok t, s)
  | _ => (.ub .use_after_free, s)

/-- `throw_with_nested`, exception.hpp 134-149, throws the object; `description` is the empty string. `e` is a `stack` or a `stackNull`. -/
def throwObj (e : Exc) : Meth St Unit := fun s => (.ok (), { s with objs := s.objs ++ [some ⟨e, none⟩] })

/-- The implicit copy constructor of `stacked_exception`: the strings have their own buffers. -/
def copyObj (i : Nat) : Meth St Unit := do
  let o ← obj i
  match o.description with
  | none => throwObj o.exc
  | some b => do
    let t ← textOf b
    let b' ← alloc t
    let s ← Meth.get
    Meth.set { s with objs := s.objs ++ [some ⟨o.exc, some b'⟩] }

/-- `what()`, exception.hpp 97-108. `memory`: the allocation succeeds; otherwise `std::bad_alloc` is thrown before the assignment and caught. The
assignment of the temporary string, line 100, takes over its buffer and frees the former one. -/
def what (i : Nat) (memory : Bool) : Meth St Unit := do
  let o ← obj i
  let t ← Meth.lift (Exception.what o.exc)
  if memory then do
    let b ← alloc t
    free o.description
    let s ← Meth.get
    Meth.set { s with objs := s.objs.set i (some { o with description := some b }), ptrs := s.ptrs ++ [.buf b] }
  else do
    let s ← Meth.get
    Meth.set { s with ptrs := s.ptrs ++ [.lit (str "std::bad_alloc")] }

/-- The destructor of `stacked_exception`. -/
def destroy (i : Nat) : Meth St Unit := do
  let o ← obj i
  free o.description
  let s ← Meth.get
  Meth.set { s with objs := s.objs.set i none }

/-- The program reads the text that the `k`th call of `what()` returned. -/
def readText (k : Nat) : Meth St (List Byte) := fun s =>
  match s.ptrs[k]? with
  | none => (.ub .bad_argument, s)
  | some (.lit t) => (.ok t, s)
  | some (.buf b) => textOf b s

/-- What the program does. -/
inductive Op where
  | throwNested (e : Exc)
  | copy (i : Nat)
  | what (i : Nat) (memory : Bool)
  | destroy (i : Nat)

/-- One step. -/
def step : Op → Meth St Unit
  | .throwNested e => throwObj e
  | .copy i => copyObj i
  | .what i m => what i m
  | .destroy i => destroy i

/-- A history; `none` if it meets undefined behaviour or ends the program. -/
def run : List Op → St → Option St
  | [], s => some s
  | op :: ops, s =>
    match step op s with
    | (.ok _, s') => run ops s'
    | _ => none

/-! ## Calls of `what()` in several threads -/

/-- Where a thread is in `what()`. -/
inductive Pc where
  /-- not in a call -/
  | idle
  /-- the text is in the buffer `b` of the temporary string, lines 99-100 -/
  | built (b : Nat)
  /-- the assignment in line 99 has read the pointer to the old buffer of `description` -/
  | loaded (b : Nat) (old : Option Nat)
  /-- it has set the pointer of `description`; the old buffer is in the temporary string, which is to be destroyed -/
  | stored (old : Option Nat)
  deriving DecidableEq, Repr

/-- The state shared by the threads: for each buffer whether it exists, for each exception object the buffer of `description`, for each thread
where it is. -/
structure Shared where
  bufs : List Bool
  desc : Nat → Option Nat
  pc : Nat → Pc

/-- The next step of thread `k`, which calls `what()` of the object `objOf k` again and again. Simplified: the threads see each other's writes at once
and in order; memory is not exhausted. -/
def advance (objOf : Nat → Nat) (k : Nat) (s : Shared) : Res Shared :=
  match s.pc k with
  | .idle => .ok { s with bufs := s.bufs ++ [true], pc := fun j => if j = k then .built s.bufs.length else s.pc j }
  | .built b => .ok { s with pc := fun j => if j = k then .loaded b (s.desc (objOf k)) else s.pc j }
  | .loaded b old => .ok { s with desc := fun i => if i = objOf k then some b else s.desc i, pc := fun j => if j = k then .stored old else s.pc j }
  | .stored none => .ok { s with pc := fun j => if j = k then .idle else s.pc j }
  | .stored (some b) =>
    if s.bufs[b]? = some true then .ok { s with bufs := s.bufs.set b false, pc := fun j => if j = k then .idle else s.pc j }
    else .ub .use_after_free

/-- A schedule: which thread makes each step. -/
def schedule (objOf : Nat → Nat) : List Nat → Shared → Res Shared
  | [], s => .ok s
  | k :: ks, s => do
    let s ← advance objOf k s
    schedule objOf ks s

/-- No thread is in a call and no `description` has a buffer. -/
def Shared.start : Shared := ⟨[], fun _ => none, fun _ => .idle⟩

end ExceptionText
end Utki
