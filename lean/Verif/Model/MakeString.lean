import Verif.Model.String
import Verif.Model.TreeAlloc
/-!
# `make_string` with its lists of arguments and its memory, /repo/src/utki/string.cpp

`Model/String.lean` says which text is made; here are the `va_list` variables and the memory of the strings, in the memory of `Model/TreeAlloc.lean`. By the C standard (7.16.1) a list that was
started or copied has to be ended before it is started again, and before the function ends; `vsnprintf` leaves the list it is given in a state that is good for ending it only.
Simplified: `scope_exit` keeps its closure, one reference, without asking for memory; that the closure is a function of its own, other than the one where the list was copied, does not matter; the text
`vsnprintf` makes does not depend on the buffer.
-/
namespace Utki.MakeString
open TreeAlloc

/-- A variable of type `va_list`. -/
inductive VaList where
  /-- not started yet, or ended -/
  | ended
  /-- started; `used`: it was given to `vsnprintf` -/
  | started (used : Bool)
deriving DecidableEq, Repr

/-- The memory of a `std::string`: the block, if the text is not kept within the object, and the capacity. -/
structure StrMem where
  blk : Option Nat
  cap : Nat
deriving DecidableEq, Repr

/-- The memory, the list `args` (of `make_string`, string.cpp 123, or of the caller of `make_string_va_list`), the local variables `cur_args`, string.cpp 63, and `ret`, 56. -/
structure W where
  mem : Mem
  args : VaList
  cur : VaList
  ret : StrMem
deriving DecidableEq, Repr

/-- An operation on the memory only. -/
def inMemW {β : Type} (m : Meth Mem β) : Meth W β := fun w =>
  let r := m w.mem
  (r.1, { w with mem := r.2 })

/-- `va_start(args, format)`. -/
def va_start : Meth W Unit := fun w =>
  match w.args with
  | .ended => (.ok (), { w with args := .started false })
  | .started _ => (.ub .bad_argument, w)

/-- `va_end(args)`. -/
def va_end_args : Meth W Unit := fun w =>
  match w.args with
  | .started _ => (.ok (), { w with args := .ended })
  | .ended => (.ub .bad_argument, w)

/-- `va_copy(cur_args, args)`. -/
def va_copy_cur : Meth W Unit := fun w =>
  match w.cur, w.args with
  | .ended, .started u => (.ok (), { w with cur := .started u })
  | _, _ => (.ub .bad_argument, w)

/-- `va_end(cur_args)`. -/
def va_end_cur : Meth W Unit := fun w =>
  match w.cur with
  | .started _ => (.ok (), { w with cur := .ended })
  | .ended => (.ub .bad_argument, w)

/-- `vsnprintf(buf_ptr, buf_size, format, cur_args)`, string.cpp 80-86: nothing if it reports an error, otherwise the text and the buffer. -/
def vsnprintf (vs : Nat → Vs) (i : Nat) (buf : List Byte) (buf_size : Nat) : Meth W (Option (List Byte × List Byte)) := fun w =>
  match w.cur with
  | .started false =>
    match vs i with
    | .error => (.ok none, { w with cur := .started true })
    | .text t =>
      match vsWrite buf buf_size t with
      | .ok buf' => (.ok (some (t, buf')), { w with cur := .started true })
      | _ => (.ub .oob_write, w)
  | _ => (.ub .bad_argument, w)

/-- A string of `n` characters is made; up to `sso` characters are kept within the object. -/
def newStr (sso : Nat) (n : Nat) : Meth Mem StrMem :=
  if n ≤ sso then pure ⟨none, sso⟩
  else do
    let b ← alloc
    return ⟨some b, n⟩

/-- `ret.resize(n)`: beyond the capacity a new block is requested, of any capacity that is large enough, and the old one given back. -/
def resizeStr (grow : Nat → Nat) (n : Nat) (r : StrMem) : Meth Mem StrMem :=
  if n ≤ r.cap then pure r
  else do
    let b ← alloc
    freeAll r.blk.toList
    return ⟨some b, max (grow n) n⟩

/-- `ret` gets other memory. -/
def setRet (r : StrMem) : Meth W Unit := fun w => (.ok (), { w with ret := r })

/-- The memory of `ret`. -/
def getRet : Meth W StrMem := fun w => (.ok w.ret, w)

/-- The loop of `make_string_va_list`, string.cpp 72-115, see `makeStringLoop`. -/
def loopM (dbg : Bool) (sso : Nat) (grow : Nat → Nat) (vs : Nat → Vs) : (fuel i : Nat) → (buf : List Byte) → (buf_size : Nat) → Meth W (List Byte)
  | 0, _, _, _ => Meth.lift .diverge
  | fuel + 1, i, buf, buf_size => do
    match ← vsnprintf vs i buf buf_size with
    | none => Meth.throw .logic_error
    | some (t, buf') =>
      if t.length ≥ buf_size then do
        let r ← getRet
        let r' ← inMemW (resizeStr grow t.length r)
        setRet r'
        va_end_cur
        va_copy_cur
        Meth.lift (ASSERT dbg (i < 1))
        loopM dbg sso grow vs fuel (i + 1) (List.replicate (t.length + 1) 0) (t.length + 1)
      else if buf'.length < t.length then Meth.lift (.ub .oob_read)
      else do
        let n ← inMemW (newStr sso t.length)
        let r ← getRet
        inMemW (freeAll r.blk.toList)
        setRet n
        return buf'.take t.length

/-- What runs when an exception leaves `make_string_va_list`: `~scope_exit`, string.cpp 66-69, and `~string` of `ret`. -/
def unwind : Meth W Unit := do
  va_end_cur
  let r ← getRet
  inMemW (freeAll r.blk.toList)
  setRet ⟨none, 0⟩

/-- `make_string_va_list(format, args)`, string.cpp 51-118. Returns the text and the memory of the string. -/
def make_string_va_listM (dbg : Bool) (sso : Nat) (grow : Nat → Nat) (junk : List Byte) (vs : Nat → Vs) : Meth W (List Byte × StrMem) := do
  setRet ⟨none, sso⟩
  va_copy_cur
  let t ← onFail (loopM dbg sso grow vs 3 0 junk 1024) unwind
  let r ← getRet
  va_end_cur
  setRet ⟨none, 0⟩
  return (t, r)

/-- `make_string(format, ...)`, string.cpp 120-131. -/
def make_stringM (dbg : Bool) (sso : Nat) (grow : Nat → Nat) (junk : List Byte) (vs : Nat → Vs) : Meth W (List Byte × StrMem) := do
  va_start
  let ret ← make_string_va_listM dbg sso grow junk vs
  va_end_args
  return ret

end Utki.MakeString
