import Verif.Model.Span
import Verif.Model.String
/-!
# `utki::demangle`, /repo/src/utki/debug.cpp 102-145

The memory from `malloc` that `abi::__cxa_demangle` hands over is modelled as a heap, so that leaks and double frees are visible.
-/
namespace Utki
namespace Demangle

/-- The blocks from `malloc` that are live (address, contents), and the next address. -/
structure Heap where
  live : List (Nat × List Byte)
  next : Nat
deriving DecidableEq, Repr

/-- What `abi::__cxa_demangle` answers for a mangled name: the status, and the contents of the block whose address it returns (`none`: it
returns `nullptr`). -/
abbrev Demangler := List Byte → Int × Option (List Byte)

/-- Whether the allocation a `std::string` with this text needs succeeds. -/
abbrev Alloc := List Byte → Bool

/-- `std::bad_alloc`. -/
def badAlloc : Err := .user 1

/-- The call of `abi::__cxa_demangle(name, nullptr, nullptr, &status)`, debug.cpp 108-113: with a null buffer it allocates one. Returns the
address, `none` is `nullptr`, and the status. -/
def cxaDemangle (d : Demangler) (name : List Byte) : Meth Heap (Option Nat × Int) := fun h =>
  match d name with
  | (status, none) => (.ok (none, status), h)
  | (status, some block) => (.ok (some h.next, status), ⟨(h.next, block) :: h.live, h.next + 1⟩)

/-- `free(p)`: freeing `nullptr` does nothing, freeing anything else that is not live is undefined. -/
def free (p : Option Nat) : Meth Heap Unit := fun h =>
  match p with
  | none => (.ok (), h)
  | some a => if h.live.any (fun b => b.1 == a) then (.ok (), { h with live := h.live.filter (fun b => b.1 != a) })
    else (.ub .use_after_free, h)

/-- `std::string(const char*)`: the text up to the first NUL. -/
def makeStdString (alloc : Alloc) (block : List Byte) : Res (List Byte) := do
  let n ← Span.strlenLoop block (block.length + 1) 0
  if alloc (block.take n) then return block.take n else .throw badAlloc

/-- `return {demangled_name};`, debug.cpp 122. -/
def readBlock (alloc : Alloc) (p : Option Nat) : Meth Heap (List Byte) := fun h =>
  match p with
  | none => (.ub .null_deref, h)
  | some a =>
    match h.live.find? (fun b => b.1 == a) with
    | none => (.ub .use_after_free, h)
    | some (_, block) => (makeStdString alloc block, h)

/-- Run `m`, then the destructor of a `scope_exit` object, whether `m` returns or throws (utility.hpp 254-260). -/
def withScopeExit {α : Type} (m : Meth Heap α) (exit : Meth Heap Unit) : Meth Heap α := fun h =>
  match m h with
  | (.ok x, h) => (do exit; pure x : Meth Heap α) h
  | (.throw e, h) => (do exit; Meth.throw e : Meth Heap α) h
  | r => r

/-- `utki::demangle` with GCC and Clang, debug.cpp 104-134. `name` is the block `type_info.name()` points to. The four labels of the `switch`
for failures are one case. -/
def demangle (d : Demangler) (alloc : Alloc) (name : List Byte) : Meth Heap (List Byte) := do
  let (p, status) ← cxaDemangle d name
  if status = 0 then withScopeExit (readBlock alloc p) (free p)
  else Meth.lift (makeStdString alloc name)

/-- `utki::demangle` with MSVC, debug.cpp 136-141. -/
def demangleMsvc (cpp20 : Bool) (alloc : Alloc) (name : List Byte) : Res (List Byte) := do
  let n ← makeStdString alloc name
  if starts_with cpp20 n (str "class ") then
    let r := n.drop (str "class ").length
    if alloc r then return r else .throw badAlloc
  else return n

end Demangle
end Utki
