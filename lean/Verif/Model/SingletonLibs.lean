import Verif.Model.Singleton
/-!
# `singleton` in programs made of several modules

Model of /repo/src/utki/singleton.hpp 67-178 in a process made of several modules (the executable and shared libraries), as in
/repo/tests/singleton_over_shared_library. The variable `instance` of `singleton` is a static member of a template, singleton.hpp 172-178, so every
module whose code uses it has a copy; that of `intrusive_singleton` is defined by the user in one module, singleton.hpp 50-51. Which copy the code of a
module uses is decided when the module is loaded, by the rules of the dynamic linker. Simplified: the functions of the class are not separate
symbols; the code of a module uses the copy that this module is bound to (the functions are emitted, exported and found together with the variable).
-/
namespace Utki
namespace SingletonLibs
open Utki.Singleton

/-- A module, as far as the variable matters. The modules of a process are listed in the order of loading. -/
structure Module where
  /-- it contains a copy of the variable -/
  defines : Bool
  /-- the copy is exported: default visibility on ELF, `__declspec(dllexport)` on Windows -/
  exported : Bool
  /-- it was loaded with the program or with `RTLD_GLOBAL` -/
  global : Bool
  /-- with which act of loading it came: 0 for the program and the libraries it needs, then each `dlopen` -/
  batch : Nat
deriving DecidableEq, Repr

inductive Platform where
  /-- ELF; `unique`: the copies are `STB_GNU_UNIQUE` symbols, as GCC makes them on GNU systems, of which a process uses one only -/
  | elf (unique : Bool)
  /-- Windows: no symbol is replaced by that of another module; a module without a copy imports it -/
  | windows
deriving DecidableEq, Repr

/-- The copy of module `i` can be found by other modules. -/
def offers (ms : List Module) (i : Nat) : Bool :=
  match ms[i]? with
  | some md => md.defines && md.exported
  | none => false

/-- The modules in which a symbol is looked up for a module of the act of loading `b`, in order: the global ones loaded so far, then those of the same
act. Unique symbols are found in all. -/
def scope (unique : Bool) (ms : List Module) (b : Nat) : List Nat :=
  (List.range ms.length).filter (fun i => match ms[i]? with | some md => decide (md.batch ≤ b) && (md.global || unique) | none => false) ++
  (List.range ms.length).filter (fun i => match ms[i]? with | some md => decide (md.batch = b) | none => false)

/-- The module whose copy the code of module `m` uses; `none` if there is none, then the program cannot be linked or the module cannot be loaded. -/
def uses (pl : Platform) (ms : List Module) (m : Nat) : Option Nat :=
  match ms[m]? with
  | none => none
  | some md =>
    match pl with
    | .elf unique => if md.defines && !md.exported then some m else (scope unique ms md.batch).find? (offers ms)
    | .windows => if md.defines then some m else (List.range ms.length).find? (offers ms)

/-- An operation done by the code of module `m`, with the copies of all modules. -/
def exec (dbg : Bool) (pl : Platform) (ms : List Module) (m : Nat) (op : Op) (copies : Nat → Instance) : Option (Res Val × (Nat → Instance)) :=
  (uses pl ms m).map fun v =>
    let r := Singleton.exec dbg op (copies v)
    (r.1, fun i => if i = v then r.2 else copies i)

end SingletonLibs
end Utki
