import Verif.Core
/-!
# `scope_exit`

Model of /repo/src/utki/utility.hpp 230-280, inside programs with nested scopes, exceptions, branches and loops. The functions
given to `scope_exit` objects are programs of the same kind.
-/
namespace Utki
namespace ScopeExit

/-- What happens, as seen from outside. `i` numbers the `scope_exit` objects in the order of their construction. -/
inductive Ev where
  /-- a statement without `scope_exit` objects -/
  | work (tag : Nat)
  /-- the object `i` is constructed; `armed`: the function given to it is not empty -/
  | enter (i : Nat) (armed : Bool)
  /-- the scope of the object `i` ends -/
  | leave (i : Nat)
  /-- the destructor of the object `i` calls the function -/
  | ran (i : Nat)
  /-- `release()` of the object `i` is called and returned a non-empty function or not -/
  | released (i : Nat) (nonempty : Bool)
  /-- the function returned by `release()` of the object `i` is called by the program -/
  | called (i : Nat)
deriving DecidableEq, Repr

/-- Programs over the user's data `σ`. -/
inductive Prog (σ : Type) where
  /-- any statement that does not use `scope_exit`; it can throw -/
  | act (tag : Nat) (m : Meth σ Unit)
  | skip
  | seq (a b : Prog σ)
  | ite (c : σ → Bool) (a b : Prog σ)
  | loop (c : σ → Bool) (a : Prog σ)
  | tryCatch (a b : Prog σ)
  /-- `{ scope_exit g(f); body }`, `none` is the empty `std::function` -/
  | guard (f : Option (Prog σ)) (body : Prog σ)
  /-- `auto h = g.release(); if (call && h) h();` for the `k`th enclosing object `g`, counting from inside -/
  | release (k : Nat) (call : Bool)

/-- A live `scope_exit` object: its number and the member `f`, utility.hpp 232. -/
structure Obj (σ : Type) where
  id : Nat
  f : Option (Prog σ)

/-- The user's data, the events so far, the number of objects constructed, the live objects (innermost first). -/
structure World (σ : Type) where
  user : σ
  log : List Ev
  next : Nat
  stack : List (Obj σ)

variable {σ : Type}

/-- Add an event. -/
def World.emit (w : World σ) (e : Ev) : World σ := { w with log := w.log ++ [e] }

/-- `scope_exit::scope_exit(f)`, utility.hpp 245-247. -/
def construct (f : Option (Prog σ)) (w : World σ) : World σ :=
  { w with log := w.log ++ [.enter w.next f.isSome], next := w.next + 1, stack := ⟨w.next, f⟩ :: w.stack }

/-- `scope_exit::release()`, utility.hpp 267-272, for the `k`th object. Returns the function and the object's number. -/
def releaseObj (k : Nat) (w : World σ) : Option (Nat × Option (Prog σ)) × World σ :=
  match w.stack[k]? with
  | none => (none, w)
  | some o => (some (o.id, o.f), { w with stack := w.stack.set k ⟨o.id, none⟩, log := w.log ++ [.released o.id o.f.isSome] })

/-- `~scope_exit()`, utility.hpp 249-260, of the innermost object; `call` runs a program. The function is called and what it throws
is dropped. Simplification: the object is not available to its own function while that runs. -/
def destroy (call : Prog σ → Meth (World σ) Unit) (w : World σ) : Res Unit × World σ :=
  match w.stack with
  | [] => (.ub .bad_argument, w)
  | o :: rest =>
    let w := { w with stack := rest, log := w.log ++ [.leave o.id] }
    match o.f with
    | none => (.ok (), w)
    | some g =>
      match call g (w.emit (.ran o.id)) with
      | (.throw _, w') => (.ok (), w')
      | out => out

/-- Run a program. A scope that is left normally or by an exception destroys its object (C++ stack unwinding); a program that stops
for another reason runs no destructors. `fuel` bounds the depth. -/
def exec : Nat → Prog σ → Meth (World σ) Unit
  | 0, _, w => (.diverge, w)
  | n + 1, p, w =>
    match p with
    | .act tag m =>
      match m w.user with
      | (r, u) => (r, { w.emit (.work tag) with user := u })
    | .skip => (.ok (), w)
    | .seq a b =>
      match exec n a w with
      | (.ok _, w) => exec n b w
      | out => out
    | .ite c a b => if c w.user then exec n a w else exec n b w
    | .loop c a =>
      if c w.user then
        match exec n a w with
        | (.ok _, w) => exec n (.loop c a) w
        | out => out
      else (.ok (), w)
    | .tryCatch a b =>
      match exec n a w with
      | (.throw _, w) => exec n b w
      | out => out
    | .guard f body =>
      match exec n body (construct f w) with
      | (.ok _, w) => destroy (exec n) w
      | (.throw e, w) =>
        match destroy (exec n) w with
        | (.ok _, w) => (.throw e, w)
        | out => out
      | out => out
    | .release k call =>
      match releaseObj k w with
      | (some (i, some g), w) => if call then exec n g (w.emit (.called i)) else (.ok (), w)
      | (_, w) => (.ok (), w)

end ScopeExit
end Utki
