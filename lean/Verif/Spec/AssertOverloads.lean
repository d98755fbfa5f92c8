import Verif.Model.AssertOverloads
/-!
# What users expect a condition to mean

From the comments of debug.hpp, 253-515: a condition is a truth value, or something like a pointer, which should not be null, or a function that finds
out. Only the type of arguments is taken from the model.
-/
namespace Utki.Spec.Condition
open Assert AssertCall

/-- What is to be true: a value that is known, or what a function will return. -/
inductive Meaning (σ : Type) where
  | known (b : Bool)
  | ask (f : Checker σ)

variable {σ : Type}

/-- What a condition means. Nothing is expected of types that are neither truth values nor like pointers nor functions that give truth values, or both. -/
def meant : Cond σ → Option (Meaning σ)
  | .bool b => some (.known b)
  | .number zero => some (.known (!zero))
  | .pointer p => some (.known p.isSome)
  | .shared p => some (.known p.isSome)
  | .unique _ p => some (.known p.isSome)
  | .null => some (.known false)
  | .func true (some f) => some (.ask f)
  | .func _ p => some (.known p.isSome)
  | .closure _ true f => some (.ask f)
  | .closure _ false _ => none
  | .object (some b) none => some (.known b)
  | .object none (some f) => some (.ask f)
  | .object _ _ => none
  | .stdFunction .bool (some f) => some (.ask f)
  | .stdFunction (.other true) (some f) => some (.ask f)
  | .stdFunction _ p => some (.known p.isSome)

/-- The conditions that do not have the effect expected. -/
inductive Trap : Cond σ → Prop where
  /-- a function, or a pointer to one, that would find out -/
  | func (f : Checker σ) : Trap (.func true (some f))
  /-- a `std::function` that would find out, but is not exactly a `std::function<bool()>` -/
  | signature (f : Checker σ) : Trap (.stdFunction (.other true) (some f))
  /-- an empty `std::function<bool()>` -/
  | empty : Trap (.stdFunction .bool none)
  /-- the literal `nullptr` -/
  | null : Trap .null
  /-- a lambda expression that captures nothing -/
  | closure (f : Checker σ) : Trap (.closure false true f)
  /-- a `std::unique_ptr` with a deleter of its own -/
  | deleter (p : Option Nat) : Trap (.unique false p)

/-- What is expected of an assertion in a debug build: if the value is known, `assert_always` of it; else the function is called, once, and if it returns,
the same of what it has returned; if it does not return normally, that is what happens. -/
def expected (tty : Bool) (print : Option (Printer σ)) (loc : Location) : Meaning σ → World σ → Res Unit × World σ
  | .known b, w => assertAlways tty b print loc w
  | .ask f, w => match f w.user with
    | (.ok b, u) => assertAlways tty b print loc { w with user := u }
    | (r, u) => (r.bind fun _ => .ok (), { w with user := u })

/-- The arguments that may follow the condition: a message, or none; a place, or (C++20) none. -/
def arguments (print : Option (Option (Printer σ))) (loc : Option Location) : List (Rest σ) :=
  print.toList.map .printer ++ loc.toList.map .place

end Utki.Spec.Condition
