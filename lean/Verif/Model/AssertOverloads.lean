import Verif.Model.Assert
/-!
# Which `utki::assert` a call means

debug.hpp 253-515 declares twelve functions named `assert`, and the call that a program writes (or that the macro `ASSERT` makes of its arguments, C121)
means one of them by the rules of overload resolution, [over.match.best], or does not compile. The model covers calls with one, two or three arguments.
Simplified: arguments are classified into the kinds of `Cond` and `Rest`; a generic closure (with `auto` in its parameters) does not occur as a condition;
the number given in place of a message or a place is not the literal `0`.
-/
namespace Utki
namespace AssertCall
open Assert

/-- Signature of a `std::function`: `bool()`; or another one, for which only matters whether the function can be called without arguments and its result
converted to `bool`. -/
inductive Sig where
  | bool
  | other (checks : Bool)
deriving DecidableEq, Repr

/-- The first argument of a call: kind of its type, and its value. A function that can be called without arguments and whose result converts to `bool`
is given as a `Checker`. -/
inductive Cond (σ : Type) where
  /-- a `bool` -/
  | bool (b : Bool)
  /-- of arithmetic type, or of an unscoped enumeration: all that matters of the value is whether it is zero -/
  | number (zero : Bool)
  /-- pointer to an object, an array, a string literal; `none` is null -/
  | pointer (p : Option Nat)
  /-- a function, or a pointer to a function; `none` is null. `checks`: it can be called without arguments, and its result converts to `bool` -/
  | func (checks : Bool) (f : Option (Checker σ))
  /-- lambda expression, with or without captures; `checks` as before -/
  | closure (captures checks : Bool) (f : Checker σ)
  /-- object of a class: with an implicit conversion to `bool`, and its value; with a call operator -/
  | object (toBool : Option Bool) (call : Option (Checker σ))
  /-- `std::function`; `none` is empty -/
  | stdFunction (sig : Sig) (f : Option (Checker σ))
  /-- `std::shared_ptr` -/
  | shared (p : Option Nat)
  /-- `std::unique_ptr`, with `std::default_delete` or another deleter -/
  | unique (defaultDelete : Bool) (p : Option Nat)
  /-- the literal `nullptr` -/
  | null

/-- Further arguments. -/
inductive Rest (σ : Type) where
  /-- anything that converts to `std::function<void(std::ostream&)>`; `none` is `nullptr`, or an empty function -/
  | printer (p : Option (Printer σ))
  /-- `SL`, or any other `source_location` -/
  | place (loc : Location)
  /-- a number, which converts to a `source_location` (debug.hpp 151-159: the constructor is not explicit) -/
  | number (n : BitVec 32)

/-- The first parameter of an overload: `bool`, `const std::function<bool()>&`, `object_type*`, `const std::shared_ptr<object_type>&`,
`const std::unique_ptr<object_type>&`, `const std::function<func_type>&`. -/
inductive First where
  | bool
  | checker
  | pointer
  | shared
  | unique
  | function
deriving DecidableEq, Repr

/-- The other parameters. -/
inductive Other where
  /-- `const std::function<void(std::ostream&)>&` -/
  | print
  /-- `const utki::source_location&` -/
  | location
deriving DecidableEq, Repr

/-- An overload. -/
structure Cand where
  first : First
  rest : List Other
deriving DecidableEq, Repr

/-- The overloads, in the order of their declarations, debug.hpp 261-515. -/
def candidates : List Cand := [
  ⟨.bool, [.print, .location]⟩,      -- 261-290
  ⟨.checker, [.print, .location]⟩,   -- 300-326
  ⟨.bool, [.location]⟩,              -- 335-348
  ⟨.checker, [.location]⟩,           -- 357-370
  ⟨.pointer, [.print, .location]⟩,   -- 375-390
  ⟨.pointer, [.location]⟩,           -- 392-406
  ⟨.shared, [.print, .location]⟩,    -- 411-426
  ⟨.shared, [.location]⟩,            -- 428-442
  ⟨.unique, [.print, .location]⟩,    -- 444-459
  ⟨.unique, [.location]⟩,            -- 461-475
  ⟨.function, [.print, .location]⟩,  -- 480-495
  ⟨.function, [.location]⟩           -- 497-511
]

/-- The overload is a template. -/
def Cand.template (k : Cand) : Bool := k.first ≠ .bool ∧ k.first ≠ .checker

/-- Implicit conversion sequences, [over.best.ics], by their rank: exact match, standard conversion, user-defined conversion. -/
inductive Ics where
  | exact
  | standard
  | user
deriving DecidableEq, Repr

/-- The first conversion sequence is better, [over.ics.rank]. Two user-defined conversions by different functions are not ordered. -/
def Ics.better : Ics → Ics → Bool
  | .exact, .standard => true
  | .exact, .user => true
  | .standard, .user => true
  | _, _ => false

variable {σ : Type}

/-- The conversion of the first argument to the first parameter; for a template, after its argument was deduced; `none`: there is none, or it cannot be
deduced. -/
def conv1 : Cond σ → First → Option Ics
  | .bool _, .bool => some .exact
  | .number _, .bool => some .standard
  | .pointer _, .bool => some .standard
  | .pointer _, .pointer => some .exact
  | .func _ _, .bool => some .standard
  /- function-to-pointer conversion counts as an exact match -/
  | .func _ _, .pointer => some .exact
  | .func checks _, .checker => if checks then some .user else none
  /- a closure without captures converts to a pointer to a function, and this to `bool` -/
  | .closure captures _ _, .bool => if captures then none else some .user
  | .closure _ checks _, .checker => if checks then some .user else none
  | .object toBool _, .bool => if toBool.isSome then some .user else none
  | .object _ call, .checker => if call.isSome then some .user else none
  | .stdFunction .bool _, .checker => some .exact
  | .stdFunction (.other checks) _, .checker => if checks then some .user else none
  | .stdFunction _ _, .function => some .exact
  | .shared _, .shared => some .exact
  /- `std::unique_ptr<object_type>` is the type with the default deleter -/
  | .unique defaultDelete _, .unique => if defaultDelete then some .exact else none
  /- `nullptr` does not convert to `bool` implicitly, but `std::function` has a constructor for it -/
  | .null, .checker => some .user
  | _, _ => none

/-- The conversion of another argument. (Of which rank it is does not matter: a kind of argument converts to one kind of parameter only.) -/
def convR : Rest σ → Other → Option Ics
  | .printer _, .print => some .user
  | .place _, .location => some .exact
  | .number _, .location => some .user
  | _, _ => none

/-- The conversions of several arguments. With C++20 (debug.hpp 265-267 and so on) the place has a default. -/
def convs (cpp20 : Bool) : List (Rest σ) → List Other → Option (List Ics)
  | [], [] => some []
  | [], [.location] => if cpp20 then some [] else none
  | r :: rs, p :: ps => match convR r p, convs cpp20 rs ps with
    | some c, some cs => some (c :: cs)
    | _, _ => none
  | _, _ => none

/-- The conversions of all arguments, if the overload is viable, [over.match.viable]. -/
def viable (cpp20 : Bool) (c : Cond σ) (rest : List (Rest σ)) (k : Cand) : Option (List Ics) :=
  match conv1 c k.first, convs cpp20 rest k.rest with
  | some i, some is => some (i :: is)
  | _, _ => none

/-- Overload `k` is better than `l`, [over.match.best]: no argument has a worse conversion, and one has a better one, or else `k` is no template and `l` is
one. (No two of the templates can be ordered by being more specialized.) -/
def betterFn (k l : Cand) (a b : List Ics) : Bool :=
  (List.zip a b).all (fun p => !p.2.better p.1) && ((List.zip a b).any (fun p => p.1.better p.2) || (!k.template && l.template))

/-- The overload that is viable and better than all other viable ones; `none`: the call does not compile. -/
def resolve (cpp20 : Bool) (c : Cond σ) (rest : List (Rest σ)) : Option Cand :=
  candidates.find? fun k => match viable cpp20 c rest k with
    | none => false
    | some a => candidates.all fun l => decide (l = k) || match viable cpp20 c rest l with
      | none => true
      | some b => betterFn k l a b

/-- The first argument converted to `bool`. -/
def asBool : Cond σ → Bool
  | .bool b => b
  | .number zero => !zero
  | .pointer p => p.isSome
  | .func _ f => f.isSome
  | .closure _ _ _ => true
  | .object b _ => b.getD false
  | _ => false

/-- The first argument converted to `std::function<bool()>`; a null pointer to a function gives an empty one. -/
def asChecker : Cond σ → Option (Checker σ)
  | .func _ f => f
  | .closure _ _ f => some f
  | .object _ call => call
  | .stdFunction _ f => f
  | _ => none

/-- The first argument is not `nullptr`, debug.hpp 386, 402, 422, 438, 455, 471, 491 and 507. -/
def notNull : Cond σ → Bool
  | .pointer p => p.isSome
  | .func _ f => f.isSome
  | .stdFunction _ f => f.isSome
  | .shared p => p.isSome
  | .unique _ p => p.isSome
  | _ => false

/-- The message among the other arguments; `nullptr` if there is none, debug.hpp 345, 367, 403, 439, 472, 508. -/
def message : List (Rest σ) → Option (Printer σ)
  | .printer p :: _ => p
  | _ => none

/-- The place among the other arguments; the place `here` of the call itself if there is none (C++20). -/
def location (here : Location) : List (Rest σ) → Location
  | .place loc :: _ => loc
  | .number n :: _ => ⟨n, 0, none⟩
  | _ :: .place loc :: _ => loc
  | _ :: .number n :: _ => ⟨n, 0, none⟩
  | _ => here

/-- `utki::assert(c, rest...)`, debug.hpp 253-515, at the place `here`; `none`: the call does not compile. -/
def call (cpp20 dbg tty : Bool) (here : Location) (c : Cond σ) (rest : List (Rest σ)) : Option (Meth (World σ) Unit) :=
  (resolve cpp20 c rest).map fun k => match k.first with
    | .bool => assertBool dbg tty (asBool c) (message rest) (location here rest)
    | .checker => assertChecker dbg tty (asChecker c) (message rest) (location here rest)
    | _ => assertBool dbg tty (notNull c) (message rest) (location here rest)

end AssertCall
end Utki
