import Verif.Core
import Verif.Spec.Overloaded
/-!
# Model of `utki::overloaded` with `std::visit`

/repo/src/utki/variant.hpp:67-100. `overloaded` has the call operators of all its functors as overloads (`using functor_type::operator()...`). Which
of them a call means is decided by the rules of overload resolution, [over.match.best], [over.ics.rank] and, between templates,
[temp.deduct.partial]; they are modelled here for what `std::visit` does with a single variant: one argument, which is an lvalue, a const lvalue or
an rvalue. Simplified: every functor has one call operator with one parameter, which is of type `T`, `T&`, `const T&`, `T&&`, or the same with `auto`; no
variant is a const rvalue; no alternative is a base class of a parameter type; values can be copied and moved; functors have no side effects.
-/
namespace Utki
namespace Overload
open Spec.Visit (For)

/-- How a parameter is declared: `T`, `T&` or `const T&`, `T&&`. `auto&&` is a forwarding reference. -/
inductive Pass where
  | value
  | lref (konst : Bool)
  | rref
deriving DecidableEq, Repr

/-- The parameter of a functor. -/
structure Param where
  ty : For
  pass : Pass
deriving DecidableEq, Repr

/-- How the variant is given to `std::visit`: `visit(f, v)`, the same with a const `v`, `visit(f, std::move(v))`. The argument of the functor is alike. -/
inductive Cat where
  | lvalue
  | clvalue
  | rvalue
deriving DecidableEq, Repr

/-- Implicit conversions between types: 0 promotion, 1 standard conversion, 2 user-defined conversion; `none`: there is none. -/
abbrev Convs := Nat → Nat → Option Nat

/-- Conversion sequence of an argument: its rank (0: exact match), and if the parameter is a reference, whether it is an rvalue reference and whether it refers to
a const object. -/
structure ConvSeq where
  rank : Nat
  bind : Option (Bool × Bool)
deriving DecidableEq, Repr

/-- Binding of a parameter of just the type of the argument (with `auto`: as deduced); nothing if it cannot be bound. [dcl.init.ref] -/
def bindSame (any : Bool) : Pass → Cat → Option ConvSeq
  | .value, _ => some ⟨0, none⟩
  | .lref true, _ => some ⟨0, some (false, true)⟩
  | .lref false, .lvalue => some ⟨0, some (false, false)⟩
  /- `auto&` is deduced as `const T&` -/
  | .lref false, .clvalue => if any then some ⟨0, some (false, true)⟩ else none
  | .lref false, .rvalue => none
  | .rref, .rvalue => some ⟨0, some (true, false)⟩
  /- `auto&&` is deduced as `T&` or `const T&` -/
  | .rref, .lvalue => if any then some ⟨0, some (false, false)⟩ else none
  | .rref, .clvalue => if any then some ⟨0, some (false, true)⟩ else none

/-- Binding of a parameter to the temporary that a conversion of rank `r` gives. -/
def bindConverted (r : Nat) : Pass → Option ConvSeq
  | .value => some ⟨r, none⟩
  | .lref true => some ⟨r, some (false, true)⟩
  | .lref false => none
  | .rref => some ⟨r, some (true, false)⟩

/-- The conversion sequence for an argument of type `t`, if the functor is viable, [over.match.viable]. -/
def convSeq (conv : Convs) (t : Nat) (c : Cat) (p : Param) : Option ConvSeq :=
  match p.ty with
  | .any => bindSame true p.pass c
  | .type u => if u = t then bindSame false p.pass c
    else match conv t u with
      | some r => bindConverted (r + 1) p.pass
      | none => none

/-- The type of the parameter, for an argument of type `t`. -/
def paramType (t : Nat) (p : Param) : Nat :=
  match p.ty with
  | .any => t
  | .type u => u

/-- The first conversion sequence is better, [over.ics.rank]: by rank; two references to the same type: an rvalue reference to an rvalue before an lvalue
reference; the reference to the less qualified type. -/
def betterSeq (sameType : Bool) (a b : ConvSeq) : Bool :=
  decide (a.rank < b.rank) || (decide (a.rank = b.rank) && sameType &&
    match a.bind, b.bind with
    | some (ra, ca), some (rb, cb) => (ra && !rb) || (ra == rb && !ca && cb)
    | _, _ => false)

/-- Of two templates the first is more specialized, [temp.deduct.partial]: only references are ordered, `const auto&` before `auto&` before `auto&&`. -/
def moreSpecialized : Pass → Pass → Bool
  | .lref true, .lref false => true
  | .lref true, .rref => true
  | .lref false, .rref => true
  | _, _ => false

/-- Functor `p` is better for the call than `q`, [over.match.best]; both are viable, with the conversion sequences `a` and `b`. -/
def betterFn (t : Nat) (p q : Param) (a b : ConvSeq) : Bool :=
  let same := decide (paramType t p = paramType t q)
  betterSeq same a b || (!betterSeq same b a &&
    match p.ty, q.ty with
    | .type _, .any => true
    | .any, .any => moreSpecialized p.pass q.pass
    | _, _ => false)

/-- Functor `i` is viable and better than all other viable ones. -/
def wins (conv : Convs) (t : Nat) (c : Cat) (ps : List Param) (i : Nat) : Bool :=
  match ps[i]? with
  | none => false
  | some p => match convSeq conv t c p with
    | none => false
    | some a => (List.range ps.length).all fun j => decide (j = i) ||
        match ps[j]? with
        | none => true
        | some q => match convSeq conv t c q with
          | none => true
          | some b => betterFn t p q a b

/-- The functor that a call with an argument of type `t` means; `none`: there is none, or the call is ambiguous, and the program does not compile. -/
def resolve (conv : Convs) (t : Nat) (c : Cat) (ps : List Param) : Option Nat := (List.range ps.length).find? (wins conv t c ps)

variable {V β : Type}

/-- A functor object: its parameter, and what it returns. -/
structure Functor (V β : Type) where
  param : Param
  body : V → β

/-- A variant: the index of the alternative it holds and the value, or nothing, if it is valueless by exception. -/
abbrev Variant (V : Type) := Option (Nat × V)

/-- The functor that is meant. -/
def chosen (conv : Convs) (t : Nat) (c : Cat) (fs : List (Functor V β)) : Option (Functor V β) :=
  (resolve conv t c (fs.map (·.param))).bind fun i => fs[i]?

/-- The program compiles: the call means a functor for the type of every alternative. -/
def compiles (conv : Convs) (c : Cat) (fs : List (Functor V β)) (alts : List Nat) : Bool := alts.all fun t => (chosen conv t c fs).isSome

/-- What the functor returns: it gets the value, converted if its parameter is of another type. -/
def call (convert : Nat → Nat → V → V) (t : Nat) (f : Functor V β) (x : V) : β :=
  f.body (if paramType t f.param = t then x else convert t (paramType t f.param) x)

/-- `std::visit(overloaded{fs...}, v)`, variant.hpp:67-100, for a variant with alternatives of the types `alts`. A valueless variant makes `std::visit`
throw `std::bad_variant_access`. Outer `none`: the program does not compile (or `v` is no such variant). -/
def visit (conv : Convs) (convert : Nat → Nat → V → V) (c : Cat) (fs : List (Functor V β)) (alts : List Nat) (v : Variant V) :
    Option (Except Unit β) :=
  if compiles conv c fs alts then
    match v with
    | none => some (.error ())
    | some (k, x) => match alts[k]? with
      | none => none
      | some t => (chosen conv t c fs).map fun f => .ok (call convert t f x)
  else none

end Overload
end Utki
