import Verif.Model.Overloaded
/-!
# Model of `utki::overloaded` with `std::visit` of several variants

/repo/src/utki/variant.hpp:67-100; as `Model/Overloaded.lean`, for functors with several parameters. A functor is called with the values of all
variants, in their order. A functor with several call operators, such as another `overloaded`, stands for several functors here, as all of them are made
visible by the using-declaration of line 93. Simplified: every parameter is of type `T`, `const T&`, `auto` or
`const auto&` (for these it does not matter how the variants are given, and among them only the conversion to another type is worse); no alternative is a
base class of a parameter type; values can be copied; functors have no side effects.
-/
namespace Utki
namespace VisitMany
open Spec.Visit (For)
open Overload (Convs Variant)

variable {V β : Type}

/-- A functor: the types of its parameters, and what it returns. -/
structure Fun (V β : Type) where
  params : List For
  body : List V → β

/-- The conversion of an argument of type `t` to a parameter: 0 for an exact match; `none`: there is none. [over.best.ics] -/
def rank (conv : Convs) (t : Nat) : For → Option Nat
  | .any => some 0
  | .type u => if u = t then some 0 else (conv t u).map (· + 1)

/-- The conversions of all arguments; `none`: the functor is not viable, [over.match.viable], as a conversion is missing or the number of parameters is
another one. -/
def ranks (conv : Convs) : List Nat → List For → Option (List Nat)
  | [], [] => some []
  | t :: ts, p :: ps => (rank conv t p).bind fun r => (ranks conv ts ps).map (r :: ·)
  | _, _ => none

/-- No argument is converted worse, [over.match.best]. -/
def notWorse : List Nat → List Nat → Bool
  | a :: as, b :: bs => decide (a ≤ b) && notWorse as bs
  | _, _ => true

/-- Some argument is converted better, [over.match.best]. -/
def someBetter : List Nat → List Nat → Bool
  | a :: as, b :: bs => decide (a < b) || someBetter as bs
  | _, _ => false

/-- The call operator is a template: a parameter is declared with `auto`. -/
def isTemplate (ps : List For) : Bool := ps.any (· == .any)

/-- The parameters `qs` can be deduced from the types of the parameters `ps`, each `auto` of which stands for a type of its own,
[temp.deduct.partial]. -/
def deducible : List For → List For → Bool
  | p :: ps, q :: qs => (q == .any || p == q) && deducible ps qs
  | _, _ => true

/-- The functor with parameters `p` is better for the call than that with `q`, [over.match.best]; `a` and `b` are the conversions. -/
def better (p q : List For) (a b : List Nat) : Bool :=
  notWorse a b && (someBetter a b || (!isTemplate p && isTemplate q) || (isTemplate p && isTemplate q && deducible p q && !deducible q p))

/-- Functor `i` is viable and better than all other viable ones. -/
def wins (conv : Convs) (ts : List Nat) (ps : List (List For)) (i : Nat) : Bool :=
  match ps[i]? with
  | none => false
  | some p => match ranks conv ts p with
    | none => false
    | some a => (List.range ps.length).all fun j => decide (j = i) ||
        match ps[j]? with
        | none => true
        | some q => match ranks conv ts q with
          | none => true
          | some b => better p q a b

/-- The functor that a call with arguments of the types `ts` means; `none`: there is none, or the call is ambiguous. -/
def resolve (conv : Convs) (ts : List Nat) (ps : List (List For)) : Option Nat := (List.range ps.length).find? (wins conv ts ps)

/-- The functor that is meant. -/
def chosen (conv : Convs) (ts : List Nat) (fs : List (Fun V β)) : Option (Fun V β) := (resolve conv ts (fs.map (·.params))).bind fun i => fs[i]?

/-- All combinations of alternatives. -/
def combos : List (List Nat) → List (List Nat)
  | [] => [[]]
  | alts :: rest => alts.flatMap fun t => (combos rest).map (t :: ·)

/-- The program compiles: the call means a functor for every combination, [variant.visit]. -/
def compiles (conv : Convs) (fs : List (Fun V β)) (altss : List (List Nat)) : Bool := (combos altss).all fun ts => (chosen conv ts fs).isSome

/-- The type and the value a variant holds. -/
def held (alts : List Nat) : Variant V → Option (Nat × V)
  | none => none
  | some (k, x) => (alts[k]?).map fun t => (t, x)

/-- The types and the values of all variants; `none`: one of them has no value. -/
def heldAll : List (List Nat) → List (Variant V) → Option (List (Nat × V))
  | [], [] => some []
  | alts :: as, v :: vs => (held alts v).bind fun h => (heldAll as vs).map (h :: ·)
  | _, _ => none

/-- The arguments as the functor gets them: converted to the types of its parameters. -/
def args (convert : Nat → Nat → V → V) : List For → List (Nat × V) → List V
  | .any :: ps, (_, x) :: hs => x :: args convert ps hs
  | .type u :: ps, (t, x) :: hs => (if u = t then x else convert t u x) :: args convert ps hs
  | _, _ => []

/-- `std::visit(overloaded{fs...}, vs...)`, variant.hpp:67-100, for variants with alternatives of the types `altss`. A variant without a value makes
`std::visit` throw `std::bad_variant_access`. Outer `none`: the program does not compile. -/
def visit (conv : Convs) (convert : Nat → Nat → V → V) (fs : List (Fun V β)) (altss : List (List Nat)) (vs : List (Variant V)) :
    Option (Except Unit β) :=
  if compiles conv fs altss then
    match heldAll altss vs with
    | none => some (.error ())
    | some hs => (chosen conv (hs.map (·.1)) fs).map fun f => .ok (f.body (args convert f.params hs))
  else none

end VisitMany
end Utki
