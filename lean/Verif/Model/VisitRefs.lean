import Verif.Model.VisitMany
/-!
# Model of `utki::overloaded` with `std::visit` of several variants, with references of all kinds

/repo/src/utki/variant.hpp:67-100; as `Model/VisitMany.lean`, with the parameters and the ways variants are given of `Model/Overloaded.lean`: `T`, `T&`, `const T&`, `T&&`, or the same with
`auto`, and lvalues, const lvalues and rvalues. Functors may change what their references refer to. Simplified: no alternative is a base class of a parameter type; a conversion to another type does not change
the value that is converted; the variants are different objects.
-/
namespace Utki
namespace VisitRefs
open Spec.Visit (For)
open Overload (Convs Variant Param Pass Cat ConvSeq convSeq betterSeq paramType moreSpecialized)

variable {V β : Type}

/-- A functor: its parameters; what it returns, and the values its parameters, or what they refer to, have at the end. -/
structure Fun (V β : Type) where
  params : List Param
  body : List V → β × List V

/-- An argument: its type, and how its variant is given. -/
abbrev Arg := Nat × Cat

/-- The conversion sequences of all arguments; `none`: the functor is not viable, [over.match.viable]. -/
def seqs (conv : Convs) : List Arg → List Param → Option (List ConvSeq)
  | [], [] => some []
  | t :: ts, p :: ps => (convSeq conv t.1 t.2 p).bind fun r => (seqs conv ts ps).map (r :: ·)
  | _, _ => none

/-- One conversion sequence is better than the other, for two parameters for the argument `t`. -/
def beats (t : Arg) (p q : Param) (a b : ConvSeq) : Bool := betterSeq (decide (paramType t.1 p = paramType t.1 q)) a b

/-- No argument is converted worse, [over.match.best]. -/
def notWorse : List Arg → List Param → List Param → List ConvSeq → List ConvSeq → Bool
  | t :: ts, p :: ps, q :: qs, a :: as, b :: bs => !beats t q p b a && notWorse ts ps qs as bs
  | _, _, _, _, _ => true

/-- Some argument is converted better, [over.match.best]. -/
def someBetter : List Arg → List Param → List Param → List ConvSeq → List ConvSeq → Bool
  | t :: ts, p :: ps, q :: qs, a :: as, b :: bs => beats t p q a b || someBetter ts ps qs as bs
  | _, _, _, _, _ => false

/-- The call operator is a template: a parameter is declared with `auto`. -/
def isTemplate (ps : List Param) : Bool := ps.any (·.ty == .any)

/-- The template with the parameters `ps` is at least as specialized as that with `qs`, [temp.deduct.partial]. -/
def atLeast : List Param → List Param → Bool
  | p :: ps, q :: qs => (q.ty == .any || p.ty == q.ty) && !(p.ty == q.ty && moreSpecialized q.pass p.pass) && atLeast ps qs
  | _, _ => true

/-- The functor with parameters `p` is better for the call than that with `q`, [over.match.best]; `a` and `b` are the conversion sequences. -/
def better (ts : List Arg) (p q : List Param) (a b : List ConvSeq) : Bool :=
  notWorse ts p q a b && (someBetter ts p q a b || (!isTemplate p && isTemplate q) || (isTemplate p && isTemplate q && atLeast p q && !atLeast q p))

/-- Functor `i` is viable and better than all other viable ones. -/
def wins (conv : Convs) (ts : List Arg) (ps : List (List Param)) (i : Nat) : Bool :=
  match ps[i]? with
  | none => false
  | some p => match seqs conv ts p with
    | none => false
    | some a => (List.range ps.length).all fun j => decide (j = i) ||
        match ps[j]? with
        | none => true
        | some q => match seqs conv ts q with
          | none => true
          | some b => better ts p q a b

/-- The functor that a call with the arguments `ts` means; `none`: there is none, or the call is ambiguous. -/
def resolve (conv : Convs) (ts : List Arg) (ps : List (List Param)) : Option Nat := (List.range ps.length).find? (wins conv ts ps)

/-- The functor that is meant. -/
def chosen (conv : Convs) (ts : List Arg) (fs : List (Fun V β)) : Option (Fun V β) := (resolve conv ts (fs.map (·.params))).bind fun i => fs[i]?

/-- A variant with the types of its alternatives, as it is given to `std::visit`. -/
structure Given (V : Type) where
  alts : List Nat
  cat : Cat
  val : Variant V

/-- All combinations of alternatives. -/
def combos : List (List Nat × Cat) → List (List Arg)
  | [] => [[]]
  | (alts, c) :: rest => alts.flatMap fun t => (combos rest).map ((t, c) :: ·)

/-- The program compiles: the call means a functor for every combination, [variant.visit]. -/
def compiles (conv : Convs) (fs : List (Fun V β)) (gs : List (List Nat × Cat)) : Bool := (combos gs).all fun ts => (chosen conv ts fs).isSome

/-- The argument and the value of each variant; `none`: one of them has no value. -/
def heldAll : List (Given V) → Option (List (Arg × V))
  | [] => some []
  | g :: gs => (VisitMany.held g.alts g.val).bind fun h => (heldAll gs).map (((h.1, g.cat), h.2) :: ·)

/-- What the functor gets: each value, converted if the parameter is of another type. -/
def args (convert : Nat → Nat → V → V) : List Param → List (Arg × V) → List V
  | p :: ps, (t, x) :: hs => (if paramType t.1 p = t.1 then x else convert t.1 (paramType t.1 p) x) :: args convert ps hs
  | _, _ => []

/-- The value in a variant after the call, `y` is that of the parameter. A parameter of another type is a temporary object; one by value is copied or, from an rvalue, moved; a reference that is not
const, or is deduced so, refers to the value itself. -/
def after (moved : V → V) (t : Arg) (p : Param) (x y : V) : V :=
  if paramType t.1 p = t.1 then
    match p.pass, t.2 with
    | .value, .rvalue => moved x
    | .value, _ => x
    | .lref true, _ => x
    | .lref false, .lvalue => y
    | .lref false, _ => x
    | .rref, .clvalue => x
    | .rref, _ => y
  else x

/-- The variants after the call. -/
def written (moved : V → V) : List Param → List V → List (Given V) → List (Given V)
  | p :: ps, y :: ys, g :: gs =>
    { g with val := match VisitMany.held g.alts g.val, g.val with
      | some (t, x), some (k, _) => some (k, after moved (t, g.cat) p x y)
      | _, v => v } :: written moved ps ys gs
  | _, _, gs => gs

/-- `std::visit(overloaded{fs...}, vs...)`, variant.hpp:67-100: the result and the variants afterwards. A variant without a value makes `std::visit` throw `std::bad_variant_access`. Outer `none`: the program does
not compile. -/
def visit (conv : Convs) (convert : Nat → Nat → V → V) (moved : V → V) (fs : List (Fun V β)) (gs : List (Given V)) : Option (Except Unit β × List (Given V)) :=
  if compiles conv fs (gs.map fun g => (g.alts, g.cat)) then
    match heldAll gs with
    | none => some (.error (), gs)
    | some hs => (chosen conv (hs.map (·.1)) fs).map fun f =>
      let r := f.body (args convert f.params hs)
      (.ok r.1, written moved f.params r.2 gs)
  else none

end VisitRefs
end Utki
