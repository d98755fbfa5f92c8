import Verif.Model.VisitRefs
/-!
# What users expect of a visit of several variants with references of all kinds
-/
namespace Utki.Spec.VisitRefs
open Spec.Visit (For)
open Overload (Param Pass Cat)
open Utki.VisitRefs (Given)
variable {V : Type}

/-- The variants hold values `xs` of the types `ts`. -/
inductive Holds : List (Given V) → List Nat → List V → Prop
  | nil : Holds [] [] []
  | cons {g : Given V} {gs ts xs} {i t : Nat} {x : V} : g.val = some (i, x) → g.alts[i]? = some t → Holds gs ts xs → Holds (g :: gs) (t :: ts) (x :: xs)

/-- The parameter is declared for the type, or for any type. -/
def IsFor (p : Param) (t : Nat) : Prop := p.ty = .any ∨ p.ty = .type t

/-- A functor with these parameters gets `ys` for the values `xs`: the values themselves, or what they are converted to if a parameter is of another type. -/
inductive Passes (convert : Nat → Nat → V → V) : List Param → List Nat → List V → List V → Prop
  | nil : Passes convert [] [] [] []
  | same {p ps t ts x xs ys} : IsFor p t → Passes convert ps ts xs ys → Passes convert (p :: ps) (t :: ts) (x :: xs) (x :: ys)
  | other {p ps t ts u x xs ys} : p.ty = .type u → u ≠ t → Passes convert ps ts xs ys → Passes convert (p :: ps) (t :: ts) (x :: xs) (convert t u x :: ys)

/-- The parameter is a reference to the value in the variant, by which it can be changed: `T&` and `auto&` for a variant that is neither const nor an rvalue, `T&&` and `auto&&` for one that is not const. -/
def Refers (p : Param) (t : Nat) (c : Cat) : Prop := IsFor p t ∧ (p.pass = .lref false ∧ c = .lvalue ∨ p.pass = .rref ∧ c ≠ .clvalue)

/-- The parameter is initialised by moving the value out of the variant. -/
def Moves (p : Param) (t : Nat) (c : Cat) : Prop := IsFor p t ∧ p.pass = .value ∧ c = .rvalue

/-- What is left in a variant with the value `x`, if the functor leaves `y` in its parameter. -/
inductive Leaves (moved : V → V) (p : Param) (t : Nat) (c : Cat) (x y : V) : V → Prop
  | refers : Refers p t c → Leaves moved p t c x y y
  | moves : Moves p t c → Leaves moved p t c x y (moved x)
  | stays : ¬ Refers p t c → ¬ Moves p t c → Leaves moved p t c x y x

/-- The variants before and after the call of a functor that leaves `ys` in its parameters. Each holds the same alternative as before. -/
inductive After (moved : V → V) : List Param → List V → List (Given V) → List (Given V) → Prop
  | nil : After moved [] [] [] []
  | cons {p ps} {g : Given V} {gs gs' ys} {i t : Nat} {x y z : V} : g.val = some (i, x) → g.alts[i]? = some t → Leaves moved p t g.cat x y z → After moved ps ys gs gs' →
      After moved (p :: ps) (y :: ys) (g :: gs) ({ g with val := some (i, z) } :: gs')

/-- The parameters are by value or by const reference. -/
def AllPlain (ps : List Param) : Prop := ∀ p ∈ ps, p.pass = .value ∨ p.pass = .lref true

end Utki.Spec.VisitRefs
