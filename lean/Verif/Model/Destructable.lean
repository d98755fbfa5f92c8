import Verif.Core
/-!
# `destructable`

Model of /repo/src/utki/destructable.hpp 38-50, together with the rules of the language for the destruction of objects of classes derived from it.
Simplified: no virtual bases; the exceptions of destructors are not represented.
-/
namespace Utki
namespace Destructable

/-- A class: whether its destructor is declared `virtual`, the number of its members, its direct bases in the order of their declaration. -/
inductive Class where
  | mk (declaredVirtual : Bool) (members : Nat) (bases : List Class)

/-- `destructable`, destructable.hpp 38-50: a virtual destructor, no members, no bases. -/
def destructable : Class := .mk true 0 []

/-- What happens in the destruction of an object. A subobject is named by the way to it: which base to take at each level. -/
inductive Event where
  /-- the body of the destructor of the subobject's class runs -/
  | body (sub : List Nat)
  /-- the member number `k` of the subobject is destroyed -/
  | member (sub : List Nat) (k : Nat)
deriving DecidableEq, Repr

mutual
/-- Is the destructor of the class virtual? It is if it is declared so or that of a base is. -/
def isVirtual : Class → Bool
  | .mk declared _ bases => declared || anyVirtual bases
def anyVirtual : List Class → Bool
  | [] => false
  | b :: bs => isVirtual b || anyVirtual bs
end

mutual
/-- The destructor of a subobject of the class at `sub`: its body, then the members, then the bases, both in reverse order of declaration. -/
def destroy (sub : List Nat) : Class → List Event
  | .mk _ members bases => .body sub :: ((List.range members).reverse.map (.member sub) ++ destroyBases sub 0 bases)
/-- The bases from number `i` on, the last first. -/
def destroyBases (sub : List Nat) (i : Nat) : List Class → List Event
  | [] => []
  | b :: bs => destroyBases sub (i + 1) bs ++ destroy (sub ++ [i]) b
end

/-- The class of the subobject at `sub`. -/
def classAt : Class → List Nat → Option Class
  | c, [] => some c
  | .mk _ _ bases, i :: sub =>
    match bases[i]? with
    | some b => classAt b sub
    | none => none

/-- `delete p`, where `p` points to the subobject at `sub` of an object of class `c`: through a virtual destructor the whole object is destroyed,
otherwise it is undefined, unless `p` points to the whole object. -/
def delete (c : Class) (sub : List Nat) : Res (List Event) :=
  match classAt c sub with
  | none => .ub .bad_pointer
  | some b => if isVirtual b || sub.isEmpty then .ok (destroy [] c) else .ub .bad_pointer

end Destructable
end Utki
