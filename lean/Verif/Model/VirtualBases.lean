import Verif.Core
/-!
# `destructable` and virtual bases

Model of /repo/src/utki/destructable.hpp 38-50, together with the rules of the language for the destruction of objects whose classes have virtual bases, which all classes of an object that have
them share. (`Model/Destructable` is about classes without virtual bases.) Simplified: the exceptions of destructors are not represented; that a pointer to a base of which there are several
subobjects can be made only step by step is a matter of types.
-/
namespace Utki
namespace VirtualBases

mutual
/-- A class: its name, whether its destructor is declared `virtual`, the number of its members, its direct bases. -/
inductive VClass where
  | mk (name : Nat) (declaredVirtual : Bool) (members : Nat) (bases : VBases)
/-- Direct bases in the order of their declaration; `shared` for virtual bases. -/
inductive VBases where
  | nil
  | cons (shared : Bool) (base : VClass) (rest : VBases)
end

/-- The name of the class. -/
def VClass.name : VClass → Nat
  | .mk n _ _ _ => n
/-- The number of members. -/
def VClass.members : VClass → Nat
  | .mk _ _ m _ => m
/-- The direct bases. -/
def VClass.bases : VClass → VBases
  | .mk _ _ _ bs => bs

/-- The base with the given number, and whether it is virtual. -/
def VBases.at : VBases → Nat → Option (Bool × VClass)
  | .nil, _ => none
  | .cons s b _, 0 => some (s, b)
  | .cons _ _ rest, i + 1 => rest.at i

/-- `destructable`, destructable.hpp 38-50: a virtual destructor, no members, no bases. -/
def vdestructable : VClass := .mk 0 true 0 .nil

/-- A subobject: from the whole object (`none`) or the virtual base with the given name, which base to take at each level. -/
structure Sub where
  origin : Option Nat
  path : List Nat
deriving DecidableEq, Repr

/-- What happens in the destruction of an object. -/
inductive VEvent where
  /-- the body of the destructor of the subobject's class runs -/
  | body (s : Sub)
  /-- the member number `k` of the subobject is destroyed -/
  | member (s : Sub) (k : Nat)
deriving DecidableEq, Repr

mutual
/-- Is the destructor of the class virtual? It is if it is declared so or that of a base is. -/
def VClass.isVirtual : VClass → Bool
  | .mk _ declared _ bases => declared || bases.anyVirtual
def VBases.anyVirtual : VBases → Bool
  | .nil => false
  | .cons _ b rest => b.isVirtual || rest.anyVirtual
end

mutual
/-- The virtual bases of a class, its own and those of its bases, in the order of a walk depth first and from left to right, each after those it has itself. -/
def VClass.shared : VClass → List VClass
  | .mk _ _ _ bases => bases.shared
def VBases.shared : VBases → List VClass
  | .nil => []
  | .cons s b rest => (b.shared ++ if s then [b] else []) ++ rest.shared
end

/-- The first of each name that is not among those seen. -/
def firsts : List Nat → List VClass → List VClass
  | _, [] => []
  | seen, c :: cs => if c.name ∈ seen then firsts seen cs else c :: firsts (c.name :: seen) cs

mutual
/-- The destructor of a subobject without its virtual bases: its body, then the members, then the other bases, both in reverse order of declaration. -/
def VClass.destroyPart (s : Sub) : VClass → List VEvent
  | .mk _ _ members bases => .body s :: ((List.range members).reverse.map (.member s) ++ bases.destroyPart s 0)
/-- The bases from number `i` on, the last first. -/
def VBases.destroyPart (s : Sub) (i : Nat) : VBases → List VEvent
  | .nil => []
  | .cons sh b rest => rest.destroyPart s (i + 1) ++ if sh then [] else b.destroyPart ⟨s.origin, s.path ++ [i]⟩
end

/-- The destruction of a whole object: first all but the virtual bases, then these, in the reverse of the order they were constructed in. -/
def VClass.destroyAll (c : VClass) : List VEvent :=
  c.destroyPart ⟨none, []⟩ ++ (firsts [] c.shared).reverse.flatMap (fun v => v.destroyPart ⟨some v.name, []⟩)

/-- The class of the subobject reached from an object of class `c` over bases that are not virtual. -/
def VClass.reach : VClass → List Nat → Option VClass
  | c, [] => some c
  | c, i :: p =>
    match c.bases.at i with
    | some (false, b) => b.reach p
    | _ => none

/-- The class of a subobject. -/
def VClass.classOf (c : VClass) (s : Sub) : Option VClass :=
  match s.origin with
  | none => c.reach s.path
  | some n =>
    match (firsts [] c.shared).find? (fun v => v.name == n) with
    | some v => v.reach s.path
    | none => none

/-- `delete p`, where `p` points to the subobject `s` of an object of class `c`: through a virtual destructor the whole object is destroyed, otherwise it is undefined, unless `p` points to the
whole object. -/
def VClass.delete (c : VClass) (s : Sub) : Res (List VEvent) :=
  match c.classOf s with
  | none => .ub .bad_pointer
  | some b => if b.isVirtual || s = ⟨none, []⟩ then .ok c.destroyAll else .ub .bad_pointer

end VirtualBases
end Utki
