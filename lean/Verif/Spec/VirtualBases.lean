import Verif.Model.VirtualBases
/-! # Specification of the destruction of objects with virtual bases -/
namespace Utki.Spec
open VirtualBases

/-- `s` is a subobject of class `d` of an object of class `c`: the whole object, a base of a subobject, or a virtual base, of which there is one for each name. -/
inductive SubOf (c : VClass) : Sub → VClass → Prop
  | whole : SubOf c ⟨none, []⟩ c
  | base {s : Sub} {d b : VClass} {i : Nat} : SubOf c s d → d.bases.at i = some (false, b) → SubOf c ⟨s.origin, s.path ++ [i]⟩ b
  | shared {s : Sub} {d b : VClass} {i : Nat} : SubOf c s d → d.bases.at i = some (true, b) → SubOf c ⟨some b.name, []⟩ b

/-- Names name classes: those of the object with the same name are the same. -/
def WellNamed (c : VClass) : Prop := ∀ s s' d d', SubOf c s d → SubOf c s' d' → d.name = d'.name → d = d'

/-- The subobject to which an event belongs. -/
def eventSub : VEvent → Sub
  | .body s => s
  | .member s _ => s

/-- There is such a subobject, or such a member of one, in an object of class `c`. -/
def VPart (c : VClass) : VEvent → Prop
  | .body s => ∃ d, SubOf c s d
  | .member s k => ∃ d, SubOf c s d ∧ k < d.members

/-- The first has to happen before the second: the body of a destructor before the destruction of members, later members before earlier ones, everything of a class before everything of its
bases, later bases before earlier ones, and everything of a class before everything of its virtual bases. -/
inductive MustPrecede (c : VClass) : VEvent → VEvent → Prop
  | member (s : Sub) (k : Nat) : MustPrecede c (.body s) (.member s k)
  | members (s : Sub) (k l : Nat) : l < k → MustPrecede c (.member s k) (.member s l)
  | base (e e' : VEvent) (i : Nat) (q : List Nat) : eventSub e' = ⟨(eventSub e).origin, (eventSub e).path ++ i :: q⟩ → MustPrecede c e e'
  | bases (e e' : VEvent) (o : Option Nat) (p : List Nat) (i j : Nat) (q r : List Nat) : j < i → eventSub e = ⟨o, p ++ i :: q⟩ → eventSub e' = ⟨o, p ++ j :: r⟩ → MustPrecede c e e'
  | shared (e e' : VEvent) (d b : VClass) (i : Nat) : SubOf c (eventSub e) d → d.bases.at i = some (true, b) → (eventSub e').origin = some b.name → MustPrecede c e e'

end Utki.Spec
