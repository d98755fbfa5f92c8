import Verif.Model.TypeTraits
/-!
# C++ types, for the statements about type functions
-/
namespace Utki.Spec
open Traits

/-- What `const T` means: references and functions cannot be `const`, of an array it makes the elements `const`. -/
def constOf : Ty → Ty
  | .named cv id => .named ⟨true, cv.volatile⟩ id
  | .enumeration cv s id => .enumeration ⟨true, cv.volatile⟩ s id
  | .pointer cv t => .pointer ⟨true, cv.volatile⟩ t
  | .spec cv templ args => .spec ⟨true, cv.volatile⟩ templ args
  | .array n t => .array n (constOf t)
  | .function id => .function id
  | .lref t => .lref t
  | .rref t => .rref t

/-- The same for `volatile T`. -/
def volatileOf : Ty → Ty
  | .named cv id => .named ⟨cv.const, true⟩ id
  | .enumeration cv s id => .enumeration ⟨cv.const, true⟩ s id
  | .pointer cv t => .pointer ⟨cv.const, true⟩ t
  | .spec cv templ args => .spec ⟨cv.const, true⟩ templ args
  | .array n t => .array n (volatileOf t)
  | .function id => .function id
  | .lref t => .lref t
  | .rref t => .rref t

/-- Reference types. -/
def IsReference : Ty → Prop
  | .lref _ => True
  | .rref _ => True
  | _ => False

/-- Types that are `const` at the top level: `const T` is the same type, and it is not a type for which `const` means nothing. -/
def IsConst : Ty → Prop
  | .named cv _ => cv.const = true
  | .enumeration cv _ _ => cv.const = true
  | .pointer cv _ => cv.const = true
  | .spec cv _ _ => cv.const = true
  | .array _ t => IsConst t
  | _ => False

/-- Likewise for `volatile`. -/
def IsVolatile : Ty → Prop
  | .named cv _ => cv.volatile = true
  | .enumeration cv _ _ => cv.volatile = true
  | .pointer cv _ => cv.volatile = true
  | .spec cv _ _ => cv.volatile = true
  | .array _ t => IsVolatile t
  | _ => False

/-- Types that exist: there are no references to references, pointers to references and arrays of references or functions. -/
inductive IsType : Ty → Prop
  | named (cv id) : IsType (.named cv id)
  | enumeration (cv s id) : IsType (.enumeration cv s id)
  | pointer (cv t) : IsType t → ¬ IsReference t → IsType (.pointer cv t)
  | spec (cv templ args) : (∀ t ∈ args, IsType t) → IsType (.spec cv templ args)
  | array (n t) : IsType t → ¬ IsReference t → (∀ id, t ≠ .function id) → IsType (.array n t)
  | function (id) : IsType (.function id)
  | lref (t) : IsType t → ¬ IsReference t → IsType (.lref t)
  | rref (t) : IsType t → ¬ IsReference t → IsType (.rref t)

end Utki.Spec
