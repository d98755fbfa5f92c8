import Verif.Core
/-!
# The type functions of /repo/src/utki/type_traits.hpp

C++ types as terms. Every term is in normal form: the `const` and `volatile` that belong to a type are flags of its outermost constructor
(`cv`), an array has those of its elements.
-/
namespace Utki
namespace Traits

/-- Top-level `const` and `volatile`. -/
structure CV where
  const : Bool
  volatile : Bool
deriving DecidableEq, Repr

/-- C++ types. Names and templates are numbers. -/
inductive Ty where
  /-- a fundamental or class type that is not made from a template -/
  | named (cv : CV) (id : Nat)
  /-- an enumeration; `isScoped`: declared with `enum class` -/
  | enumeration (cv : CV) (isScoped : Bool) (id : Nat)
  /-- `t*` -/
  | pointer (cv : CV) (t : Ty)
  /-- `templ<args...>`, only type arguments -/
  | spec (cv : CV) (templ : Nat) (args : List Ty)
  /-- `t[n]` -/
  | array (n : Nat) (t : Ty)
  /-- a function type; it cannot be `const` -/
  | function (id : Nat)
  /-- `t&` -/
  | lref (t : Ty)
  /-- `t&&` -/
  | rref (t : Ty)

/-- `std::remove_reference_t`. -/
def removeReference : Ty → Ty
  | .lref t => t
  | .rref t => t
  | t => t

/-- `std::remove_const_t`. -/
def removeConst : Ty → Ty
  | .named cv id => .named { cv with const := false } id
  | .enumeration cv s id => .enumeration { cv with const := false } s id
  | .pointer cv t => .pointer { cv with const := false } t
  | .spec cv templ args => .spec { cv with const := false } templ args
  | .array n t => .array n (removeConst t)
  | .function id => .function id
  | .lref t => .lref t
  | .rref t => .rref t

/-- `std::remove_pointer_t`: for pointers that are `const` or `volatile` themselves too. -/
def removePointer : Ty → Ty
  | .pointer _ t => t
  | t => t

/-- `remove_const_pointer_t`, type_traits.hpp 161-167. -/
def remove_const_pointer (t : Ty) : Ty := removeConst (removePointer t)

/-- `remove_const_reference_t`, type_traits.hpp 175-181. -/
def remove_const_reference (t : Ty) : Ty := removeConst (removeReference t)

/-- `is_type_defined<owner_type>::value`, type_traits.hpp 196-207. `member t` is what `t::type` means, if anything; the partial
specialization is chosen exactly if it means something. -/
def is_type_defined (member : Ty → Option Ty) (t : Ty) : Bool :=
  match member t with
  | some _ => true
  | none => false

/-- `type_or_void_t<owner_type>`, type_traits.hpp 211-230; `void` is given. -/
def type_or_void (member : Ty → Option Ty) (void t : Ty) : Ty :=
  match member t with
  | some u => u
  | none => void

/-- `is_specialization_of_v`, type_traits.hpp 232-250: the partial specialization matches `template_templ<args...>` itself only. -/
def is_specialization_of (templ : Nat) : Ty → Bool
  | .spec ⟨false, false⟩ templ' _ => templ == templ'
  | _ => false

/-- `std::is_enum_v`. -/
def isEnum : Ty → Bool
  | .enumeration _ _ _ => true
  | _ => false

/-- `std::is_convertible_v<t, std::underlying_type_t<t>>` of an enumeration: unscoped ones convert to integers implicitly. -/
def convertsToUnderlying : Ty → Bool
  | .enumeration _ isScoped _ => !isScoped
  | _ => false

/-- `is_scoped_enum_v`, type_traits.hpp 252-279. -/
def is_scoped_enum (t : Ty) : Bool := if isEnum t then !convertsToUnderlying t else false

/-- `byte_bits`, `nibble_bits`, type_traits.hpp 42, 45. -/
def byte_bits : Nat := 8
def nibble_bits : Nat := byte_bits / 2

/-- `lower_nibble_mask`, `upper_nibble_mask`, `byte_mask`, type_traits.hpp 47-49. -/
def lower_nibble_mask : Nat := 0xf
def upper_nibble_mask : Nat := 0xf0
def byte_mask : Nat := 0xff

/-- `bit_0_mask` to `bit_7_mask`, type_traits.hpp 50-57. -/
def bit_masks : List Nat := [0x01, 0x02, 0x04, 0x08, 0x10, 0x20, 0x40, 0x80]

end Traits
end Utki
