import Verif.Model.SpanConv
/-!
# What users expect of conversions to spans

Only the types of objects and elements are taken from the model.
-/
namespace Utki.Spec.SpanConv
open Utki.SpanConv Overload

/-- The object is changeable through this expression: a named object that is not const. -/
def changeable : Cat → Bool
  | .lvalue => true
  | _ => false

/-- The elements of an object, as an expression of the given kind gives access to them. -/
def elements : Src → Elem
  | .pointer e => e
  | .array c e => ⟨e.ty, e.konst || !changeable c⟩
  | .vector c ty => ⟨ty, !changeable c⟩
  | .string c ty => ⟨ty, !changeable c⟩
  | .view ty => ⟨ty, true⟩
  | .span e => e
  | .braces ty => ⟨ty, true⟩

/-- `span<e>` should be able to refer to such elements: they are of the same type, and if they may only be read, the span does not allow more. -/
def Fits (o e : Elem) : Prop := o.ty = e.ty ∧ (o.konst = true → e.konst = true)

/-- Objects from which no span is expected: pointers to anything but characters, of which nobody knows the number, arrays of const elements, and strings of
something that is not a character. -/
def Unusual : Src → Prop
  | .pointer e => e.ty ≠ char
  | .array _ e => e.konst = true
  | .string _ ty => ty ≠ char ∧ ty ≠ wchar_t ∧ ty ≠ char16_t ∧ ty ≠ char32_t
  | _ => False

/-- Text or bytes: the objects that functions for text are expected to take. -/
def TextOf (ty : Nat) : Src → Prop
  | .pointer e => e.ty = ty
  | .array _ e => e = ⟨ty, false⟩
  | .vector _ t => t = ty
  | .string _ t => t = ty
  | .view t => t = ty
  | .span e => e.ty = ty
  | .braces _ => False

end Utki.Spec.SpanConv
