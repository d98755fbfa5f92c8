import Verif.Model.AssertOverloads
import Verif.Model.Overloaded
/-!
# Conversions to `utki::span`, and the overloads that take spans

/repo/src/utki/span.hpp:85-297, the class for C++ before C++26 (later it is `std::span`). Which constructor a conversion means is decided by the rules
of overload resolution; whether it then compiles also depends on the constructor's body. Simplified: types are numbered; references bind to objects of exactly
the type named (no derived classes); alternatives to the default traits and allocators do not occur.
-/
namespace Utki
namespace SpanConv
open Overload (Cat)
open AssertCall (Ics)

/-- A type of elements: the type without `const`, and whether it is const. -/
structure Elem where
  ty : Nat
  konst : Bool
deriving DecidableEq, Repr

/-- The types that have names here. -/
def char : Nat := 0
def wchar_t : Nat := 1
def char16_t : Nat := 2
def char32_t : Nat := 3
def uint8_t : Nat := 4

/-- What is converted. `Cat`: an lvalue, a const lvalue, or an rvalue. -/
inductive Src where
  /-- `e*`, also an array `e[N]` and a string literal -/
  | pointer (e : Elem)
  /-- `std::array<e, N>` -/
  | array (c : Cat) (e : Elem)
  /-- `std::vector<ty>` -/
  | vector (c : Cat) (ty : Nat)
  /-- `std::basic_string<ty>` -/
  | string (c : Cat) (ty : Nat)
  /-- `std::basic_string_view<ty>` -/
  | view (ty : Nat)
  /-- `utki::span<e>` -/
  | span (e : Elem)
  /-- `{x, y, ...}` with elements of the type -/
  | braces (ty : Nat)
deriving DecidableEq, Repr

/-- The constructors with one parameter, in the order of their declarations. -/
inductive Ctor where
  | copy           -- 90-94
  | convert        -- 113-143
  | list           -- 145-152
  | arrayRef       -- 154-157
  | constArrayRef  -- 159-162
  | vectorRef      -- 164-166
  | constVector    -- 168-193
  | stringRef      -- 195-216
  | constString    -- 218-243
  | stringView     -- 245-270
  | pointer        -- 272-297
deriving DecidableEq, Repr

/-- All of them. -/
def ctors : List Ctor := [.copy, .convert, .list, .arrayRef, .constArrayRef, .vectorRef, .constVector, .stringRef, .constString, .stringView, .pointer]

/-- The constructor is a template. -/
def Ctor.template : Ctor → Bool
  | .copy => false
  | .list => false
  | .vectorRef => false
  | _ => true

/-- `o (*)[]` converts to `e (*)[]`, and `o*` to `e*`: the same type, and `const` is not lost, [conv.qual]. -/
def arrayConv (o e : Elem) : Bool := o.ty = e.ty && (!o.konst || e.konst)

/-- span.hpp 200-211: character types. -/
def charLike (ty : Nat) : Bool := ty = char || ty = wchar_t || ty = char16_t || ty = char32_t

/-- The parameter of the constructor of `span<e>` can be initialized: a template's argument can be deduced and satisfies the condition, and the reference
binds; whether it refers to a const object. -/
def binds (e : Elem) : Ctor → Src → Option Bool
  | .copy, .span o => if o = e then some true else none
  | .convert, .span o => if arrayConv o e then some true else none
  | .list, .braces ty => if ty = e.ty then some true else none
  | .arrayRef, .array .lvalue o => if o = ⟨e.ty, false⟩ then some false else none
  | .constArrayRef, .array _ o => if o = ⟨e.ty, false⟩ then some true else none
  | .vectorRef, .vector .lvalue ty => if ty = e.ty then some false else none
  | .constVector, .vector _ ty => if arrayConv ⟨ty, true⟩ e then some true else none
  | .stringRef, .string .lvalue ty => if charLike ty then some false else none
  | .constString, .string _ ty => if arrayConv ⟨ty, true⟩ e then some true else none
  | .stringView, .view ty => if arrayConv ⟨ty, true⟩ e then some true else none
  | .pointer, .pointer o => if arrayConv o ⟨char, true⟩ then some true else none
  | _, _ => none

/-- Constructor `k` is better than `l`: it takes a reference to a non-const object and the other to a const one; else it is no template and the other is one. -/
def betterCtor (k l : Ctor) (ck cl : Bool) : Bool := (!ck && cl) || (ck = cl && !k.template && l.template)

/-- The constructor that the conversion means. -/
def chosen (e : Elem) (s : Src) : Option Ctor :=
  ctors.find? fun k => match binds e k s with
    | none => false
    | some ck => ctors.all fun l => decide (l = k) || match binds e l s with
      | none => true
      | some cl => betterCtor k l ck cl

/-- The type of what `data()` or `begin()` of the parameter points to; the pointer itself for the last constructor. -/
def pointee : Ctor → Src → Elem
  | .copy, .span o => o
  | .convert, .span o => o
  | .list, .braces ty => ⟨ty, true⟩
  | .arrayRef, .array _ o => o
  | .constArrayRef, .array _ o => ⟨o.ty, true⟩
  | .vectorRef, .vector _ ty => ⟨ty, false⟩
  | .constVector, .vector _ ty => ⟨ty, true⟩
  | .stringRef, .string _ ty => ⟨ty, false⟩
  | .constString, .string _ ty => ⟨ty, true⟩
  | .stringView, .view ty => ⟨ty, true⟩
  | .pointer, .pointer o => o
  | _, _ => ⟨0, true⟩

/-- `std::is_convertible_v<s, span<e>>`: a constructor is found. Its body is not looked at. -/
def isConvertible (e : Elem) (s : Src) : Bool := (chosen e s).isSome

/-- The object converted: where its elements are, and how many there are; for a pointer, how many there are before the first that is zero, `strlen`. -/
structure Obj where
  src : Src
  addr : Nat
  size : Nat

/-- `span<e>` from an object, span.hpp 85-297: the pointer and the size; `none`: it does not compile, because there is no constructor for it or because the pointer cannot
be passed on to `span(pointer, size_type)` in the constructor's initializer. -/
def make (e : Elem) (o : Obj) : Option (Nat × Nat) :=
  (chosen e o.src).bind fun k => if arrayConv (pointee k o.src) e then some (o.addr, o.size) else none

/-- Parameters of functions. -/
inductive Par where
  /-- `utki::span<e>` -/
  | span (e : Elem)
  /-- `const char*` -/
  | cstr
  /-- `const std::string&` -/
  | string
  /-- `std::string_view` -/
  | view
  /-- `utki::utf8_iterator`, which converts from `span<const uint8_t>`, `std::string_view` and `const char*`, unicode.hpp 54-76 -/
  | iter
  /-- `const std::array<ty, array_size>&`, a template -/
  | array (ty : Nat)
  /-- `const std::vector<ty>&` -/
  | vector (ty : Nat)
deriving DecidableEq, Repr

/-- Rank of the conversion to a parameter. At most one user-defined conversion can be made, [over.best.ics]. Braces are not covered. -/
def conv : Src → Par → Option Ics
  | .braces _, _ => none
  | .span o, .span e => if o = e then some .exact else if isConvertible e (.span o) then some .user else none
  | s, .span e => if isConvertible e s then some .user else none
  | .pointer o, .cstr => if arrayConv o ⟨char, true⟩ then some .exact else none
  | .string _ ty, .string => if ty = char then some .exact else none
  | .pointer o, .string => if arrayConv o ⟨char, true⟩ then some .user else none
  | .view ty, .view => if ty = char then some .exact else none
  | .string _ ty, .view => if ty = char then some .user else none
  | .pointer o, .view => if arrayConv o ⟨char, true⟩ then some .user else none
  | .pointer o, .iter => if arrayConv o ⟨char, true⟩ then some .user else none
  | .view ty, .iter => if ty = char then some .user else none
  | .span o, .iter => if o = ⟨uint8_t, true⟩ then some .user else none
  | .array _ o, .array ty => if o = ⟨ty, false⟩ then some .exact else none
  | .vector _ ty, .vector u => if ty = u then some .exact else none
  | _, _ => none

/-- The parameter belongs to a template. -/
def Par.template : Par → Bool
  | .array _ => true
  | _ => false

/-- Of functions with one parameter, the one that a call means; `none`: the call does not compile, because no function is viable or none is the best. -/
def resolve (fs : List Par) (s : Src) : Option Par :=
  fs.find? fun p => match conv s p with
    | none => false
    | some a => fs.all fun q => decide (q = p) || match conv s q with
      | none => true
      | some b => a.better b || (a = b && !p.template && q.template)

/-- `make_string_view`, string.hpp 79-93. -/
def make_string_view : List Par := [.span ⟨char, true⟩, .span ⟨uint8_t, true⟩]

/-- `make_string` with one argument, string.hpp 49-150. The first one takes a format. -/
def make_string : List Par := [.cstr, .span ⟨char, true⟩, .span ⟨uint8_t, true⟩, .array char, .array uint8_t, .vector char, .vector uint8_t]

/-- `to_utf32`, unicode.hpp 106-159. -/
def to_utf32 : List Par := [.iter, .cstr, .string, .span ⟨uint8_t, true⟩, .span ⟨char, true⟩, .view]

/-- The constructors of `utf8_iterator`, unicode.hpp 54-76. -/
def utf8_iterator : List Par := [.span ⟨uint8_t, true⟩, .view, .cstr]

/-- `to_uint8_t`, span.hpp 627-637. -/
def to_uint8_t : List Par := [.span ⟨char, false⟩, .span ⟨char, true⟩]

/-- `to_char`, span.hpp 639-649. -/
def to_char : List Par := [.span ⟨uint8_t, false⟩, .span ⟨uint8_t, true⟩]

end SpanConv
end Utki
