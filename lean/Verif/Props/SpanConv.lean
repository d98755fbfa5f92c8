import Verif.Spec.SpanConv
/-!
# Conversions to spans (C123)
-/
namespace Utki
open Overload SpanConv Spec.SpanConv

namespace SpanConv

/-- The constructor that is meant. -/
def pick (e : Elem) : Src → Option Ctor
  | .pointer o => if o.ty = char then some .pointer else none
  | .array .lvalue o => if o = ⟨e.ty, false⟩ then some .arrayRef else none
  | .array _ o => if o = ⟨e.ty, false⟩ then some .constArrayRef else none
  | .vector .lvalue ty => if ty = e.ty then some .vectorRef else none
  | .vector _ ty => if ty = e.ty ∧ e.konst = true then some .constVector else none
  | .string .lvalue ty => if charLike ty then some .stringRef else if ty = e.ty ∧ e.konst = true then some .constString else none
  | .string _ ty => if ty = e.ty ∧ e.konst = true then some .constString else none
  | .view ty => if ty = e.ty ∧ e.konst = true then some .stringView else none
  | .span o => if o = e then some .copy else if o.ty = e.ty ∧ (o.konst = true → e.konst = true) then some .convert else none
  | .braces ty => if ty = e.ty then some .list else none

theorem chosen_eq (e : Elem) (s : Src) : chosen e s = pick e s := by
  obtain ⟨t, k⟩ := e
  unfold chosen
  simp only [ctors, List.find?, List.all_cons, List.all_nil]
  rcases s with ⟨o, ko⟩ | ⟨_ | _ | _, ⟨o, ko⟩⟩ | ⟨_ | _ | _, o⟩ | ⟨_ | _ | _, o⟩ | o | ⟨o, ko⟩ | o <;>
    simp only [binds, pick, arrayConv] <;> (try cases k) <;> (try cases ko) <;> (by_cases h : o = t) <;>
    (try subst h) <;> (try by_cases hc : charLike o = true) <;> (try by_cases hz : o = char) <;>
    simp_all [betterCtor, Ctor.template]

theorem make_eq (e : Elem) (o : Obj) :
    make e o = (pick e o.src).bind fun k => if arrayConv (pointee k o.src) e then some (o.addr, o.size) else none := by
  unfold make
  rw [chosen_eq]

theorem isConvertible_eq (e : Elem) (s : Src) : isConvertible e s = (pick e s).isSome := by
  unfold isConvertible
  rw [chosen_eq]

end SpanConv

/-- C123: a span that was made from an object refers to just the elements of this object (up to the terminating zero, for a pointer to characters), they are of the
type of the elements of the span, and elements that may not be changed through the expression it was made from cannot be changed through the span. -/
theorem C123_safe (e : Elem) (o : Obj) (a n : Nat) (h : make e o = some (a, n)) : a = o.addr ∧ n = o.size ∧ Fits (elements o.src) e := by
  obtain ⟨t, k⟩ := e
  obtain ⟨s, addr, size⟩ := o
  rw [make_eq] at h
  obtain ⟨c, hc, hb⟩ := Option.bind_eq_some_iff.mp h
  clear h
  simp only at hc hb
  split at hb
  case isFalse => cases hb
  case isTrue ha =>
    have h := Option.some.inj hb
    clear hb
    refine ⟨(congrArg Prod.fst h).symm, (congrArg Prod.snd h).symm, ?_⟩
    rcases s with ⟨o, ko⟩ | ⟨_ | _ | _, ⟨o, ko⟩⟩ | ⟨_ | _ | _, o⟩ | ⟨_ | _ | _, o⟩ | o | ⟨o, ko⟩ | o <;>
      simp only [pick] at hc <;> (try split at hc) <;> (try split at hc) <;> cases hc <;>
      simp_all [pointee, arrayConv, elements, Fits, changeable] <;> (try (cases ko <;> simp_all)) <;>
      exact of_decide_eq_true ha

/-- C123: and every span that can be expected can be made. -/
theorem C123_made (e : Elem) (o : Obj) (hu : ¬ Unusual o.src) (h : Fits (elements o.src) e) : make e o = some (o.addr, o.size) := by
  obtain ⟨t, k⟩ := e
  obtain ⟨s, addr, size⟩ := o
  rw [make_eq]
  obtain ⟨h1, h2⟩ := h
  have hch : ∀ ty, ¬ Unusual (.string .lvalue ty) → charLike ty = true := by
    intro ty h
    simp only [Unusual] at h
    simp only [charLike, Bool.or_eq_true, decide_eq_true_eq]
    rcases Classical.em (ty = char) with hc | hc
    · exact .inl (.inl (.inl hc))
    rcases Classical.em (ty = wchar_t) with hc' | hc'
    · exact .inl (.inl (.inr hc'))
    rcases Classical.em (ty = char16_t) with hc'' | hc''
    · exact .inl (.inr hc'')
    rcases Classical.em (ty = char32_t) with hc''' | hc'''
    · exact .inr hc'''
    exact absurd ⟨hc, hc', hc'', hc'''⟩ h
  rcases s with ⟨o, ko⟩ | ⟨_ | _ | _, ⟨o, ko⟩⟩ | ⟨_ | _ | _, o⟩ | ⟨_ | _ | _, o⟩ | o | ⟨o, ko⟩ | o <;>
    (try have hcl := hch _ hu) <;> clear hch <;>
    simp_all [pick, pointee, arrayConv, elements, changeable, Unusual] <;>
    (try (cases k <;> cases ko <;> simp_all))

/-- C123: `std::is_convertible` tells the truth about conversions to `span<e>` but for these: from any pointer to characters, and any changeable string, whatever
`e` is; and from an array, or list, that may only be read to a span that can change its elements. There it says yes, but the conversion does not compile. -/
theorem C123_convertible (e : Elem) (o : Obj) :
    (make e o).isSome = true ↔ isConvertible e o.src = true ∧ ¬ (∃ c, o.src = .pointer c ∧ ¬ Fits c e) ∧
      ¬ (∃ t, o.src = .string .lvalue t ∧ t ≠ e.ty) ∧
      ¬ (∃ c, o.src = .array c ⟨e.ty, false⟩ ∧ changeable c = false ∧ e.konst = false) ∧ ¬ (o.src = .braces e.ty ∧ e.konst = false) := by
  obtain ⟨t, k⟩ := e
  obtain ⟨s, addr, size⟩ := o
  rw [make_eq, isConvertible_eq]
  rcases s with ⟨o, ko⟩ | ⟨_ | _ | _, ⟨o, ko⟩⟩ | ⟨_ | _ | _, o⟩ | ⟨_ | _ | _, o⟩ | o | ⟨o, ko⟩ | o <;>
    simp only [pick] <;> (try split) <;> (try split) <;>
    simp_all [pointee, arrayConv, Fits, changeable] <;>
    (try (cases k <;> cases ko <;> simp_all)) <;> (try (cases k <;> simp_all)) <;>
    exact decide_eq_true_iff

/-- C123: `make_string_view` takes everything that consists of characters or bytes and shows just its elements; but a changeable `std::string`, and a pointer
to characters (also a string literal) do not compile: the call is ambiguous. -/
theorem C123_make_string_view (ty : Nat) (hty : ty = char ∨ ty = uint8_t) (o : Obj) (ht : TextOf ty o.src) :
    ((∃ e, o.src = .pointer e) ∨ o.src = .string .lvalue char → resolve make_string_view o.src = none) ∧
    ((∀ e, o.src ≠ .pointer e) → o.src ≠ .string .lvalue char →
      resolve make_string_view o.src = some (.span ⟨ty, true⟩) ∧ make ⟨ty, true⟩ o = some (o.addr, o.size)) := by
  obtain ⟨s, addr, size⟩ := o
  rcases hty with rfl | rfl <;>
    rcases s with ⟨o, _ | _⟩ | ⟨_ | _ | _, ⟨o, _ | _⟩⟩ | ⟨_ | _ | _, o⟩ | ⟨_ | _ | _, o⟩ | o | ⟨o, _ | _⟩ | o <;> cases ht <;>
    refine ⟨fun h => ?_, fun h1 h2 => ?_⟩ <;>
    first
    | rfl
    | exact ⟨rfl, rfl⟩
    | exact absurd rfl (h1 _)
    | exact absurd rfl h2
    | (rcases h with ⟨e, h⟩ | h <;> cases h)

/-- C123: the same for `make_string`; but a pointer to characters is the format of the text (C23), and a pointer to bytes does not compile. -/
theorem C123_make_string (ty : Nat) (hty : ty = char ∨ ty = uint8_t) (s : Src) (ht : TextOf ty s) :
    (s = .string .lvalue char → resolve make_string s = none) ∧
    ((∃ e, s = .pointer e) → resolve make_string s = if ty = char then some .cstr else none) ∧
    ((∀ e, s ≠ .pointer e) → s ≠ .string .lvalue char →
      resolve make_string s = some (.span ⟨ty, true⟩) ∨ resolve make_string s = some (.vector ty) ∨ resolve make_string s = some (.array ty)) := by
  rcases hty with rfl | rfl <;>
    rcases s with ⟨o, _ | _⟩ | ⟨_ | _ | _, ⟨o, _ | _⟩⟩ | ⟨_ | _ | _, o⟩ | ⟨_ | _ | _, o⟩ | o | ⟨o, _ | _⟩ | o <;> cases ht <;>
    refine ⟨fun h => ?_, fun h => ?_, fun h1 h2 => ?_⟩ <;>
    first
    | rfl
    | exact .inl rfl
    | exact .inr (.inl rfl)
    | exact .inr (.inr rfl)
    | exact absurd rfl (h1 _)
    | exact absurd rfl h2
    | (obtain ⟨e, h⟩ := h; cases h; done)
    | (cases h; done)

/-- C123: `to_utf32` takes all text and bytes, but for pointers to bytes; the overload is the one for the kind of text. -/
theorem C123_to_utf32 (s : Src) :
    (TextOf char s → resolve to_utf32 s = some (match s with
      | .pointer _ => .cstr
      | .string _ _ => .string
      | .view _ => .view
      | _ => .span ⟨char, true⟩)) ∧
    (TextOf uint8_t s → (∀ e, s ≠ .pointer e) → resolve to_utf32 s = some (.span ⟨uint8_t, true⟩)) := by
  refine ⟨fun ht => ?_, fun ht h => ?_⟩ <;>
    rcases s with ⟨o, _ | _⟩ | ⟨_ | _ | _, ⟨o, _ | _⟩⟩ | ⟨_ | _ | _, o⟩ | ⟨_ | _ | _, o⟩ | o | ⟨o, _ | _⟩ | o <;> cases ht <;>
    first
    | rfl
    | exact absurd rfl (h _)

/-- C123: a `utf8_iterator` can be made from any string, but for one that could be changed through the expression given: that is ambiguous. -/
theorem C123_utf8_iterator :
    resolve utf8_iterator (.string .lvalue char) = none ∧ resolve utf8_iterator (.string .clvalue char) = some .view ∧
    resolve utf8_iterator (.string .rvalue char) = some .view ∧ resolve utf8_iterator (.view char) = some .view ∧
    (∀ k, resolve utf8_iterator (.pointer ⟨char, k⟩) = some .cstr) ∧
    (∀ k, resolve utf8_iterator (.span ⟨uint8_t, k⟩) = some (.span ⟨uint8_t, true⟩)) :=
  ⟨rfl, rfl, rfl, rfl, fun k => by cases k <;> rfl, fun k => by cases k <;> rfl⟩

/-- C123: `to_uint8_t` and `to_char` keep the kind of span: whether its elements can be changed. -/
theorem C123_to_bytes (k : Bool) :
    resolve to_uint8_t (.span ⟨char, k⟩) = some (.span ⟨char, k⟩) ∧ resolve to_char (.span ⟨uint8_t, k⟩) = some (.span ⟨uint8_t, k⟩) := by
  cases k <;> exact ⟨rfl, rfl⟩

/-- A vector of numbers that can be changed: a span that can change them, or not. -/
example : make ⟨17, false⟩ ⟨.vector .lvalue 17, 1000, 5⟩ = some (1000, 5) ∧ make ⟨17, true⟩ ⟨.vector .lvalue 17, 1000, 5⟩ = some (1000, 5) ∧
    make ⟨17, false⟩ ⟨.vector .clvalue 17, 1000, 5⟩ = none ∧ make ⟨18, true⟩ ⟨.vector .lvalue 17, 1000, 5⟩ = none := by decide

/-- A list in braces, a string literal of 11 characters. -/
example : make ⟨17, true⟩ ⟨.braces 17, 1000, 3⟩ = some (1000, 3) ∧ make ⟨char, true⟩ ⟨.pointer ⟨char, true⟩, 2000, 11⟩ = some (2000, 11) ∧
    Fits (elements (.pointer ⟨char, true⟩)) ⟨char, true⟩ ∧ ¬ Unusual (.pointer ⟨char, true⟩) :=
  ⟨by decide, by decide, ⟨rfl, fun _ => rfl⟩, by simp [Unusual]⟩

/-- `std::is_convertible_v<char*, span<double>>` is true. -/
example : isConvertible ⟨17, false⟩ (.pointer ⟨char, false⟩) = true ∧ make ⟨17, false⟩ ⟨.pointer ⟨char, false⟩, 2000, 11⟩ = none := by decide

end Utki
