import Verif.Spec.Types
/-!
# Properties of the type functions (C89)
-/
namespace Utki
open Traits Spec

theorem removeConst_spec (t : Ty) : ¬ IsConst (removeConst t) ∧ (t = removeConst t ∨ t = constOf (removeConst t)) ∧
    (IsReference (removeConst t) ↔ IsReference t) ∧ (IsVolatile (removeConst t) ↔ IsVolatile t) := by
  match t with
  | .array n t =>
    obtain ⟨h1, h2, _, h4⟩ := removeConst_spec t
    refine ⟨h1, ?_, Iff.rfl, h4⟩
    rcases h2 with h | h
    · exact .inl (by rw [removeConst, ← h])
    · exact .inr (by rw [removeConst, constOf, ← h])
  | .named cv id =>
    obtain ⟨c, v⟩ := cv
    cases c <;> simp [removeConst, constOf, IsConst, IsReference, IsVolatile]
  | .enumeration cv s id =>
    obtain ⟨c, v⟩ := cv
    cases c <;> simp [removeConst, constOf, IsConst, IsReference, IsVolatile]
  | .pointer cv t =>
    obtain ⟨c, v⟩ := cv
    cases c <;> simp [removeConst, constOf, IsConst, IsReference, IsVolatile]
  | .spec cv templ args =>
    obtain ⟨c, v⟩ := cv
    cases c <;> simp [removeConst, constOf, IsConst, IsReference, IsVolatile]
  | .function id => simp [removeConst, IsConst, IsReference, IsVolatile]
  | .lref t => simp [removeConst, IsConst, IsReference, IsVolatile]
  | .rref t => simp [removeConst, IsConst, IsReference, IsVolatile]

/-- Taking away what is not there, or what was added, gives the type back. -/
theorem removeConst_unique (r : Ty) (h : ¬ IsConst r) : removeConst r = r ∧ removeConst (constOf r) = r := by
  match r with
  | .array n t =>
    obtain ⟨h1, h2⟩ := removeConst_unique t h
    exact ⟨by rw [removeConst, h1], by rw [constOf, removeConst, h2]⟩
  | .named cv id =>
    obtain ⟨c, v⟩ := cv
    cases c <;> simp_all [removeConst, constOf, IsConst]
  | .enumeration cv s id =>
    obtain ⟨c, v⟩ := cv
    cases c <;> simp_all [removeConst, constOf, IsConst]
  | .pointer cv t =>
    obtain ⟨c, v⟩ := cv
    cases c <;> simp_all [removeConst, constOf, IsConst]
  | .spec cv templ args =>
    obtain ⟨c, v⟩ := cv
    cases c <;> simp_all [removeConst, constOf, IsConst]
  | .function id => exact ⟨rfl, rfl⟩
  | .lref t => exact ⟨rfl, rfl⟩
  | .rref t => exact ⟨rfl, rfl⟩

/-- C89: `remove_const_reference_t<T>` is the one type `R` that is neither a reference nor `const` and for which `T` is `R`, `const R`, or
an lvalue or rvalue reference to one of them. -/
theorem C89_remove_const_reference (t r : Ty) (ht : IsType t) :
    remove_const_reference t = r ↔ ¬ IsReference r ∧ ¬ IsConst r ∧
      (t = r ∨ t = constOf r ∨ t = .lref r ∨ t = .lref (constOf r) ∨ t = .rref r ∨ t = .rref (constOf r)) := by
  unfold remove_const_reference
  constructor
  · rintro rfl
    obtain ⟨h1, h2, h3, _⟩ := removeConst_spec (removeReference t)
    have hr : ¬ IsReference (removeReference t) := by
      cases ht <;> first | assumption | exact not_false
    refine ⟨fun h => hr (h3.mp h), h1, ?_⟩
    cases ht <;> simp only [removeReference] at h2 ⊢ <;> rcases h2 with h | h <;> first
      | exact .inl h
      | exact .inr (.inl h)
      | exact .inr (.inr (.inl (congrArg Ty.lref h)))
      | exact .inr (.inr (.inr (.inl (congrArg Ty.lref h))))
      | exact .inr (.inr (.inr (.inr (.inl (congrArg Ty.rref h)))))
      | exact .inr (.inr (.inr (.inr (.inr (congrArg Ty.rref h)))))
  · rintro ⟨h1, h2, h3⟩
    obtain ⟨u1, u2⟩ := removeConst_unique r h2
    have hn : ∀ u, ¬ IsReference u → removeReference u = u := by
      intro u hu; cases u <;> first | rfl | exact absurd trivial hu
    have hc : ¬ IsReference (constOf r) := by
      cases r <;> first | exact not_false | exact h1
    rcases h3 with rfl | rfl | rfl | rfl | rfl | rfl
    · rw [hn _ h1, u1]
    · rw [hn _ hc, u2]
    · exact u1
    · exact u2
    · exact u1
    · exact u2

/-- C89: it is described as a replacement for `std::remove_cvref`, which removes `volatile` too; it does not: the result is volatile
exactly if the type, or the type referred to, is. -/
theorem C89_keeps_volatile (t : Ty) (ht : IsType t) :
    IsVolatile (remove_const_reference t) ↔ IsVolatile t ∨ (∃ u, (t = .lref u ∨ t = .rref u) ∧ IsVolatile u) := by
  unfold remove_const_reference
  rw [(removeConst_spec _).2.2.2]
  cases ht <;> simp [removeReference, IsVolatile]

/-- C89: `remove_const_pointer_t<T>` of a pointer, `const` and `volatile` ones included, is what it points to without `const`; only one
pointer is removed. Of any other type it is this type without `const`. -/
theorem C89_remove_const_pointer (t r : Ty) :
    remove_const_pointer t = r ↔ ¬ IsConst r ∧
      ((∃ cv u, t = .pointer cv u ∧ (u = r ∨ u = constOf r)) ∨ ((∀ cv u, t ≠ .pointer cv u) ∧ (t = r ∨ t = constOf r))) := by
  unfold remove_const_pointer
  constructor
  · rintro rfl
    obtain ⟨h1, h2, _, _⟩ := removeConst_spec (removePointer t)
    refine ⟨h1, ?_⟩
    cases t with
    | pointer cv u => exact .inl ⟨cv, u, rfl, h2⟩
    | _ => exact .inr ⟨by simp, h2⟩
  · rintro ⟨h1, h2⟩
    obtain ⟨u1, u2⟩ := removeConst_unique r h1
    rcases h2 with ⟨cv, u, rfl, rfl | rfl⟩ | ⟨hn, h⟩
    · exact u1
    · exact u2
    · have : removePointer t = t := by
        cases t <;> first | rfl | exact absurd rfl (hn _ _)
      rw [this]
      rcases h with rfl | rfl
      · exact u1
      · exact u2

/-- C89: `is_specialization_of_v<templ, T>` is true exactly if `T` is `templ<args...>` for some arguments; `const` and references to such
types are not counted. -/
theorem C89_is_specialization_of (templ : Nat) (t : Ty) :
    is_specialization_of templ t = true ↔ ∃ args, t = .spec ⟨false, false⟩ templ args := by
  cases t with
  | spec cv templ' args =>
    obtain ⟨c, v⟩ := cv
    cases c <;> cases v <;> simp [is_specialization_of]
    exact eq_comm
  | _ => simp [is_specialization_of]

/-- C89: `is_scoped_enum_v<T>` is true exactly for scoped enumerations, also `const` and `volatile` ones. -/
theorem C89_is_scoped_enum (t : Ty) : is_scoped_enum t = true ↔ ∃ cv id, t = .enumeration cv true id := by
  cases t with
  | enumeration cv s id => cases s <;> simp [is_scoped_enum, isEnum, convertsToUnderlying]
  | _ => simp [is_scoped_enum, isEnum]

/-- C89: `is_type_defined<T>` says whether `T::type` means anything, and `type_or_void_t<T>` is that type, or `void`. -/
theorem C89_type_or_void (member : Ty → Option Ty) (void t : Ty) :
    (∀ u, member t = some u → is_type_defined member t = true ∧ type_or_void member void t = u) ∧
    (member t = none → is_type_defined member t = false ∧ type_or_void member void t = void) := by
  constructor
  · intro u h; simp [is_type_defined, type_or_void, h]
  · intro h; simp [is_type_defined, type_or_void, h]

/-- `const T (&)[3]` with `T` a specialization; `const char* const volatile`. -/
example : IsType (.lref (.array 3 (.spec ⟨true, false⟩ 5 [.named ⟨false, false⟩ 1]))) ∧
    remove_const_reference (.lref (.array 3 (.spec ⟨true, false⟩ 5 [.named ⟨false, false⟩ 1]))) =
      .array 3 (.spec ⟨false, false⟩ 5 [.named ⟨false, false⟩ 1]) ∧
    remove_const_reference (.rref (.named ⟨true, true⟩ 1)) = .named ⟨false, true⟩ 1 ∧
    remove_const_pointer (.pointer ⟨true, true⟩ (.named ⟨true, false⟩ 1)) = .named ⟨false, false⟩ 1 ∧
    is_specialization_of 5 (.spec ⟨true, false⟩ 5 []) = false ∧ is_specialization_of 5 (.spec ⟨false, false⟩ 5 []) = true := by
  refine ⟨.lref _ (.array _ _ (.spec _ _ _ ?_) id (by simp)) id, rfl, rfl, rfl, rfl, rfl⟩
  intro t ht
  simp at ht
  subst ht
  exact .named _ _

/-- C89: the masks select what their names say, from every non-negative integer. -/
theorem C89_masks (x : Nat) :
    byte_bits = 8 ∧ nibble_bits = 4 ∧ bit_masks.length = 8 ∧
    x &&& byte_mask = x % 2 ^ 8 ∧ x &&& lower_nibble_mask = x % 2 ^ 4 ∧ x &&& upper_nibble_mask = (x / 2 ^ 4 % 2 ^ 4) * 2 ^ 4 ∧
    ∀ i (h : i < bit_masks.length), x &&& bit_masks[i] = if x.testBit i then 2 ^ i else 0 := by
  refine ⟨rfl, rfl, rfl, Nat.and_two_pow_sub_one_eq_mod x 8, Nat.and_two_pow_sub_one_eq_mod x 4, ?_, ?_⟩
  · apply Nat.eq_of_testBit_eq
    intro i
    simp only [upper_nibble_mask]
    rw [Nat.testBit_and, Nat.testBit_mul_two_pow, Nat.testBit_mod_two_pow, Nat.testBit_div_two_pow, show 0xf0 = (2 ^ 4 - 1) * 2 ^ 4 from rfl,
      Nat.testBit_mul_two_pow, Nat.testBit_two_pow_sub_one]
    by_cases h1 : 4 ≤ i <;> by_cases h2 : i - 4 < 4 <;> simp [h1, h2]
  · intro i h
    have hm : bit_masks[i] = 2 ^ i := by
      simp only [bit_masks, List.length_cons, List.length_nil] at h
      match i, h with
      | 0, _ | 1, _ | 2, _ | 3, _ | 4, _ | 5, _ | 6, _ | 7, _ => rfl
    rw [hm]
    apply Nat.eq_of_testBit_eq
    intro j
    rw [Nat.testBit_and, Nat.testBit_two_pow]
    by_cases hij : i = j
    · subst hij
      split <;> simp_all
    · split <;> simp [hij]

end Utki
