import Verif.Lemmas.FloatUnique
/-!
# The range of the floating-point formats

Helper lemmas.
-/
namespace Utki

open Spec Spec.BinFmt FastFloat

theorem numFormat_grammar (fmt : CharsFormat) : numFormat (to_fast_float_format fmt) = grammar fmt := by
  cases fmt <;> rfl

theorem litOf_longest {fmt : chars_format} {s : List Byte} (ha : Accept fmt (litOf fmt s)) :
    LongestLiteral (numFormat fmt) s (litOf fmt s) :=
  ⟨litOf_wf ha, litOf_prefix fmt s, fun _ hd hp => (literal_le hd hp).2⟩

theorem absVal_eq_zero (d : DecLit) : d.absVal = 0 ↔ decVal d.digits = 0 := by
  unfold DecLit.absVal
  rw [mul_eq_zero]
  constructor
  · rintro (h | h)
    · exact_mod_cast h
    · exact absurd h (by positivity)
  · intro h
    left
    exact_mod_cast h

theorem float_literal [Platform] {b : Format} {f : BinFmt} (F : FmtAll b f) {mode : RoundMode} {u : Fpu} (I : Ieee f mode u) {s : List Byte}
    {fmt : CharsFormat} {d : DecLit} (h : LongestLiteral (grammar fmt) s d) (hlen : d.digits.length + 1000 ≤ 2 ^ 28) :
    ∃ k, f.Nearest d.absVal k ∧
      from_chars_advanced b u s (to_fast_float_format fmt) = .ok ⟨some (f.signed d.neg k), d.text.length,
        if k = f.inf ∨ (k = 0 ∧ d.absVal ≠ 0) then .result_out_of_range else .none⟩ := by
  rw [← numFormat_grammar] at h
  obtain ⟨k, k1, k2⟩ := from_chars_literal F I h
  refine ⟨k, saturation_harmless F.ok h.1 (by norm_num at hlen ⊢; omega) k1, ?_⟩
  rw [k2]
  simp only [ne_eq, absVal_eq_zero]

/-- When a number is rounded to infinity. -/
theorem nearest_inf_iff {f : BinFmt} (hp : 1 ≤ f.p) (htop : 2 ≤ f.top) {x : ℚ} {k : Nat} (h : f.Nearest x k) :
    k = f.inf ↔ (2 - 2 ^ (-(f.p + 1 : ℤ))) * 2 ^ (f.top - f.bias - 1 : ℤ) ≤ x := by
  have hpp : 2 ≤ 2 ^ f.p := by
    calc 2 = 2 ^ 1 := rfl
      _ ≤ 2 ^ f.p := Nat.pow_le_pow_right (by norm_num) hp
  have e0 : (f.top - 1) * 2 ^ f.p + 2 ^ f.p = f.inf := by
    unfold BinFmt.inf
    conv_rhs => rw [show f.top = (f.top - 1) + 1 by omega, Nat.add_mul, one_mul]
  have e1 : (f.top - 2) * 2 ^ f.p + (2 ^ (f.p + 1) - 1) + 1 = f.inf := by
    unfold BinFmt.inf
    conv_rhs => rw [show f.top = (f.top - 2) + 2 by omega, Nat.add_mul]
    rw [pow_succ]
    omega
  obtain ⟨K, hK⟩ : ∃ K, K = (f.top - 2) * 2 ^ f.p + (2 ^ (f.p + 1) - 1) := ⟨_, rfl⟩
  rw [← hK] at e1
  have v1 : f.val f.inf = 2 * 2 ^ (f.top - f.bias - 1 : ℤ) := by
    have := val_cell f (f.top - 1) (2 ^ f.p) (.inl le_rfl) (Nat.pow_le_pow_right (by norm_num) (by omega))
    rw [e0] at this
    rw [this]
    push_cast
    rw [← zpow_natCast, ← zpow_add₀ (by norm_num), ← zpow_one_add₀ (by norm_num)]
    congr 1
    omega
  have v0 : f.val K = (2 - 2 ^ (-(f.p : ℤ))) * 2 ^ (f.top - f.bias - 1 : ℤ) := by
    have := val_cell f (f.top - 2) (2 ^ (f.p + 1) - 1) (.inl (by rw [pow_succ]; omega)) (by omega)
    rw [← hK] at this
    rw [this, Nat.cast_sub (by have : 0 < 2 ^ (f.p + 1) := by positivity
                               omega)]
    push_cast
    rw [show (((f.top - 2 : ℕ) : ℤ) + 1 - (f.bias : ℤ) - (f.p : ℤ)) = (f.top - f.bias - 1) + (-(f.p : ℤ)) by omega,
      zpow_add₀ (by norm_num), zpow_neg, zpow_natCast, pow_succ]
    have : (2 : ℚ) ^ f.p ≠ 0 := by positivity
    field_simp
  have e2 : (2 : ℚ) ^ (-(f.p : ℤ)) = 2 * 2 ^ (-(f.p + 1 : ℤ)) := by
    rw [← zpow_one_add₀ (by norm_num)]
    congr 1
    ring
  rw [e2] at v0
  have hlt := val_lt_succ f K
  rw [e1] at hlt
  have hmid : f.val K + f.val f.inf = 2 * ((2 - 2 ^ (-(f.p + 1 : ℤ))) * 2 ^ (f.top - f.bias - 1 : ℤ)) := by
    rw [v0, v1]; ring
  obtain ⟨y, hy⟩ : ∃ y : ℚ, y = (2 - 2 ^ (-(f.p + 1 : ℤ))) * 2 ^ (f.top - f.bias - 1 : ℤ) := ⟨_, rfl⟩
  rw [← hy] at hmid ⊢
  have heven : f.inf % 2 = 0 := by
    unfold BinFmt.inf
    rw [show f.p = (f.p - 1) + 1 by omega, pow_succ, ← mul_assoc]
    omega
  constructor
  · rintro rfl
    by_contra hc
    have := h.2 K (by omega) (by omega)
    rcases abs_cases (x - f.val f.inf) with ⟨a1, _⟩ | ⟨a1, _⟩ <;> rcases abs_cases (x - f.val K) with ⟨a2, _⟩ | ⟨a2, _⟩ <;>
      rw [a1, a2] at this <;> rcases this with h | ⟨h, _⟩ <;> linarith
  · intro hle
    refine h.unique f ?_
    rcases le_total (f.val f.inf) x with hx | hx
    · exact nearest_inf f hx
    · have := nearest_upper f (x := x) (k := K) (by omega) (by linarith) (by rw [e1]; exact hx)
      rw [e1] at this
      apply this
      rcases lt_or_eq_of_le hle with hl | hl
      · left; linarith
      · right; exact ⟨by linarith, by omega⟩

/-- When a number is rounded to zero. -/
theorem nearest_zero_iff {f : BinFmt} (hinf : 1 ≤ f.inf) {x : ℚ} (hx : 0 ≤ x) {k : Nat} (h : f.Nearest x k) :
    k = 0 ↔ x ≤ 2 ^ (-(f.bias + f.p : ℤ)) := by
  have v1 : f.val 1 = 2 * 2 ^ (-(f.bias + f.p : ℤ)) := by
    have v1 := val_cell f 0 1 (.inr rfl) (by have : 0 < 2 ^ (f.p + 1) := by positivity
                                             omega)
    rw [Nat.zero_mul, Nat.zero_add, Nat.cast_one, one_mul] at v1
    rw [v1, ← zpow_one_add₀ (by norm_num)]
    congr 1
    push_cast
    ring
  have v0 := val_zero f
  have hpos : (0 : ℚ) < 2 ^ (-(f.bias + f.p : ℤ)) := by positivity
  obtain ⟨y, hy⟩ : ∃ y : ℚ, y = 2 ^ (-(f.bias + f.p : ℤ)) := ⟨_, rfl⟩
  rw [← hy] at v1 hpos ⊢
  constructor
  · rintro rfl
    by_contra hc
    have := h.2 1 hinf (by norm_num)
    rw [v0] at this
    rcases abs_cases (x - 0) with ⟨a1, _⟩ | ⟨a1, _⟩ <;> rcases abs_cases (x - f.val 1) with ⟨a2, _⟩ | ⟨a2, _⟩ <;>
      rw [a1, a2] at this <;> rcases this with h | ⟨h, _⟩ <;> linarith
  · intro hle
    refine h.unique f (nearest_lower f (Nat.zero_le _) (by rw [v0]; exact hx) (by rw [Nat.zero_add, v1]; linarith) ?_)
    rw [Nat.zero_add, v0, v1]
    rcases lt_or_eq_of_le hle with hl | hl
    · left; linarith
    · right; exact ⟨by linarith, rfl⟩

theorem absVal_nonneg (d : DecLit) : 0 ≤ d.absVal := by
  unfold DecLit.absVal
  positivity

/-- The range of a format: the numbers that are neither too large nor, unless 0, too small. -/
theorem range_iff {f : BinFmt} (hp : 1 ≤ f.p) (htop : 2 ≤ f.top) (d : DecLit) {k : Nat} (h : f.Nearest d.absVal k) :
    (k = f.inf ∨ (k = 0 ∧ d.absVal ≠ 0)) ↔
      ((2 - 2 ^ (-(f.p + 1 : ℤ))) * 2 ^ (f.top - f.bias - 1 : ℤ) ≤ d.absVal ∨ (0 < d.absVal ∧ d.absVal ≤ 2 ^ (-(f.bias + f.p : ℤ)))) := by
  have h0 := absVal_nonneg d
  have hinf : 1 ≤ f.inf := by
    unfold BinFmt.inf
    have : 0 < 2 ^ f.p := by positivity
    nlinarith
  have hne : d.absVal ≠ 0 ↔ 0 < d.absVal := ⟨fun h => lt_of_le_of_ne h0 h.symm, ne_of_gt⟩
  rw [nearest_inf_iff hp htop h, nearest_zero_iff hinf h0 h, hne]
  tauto

end Utki
