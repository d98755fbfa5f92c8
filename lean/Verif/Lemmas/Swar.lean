import Verif.Model.FloatParse
import Verif.Spec.Decimal
import Mathlib.Tactic.IntervalCases
import Mathlib.Tactic.Ring
/-!
# Eight digits at a time

The two bit tricks of the scanner: recognising eight digit characters in a 64-bit word, and computing their value.
-/
namespace Utki.FastFloat
open Spec

theorem testBit_zero_iff (x k : Nat) : x.testBit k = false ↔ x / 2 ^ k % 2 = 0 := by
  rw [Nat.testBit_eq_decide_div_mod_eq, decide_eq_false_iff_not]; omega

theorem high_bits_iff (x : Nat) : x &&& 0x8080808080808080 = 0 ↔
    x / 2 ^ 7 % 2 = 0 ∧ x / 2 ^ 15 % 2 = 0 ∧ x / 2 ^ 23 % 2 = 0 ∧ x / 2 ^ 31 % 2 = 0 ∧
    x / 2 ^ 39 % 2 = 0 ∧ x / 2 ^ 47 % 2 = 0 ∧ x / 2 ^ 55 % 2 = 0 ∧ x / 2 ^ 63 % 2 = 0 := by
  simp only [← testBit_zero_iff]
  constructor
  · intro h
    have key : ∀ k, (0x8080808080808080).testBit k = true → x.testBit k = false := by
      intro k hk
      have : (x &&& 0x8080808080808080).testBit k = false := by rw [h, Nat.zero_testBit]
      rw [Nat.testBit_and, hk, Bool.and_true] at this
      exact this
    exact ⟨key _ (by decide), key _ (by decide), key _ (by decide), key _ (by decide), key _ (by decide), key _ (by decide),
      key _ (by decide), key _ (by decide)⟩
  · rintro ⟨h0, h1, h2, h3, h4, h5, h6, h7⟩
    apply Nat.eq_of_testBit_eq
    intro j
    rw [Nat.testBit_and, Nat.zero_testBit]
    rcases Nat.lt_or_ge j 64 with hj | hj
    · by_cases hc : (0x8080808080808080).testBit j = true
      · have : j = 7 ∨ j = 15 ∨ j = 23 ∨ j = 31 ∨ j = 39 ∨ j = 47 ∨ j = 55 ∨ j = 63 := by
          interval_cases j <;> first | omega | (exact absurd hc (by decide))
        rcases this with rfl | rfl | rfl | rfl | rfl | rfl | rfl | rfl <;> simp [*]
      · simp [hc]
    · have : (0x8080808080808080).testBit j = false := by
        apply Nat.testBit_lt_two_pow
        exact Nat.lt_of_lt_of_le (by decide : 0x8080808080808080 < 2 ^ 64) (Nat.pow_le_pow_right (by decide) hj)
      simp [this]

theorem or_bit_iff (a b k : Nat) : (a ||| b) / 2 ^ k % 2 = 0 ↔ a / 2 ^ k % 2 = 0 ∧ b / 2 ^ k % 2 = 0 := by
  simp only [← testBit_zero_iff, Nat.testBit_or, Bool.or_eq_false_iff]

/-- The fast test recognises exactly the words made of eight digits. -/
theorem is_made_iff (b0 b1 b2 b3 b4 b5 b6 b7 : Nat) (h0 : b0 < 256) (h1 : b1 < 256) (h2 : b2 < 256) (h3 : b3 < 256)
    (h4 : b4 < 256) (h5 : b5 < 256) (h6 : b6 < 256) (h7 : b7 < 256) {v : Nat}
    (hv : v = b0 + 256 * (b1 + 256 * (b2 + 256 * (b3 + 256 * (b4 + 256 * (b5 + 256 * (b6 + 256 * b7))))))) :
    is_made_of_eight_digits_fast v = true ↔
      (48 ≤ b0 ∧ b0 ≤ 57) ∧ (48 ≤ b1 ∧ b1 ≤ 57) ∧ (48 ≤ b2 ∧ b2 ≤ 57) ∧ (48 ≤ b3 ∧ b3 ≤ 57) ∧
      (48 ≤ b4 ∧ b4 ≤ 57) ∧ (48 ≤ b5 ∧ b5 ≤ 57) ∧ (48 ≤ b6 ∧ b6 ≤ 57) ∧ (48 ≤ b7 ∧ b7 ≤ 57) := by
  unfold is_made_of_eight_digits_fast
  rw [beq_iff_eq, high_bits_iff]
  simp only [or_bit_iff]
  constructor
  · rintro ⟨g0, g1, g2, g3, g4, g5, g6, g7⟩
    have k0 : 48 ≤ b0 ∧ b0 ≤ 57 := by clear g1 g2 g3 g4 g5 g6 g7; omega
    have k1 : 48 ≤ b1 ∧ b1 ≤ 57 := by clear g0 g2 g3 g4 g5 g6 g7; omega
    have k2 : 48 ≤ b2 ∧ b2 ≤ 57 := by clear g0 g1 g3 g4 g5 g6 g7; omega
    have k3 : 48 ≤ b3 ∧ b3 ≤ 57 := by clear g0 g1 g2 g4 g5 g6 g7; omega
    have k4 : 48 ≤ b4 ∧ b4 ≤ 57 := by clear g0 g1 g2 g3 g5 g6 g7; omega
    have k5 : 48 ≤ b5 ∧ b5 ≤ 57 := by clear g0 g1 g2 g3 g4 g6 g7; omega
    have k6 : 48 ≤ b6 ∧ b6 ≤ 57 := by clear g0 g1 g2 g3 g4 g5 g7; omega
    have k7 : 48 ≤ b7 ∧ b7 ≤ 57 := by clear g0 g1 g2 g3 g4 g5 g6; omega
    exact ⟨k0, k1, k2, k3, k4, k5, k6, k7⟩
  · rintro ⟨k0, k1, k2, k3, k4, k5, k6, k7⟩
    refine ⟨?_, ?_, ?_, ?_, ?_, ?_, ?_, ?_⟩ <;> omega

theorem and_mask (x : Nat) : x &&& 0x000000FF000000FF = x % 256 + 2 ^ 32 * (x / 2 ^ 32 % 256) := by
  have e : (0x000000FF000000FF : Nat) = (255 <<< 32) ||| 255 := by decide
  have h1 : x &&& 255 = x % 256 := Nat.and_two_pow_sub_one_eq_mod x 8
  have h2 : x &&& (255 <<< 32) = (x / 2 ^ 32 % 256) <<< 32 := by
    rw [← show (x >>> 32) &&& 255 = x / 2 ^ 32 % 256 by
      rw [Nat.shiftRight_eq_div_pow]; exact Nat.and_two_pow_sub_one_eq_mod _ 8]
    apply Nat.eq_of_testBit_eq
    intro i
    simp only [Nat.testBit_and, Nat.testBit_shiftLeft, Nat.testBit_shiftRight]
    by_cases hi : 32 ≤ i
    · simp [hi]
    · simp [hi]
  rw [e, Nat.and_or_distrib_left, h1, h2, ← Nat.shiftLeft_add_eq_or_of_lt (by omega), Nat.shiftLeft_eq]
  omega

theorem pair_split {y a b c : Nat} (ha : a < 256) (hb : b < 256) (h : y = a + 256 * b + 65536 * c) :
    y % 256 = a ∧ y / 2 ^ 16 = c := by omega

theorem pair_mul {A B C D : Nat} (hA : A ≤ 99) (hB : B ≤ 99) (hC : C ≤ 99) (hD : D ≤ 99) :
    ((A + 2 ^ 32 * B) * 0x000F424000000064 + (C + 2 ^ 32 * D) * 0x0000271000000001) % 2 ^ 64 / 2 ^ 32 % 2 ^ 32 =
      1000000 * A + 10000 * C + 100 * B + D := by
  obtain ⟨lo, hlo⟩ : ∃ lo, lo = 100 * A + C := ⟨_, rfl⟩
  obtain ⟨mid, hmid⟩ : ∃ mid, mid = 1000000 * A + 10000 * C + 100 * B + D := ⟨_, rfl⟩
  have e : (A + 2 ^ 32 * B) * 0x000F424000000064 + (C + 2 ^ 32 * D) * 0x0000271000000001 =
      (lo + 2 ^ 32 * mid) + 2 ^ 64 * (1000000 * B + 10000 * D) := by subst hlo hmid; omega
  rw [e, Nat.add_mul_mod_self_left, ← hmid]
  have h1 : lo < 2 ^ 32 := by omega
  have h2 : mid < 2 ^ 32 := by omega
  clear e hlo hmid
  omega

theorem le_99 {a b : Nat} (ha : a ≤ 9) (hb : b ≤ 9) : 10 * a + b ≤ 99 := by omega

/-- The value of eight digits. -/
theorem parse_eight (d0 d1 d2 d3 d4 d5 d6 d7 : Nat) (h0 : d0 ≤ 9) (h1 : d1 ≤ 9) (h2 : d2 ≤ 9) (h3 : d3 ≤ 9)
    (h4 : d4 ≤ 9) (h5 : d5 ≤ 9) (h6 : d6 ≤ 9) (h7 : d7 ≤ 9) {v : Nat}
    (hv : v = (48 + d0) + 256 * ((48 + d1) + 256 * ((48 + d2) + 256 * ((48 + d3) + 256 * ((48 + d4) + 256 * ((48 + d5) +
      256 * ((48 + d6) + 256 * (48 + d7)))))))) :
    parse_eight_digits_unrolled v =
      10000000 * d0 + 1000000 * d1 + 100000 * d2 + 10000 * d3 + 1000 * d4 + 100 * d5 + 10 * d6 + d7 := by
  -- the digits from position i on, and the pairs of digits from position i on
  have sfx : ∀ a b : Nat, ∃ x, x = a + 256 * b := fun _ _ => ⟨_, rfl⟩
  obtain ⟨x6, hx6⟩ := sfx d6 d7
  obtain ⟨x5, hx5⟩ := sfx d5 x6
  obtain ⟨x4, hx4⟩ := sfx d4 x5
  obtain ⟨x3, hx3⟩ := sfx d3 x4
  obtain ⟨x2, hx2⟩ := sfx d2 x3
  obtain ⟨x1, hx1⟩ := sfx d1 x2
  obtain ⟨x0, hx0⟩ := sfx d0 x1
  have bx : x0 < 2 ^ 60 ∧ x1 < 2 ^ 52 := by omega
  have e1 : (v + 2 ^ 64 - 0x3030303030303030) % 2 ^ 64 = x0 := by omega
  clear hv
  unfold parse_eight_digits_unrolled
  simp only [e1, Nat.shiftRight_eq_div_pow]
  have e2 : x0 / 2 ^ 8 = x1 := by omega
  have e3 : (x0 * 10 + x1) % 2 ^ 64 = x0 * 10 + x1 := Nat.mod_eq_of_lt (by omega)
  rw [e2, e3]
  obtain ⟨y6, hy6⟩ : ∃ y, y = x6 * 10 + d7 := ⟨_, rfl⟩
  obtain ⟨y4, hy4⟩ : ∃ y, y = x4 * 10 + x5 := ⟨_, rfl⟩
  obtain ⟨y2, hy2⟩ : ∃ y, y = x2 * 10 + x3 := ⟨_, rfl⟩
  obtain ⟨y0, hy0⟩ : ∃ y, y = x0 * 10 + x1 := ⟨_, rfl⟩
  rw [← hy0]
  have g6 : y6 = (10 * d6 + d7) + 256 * (10 * d7) := by omega
  have g4 : y4 = (10 * d4 + d5) + 256 * (10 * d5 + d6) + 65536 * y6 := by omega
  have g2 : y2 = (10 * d2 + d3) + 256 * (10 * d3 + d4) + 65536 * y4 := by omega
  have g0 : y0 = (10 * d0 + d1) + 256 * (10 * d1 + d2) + 65536 * y2 := by omega
  clear hx0 hx1 hx2 hx3 hx4 hx5 hx6 hy0 hy2 hy4 hy6 e1 e2 e3 bx
  have p0 := pair_split (show 10 * d0 + d1 < 256 by omega) (show 10 * d1 + d2 < 256 by omega) g0
  have p2 := pair_split (show 10 * d2 + d3 < 256 by omega) (show 10 * d3 + d4 < 256 by omega) g2
  have p4 := pair_split (show 10 * d4 + d5 < 256 by omega) (show 10 * d5 + d6 < 256 by omega) g4
  have p6 := pair_split (show 10 * d6 + d7 < 256 by omega) (show 10 * d7 < 256 by omega) (c := 0) (show y6 = _ by omega)
  have k04 : y0 / 2 ^ 32 = y4 := by rw [show (2 : Nat) ^ 32 = 2 ^ 16 * 2 ^ 16 by norm_num, ← Nat.div_div_eq_div_mul, p0.2, p2.2]
  have k26 : y2 / 2 ^ 32 = y6 := by rw [show (2 : Nat) ^ 32 = 2 ^ 16 * 2 ^ 16 by norm_num, ← Nat.div_div_eq_div_mul, p2.2, p4.2]
  rw [and_mask, and_mask, p0.2, k04, k26, p0.1, p2.1, p4.1, p6.1]
  rw [pair_mul (le_99 h0 h1) (le_99 h4 h5) (le_99 h2 h3) (le_99 h6 h7)]
  clear p0 p2 p4 p6 k04 k26 g0 g2 g4 g6
  omega

end Utki.FastFloat
