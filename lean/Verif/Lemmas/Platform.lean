import Verif.Model.EiselLemire
import Verif.Model.FloatParse
import Mathlib.Tactic.Ring
import Mathlib.Tactic.NormNum
import Mathlib.Algebra.Order.Group.Nat
/-!
# The code for different platforms computes the same

The emulations that fast_float uses where the compiler offers no intrinsic, and the byte order of the memory.
-/
namespace Utki.FastFloat

/-! ## Counting leading zeroes -/

/-- The bits of `x` between `k` and `2 * k`. -/
theorem and_high_mask {x k : Nat} (h : x < 2 ^ (2 * k)) : x &&& ((2 ^ k - 1) * 2 ^ k) = (x >>> k) <<< k := by
  apply Nat.eq_of_testBit_eq
  intro i
  rw [← Nat.shiftLeft_eq, Nat.testBit_and, Nat.testBit_shiftLeft, Nat.testBit_shiftLeft, Nat.testBit_shiftRight, Nat.testBit_two_pow_sub_one]
  by_cases hi : k ≤ i
  · rw [show k + (i - k) = i by omega]
    by_cases hi2 : i - k < k
    · simp [hi, hi2]
    · have : x.testBit i = false := Nat.testBit_lt_two_pow (lt_of_lt_of_le h (Nat.pow_le_pow_right (by norm_num) (by omega)))
      simp [this]
  · simp [hi]

/-- One step of the search for the highest bit. -/
theorem clz_step_spec {mask j : Nat} (hmask : mask = (2 ^ 2 ^ j - 1) * 2 ^ 2 ^ j) {x lb n : Nat} (hx0 : x ≠ 0) (hx : x < 2 ^ 2 ^ (j + 1))
    (hlb : lb % 2 ^ (j + 1) = 0) (hn : n = lb + x.log2) :
    (clz_step mask (2 ^ j) (x, lb)).1 ≠ 0 ∧ (clz_step mask (2 ^ j) (x, lb)).1 < 2 ^ 2 ^ j ∧
      (clz_step mask (2 ^ j) (x, lb)).2 % 2 ^ j = 0 ∧
      n = (clz_step mask (2 ^ j) (x, lb)).2 + (clz_step mask (2 ^ j) (x, lb)).1.log2 := by
  have e2 : 2 ^ (j + 1) = 2 * 2 ^ j := by rw [pow_succ]; ring
  rw [e2] at hx hlb
  obtain ⟨k, hk⟩ : ∃ k, k = 2 ^ j := ⟨_, rfl⟩
  have hkpos : 0 < k := by rw [hk]; exact Nat.two_pow_pos j
  rw [← hk] at hx hlb hmask e2 ⊢
  have hmod : lb % k = 0 := by
    have := Nat.mod_mod_of_dvd lb (Dvd.intro_left 2 rfl : k ∣ 2 * k)
    rw [hlb] at this
    simpa using this.symm
  have htest : x &&& mask ≠ 0 ↔ 2 ^ k ≤ x := by
    rw [hmask, and_high_mask hx, Nat.shiftLeft_eq, Nat.shiftRight_eq_div_pow]
    have hp : 0 < 2 ^ k := by positivity
    rw [Ne, Nat.mul_eq_zero, not_or, Nat.div_eq_zero_iff]
    omega
  unfold clz_step
  dsimp only
  by_cases h : 2 ^ k ≤ x
  · rw [if_pos (htest.2 h)]
    dsimp only
    have hor : lb ||| k = lb + k := by
      obtain ⟨q, hq⟩ := Nat.dvd_of_mod_eq_zero hlb
      have hlt : k < 2 ^ (j + 1) := by rw [e2]; omega
      rw [hq, ← e2]
      exact (Nat.two_pow_add_eq_or_of_lt hlt q).symm
    have hdiv : x >>> k ≠ 0 := by
      rw [Nat.shiftRight_eq_div_pow, Ne, Nat.div_eq_zero_iff]
      have hp : 0 < 2 ^ k := by positivity
      omega
    refine ⟨hdiv, ?_, by rw [hor]; simp [hmod], ?_⟩
    · rw [Nat.shiftRight_eq_div_pow]
      exact Nat.div_lt_of_lt_mul (by rw [← pow_add, ← two_mul]; exact hx)
    · rw [hor, hn]
      have : x.log2 = (x >>> k).log2 + k := by
        rw [Nat.log2_eq_iff hx0]
        have h1 : 2 ^ (x >>> k).log2 ≤ x >>> k := Nat.log2_self_le hdiv
        have h2 : x >>> k < 2 ^ ((x >>> k).log2 + 1) := Nat.lt_log2_self
        rw [Nat.shiftRight_eq_div_pow] at h1 h2 ⊢
        have hp : 0 < 2 ^ k := by positivity
        constructor
        · rw [pow_add]; exact (Nat.le_div_iff_mul_le hp).1 h1
        · rw [Nat.add_right_comm, pow_add]; exact (Nat.div_lt_iff_lt_mul hp).1 h2
      omega
  · rw [if_neg (fun hc => h (htest.1 hc))]
    exact ⟨hx0, by omega, hmod, hn⟩

theorem leading_zeroes_generic_eq {w : Nat} (h0 : w ≠ 0) (h : w < 2 ^ 64) : leading_zeroes_generic w = 63 - w.log2 := by
  unfold leading_zeroes_generic
  obtain ⟨s1, hs1⟩ : ∃ s, s = clz_step 0xffffffff00000000 32 (w, 0) := ⟨_, rfl⟩
  obtain ⟨s2, hs2⟩ : ∃ s, s = clz_step 0xffff0000 16 s1 := ⟨_, rfl⟩
  obtain ⟨s3, hs3⟩ : ∃ s, s = clz_step 0xff00 8 s2 := ⟨_, rfl⟩
  obtain ⟨s4, hs4⟩ : ∃ s, s = clz_step 0xf0 4 s3 := ⟨_, rfl⟩
  obtain ⟨s5, hs5⟩ : ∃ s, s = clz_step 0xc 2 s4 := ⟨_, rfl⟩
  obtain ⟨a1, a2, a3, a4⟩ := clz_step_spec (mask := 0xffffffff00000000) (j := 5) (by decide) (n := w.log2) (lb := 0) h0 (by simpa using h)
    (by decide) (by simp)
  rw [show (2 : Nat) ^ 5 = 32 by decide, ← hs1] at a1 a2 a3 a4
  obtain ⟨b1, b2, b3, b4⟩ := clz_step_spec (mask := 0xffff0000) (j := 4) (by decide) (x := s1.1) (lb := s1.2) a1 a2 a3 a4
  rw [show (2 : Nat) ^ 4 = 16 by decide, Prod.mk.eta, ← hs2] at b1 b2 b3 b4
  obtain ⟨c1, c2, c3, c4⟩ := clz_step_spec (mask := 0xff00) (j := 3) (by decide) (x := s2.1) (lb := s2.2) b1 b2 b3 b4
  rw [show (2 : Nat) ^ 3 = 8 by decide, Prod.mk.eta, ← hs3] at c1 c2 c3 c4
  obtain ⟨d1, d2, d3, d4⟩ := clz_step_spec (mask := 0xf0) (j := 2) (by decide) (x := s3.1) (lb := s3.2) c1 c2 c3 c4
  rw [show (2 : Nat) ^ 2 = 4 by decide, Prod.mk.eta, ← hs4] at d1 d2 d3 d4
  obtain ⟨e1, e2, e3, e4⟩ := clz_step_spec (mask := 0xc) (j := 1) (by decide) (x := s4.1) (lb := s4.2) d1 d2 d3 d4
  rw [show (2 : Nat) ^ 1 = 2 by decide, Prod.mk.eta, ← hs5] at e1 e2 e3 e4
  dsimp only
  rw [← hs1, ← hs2, ← hs3, ← hs4, ← hs5, e4]
  generalize s5.1 = x at *
  generalize s5.2 = lb at *
  clear a1 a2 a3 a4 b1 b2 b3 b4 c1 c2 c3 c4 d1 d2 d3 d4 hs1 hs2 hs3 hs4 hs5 s1 s2 s3 s4 s5
  have hor : lb ||| 1 = lb + 1 := by
    obtain ⟨q, hq⟩ := Nat.dvd_of_mod_eq_zero e3
    rw [hq]
    exact (Nat.two_pow_add_eq_or_of_lt (i := 1) (b := 1) (by decide) q).symm
  have hx : x = 1 ∨ x = 2 ∨ x = 3 := by omega
  rcases hx with rfl | rfl | rfl
  · rw [if_neg (by decide)]; simp [show Nat.log2 1 = 0 by decide]
  · rw [if_pos (by decide), hor]; simp [show Nat.log2 2 = 1 by decide]
  · rw [if_pos (by decide), hor]; simp [show Nat.log2 3 = 1 by decide]

/-! ## The product of two 64-bit numbers -/

theorem umul128_generic_eq {a b : Nat} (ha : a < 2 ^ 64) (hb : b < 2 ^ 64) :
    umul128_generic a b = { low := a * b % 2 ^ 64, high := a * b / 2 ^ 64 % 2 ^ 64 } := by
  obtain ⟨A, hA⟩ : ∃ A, A = a / 2 ^ 32 := ⟨_, rfl⟩
  obtain ⟨B, hB⟩ : ∃ B, B = a % 2 ^ 32 := ⟨_, rfl⟩
  obtain ⟨C, hC⟩ : ∃ C, C = b / 2 ^ 32 := ⟨_, rfl⟩
  obtain ⟨D, hD⟩ : ∃ D, D = b % 2 ^ 32 := ⟨_, rfl⟩
  have hA2 : A < 2 ^ 32 := by omega
  have hB2 : B < 2 ^ 32 := by omega
  have hC2 : C < 2 ^ 32 := by omega
  have hD2 : D < 2 ^ 32 := by omega
  have eA : (a >>> 32) % 2 ^ 32 = A := by rw [Nat.shiftRight_eq_div_pow, ← hA, Nat.mod_eq_of_lt hA2]
  have eC : (b >>> 32) % 2 ^ 32 = C := by rw [Nat.shiftRight_eq_div_pow, ← hC, Nat.mod_eq_of_lt hC2]
  have ea : a = A * 2 ^ 32 + B := by omega
  have eb : b = C * 2 ^ 32 + D := by omega
  have bound : ∀ x y, x < 2 ^ 32 → y < 2 ^ 32 → x * y ≤ (2 ^ 32 - 1) * (2 ^ 32 - 1) := by
    intro x y hx hy
    exact Nat.mul_le_mul (by omega) (by omega)
  have em : ∀ x y, x < 2 ^ 32 → y < 2 ^ 32 → emulu x y = x * y := by
    intro x y hx hy
    unfold emulu
    have := bound x y hx hy
    exact Nat.mod_eq_of_lt (by omega)
  have hprod : a * b = 2 ^ 64 * (A * C) + 2 ^ 32 * (A * D + B * C) + B * D := by rw [ea, eb]; ring
  have b1 := bound A C hA2 hC2
  have b2 := bound A D hA2 hD2
  have b3 := bound B C hB2 hC2
  have b4 := bound B D hB2 hD2
  unfold umul128_generic
  dsimp only
  rw [eA, eC, ← hB, ← hD, em A D hA2 hD2, em B D hB2 hD2, em B C hB2 hC2, em A C hA2 hC2, hprod]
  generalize A * C = ac at *
  generalize A * D = ad at *
  generalize B * C = bc at *
  generalize B * D = bd at *
  clear hprod ea eb eA eC hA hB hC hD ha hb bound em
  obtain ⟨s, hs⟩ : ∃ s, s = (ad + bc) % 2 ^ 64 := ⟨_, rfl⟩
  rw [← hs]
  obtain ⟨cr, hcr, hcr'⟩ : ∃ cr, cr = (decide (s < ad)).toNat ∧ s + 2 ^ 64 * cr = ad + bc := by
    refine ⟨_, rfl, ?_⟩
    by_cases h : s < ad
    · simp only [h, decide_true, Bool.toNat_true]; omega
    · simp only [h, decide_false, Bool.toNat_false]; omega
  rw [← hcr, Nat.shiftLeft_eq, Nat.shiftLeft_eq, Nat.shiftRight_eq_div_pow]
  obtain ⟨t, ht⟩ : ∃ t, t = (bd + s * 2 ^ 32 % 2 ^ 64) % 2 ^ 64 := ⟨_, rfl⟩
  rw [← ht]
  obtain ⟨cl, hcl, hcl'⟩ : ∃ cl, cl = (decide (t < bd)).toNat ∧ t + 2 ^ 64 * cl = bd + s * 2 ^ 32 % 2 ^ 64 := by
    refine ⟨_, rfl, ?_⟩
    by_cases h : t < bd
    · simp only [h, decide_true, Bool.toNat_true]; omega
    · simp only [h, decide_false, Bool.toNat_false]; omega
  rw [← hcl]
  have h1 : s * 2 ^ 32 % 2 ^ 64 = s % 2 ^ 32 * 2 ^ 32 := by omega
  have h2 : 2 ^ 64 * ac + 2 ^ 32 * (ad + bc) + bd = t + 2 ^ 64 * (ac + s / 2 ^ 32 + cr * 2 ^ 32 + cl) := by omega
  have ht2 : t < 2 ^ 64 := by rw [ht]; exact Nat.mod_lt _ (by norm_num)
  rw [h2, Nat.add_mul_mod_self_left, Nat.mod_eq_of_lt ht2, Nat.add_mul_div_left _ _ (by norm_num), Nat.div_eq_of_lt ht2, Nat.zero_add]

/-! ## Byte order -/

theorem and_byte (x k : Nat) : x &&& (0xFF * 2 ^ k) = x / 2 ^ k % 256 * 2 ^ k := by
  apply Nat.eq_of_testBit_eq
  intro i
  rw [show (256 : Nat) = 2 ^ 8 by decide, show (0xFF : Nat) = 2 ^ 8 - 1 by decide, ← Nat.shiftLeft_eq, ← Nat.shiftLeft_eq,
    ← Nat.shiftRight_eq_div_pow, Nat.testBit_and, Nat.testBit_shiftLeft, Nat.testBit_shiftLeft, Nat.testBit_mod_two_pow,
    Nat.testBit_shiftRight, Nat.testBit_two_pow_sub_one]
  by_cases hi : k ≤ i
  · rw [show k + (i - k) = i by omega]
    simp [hi, Bool.and_comm]
  · simp [hi]

theorem byteswap_eq {b0 b1 b2 b3 b4 b5 b6 b7 : Nat} (h0 : b0 < 256) (h1 : b1 < 256) (h2 : b2 < 256) (h3 : b3 < 256)
    (h4 : b4 < 256) (h5 : b5 < 256) (h6 : b6 < 256) (h7 : b7 < 256) :
    byteswap (256 * (256 * (256 * (256 * (256 * (256 * (256 * b0 + b1) + b2) + b3) + b4) + b5) + b6) + b7) =
      b0 + 256 * (b1 + 256 * (b2 + 256 * (b3 + 256 * (b4 + 256 * (b5 + 256 * (b6 + 256 * b7)))))) := by
  obtain ⟨v, hv⟩ : ∃ v, v = 256 * (256 * (256 * (256 * (256 * (256 * (256 * b0 + b1) + b2) + b3) + b4) + b5) + b6) + b7 := ⟨_, rfl⟩
  rw [← hv]
  have m7 : v &&& 0x00000000000000FF = b7 := by
    have := and_byte v 0
    rw [show 0xFF * 2 ^ 0 = 0x00000000000000FF by decide] at this
    rw [this, hv]; omega
  have m6 : v &&& 0x000000000000FF00 = b6 * 2 ^ 8 := by
    have := and_byte v 8
    rw [show 0xFF * 2 ^ 8 = 0x000000000000FF00 by decide] at this
    rw [this, hv]; omega
  have m5 : v &&& 0x0000000000FF0000 = b5 * 2 ^ 16 := by
    have := and_byte v 16
    rw [show 0xFF * 2 ^ 16 = 0x0000000000FF0000 by decide] at this
    rw [this, hv]; omega
  have m4 : v &&& 0x00000000FF000000 = b4 * 2 ^ 24 := by
    have := and_byte v 24
    rw [show 0xFF * 2 ^ 24 = 0x00000000FF000000 by decide] at this
    rw [this, hv]; omega
  have m3 : v &&& 0x000000FF00000000 = b3 * 2 ^ 32 := by
    have := and_byte v 32
    rw [show 0xFF * 2 ^ 32 = 0x000000FF00000000 by decide] at this
    rw [this, hv]; omega
  have m2 : v &&& 0x0000FF0000000000 = b2 * 2 ^ 40 := by
    have := and_byte v 40
    rw [show 0xFF * 2 ^ 40 = 0x0000FF0000000000 by decide] at this
    rw [this, hv]; omega
  have m1 : v &&& 0x00FF000000000000 = b1 * 2 ^ 48 := by
    have := and_byte v 48
    rw [show 0xFF * 2 ^ 48 = 0x00FF000000000000 by decide] at this
    rw [this, hv]; omega
  have m0 : v &&& 0xFF00000000000000 = b0 * 2 ^ 56 := by
    have := and_byte v 56
    rw [show 0xFF * 2 ^ 56 = 0xFF00000000000000 by decide] at this
    rw [this, hv]; omega
  unfold byteswap
  rw [m0, m1, m2, m3, m4, m5, m6, m7]
  clear m0 m1 m2 m3 m4 m5 m6 m7 hv
  simp only [Nat.shiftRight_eq_div_pow, Nat.shiftLeft_eq]
  have down : ∀ (b k j : Nat), b * 2 ^ (k + j) / 2 ^ j = 2 ^ k * b := by
    intro b k j
    rw [pow_add, ← mul_assoc, Nat.mul_div_cancel _ (Nat.two_pow_pos j), mul_comm]
  have up : ∀ (b k j : Nat), b < 256 → k + j ≤ 56 → b * 2 ^ k * 2 ^ j % 2 ^ 64 = 2 ^ (k + j) * b := by
    intro b k j hb hk
    rw [mul_assoc, ← pow_add, mul_comm, Nat.mod_eq_of_lt]
    have h1 : (2 : Nat) ^ (k + j) ≤ 2 ^ 56 := Nat.pow_le_pow_right (by norm_num) hk
    have h2 : 2 ^ (k + j) * b ≤ 2 ^ 56 * 255 := Nat.mul_le_mul h1 (by omega)
    omega
  have e0 : b0 * 2 ^ 56 / 2 ^ 56 = b0 := by have := down b0 0 56; rwa [pow_zero, one_mul] at this
  have e1 : b1 * 2 ^ 48 / 2 ^ 40 = 2 ^ 8 * b1 := down b1 8 40
  have e2 : b2 * 2 ^ 40 / 2 ^ 24 = 2 ^ 16 * b2 := down b2 16 24
  have e3 : b3 * 2 ^ 32 / 2 ^ 8 = 2 ^ 24 * b3 := down b3 24 8
  have e4 : b4 * 2 ^ 24 * 2 ^ 8 % 2 ^ 64 = 2 ^ 32 * b4 := up b4 24 8 h4 (by norm_num)
  have e5 : b5 * 2 ^ 16 * 2 ^ 24 % 2 ^ 64 = 2 ^ 40 * b5 := up b5 16 24 h5 (by norm_num)
  have e6 : b6 * 2 ^ 8 * 2 ^ 40 % 2 ^ 64 = 2 ^ 48 * b6 := up b6 8 40 h6 (by norm_num)
  have e7 : b7 * 2 ^ 56 % 2 ^ 64 = 2 ^ 56 * b7 := by have := up b7 0 56 h7 (by norm_num); rwa [pow_zero, mul_one, Nat.zero_add] at this
  rw [e0, e1, e2, e3, e4, e5, e6, e7]
  have step : ∀ (i x b : Nat), x < 2 ^ i → x ||| 2 ^ i * b = x + 2 ^ i * b := by
    intro i x b hx
    rw [Nat.or_comm, Nat.add_comm]
    exact (Nat.two_pow_add_eq_or_of_lt hx b).symm
  rw [step 8 _ _ (by omega), step 16 _ _ (by omega), step 24 _ _ (by omega), step 32 _ _ (by omega), step 40 _ _ (by omega),
    step 48 _ _ (by omega), step 56 _ _ (by omega)]
  omega

/-! ## What the rest of the code sees -/

variable [Platform]

theorem leading_zeroes_eq {w : Nat} (h0 : w ≠ 0) (h : w < 2 ^ 64) : leading_zeroes w = .ok (63 - w.log2) := by
  unfold leading_zeroes
  rw [if_neg h0, leading_zeroes_generic_eq h0 h]
  split <;> rfl

theorem full_multiplication_eq {a b : Nat} (ha : a < 2 ^ 64) (hb : b < 2 ^ 64) :
    full_multiplication a b = { low := a * b % 2 ^ 64, high := a * b / 2 ^ 64 % 2 ^ 64 } := by
  unfold full_multiplication
  rw [umul128_generic_eq ha hb]
  split <;> rfl

theorem read8_eq (pre t : List Byte) (c0 c1 c2 c3 c4 c5 c6 c7 : Byte) :
    read8_to_u64 (pre ++ c0 :: c1 :: c2 :: c3 :: c4 :: c5 :: c6 :: c7 :: t) pre.length =
      .ok (c0.toNat + 256 * (c1.toNat + 256 * (c2.toNat + 256 * (c3.toNat + 256 * (c4.toNat + 256 * (c5.toNat + 256 * (c6.toNat +
      256 * (c7.toNat)))))))) := by
  have hr : ∀ (k : Nat) (c : Byte), (c0 :: c1 :: c2 :: c3 :: c4 :: c5 :: c6 :: c7 :: t)[k]? = some c →
      rd (pre ++ c0 :: c1 :: c2 :: c3 :: c4 :: c5 :: c6 :: c7 :: t) (pre.length + k) = .ok c := by
    intro k c h
    unfold rd
    rw [List.getElem?_append_right (by omega), Nat.add_sub_cancel_left, h]
  have h0 := hr 0 c0 rfl
  have h1 := hr 1 c1 rfl
  have h2 := hr 2 c2 rfl
  have h3 := hr 3 c3 rfl
  have h4 := hr 4 c4 rfl
  have h5 := hr 5 c5 rfl
  have h6 := hr 6 c6 rfl
  have h7 := hr 7 c7 rfl
  generalize pre ++ c0 :: c1 :: c2 :: c3 :: c4 :: c5 :: c6 :: c7 :: t = s at *
  unfold read8_to_u64 memcpy64
  by_cases hb : Platform.big_endian = true
  · simp only [hb, if_true]
    simp only [readBE, Res.bind_eq, Nat.add_assoc, Nat.reduceAdd, Nat.add_zero] at *
    rw [h0, Res.ok_bind, h1, Res.ok_bind, h2, Res.ok_bind, h3, Res.ok_bind, h4, Res.ok_bind, h5, Res.ok_bind, h6, Res.ok_bind, h7]
    simp only [Res.ok_bind, Res.pure_eq, Nat.mul_zero, Nat.zero_add]
    rw [byteswap_eq (BitVec.isLt _) (BitVec.isLt _) (BitVec.isLt _) (BitVec.isLt _) (BitVec.isLt _) (BitVec.isLt _) (BitVec.isLt _)
      (BitVec.isLt _)]
  · simp only [hb, Bool.false_eq_true, if_false]
    simp only [readLE, Res.bind_eq, Nat.add_assoc, Nat.reduceAdd, Nat.add_zero] at *
    rw [h0, h1, h2, h3, h4, h5, h6, h7]
    simp only [Res.ok_bind, Res.pure_eq, Nat.mul_zero, Nat.add_zero]

end Utki.FastFloat
